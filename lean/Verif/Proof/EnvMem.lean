import Verif.Spec.EnvMem
import Mathlib.Data.List.Forall2
import Mathlib.Data.List.Nodup
/-! Lemmas on environments in memory. -/
set_option autoImplicit false
set_option linter.unusedSimpArgs false
namespace Minijail.EnvMem
open Spec

/-- The slots of an array that ends with NULL. -/
abbrev slotsOf (ps : List Nat) (rest : List (Option (Option Nat))) : List (Option (Option Nat)) := ps.map (fun p => some (some p)) ++ some none :: rest

theorem read_in {m : EMem} {a : Nat} {ps : List Nat} {rest : List (Option (Option Nat))} (h : m.cells a = some (.array (slotsOf ps rest))) {i : Nat} {p : Nat}
    (hi : ps[i]? = some p) : readSlot a i m = some (some p) := by
  have : i < ps.length := (List.getElem?_eq_some_iff.mp hi).1
  simp only [readSlot, h, slotsOf]
  rw [List.getElem?_append_left (by simpa using this)]
  simp [hi]

theorem read_end {m : EMem} {a : Nat} {ps : List Nat} {rest : List (Option (Option Nat))} (h : m.cells a = some (.array (slotsOf ps rest))) :
    readSlot a ps.length m = some none := by
  simp only [readSlot, h, slotsOf]
  rw [List.getElem?_append_right (by simp)]
  simp

theorem bound_of {m : EMem} {a : Nat} {ps : List Nat} {rest : List (Option (Option Nat))} (h : m.cells a = some (.array (slotsOf ps rest))) :
    ps.length + 1 ≤ bound a m := by
  simp only [bound, h, slotsOf]
  simp only [List.length_append, List.length_map, List.length_cons]
  omega

theorem text_at {m : EMem} {p : SPtr} {s : CStr} (h : TextAt m p s) : readText p m = some s := by
  obtain ⟨t, h1, h2⟩ := h
  simp only [readText, h1, ← h2]
  simp

theorem text_whole {m : EMem} {p : Nat} {s : CStr} (h : m.cells p = some (.text s)) : readText (p, 0) m = some s := by
  simp [readText, h]

theorem count_ok {m : EMem} {a : Nat} {ps : List Nat} {rest : List (Option (Option Nat))} (h : m.cells a = some (.array (slotsOf ps rest))) :
    ∀ (fuel i : Nat), i ≤ ps.length → ps.length < fuel + i → countFrom a m fuel i = some ps.length := by
  intro fuel
  induction fuel with
  | zero => intro i h1 h2; omega
  | succ fuel ih =>
    intro i h1 h2
    rw [countFrom]
    by_cases hi : i = ps.length
    · subst hi; rw [read_end h]
    · have hl : i < ps.length := by omega
      rw [read_in h (List.getElem?_eq_getElem hl)]
      exact ih (i + 1) (by omega) (by omega)

/-- The search gives what the list of strings gives. -/
theorem index_ok {m : EMem} {a : Nat} {ps : List Nat} {rest : List (Option (Option Nat))} {env : Env} {name : CStr}
    (h : m.cells a = some (.array (slotsOf ps rest))) (ht : List.Forall₂ (fun p e => m.cells p = some (.text e)) ps env) :
    ∀ (fuel i : Nat), i ≤ ps.length → ps.length < fuel + i →
      indexFrom a name m fuel i = match (env.drop i).findIdx? (named name) with
        | some k => some (true, i + k)
        | none => some (false, ps.length) := by
  have hlen := ht.length_eq
  intro fuel
  induction fuel with
  | zero => intro i h1 h2; omega
  | succ fuel ih =>
    intro i h1 h2
    rw [indexFrom]
    by_cases hi : i = ps.length
    · subst hi
      rw [read_end h, hlen, List.drop_length]
      simp
    · have hl : i < ps.length := by omega
      have hl' : i < env.length := by omega
      have hp : m.cells ps[i] = some (.text env[i]) := (List.forall₂_iff_get.mp ht).2 i hl hl'
      rw [read_in h (List.getElem?_eq_getElem hl)]
      simp only [text_whole hp]
      rw [List.drop_eq_getElem_cons hl', List.findIdx?_cons]
      by_cases hn : named name env[i] = true
      · rw [if_pos hn, if_pos hn]
        rfl
      · rw [if_neg hn, if_neg hn, ih (i + 1) (by omega) (by omega)]
        cases (env.drop (i + 1)).findIdx? (named name) with
        | none => rfl
        | some k => simp only [Option.map_some]; congr 2; omega

theorem index_env (env : Env) (name : CStr) : env.findIdx? (named name) = getenvIndex env name := rfl

/-- The search of the whole array. -/
theorem index_all {m : EMem} {a : Nat} {ps : List Nat} {rest : List (Option (Option Nat))} {env : Env} {name : CStr} {np : SPtr}
    (h : m.cells a = some (.array (slotsOf ps rest))) (ht : List.Forall₂ (fun p e => m.cells p = some (.text e)) ps env) (hn : TextAt m np name) :
    getenvIndexMem a np m = match getenvIndex env name with
        | some k => some (true, k)
        | none => some (false, env.length) := by
  rw [getenvIndexMem, text_at hn]
  dsimp only
  rw [index_ok h ht (bound a m) 0 (by omega) (by have := bound_of h; omega), List.drop_zero, index_env]
  cases getenvIndex env name with
  | none => rw [ht.length_eq]
  | some k => simp

theorem alloc_cases (fails : Nat → Bool) (o : EObj) (m : EMem) :
    (fails m.tries = true ∧ alloc fails o m = (none, { m with tries := m.tries + 1 })) ∨
    (fails m.tries = false ∧ alloc fails o m = (some m.brk, { cells := fun x => if x = m.brk then some o else m.cells x, brk := m.brk + 1, tries := m.tries + 1 })) := by
  unfold alloc
  cases h : fails m.tries with
  | true => exact .inl ⟨rfl, by simp⟩
  | false => exact .inr ⟨rfl, by simp⟩

/-- The strings of a part of the array are freed, one after the other. -/
theorem freeEntries_ok {a : Nat} {ps : List Nat} {rest : List (Option (Option Nat))} (ha : a ∉ ps) (hnd : ps.Nodup) :
    ∀ (fuel i : Nat) (m : EMem), m.cells a = some (.array (slotsOf ps rest)) → (∀ p ∈ ps.drop i, m.cells p ≠ none) → i ≤ ps.length → ps.length < fuel + i →
      ∃ m', freeEntries a fuel i m = .ok () m' ∧ m'.brk = m.brk ∧ ∀ x, m'.cells x = if x ∈ ps.drop i then none else m.cells x := by
  intro fuel
  induction fuel with
  | zero => intro i m _ _ h1 h2; omega
  | succ fuel ih =>
    intro i m h ht h1 h2
    rw [freeEntries]
    by_cases hi : i = ps.length
    · subst hi
      rw [read_end h]
      exact ⟨m, rfl, rfl, fun x => by simp⟩
    · have hl : i < ps.length := by omega
      rw [read_in h (List.getElem?_eq_getElem hl)]
      have hd : ps.drop i = ps[i] :: ps.drop (i + 1) := List.drop_eq_getElem_cons hl
      have hp : m.cells ps[i] ≠ none := ht ps[i] (hd ▸ List.mem_cons_self)
      have hne : ps[i] ≠ a := fun e => ha (e ▸ List.getElem_mem hl)
      have hnd' : (ps.drop i).Nodup := hnd.sublist (List.drop_sublist _ _)
      rw [hd, List.nodup_cons] at hnd'
      have hf : free (some ps[i]) m = .ok () (m.put ps[i] none) := by
        simp only [free]
        cases hc : m.cells ps[i] with
        | none => exact absurd hc hp
        | some o => rfl
      dsimp only
      rw [hf]
      obtain ⟨m', g1, g2, g3⟩ := ih (i + 1) (m.put ps[i] none) (by simp only [EMem.put]; rw [if_neg (Ne.symm hne)]; exact h)
        (fun p hp' => by
          have hq : p ≠ ps[i] := fun e => hnd'.1 (e ▸ hp')
          simp only [EMem.put]
          rw [if_neg hq]
          exact ht p (hd ▸ List.mem_cons_of_mem _ hp')) (by omega) (by omega)
      refine ⟨m', g1, g2, fun x => ?_⟩
      rw [g3 x, hd]
      simp only [EMem.put, List.mem_cons]
      by_cases hx : x ∈ ps.drop (i + 1)
      · rw [if_pos hx, if_pos (.inr hx)]
      · by_cases hx' : x = ps[i]
        · rw [if_neg hx, if_pos hx', if_pos (.inl hx')]
        · rw [if_neg hx, if_neg hx', if_neg (by rintro (h | h); exacts [hx' h, hx h])]

/-- The array of an environment is none of its strings. -/
theorem array_not_string {m : EMem} {a : Nat} {ps : List Nat} {slots : List (Option (Option Nat))} {env : Env} (h : m.cells a = some (.array slots))
    (ht : List.Forall₂ (fun p e => m.cells p = some (.text e)) ps env) : a ∉ ps := by
  intro hm
  obtain ⟨i, hi, rfl⟩ := List.getElem_of_mem hm
  have := (List.forall₂_iff_get.mp ht).2 i hi (by rw [← ht.length_eq]; exact hi)
  rw [List.get_eq_getElem] at this
  rw [h] at this
  cases this

theorem strings_there {m : EMem} {ps : List Nat} {env : Env} (ht : List.Forall₂ (fun p e => m.cells p = some (.text e)) ps env) : ∀ p ∈ ps, m.cells p ≠ none := by
  intro p hm
  obtain ⟨i, hi, rfl⟩ := List.getElem_of_mem hm
  have := (List.forall₂_iff_get.mp ht).2 i hi (by rw [← ht.length_eq]; exact hi)
  rw [List.get_eq_getElem] at this
  rw [this]
  simp

/-- Freeing an environment gives back what is its own. -/
theorem freeEnv_ok {base m : EMem} {a : Nat} {env : Env} (h : EnvOwned base m a env) : ∃ m', freeEnvMem (some a) m = .ok () m' ∧ m'.brk = m.brk ∧ SameCells m' base := by
  obtain ⟨-, hb, ps, rest, h1, h2, h3, h4, h5⟩ := h
  have ha := array_not_string h1 h2
  obtain ⟨m', g1, g2, g3⟩ := freeEntries_ok ha h3 (bound a m) 0 m h1 (by simpa using strings_there h2) (by omega) (by have := bound_of h1; omega)
  have hc : m'.cells a = some (.array (slotsOf ps rest)) := by rw [g3, if_neg (by simpa using ha)]; exact h1
  refine ⟨m'.put a none, ?_, g2, fun x => ?_⟩
  · rw [freeEnvMem, g1]
    simp only [E.bind, free, hc]
  · simp only [EMem.put]
    by_cases hx : x = a
    · rw [if_pos hx, hx, hb]
    · rw [if_neg hx, g3 x]
      simp only [List.drop_zero]
      by_cases hp : x ∈ ps
      · rw [if_pos hp, h4 x hp]
      · rw [if_neg hp, h5 x hx hp]

/-- `EnvOwned` with its pointers. -/
structure Own (base m : EMem) (a : Nat) (ps : List Nat) (rest : List (Option (Option Nat))) (env : Env) : Prop where
  ord : EnvOrdinary m
  new : base.cells a = none
  arr : m.cells a = some (.array (slotsOf ps rest))
  txt : List.Forall₂ (fun p e => m.cells p = some (.text e)) ps env
  nd : ps.Nodup
  fresh : ∀ p ∈ ps, base.cells p = none
  same : ∀ x, x ≠ a → x ∉ ps → m.cells x = base.cells x

theorem owned_iff {base m : EMem} {a : Nat} {env : Env} : EnvOwned base m a env ↔ ∃ ps rest, Own base m a ps rest env := by
  constructor
  · rintro ⟨h1, h2, ps, rest, h3, h4, h5, h6, h7⟩
    exact ⟨ps, rest, h1, h2, h3, h4, h5, h6, h7⟩
  · rintro ⟨ps, rest, h1, h2, h3, h4, h5, h6, h7⟩
    exact ⟨h1, h2, ps, rest, h3, h4, h5, h6, h7⟩

theorem forall_text {m m' : EMem} {ps : List Nat} {env : Env} (ht : List.Forall₂ (fun p e => m.cells p = some (.text e)) ps env)
    (h : ∀ p ∈ ps, m'.cells p = m.cells p) : List.Forall₂ (fun p e => m'.cells p = some (.text e)) ps env := by
  induction ht with
  | nil => exact .nil
  | cons h1 _ ih => exact .cons (by rw [h _ (by simp)]; exact h1) (ih fun p hp => h p (by simp [hp]))

theorem own_congr {base m m' : EMem} {a : Nat} {ps : List Nat} {rest : List (Option (Option Nat))} {env : Env} (o : Own base m a ps rest env)
    (h : ∀ x, m'.cells x = m.cells x) (hb : m.brk ≤ m'.brk) : Own base m' a ps rest env where
  ord := fun x hx => by rw [h]; exact o.ord x (by omega)
  new := o.new
  arr := by rw [h]; exact o.arr
  txt := forall_text o.txt fun p _ => h p
  nd := o.nd
  fresh := o.fresh
  same := fun x h1 h2 => by rw [h]; exact o.same x h1 h2

theorem own_used {base m : EMem} {a : Nat} {ps : List Nat} {rest : List (Option (Option Nat))} {env : Env} (o : Own base m a ps rest env) {x : Nat}
    (h : base.cells x ≠ none) : x ≠ a ∧ x ∉ ps ∧ m.cells x = base.cells x := by
  have h1 : x ≠ a := fun e => h (e ▸ o.new)
  have h2 : x ∉ ps := fun hm => h (o.fresh x hm)
  exact ⟨h1, h2, o.same x h1 h2⟩

/-- An address that has not been given out is no part of the environment. -/
theorem own_brk {base m : EMem} {a : Nat} {ps : List Nat} {rest : List (Option (Option Nat))} {env : Env} (o : Own base m a ps rest env) {x : Nat} (hx : m.brk ≤ x) :
    x ≠ a ∧ x ∉ ps ∧ base.cells x = none := by
  have h0 := o.ord x hx
  have h1 : x ≠ a := fun e => by rw [e, o.arr] at h0; cases h0
  have h2 : x ∉ ps := fun hm => strings_there o.txt x hm h0
  exact ⟨h1, h2, by rw [← o.same x h1 h2]; exact h0⟩

theorem own_text {base m : EMem} {a : Nat} {ps : List Nat} {rest : List (Option (Option Nat))} {env : Env} (o : Own base m a ps rest env) {p : SPtr} {s : CStr}
    (h : TextAt base p s) : TextAt m p s := by
  obtain ⟨t, h1, h2⟩ := h
  exact ⟨t, by rw [(own_used o (by rw [h1]; simp)).2.2]; exact h1, h2⟩

/-! ### Copying -/

theorem set_room (ps : List Nat) (k : Nat) (x : Option (Option Nat)) (rest : List (Option (Option Nat))) :
    (slotsOf ps (x :: rest)).set ps.length (some (some k)) = ps.map (fun p => some (some p)) ++ some (some k) :: x :: rest := by
  have := List.set_append_right (s := ps.map fun p => some (some p)) (t := some none :: x :: rest) (i := ps.length) (some (some k)) (by simp)
  rw [slotsOf, this]
  simp

theorem copy_loop {fails : Nat → Bool} {base : EMem} {a c : Nat} {ps : List Nat} {rest : List (Option (Option Nat))} {env : Env}
    (hs : base.cells a = some (.array (slotsOf ps rest))) (ht : List.Forall₂ (fun p e => base.cells p = some (.text e)) ps env) :
    ∀ (fuel : Nat) (i : Nat) (qs : List Nat) (m : EMem), i ≤ ps.length → ps.length < fuel + i → qs.length = i →
      Own base m c qs (List.replicate (ps.length - i) (some none)) (env.take i) →
      ∃ done m', copyEntries fails a c fuel i m = .ok done m' ∧ (done = false → ∃ n, fails n = true) ∧
        ∃ qs' rest' k, Own base m' c qs' rest' (env.take k) ∧ (done = true → env.take k = env) := by
  have hlen := ht.length_eq
  intro fuel
  induction fuel with
  | zero => intro i qs m h1 h2; omega
  | succ fuel ih =>
    intro i qs m h1 h2 hq o
    have ha := own_used o (x := a) (by rw [hs]; simp)
    rw [copyEntries]
    by_cases hi : i = ps.length
    · subst hi
      have hr : readSlot a ps.length m = some none := read_end (ha.2.2.trans hs)
      rw [hr]
      exact ⟨true, m, rfl, by simp, qs, _, _, o, fun _ => by rw [hlen]; simp⟩
    · have hl : i < ps.length := by omega
      have hl' : i < env.length := by omega
      have hp : base.cells ps[i] = some (.text env[i]) := (List.forall₂_iff_get.mp ht).2 i hl hl'
      rw [read_in (ha.2.2.trans hs) (List.getElem?_eq_getElem hl)]
      have hp' : m.cells ps[i] = some (.text env[i]) := (own_used o (by rw [hp]; simp)).2.2.trans hp
      simp only [text_whole hp']
      have hrep : List.replicate (ps.length - i) (some (none : Option Nat)) = some none :: List.replicate (ps.length - (i + 1)) (some none) := by
        rw [← List.replicate_succ]; congr 1; omega
      rw [hrep] at o
      rcases alloc_cases fails (.text env[i]) m with ⟨hf, e⟩ | ⟨hf, e⟩
      · rw [e]
        have hw : writeSlot c i none { m with tries := m.tries + 1 } = .ok () (({ m with tries := m.tries + 1 } : EMem).put c (some (.array (slotsOf qs (some none :: List.replicate (ps.length - (i + 1)) (some none)))))) := by
          simp only [writeSlot, o.arr]
          rw [if_pos (by simp [hq])]
          congr 4
          have := List.set_append_right (s := qs.map fun p => some (some p)) (t := some none :: some none :: List.replicate (ps.length - (i + 1)) (some none)) (i := i) (some (none : Option Nat)) (by simp [hq])
          rw [slotsOf, this]
          simp [hq]
        dsimp only
        rw [hw]
        refine ⟨false, _, rfl, fun _ => ⟨_, hf⟩, qs, _, i, own_congr o ?_ (Nat.le_refl _), by simp⟩
        intro x
        simp only [EMem.put]
        split
        · rename_i hx; rw [hx, o.arr]
        · rfl
      · rw [e]
        have hk := own_brk o (Nat.le_refl m.brk)
        have hw : writeSlot c i (some m.brk) { cells := fun x => if x = m.brk then some (.text env[i]) else m.cells x, brk := m.brk + 1, tries := m.tries + 1 } =
            .ok () (EMem.put { cells := fun x => if x = m.brk then some (.text env[i]) else m.cells x, brk := m.brk + 1, tries := m.tries + 1 } c
              (some (.array (slotsOf (qs ++ [m.brk]) (List.replicate (ps.length - (i + 1)) (some none)))))) := by
          simp only [writeSlot]
          rw [if_neg (Ne.symm hk.1), o.arr]
          dsimp only
          rw [if_pos (by simp [hq])]
          congr 4
          rw [← hq, set_room]
          simp [slotsOf]
        dsimp only
        rw [hw]
        simp only [E.bind]
        rw [if_neg (by simp)]
        refine ih (i + 1) (qs ++ [m.brk]) _ (by omega) (by omega) (by simp [hq]) ?_
        have hc : ∀ x, x ≠ c → x ≠ m.brk → (EMem.put { cells := fun x => if x = m.brk then some (.text env[i]) else m.cells x, brk := m.brk + 1, tries := m.tries + 1 } c
              (some (.array (slotsOf (qs ++ [m.brk]) (List.replicate (ps.length - (i + 1)) (some none)))))).cells x = m.cells x := by
          intro x h1 h2
          simp only [EMem.put]
          rw [if_neg h1, if_neg h2]
        have hcq : c ∉ qs := array_not_string o.arr o.txt
        constructor
        · intro x hx
          have hx : m.brk + 1 ≤ x := hx
          rw [hc x (own_brk o (x := x) (by omega)).1 (by omega)]
          exact o.ord x (by omega)
        · exact o.new
        · simp [EMem.put]
        · rw [List.take_succ_eq_append_getElem hl']
          refine List.rel_append (forall_text o.txt fun p hp => hc p (fun e => hcq (e ▸ hp)) (fun e => hk.2.1 (e ▸ hp))) (.cons ?_ .nil)
          simp only [EMem.put]
          rw [if_neg hk.1]
          simp
        · rw [List.nodup_append]
          refine ⟨o.nd, by simp, ?_⟩
          intro x hx y hy e
          simp only [List.mem_singleton] at hy
          exact hk.2.1 (hy ▸ e ▸ hx)
        · intro p hp
          simp only [List.mem_append, List.mem_singleton] at hp
          rcases hp with hp | rfl
          · exact o.fresh p hp
          · exact hk.2.2
        · intro x h1 h2
          simp only [List.mem_append, List.mem_singleton, not_or] at h2
          rw [hc x h1 h2.2]
          exact o.same x h1 h2.1

/-- The copy holds the same strings, in memory of its own; or there is none, and memory is as it was. -/
theorem copy_ok {fails : Nat → Bool} {m : EMem} (hm : EnvOrdinary m) {a : Nat} {env : Env} (h : EnvReads m a env) :
    (∃ m', copyEnvMem fails (some a) m = .ok none m' ∧ SameCells m' m ∧ ∃ n, fails n = true) ∨
    ∃ b m', copyEnvMem fails (some a) m = .ok (some b) m' ∧ EnvOwned m m' b env := by
  obtain ⟨ps, rest, h1, h2⟩ := h
  have hb := bound_of h1
  rw [copyEnvMem]
  dsimp only
  rw [count_ok h1 (bound a m) 0 (by omega) (by omega)]
  dsimp only
  rcases alloc_cases fails (.array (List.replicate (ps.length + 1) (some none))) m with ⟨hf, e⟩ | ⟨hf, e⟩
  · rw [e]
    exact .inl ⟨_, rfl, fun _ => rfl, _, hf⟩
  · rw [e]
    dsimp only
    have o : Own m { cells := fun x => if x = m.brk then some (.array (List.replicate (ps.length + 1) (some none))) else m.cells x, brk := m.brk + 1, tries := m.tries + 1 }
        m.brk [] (List.replicate (ps.length - 0) (some none)) (env.take 0) := by
      constructor
      · intro x hx
        have hx : m.brk + 1 ≤ x := hx
        dsimp only
        rw [if_neg (by omega)]
        exact hm x (by omega)
      · exact hm _ (Nat.le_refl _)
      · simp [slotsOf, List.replicate_succ]
      · simp
      · simp
      · simp
      · intro x hx _
        dsimp only
        rw [if_neg hx]
    obtain ⟨done, m', g1, g2, qs', rest', k, g3, g4⟩ := copy_loop (fails := fails) h1 h2 (bound a m) 0 [] _ (by omega) (by omega) rfl o
    rw [g1]
    cases done with
    | true =>
      refine .inr ⟨m.brk, m', by simp [E.bind], owned_iff.mpr ⟨qs', rest', ?_⟩⟩
      rw [g4 rfl] at g3
      exact g3
    | false =>
      left
      obtain ⟨m2, f1, -, f3⟩ := freeEnv_ok (owned_iff.mpr ⟨qs', rest', g3⟩)
      refine ⟨m2, ?_, f3, g2 rfl⟩
      simp [E.bind, f1]

/-! ### Setting -/

theorem take_room (ps : List Nat) (rest : List (Option (Option Nat))) : ∃ r,
    (slotsOf ps rest).take (ps.length + 2) ++ List.replicate (ps.length + 2 - (slotsOf ps rest).length) none = ps.map (fun p => some (some p)) ++ [some none, r] := by
  cases rest with
  | nil =>
    refine ⟨none, ?_⟩
    rw [List.take_of_length_le (by simp [slotsOf])]
    simp [slotsOf]
  | cons r rest =>
    refine ⟨r, ?_⟩
    have : ps.length + 2 - (slotsOf ps (r :: rest)).length = 0 := by simp only [slotsOf, List.length_append, List.length_map, List.length_cons]; omega
    rw [this]
    have h2 : List.take (ps.length + 2) (ps.map fun p => some (some p)) = ps.map fun p => some (some p) := List.take_of_length_le (by simp)
    simp [slotsOf, List.take_append, h2]

/-- A new string at the end of the array. -/
theorem append_ok {fails : Nat → Bool} {base m : EMem} {a : Nat} {ps : List Nat} {rest : List (Option (Option Nat))} {env : Env} (o : Own base m a ps rest env) (e : CStr) (t : Nat) :
    ∃ b m', appendEntry fails a ps.length m.brk { cells := fun x => if x = m.brk then some (.text e) else m.cells x, brk := m.brk + 1, tries := t } =
        .ok ((if b = a then .enomem else .ok), some b) m' ∧
      (b = a → (∃ n, fails n = true) ∧ EnvOwned base m' a env) ∧ (b ≠ a → EnvOwned base m' b (env ++ [e])) := by
  have hk := own_brk o (Nat.le_refl m.brk)
  have hk1 := own_brk o (x := m.brk + 1) (by omega)
  have hap := array_not_string o.arr o.txt
  rw [appendEntry, realloc]
  dsimp only
  rw [if_neg (Ne.symm hk.1), o.arr]
  dsimp only
  obtain ⟨r, hr⟩ := take_room ps rest
  rw [hr]
  rcases alloc_cases fails (.array (ps.map (fun p => some (some p)) ++ [some none, r])) { cells := fun x => if x = m.brk then some (.text e) else m.cells x, brk := m.brk + 1, tries := t } with ⟨hf, ea⟩ | ⟨hf, ea⟩
  · rw [ea]
    refine ⟨a, EMem.put { cells := fun x => if x = m.brk then some (.text e) else m.cells x, brk := m.brk + 1, tries := t + 1 } m.brk none, ?_, fun _ => ⟨⟨_, hf⟩, ?_⟩, fun h => absurd rfl h⟩
    · simp [E.bind, free]
    · refine owned_iff.mpr ⟨ps, rest, own_congr o (fun x => ?_) (Nat.le_succ _)⟩
      simp only [EMem.put]
      by_cases hx : x = m.brk
      · rw [if_pos hx, hx, o.ord _ (Nat.le_refl _)]
      · rw [if_neg hx, if_neg hx]
  · rw [ea]
    refine ⟨m.brk + 1, { cells := fun x => if x = m.brk + 1 then some (.array (slotsOf (ps ++ [m.brk]) [])) else if x = a then none else if x = m.brk then some (.text e) else m.cells x,
                         brk := m.brk + 2, tries := t + 1 }, ?_, fun h => absurd h hk1.1, fun _ => owned_iff.mpr ⟨ps ++ [m.brk], [], ?_⟩⟩
    · rw [if_neg hk1.1]
      have h1 : (ps.map (fun p => some (some p)) ++ [some none, r]).set ps.length (some (some m.brk)) = ps.map (fun p => some (some p)) ++ [some (some m.brk), r] := by
        rw [List.set_append_right _ _ (by simp)]
        simp
      have h2 : (ps.map (fun p => some (some p)) ++ [some (some m.brk), r]).set (ps.length + 1) (some none) = slotsOf (ps ++ [m.brk]) [] := by
        rw [List.set_append_right _ _ (by simp)]
        simp [slotsOf]
      simp only [E.bind, EMem.put, writeSlot]
      rw [if_neg hk1.1]
      simp only [if_true]
      rw [if_pos (by simp)]
      simp only [if_true, h1]
      rw [if_pos (by simp)]
      simp only [h2]
      congr 2
      funext x
      by_cases hx : x = m.brk + 1
      · simp [hx]
      · simp [hx]
    · have hc : ∀ x, x ≠ a → x ≠ m.brk → x ≠ m.brk + 1 → (if x = m.brk + 1 then some (EObj.array (slotsOf (ps ++ [m.brk]) [])) else if x = a then none else if x = m.brk then some (.text e) else m.cells x) = m.cells x := by
        intro x h1 h2 h3
        rw [if_neg h3, if_neg h1, if_neg h2]
      constructor
      · intro x hx
        have hx : m.brk + 2 ≤ x := hx
        dsimp only
        rw [hc x (own_brk o (x := x) (by omega)).1 (by omega) (by omega)]
        exact o.ord x (by omega)
      · exact hk1.2.2
      · simp
      · refine List.rel_append (forall_text o.txt fun p hp => hc p (fun e => hap (e ▸ hp)) (fun e => hk.2.1 (e ▸ hp)) (fun e => hk1.2.1 (e ▸ hp))) (.cons ?_ .nil)
        dsimp only
        rw [if_neg (by omega), if_neg hk.1, if_pos rfl]
      · rw [List.nodup_append]
        refine ⟨o.nd, by simp, ?_⟩
        intro x hx y hy e
        simp only [List.mem_singleton] at hy
        exact hk.2.1 (hy ▸ e ▸ hx)
      · intro p hp
        simp only [List.mem_append, List.mem_singleton] at hp
        rcases hp with hp | rfl
        · exact o.fresh p hp
        · exact hk.2.2
      · intro x h1 h2
        simp only [List.mem_append, List.mem_singleton, not_or] at h2
        dsimp only
        by_cases hx : x = a
        · rw [if_neg h1, if_pos hx, hx, o.new]
        · rw [hc x hx h2.2 h1]
          exact o.same x hx h2.1

theorem forall_set {α β : Type} {R S : α → β → Prop} : ∀ {l : List α} {l' : List β} {i : Nat} {a : α} {b : β}, List.Forall₂ R l l' →
    (∀ (j : Nat) x y, j ≠ i → l[j]? = some x → l'[j]? = some y → R x y → S x y) → S a b → List.Forall₂ S (l.set i a) (l'.set i b) := by
  intro l l' i a b h hs hab
  rw [List.forall₂_iff_get] at h ⊢
  refine ⟨by simp [h.1], fun j h1 h2 => ?_⟩
  simp only [List.get_eq_getElem, List.getElem_set]
  have h1' : j < l.length := by simpa using h1
  have h2' : j < l'.length := by simpa using h2
  by_cases hj : i = j
  · rw [if_pos hj, if_pos hj]; exact hab
  · rw [if_neg hj, if_neg hj]
    exact hs j _ _ (Ne.symm hj) (List.getElem?_eq_getElem h1') (List.getElem?_eq_getElem h2') (by simpa using h.2 j h1' h2')

theorem mem_set_of {ps : List Nat} {i k : Nat} (hi : i < ps.length) (hnd : ps.Nodup) (hk : k ∉ ps) (x : Nat) : x ∈ ps.set i k ↔ x = k ∨ (x ∈ ps ∧ x ≠ ps[i]) := by
  constructor
  · intro h
    obtain ⟨j, hj, e⟩ := List.getElem_of_mem h
    rw [List.getElem_set] at e
    have hj' : j < ps.length := by simpa using hj
    by_cases hij : i = j
    · rw [if_pos hij] at e; exact .inl e.symm
    · rw [if_neg hij] at e
      refine .inr ⟨e ▸ List.getElem_mem hj', fun e' => hij ?_⟩
      exact ((List.Nodup.getElem_inj_iff hnd).mp (e.trans e')).symm
  · rintro (rfl | ⟨h1, h2⟩)
    · exact List.mem_set hi x
    · obtain ⟨j, hj, rfl⟩ := List.getElem_of_mem h1
      refine List.mem_iff_getElem.mpr ⟨j, by simpa using hj, ?_⟩
      rw [List.getElem_set, if_neg]
      rintro rfl
      exact h2 rfl

/-- A string in the place of another. -/
theorem replace_ok {base m : EMem} {a i : Nat} {ps : List Nat} {rest : List (Option (Option Nat))} {env : Env} (o : Own base m a ps rest env) (e : CStr) (t : Nat) (hi : i < ps.length) :
    ∃ m', replaceEntry a i m.brk { cells := fun x => if x = m.brk then some (.text e) else m.cells x, brk := m.brk + 1, tries := t } = .ok (.ok, some a) m' ∧
      EnvOwned base m' a (env.set i e) := by
  have hk := own_brk o (Nat.le_refl m.brk)
  have hap := array_not_string o.arr o.txt
  have hm : ps[i] ∈ ps := List.getElem_mem hi
  have hpa : ps[i] ≠ a := fun e => hap (e ▸ hm)
  have hpk : ps[i] ≠ m.brk := fun e => hk.2.1 (e ▸ hm)
  refine ⟨{ cells := fun x => if x = a then some (.array (slotsOf (ps.set i m.brk) rest)) else if x = ps[i] then none else if x = m.brk then some (.text e) else m.cells x,
            brk := m.brk + 1, tries := t }, ?_, owned_iff.mpr ⟨ps.set i m.brk, rest, ?_⟩⟩
  · rw [replaceEntry, read_in (ps := ps) (rest := rest) (by dsimp only; rw [if_neg (Ne.symm hk.1)]; exact o.arr) (List.getElem?_eq_getElem hi)]
    have hp := strings_there o.txt _ hm
    simp only [free]
    rw [if_neg hpk]
    cases hc : m.cells ps[i] with
    | none => exact absurd hc hp
    | some ob =>
      simp only [E.bind, EMem.put, writeSlot]
      rw [if_neg (Ne.symm hpa), if_neg (Ne.symm hk.1), o.arr]
      dsimp only
      rw [if_pos (by simp only [slotsOf, List.length_append, List.length_map]; omega)]
      dsimp only
      congr 2
      funext x
      by_cases hx : x = a
      · rw [if_pos hx, if_pos hx, slotsOf, List.set_append_left _ _ (by simpa using hi), slotsOf, List.map_set]
      · rw [if_neg hx, if_neg hx]
  · have hc : ∀ x, x ≠ a → x ≠ ps[i] → x ≠ m.brk → (if x = a then some (EObj.array (slotsOf (ps.set i m.brk) rest)) else if x = ps[i] then none else if x = m.brk then some (.text e) else m.cells x) = m.cells x := by
      intro x h1 h2 h3
      rw [if_neg h1, if_neg h2, if_neg h3]
    constructor
    · intro x hx
      have hx : m.brk + 1 ≤ x := hx
      have hb := own_brk o (x := x) (by omega)
      dsimp only
      rw [hc x hb.1 (fun e => hb.2.1 (e ▸ hm)) (by omega)]
      exact o.ord x (by omega)
    · exact o.new
    · simp
    · refine forall_set o.txt (fun j x y hj hx _ h => ?_) ?_
      · obtain ⟨hj', rfl⟩ := List.getElem?_eq_some_iff.mp hx
        have hmj : ps[j] ∈ ps := List.getElem_mem hj'
        dsimp only
        rw [hc _ (fun e => hap (e ▸ hmj)) (fun e => hj ((List.Nodup.getElem_inj_iff o.nd).mp e)) (fun e => hk.2.1 (e ▸ hmj))]
        exact h
      · dsimp only
        rw [if_neg hk.1, if_neg (Ne.symm hpk), if_pos rfl]
    · exact List.Nodup.set o.nd hk.2.1
    · intro p hp
      rcases (mem_set_of hi o.nd hk.2.1 p).mp hp with rfl | h
      · exact hk.2.2
      · exact o.fresh p h.1
    · intro x h1 h2
      rw [mem_set_of hi o.nd hk.2.1, not_or] at h2
      dsimp only
      by_cases hx : x = ps[i]
      · rw [if_neg h1, if_pos hx, hx, o.fresh _ hm]
      · rw [hc x h1 hx h2.1]
        exact o.same x h1 fun h => h2.2 ⟨h, hx⟩

theorem found_lt {env : Env} {name : CStr} {i : Nat} (h : getenvIndex env name = some i) : i < env.length := by
  unfold getenvIndex at h
  exact (List.findIdx?_eq_some_iff_getElem.mp h).1

/-- `minijail_setenv` does to memory what it does to the list of strings, or there is no memory and nothing changes. -/
theorem set_ok {fails : Nat → Bool} {base m : EMem} {a : Nat} {env : Env} (h : EnvOwned base m a env) {np vp : SPtr} {name value : CStr} (hn : TextAt m np name)
    (hv : TextAt m vp value) (hne : name ≠ []) (ov : Bool) :
    ∃ ret b m' env', setenvMem fails (some a) (some np) (some vp) ov m = .ok (ret, some b) m' ∧ EnvOwned base m' b env' ∧
      ((ret = .ok ∧ minijailSetenv (some env) (some name) (some value) ov = (.ok, some env')) ∨ (ret = .enomem ∧ env' = env ∧ b = a ∧ ∃ n, fails n = true)) := by
  obtain ⟨ps, rest, o⟩ := owned_iff.mp h
  have hlen := o.txt.length_eq
  have hs : setenvMem fails (some a) (some np) (some vp) ov m = match getenvIndexMem a np m with
      | none => .ub
      | some found => setFound fails a np vp ov found m := by
    rw [setenvMem]
    rw [text_at hn]
    cases name with
    | nil => exact absurd rfl hne
    | cons c cs => rfl
  rw [hs, index_all o.arr o.txt hn]
  have hfound : ∀ f, setFound fails a np vp ov f m = if f.1 && !ov then .ok (.ok, some a) m else
      match (alloc fails (.text (name ++ '=' :: value)) m).1 with
      | none => .ok (.enomem, some a) (alloc fails (.text (name ++ '=' :: value)) m).2
      | some entry => if f.1 then replaceEntry a f.2 entry (alloc fails (.text (name ++ '=' :: value)) m).2
          else appendEntry fails a f.2 entry (alloc fails (.text (name ++ '=' :: value)) m).2 := by
    intro f
    rw [setFound, text_at hn, text_at hv]
    rfl
  have hmod : minijailSetenv (some env) (some name) (some value) ov = match getenvIndex env name with
      | some i => if !ov then (.ok, some env) else (.ok, some (env.set i (name ++ '=' :: value)))
      | none => (.ok, some (env ++ [name ++ '=' :: value])) := by
    rw [minijailSetenv]
    rw [if_neg hne]
    cases getenvIndex env name <;> rfl
  rw [hmod]
  cases hi : getenvIndex env name with
  | none =>
    simp only
    rw [hfound, if_neg (by simp)]
    rcases alloc_cases fails (.text (name ++ '=' :: value)) m with ⟨hf, ea⟩ | ⟨hf, ea⟩
    · rw [ea]
      exact ⟨.enomem, a, _, env, rfl, owned_iff.mpr ⟨ps, rest, own_congr o (fun _ => rfl) (Nat.le_refl _)⟩, .inr ⟨rfl, rfl, rfl, _, hf⟩⟩
    · rw [ea]
      dsimp only
      rw [if_neg (by simp), ← hlen]
      obtain ⟨b, m', g1, g2, g3⟩ := append_ok (fails := fails) o (name ++ '=' :: value) (m.tries + 1)
      rw [g1]
      by_cases hb : b = a
      · rw [if_pos hb]
        exact ⟨.enomem, b, m', env, rfl, hb ▸ (g2 hb).2, .inr ⟨rfl, rfl, hb, (g2 hb).1⟩⟩
      · rw [if_neg hb]
        exact ⟨.ok, b, m', _, rfl, g3 hb, .inl ⟨rfl, rfl⟩⟩
  | some i =>
    have hl := found_lt hi
    simp only
    rw [hfound]
    cases ov with
    | false =>
      rw [if_pos (by rfl), if_pos (by rfl)]
      exact ⟨.ok, a, m, env, rfl, h, .inl ⟨rfl, rfl⟩⟩
    | true =>
      rw [if_neg (by simp), if_neg (by simp)]
      rcases alloc_cases fails (.text (name ++ '=' :: value)) m with ⟨hf, ea⟩ | ⟨hf, ea⟩
      · rw [ea]
        exact ⟨.enomem, a, _, env, rfl, owned_iff.mpr ⟨ps, rest, own_congr o (fun _ => rfl) (Nat.le_refl _)⟩, .inr ⟨rfl, rfl, rfl, _, hf⟩⟩
      · rw [ea]
        dsimp only
        rw [if_pos rfl]
        obtain ⟨m', g1, g2⟩ := replace_ok o (name ++ '=' :: value) (m.tries + 1) (by omega : i < ps.length)
        rw [g1]
        exact ⟨.ok, a, m', _, rfl, g2, .inl ⟨rfl, rfl⟩⟩

/-! ### Getting and unsetting -/

theorem get_ok {base m : EMem} {a : Nat} {env : Env} (h : EnvOwned base m a env) {np : SPtr} {name : CStr} (hn : TextAt m np name) :
    ∃ p, getenvMem (some a) (some np) m = .ok p m ∧ (p = none ↔ minijailGetenv (some env) (some name) = none) ∧
      ∀ q, p = some q → ∃ v, minijailGetenv (some env) (some name) = some v ∧ TextAt m q v := by
  obtain ⟨ps, rest, o⟩ := owned_iff.mp h
  have hlen := o.txt.length_eq
  rw [getenvMem]
  rw [index_all o.arr o.txt hn, minijailGetenv]
  cases hi : getenvIndex env name with
  | none => exact ⟨none, rfl, by simp, by simp⟩
  | some i =>
    have hl := found_lt hi
    have hl' : i < ps.length := by omega
    have ht : m.cells ps[i] = some (.text env[i]) := (List.forall₂_iff_get.mp o.txt).2 i hl' hl
    have hname : named name env[i] = true := by
      unfold getenvIndex at hi
      exact (List.findIdx?_eq_some_iff_getElem.mp hi).2.1
    simp only
    rw [read_in o.arr (List.getElem?_eq_getElem hl'), text_at hn, List.getElem?_eq_getElem hl]
    refine ⟨some (ps[i], name.length + 1), rfl, by simp, fun q hq => ?_⟩
    cases hq
    refine ⟨env[i].drop (name.length + 1), rfl, env[i].take (name.length + 1), by rw [List.take_append_drop]; exact ht, ?_⟩
    simp only [named, Bool.and_eq_true, beq_iff_eq] at hname
    have := (List.getElem?_eq_some_iff.mp hname.2).1
    rw [List.length_take]
    omega

/-- The array behind `minijail_unsetenv`: the last pointer is in the place of the one that is given up. -/
theorem unset_slots {ps : List Nat} {i : Nat} (hi : i < ps.length) (rest : List (Option (Option Nat))) :
    ((slotsOf ps rest).set i (some (some (ps[ps.length - 1]'(by omega))))).set (ps.length - 1) (some none) =
      slotsOf ((ps.set i (ps[ps.length - 1]'(by omega))).dropLast) (some none :: rest) := by
  rw [slotsOf, List.set_append_left _ _ (by simpa using hi), List.set_append_left _ _ (by simp; omega), slotsOf]
  rw [← List.map_set (f := fun p : Nat => some (some p))]
  generalize hq : ps.set i (ps[ps.length - 1]'(by omega)) = qs
  have hl : qs.length = ps.length := by rw [← hq]; simp
  have hne : qs ≠ [] := fun e => by rw [e] at hl; simp at hl; omega
  obtain ⟨xs, x, rfl⟩ : ∃ xs x, qs = xs ++ [x] := ⟨qs.dropLast, qs.getLast hne, (List.dropLast_append_getLast hne).symm⟩
  have : ps.length - 1 = xs.length := by simp at hl; omega
  rw [this, List.dropLast_concat]
  simp

/-- Which pointers are left. -/
theorem unset_mem {ps : List Nat} {i : Nat} (hi : i < ps.length) (hnd : ps.Nodup) :
    ((ps.set i (ps[ps.length - 1]'(by omega))).dropLast).Nodup ∧ ∀ x, x ∈ (ps.set i (ps[ps.length - 1]'(by omega))).dropLast ↔ x ∈ ps ∧ x ≠ ps[i] := by
  have hne : ps ≠ [] := fun e => by rw [e] at hi; simp at hi
  obtain ⟨xs, x, rfl⟩ : ∃ xs x, ps = xs ++ [x] := ⟨ps.dropLast, ps.getLast hne, (List.dropLast_append_getLast hne).symm⟩
  have hx : (xs ++ [x])[(xs ++ [x]).length - 1]'(by simp) = x := by simp
  rw [List.nodup_append] at hnd
  have hxs : x ∉ xs := fun h => hnd.2.2 x h x (by simp) rfl
  simp only [hx]
  by_cases hj : i < xs.length
  · rw [List.set_append_left _ _ hj, List.dropLast_concat, List.getElem_append_left hj]
    refine ⟨List.Nodup.set hnd.1 hxs, fun y => ?_⟩
    rw [mem_set_of hj hnd.1 hxs]
    simp only [List.mem_append, List.mem_singleton]
    constructor
    · rintro (rfl | h)
      · exact ⟨.inr rfl, fun e => hxs (e ▸ List.getElem_mem hj)⟩
      · exact ⟨.inl h.1, h.2⟩
    · rintro ⟨h | h, h'⟩
      · exact .inr ⟨h, h'⟩
      · exact .inl h
  · have hj' : i = xs.length := by simp at hi; omega
    subst hj'
    rw [List.set_append_right _ _ (Nat.le_refl _)]
    simp only [Nat.sub_self, List.set_cons_zero, List.dropLast_concat]
    refine ⟨hnd.1, fun y => ?_⟩
    simp only [List.getElem_concat_length, List.mem_append, List.mem_singleton]
    constructor
    · intro h; exact ⟨.inl h, fun e => hxs (e ▸ h)⟩
    · rintro ⟨h | h, h'⟩
      · exact h
      · exact absurd h h'

theorem forall_dropLast {α β : Type} {R : α → β → Prop} : ∀ {l : List α} {l' : List β}, List.Forall₂ R l l' → List.Forall₂ R l.dropLast l'.dropLast := by
  intro l l' h
  rw [List.forall₂_iff_get] at h ⊢
  refine ⟨by simp [h.1], fun j h1 h2 => ?_⟩
  simp only [List.get_eq_getElem, List.getElem_dropLast]
  simp only [List.length_dropLast] at h1 h2
  simpa using h.2 j (by omega) (by omega)

/-- `minijail_unsetenv` does to the array what it does to the list of strings; the string it takes out stays allocated. -/
theorem unset_ok {base m : EMem} {a : Nat} {env : Env} (h : EnvOwned base m a env) {np : SPtr} {name : CStr} (hn : TextAt m np name) :
    ∃ found m' env', unsetenvMem (some a) (some np) m = .ok found m' ∧ minijailUnsetenv (some env) (some name) = (found, some env') ∧ m'.brk = m.brk ∧
      (found = false → EnvOwned base m' a env' ∧ SameCells m' m) ∧
      (found = true → ∃ p e, base.cells p = none ∧ m.cells p = some (.text e) ∧ EnvOwned (base.put p (some (.text e))) m' a env' ∧ ∀ x, x ≠ a → m'.cells x = m.cells x) := by
  obtain ⟨ps, rest, o⟩ := owned_iff.mp h
  have hlen := o.txt.length_eq
  have hap := array_not_string o.arr o.txt
  rw [unsetenvMem]
  rw [index_all o.arr o.txt hn, minijailUnsetenv]
  cases hi : getenvIndex env name with
  | none => exact ⟨false, m, env, rfl, rfl, rfl, fun _ => ⟨h, fun _ => rfl⟩, by simp⟩
  | some i =>
    have hl := found_lt hi
    have hl' : i < ps.length := by omega
    have hlast : env.getLast? = some (env[env.length - 1]'(by omega)) := by
      rw [List.getLast?_eq_getElem?, List.getElem?_eq_getElem (by omega)]
    have ht : ∀ j (h1 : j < ps.length) (h2 : j < env.length), m.cells ps[j] = some (.text env[j]) := fun j h1 h2 => (List.forall₂_iff_get.mp o.txt).2 j h1 h2
    have hb := bound_of o.arr
    simp only
    rw [count_ok o.arr (bound a m) i (by omega) (by omega), hlast]
    simp only
    rw [read_in o.arr (List.getElem?_eq_getElem (by omega : ps.length - 1 < ps.length))]
    have hw : ((writeSlot a i (some (ps[ps.length - 1]'(by omega))) m).bind fun _ m => (writeSlot a (ps.length - 1) none m).bind fun _ m => E.ok true m) =
        .ok true (m.put a (some (.array (slotsOf ((ps.set i (ps[ps.length - 1]'(by omega))).dropLast) (some none :: rest))))) := by
      simp only [writeSlot, o.arr]
      rw [if_pos (by simp only [slotsOf, List.length_append, List.length_map]; omega)]
      simp only [E.bind, EMem.put, if_true]
      rw [if_pos (by simp only [slotsOf, List.length_set, List.length_append, List.length_map]; omega)]
      simp only [unset_slots hl' rest]
      congr 2
      funext x
      by_cases hx : x = a
      · simp [hx]
      · simp [hx]
    simp only
    rw [hw]
    obtain ⟨n1, n2⟩ := unset_mem hl' o.nd
    have hc : ∀ x, x ≠ a → (m.put a (some (.array (slotsOf ((ps.set i (ps[ps.length - 1]'(by omega))).dropLast) (some none :: rest))))).cells x = m.cells x := by
      intro x hx
      simp only [EMem.put]
      rw [if_neg hx]
    have hm : ps[i] ∈ ps := List.getElem_mem hl'
    have hpa : ps[i] ≠ a := fun e => hap (e ▸ hm)
    refine ⟨true, _, _, rfl, rfl, rfl, by simp, fun _ => ⟨ps[i], env[i], o.fresh _ hm, ht i hl' hl, owned_iff.mpr ⟨(ps.set i (ps[ps.length - 1]'(by omega))).dropLast, some none :: rest, ?_⟩, hc⟩⟩
    constructor
    · intro x hx
      rw [hc x (own_brk o hx).1]
      exact o.ord x hx
    · simp only [EMem.put]
      rw [if_neg (Ne.symm hpa)]
      exact o.new
    · simp [EMem.put]
    · refine forall_text ?_ fun p hp => hc p fun e => hap (e ▸ ((n2 p).mp hp).1)
      refine forall_dropLast (forall_set o.txt (fun _ _ _ _ _ _ h => h) ?_)
      have := ht (ps.length - 1) (by omega) (by omega)
      rw [this]
      simp only [hlen]
    · exact n1
    · intro p hp
      simp only [EMem.put]
      rw [if_neg ((n2 p).mp hp).2]
      exact o.fresh p ((n2 p).mp hp).1
    · intro x h1 h2
      rw [hc x h1]
      simp only [EMem.put]
      by_cases hx : x = ps[i]
      · rw [if_pos hx, hx]
        exact ht i hl' hl
      · rw [if_neg hx]
        exact o.same x h1 fun h => h2 ((n2 x).mpr ⟨h, hx⟩)

end Minijail.EnvMem
