import Verif.Spec.Tables
import Mathlib.Data.List.Nodup
import Mathlib.Data.List.Perm.Basic
/-! The tables of the policy compiler in memory. -/
set_option linter.unusedSimpArgs false
set_option autoImplicit false
namespace Minijail.Tables
open Spec (firstRule TablesOrdinary)

/-- The addresses that the entries of `previous_syscalls` own. -/
def addrs : List (Option (Nat × Nat)) → List Nat
  | [] => []
  | none :: es => addrs es
  | some pf :: es => pf.1 :: pf.2 :: addrs es

/-- All addresses that the tables own. -/
def owned (t : Nat) (ls : List Nat) (es : List (Option (Nat × Nat))) : List Nat := t :: (ls ++ addrs es)

structure Inv (m0 m : TMem) (t : Nat) (ls : List Nat) (es : List (Option (Nat × Nat))) (names : List (List Char)) (pl : Nat → Option (List Char × Nat)) : Prop where
  tab : m.cells t = some (.table (es.map fun e => e.map Prod.fst))
  lab : List.Forall₂ (fun p s => m.cells p = some (.str s)) ls names
  ent : ∀ i p f, es[i]? = some (some (p, f)) → ∃ s n, pl i = some (s, n) ∧ m.cells p = some (.state (some f) n) ∧ m.cells f = some (.str s)
  emp : ∀ i, es[i]? = some none → pl i = none
  nodup : (owned t ls es).Nodup
  rng : ∀ x ∈ owned t ls es, m0.brk ≤ x ∧ x < m.brk
  rest : ∀ x, x ∉ owned t ls es → m.cells x = m0.cells x
  grow : m0.brk ≤ m.brk

theorem mem_addrs {es : List (Option (Nat × Nat))} {i p f : Nat} (h : es[i]? = some (some (p, f))) : p ∈ addrs es ∧ f ∈ addrs es := by
  induction es generalizing i with
  | nil => simp at h
  | cons e es ih =>
    cases i with
    | zero =>
      simp only [List.getElem?_cons_zero, Option.some.injEq] at h
      subst h
      simp [addrs]
    | succ i =>
      rw [List.getElem?_cons_succ] at h
      obtain ⟨a, b⟩ := ih h
      cases e <;> simp [addrs, a, b]

theorem addrs_set {es : List (Option (Nat × Nat))} {i : Nat} (p f : Nat) (h : es[i]? = some none) : (addrs (es.set i (some (p, f)))).Perm (p :: f :: addrs es) := by
  induction es generalizing i with
  | nil => simp at h
  | cons e es ih =>
    cases i with
    | zero =>
      simp only [List.getElem?_cons_zero, Option.some.injEq] at h
      subst h
      simp [addrs]
    | succ i =>
      rw [List.getElem?_cons_succ] at h
      have := ih h
      cases e with
      | none => simpa [addrs] using this
      | some q =>
        simp only [List.set_cons_succ, addrs]
        refine ((this.cons q.2).cons q.1).trans ?_
        have e1 : (q.2 :: p :: f :: addrs es).Perm (p :: f :: q.2 :: addrs es) := (List.Perm.swap p q.2 _).trans ((List.Perm.swap f q.2 _).cons p)
        refine (e1.cons q.1).trans ?_
        exact (List.Perm.swap p q.1 _).trans ((List.Perm.swap f q.1 _).cons p)

theorem findLabel_eq {m : TMem} {label : List Char} {ls : List Nat} {names : List (List Char)} (h : List.Forall₂ (fun p s => m.cells p = some (.str s)) ls names) (k : Nat) :
    findLabel m label ls k = some ((names.idxOf? label).map (· + k)) := by
  induction h generalizing k with
  | nil => simp [findLabel]
  | cons h _ ih =>
    rename_i p s ls names _
    rw [findLabel, h]
    dsimp only
    rw [List.idxOf?_cons]
    by_cases e : label = s
    · subst e; simp
    · have e' : (s == label) = false := by simpa using fun x => e x.symm
      rw [if_neg e, ih, e']
      cases names.idxOf? label with
      | none => rfl
      | some j => simp; omega

/-- What the tables hold, as one would draw them: names, and the places of rules. -/
structure Abs where
  names : List (List Char)
  pl : Nat → Option (List Char × Nat)

/-- One use, on the drawing; `granted` says whether a request for memory is. -/
def absUse (granted : Bool) (s : Abs) : Use → Ans × Abs
  | .label name =>
    match s.names.idxOf? name with
    | some id => (.id (some id), s)
    | none => if s.names.length = BPF_LABELS_MAX ∨ granted = false then (.id none, s) else (.id (some s.names.length), { s with names := s.names ++ [name.take MAX_BPF_LABEL_LEN] })
  | .rule ind file line =>
    match s.pl ind with
    | some p => (.earlier (some p), s)
    | none => (.earlier none, { s with pl := fun i => if i = ind then some (file, line) else s.pl i })

theorem inv_cells {m0 m m' : TMem} {t : Nat} {ls : List Nat} {es : List (Option (Nat × Nat))} {names : List (List Char)} {pl : Nat → Option (List Char × Nat)}
    (h : Inv m0 m t ls es names pl) (hc : m'.cells = m.cells) (hb : m'.brk = m.brk) : Inv m0 m' t ls es names pl :=
  ⟨by rw [hc]; exact h.tab, by rw [hc]; exact h.lab, by rw [hc]; exact h.ent, h.emp, h.nodup, by rw [hb]; exact h.rng, by rw [hc]; exact h.rest, by rw [hb]; exact h.grow⟩

theorem forall₂_mono {α β : Type} {P Q : α → β → Prop} {l : List α} {l' : List β} (h : List.Forall₂ P l l') (hpq : ∀ a b, a ∈ l → P a b → Q a b) : List.Forall₂ Q l l' := by
  induction h with
  | nil => exact .nil
  | cons h _ ih => exact .cons (hpq _ _ (by simp) h) (ih fun a b ha => hpq a b (by simp [ha]))

theorem use_ok {fails : Nat → Bool} {m0 m : TMem} {t : Nat} {ls : List Nat} {es : List (Option (Nat × Nat))} {s : Abs} (hm0 : TablesOrdinary m0) (h : Inv m0 m t ls es s.names s.pl) (u : Use) :
    (use fails es.length (some t) ls u m = .die ∧ ((∃ i, fails i = true) ∨ ∃ ind file line, u = .rule ind file line ∧ es.length ≤ ind)) ∨
    ∃ m' ls' es' granted, use fails es.length (some t) ls u m = .ok ((absUse granted s u).1, ls') m' ∧ es'.length = es.length ∧
      Inv m0 m' t ls' es' (absUse granted s u).2.names (absUse granted s u).2.pl ∧ (granted = false → fails m.asked = true) := by
  have hfresh : ∀ x, m.brk ≤ x → x ∉ owned t ls es := fun x hx hm => by have := (h.rng x hm).2; omega
  cases u with
  | label name =>
    right
    simp only [use, labelId, findLabel_eq h.lab, absUse]
    cases hi : s.names.idxOf? name with
    | some id => exact ⟨m, ls, es, true, by simp [R.bind], rfl, h, by simp⟩
    | none =>
      have hlen : ls.length = s.names.length := h.lab.length_eq
      dsimp only [Option.map_none]
      by_cases hmax : ls.length = BPF_LABELS_MAX
      · refine ⟨m, ls, es, true, ?_, rfl, ?_, by simp⟩
        · rw [if_pos hmax, if_pos (.inl (hlen ▸ hmax))]; rfl
        · rw [if_pos (.inl (hlen ▸ hmax))]; exact h
      · rw [if_neg hmax]
        unfold request
        by_cases hf : fails m.asked = true
        · refine ⟨{ m with asked := m.asked + 1 }, ls, es, false, ?_, rfl, ?_, fun _ => hf⟩
          · rw [if_pos hf, if_pos (.inr rfl)]; rfl
          · rw [if_pos (.inr rfl)]; exact inv_cells h rfl rfl
        · have hno : ¬ (s.names.length = BPF_LABELS_MAX ∨ true = false) := by rw [← hlen]; simp [hmax]
          rw [if_neg hf]
          refine ⟨⟨fun x => if x = m.brk then some (.str (name.take MAX_BPF_LABEL_LEN)) else m.cells x, m.brk + 1, m.asked + 1⟩, ls ++ [m.brk], es, true, ?_, rfl, ?_, by simp⟩
          · rw [if_neg hno, hlen]; rfl
          · rw [if_neg hno]
            have hb := hfresh m.brk (Nat.le_refl _)
            have hne : ∀ x ∈ owned t ls es, x ≠ m.brk := fun x hx e => hb (e ▸ hx)
            have hperm : (owned t (ls ++ [m.brk]) es).Perm (m.brk :: owned t ls es) := by
              unfold owned
              refine List.Perm.trans ?_ (List.Perm.swap _ _ _)
              refine List.Perm.cons _ ?_
              rw [List.append_assoc]
              exact List.perm_middle
            refine ⟨?_, ?_, ?_, h.emp, ?_, ?_, ?_, ?_⟩
            · dsimp only; rw [if_neg (hne t (by simp [owned]))]; exact h.tab
            · refine List.rel_append (forall₂_mono h.lab fun a b ha hab => ?_) (.cons ?_ .nil)
              · dsimp only; rw [if_neg (hne a (by simp [owned, ha]))]; exact hab
              · simp
            · intro i p f hi
              obtain ⟨q, n, h1, h2, h3⟩ := h.ent i p f hi
              obtain ⟨ha, hb'⟩ := mem_addrs hi
              refine ⟨q, n, h1, ?_, ?_⟩
              · dsimp only; rw [if_neg (hne p (by simp [owned, ha]))]; exact h2
              · dsimp only; rw [if_neg (hne f (by simp [owned, hb']))]; exact h3
            · rw [hperm.nodup_iff, List.nodup_cons]; exact ⟨hb, h.nodup⟩
            · intro x hx
              rcases List.mem_cons.1 (hperm.mem_iff.1 hx) with e | hx
              · rw [e]; exact ⟨h.grow, by simp⟩
              · have := h.rng x hx; exact ⟨this.1, by dsimp only; omega⟩
            · intro x hx
              have hx' : x ∉ m.brk :: owned t ls es := fun hh => hx (hperm.mem_iff.2 hh)
              rw [List.mem_cons, not_or] at hx'
              dsimp only
              rw [if_neg hx'.1]; exact h.rest x hx'.2
            · have := h.grow; dsimp only; omega
  | rule ind file line =>
    by_cases hn : es.length ≤ ind
    · left; exact ⟨by simp [use, insertCheck, hn, R.bind], .inr ⟨ind, file, line, rfl, hn⟩⟩
    · have hlt : ind < es.length := by omega
      cases he : es[ind]? with
      | none => rw [List.getElem?_eq_none_iff] at he; omega
      | some e =>
        have hmap : (es.map fun e => e.map Prod.fst)[ind]? = some (e.map Prod.fst) := by rw [List.getElem?_map, he]; rfl
        cases e with
        | some pf =>
          right
          obtain ⟨p, f⟩ := pf
          obtain ⟨q, n, h1, h2, h3⟩ := h.ent ind p f he
          refine ⟨m, ls, es, true, ?_, rfl, ?_, by simp⟩
          · simp only [Option.map_some] at hmap
            simp only [use, insertCheck, if_neg hn, h.tab, hmap, R.bind, readPlace, Option.bind_some, h2, h3, absUse, h1]
            rfl
          · simp only [absUse, h1]; exact h
        | none =>
          have hpl := h.emp ind he
          simp only [Option.map_none] at hmap
          have ht : t ≠ m.brk := fun e => hfresh m.brk (Nat.le_refl _) (by simp [owned, ← e])
          by_cases hf : fails m.asked = true
          · left; exact ⟨by simp [use, insertCheck, hn, R.bind, h.tab, hmap, request, hf], .inl ⟨_, hf⟩⟩
          · by_cases hf2 : fails (m.asked + 1) = true
            · left
              refine ⟨?_, .inl ⟨_, hf2⟩⟩
              simp only [use, insertCheck, if_neg hn, h.tab, hmap, request, if_neg hf, store, if_neg ht, R.bind, copyState, hf2, if_true]
            · right
              have h1 : m.brk ≠ m.brk + 1 := by omega
              refine ⟨⟨fun x => if x = m.brk then some (.state (some (m.brk + 1)) line) else if x = m.brk + 1 then some (.str file) else if x = t then
                  some (.table ((es.map fun e => e.map Prod.fst).set ind (some m.brk))) else if x = m.brk then some (.state none 0) else m.cells x, m.brk + 2, m.asked + 2⟩,
                ls, es.set ind (some (m.brk, m.brk + 1)), true, ?_, by simp, ?_, by simp⟩
              · simp only [use, insertCheck, if_neg hn, h.tab, hmap, request, if_neg hf, store, if_neg ht, R.bind, copyState, if_neg hf2, if_neg h1, if_neg ht.symm, if_true, absUse, hpl]
              · simp only [absUse, hpl]
                have hb := hfresh m.brk (Nat.le_refl _)
                have hb1 := hfresh (m.brk + 1) (by omega)
                have hperm : (owned t ls (es.set ind (some (m.brk, m.brk + 1)))).Perm (m.brk :: (m.brk + 1) :: owned t ls es) := by
                  unfold owned
                  have e1 : (ls ++ addrs (es.set ind (some (m.brk, m.brk + 1)))).Perm (m.brk :: (m.brk + 1) :: (ls ++ addrs es)) := by
                    refine ((addrs_set _ _ he).append_left ls).trans ?_
                    refine List.perm_middle.trans ?_
                    exact List.perm_middle.cons _
                  refine (e1.cons t).trans ?_
                  exact (List.Perm.swap _ _ _).trans ((List.Perm.swap _ _ _).cons _)
                have hne : ∀ x ∈ owned t ls es, x ≠ m.brk := fun x hx e => hb (e ▸ hx)
                have hne1 : ∀ x ∈ owned t ls es, x ≠ m.brk + 1 := fun x hx e => hb1 (e ▸ hx)
                have htmem : t ∈ owned t ls es := by simp [owned]
                have hnt : ∀ x, x ∈ ls ++ addrs es → x ≠ t := by
                  intro x hx e
                  have := h.nodup
                  rw [owned, List.nodup_cons] at this
                  exact this.1 (e ▸ hx)
                have hmem : ∀ x, x ∈ ls ++ addrs es → x ∈ owned t ls es := fun x hx => List.mem_cons_of_mem _ hx
                refine ⟨?_, ?_, ?_, ?_, ?_, ?_, ?_, ?_⟩
                · dsimp only
                  rw [if_neg ht, if_neg (hne1 t htmem), if_pos rfl, List.map_set]; rfl
                · refine forall₂_mono h.lab fun a b ha hab => ?_
                  have ha' : a ∈ ls ++ addrs es := by simp [ha]
                  dsimp only
                  rw [if_neg (hne a (hmem a ha')), if_neg (hne1 a (hmem a ha')), if_neg (hnt a ha'), if_neg (hne a (hmem a ha'))]; exact hab
                · intro i p f hi
                  by_cases hii : i = ind
                  · subst hii
                    rw [List.getElem?_set_self hlt] at hi
                    simp only [Option.some.injEq, Prod.mk.injEq] at hi
                    obtain ⟨rfl, rfl⟩ := hi
                    refine ⟨file, line, by simp, by simp, ?_⟩
                    dsimp only
                    rw [if_neg h1.symm, if_pos rfl]
                  · rw [List.getElem?_set_ne (fun e => hii e.symm)] at hi
                    obtain ⟨q, n, g1, g2, g3⟩ := h.ent i p f hi
                    obtain ⟨ha, hb'⟩ := mem_addrs hi
                    have ha' : p ∈ ls ++ addrs es := by simp [ha]
                    have hb'' : f ∈ ls ++ addrs es := by simp [hb']
                    refine ⟨q, n, by rw [if_neg hii]; exact g1, ?_, ?_⟩
                    · dsimp only
                      rw [if_neg (hne p (hmem p ha')), if_neg (hne1 p (hmem p ha')), if_neg (hnt p ha'), if_neg (hne p (hmem p ha'))]; exact g2
                    · dsimp only
                      rw [if_neg (hne f (hmem f hb'')), if_neg (hne1 f (hmem f hb'')), if_neg (hnt f hb''), if_neg (hne f (hmem f hb''))]; exact g3
                · intro i hi
                  by_cases hii : i = ind
                  · subst hii
                    rw [List.getElem?_set_self hlt] at hi
                    simp at hi
                  · rw [List.getElem?_set_ne (fun e => hii e.symm)] at hi
                    rw [if_neg hii]; exact h.emp i hi
                · rw [hperm.nodup_iff, List.nodup_cons, List.nodup_cons]
                  exact ⟨by simp [hb], hb1, h.nodup⟩
                · intro x hx
                  have hg := h.grow
                  rcases List.mem_cons.1 (hperm.mem_iff.1 hx) with e | hx
                  · rw [e]; exact ⟨hg, by simp⟩
                  · rcases List.mem_cons.1 hx with e | hx
                    · rw [e]; exact ⟨by omega, by simp⟩
                    · have := h.rng x hx; exact ⟨this.1, by dsimp only; omega⟩
                · intro x hx
                  have hx' : x ∉ m.brk :: (m.brk + 1) :: owned t ls es := fun hh => hx (hperm.mem_iff.2 hh)
                  rw [List.mem_cons, not_or, List.mem_cons, not_or] at hx'
                  obtain ⟨x1, x2, x3⟩ := hx'
                  dsimp only
                  rw [if_neg x1, if_neg x2, if_neg (fun e : x = t => x3 (e ▸ htmem)), if_neg x1]; exact h.rest x x3
                · have := h.grow; dsimp only; omega

/-- Uses on the drawing; requests are refused only if memory does not last. -/
inductive AbsRun (lasts : Prop) : Abs → List Use → List Ans → Abs → Prop
  | nil (s : Abs) : AbsRun lasts s [] [] s
  | cons (s : Abs) (u : Use) (us : List Use) (as : List Ans) (s' : Abs) (granted : Bool) : (granted = false → ¬ lasts) → AbsRun lasts (absUse granted s u).2 us as s' →
      AbsRun lasts s (u :: us) ((absUse granted s u).1 :: as) s'

theorem uses_ok {fails : Nat → Bool} {m0 : TMem} {t : Nat} (hm0 : TablesOrdinary m0) : ∀ (us : List Use) {m : TMem} {ls : List Nat} {es : List (Option (Nat × Nat))} {s : Abs},
    Inv m0 m t ls es s.names s.pl →
    (uses fails es.length (some t) ls us m = .die ∧ ((∃ i, fails i = true) ∨ ∃ ind file line, Use.rule ind file line ∈ us ∧ es.length ≤ ind)) ∨
    ∃ m' ls' es' as s', uses fails es.length (some t) ls us m = .ok (as, ls') m' ∧ es'.length = es.length ∧ Inv m0 m' t ls' es' s'.names s'.pl ∧ AbsRun (∀ i, fails i = false) s us as s' := by
  intro us
  induction us with
  | nil => intro m ls es s h; exact .inr ⟨m, ls, es, [], s, rfl, rfl, h, .nil s⟩
  | cons u us ih =>
    intro m ls es s h
    rcases use_ok (fails := fails) hm0 h u with ⟨hd, hw⟩ | ⟨m1, ls1, es1, g, h1, h2, h3, h4⟩
    · left
      refine ⟨by simp only [uses, hd, R.bind], hw.imp id ?_⟩
      rintro ⟨i, f, l, rfl, h⟩
      exact ⟨i, f, l, by simp, h⟩
    · rcases ih h3 with ⟨hd, hw⟩ | ⟨m2, ls2, es2, as, s2, g1, g2, g3, g4⟩
      · left
        rw [h2] at hd hw
        refine ⟨by simp only [uses, h1, R.bind, hd], hw.imp id ?_⟩
        rintro ⟨i, f, l, hm, h⟩
        exact ⟨i, f, l, by simp [hm], h⟩
      · right
        rw [h2] at g1
        refine ⟨m2, ls2, es2, _, s2, ?_, by rw [g2, h2], g3, .cons s u us as s2 g (fun hg hl => ?_) g4⟩
        · simp only [uses, h1, R.bind, g1]
        · have := h4 hg; rw [hl] at this; cases this

theorem freeLabels_ok : ∀ (ls : List Nat) (m : TMem), ls.Nodup → (∀ p ∈ ls, m.cells p ≠ none) →
    ∃ m', freeLabels ls m = .ok () m' ∧ ∀ x, m'.cells x = if x ∈ ls then none else m.cells x := by
  intro ls
  induction ls with
  | nil => intro m _ _; exact ⟨m, rfl, fun x => by simp⟩
  | cons p ps ih =>
    intro m hn hc
    rw [List.nodup_cons] at hn
    cases hp : m.cells p with
    | none => exact absurd hp (hc p (by simp))
    | some c =>
      obtain ⟨m', h1, h2⟩ := ih { m with cells := fun x => if x = p then none else m.cells x } hn.2 (fun q hq => by
        dsimp only
        rw [if_neg (fun e : q = p => hn.1 (e ▸ hq))]
        exact hc q (by simp [hq]))
      refine ⟨m', ?_, fun x => ?_⟩
      · simp only [freeLabels, free, hp, R.bind, h1]
      · rw [h2]
        dsimp only
        by_cases e : x = p
        · subst e; simp
        · simp [e]

theorem freeStates_ok {t : Nat} {es : List (Option (Nat × Nat))} : ∀ (left i : Nat) (m : TMem), i + left = es.length → m.cells t = some (.table (es.map fun e => e.map Prod.fst)) →
    (∀ j p f, i ≤ j → es[j]? = some (some (p, f)) → (∃ n, m.cells p = some (.state (some f) n)) ∧ m.cells f ≠ none) → (t :: addrs (es.drop i)).Nodup →
    ∃ m', freeStates (some t) left i m = .ok () m' ∧ ∀ x, m'.cells x = if x ∈ addrs (es.drop i) then none else m.cells x := by
  intro left
  induction left with
  | zero =>
    intro i m hi _ _ _
    refine ⟨m, rfl, fun x => ?_⟩
    rw [List.drop_eq_nil_of_le (by omega)]
    simp [addrs]
  | succ left ih =>
    intro i m hi ht hc hn
    have hlt : i < es.length := by omega
    have hget : es[i]? = some es[i] := List.getElem?_eq_getElem hlt
    have hdrop := List.drop_eq_getElem_cons hlt
    have hmap : (es.map fun e => e.map Prod.fst)[i]? = some (es[i].map Prod.fst) := by rw [List.getElem?_map, hget]; rfl
    cases he : es[i] with
    | none =>
      rw [he] at hdrop hmap hget
      rw [hdrop, addrs] at hn
      obtain ⟨m', h1, h2⟩ := ih (i + 1) m (by omega) ht (fun j p f hj => hc j p f (by omega)) hn
      refine ⟨m', ?_, fun x => ?_⟩
      · simp only [Option.map_none] at hmap
        simp only [freeStates, Option.bind_some, ht, hmap, h1]
      · rw [h2, hdrop, addrs]
    | some pf =>
      obtain ⟨p, f⟩ := pf
      rw [he] at hdrop hmap hget
      obtain ⟨⟨n, hp⟩, hf⟩ := hc i p f (Nat.le_refl _) hget
      rw [hdrop, addrs] at hn
      have hn' := hn
      simp only [List.nodup_cons, List.mem_cons, not_or] at hn'
      obtain ⟨⟨t1, t2, t3⟩, ⟨p1, p2⟩, f1, hnd⟩ := hn'
      cases hfc : m.cells f with
      | none => exact absurd hfc hf
      | some c =>
        obtain ⟨m', h1, h2⟩ := ih (i + 1) { m with cells := fun x => if x = p then none else if x = f then none else m.cells x } (by omega)
          (by dsimp only; rw [if_neg t1, if_neg t2]; exact ht)
          (fun j q g hj hq => by
            have hm : q ∈ addrs (es.drop (i + 1)) ∧ g ∈ addrs (es.drop (i + 1)) := mem_addrs (i := j - (i + 1)) (by
              rw [List.getElem?_drop]
              have e : i + 1 + (j - (i + 1)) = j := by omega
              rw [e]; exact hq)
            obtain ⟨⟨k, hk⟩, hg⟩ := hc j q g (by omega) hq
            dsimp only
            rw [if_neg (fun e : q = p => p2 (e ▸ hm.1)), if_neg (fun e : q = f => f1 (e ▸ hm.1)), if_neg (fun e : g = p => p2 (e ▸ hm.2)), if_neg (fun e : g = f => f1 (e ▸ hm.2))]
            exact ⟨⟨k, hk⟩, hg⟩)
          (List.nodup_cons.2 ⟨t3, hnd⟩)
        refine ⟨m', ?_, fun x => ?_⟩
        · simp only [Option.map_some] at hmap
          simp only [freeStates, Option.bind_some, ht, hmap, hp, free, hfc, R.bind, if_neg p1]
          exact h1
        · rw [h2, hdrop, addrs]
          dsimp only
          by_cases e1 : x = p
          · subst e1; simp
          · by_cases e2 : x = f
            · subst e2; simp
            · simp [e1, e2]

theorem labels_allocated {m : TMem} {ls : List Nat} {names : List (List Char)} (h : List.Forall₂ (fun p s => m.cells p = some (.str s)) ls names) : ∀ p ∈ ls, m.cells p ≠ none := by
  induction h with
  | nil => simp
  | cons h _ ih =>
    intro p hp
    rcases List.mem_cons.1 hp with e | hp
    · rw [e, h]; simp
    · exact ih p hp

/-- The whole: no misuse, and afterwards memory is as it was. -/
theorem tables_ok {fails : Nat → Bool} {m : TMem} (hm : TablesOrdinary m) (num : Nat) (us : List Use) (hfirst : fails m.asked = false) :
    (tables fails num us m = .die ∧ ((∃ i, fails i = true) ∨ ∃ ind file line, Use.rule ind file line ∈ us ∧ num ≤ ind)) ∨
    ∃ as m' s', tables fails num us m = .ok as m' ∧ (∀ x, m'.cells x = m.cells x) ∧ AbsRun (∀ i, fails i = false) ⟨[], fun _ => none⟩ us as s' := by
  have hreq : request fails (.table (List.replicate num none)) m =
      (some m.brk, ⟨fun x => if x = m.brk then some (.table (List.replicate num none)) else m.cells x, m.brk + 1, m.asked + 1⟩) := by
    rw [request, if_neg (by rw [hfirst]; decide)]
  have haddr : ∀ k, addrs (List.replicate k none) = [] := by
    intro k
    induction k with
    | zero => rfl
    | succ k ih => rw [List.replicate_succ, addrs, ih]
  have hinv : Inv m ⟨fun x => if x = m.brk then some (.table (List.replicate num none)) else m.cells x, m.brk + 1, m.asked + 1⟩ m.brk [] (List.replicate num none) [] (fun _ => none) := by
    refine ⟨by simp, .nil, ?_, fun _ _ => rfl, by simp [owned, haddr], ?_, ?_, by simp⟩
    · intro i p f h
      rw [List.getElem?_replicate] at h
      split at h <;> simp at h
    · intro x hx
      simp only [owned, haddr, List.append_nil, List.mem_cons, List.not_mem_nil, or_false] at hx
      subst hx; simp
    · intro x hx
      simp only [owned, haddr, List.append_nil, List.mem_cons, List.not_mem_nil, or_false] at hx
      simp [hx]
  have hlen : (List.replicate num (none : Option (Nat × Nat))).length = num := List.length_replicate
  unfold tables
  rw [hreq]
  dsimp only
  rcases uses_ok (fails := fails) hm us (s := ⟨[], fun _ => none⟩) hinv with ⟨hd, hw⟩ | ⟨m1, ls, es, as, s', h1, h2, h3, h4⟩
  · left
    rw [hlen] at hd hw
    exact ⟨by rw [hd]; rfl, hw⟩
  · right
    rw [hlen] at h1 h2
    have hnd := h3.nodup
    rw [owned, List.nodup_cons, List.nodup_append] at hnd
    obtain ⟨n1, n2, n3, n4⟩ := hnd
    rw [List.mem_append, not_or] at n1
    obtain ⟨m2, g1, g2⟩ := freeLabels_ok ls m1 n2 (fun p hp => labels_allocated h3.lab p hp)
    have hkeep : ∀ x, x ∉ ls → m2.cells x = m1.cells x := fun x hx => by rw [g2, if_neg hx]
    obtain ⟨m3, k1, k2⟩ := freeStates_ok (t := m.brk) (es := es) num 0 m2 (by omega) (by rw [hkeep _ n1.1]; exact h3.tab) (fun j p f _ hj => by
      obtain ⟨q, n, _, c2, c3⟩ := h3.ent j p f hj
      obtain ⟨a1, a2⟩ := mem_addrs hj
      rw [hkeep p (fun hh => n4 p hh p a1 rfl), hkeep f (fun hh => n4 f hh f a2 rfl)]
      exact ⟨⟨n, c2⟩, by rw [c3]; simp⟩) (by rw [List.drop_zero]; exact List.nodup_cons.2 ⟨n1.2, n3⟩)
    rw [List.drop_zero] at k2
    have ht : m3.cells m.brk = some (.table (es.map fun e => e.map Prod.fst)) := by rw [k2, if_neg n1.2, hkeep _ n1.1]; exact h3.tab
    refine ⟨as, { m3 with cells := fun x => if x = m.brk then none else m3.cells x }, s', ?_, fun x => ?_, h4⟩
    · rw [h1]
      simp only [R.bind, g1, freePrevious, k1, free, ht]
    · dsimp only
      have hout : ∀ x, m.brk ≤ x → m.cells x = none := hm
      by_cases e : x = m.brk
      · rw [if_pos e, hout x (by omega)]
      · rw [if_neg e, k2, g2]
        by_cases e1 : x ∈ addrs es
        · rw [if_pos e1, hout x (h3.rng x (by simp [owned, e1])).1]
        · rw [if_neg e1]
          by_cases e2 : x ∈ ls
          · rw [if_pos e2, hout x (h3.rng x (by simp [owned, e2])).1]
          · rw [if_neg e2]; exact h3.rest x (by simp [owned, e, e1, e2])

/-- Rules on the drawing. -/
theorem absRun_rules {lasts : Prop} {s s' : Abs} {us : List Use} {as : List Ans} (h : AbsRun lasts s us as s') :
    ∀ (i ind : Nat) (file : List Char) (line : Nat), us[i]? = some (.rule ind file line) →
      as[i]? = some (.earlier (match s.pl ind with | some p => some p | none => firstRule (us.take i) ind)) := by
  induction h with
  | nil => intro i ind file line h; simp at h
  | cons s u us as s' g _ _ ih =>
    intro i ind file line h
    cases i with
    | zero =>
      simp only [List.getElem?_cons_zero, Option.some.injEq] at h
      subst h
      simp only [List.getElem?_cons_zero, absUse, List.take_zero, firstRule]
      cases s.pl ind <;> rfl
    | succ i =>
      rw [List.getElem?_cons_succ] at h
      rw [List.getElem?_cons_succ, ih i ind file line h, List.take_succ_cons]
      congr 2
      cases u with
      | label name =>
        have e : (absUse g s (.label name)).2.pl = s.pl := by
          simp only [absUse]
          split
          · rfl
          · split <;> rfl
        rw [e, firstRule]
      | rule ind' file' line' =>
        rw [firstRule]
        simp only [absUse]
        cases hp : s.pl ind' with
        | some p =>
          dsimp only
          by_cases e : ind' = ind
          · subst e; rw [hp]
          · rw [if_neg e]
        | none =>
          dsimp only
          by_cases e : ind' = ind
          · subst e; rw [if_pos rfl, if_pos rfl, hp]
          · rw [if_neg e, if_neg (fun x => e x.symm)]

/-- Labels on the drawing: the names never change, are different and are those asked for. -/
theorem absRun_labels {lasts : Prop} {s s' : Abs} {us : List Use} {as : List Ans} (h : AbsRun lasts s us as s') (hshort : ∀ n, Use.label n ∈ us → n.length ≤ MAX_BPF_LABEL_LEN)
    (hnd : s.names.Nodup) (hlen : s.names.length ≤ BPF_LABELS_MAX) :
    s.names <+: s'.names ∧ s'.names.Nodup ∧ s'.names.length ≤ BPF_LABELS_MAX ∧ (∀ n ∈ s'.names, n ∈ s.names ∨ Use.label n ∈ us) ∧
    (∀ (i : Nat) n, us[i]? = some (.label n) → ∃ r : Option Nat, as[i]? = some (.id r) ∧ (∀ a, r = some a → s'.names[a]? = some n) ∧
      (lasts → r = none → s'.names.length = BPF_LABELS_MAX)) ∧
    (∀ (i : Nat) r, as[i]? = some (.id r) → ∃ n, us[i]? = some (.label n)) := by
  induction h with
  | nil s => exact ⟨List.prefix_rfl, hnd, hlen, fun n h => .inl h, by simp, by simp⟩
  | cons s u us as s' g hg _ ih =>
    have hs' : ∀ n, Use.label n ∈ us → n.length ≤ MAX_BPF_LABEL_LEN := fun n hn => hshort n (by simp [hn])
    cases u with
    | rule ind file line =>
      have e : (absUse g s (.rule ind file line)).2.names = s.names := by simp only [absUse]; split <;> rfl
      have e2 : ∃ p, (absUse g s (.rule ind file line)).1 = .earlier p := by simp only [absUse]; split <;> exact ⟨_, rfl⟩
      obtain ⟨p, e2⟩ := e2
      rw [e] at ih
      obtain ⟨a1, a2, a3, a4, a5, a6⟩ := ih hs' hnd hlen
      refine ⟨a1, a2, a3, fun n hn => (a4 n hn).imp id (by simp +contextual), ?_, ?_⟩
      · intro i n hi
        cases i with
        | zero => simp at hi
        | succ i => rw [List.getElem?_cons_succ] at hi ⊢; exact a5 i n hi
      · intro i r hi
        cases i with
        | zero => rw [List.getElem?_cons_zero, e2] at hi; simp at hi
        | succ i => rw [List.getElem?_cons_succ] at hi ⊢; exact a6 i r hi
    | label name =>
      have htake : name.take MAX_BPF_LABEL_LEN = name := List.take_of_length_le (hshort name (by simp))
      -- what this use does
      have key : ∃ r, (absUse g s (.label name)).1 = .id r ∧ s.names <+: (absUse g s (.label name)).2.names ∧ (absUse g s (.label name)).2.names.Nodup ∧
          (absUse g s (.label name)).2.names.length ≤ BPF_LABELS_MAX ∧ (∀ n ∈ (absUse g s (.label name)).2.names, n ∈ s.names ∨ n = name) ∧
          (∀ a, r = some a → (absUse g s (.label name)).2.names[a]? = some name) ∧ (lasts → r = none → (absUse g s (.label name)).2.names.length = BPF_LABELS_MAX) := by
        simp only [absUse]
        cases hi : s.names.idxOf? name with
        | some id =>
          refine ⟨some id, rfl, List.prefix_rfl, hnd, hlen, fun n h => .inl h, ?_, by simp⟩
          intro a ha
          cases ha
          rw [List.idxOf?_eq_some_iff] at hi
          obtain ⟨hlt, he, -⟩ := hi
          dsimp only
          rw [List.getElem?_eq_getElem hlt]
          simpa using he
        | none =>
          dsimp only
          by_cases hc : s.names.length = BPF_LABELS_MAX ∨ g = false
          · rw [if_pos hc]
            refine ⟨none, rfl, List.prefix_rfl, hnd, hlen, fun n h => .inl h, by simp, fun hl _ => ?_⟩
            rcases hc with hc | hc
            · exact hc
            · exact absurd hl (hg hc)
          · rw [if_neg hc, htake]
            rw [not_or] at hc
            rw [List.idxOf?_eq_none_iff] at hi
            refine ⟨some s.names.length, rfl, ⟨[name], rfl⟩, ?_, ?_, ?_, ?_, by simp⟩
            · rw [List.nodup_append]
              refine ⟨hnd, by simp, fun a ha b hb e => hi ?_⟩
              rw [List.mem_singleton.1 hb] at e
              exact e ▸ ha
            · rw [List.length_append, List.length_singleton]; have := hc.1; omega
            · intro n hn
              rcases List.mem_append.1 hn with h | h
              · exact .inl h
              · exact .inr (List.mem_singleton.1 h)
            · intro a ha
              cases ha
              simp
      obtain ⟨r, k1, k2, k3, k4, k5, k6, k7⟩ := key
      obtain ⟨a1, a2, a3, a4, a5, a6⟩ := ih hs' k3 k4
      refine ⟨k2.trans a1, a2, a3, ?_, ?_, ?_⟩
      · intro n hn
        rcases a4 n hn with h | h
        · rcases k5 n h with h | h
          · exact .inl h
          · right; simp [h]
        · right; simp [h]
      · intro i n hi
        cases i with
        | zero =>
          simp only [List.getElem?_cons_zero, Option.some.injEq, Use.label.injEq] at hi
          subst hi
          refine ⟨r, by rw [List.getElem?_cons_zero, k1], fun a ha => ?_, fun hl hr => ?_⟩
          · obtain ⟨rest, hrest⟩ := a1
            have := k6 a ha
            rw [← hrest, List.getElem?_append_left]
            · exact this
            · exact (List.getElem?_eq_some_iff.1 this).1
          · have := k7 hl hr
            have := a1.length_le
            omega
        | succ i => rw [List.getElem?_cons_succ] at hi ⊢; exact a5 i n hi
      · intro i q hi
        cases i with
        | zero => exact ⟨name, rfl⟩
        | succ i => rw [List.getElem?_cons_succ] at hi ⊢; exact a6 i q hi

end Minijail.Tables
