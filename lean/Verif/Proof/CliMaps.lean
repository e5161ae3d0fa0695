import Verif.Spec.IdMap
import Verif.Proof.CliValues
/-! Maps of ids: the variables of the front end and the text it makes. -/
set_option linter.unusedSimpArgs false
set_option autoImplicit false
namespace Minijail
open Spec

theorem carried_uidmap {env : CliEnv} {j0 : Jail} : Carried env j0 fun c => ∀ a, Last c.entries (letter 'm') a → c.uidmap = a where
  step := by
    intro c n o arg I q _ hopt
    have ho : IsOpt (letter 'm') .m := isOpt_letter (by decide +kernel)
    refine all_mono (all_and optStep_effect optStep_locals) ?_
    rintro c' ⟨E, L⟩ a hl
    rw [E.entries] at hl
    rw [L.uidmap]
    rcases last_append hl with ⟨h, rfl⟩ | ⟨h, hl⟩
    · rw [if_pos ((isOpt_iff ho hopt).1 h)]
    · rw [if_neg fun x => h ((isOpt_iff ho hopt).2 x)]
      exact q a hl
  confs := fun c es q => q

theorem carried_gidmap {env : CliEnv} {j0 : Jail} : Carried env j0 fun c => ∀ a, Last c.entries (letter 'M') a → c.gidmap = a where
  step := by
    intro c n o arg I q _ hopt
    have ho : IsOpt (letter 'M') .M := isOpt_letter (by decide +kernel)
    refine all_mono (all_and optStep_effect optStep_locals) ?_
    rintro c' ⟨E, L⟩ a hl
    rw [E.entries] at hl
    rw [L.gidmap]
    rcases last_append hl with ⟨h, rfl⟩ | ⟨h, hl⟩
    · rw [if_pos ((isOpt_iff ho hopt).1 h)]
    · rw [if_neg fun x => h ((isOpt_iff ho hopt).2 x)]
      exact q a hl
  confs := fun c es q => q

/-- The ids the front end keeps are those in the jail. -/
structure IdsKept (opts : Options) (c : Cli) : Prop where
  uid : Given opts 'u' → c.uid = c.j.uid
  no_uid : ¬ Given opts 'u' → c.uid = 0#32
  gid : GroupLast opts → c.gid = c.j.gid
  user_gid : UserLast opts → c.gid = c.j.usergid
  no_gid : ¬ Given opts 'g' → (∀ p ∈ opts, ¬ NamedUser p) → c.gid = 0#32

theorem setUser_kept {env : CliEnv} {c : Cli} {a : CStr} : (setUser env c a).All fun c' => c'.uid = c'.j.uid ∧ c'.j.gid = c.j.gid ∧
    ((∀ i, ¬ Decimal a i) → c'.gid = c'.j.usergid) ∧ ((∃ i, Decimal a i) → c'.gid = c.gid) := by
  unfold setUser
  split
  · next id e =>
    refine all_lib fun rc j h => ?_
    simp only [call, changeUid] at h
    split at h
    · simp at h
    · simp only [ApiRes.ok, ApiRes.ret.injEq] at h
      rw [← h.2]
      exact ⟨rfl, rfl, fun q => by obtain ⟨i, hi⟩ := decimalId_some e; exact absurd hi (q i), fun _ => rfl⟩
  · next e =>
    split
    · trivial
    · next uid gid hu =>
      refine all_libMust fun j h => ?_
      simp only [call, changeUser, hu, changeUid] at h
      by_cases h0 : uid = 0#32
      · rw [if_pos h0] at h; simp at h
      · rw [if_neg h0] at h
        simp only [ApiRes.ok] at h
        split at h
        · simp [ENOMEM] at h
        · simp only [ApiRes.ret.injEq, true_and] at h
          rw [← h]
          exact ⟨rfl, rfl, fun _ => rfl, fun ⟨i, hi⟩ => absurd hi (decimalId_none e i)⟩

theorem setGroup_kept {env : CliEnv} {c : Cli} {a : CStr} : (setGroup env c a).All fun c' => c'.uid = c.uid ∧ c'.j.uid = c.j.uid ∧ c'.gid = c'.j.gid := by
  have key : ∀ g, (lib env { c with gid := g } (.changeGid g)).All fun c' => c'.uid = c.uid ∧ c'.j.uid = c.j.uid ∧ c'.gid = c'.j.gid := by
    intro g
    refine all_lib fun rc j h => ?_
    simp only [call, changeGid] at h
    split at h
    · simp at h
    · simp only [ApiRes.ok, ApiRes.ret.injEq] at h
      rw [← h.2]
      exact ⟨rfl, rfl, rfl⟩
  unfold setGroup
  split
  · exact key _
  · split
    · trivial
    · exact key _

theorem groupLast_append {opts : Options} {p : Nat × Option CStr} (h : GroupLast (opts ++ [p])) : letter 'g' p.1 ∨ (¬ NamedUser p ∧ GroupLast opts) := by
  obtain ⟨b, x, af, e, hx, hl⟩ := h
  rcases append_last e with ⟨rfl, _, e⟩ | ⟨af', rfl, e'⟩
  · exact .inl (by rw [e]; exact hx)
  · exact .inr ⟨hl p (by simp), b, x, af', e', hx, fun q hq => hl q (by simp [hq])⟩

theorem userLast_append {opts : Options} {p : Nat × Option CStr} (h : UserLast (opts ++ [p])) : NamedUser p ∨ (¬ letter 'g' p.1 ∧ UserLast opts) := by
  obtain ⟨b, x, af, e, hx, hl⟩ := h
  rcases append_last e with ⟨rfl, _, e⟩ | ⟨af', rfl, e'⟩
  · exact .inl (by rw [e]; exact hx)
  · exact .inr ⟨hl p (by simp), b, x, af', e', hx, fun q hq => hl q (by simp [hq])⟩

theorem given_append {opts : Options} {p : Nat × Option CStr} {ch : Char} : Given (opts ++ [p]) ch ↔ Given opts ch ∨ letter ch p.1 := by
  constructor
  · rintro ⟨a, h⟩
    rcases List.mem_append.1 h with h | h
    · exact .inl ⟨a, h⟩
    · exact .inr (by rw [← List.mem_singleton.1 h]; rfl)
  · rintro (⟨a, h⟩ | h)
    · exact ⟨a, List.mem_append_left _ h⟩
    · exact ⟨p.2, List.mem_append_right _ (by rw [← h]; exact List.mem_singleton.2 rfl)⟩

theorem carried_ids {env : CliEnv} {j0 : Jail} : Carried env j0 fun c => c.parse_mode = false → IdsKept c.entries c where
  step := by
    intro c n o arg I q _ hopt
    have hu : IsOpt (letter 'u') .u := isOpt_letter (by decide +kernel)
    have hg : IsOpt (letter 'g') .g := isOpt_letter (by decide +kernel)
    have hE : (optStep env { c with entries := c.entries ++ [(n, arg)] } o arg).All (Effect o { c with entries := c.entries ++ [(n, arg)] }) := optStep_effect
    by_cases hm : c.parse_mode = false
    swap
    · refine all_mono hE ?_
      intro c' E hm'
      exact absurd (not_parsing E hm') hm
    have Q := q hm
    by_cases h1 : o = .u
    · subst h1
      have ou : letter 'u' n := (isOpt_iff hu hopt).2 rfl
      have og : ¬ letter 'g' n := fun x => by have := (isOpt_iff hg hopt).1 x; cases this
      have hs : (optStep env { c with entries := c.entries ++ [(n, arg)] } .u arg).All fun c' => ∃ a, arg = some a ∧ (c'.uid = c'.j.uid ∧ c'.j.gid = c.j.gid ∧
          ((∀ i, ¬ Decimal a i) → c'.gid = c'.j.usergid) ∧ ((∃ i, Decimal a i) → c'.gid = c.gid)) := by
        simp only [optStep, hm, Bool.false_eq_true, if_false]
        refine all_bind (all_refuse fun _ => all_bind (all_need fun a ha => ?_))
        exact all_mono setUser_kept fun c' v => ⟨a, ha, v⟩
      refine all_mono (all_and hE hs) ?_
      rintro c' ⟨E, a, rfl, k1, k2, k3, k4⟩ _
      have h0 : count c.entries .u = 0 := by
        have hx := E.u_once rfl
        dsimp only at hx
        rw [I.loop.use_uid, hx]; rfl
      have hnu : ∀ p ∈ c.entries, ¬ letter 'u' p.1 := fun p hp x => count_zero h0 p.2 (by rw [← (hu _).1 x]; exact hp)
      rw [E.entries]
      dsimp only
      constructor
      · exact fun _ => k1
      · exact fun x => absurd (given_append.2 (.inr ou)) x
      · intro x
        rcases groupLast_append x with x | ⟨x, y⟩
        · exact absurd x og
        · have : ∃ i, Decimal a i := Classical.byContradiction fun z => x ⟨ou, a, rfl, fun i hi => z ⟨i, hi⟩⟩
          rw [k4 this, k2]; exact Q.gid y
      · intro x
        rcases userLast_append x with ⟨_, b, hb, x⟩ | ⟨_, y⟩
        · cases hb; exact k3 x
        · obtain ⟨b, p, af, e, hp, _⟩ := y
          exact absurd hp.1 (hnu p (by rw [e]; simp))
      · intro x y
        have : ∃ i, Decimal a i := Classical.byContradiction fun z => y (n, some a) (by simp) ⟨ou, a, rfl, fun i hi => z ⟨i, hi⟩⟩
        rw [k4 this]
        exact Q.no_gid (fun z => x (given_append.2 (.inl z))) fun p hp => y p (by simp [hp])
    · by_cases h2 : o = .g
      · subst h2
        have ou : ¬ letter 'u' n := fun x => by have := (isOpt_iff hu hopt).1 x; cases this
        have og : letter 'g' n := (isOpt_iff hg hopt).2 rfl
        have hs : (optStep env { c with entries := c.entries ++ [(n, arg)] } .g arg).All fun c' => c'.uid = c.uid ∧ c'.j.uid = c.j.uid ∧ c'.gid = c'.j.gid := by
          simp only [optStep, hm, Bool.false_eq_true, if_false]
          refine all_bind (all_refuse fun _ => all_bind (all_need fun a ha => ?_))
          exact setGroup_kept
        refine all_mono (all_and hE hs) ?_
        rintro c' ⟨E, k1, k2, k3⟩ _
        rw [E.entries]
        dsimp only
        constructor
        · intro x
          rw [k1, k2]; exact Q.uid ((given_append.1 x).resolve_right ou)
        · intro x
          rw [k1]; exact Q.no_uid fun y => x (given_append.2 (.inl y))
        · exact fun _ => k3
        · intro x
          rcases userLast_append x with ⟨x, _⟩ | ⟨x, _⟩
          · exact absurd x ou
          · exact absurd og x
        · exact fun x => absurd (given_append.2 (.inr og)) x
      · have ou : ¬ letter 'u' n := fun x => h1 ((isOpt_iff hu hopt).1 x)
        have og : ¬ letter 'g' n := fun x => h2 ((isOpt_iff hg hopt).1 x)
        refine all_mono (all_and (all_and hE optStep_locals) optStep_frames) ?_
        rintro c' ⟨⟨E, L⟩, v⟩ _
        have e1 : c'.j.uid = c.j.uid := v .uid (gives_only (o := .u) (by decide +kernel) o h1)
        have e2 : c'.j.gid = c.j.gid := v .gid (gives_only (o := .g) (by decide +kernel) o h2)
        have e3 : c'.j.user = c.j.user ∧ c'.j.usergid = c.j.usergid := v .user (gives_only (o := .u) (by decide +kernel) o h1)
        have e4 : c'.uid = c.uid := L.uid h1
        have e5 : c'.gid = c.gid := L.gid h1 h2
        rw [E.entries]
        dsimp only
        constructor
        · intro x
          rw [e4, e1]; exact Q.uid ((given_append.1 x).resolve_right ou)
        · intro x
          rw [e4]; exact Q.no_uid fun y => x (given_append.2 (.inl y))
        · intro x
          rw [e5, e2]; exact Q.gid ((groupLast_append x).resolve_left og).2
        · intro x
          rw [e5, e3.2]; exact Q.user_gid ((userLast_append x).resolve_left fun z => ou z.1).2
        · intro x y
          rw [e5]; exact Q.no_gid (fun z => x (given_append.2 (.inl z))) fun p hp => y p (by simp [hp])
  confs := fun c es q h => by have := q h; exact ⟨this.uid, this.no_uid, this.gid, this.user_gid, this.no_gid⟩

/-- No option sets a map; that is left for the end. -/
theorem carried_no_maps {env : CliEnv} {j0 : Jail} : Carried env j0 fun c => c.j.uidmap = j0.uidmap ∧ c.j.gidmap = j0.gidmap where
  step := by
    intro c n o arg I q _ hopt
    refine all_mono optStep_frames ?_
    intro c' v
    have h : ∀ o, Setting.uidmap ∉ optGives o ∧ Setting.gidmap ∉ optGives o := by intro o; cases o <;> decide
    have e1 : c'.j.uidmap = c.j.uidmap := v .uidmap (h o).1
    have e2 : c'.j.gidmap = c.j.gidmap := v .gidmap (h o).2
    rw [e1, e2]; exact q
  confs := fun c es q => q

/-! The text of a map -/

/-- Commas become newlines. -/
def swapCommas (s : CStr) : CStr := s.map fun ch => if ch = ',' then '\n' else ch

theorem fields_chars {d : Char} {s : CStr} {P : Char → Prop} (h : ∀ f ∈ fields d s, ∀ ch ∈ f, P ch) : ∀ ch ∈ s, ch = d ∨ P ch := by
  induction s with
  | nil => simp
  | cons x s ih =>
    intro ch hc
    unfold fields at h
    by_cases hx : x = d
    · rw [if_pos hx] at h
      rcases List.mem_cons.1 hc with rfl | hc
      · exact .inl hx
      · exact ih (fun f hf => h f (by simp [hf])) ch hc
    · rw [if_neg hx] at h
      cases hf : fields d s with
      | nil => exact absurd hf (fields_ne_nil d s)
      | cons g gs =>
        rw [hf] at h ih
        simp only [consHead] at h
        rcases List.mem_cons.1 hc with rfl | hc
        · exact .inr (h (ch :: g) (List.mem_cons_self ..) _ (List.mem_cons_self ..))
        · refine ih (fun f hf ch hch => ?_) ch hc
          rcases List.mem_cons.1 hf with rfl | hf
          · exact h _ (List.mem_cons_self ..) ch (by simp [hch])
          · exact h f (by simp [hf]) ch hch

theorem fields_swap {s : CStr} (h : ∀ ch ∈ s, ch ≠ '\n') : fields '\n' (swapCommas s) = fields ',' s := by
  induction s with
  | nil => rfl
  | cons x s ih =>
    have := ih fun ch hc => h ch (by simp [hc])
    unfold swapCommas at this ⊢
    rw [List.map_cons]
    by_cases hx : x = ','
    · rw [if_pos hx]
      unfold fields
      rw [if_pos rfl, if_pos hx, this]
    · rw [if_neg hx]
      unfold fields
      rw [if_neg (h x (by simp)), if_neg hx, this]

theorem bytes_swap {s : CStr} (h : ∀ ch ∈ s, ch.toNat < 256) : mapLines (bytesOf s) = bytesOf (swapCommas s) := by
  unfold mapLines bytesOf swapCommas
  rw [List.map_map, List.map_map]
  refine List.map_congr_left fun ch hc => ?_
  have hl := h ch hc
  simp only [Function.comp]
  by_cases hx : ch = ','
  · subst hx; rfl
  · rw [if_neg hx, if_neg]
    intro e
    have := congrArg BitVec.toNat e
    rw [BitVec.toNat_ofNat, Nat.mod_eq_of_lt hl] at this
    exact hx (Char.ext (UInt32.toNat_inj.1 this))

theorem digit_plain {ch : Char} (h : isDigitIn 10 ch = true) : 48 ≤ ch.toNat ∧ ch.toNat ≤ 57 := by
  obtain ⟨v, hd, hv⟩ := (digit_iff 10 (by omega) ch).2 h
  unfold digit at hd
  simp only [Char.le_def, UInt32.le_iff_toNat_le, Char.toNat] at *
  have e0 : '0'.val.toNat = 48 := rfl
  have e9 : '9'.val.toNat = 57 := rfl
  have ea : 'a'.val.toNat = 97 := rfl
  have eA : 'A'.val.toNat = 65 := rfl
  rw [e0, e9, ea, eA] at hd
  split at hd
  · omega
  · split at hd
    · injection hd with hd; omega
    · split at hd
      · injection hd with hd; omega
      · cases hd

theorem digits_plain {s : CStr} {n : Nat} (h : Digits 10 s n) : ∀ ch ∈ s, ch.toNat < 256 ∧ ch ≠ '\n' ∧ ch ≠ ' ' ∧ ch ≠ ',' := by
  intro ch hc
  have := digit_plain (((digits_iff 10 (by omega) s n).1 h).1 ch hc)
  have k : ∀ x : Char, x.toNat < 48 → ch ≠ x := fun x hx e => by rw [e] at this; omega
  exact ⟨by omega, k _ (by decide), k _ (by decide), k _ (by decide)⟩

theorem toDigits_digits (n : Nat) : Digits 10 (Nat.toDigits 10 n) n := by
  have hd : ∀ v, v < 10 → digit v.digitChar = some v := by decide
  induction n using Nat.strongRecOn with
  | _ n ih =>
    by_cases h : n < 10
    · rw [Nat.toDigits_of_lt_base h]
      have := Digits.snoc (base := 10) .nil (hd n h) h
      simpa using this
    · rw [Nat.toDigits_of_base_le (by omega) (by omega)]
      have := Digits.snoc (base := 10) (ih (n / 10) (by omega)) (hd (n % 10) (by omega)) (by omega)
      have e : n / 10 * 10 + n % 10 = n := by omega
      rw [e] at this
      exact this

theorem fields_none {d : Char} {s : CStr} (h : d ∉ s) : fields d s = [s] := by
  induction s with
  | nil => rfl
  | cons x s ih =>
    unfold fields
    rw [if_neg (fun e => h (by simp [e])), ih fun q => h (by simp [q])]
    rfl

theorem fields_first {d : Char} {s t : CStr} (h : d ∉ s) : fields d (s ++ d :: t) = s :: fields d t := by
  induction s with
  | nil => rw [List.nil_append]; simp [fields]
  | cons x s ih =>
    have := ih fun q => h (by simp [q])
    rw [List.cons_append, fields, if_neg (fun e => h (by simp [e])), this]
    rfl

/-- The line of a default map. -/
def defaultLine (a b : Nat) : CStr := Nat.toDigits 10 a ++ ' ' :: (Nat.toDigits 10 b ++ ' ' :: ['1'])

theorem defaultLine_line (a b : Nat) : MapLine (defaultLine a b) (a, b, 1) := by
  have h (n : Nat) : ' ' ∉ Nat.toDigits 10 n := fun q => (digits_plain (toDigits_digits n) _ q).2.2.1 rfl
  refine ⟨_, _, ['1'], ?_, toDigits_digits a, toDigits_digits b, toDigits_digits 1⟩
  unfold words defaultLine
  rw [fields_first (h a), fields_first (h b)]
  simp [fields, consHead, Nat.toDigits_ne_nil]

theorem defaultLine_chars (a b : Nat) : ∀ ch ∈ defaultLine a b, ch.toNat < 256 ∧ ch ≠ '\n' ∧ ch ≠ ',' := by
  have h (n : Nat) : ∀ ch ∈ Nat.toDigits 10 n, ch.toNat < 256 ∧ ch ≠ '\n' ∧ ch ≠ ',' := fun ch q => by
    have := digits_plain (toDigits_digits n) ch q
    exact ⟨this.1, this.2.1, this.2.2.2⟩
  intro ch hc
  unfold defaultLine at hc
  simp only [List.mem_append, List.mem_cons, List.not_mem_nil, or_false] at hc
  rcases hc with hc | rfl | hc | rfl | rfl
  · exact h _ _ hc
  · decide
  · exact h _ _ hc
  · decide
  · decide

theorem buildIdmap_text {a b : BitVec 32} (ha : a.toNat < 2 ^ 31) (hb : b.toNat < 2 ^ 31) : buildIdmap a b = bytesOf (defaultLine a.toNat b.toNat) := by
  have k : ∀ x : BitVec 32, x.toNat < 2 ^ 31 → signedDecimal x = bytesOf (Nat.toDigits 10 x.toNat) := by
    intro x hx
    have : x.toInt = (x.toNat : Int) := by
      rw [BitVec.toInt_eq_toNat_of_lt (by omega)]
    unfold signedDecimal bstr bytesOf
    rw [this]
    rw [show (toString (x.toNat : Int)).toList = Nat.toDigits 10 x.toNat from Nat.toList_repr]
  unfold buildIdmap defaultLine
  rw [k a ha, k b hb]
  unfold bytesOf bstr
  rw [List.map_append, List.map_cons, List.map_append, List.map_cons]
  simp

/-- A default map stands for one entry. -/
theorem mapsTo_default {a b : BitVec 32} {m : Option BStr} (ha : a.toNat < 2 ^ 31) (hb : b.toNat < 2 ^ 31) (h : m = some (mapLines (buildIdmap a b))) :
    MapsTo m [(a.toNat, b.toNat, 1)] := by
  have hc := defaultLine_chars a.toNat b.toNat
  have he : swapCommas (defaultLine a.toNat b.toNat) = defaultLine a.toNat b.toNat := by
    unfold swapCommas
    refine (List.map_congr_left (g := id) fun ch q => ?_).trans (List.map_id _)
    rw [if_neg (hc ch q).2.2]; rfl
  refine ⟨defaultLine a.toNat b.toNat, ?_, ?_⟩
  · rw [h, buildIdmap_text ha hb, bytes_swap fun ch q => (hc ch q).1, he]
  · unfold MapText
    rw [fields_none fun q => (hc _ q).2.1 rfl]
    exact .cons (defaultLine_line _ _) .nil

theorem words_fields {d : Char} {s : CStr} {P : Char → Prop} (h : ∀ f ∈ words d s, ∀ ch ∈ f, P ch) : ∀ f ∈ fields d s, ∀ ch ∈ f, P ch := by
  intro f hf ch hc
  refine h f ?_ ch hc
  unfold words
  rw [List.mem_filter]
  exact ⟨hf, by simp only [ne_eq, decide_not, Bool.not_eq_true', decide_eq_false_iff_not]; rintro rfl; simp at hc⟩

theorem mapLine_chars {line : CStr} {e : Nat × Nat × Nat} (h : MapLine line e) : ∀ ch ∈ line, ch.toNat < 256 ∧ ch ≠ '\n' := by
  obtain ⟨a, b, c, hw, ha, hb, hc⟩ := h
  intro ch hm
  have := fields_chars (P := fun ch => ch.toNat < 256 ∧ ch ≠ '\n') (words_fields (d := ' ') (s := line) (by
    intro f hf ch hc'
    rw [hw] at hf
    simp only [List.mem_cons, List.not_mem_nil, or_false] at hf
    rcases hf with rfl | rfl | rfl
    · exact ⟨(digits_plain ha ch hc').1, (digits_plain ha ch hc').2.1⟩
    · exact ⟨(digits_plain hb ch hc').1, (digits_plain hb ch hc').2.1⟩
    · exact ⟨(digits_plain hc ch hc').1, (digits_plain hc ch hc').2.1⟩)) ch hm
  rcases this with rfl | h
  · decide
  · exact h

/-- Entries that are given arrive. -/
theorem mapsTo_given {a : CStr} {es : List (Nat × Nat × Nat)} {m : Option BStr} (h : List.Forall₂ MapLine (fields ',' a) es) (hm : m = some (mapLines (bytesOf a))) :
    MapsTo m es := by
  have hf : ∀ f ∈ fields ',' a, ∀ ch ∈ f, ch.toNat < 256 ∧ ch ≠ '\n' := by
    generalize fields ',' a = l at h
    clear hm
    induction h with
    | nil => simp
    | cons h _ ih =>
      intro f hf
      rcases List.mem_cons.1 hf with rfl | hf
      · exact mapLine_chars h
      · exact ih f hf
  have hc : ∀ ch ∈ a, ch.toNat < 256 ∧ ch ≠ '\n' := by
    intro ch hc
    rcases fields_chars hf ch hc with rfl | h
    · decide
    · exact h
  refine ⟨swapCommas a, ?_, ?_⟩
  · rw [hm, bytes_swap fun ch q => (hc ch q).1]
  · unfold MapText
    rw [fields_swap fun ch q => (hc ch q).2]
    exact h

end Minijail
