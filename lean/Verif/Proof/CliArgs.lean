import Verif.Spec.CliValues
import Verif.Proof.Number
import Verif.Proof.Const
import Verif.Proof.Text
import Verif.Proof.CliDone
/-! What the front end reads in the arguments of its options. -/
set_option linter.unusedSimpArgs false
set_option autoImplicit false
namespace Minijail
open Spec

theorem decimalId_num {a : CStr} {n : Nat} {id : BitVec 32} (h : Decimal a n) (hn : n < 2 ^ 32) (e : decimalId a = some id) : id.toNat = n := by
  obtain ⟨neg, m, h1, h2⟩ := (signed_decimal_iff a n).1 h
  unfold decimalId strtoul at e
  rw [h1] at e
  dsimp only at e
  have hm : m = n ∧ (neg = true → m = 0) := by
    cases neg
    · simp at h2; exact ⟨by omega, by simp⟩
    · simp at h2; exact ⟨by omega, fun _ => by omega⟩
  rw [if_pos (by omega)] at e
  dsimp only at e
  rw [if_pos rfl] at e
  injection e with e
  rw [← e]
  cases neg
  · simp only [Bool.false_eq_true, if_false]
    rw [BitVec.ofInt_natCast, BitVec.toNat_ofNat]
    omega
  · have := hm.2 rfl
    subst this
    simp
    omega

theorem decimalId_none {a : CStr} (e : decimalId a = none) (i : Int) : ¬ Decimal a i := by
  intro h
  obtain ⟨neg, m, h1, h2⟩ := (signed_decimal_iff a i).1 h
  unfold decimalId strtoul at e
  rw [h1] at e
  dsimp only at e
  split at e
  · next h =>
    split at h
    · cases h; simp at e
    · cases h; simp at e
  · next h => split at h <;> simp at h

theorem strtoul_rest {base : Nat} {a rest : CStr} {neg : Bool} {m : Nat} {r : StrtolRes} (h : strtolScan base a = some (neg, m, rest)) (e : strtoul 64 base a = some r) :
    r.rest = rest := by
  unfold strtoul at e
  rw [h] at e
  dsimp only at e
  split at e <;> (injection e with e; subst e; rfl)

theorem decimalId_some {a : CStr} {id : BitVec 32} (e : decimalId a = some id) : ∃ i, Decimal a i := by
  unfold decimalId at e
  split at e
  · next r hr =>
    split at e
    · next h0 =>
      cases h : strtolScan 10 a with
      | none => unfold strtoul at hr; rw [h] at hr; simp at hr
      | some x =>
        obtain ⟨neg, m, rest⟩ := x
        have := strtoul_rest h hr
        rw [h0] at this
        subst this
        exact ⟨_, (signed_decimal_iff a _).2 ⟨neg, m, h, rfl⟩⟩
    · simp at e
  · simp at e

/-- A number that is an id. -/
theorem idOf_num {lookup : BStr → Option (BitVec 32)} {a : CStr} {id : BitVec 32} (e : decimalId a = some id) : IdOf lookup a id :=
  ⟨fun n h hn => decimalId_num h hn e, fun h => absurd (decimalId_some e) (by rintro ⟨i, q⟩; exact h i q)⟩

theorem idOf_name {lookup : BStr → Option (BitVec 32)} {a : CStr} {id : BitVec 32} (e : decimalId a = none) (h : lookup (bytesOf a) = some id) : IdOf lookup a id :=
  ⟨fun n q _ => absurd q (decimalId_none e n), fun _ => h⟩

theorem mag16 {ds : CStr} {m : Nat} (h0 : ds ≠ []) (h1 : Digits 16 ds m) : strtolMag 16 ds = some (m, []) := by
  simp only [strtolMag, strtolPrefix]
  exact (mag_full 16 ds m).2 ⟨h0, (digits_iff 16 (by omega) ds m).1 h1⟩

theorem hex_mag (s : CStr) (m : Nat) (h : HexDigits s m) : strtolMag 16 (skipHex s) = some (m, []) := by
  obtain ⟨ds, h0, h1, h2⟩ := h
  have hd := ((digits_iff 16 (by omega) ds m).1 h1).1
  have hx := isDigitIn_x 16 (by omega)
  rcases h2 with rfl | rfl | rfl
  · have : skipHex s = s := by
      unfold skipHex
      split
      · exact absurd (hd 'x' (by simp)) (by simp [hx.1])
      · exact absurd (hd 'X' (by simp)) (by simp [hx.2])
      · rfl
    rw [this]; exact mag16 h0 h1
  · cases ds with
    | nil => exact absurd rfl h0
    | cons d t =>
      have : skipHex ('0' :: 'x' :: d :: t) = d :: t := by simp [skipHex, hd d (by simp)]
      rw [this]; exact mag16 h0 h1
  · cases ds with
    | nil => exact absurd rfl h0
    | cons d t =>
      have : skipHex ('0' :: 'X' :: d :: t) = d :: t := by simp [skipHex, hd d (by simp)]
      rw [this]; exact mag16 h0 h1

theorem hex_head {s : CStr} {m : Nat} (h : HexDigits s m) : ∃ c t, s = c :: t ∧ isDigitIn 16 c = true := by
  obtain ⟨ds, h0, h1, h2⟩ := h
  have hd := ((digits_iff 16 (by omega) ds m).1 h1).1
  rcases h2 with rfl | rfl | rfl
  · cases s with
    | nil => exact absurd rfl h0
    | cons d t => exact ⟨d, t, rfl, hd d (by simp)⟩
  · exact ⟨_, _, rfl, by decide⟩
  · exact ⟨_, _, rfl, by decide⟩

theorem hex_plain {c : Char} (h : isDigitIn 16 c = true) : isspace c = false ∧ c ≠ '-' ∧ c ≠ '+' := by
  refine ⟨?_, ?_, ?_⟩
  · cases hs : isspace c
    · rfl
    · simp only [isspace, Bool.or_eq_true, beq_iff_eq] at hs
      rcases hs with ((((rfl | rfl) | rfl) | rfl) | rfl) | rfl <;> revert h <;> decide
  · rintro rfl; revert h; decide
  · rintro rfl; revert h; decide

/-- The mask that is read is the one that is written. -/
theorem hexMask_mask {a : CStr} {m : BitVec 64} (e : hexMask a = some m) : MaskOf a m := by
  intro n h hn
  have hm0 : ∀ (k : Nat) (neg : Bool), strtolMag 16 (skipHex (strtolSign (a.dropWhile isspace)).2) = some (k, []) → (strtolSign (a.dropWhile isspace)).1 = neg →
      (n : Int) = (if neg then -(k : Int) else k) → m.toNat = n := by
    intro k neg h1 h2 h3
    unfold hexMask at e
    dsimp only at e
    rw [h1] at e
    dsimp only at e
    rw [h2] at e
    have : k < 2 ^ 64 := by split at h3 <;> omega
    rw [if_neg (by simp), if_pos this, ← h3] at e
    injection e with e
    rw [← e, BitVec.ofInt_natCast, BitVec.toNat_ofNat]
    omega
  generalize hi : (n : Int) = i at h
  cases h with
  | @plain ws s n' hws hl =>
    obtain ⟨c, t, rfl, hc⟩ := hex_head hl
    obtain ⟨h1, h2, h3⟩ := hex_plain hc
    have hdw := dropWhile_white ws (c :: t) hws (by rintro c' t' heq; simp at heq; rw [← heq.1]; exact h1)
    have hs : strtolSign (c :: t) = (false, c :: t) := by
      unfold strtolSign
      split
      · next heq => simp at heq; exact absurd heq.1 h2
      · next heq => simp at heq; exact absurd heq.1 h3
      · rfl
    refine hm0 n' false ?_ ?_ (by simpa using hi) <;> rw [hdw, hs]
    exact hex_mag _ _ hl
  | @plus ws s n' hws hl =>
    have hdw := dropWhile_white ws ('+' :: s) hws (by rintro c' t' heq; simp at heq; rw [← heq.1]; decide)
    refine hm0 n' false ?_ ?_ (by simpa using hi) <;> rw [hdw] <;> simp only [strtolSign]
    exact hex_mag _ _ hl
  | @minus ws s n' hws hl =>
    have hdw := dropWhile_white ws ('-' :: s) hws (by rintro c' t' heq; simp at heq; rw [← heq.1]; decide)
    refine hm0 n' true ?_ ?_ (by simpa using hi) <;> rw [hdw] <;> simp only [strtolSign]
    exact hex_mag _ _ hl

theorem foldl_bits (has : Nat → Option Bool) : ∀ (n : Nat) (i : Nat), i < 64 →
    (((List.range n).foldl (fun caps i => if has i = some true then caps ||| 1#64 <<< i else caps) 0#64).getLsbD i = true ↔ i < n ∧ has i = some true) := by
  intro n
  induction n with
  | zero => intro i hi; simp
  | succ n ih =>
    intro i hi
    rw [List.range_succ, List.foldl_append, List.foldl_cons, List.foldl_nil]
    have ihi := ih i hi
    split
    · next h =>
      rw [BitVec.getLsbD_or, Bool.or_eq_true, ihi]
      have h1 : (1#64 <<< n).getLsbD i = true ↔ i = n := by
        simp only [BitVec.getLsbD_shiftLeft, BitVec.getLsbD_one]
        simp
        omega
      rw [h1]
      constructor
      · rintro (q | rfl)
        · exact ⟨by omega, q.2⟩
        · exact ⟨by omega, h⟩
      · rintro ⟨q1, q2⟩
        by_cases e : i = n
        · exact .inr e
        · exact .inl ⟨by omega, q2⟩
    · next h =>
      rw [ihi]
      constructor
      · rintro ⟨q1, q2⟩; exact ⟨by omega, q2⟩
      · rintro ⟨q1, q2⟩
        refine ⟨?_, q2⟩
        have : i ≠ n := by rintro rfl; exact h q2
        omega

theorem capMask_spec {has : Nat → Option Bool} {lastCap : Nat} {m : BitVec 64} (e : capMask has lastCap = .ok m) (i : Nat) :
    m.getLsbD i = true ↔ i ≤ lastCap ∧ has i = some true := by
  unfold capMask at e
  split at e
  · cases e
  · next h =>
    injection e with e
    by_cases hi : i < 64
    · rw [← e, foldl_bits has _ i hi]
      constructor
      · rintro ⟨q1, q2⟩; exact ⟨by omega, q2⟩
      · rintro ⟨q1, q2⟩; exact ⟨by omega, q2⟩
    · rw [BitVec.getLsbD_of_ge _ _ (by omega)]
      constructor
      · intro q; cases q
      · rintro ⟨q1, q2⟩
        exfalso
        apply h
        refine ⟨by omega, List.any_eq_true.2 ⟨i, List.mem_range.2 (by omega), ?_⟩⟩
        simp [q2]
        omega

theorem capsOf_spec {env : CliEnv} {a : CStr} {m : BitVec 64} (e : capsOf env a = .ok m) : CapsOf env.capText env.lastCap a m := by
  unfold capsOf at e
  constructor
  · intro has h
    rw [h] at e
    exact capMask_spec e
  · intro h
    rw [h] at e
    dsimp only at e
    split at e
    · cases e
    · next m' hm => injection e with e; subst e; exact hexMask_mask hm

theorem token_fields {s f : CStr} {r : Option CStr} {d : Char} (e : tokenize (some s) [d] = some (f, r)) :
    fields d s = f :: r.elim [] (fields d) := by
  simp only [tokenize] at e
  rw [if_neg (by simp)] at e
  split at e
  · next h =>
    simp only [Option.some.injEq, Prod.mk.injEq] at e
    obtain ⟨rfl, rfl⟩ := e
    have hd := strstr1_none.1 h
    rw [fields_eq]
    have h1 : s.dropWhile (· != d) = [] := List.dropWhile_eq_nil_iff.2 fun c hc => by simp; rintro rfl; exact hd hc
    have h2 : s.takeWhile (· != d) = s := List.takeWhile_eq_self_iff.2 fun c hc => by simp; rintro rfl; exact hd hc
    rw [h1, h2]; rfl
  · next x y hx =>
    simp only [Option.some.injEq, Prod.mk.injEq] at e
    obtain ⟨rfl, rfl⟩ := e
    obtain ⟨rfl, hd⟩ := strstr1_some.1 hx
    rw [fields_eq]
    have h1 : (x ++ d :: y).dropWhile (· != d) = d :: y := by
      rw [List.dropWhile_append_of_pos]
      · simp
      · intro c hc; simp; rintro rfl; exact hd hc
    have h2 : (x ++ d :: y).takeWhile (· != d) = x := by
      rw [List.takeWhile_append_of_pos]
      · simp
      · intro c hc; simp; rintro rfl; exact hd hc
    rw [h1, h2]; rfl

theorem token_some (s : CStr) (d : Char) : ∃ f r, tokenize (some s) [d] = some (f, r) := by
  simp only [tokenize]
  rw [if_neg (by simp)]
  split <;> exact ⟨_, _, rfl⟩

theorem limitArg_spec {a : CStr} {v : BitVec 64} (e : limitArg a = some v) : LimitOf a v := by
  unfold limitArg at e
  constructor
  · rintro rfl
    rw [if_pos rfl] at e
    injection e with e
    rw [← e]; decide
  · intro n h hn
    have hne : a ≠ "unlimited".toList := by
      rintro rfl
      obtain ⟨neg, m, h1, h2⟩ := (signed_literal_iff _ _).1 h
      have : strtolScan 0 "unlimited".toList = none := by decide +kernel
      rw [this] at h1; cases h1
    rw [if_neg hne] at e
    obtain ⟨neg, m, h1, h2⟩ := (signed_literal_iff _ _).1 h
    unfold strtoul at e
    rw [h1] at e
    dsimp only at e
    have hm : m = n ∧ (neg = true → m = 0) := by
      cases neg
      · simp at h2; exact ⟨by omega, by simp⟩
      · simp at h2; exact ⟨by omega, fun _ => by omega⟩
    rw [if_pos (by omega)] at e
    dsimp only at e
    rw [if_neg (by simp)] at e
    injection e with e
    rw [← e]
    cases neg
    · simp only [Bool.false_eq_true, if_false]
      rw [BitVec.ofInt_natCast, BitVec.toNat_ofNat]
      omega
    · have := hm.2 rfl
      subst this
      simp
      omega

theorem mountCall_ok {env : ApiEnv} {j j' : Jail} {s d t : BStr} {f : BitVec 64} {x : Option BStr} (h : mountCall env j s d t f x = .ret 0 j') :
    j'.mounts = j.mounts ++ [⟨s, d, t, mountData t x, if f = 0#64 then MS_NODEV ||| MS_NOEXEC ||| MS_NOSUID else f⟩] := by
  unfold mountCall at h
  split at h
  · simp [EINVAL] at h
  · next j1 hj =>
    split at h
    · simp [ENOMEM] at h
    · simp only [ApiRes.ok, ApiRes.ret.injEq, true_and] at h
      subst h
      unfold mountWithData at hj
      dsimp only at hj
      split at hj
      · simp at hj
      · injection hj with hj
        subst hj
        split <;> rfl

theorem bind_ok {env : ApiEnv} {j j' : Jail} {s d : BStr} {w : Bool} (h : call env j (.bind s d w) = .ret 0 j') :
    j'.mounts = j.mounts ++ [bindMount s d w] := by
  simp only [call, bindCall] at h
  split at h
  · simp [ELOOP] at h
  · rw [mountCall_ok h]
    cases w <;> rfl

theorem bindingOf_spec {env : CliEnv} {c : Cli} {a src : CStr} {more : List CStr} {x : Bool} (hf : fields ',' a = src :: more) (hx : x = false → more.length ≤ 2) :
    (addBindingOf env c src more.head? more[1]? x).All fun c' => ∃ m, BindOf a m ∧ c'.j.mounts = c.j.mounts ++ [m] := by
  have hh : more.head?.getD [] = more.headD [] := by cases more <;> rfl
  have key : ∀ w, src ≠ [] → more.length ≤ 2 → Writeable more[1]? w →
      (libMust env c (.bind (bytesOf src) (bytesOf (if more.headD [] = [] then src else more.headD [])) w)).All fun c' => ∃ m, BindOf a m ∧ c'.j.mounts = c.j.mounts ++ [m] := by
    intro w hs hl hw
    refine all_libMust fun j e => ⟨_, ⟨src, more, w, hf, hl, hs, hw, ?_⟩, bind_ok e⟩
    by_cases hd : more.headD [] = []
    · exact .inl ⟨hd, by rw [if_pos hd]⟩
    · exact .inr ⟨hd, by rw [if_neg hd]⟩
  unfold addBindingOf
  rw [hh]
  dsimp only
  split
  · trivial
  · next hs =>
    simp only [not_or, Bool.not_eq_true] at hs
    split
    · next hw =>
      refine key false hs.1 (hx hs.2) (.inr ⟨?_, rfl⟩)
      cases hm : more[1]? with
      | none => simp
      | some f => rw [hm] at hw; rcases hw with hw | hw <;> (simp at hw; subst hw; simp)
    · next h0 =>
      split
      · next hw =>
        refine key true hs.1 (hx hs.2) (.inl ⟨?_, rfl⟩)
        cases hm : more[1]? with
        | none => rw [hm] at hw; simp at hw
        | some f => rw [hm] at hw; simp at hw; subst hw; rfl
      · trivial

theorem binding_spec {env : CliEnv} {c : Cli} {arg : Option CStr} :
    (addBinding env c arg).All fun c' => ∃ a m, arg = some a ∧ BindOf a m ∧ c'.j.mounts = c.j.mounts ++ [m] := by
  cases arg with
  | none => simp only [addBinding, tokenize]; trivial
  | some a =>
    have key : ∀ {x : CliOut Cli}, (x.All fun c' => ∃ m, BindOf a m ∧ c'.j.mounts = c.j.mounts ++ [m]) →
        x.All fun c' => ∃ a' m, some a = some a' ∧ BindOf a' m ∧ c'.j.mounts = c.j.mounts ++ [m] := fun h => all_mono h fun c' ⟨m, h1, h2⟩ => ⟨a, m, rfl, h1, h2⟩
    unfold addBinding
    obtain ⟨src, r1, h1⟩ := token_some a ','
    have f1 := token_fields h1
    have e1 : tokenize (some a) ",".toList = some (src, r1) := h1
    rw [e1]
    dsimp only
    apply key
    cases r1 with
    | none => exact bindingOf_spec (more := []) f1 (by simp)
    | some t =>
      obtain ⟨d, r2, h2⟩ := token_some t ','
      have f2 := token_fields h2
      have e2 : tokenize (some t) ",".toList = some (d, r2) := h2
      rw [e2]
      dsimp only [Option.elim] at f1 f2 ⊢
      rw [f2] at f1
      cases r2 with
      | none => exact bindingOf_spec (more := [d]) f1 (by simp)
      | some u =>
        obtain ⟨fl, r3, h3⟩ := token_some u ','
        have f3 := token_fields h3
        have e3 : tokenize (some u) ",".toList = some (fl, r3) := h3
        dsimp only [Option.bind_some]
        rw [e3]
        dsimp only [Option.elim] at f1 f3 ⊢
        rw [f3] at f1
        refine bindingOf_spec (more := d :: fl :: _) f1 ?_
        cases r3 <;> simp

theorem rlimit_ok {j j' : Jail} {t : BitVec 32} {a b : BitVec 64} (hj : Inv j) (h : setRlimit j t a b = .ret 0 j') :
    j'.rlimits.take j'.rlimit_count = j.rlimits.take j.rlimit_count ++ [⟨t, a, b⟩] := by
  have hl := hj.1.rlimits
  unfold setRlimit at h
  split at h
  · simp [ENOMEM] at h
  · split at h
    · simp [EEXIST] at h
    · next h1 h2 =>
      simp only [ApiRes.ok, ApiRes.ret.injEq, true_and] at h
      subst h
      have hlt : j.rlimit_count < j.rlimits.length := by unfold MAX_RLIMITS at h1; rw [hl]; omega
      dsimp only
      rw [List.take_add_one, List.take_set_of_le (by omega)]
      simp [hlt]

theorem rlimit_spec {env : CliEnv} {c : Cli} {arg : Option CStr} (hj : Inv c.j) :
    (addRlimitArg env c arg).All fun c' => ∃ a r, arg = some a ∧ RlimitOf env.consts.named a r ∧
      c'.j.rlimits.take c'.j.rlimit_count = c.j.rlimits.take c.j.rlimit_count ++ [r] := by
  cases arg with
  | none => simp only [addRlimitArg, tokenize]; trivial
  | some a =>
    unfold addRlimitArg
    obtain ⟨ty, r1, h1⟩ := token_some a ','
    have f1 := token_fields h1
    have e1 : tokenize (some a) ",".toList = some (ty, r1) := h1
    rw [e1]
    dsimp only [Option.bind_some]
    cases r1 with
    | none => simp only [tokenize, Option.bind_none]; trivial
    | some t =>
      obtain ⟨cur, r2, h2⟩ := token_some t ','
      have f2 := token_fields h2
      have e2 : tokenize (some t) ",".toList = some (cur, r2) := h2
      rw [e2]
      dsimp only [Option.bind_some]
      cases r2 with
      | none => simp only [tokenize]; trivial
      | some u =>
        obtain ⟨mx, r3, h3⟩ := token_some u ','
        have f3 := token_fields h3
        have e3 : tokenize (some u) ",".toList = some (mx, r3) := h3
        rw [e3]
        dsimp only [Option.elim] at f1 f2 f3 ⊢
        split
        · trivial
        · next hs =>
          simp only [not_or, ne_eq, Decidable.not_not] at hs
          obtain ⟨_, _, _, rfl⟩ := hs
          dsimp only [Option.elim] at f3
          rw [f3] at f2
          rw [f2] at f1
          split
          · next c' m' t' hc hm ht =>
            refine all_libMust fun j e => ?_
            refine ⟨a, _, rfl, ⟨ty, cur, mx, t'.toNat, f1, (parseSingle_iff (by omega) _ _ _).1 ht, ?_, limitArg_spec hc, limitArg_spec hm⟩, rlimit_ok hj e⟩
            simp [BitVec.truncate_eq_setWidth]
          · trivial

theorem fields_intercalate (d : Char) (s : CStr) : List.intercalate [d] (fields d s) = s := by
  induction s with
  | nil => simp [fields, List.intercalate]
  | cons c s ih =>
    unfold fields
    split
    · next h =>
      have hne := fields_ne_nil d s
      cases hf : fields d s with
      | nil => exact absurd hf hne
      | cons x xs =>
        rw [hf] at ih
        simp only [List.intercalate, List.intersperse_cons_cons, List.flatten_cons] at ih ⊢
        rw [ih, h]; simp
    · cases hf : fields d s with
      | nil => exact absurd hf (fields_ne_nil d s)
      | cons x xs =>
        rw [hf] at ih
        unfold consHead
        cases xs with
        | nil => simp [List.intercalate] at ih ⊢; exact ih
        | cons y ys =>
          simp only [List.intercalate, List.intersperse_cons_cons, List.flatten_cons] at ih ⊢
          rw [← ih]; simp

theorem bytes_nil {s : CStr} : bytesOf s = [] ↔ s = [] := by simp [bytesOf]

theorem mountData_of (type : CStr) (data : List CStr) :
    mountData (bytesOf type) ((if data = [] then none else some (List.intercalate [','] data)).map bytesOf) = mountDataOf type data := by
  unfold mountData mountDataOf
  by_cases h0 : data = []
  · subst h0
    by_cases ht : bytesOf type = bstr "tmpfs"
    · simp [ht]
    · simp [ht]
  · rw [if_neg h0, if_neg h0]
    have hi : List.intercalate [','] data = [] ↔ data = [[]] := by
      cases data with
      | nil => exact absurd rfl h0
      | cons x xs =>
        cases xs with
        | nil => simp [List.intercalate]
        | cons y ys => simp [List.intercalate]
    simp only [Option.map_some, reduceCtorEq, false_or, Option.some.injEq, bytes_nil, hi, h0]
    by_cases ht : bytesOf type = bstr "tmpfs" <;> by_cases hd : data = [[]] <;> simp [ht, hd]

theorem mount_spec {env : CliEnv} {c : Cli} {arg : Option CStr} :
    (addMountArg env c arg).All fun c' => ∃ a m, arg = some a ∧ MountOf env.consts.named a m ∧ c'.j.mounts = c.j.mounts ++ [m] := by
  cases arg with
  | none => simp only [addMountArg, tokenize]; trivial
  | some a =>
    unfold addMountArg
    obtain ⟨src, r1, h1⟩ := token_some a ','
    have f1 := token_fields h1
    have e1 : tokenize (some a) ",".toList = some (src, r1) := h1
    rw [e1]
    dsimp only [Option.bind_some]
    cases r1 with
    | none => simp only [tokenize, Option.bind_none]; trivial
    | some t =>
      obtain ⟨dest, r2, h2⟩ := token_some t ','
      have f2 := token_fields h2
      have e2 : tokenize (some t) ",".toList = some (dest, r2) := h2
      rw [e2]
      dsimp only [Option.bind_some]
      cases r2 with
      | none => simp only [tokenize]; trivial
      | some u =>
        obtain ⟨type, r3, h3⟩ := token_some u ','
        have f3 := token_fields h3
        have e3 : tokenize (some u) ",".toList = some (type, r3) := h3
        rw [e3]
        dsimp only [Option.bind_some, Option.elim] at f1 f2 f3 ⊢
        rw [f2, f3] at f1
        split
        · trivial
        · next hs =>
          simp only [not_or] at hs
          have key : ∀ (fl : Option CStr) (flags : BitVec 64) (data : List CStr) (d : Option BStr) (more : List CStr), fields ',' a = src :: dest :: type :: more →
              more.head? = fl → more.tail = data → MountFlagsOf env.consts.named fl (if flags = 0#64 then MS_NODEV ||| MS_NOEXEC ||| MS_NOSUID else flags) →
              mountData (bytesOf type) d = mountDataOf type data →
              (libMust env c (.mountWithData (bytesOf src) (bytesOf dest) (bytesOf type) flags d)).All fun c' => ∃ a' m, some a = some a' ∧ MountOf env.consts.named a' m ∧ c'.j.mounts = c.j.mounts ++ [m] := by
            intro fl flags data d more hf hfl hd hflags hdata
            refine all_libMust fun j e => ⟨a, _, rfl, ⟨src, dest, type, more, hf, hs.1, hs.2.1, hs.2.2, rfl, rfl, rfl, ?_, ?_⟩, mountCall_ok e⟩
            · rw [hfl]; exact hflags
            · rw [hd]; exact hdata
          have flags_ok : ∀ (f : CStr) (v : BitVec 64), (if f = [] then some 0#64 else parseConstant env.consts f) = some v →
              MountFlagsOf env.consts.named (some f) (if v = 0#64 then MS_NODEV ||| MS_NOEXEC ||| MS_NOSUID else v) := by
            intro f v hv
            split at hv
            · next h0 =>
              injection hv with hv
              subst hv
              exact .inl ⟨h0, rfl⟩
            · refine .inr ⟨v.toNat, (parseConstant_iff _ (by omega) f v).1 hv, ?_⟩
              by_cases hz : v = 0#64
              · subst hz; rfl
              · rw [if_neg hz, if_neg]
                intro q; exact hz (BitVec.eq_of_toNat_eq (by simpa using q))
          cases r3 with
          | none =>
            simp only [tokenize, Option.bind_none]
            refine key none 0#64 [] none [] f1 rfl rfl (.inl ⟨rfl, rfl⟩) ?_
            exact mountData_of type []
          | some w =>
            obtain ⟨fl, r4, h4⟩ := token_some w ','
            have f4 := token_fields h4
            have e4 : tokenize (some w) ",".toList = some (fl, r4) := h4
            rw [e4]
            dsimp only [Option.bind_some, Option.elim] at f1 f4 ⊢
            rw [f4] at f1
            split
            · trivial
            · next flags hflags =>
              have hfl := flags_ok fl flags hflags
              cases r4 with
              | none =>
                simp only [tokenize]
                exact key (some fl) flags [] none [fl] f1 rfl rfl hfl (mountData_of type [])
              | some y =>
                obtain ⟨d, r5, h5⟩ := token_some y ','
                have f5 := token_fields h5
                have e5 : tokenize (some y) ",".toList = some (d, r5) := h5
                rw [e5]
                dsimp only [Option.elim] at f1 ⊢
                refine key (some fl) flags (fields ',' y) _ (fl :: fields ',' y) f1 rfl rfl hfl ?_
                have hy : ∀ r5, fields ',' y = d :: r5.elim [] (fields ',') →
                    (match some (d, r5) with | some (d, some more) => some (d ++ ',' :: more) | some (d, none) => some d | none => none) = some y := by
                  intro r5 h
                  have hj := fields_intercalate ',' y
                  rw [h] at hj
                  cases r5 with
                  | none => simp [List.intercalate] at hj; simp [hj]
                  | some t =>
                    have hj2 := fields_intercalate ',' t
                    dsimp only [Option.elim] at hj ⊢
                    cases hf : fields ',' t with
                    | nil => exact absurd hf (fields_ne_nil _ _)
                    | cons x xs =>
                      rw [hf] at hj hj2
                      simp only [List.intercalate, List.intersperse_cons_cons, List.flatten_cons] at hj hj2
                      rw [hj2] at hj
                      rw [← hj]; simp
                have := mountData_of type (fields ',' y)
                rw [if_neg (fields_ne_nil _ _), fields_intercalate] at this
                rw [← this]
                congr 2
                have := hy r5 f5
                revert this
                cases r5 <;> exact fun h => h

end Minijail
