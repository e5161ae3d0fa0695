import Verif.Model.Constants
import Verif.Proof.CliMaps
import Verif.Proof.Frequency
/-! Reading JSON: every text of the grammar is read as what it stands for. -/
set_option autoImplicit false
set_option linter.unusedSimpArgs false
namespace Minijail.Constants
open Spec.Json Offline

theorem skipWs_ws {w s : CStr} (h : Ws w) : skipWs (w ++ s) = skipWs s := by
  unfold skipWs
  induction w with
  | nil => rfl
  | cons c w ih =>
    have hc := h c (by simp)
    rw [List.cons_append, List.dropWhile_cons, if_pos (by rcases hc with rfl | rfl | rfl | rfl <;> rfl)]
    exact ih fun x hx => h x (by simp [hx])

/-- Not a white space. -/
def isStop (c : Char) : Bool := !(c == ' ' || c == '\n' || c == '\r' || c == '\t')

theorem skipWs_stop {c : Char} {s : CStr} (h : isStop c = true) : skipWs (c :: s) = c :: s := by
  unfold skipWs
  unfold isStop at h
  rw [List.dropWhile_cons, if_neg (by simpa using h)]

theorem skipWs_ws_stop {w : CStr} {c : Char} {s : CStr} (h : Ws w) (hc : isStop c = true) : skipWs (w ++ c :: s) = c :: s := by
  rw [skipWs_ws h, skipWs_stop hc]

theorem readStr_text {k t rest : CStr} (h : StrText k t) : readStr (t ++ rest) = some (k, rest) := by
  obtain ⟨hp, rfl⟩ := h
  unfold readStr
  simp only [List.cons_append, List.append_assoc, List.nil_append]
  have h1 : ∀ c ∈ k, (c != '"' && c != '\\' && decide (32 ≤ c.toNat)) = true := by
    intro c hc
    obtain ⟨a, b, d⟩ := hp c hc
    simp [a, b, d]
  rw [List.dropWhile_append_of_pos h1, List.takeWhile_append_of_pos h1]
  rw [List.dropWhile_cons, if_neg (by decide), List.takeWhile_cons, if_neg (by decide)]
  simp

/-- What follows a number is no digit. -/
def NoDigit (s : CStr) : Prop := ∀ c, s.head? = some c → c.isDigit = false

theorem digitsVal_toDigits (n : Nat) : digitsVal 10 (Nat.toDigits 10 n) = n :=
  (((digits_iff 10 (by decide) _ _).1 (toDigits_digits n)).2).symm

theorem toDigits_zero_head (n : Nat) (h : (Nat.toDigits 10 n).head? = some '0') : n = 0 := by
  rcases Nat.eq_zero_or_pos n with h0 | h0
  · exact h0
  · obtain ⟨c, s, e, hc⟩ := toDigits_head h0
    rw [e] at h
    simp only [List.head?_cons, Option.some.injEq] at h
    exact absurd h hc

theorem takeWhile_digits {n : Nat} {rest : CStr} (h : NoDigit rest) : (Nat.toDigits 10 n ++ rest).takeWhile Char.isDigit = Nat.toDigits 10 n := by
  rw [List.takeWhile_append_of_pos fun c hc => Nat.isDigit_of_mem_toDigits (by decide) (by decide) hc]
  cases rest with
  | nil => simp
  | cons c r => rw [List.takeWhile_cons, if_neg (by rw [h c rfl]; decide), List.append_nil]

theorem readNum_text {i : Int} {t rest : CStr} (h : NumText i t) (hr : NoDigit rest) : readNum (t ++ rest) = some (i, rest) := by
  have main : ∀ n : Nat, (let ds := (Nat.toDigits 10 n ++ rest).takeWhile Char.isDigit
      if ds.head? = some '0' then ['0'] else ds) = Nat.toDigits 10 n := by
    intro n
    simp only
    rw [takeWhile_digits hr]
    split
    · rename_i hz
      rw [toDigits_zero_head n hz]
      decide
    · rfl
  have hne : ∀ n : Nat, Nat.toDigits 10 n ≠ [] := fun n => Nat.toDigits_ne_nil
  have hhead : ∀ n : Nat, (Nat.toDigits 10 n ++ rest).head? ≠ some '-' := by
    intro n hh
    cases hd : Nat.toDigits 10 n with
    | nil => exact hne n hd
    | cons c s =>
      rw [hd] at hh
      simp only [List.cons_append, List.head?_cons, Option.some.injEq] at hh
      have := Nat.isDigit_of_mem_toDigits (b := 10) (n := n) (c := c) (by decide) (by decide) (by rw [hd]; simp)
      rw [hh] at this
      exact absurd this (by decide)
  unfold NumText at h
  unfold readNum
  by_cases hi : i < 0
  · rw [if_pos hi] at h
    subst h
    have := main i.natAbs
    simp only at this
    simp only [List.cons_append, List.head?_cons, if_true, List.tail_cons, this, hne, if_false, digitsVal_toDigits, List.drop_left]
    congr 2
    omega
  · rw [if_neg hi] at h
    subst h
    have := main i.toNat
    simp only at this
    simp only [hhead, if_false, this, hne, digitsVal_toDigits, List.drop_left]
    congr 2
    omega

/-- A reader reads what the grammar says, whatever follows that is no digit. -/
def Reads {α : Type} (R : α → List Char → Prop) (p : CStr → Option (α × CStr)) : Prop :=
  (∀ v t rest, R v t → NoDigit rest → p (t ++ rest) = some (v, rest)) ∧ ∀ v t, R v t → ∃ c s, t = c :: s ∧ isStop c = true

theorem readMembers_text {α : Type} {R : α → List Char → Prop} {p : CStr → Option (α × CStr)} (hp : Reads R p) {l : List (CStr × α)} {t : CStr} (h : Members R l t) :
    ∀ fuel rest, l.length ≤ fuel → readMembers p fuel (t ++ '}' :: rest) = some (l, rest) := by
  have member : ∀ k v t fuel tail, Member R k v t → (∃ c s, tail = c :: s ∧ isStop c = true ∧ c.isDigit = false) →
      readMembers p (fuel + 1) (t ++ tail) =
        (match tail with
          | '}' :: s => some ([(k, v)], s)
          | ',' :: s => (readMembers p fuel s).map fun x => ((k, v) :: x.1, x.2)
          | _ => none) := by
    rintro k v t fuel tail ⟨w0, tk, w1, w2, tv, w3, h0, h1, h2, h3, h4, h5, rfl⟩ ⟨c, s, rfl, hc, hd⟩
    obtain ⟨c', s', hv, hv'⟩ := hp.2 v tv h4
    obtain ⟨htk, rfl⟩ := h1
    have e1 : skipWs (w0 ++ ('"' :: k ++ ['"']) ++ w1 ++ ':' :: w2 ++ tv ++ w3 ++ c :: s) = ('"' :: k ++ ['"']) ++ (w1 ++ ':' :: (w2 ++ tv ++ w3 ++ c :: s)) := by
      have := skipWs_ws_stop (w := w0) (c := '"') (s := k ++ ['"'] ++ (w1 ++ ':' :: (w2 ++ tv ++ w3 ++ c :: s))) h0 (by decide)
      simpa only [List.append_assoc, List.cons_append, List.nil_append] using this
    have e2 : skipWs (w1 ++ ':' :: (w2 ++ tv ++ w3 ++ c :: s)) = ':' :: (w2 ++ tv ++ w3 ++ c :: s) := skipWs_ws_stop h2 (by decide)
    have e3 : skipWs (w2 ++ tv ++ w3 ++ c :: s) = tv ++ (w3 ++ c :: s) := by
      subst hv
      have := skipWs_ws_stop (w := w2) (c := c') (s := s' ++ (w3 ++ c :: s)) h3 hv'
      simpa only [List.append_assoc, List.cons_append, List.nil_append] using this
    have e4 : p (tv ++ (w3 ++ c :: s)) = some (v, w3 ++ c :: s) := by
      refine hp.1 _ _ _ h4 ?_
      intro x hx
      cases w3 with
      | nil => simp only [List.nil_append, List.head?_cons, Option.some.injEq] at hx; subst hx; exact hd
      | cons y w3 =>
        simp only [List.cons_append, List.head?_cons, Option.some.injEq] at hx
        subst hx
        rcases h5 y (by simp) with rfl | rfl | rfl | rfl <;> decide
    have e5 : skipWs (w3 ++ c :: s) = c :: s := skipWs_ws_stop h5 hc
    rw [readMembers, e1, readStr_text ⟨htk, rfl⟩]
    simp only [e2, e3, e4, e5]
    rfl
  induction h with
  | @one k v t hm =>
    intro fuel rest hf
    cases fuel with
    | zero => simp at hf
    | succ fuel => rw [member k v t fuel _ hm ⟨'}', rest, rfl, by decide, by decide⟩]; rfl
  | @more k v t l ts hm hms ih =>
    intro fuel rest hf
    cases fuel with
    | zero => simp at hf
    | succ fuel =>
      rw [List.append_assoc, List.cons_append, member k v t fuel _ hm ⟨',', _, rfl, by decide, by decide⟩]
      simp only
      rw [ih fuel rest (by simpa using hf)]
      rfl

theorem members_length {α : Type} {R : α → List Char → Prop} {l : List (CStr × α)} {t : CStr} (h : Members R l t) : l.length ≤ t.length ∧ ∃ w s, Ws w ∧ t = w ++ '"' :: s := by
  have member : ∀ k v t, Member R k v t → 1 ≤ t.length ∧ ∃ w s, Ws w ∧ t = w ++ '"' :: s := by
    rintro k v t ⟨w0, tk, w1, w2, tv, w3, h0, ⟨-, rfl⟩, -, -, -, -, rfl⟩
    exact ⟨by simp; omega, w0, k ++ ['"'] ++ w1 ++ ':' :: w2 ++ tv ++ w3, h0, by simp⟩
  induction h with
  | one hm => exact ⟨(member _ _ _ hm).1, (member _ _ _ hm).2⟩
  | more hm hms ih =>
    obtain ⟨a, w, s, hw, e⟩ := member _ _ _ hm
    exact ⟨by simp; omega, w, _, hw, by rw [e, List.append_assoc]; rfl⟩

theorem readObj_text {α : Type} {R : α → List Char → Prop} {p : CStr → Option (α × CStr)} (hp : Reads R p) {l : List (CStr × α)} {t : CStr} (h : ObjText R l t) (rest : CStr) :
    readObj p (t ++ rest) = some (l, rest) := by
  cases h with
  | @empty w hw =>
    have : skipWs (w ++ ['}'] ++ rest) = '}' :: rest := by
      rw [List.append_assoc]; exact skipWs_ws_stop hw (by decide)
    simp only [List.cons_append, readObj, this]
  | @members _ t hm =>
    obtain ⟨h1, w, s, hw, e⟩ := members_length hm
    have : skipWs (t ++ ['}'] ++ rest) = '"' :: (s ++ ['}'] ++ rest) := by
      rw [e]
      have := skipWs_ws_stop (w := w) (c := '"') (s := s ++ ['}'] ++ rest) hw (by decide)
      simpa only [List.append_assoc, List.cons_append, List.nil_append] using this
    have h2 := readMembers_text hp hm (t ++ ['}'] ++ rest).length rest (by simp; omega)
    rw [show t ++ '}' :: rest = t ++ ['}'] ++ rest by simp] at h2
    simp only [List.cons_append, readObj, this]
    exact h2

theorem readNum_reads : Reads NumText readNum := by
  refine ⟨fun v t rest h hr => readNum_text h hr, fun v t h => ?_⟩
  unfold NumText at h
  split at h
  · exact ⟨_, _, h, by decide⟩
  · cases hd : Nat.toDigits 10 v.toNat with
    | nil => exact absurd hd Nat.toDigits_ne_nil
    | cons c s =>
      refine ⟨c, s, by rw [h, hd], ?_⟩
      have := Nat.isDigit_of_mem_toDigits (b := 10) (n := v.toNat) (c := c) (by decide) (by decide) (by rw [hd]; simp)
      unfold isStop
      rw [Bool.not_eq_true', Bool.or_eq_false_iff, Bool.or_eq_false_iff, Bool.or_eq_false_iff]
      refine ⟨⟨⟨?_, ?_⟩, ?_⟩, ?_⟩ <;> (rw [beq_eq_false_iff_ne]; rintro rfl; exact absurd this (by decide))

theorem readVal_reads : Reads ValText readVal := by
  refine ⟨fun v t rest h hr => ?_, fun v t h => ?_⟩
  · cases h with
    | @num i t h =>
      obtain ⟨c, s, e, -⟩ := readNum_reads.2 _ _ h
      have hc : c ≠ '{' ∧ c ≠ '"' := by
        unfold NumText at h
        split at h
        · rw [h] at e; cases e; decide
        · have : c ∈ Nat.toDigits 10 i.toNat := by rw [← h, e]; simp
          have := Nat.isDigit_of_mem_toDigits (b := 10) (n := i.toNat) (c := c) (by decide) (by decide) this
          constructor <;> (rintro rfl; exact absurd this (by decide))
      have h1 := readNum_text h hr
      rw [e] at h1 ⊢
      unfold readVal
      split
      · rename_i h2; cases h2; exact absurd rfl hc.1
      · rename_i h2; cases h2; exact absurd rfl hc.2
      · rw [h1]; rfl
    | @str s t h =>
      have h1 := readStr_text (rest := rest) h
      obtain ⟨-, rfl⟩ := h
      simp only [List.cons_append] at h1 ⊢
      simp only [readVal]
      rw [h1]; rfl
    | @table l t h =>
      have h1 := readObj_text readNum_reads h rest
      have : ∃ s, t = '{' :: s := by cases h <;> exact ⟨_, rfl⟩
      obtain ⟨s, rfl⟩ := this
      simp only [List.cons_append] at h1 ⊢
      simp only [readVal]
      rw [h1]; rfl
  · cases h with
    | num h => exact readNum_reads.2 _ _ h
    | str h => obtain ⟨-, rfl⟩ := h; exact ⟨_, _, rfl, by decide⟩
    | table h => cases h <;> exact ⟨_, _, rfl, by decide⟩

theorem jsonLoads_text {l : List (CStr × Val)} {text : CStr} (h : FileText l text) : jsonLoads text = some l := by
  obtain ⟨w0, t, w1, h0, ht, h1, rfl⟩ := h
  have : ∃ s, t = '{' :: s := by cases ht <;> exact ⟨_, rfl⟩
  obtain ⟨s, rfl⟩ := this
  have e : skipWs (w0 ++ '{' :: s ++ w1) = '{' :: s ++ w1 := by
    have := skipWs_ws_stop (w := w0) (c := '{') (s := s ++ w1) h0 (by decide)
    simpa only [List.append_assoc, List.cons_append, List.nil_append] using this
  have e1 : skipWs w1 = [] := by
    have := skipWs_ws (s := []) h1
    rw [List.append_nil] at this
    rw [this]; rfl
  unfold jsonLoads
  rw [e, readObj_text readVal_reads ht w1]
  simp only [e1, if_true]

end Minijail.Constants
