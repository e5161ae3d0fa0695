import Verif.Proof.CommonLaid
import Verif.Spec.OfflineMeaning
/-! The offline compiler reads the common policies as they are written. -/
set_option autoImplicit false
set_option linter.unusedSimpArgs false
namespace Minijail
open Spec Offline

theorem wordEnds_blank {c : Char} (h : isBlank c) (s : List Char) : WordEnds (c :: s) := by
  intro x hx; simp at hx; subst hx; exact blank_ends h

theorem wordEnds_char {c : Char} (h : isIdentChar c = false) (s : List Char) : WordEnds (c :: s) := by
  intro x hx; simp at hx; subst hx; exact h

theorem wordEnds_nil : WordEnds [] := by intro c hc; simp at hc

/-- A phrase becomes tokens, whatever follows it that ends a word. -/
def Becomes (s : List Char) (ts : List Token) : Prop := ∀ us rest, WordEnds rest → Laid us rest → Laid (ts ++ us) (s ++ rest)

theorem Becomes.append {s s' : List Char} {ts ts' : List Token} (h : Becomes s ts) (h' : Becomes s' ts') (hs : ∀ rest, WordEnds rest → WordEnds (s' ++ rest)) :
    Becomes (s ++ s') (ts ++ ts') := by
  intro us rest hr hl
  rw [List.append_assoc, List.append_assoc]
  exact h _ _ (hs rest hr) (h' _ _ hr hl)

theorem becomes_tok {t : Token} (h : TokShape t) (h1 : t.type ≠ .op) (h2 : t.type ≠ .bitOr) : Becomes t.value [t] := by
  intro us rest hr hl
  exact .tok h ⟨fun _ => hr, fun h => absurd h h1, fun h => absurd h h2⟩ hl

theorem laid_gaps {b : List Char} (hb : Blanks b) {us : List Token} {rest : List Char} (h : Laid us rest) : Laid us (b ++ rest) := by
  induction b with
  | nil => exact h
  | cons c b ih => exact .gap (hb c (by simp)) (ih fun c hc => hb c (by simp [hc]))

theorem spaces_blanks (n : Nat) : Blanks (spaces n) := fun _ hc => .inl (List.eq_of_mem_replicate hc)

theorem wordEnds_gaps {b : List Char} (hb : Blanks b) {rest : List Char} (h : WordEnds rest) : WordEnds (b ++ rest) := by
  cases b with
  | nil => exact h
  | cons c b => exact wordEnds_blank (hb c (by simp)) _

/-! ### Constants -/

theorem literal_numeral {s : List Char} {n : Nat} (h : Literal s n) : PyNumeral s n := by
  cases h with
  | @dec c s n hc h => exact .dec (by simp) h (by intro c' t e; simp at e; exact absurd e.1 hc)
  | @oct s n h =>
    cases s with
    | nil =>
      obtain ⟨h1, h2⟩ := (digits_iff 8 (by decide) _ _).1 h
      refine .dec (by simp) ?_ (by simp)
      refine (digits_iff 10 (by decide) _ _).2 ⟨by decide, ?_⟩
      rw [h2]; rfl
    | cons c t =>
      obtain ⟨h1, h2⟩ := (digits_iff 8 (by decide) _ _).1 h
      refine .oct (by simp) ((digits_iff 8 (by decide) _ _).2 ⟨fun x hx => h1 x (List.mem_cons_of_mem _ hx), ?_⟩)
      rw [h2]
      simp [digitsVal, digitVal]
  | @hex x s n hx hne h => exact .hex hx hne h

theorem single_becomes {T : CommonTables} {a : Arch} (ha : ArchFits T a) {s : List Char} {v : Nat} (h : CommonSingle T s v) :
    ∃ t, SingleT a t v ∧ Becomes s [t] := by
  cases h with
  | @name w i v hw hres hk hc h1 h2 hv =>
    refine ⟨⟨.identifier, s⟩, ⟨i, .inl ⟨rfl, ha.constant _ _ hc⟩, ?_⟩, becomes_tok (.identifier hw hres hk) (by simp) (by simp)⟩
    rw [ha.bits]
    exact ⟨h1, h2, hv⟩
  | @number s n hl hlt =>
    refine ⟨⟨.numeric, s⟩, ⟨v, .inr ⟨rfl, .plain (literal_numeral hl)⟩, ?_⟩, becomes_tok (.number hl) (by simp) (by simp)⟩
    rw [ha.bits]
    have hlt' : (v : Int) < 2 ^ T.bits := by exact_mod_cast hlt
    refine ⟨?_, hlt', ?_⟩
    · have : (0 : Int) ≤ 2 ^ (T.bits - 1) := Int.pow_nonneg (by decide)
      omega
    · rw [Int.emod_eq_of_lt (by omega) hlt']
  | @negative s n v hl hle hv =>
    refine ⟨⟨.numeric, '-' :: s⟩, ⟨-(n : Int), .inr ⟨rfl, .minus (literal_numeral hl)⟩, ?_⟩, becomes_tok (.negative hl) (by simp) (by simp)⟩
    rw [ha.bits]
    refine ⟨?_, ?_, hv⟩
    · have : (n : Int) ≤ 2 ^ (T.bits - 1) := by exact_mod_cast hle
      omega
    · have : (0 : Int) < 2 ^ T.bits := Int.pow_pos (by decide)
      omega

/-- The token `~`, or none. -/
def tildeToks (neg : Bool) : List Token := if neg then [⟨.complement, "~".toList⟩] else []

theorem laid_tilde (neg : Bool) {us : List Token} {rest : List Char} (h : Laid us rest) : Laid (tildeToks neg ++ us) (tilde neg ++ rest) := by
  cases neg with
  | false => exact h
  | true => exact .tok .complement ⟨by simp, by simp, by simp⟩ h

/-- A constant in parentheses or alone. -/
theorem constant_neg {a : Arch} {t : Token} {v : Nat} (h : SingleT a t v) (neg : Bool) : ConstantT a (tildeToks neg ++ [t]) (Spec.compl a.bits neg v) := by
  cases neg with
  | false => exact .single h
  | true => exact .complement rfl h

theorem group_neg {a : Arch} {ts : List Token} {v : Nat} (h : ValueT a ts v) (neg : Bool) :
    ConstantT a (tildeToks neg ++ ⟨.lparen, "(".toList⟩ :: ts ++ [⟨.rparen, ")".toList⟩]) (Spec.compl a.bits neg v) := by
  cases neg with
  | false => exact .group rfl h rfl
  | true => exact .complementGroup rfl rfl h rfl

theorem laid_group {g rest : List Char} {ts us : List Token} (h : Becomes g ts) (hl : Laid us rest) :
    Laid (⟨.lparen, "(".toList⟩ :: ts ++ ⟨.rparen, ")".toList⟩ :: us) ('(' :: g ++ ')' :: rest) := by
  have h1 : Laid (⟨.rparen, ")".toList⟩ :: us) (')' :: rest) := Laid.tok (t := ⟨.rparen, ")".toList⟩) .rparen ⟨by simp, by simp, by simp⟩ hl
  have h2 := h _ _ (wordEnds_char (by decide) rest) h1
  exact Laid.tok (t := ⟨.lparen, "(".toList⟩) .lparen ⟨by simp, by simp, by simp⟩ h2

theorem const_becomes {T : CommonTables} {a : Arch} (ha : ArchFits T a) {s : List Char} {v : Nat} (h : CommonConst T s v) :
    ∃ ts, ValueT a ts v ∧ Becomes s ts := by
  have bar : ∀ {rest : List Char} {u : Nat} {us : List Token}, CommonConst T rest u → Becomes rest us → ∀ vs more, WordEnds more → Laid vs more →
      Laid (⟨.bitOr, "|".toList⟩ :: us ++ vs) ('|' :: rest ++ more) := by
    intro rest u us hr hb vs more hm hl
    refine Laid.tok (t := ⟨.bitOr, "|".toList⟩) .bitOr ⟨by simp, by simp, fun _ => ?_⟩ (hb _ _ hm hl)
    intro hc
    cases rest with
    | nil => exact (const_chars hr).1 rfl
    | cons c rest => exact ((const_ends hr).1 c rfl).1 (by simpa using hc)
  induction h with
  | @single neg s v h =>
    obtain ⟨t, h1, h2⟩ := single_becomes ha h
    refine ⟨tildeToks neg ++ [t], .one (by rw [← ha.bits]; exact constant_neg h1 neg), ?_⟩
    intro us rest hr hl
    rw [List.append_assoc, List.append_assoc]
    exact laid_tilde neg (h2 _ _ hr hl)
  | @group neg g v h ih =>
    obtain ⟨ts, h1, h2⟩ := ih
    refine ⟨tildeToks neg ++ ⟨.lparen, "(".toList⟩ :: ts ++ [⟨.rparen, ")".toList⟩], .one (by rw [← ha.bits]; exact group_neg h1 neg), ?_⟩
    intro us rest hr hl
    have := laid_tilde neg (laid_group h2 hl)
    simpa using this
  | @singleOr neg s v rest u h hr ih =>
    obtain ⟨t, h1, h2⟩ := single_becomes ha h
    obtain ⟨us, h3, h4⟩ := ih
    refine ⟨(tildeToks neg ++ [t]) ++ ⟨.bitOr, "|".toList⟩ :: us, .more (by rw [← ha.bits]; exact constant_neg h1 neg) rfl h3, ?_⟩
    intro vs more hm hl
    have := laid_tilde neg (h2 _ _ (wordEnds_char (by decide) _) (bar hr h4 vs more hm hl))
    simpa using this
  | @groupOr neg g v rest u hg hr ih ih' =>
    obtain ⟨ts, h1, h2⟩ := ih
    obtain ⟨us, h3, h4⟩ := ih'
    refine ⟨(tildeToks neg ++ ⟨.lparen, "(".toList⟩ :: ts ++ [⟨.rparen, ")".toList⟩]) ++ ⟨.bitOr, "|".toList⟩ :: us,
      .more (by rw [← ha.bits]; exact group_neg h1 neg) rfl h3, ?_⟩
    intro vs more hm hl
    have := laid_tilde neg (laid_group h2 (bar hr h4 vs more hm hl))
    simpa using this

/-! ### Conditions -/

/-- The operator that compares. -/
def cmpOp : Cmp → PyOp
  | .eq => .eq
  | .ne => .ne
  | .gt => .gt
  | .le => .le
  | .ge => .ge
  | .lt => .lt
  | .anyFlag => .band
  | .subset => .isIn

theorem opCmp_cmpOp (c : Cmp) : opCmp (cmpOp c) = c := by cases c <;> rfl

/-- A comparison of the offline compiler. -/
def pyAtom (a : Atom) : PAtom := ⟨a.arg.toNat, cmpOp a.cmp, a.const⟩

theorem opText_eq {op : List Char} {cmp : Cmp} (h : OpText op cmp) : op = opText (cmpOp cmp) := by cases h <;> rfl

theorem atom_becomes {T : CommonTables} {a : Arch} (ha : ArchFits T a) {s : List Char} {x : Atom} (h : CommonAtom T s x) :
    ∃ ts, AtomT a ts (pyAtom x) ∧ Becomes s ts := by
  cases h with
  | @mk i op cmp c v n m hi hop hc =>
    obtain ⟨ts, h1, h2⟩ := const_becomes ha hc
    refine ⟨⟨.argument, "arg".toList ++ [Nat.digitChar i]⟩ :: ⟨.op, op⟩ :: ts, ?_, ?_⟩
    · refine AtomT.mk (s := [Nat.digitChar i]) rfl (by simp) (by simp) ?_ (by simp; omega) rfl (opText_eq hop) h1
      have : Digits 10 ([] ++ [Nat.digitChar i]) (0 * 10 + i) := .snoc .nil (digitChar_facts hi).2 (by omega)
      simpa using this
    · intro us rest hr hl
      have h3 : Laid (ts ++ us) (spaces (m + 1) ++ (c ++ rest)) := laid_gaps (spaces_blanks _) (h2 _ _ hr hl)
      have h4 : Laid (⟨.op, op⟩ :: (ts ++ us)) (op ++ (spaces (m + 1) ++ (c ++ rest))) := by
        refine Laid.tok (t := ⟨.op, op⟩) (.op hop) ⟨by simp, fun _ => ?_, by simp⟩ h3
        intro x hx
        simp [spaces, List.replicate_succ] at hx
        exact .inl hx.symm
      have h5 := laid_gaps (spaces_blanks (n + 1)) h4
      have h6 := Laid.tok (t := ⟨.argument, "arg".toList ++ [Nat.digitChar i]⟩) (.argument hi)
        ⟨fun _ => by
          rw [show spaces (n + 1) = ' ' :: spaces n from rfl]
          exact wordEnds_blank (.inl rfl) _, by simp, by simp⟩ h5
      simpa using h6

end Minijail
