import Verif.Spec.Rust
import Verif.Proof.Marshal
import Verif.Props.C28
/-! Lemmas on the configuration methods of the Rust interface. -/
set_option autoImplicit false
set_option linter.unusedSimpArgs false
namespace Minijail
open Spec

theorem insnBytes_eq (i : Insn) : insnBytes i = encInsn i := by
  unfold insnBytes encInsn enc16 enc32
  simp only [List.cons_append, List.nil_append, List.cons.injEq, and_true]
  refine ⟨?_, ?_, trivial, trivial, ?_, ?_, ?_, ?_⟩ <;> apply BitVec.eq_of_toNat_eq <;>
    simp [BitVec.extractLsb'_toNat, Nat.shiftRight_eq_div_pow]

theorem enc16_decLE (a b : BitVec 8) : enc16 (decLE 16 [a, b]) = [a, b] := by
  simp only [enc16, decLE, List.cons.injEq, and_true]
  constructor <;>
  · ext i hi
    simp only [BitVec.getElem_extractLsb', BitVec.getLsbD_or, BitVec.getLsbD_setWidth, BitVec.getLsbD_shiftLeft]
    have : i < 8 := hi
    interval_cases i <;> simp

theorem enc32_decLE (a b c d : BitVec 8) : enc32 (decLE 32 [a, b, c, d]) = [a, b, c, d] := by
  simp only [enc32, decLE, List.cons.injEq, and_true]
  refine ⟨?_, ?_, ?_, ?_⟩ <;>
  · ext i hi
    simp only [BitVec.getElem_extractLsb', BitVec.getLsbD_or, BitVec.getLsbD_setWidth, BitVec.getLsbD_shiftLeft]
    have : i < 8 := hi
    interval_cases i <;> simp

/-- The bytes of whole instructions are the bytes of the instructions read from them. -/
theorem castFilters_bytes (b : Bytes) : b.length % 8 = 0 →
    (castFilters b).flatMap insnBytes = b ∧ (castFilters b).length = b.length / 8 := by
  fun_induction castFilters b with
  | case1 a b c d e f g h r ih =>
    intro hl
    simp only [List.length_cons] at hl
    obtain ⟨i1, i2⟩ := ih (by omega)
    constructor
    · rw [List.flatMap_cons, i1, insnBytes_eq]
      simp only [encInsn, enc16_decLE, enc32_decLE, List.cons_append, List.nil_append]
    · simp only [List.length_cons, i2]; omega
  | case2 x hx =>
    intro hl
    match x, hx, hl with
    | [], _, _ => exact ⟨rfl, rfl⟩
    | [_], _, hl => simp at hl
    | [_, _], _, hl => simp at hl
    | [_, _, _], _, hl => simp at hl
    | [_, _, _, _], _, hl => simp at hl
    | [_, _, _, _, _], _, hl => simp at hl
    | [_, _, _, _, _, _], _, hl => simp at hl
    | [_, _, _, _, _, _, _], _, hl => simp at hl
    | a :: b :: c :: d :: e :: f :: g :: h :: r, hx, _ => exact absurd rfl (hx a b c d e f g h r)

theorem castFilters_flatMap (p : List Insn) : castFilters (p.flatMap insnBytes) = p := by
  induction p with
  | nil => rfl
  | cons i p ih =>
    rw [List.flatMap_cons, insnBytes_eq]
    have h1 := decLE_enc16 i.code
    have h2 := decLE_enc32 i.k
    simp only [encInsn, enc16, enc32, List.cons_append, List.nil_append, castFilters] at h1 h2 ⊢
    rw [h1, h2, ih]

theorem insnBytes_inj {p q : List Insn} (h : p.flatMap insnBytes = q.flatMap insnBytes) : p = q := by
  rw [← castFilters_flatMap p, h, castFilters_flatMap]

/-- A call that returns 0 whenever it returns. -/
def Zero (env : ApiEnv) (j : Jail) (c : Call) : Prop := ∀ rc j', call env j c = .ret rc j' → rc = 0

theorem zero_ok {env : ApiEnv} {j j1 : Jail} {c : Call} (h : call env j c = .ok j1) : Zero env j c := by
  intro rc j' h'
  rw [h] at h'
  cases h'
  rfl

theorem zero_setFlags {env : ApiEnv} {j : Jail} {c : Call} {f : Flags → Flags} (h : call env j c = setFlags j f) : Zero env j c :=
  zero_ok h

/-- The two ways in which a method uses the library. -/
def Uses (env : RustEnv) (j : Jail) (m : RustMethod) (c : Call) : Prop :=
  (rustCall env j m = .ignoring (call env.api j c) ∧ (env.api.oom = false → Known env m → Zero env.api j c)) ∨
  ∃ e, rustCall env j m = .checked e (call env.api j c) ∧ ∀ rc j', call env.api j c = .ret rc j' → rc ≤ 0

/-- A method either refuses its arguments and leaves the jail alone, or makes the call it stands for. -/
def Does (env : RustEnv) (j : Jail) (m : RustMethod) : Prop :=
  (∃ e, rustCall env j m = .ret (.error e) j) ∨
  ∃ c, StandsFor env m c ∧ (Sound env → GoodCall env.api c) ∧ Uses env j m c

theorem does_plain (env : RustEnv) (j : Jail) (m : RustMethod) (c : Call) (hs : StandsFor env m c) (hg : GoodCall env.api c)
    (hr : rustCall env j m = .ignoring (call env.api j c)) (hz : Zero env.api j c) : Does env j m :=
  .inr ⟨c, hs, fun _ => hg, .inl ⟨hr, fun _ _ => hz⟩⟩

theorem cstring_of {s : BStr} (h : ¬ s.contains 0#8 = true) : CString s := by
  intro hc; exact h (List.contains_iff_mem.2 hc)

theorem mountCall_nonpos (env : ApiEnv) (j : Jail) (s d t : BStr) (f : BitVec 64) (x : Option BStr) (rc : Int) (j' : Jail)
    (h : mountCall env j s d t f x = .ret rc j') : rc ≤ 0 := by
  unfold mountCall at h
  split at h
  · cases h; decide
  · split_ifs at h
    · cases h; decide
    · cases h; decide

theorem does_bytes (env : RustEnv) (j : Jail) (b : Bytes) :
    (∃ e, parseSeccompBytes env j b = .ret (.error e) j) ∨
    ∃ p, p.flatMap insnBytes = b ∧ p.length ≤ 65535 ∧
      parseSeccompBytes env j b = .ignoring (call env.api j (.setSeccompFilters p)) := by
  unfold parseSeccompBytes
  split_ifs with h1 h2 h3
  · exact .inl ⟨_, rfl⟩
  · exact .inl ⟨_, rfl⟩
  · exact .inl ⟨_, rfl⟩
  · obtain ⟨e1, e2⟩ := castFilters_bytes b (by omega)
    exact .inr ⟨_, e1, by omega, rfl⟩

theorem zero_setSeccompFilters (env : ApiEnv) (j : Jail) (p : List Insn) : Zero env j (.setSeccompFilters p) := by
  intro rc j' h
  simp only [call, setSeccompFilters] at h
  split_ifs at h <;> cases h <;> rfl

theorem does_mount (env : RustEnv) (j : Jail) (s d t : BStr) (f : BitVec 64) (x : BStr) :
    (∃ e, rustMount env j s d t f x = .ret (.error e) j) ∨
    ((CString s ∧ CString d ∧ CString t ∧ CString x) ∧
      rustMount env j s d t f x = .checked .mount (call env.api j (.mountWithData s d t f (some x)))) := by
  unfold rustMount pathNew cstringNew
  split_ifs with h1 h2 h3 h4 h5 h6
  all_goals first
    | exact .inl ⟨_, rfl⟩
    | exact .inr ⟨⟨cstring_of ‹_›, cstring_of ‹_›, cstring_of ‹_›, cstring_of ‹_›⟩, rfl⟩

theorem rust_does (env : RustEnv) (j : Jail) (m : RustMethod) : Does env j m := by
  cases m
  case changeUid u =>
    refine does_plain env j _ _ rfl trivial rfl fun rc j' h => ?_
    simp only [call, changeUid] at h; split_ifs at h; cases h; rfl
  case changeGid u =>
    refine does_plain env j _ _ rfl trivial rfl fun rc j' h => ?_
    simp only [call, changeGid] at h; split_ifs at h; cases h; rfl
  case changeUser u =>
    by_cases hc : u.contains 0#8 = true
    · exact .inl ⟨.strToCString, by simp only [rustCall, cstringNew, hc, if_true]⟩
    · refine .inr ⟨.changeUser u, rfl, fun hs => ⟨cstring_of hc, fun rc h => hs.1 u rc h⟩, .inl ⟨?_, fun ho ⟨ids, hk⟩ rc j' h => ?_⟩⟩
      · simp only [rustCall, cstringNew, hc]; rfl
      · simp only [call, changeUser, hk, changeUid] at h
        by_cases hz : ids.1 = 0#32
        · rw [if_pos hz] at h; cases h
        · rw [if_neg hz] at h
          simp only [ApiRes.ok, ho, Bool.false_eq_true, if_false, ApiRes.ret.injEq] at h
          exact h.1.symm
  case changeGroup g =>
    by_cases hc : g.contains 0#8 = true
    · exact .inl ⟨.strToCString, by simp only [rustCall, cstringNew, hc, if_true]⟩
    · refine .inr ⟨.changeGroup g, rfl, fun hs => fun rc h => hs.2.1 g rc h, .inl ⟨?_, fun ho ⟨ids, hk⟩ rc j' h => ?_⟩⟩
      · simp only [rustCall, cstringNew, hc]; rfl
      · simp only [call, changeGroup, hk, changeGid] at h
        split_ifs at h
        cases h; rfl
  case setSupplementaryGids l =>
    refine does_plain env j _ _ rfl trivial rfl fun rc j' h => ?_
    simp only [call, setSupplementaryGids] at h; split_ifs at h <;> cases h <;> rfl
  case setRlimit k c x =>
    refine .inr ⟨.rlimit k c x, rfl, fun _ => trivial, .inr ⟨.setRlimit, ?_, ?_⟩⟩
    · have : ∀ rc j', call env.api j (.rlimit k c x) = .ret rc j' → rc ≤ 0 := by
        intro rc j' h
        simp only [call, setRlimit] at h; split_ifs at h <;> cases h <;> decide
      simp only [rustCall]
      cases hq : call env.api j (.rlimit k c x) with
      | die => rfl
      | ret rc j' =>
        have := this rc j' hq
        simp only [RustRes.checked]
        by_cases h0 : rc = 0
        · rw [if_pos h0, if_neg (by omega)]
        · rw [if_neg h0, if_pos (by omega)]
    · intro rc j' h
      simp only [call, setRlimit] at h; split_ifs at h <;> cases h <;> decide
  case setSeccompFilterTsync =>
    refine does_plain env j _ _ rfl trivial rfl fun rc j' h => ?_
    simp only [call, setSeccompFilterTsync, setFlags] at h; split_ifs at h; cases h; rfl
  case logSeccompFilterFailures =>
    refine does_plain env j _ _ rfl trivial rfl fun rc j' h => ?_
    simp only [call, logSeccompFilterFailures, setFlags] at h; split_ifs at h <;> cases h <;> rfl
  case capbsetDrop x =>
    refine does_plain env j _ _ rfl trivial rfl fun rc j' h => ?_
    simp only [call, capbsetDrop] at h; split_ifs at h; cases h; rfl
  case parseSeccompProgram p =>
    unfold Does Uses
    simp only [rustCall]
    by_cases hf : env.isFile p = true
    · rw [hf]
      cases hr : env.read p with
      | none => exact .inl ⟨_, rfl⟩
      | some b =>
        rcases does_bytes env j b with h | ⟨q, h1, h2, h3⟩
        · exact .inl h
        · exact .inr ⟨_, ⟨b, q, hr, h1, rfl⟩, fun _ => h2, .inl ⟨h3, fun _ _ => zero_setSeccompFilters _ _ _⟩⟩
    · exact .inl ⟨.seccompPath, by simp [hf]⟩
  case parseSeccompBytes b =>
    rcases does_bytes env j b with h | ⟨q, h1, h2, h3⟩
    · exact .inl h
    · exact .inr ⟨_, ⟨q, h1, rfl⟩, fun _ => h2, .inl ⟨h3, fun _ _ => zero_setSeccompFilters _ _ _⟩⟩
  case parseSeccompFilters p =>
    unfold Does Uses
    simp only [rustCall, pathNew, cstringNew]
    by_cases hf : env.isFile p = true
    · by_cases hu : env.utf8 p = true
      · by_cases hc : p.contains 0#8 = true
        · exact .inl ⟨.pathToCString, by simp [hf, hu, List.contains_iff_mem.1 hc]⟩
        · refine .inr ⟨.parseSeccompFilters p, rfl, fun hs => ⟨cstring_of hc, hs.2.2 _⟩, .inl ⟨?_, fun _ _ rc j' h => ?_⟩⟩
          · rw [if_neg (by simp [hf]), if_neg (by simp [hu]), if_neg hc]
          · simp only [call, parseSeccompFilters] at h
            split at h
            · cases h; rfl
            · split at h
              · cases h
              · cases h; rfl
      · exact .inl ⟨.pathToCString, by simp [hf, hu]⟩
    · exact .inl ⟨.seccompPath, by simp [hf]⟩
  case uidmap u =>
    by_cases hc : u.contains 0#8 = true
    · exact .inl ⟨.strToCString, by simp only [rustCall, cstringNew, hc, if_true]⟩
    · refine .inr ⟨.uidmap u, rfl, fun _ => trivial, .inl ⟨?_, fun ho _ rc j' h => ?_⟩⟩
      · simp only [rustCall, cstringNew, hc]; rfl
      · simp only [call, setUidmap, ho, Bool.false_eq_true, if_false] at h
        cases h; rfl
  case gidmap u =>
    by_cases hc : u.contains 0#8 = true
    · exact .inl ⟨.strToCString, by simp only [rustCall, cstringNew, hc, if_true]⟩
    · refine .inr ⟨.gidmap u, rfl, fun _ => trivial, .inl ⟨?_, fun ho _ rc j' h => ?_⟩⟩
      · simp only [rustCall, cstringNew, hc]; rfl
      · simp only [call, setGidmap, ho, Bool.false_eq_true, if_false] at h
        cases h; rfl
  case useAltSyscall u =>
    by_cases hc : u.contains 0#8 = true
    · exact .inl ⟨.strToCString, by simp only [rustCall, cstringNew, hc, if_true]⟩
    · refine .inr ⟨.useAltSyscall u, rfl, fun _ => cstring_of hc, .inr ⟨.setAltSyscallTable, ?_, fun rc j' h => ?_⟩⟩
      · simp only [rustCall, cstringNew, hc]; rfl
      · simp only [call, useAltSyscall] at h
        split_ifs at h <;> cases h <;> decide
  case enterChroot d =>
    unfold Does Uses
    simp only [rustCall, pathNew, cstringNew]
    by_cases hu : env.utf8 d = true
    · by_cases hc : d.contains 0#8 = true
      · exact .inl ⟨.pathToCString, by simp [hu, List.contains_iff_mem.1 hc]⟩
      · refine .inr ⟨.enterChroot d, rfl, fun _ => cstring_of hc, .inr ⟨.settingChrootDirectory, ?_, fun rc j' h => ?_⟩⟩
        · rw [if_neg (by simp [hu]), if_neg hc]
        · simp only [call, enterChrootCall] at h
          split_ifs at h <;> cases h <;> decide
    · exact .inl ⟨.pathToCString, by simp [hu]⟩
  case enterPivotRoot d =>
    unfold Does Uses
    simp only [rustCall, pathNew, cstringNew]
    by_cases hu : env.utf8 d = true
    · by_cases hc : d.contains 0#8 = true
      · exact .inl ⟨.pathToCString, by simp [hu, List.contains_iff_mem.1 hc]⟩
      · refine .inr ⟨.enterPivotRoot d, rfl, fun _ => cstring_of hc, .inr ⟨.settingPivotRootDirectory, ?_, fun rc j' h => ?_⟩⟩
        · rw [if_neg (by simp [hu]), if_neg hc]
        · simp only [call, enterPivotRootCall] at h
          split_ifs at h <;> cases h <;> decide
    · exact .inl ⟨.pathToCString, by simp [hu]⟩
  case mount s d t f =>
    rcases does_mount env j s d t f [] with h | ⟨hc, h⟩
    · exact .inl h
    · exact .inr ⟨_, rfl, fun _ => ⟨hc.1, hc.2.1, hc.2.2.1, by simp [OptCString, CString]⟩, .inr ⟨_, h, mountCall_nonpos _ _ _ _ _ _ _⟩⟩
  case mountWithData s d t f x =>
    rcases does_mount env j s d t f x with h | ⟨hc, h⟩
    · exact .inl h
    · exact .inr ⟨_, rfl, fun _ => ⟨hc.1, hc.2.1, hc.2.2.1, by simpa [OptCString] using hc.2.2.2⟩,
        .inr ⟨_, h, mountCall_nonpos _ _ _ _ _ _ _⟩⟩
  case mountBind s d w =>
    have key : (∃ e, rustCall env j (.mountBind s d w) = .ret (.error e) j) ∨
        ((CString s ∧ CString d) ∧ rustCall env j (.mountBind s d w) = .checked .bindMount (call env.api j (.bind s d w))) := by
      simp only [rustCall, pathNew, cstringNew]
      split_ifs with h1 h2 h3 h4
      all_goals first
        | exact .inl ⟨_, rfl⟩
        | exact .inr ⟨⟨cstring_of ‹_›, cstring_of ‹_›⟩, rfl⟩
    rcases key with h | ⟨hc, h⟩
    · exact .inl h
    · refine .inr ⟨_, rfl, fun _ => hc, .inr ⟨_, h, fun rc j' h => ?_⟩⟩
      simp only [call, bindCall] at h
      split at h
      · cases h; decide
      · exact mountCall_nonpos _ _ _ _ _ _ _ _ _ h
  all_goals exact does_plain env j _ _ rfl trivial rfl (zero_ok rfl)

end Minijail
