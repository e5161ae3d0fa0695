import Verif.Proof.Llvm
import Verif.Props.C58
/-!
C78: the file of an architecture (constants.json) says to the offline compiler what minijail itself was compiled with.
-/
set_option autoImplicit false
set_option linter.unusedSimpArgs false
namespace Minijail
open Spec Spec.Json Spec.Llvm Offline Constants

theorem nameLike_plain {s : List Char} (h : NameLike s) : ∀ c ∈ s, PlainChar c := by
  intro c hc
  have k : ∀ x : Char, x.isAlphanum = false → x ≠ '_' → c ≠ x := by
    rintro x h1 h2 rfl
    rcases h c hc with e | e
    · rw [e] at h1; cases h1
    · exact h2 e
  refine ⟨k _ (by decide) (by decide), k _ (by decide) (by decide), ?_⟩
  rcases h c hc with e | e
  · simp only [Char.isAlphanum, Char.isAlpha, Char.isUpper, Char.isLower, Char.isDigit, Bool.or_eq_true, Bool.and_eq_true, decide_eq_true_eq] at e
    have t : ∀ v : UInt32, v ≤ c.val → v.toNat ≤ c.toNat := fun v hv => hv
    have h65 := t 65
    have h97 := t 97
    have h48 := t 48
    rcases e with (⟨e, -⟩ | ⟨e, -⟩) | ⟨e, -⟩
    · have := h65 e; simp at this; omega
    · have := h97 e; simp at this; omega
    · have := h48 e; simp at this; omega
  · rw [e]; decide

/-- A JSON text has one reading, and it is the one the offline compiler takes. -/
theorem C78_reading {l l' : List (List Char × Val)} {text : List Char} (h : FileText l text) : jsonLoads text = some l ∧ (FileText l' text → l' = l) := by
  refine ⟨jsonLoads_text h, fun h' => ?_⟩
  have := (jsonLoads_text h').symm.trans (jsonLoads_text h)
  injection this

/-- dump_constants prints a JSON text: the number and the name of the machine, the size of a word, and both tables in their order, also where they are empty. -/
theorem C78_text {nr bits : Nat} {name : List Char} {sys con : List (List Char × Int)} (hn : NameLike name) (hs : ∀ x ∈ sys, NameLike x.1) (hc : ∀ x ∈ con, NameLike x.1) :
    FileText [("arch_nr".toList, .num nr), ("arch_name".toList, .str name), ("bits".toList, .num bits), ("syscalls".toList, .table sys), ("constants".toList, .table con)]
      (dumpConstants nr name bits sys con) :=
  dump_text (nameLike_plain hn) (fun x hx => nameLike_plain (hs x hx)) fun x hx => nameLike_plain (hc x hx)

theorem lookup_value {α : Type} {l : List (List Char × α)} (hc : OneValue l) (k : List Char) (v : α) : ((l.find? fun e => e.1 == k).map (·.2)) = some v ↔ (k, v) ∈ l := by
  cases h : l.find? fun e => e.1 == k with
  | none =>
    constructor
    · intro h'; cases h'
    · intro h'
      have := List.find?_eq_none.1 h _ h'
      simp at this
  | some e =>
    have he := List.mem_of_find?_eq_some h
    have hk : e.1 = k := by simpa using List.find?_some h
    constructor
    · intro h'
      simp only [Option.map_some, Option.some.injEq] at h'
      rw [← hk, ← h']; exact he
    · intro h'
      rw [Option.map_some, hc k e.2 v (by rw [← hk]; exact he) h']

/-- The offline compiler, given what dump_constants prints, knows what minijail knows: the same machine, the same system calls, the same constants, nothing else. -/
theorem C78_dump (cx : Ctx) {name : List Char} (hn : NameLike name) (hs : ∀ x ∈ cx.syscalls, NameLike x.1) (hc : ∀ x ∈ cx.constants, NameLike x.1)
    (os : OneValue cx.syscalls) (oc : OneValue cx.constants) :
    ∃ nr a, loadFromJson (dumpOf cx name) = some (nr, a) ∧ a.name = name ∧ Describes cx nr a ∧ ∀ w, a.constants w = (cx.lang.named w).map fun v : Nat => (v : Int) := by
  have ht : FileText (sayings cx.t.archNr.toNat name cx.t.longBits (cx.syscalls.map fun e => (e.1, (e.2 : Int))) (cx.constants.map fun e => (e.1, (e.2.toNat : Int)))) (dumpOf cx name) := by
    refine dump_text (nameLike_plain hn) ?_ ?_
    · intro x hx
      obtain ⟨y, hy, rfl⟩ := List.mem_map.1 hx
      exact nameLike_plain (hs y hy)
    · intro x hx
      obtain ⟨y, hy, rfl⟩ := List.mem_map.1 hx
      exact nameLike_plain (hc y hy)
  have hcon : ∀ w, dictGet (cx.constants.map fun e => (e.1, (e.2.toNat : Int))) w = (cx.lang.named w).map fun v : Nat => (v : Int) := by
    intro w
    rw [dictGet_consistent oc (fun v : BitVec cx.t.longBits => (v.toNat : Int)) w]
    show _ = ((cx.constants.find? fun e => e.1 == w).map (·.2.toNat)).map fun v : Nat => (v : Int)
    cases cx.constants.find? fun e => e.1 == w <;> rfl
  refine ⟨_, _, by rw [loadFromJson, jsonLoads_text ht]; exact load_sayings _ _ _ _ _, rfl, ⟨rfl, rfl, ?_, ?_⟩, hcon⟩
  · intro n
    simp only
    rw [dictGet_consistent os (fun v : Nat => (v : Int)) n]
    show _ = (cx.syscalls.find? fun e => e.1 == n).map (·.2)
    cases cx.syscalls.find? fun e => e.1 == n with
    | none => rfl
    | some e => simp
  · intro w i hi
    simp only [hcon] at hi
    cases hv : cx.lang.named w with
    | none => rw [hv] at hi; cases hi
    | some v =>
      rw [hv] at hi
      simp only [Option.map_some, Option.some.injEq] at hi
      refine ⟨v, rfl, ?_⟩
      have : v < 2 ^ cx.t.longBits := by
        have hv' : (cx.constants.find? fun e => e.1 == w).map (·.2.toNat) = some v := hv
        cases hf : cx.constants.find? fun e => e.1 == w with
        | none => rw [hf] at hv'; cases hv'
        | some e =>
          rw [hf] at hv'
          simp only [Option.map_some, Option.some.injEq] at hv'
          rw [← hv']; exact e.2.isLt
      rw [← hi]
      have h2 : ((v : Int) % ((2 ^ cx.t.longBits : Nat) : Int)) = ((v % 2 ^ cx.t.longBits : Nat) : Int) := (Int.natCast_emod _ _).symm
      rw [Nat.mod_eq_of_lt this] at h2
      have h3 : ((2 ^ cx.t.longBits : Nat) : Int) = 2 ^ cx.t.longBits := by norm_cast
      rw [h3] at h2
      exact h2.symm

theorem prints_mem {w : Nat} {l : List (List Char × BitVec w)} {p : List (List Char × Option Int)} (h : PrintsConstants l p) {n : List Char} {i : Int} (hi : (n, some i) ∈ p) :
    ∃ v, (n, v) ∈ l ∧ i = v.toInt := by
  induction h with
  | nil => cases hi
  | @number m v l p h ih =>
    simp only [List.mem_cons, Prod.mk.injEq, Option.some.injEq] at hi
    rcases hi with ⟨rfl, rfl⟩ | hi
    · exact ⟨v, by simp, rfl⟩
    · obtain ⟨u, hu, e⟩ := ih hi; exact ⟨u, by simp [hu], e⟩
  | @address m v l p h ih =>
    simp only [List.mem_cons, Prod.mk.injEq, reduceCtorEq, and_false, false_or] at hi
    obtain ⟨u, hu, e⟩ := ih hi; exact ⟨u, by simp [hu], e⟩

theorem mem_numbersOf {t : List (List Char × Option Int)} {n : List Char} {i : Int} : (n, i) ∈ numbersOf t ↔ (n, some i) ∈ t := by
  unfold numbersOf
  rw [List.mem_filterMap]
  constructor
  · rintro ⟨⟨m, v⟩, h1, h2⟩
    cases v with
    | none => cases h2
    | some j => simp only [Option.map_some, Option.some.injEq, Prod.mk.injEq] at h2; rw [← h2.1, ← h2.2]; exact h1
  · intro h; exact ⟨_, h, rfl⟩

theorem dictGet_numbers {t : List (List Char × Option Int)} (h : OneValue t) (n : List Char) (i : Int) : dictGet (numbersOf t) n = some i ↔ (n, some i) ∈ t := by
  constructor
  · intro h'; exact mem_numbersOf.1 (dictGet_some h')
  · intro h'
    refine dictGet_mem (mem_numbersOf.2 h') ?_
    intro j hj
    have := h n _ _ (mem_numbersOf.1 hj) h'
    injection this

theorem archName_of {nr : Int} {name : List Char} (h : (nr, name) ∈ machineNames) : archNameOf nr = some name := by
  simp only [machineNames, List.mem_cons, Prod.mk.injEq, List.not_mem_nil, or_false] at h
  rcases h with ⟨rfl, rfl⟩ | ⟨rfl, rfl⟩ | ⟨rfl, rfl⟩ | ⟨rfl, rfl⟩ | ⟨rfl, rfl⟩ <;> rfl

/-- generate_constants_json.py takes from the LLVM files, in either order, both tables: all system calls, and all constants that are numbers. The file it writes
(any JSON text of what it found) tells the offline compiler what minijail knows, except for the constants that are addresses. -/
theorem C78_generated (cx : Ctx) {sys con : List (List Char × Option Int)} {f1 f2 : List (List Char)} {name : List Char} (h1 : SyscallFile sys f1) (h2 : ConstantFile con f2)
    (hs : PrintsCalls cx sys) (hc : PrintsConstants cx.constants con) (os : OneValue cx.syscalls) (oc : OneValue cx.constants) (op : OneValue con)
    (hnr : ("MINIJAIL_ARCH_NR".toList, some (cx.t.archNr.toNat : Int)) ∈ con) (hbits : ("MINIJAIL_ARCH_BITS".toList, some (cx.t.longBits : Int)) ∈ con)
    (hname : ((cx.t.archNr.toNat : Int), name) ∈ machineNames) {files : List (List (List Char))} (hf : files = [f1, f2] ∨ files = [f2, f1]) :
    ∃ dict, generateConstants files = some dict ∧ ∀ text, FileText dict text →
      ∃ nr a, loadFromJson text = some (nr, a) ∧ a.name = name ∧ Describes cx nr a ∧ ∀ w i, a.constants w = some i ↔ (w, some i) ∈ con := by
  have p1 := parse_file (.inl ⟨rfl, rfl⟩) h1
  have p2 := parse_file (.inr ⟨rfl, rfl⟩) h2
  have dn := (dictGet_numbers op _ _).2 hnr
  have db := (dictGet_numbers op _ _).2 hbits
  have an := archName_of hname
  have key : ∃ dict, generateConstants files = some dict ∧ loadArch dict = some (cx.t.archNr.toNat, ⟨name, cx.t.longBits,
      fun n => (dictGet (numbersOf sys) n).bind fun i => if 0 ≤ i then some i.toNat else none, dictGet (numbersOf con), fun _ => none⟩) := by
    rcases hf with rfl | rfl
    · refine ⟨[("syscalls".toList, .table (numbersOf sys)), ("constants".toList, .table (numbersOf con)), ("arch_nr".toList, .num cx.t.archNr.toNat),
        ("bits".toList, .num cx.t.longBits), ("arch_name".toList, .str name)], ?_, rfl⟩
      have g : generateConstants.go [f1, f2] = some [("syscalls".toList, .table (numbersOf sys)), ("constants".toList, .table (numbersOf con))] := by
        simp only [generateConstants.go, p1, p2]; rfl
      have d : dictGet [("syscalls".toList, Val.table (numbersOf sys)), ("constants".toList, .table (numbersOf con))] "constants".toList = some (.table (numbersOf con)) := rfl
      simp only [generateConstants, g, d, dn, db, an]
      rfl
    · refine ⟨[("constants".toList, .table (numbersOf con)), ("syscalls".toList, .table (numbersOf sys)), ("arch_nr".toList, .num cx.t.archNr.toNat),
        ("bits".toList, .num cx.t.longBits), ("arch_name".toList, .str name)], ?_, rfl⟩
      have g : generateConstants.go [f2, f1] = some [("constants".toList, .table (numbersOf con)), ("syscalls".toList, .table (numbersOf sys))] := by
        simp only [generateConstants.go, p1, p2]; rfl
      have d : dictGet [("constants".toList, Val.table (numbersOf con)), ("syscalls".toList, .table (numbersOf sys))] "constants".toList = some (.table (numbersOf con)) := rfl
      simp only [generateConstants, g, d, dn, db, an]
      rfl
  obtain ⟨dict, k1, k2⟩ := key
  refine ⟨dict, k1, fun text ht => ⟨_, _, by rw [loadFromJson, jsonLoads_text ht]; exact k2, rfl, ⟨rfl, rfl, ?_, ?_⟩, dictGet_numbers op⟩⟩
  · intro n
    have : numbersOf sys = cx.syscalls.map fun e => (e.1, (e.2 : Int)) := by
      rw [hs]
      unfold numbersOf
      rw [List.filterMap_map]
      induction cx.syscalls with
      | nil => rfl
      | cons e l ih => simp only [List.filterMap_cons, Function.comp, Option.map_some, List.map_cons]; rw [← ih]; rfl
    simp only
    rw [this, dictGet_consistent os (fun v : Nat => (v : Int)) n]
    show _ = (cx.syscalls.find? fun e => e.1 == n).map (·.2)
    cases cx.syscalls.find? fun e => e.1 == n with
    | none => rfl
    | some e => simp
  · intro w i hi
    obtain ⟨v, hv, rfl⟩ := prints_mem hc ((dictGet_numbers op w i).1 hi)
    refine ⟨v.toNat, ?_, ?_⟩
    · have := (lookup_value oc w v).2 hv
      show (cx.constants.find? fun e => e.1 == w).map (·.2.toNat) = _
      cases hf : cx.constants.find? fun e => e.1 == w with
      | none => rw [hf] at this; cases this
      | some e => rw [hf] at this; simp only [Option.map_some, Option.some.injEq] at this ⊢; rw [this]
    · have h3 : v.toInt % ((2 ^ cx.t.longBits : Nat) : Int) = (v.toNat : Int) := by
        rw [BitVec.toInt_eq_toNat_bmod, Int.bmod_emod, ← Int.natCast_emod, Nat.mod_eq_of_lt v.isLt]
      rw [← h3]
      norm_cast

/-- A machine without a name in the list: no file is written. -/
theorem C78_unnamed {con : List (List Char × Option Int)} {sys : List (List Char × Option Int)} {f1 f2 : List (List Char)} (h1 : SyscallFile sys f1) (h2 : ConstantFile con f2)
    (op : OneValue con) {nr : Int} (hnr : ("MINIJAIL_ARCH_NR".toList, some nr) ∈ con) (hname : ∀ name, (nr, name) ∉ machineNames) : generateConstants [f1, f2] = none := by
  have p1 := parse_file (.inl ⟨rfl, rfl⟩) h1
  have p2 := parse_file (.inr ⟨rfl, rfl⟩) h2
  have dn := (dictGet_numbers op _ _).2 hnr
  have g : generateConstants.go [f1, f2] = some [("syscalls".toList, .table (numbersOf sys)), ("constants".toList, .table (numbersOf con))] := by
    simp only [generateConstants.go, p1, p2]; rfl
  have d : dictGet [("syscalls".toList, Val.table (numbersOf sys)), ("constants".toList, .table (numbersOf con))] "constants".toList = some (.table (numbersOf con)) := rfl
  have an : archNameOf nr = none := by
    unfold archNameOf
    have k : ∀ m name, (m, name) ∈ machineNames → nr ≠ m := by rintro m name h rfl; exact hname _ h
    rw [if_neg (k _ "x86_64".toList (by decide)), if_neg (k _ "x86".toList (by decide)), if_neg (k _ "arm64".toList (by decide)), if_neg (k _ "arm".toList (by decide)),
      if_neg (k _ "riscv64".toList (by decide))]
  simp only [generateConstants, g, d, dn]
  split
  · rename_i h; simp only [Option.some.injEq] at *; subst_vars; rw [an]; rfl
  · rfl

/-- With such a file, the two compilers do the same task: every policy of the common language becomes programs that do the same with every system call. Missing of
the full property is what C58 misses; and on machines where two names stand for one system call nothing is said. -/
theorem C78_compilers_partial {cx : Ctx} {nr : Nat} {fs : PyFiles} {c : Command} {text : List Char} (h : Describes cx nr c.arch) (hnr : c.archNr = nr)
    (hw : ∀ x ∈ cx.constants, Word x.1) (apart : ∀ x ∈ cx.syscalls, ∀ y ∈ cx.syscalls, x.2 = y.2 → x.1 = y.1) (numbers : ∀ e ∈ cx.syscalls, e.2 < 2 ^ 31)
    (be : cx.t.be = false) (files : ∀ p x, cx.fs p = some x → fs p = some x) (policy : fs c.policy = some text) (depth : 0 < c.depth) (deny : c.denylist = false)
    (retLog : c.retLog = false) (dflt : c.defaultAction = none ∨ c.defaultAction = some []) (kill : cx.opts.action = if c.killProcess then .killProcess else .kill)
    (builtin : cx.builtin = []) {rules : List (List Char × Rule)} (hp : CommonPolicy ⟨cx.t.longBits, cx.lang.syscall, c.arch.constants, cx.fs⟩ cx.opts.action.act text rules)
    {prog prog' : List Insn} (h1 : compileFilter cx text = .ok prog) (h2 : offlineMain fs c = some prog') (d : SeccompData)
    (hd : d.arch = cx.t.archNr ∨ c.killProcess = false) : runFilter false prog d = runFilter false prog' d := by
  have mem : ∀ n k, cx.lang.syscall n = some k → (n, k) ∈ cx.syscalls := by
    intro n k hk
    have hk' : (cx.syscalls.find? fun e => e.1 == n).map (·.2) = some k := hk
    cases hf : cx.syscalls.find? fun e => e.1 == n with
    | none => rw [hf] at hk'; cases hk'
    | some e =>
      rw [hf] at hk'
      have he := List.mem_of_find?_eq_some hf
      have hn : e.1 = n := by simpa using List.find?_some hf
      simp only [Option.map_some, Option.some.injEq] at hk'
      rw [← hn, ← hk']; exact he
  have bits : cx.t.longBits = 32 ∨ cx.t.longBits = 64 := by
    unfold Target.longBits; split
    · exact .inr rfl
    · exact .inl rfl
  refine C58_partial ⟨⟨rfl, fun _ _ q => q, h.constants, ?_, fun _ => rfl⟩, ⟨h.bits, by show 0 < cx.t.longBits; omega, fun n k hk => by rw [h.syscalls]; exact hk, fun _ _ q => q⟩,
    ⟨by rw [h.bits]; exact bits, ?_, ?_⟩, be, by rw [hnr]; exact h.machine, files, policy, depth, deny, retLog, dflt, kill, builtin, numbers⟩ hp h1 h2 d hd
  · intro w v hv
    have hv' : (cx.constants.find? fun e => e.1 == w).map (·.2.toNat) = some v := hv
    cases hf : cx.constants.find? fun e => e.1 == w with
    | none => rw [hf] at hv'; cases hv'
    | some e =>
      have he := List.mem_of_find?_eq_some hf
      have hn : e.1 = w := by simpa using List.find?_some hf
      rw [← hn]; exact hw e he
  · intro n m k hn hm
    rw [h.syscalls] at hn hm
    exact apart _ (mem n k hn) _ (mem m k hm) rfl
  · intro n k hn
    rw [h.syscalls] at hn
    have := numbers _ (mem n k hn)
    simp only at this
    omega

/-! ### Cases -/

/-- A library for amd64 with two system calls and four constants, one of them the address of a string, and one with the highest bit set. -/
def smallLibrary : Ctx where
  t := ⟨true, false, 0xc000003e⟩
  syscalls := [("read".toList, 0), ("write".toList, 1)]
  constants := [("MINIJAIL_ARCH_BITS".toList, 64#64), ("MINIJAIL_ARCH_NR".toList, 0xc000003e#64), ("AT_FDCWD".toList, (-100 : BitVec 64)), ("FS_KEY".toList, 0x400800#64)]
  logSyscalls := []
  libcCompatibilitySyscalls := []
  fs := fun _ => none
  opts := ⟨.kill, false, false, false, false⟩

theorem smallLibrary_names : (∀ x ∈ smallLibrary.syscalls, NameLike x.1) ∧ (∀ x ∈ smallLibrary.constants, NameLike x.1) ∧ NameLike "x86_64".toList := by
  have h1 : ∀ x ∈ [("read".toList, 0), ("write".toList, 1)], ∀ c ∈ x.1, c.isAlphanum = true ∨ c = '_' := by decide
  have h2 : ∀ x ∈ [("MINIJAIL_ARCH_BITS".toList, 64#64), ("MINIJAIL_ARCH_NR".toList, 0xc000003e#64), ("AT_FDCWD".toList, (-100 : BitVec 64)), ("FS_KEY".toList, 0x400800#64)],
    ∀ c ∈ x.1, c.isAlphanum = true ∨ c = '_' := by decide
  exact ⟨h1, h2, by unfold NameLike; decide⟩

theorem oneValue_of {α : Type} {l : List (List Char × α)} (h : (l.map (·.1)).Nodup) : OneValue l := by
  intro k v v' h1 h2
  induction l with
  | nil => cases h1
  | cons e l ih =>
    rw [List.map_cons, List.nodup_cons] at h
    rcases List.mem_cons.1 h1 with e1 | h1 <;> rcases List.mem_cons.1 h2 with e2 | h2
    · rw [← e1] at e2; injection e2 with _ e2; exact e2.symm
    · exact absurd (List.mem_map.2 ⟨_, h2, by rw [← e1]⟩) h.1
    · exact absurd (List.mem_map.2 ⟨_, h1, by rw [← e2]⟩) h.1
    · exact ih h.2 h1 h2

theorem smallLibrary_once : OneValue smallLibrary.syscalls ∧ OneValue smallLibrary.constants := by
  constructor
  · apply oneValue_of
    show (["read".toList, "write".toList] : List (List Char)).Nodup
    decide
  · apply oneValue_of
    show (["MINIJAIL_ARCH_BITS".toList, "MINIJAIL_ARCH_NR".toList, "AT_FDCWD".toList, "FS_KEY".toList] : List (List Char)).Nodup
    decide

/-- What dump_constants prints. -/
example : dumpOf { smallLibrary with constants := [("A".toList, 5#64)] } "x86_64".toList =
    "{\n  \"arch_nr\": 3221225534,\n  \"arch_name\": \"x86_64\",\n  \"bits\": 64,\n  \"syscalls\": {\n    \"read\": 0,\n    \"write\": 1\n  },\n  \"constants\": {\n    \"A\": 5\n  }\n}\n".toList := by
  decide +kernel

/-- The hypotheses of `C78_dump` are met. -/
example : ∃ nr a, loadFromJson (dumpOf smallLibrary "x86_64".toList) = some (nr, a) ∧ a.name = "x86_64".toList ∧ Describes smallLibrary nr a ∧
    ∀ w, a.constants w = (smallLibrary.lang.named w).map fun v : Nat => (v : Int) :=
  C78_dump smallLibrary smallLibrary_names.2.2 smallLibrary_names.1 smallLibrary_names.2.1 smallLibrary_once.1 smallLibrary_once.2

/-- The line of the table of system calls. -/
def callsLine : List Char :=
  "@syscall_table = dso_local constant [3 x ".toList ++ "%struct.syscall_entry] [".toList ++ "%struct.syscall_entry { ptr".toList ++ " @.str".toList ++ ", i32 0 }, ".toList ++ "%struct.syscall_entry { ptr".toList ++ " @.str.1".toList ++ ", i32 1 }, ".toList ++ "%struct.syscall_entry { ptr null".toList ++ ", i32 -1 }], align 16".toList

/-- The line of the table of constants, in the form of an older compiler for one of the entries. -/
def constantsLine : List Char :=
  "@constant_table = dso_local constant [5 x ".toList ++ "%struct.constant_entry] [".toList ++ "%struct.constant_entry { i8* ".toList ++ "getelementptr inbounds ([19 x i8], [19 x i8]*".toList ++ " @.str".toList ++ ", i32 0".toList ++ ", i32 0), i64 64 }, ".toList ++ "%struct.constant_entry { ptr".toList ++ " @.str.1, i64 3221225534 }, ".toList ++ "%struct.constant_entry { ptr".toList ++ " @.str.2, i64 -100 }, ".toList ++ "%struct.constant_entry { ptr".toList ++ " @.str.3, i64 ptrtoint ".toList ++ "(ptr".toList ++ " @.str.4 to i64) }, ".toList ++ "%struct.constant_entry zeroinitializer], align 16".toList

/-- The LLVM file of the system calls. -/
def callsIr : List (List Char) :=
  ["; ModuleID = 'libsyscalls.gen.c'".toList,
   "%struct.syscall_entry = type { ptr, i32 }".toList,
   "@.str = private unnamed_addr constant [5 x i8] c\"read\\00\", align 1".toList,
   "@.str.1 = private unnamed_addr constant [6 x i8] c\"write\\00\", align 1".toList,
   callsLine,
   "@syscall_table_size = dso_local constant i64 3, align 8".toList]

/-- The LLVM file of the constants. -/
def constantsIr : List (List Char) :=
  ["@.str = private unnamed_addr constant [19 x i8] c\"MINIJAIL_ARCH_BITS\\00\", align 1".toList,
   "@.str.1 = private unnamed_addr constant [17 x i8] c\"MINIJAIL_ARCH_NR\\00\", align 1".toList,
   "@.str.2 = private unnamed_addr constant [9 x i8] c\"AT_FDCWD\\00\", align 1".toList,
   "@.str.3 = private unnamed_addr constant [7 x i8] c\"FS_KEY\\00\", align 1".toList,
   constantsLine]

instance (s : List Char) : Decidable (StrLabel s) := by unfold StrLabel; infer_instance
instance (s : List Char) : Decidable (Before s) := decidable_of_iff (((s.head?.all fun c => decide (c ∉ [' ', '\t', '\n', '\r', '\x0b', '\x0c'])) = true) ∧ '@' ∉ s ∧ '}' ∉ s ∧ ¬"null".toList <:+: s) (by
  unfold Before
  refine and_congr ?_ Iff.rfl
  cases s.head? with
  | none => simp
  | some c => simp)

/-- Whether no number follows a space. -/
def noNumber : List Char → Bool
  | ' ' :: c :: b => !c.isDigit && (c != '-' || !(b.head?.any Char.isDigit)) && noNumber (c :: b)
  | _ :: r => noNumber r
  | [] => true

theorem noNumber_sound : ∀ s : List Char, noNumber s = true → NoNumber s := by
  intro s
  induction s with
  | nil => intro _ a c b e; cases a <;> cases e
  | cons x s ih =>
    intro h a c b e
    cases a with
    | nil =>
      injection e with e1 e2
      subst e1; subst e2
      rw [noNumber] at h
      simp only [Bool.and_eq_true, Bool.not_eq_true', Bool.or_eq_true] at h
      refine ⟨h.1.1, ?_⟩
      rintro rfl y hy
      rcases h.1.2 with q | q
      · exact absurd q (by decide)
      · rw [hy] at q; simpa using q
    | cons y a =>
      injection e with e1 e2
      refine ih ?_ a c b e2
      by_cases hx : x = ' '
      · subst hx
        cases s with
        | nil => rfl
        | cons z s => rw [noNumber] at h; simp only [Bool.and_eq_true] at h; exact h.2
      · rw [noNumber] at h
        · exact h
        · intro c b h1 _; exact absurd h1 hx

theorem stringLine_of {l s mid tail line : List Char} (e : '@' :: l ++ " = ".toList ++ mid ++ "c\"".toList ++ s ++ "\\00\"".toList ++ tail = line)
    (h : StrLabel l ∧ s ≠ [] ∧ (∀ c ∈ s, c ≠ '"' ∧ c ≠ '\\') ∧ '"' ∉ mid ∧ '"' ∉ tail) : StringLine l s line := by
  subst e; exact .mk h.1 h.2.1 h.2.2.1 h.2.2.2.1 h.2.2.2.2

theorem tableLine_of {kind other mid t line : List Char} {r : List (List Char × Option Int)} (hm : '%' ∉ mid) (h : Entries kind r t)
    (e : '@' :: kind ++ "_table = ".toList ++ mid ++ "%struct.".toList ++ kind ++ "_entry] [".toList ++ t = line) (ho : ¬('@' :: other ++ "_table".toList) <:+: line) :
    TableLine kind other r line := by
  subst e; exact .mk hm h ho

theorem not_occurs {p s : List Char} (h : occursIn p s = false) : ¬p <:+: s := by
  rw [← occursIn_iff, h]; decide

theorem callsIr_table : TableLine "syscall".toList "constant".toList [(".str".toList, some 0), (".str.1".toList, some 1)] callsLine := by
  have e1 := EntryText.number (pre := "ptr ".toList) (l := ".str".toList) (mid := " i32".toList) (i := 0) (num := "0".toList) (by decide +kernel) (by decide +kernel) (by decide) (by unfold Llvm.Number; decide)
  have e2 := EntryText.number (pre := "ptr ".toList) (l := ".str.1".toList) (mid := " i32".toList) (i := 1) (num := "1".toList) (by decide +kernel) (by decide +kernel) (by decide) (by unfold Llvm.Number; decide)
  have e3 := Entries.null (kind := "syscall".toList) (pre := "ptr ".toList) (mid := " i32".toList) (i := -1) (num := "-1".toList) (tail := "], align 16".toList) (by decide +kernel) (by decide)
    (by unfold Llvm.Number; decide)
  exact tableLine_of (mid := "dso_local constant [3 x ".toList) (by decide) (.more e1 (.more e2 e3)) (by decide +kernel) (not_occurs (by decide +kernel))

theorem callsIr_file : SyscallFile [("read".toList, some 0), ("write".toList, some 1)] callsIr := by
  refine ⟨[(".str".toList, "read".toList), (".str.1".toList, "write".toList)], [], _, callsLine, _, _, rfl (a := [_, _, _, _] ++ callsLine :: [_]), ?_, ?_, callsIr_table, oneValue_of (by decide), rfl, by decide⟩
  · refine .other (.plain (by decide) (not_occurs (by decide +kernel)) (not_occurs (by decide +kernel))) (.other (.plain (by decide) (not_occurs (by decide +kernel)) (not_occurs (by decide +kernel)))
      (.string ?_ (.string ?_ .nil)))
    · exact stringLine_of (mid := "private unnamed_addr constant [5 x i8] ".toList) (tail := ", align 1".toList) (by decide +kernel) (by decide +kernel)
    · exact stringLine_of (mid := "private unnamed_addr constant [6 x i8] ".toList) (tail := ", align 1".toList) (by decide +kernel) (by decide +kernel)
  · refine .other ?_ .nil
    exact OtherLine.size (kind := "syscall".toList) (t := "dso_local constant i64 3, align 8".toList) (by decide) (by decide)

theorem constantsIr_table : TableLine "constant".toList "syscall".toList
    [(".str".toList, some 64), (".str.1".toList, some 3221225534), (".str.2".toList, some (-100)), (".str.3".toList, none)] constantsLine := by
  have e1 := EntryText.number (pre := "i8* getelementptr inbounds ([19 x i8], [19 x i8]* ".toList) (l := ".str".toList) (mid := " i32 0, i32 0), i64".toList) (i := 64) (num := "64".toList)
    (by decide +kernel) (by decide +kernel) (by decide) (by unfold Llvm.Number; decide)
  have e2 := EntryText.number (pre := "ptr ".toList) (l := ".str.1".toList) (mid := " i64".toList) (i := 3221225534) (num := "3221225534".toList) (by decide +kernel) (by decide +kernel) (by decide)
    (by unfold Llvm.Number; decide +kernel)
  have e3 := EntryText.number (pre := "ptr ".toList) (l := ".str.2".toList) (mid := " i64".toList) (i := -100) (num := "-100".toList) (by decide +kernel) (by decide +kernel) (by decide)
    (by unfold Llvm.Number; decide +kernel)
  have e4 := EntryText.pointer (pre := "ptr ".toList) (l := ".str.3".toList) (mid := " i64".toList) (arg := "ptr @.str.4 to i64".toList) (by decide +kernel) (by decide +kernel) (by decide) (by decide)
    (noNumber_sound _ (by decide +kernel))
  have e5 := Entries.zero (kind := "constant".toList) (tail := "], align 16".toList) (by decide)
  exact tableLine_of (mid := "dso_local constant [5 x ".toList) (by decide) (.more e1 (.more e2 (.more e3 (.more e4 e5)))) (by decide +kernel) (not_occurs (by decide +kernel))

theorem constantsIr_file : ConstantFile [("MINIJAIL_ARCH_BITS".toList, some 64), ("MINIJAIL_ARCH_NR".toList, some 3221225534), ("AT_FDCWD".toList, some (-100)), ("FS_KEY".toList, none)] constantsIr := by
  refine ⟨[(".str".toList, "MINIJAIL_ARCH_BITS".toList), (".str.1".toList, "MINIJAIL_ARCH_NR".toList), (".str.2".toList, "AT_FDCWD".toList), (".str.3".toList, "FS_KEY".toList)], [],
    _, constantsLine, [], _, rfl (a := [_, _, _, _] ++ constantsLine :: []), ?_, .nil, constantsIr_table, oneValue_of (by decide), rfl, by decide⟩
  refine .string ?_ (.string ?_ (.string ?_ (.string ?_ .nil)))
  · exact stringLine_of (mid := "private unnamed_addr constant [19 x i8] ".toList) (tail := ", align 1".toList) (by decide +kernel) (by decide +kernel)
  · exact stringLine_of (mid := "private unnamed_addr constant [17 x i8] ".toList) (tail := ", align 1".toList) (by decide +kernel) (by decide +kernel)
  · exact stringLine_of (mid := "private unnamed_addr constant [9 x i8] ".toList) (tail := ", align 1".toList) (by decide +kernel) (by decide +kernel)
  · exact stringLine_of (mid := "private unnamed_addr constant [7 x i8] ".toList) (tail := ", align 1".toList) (by decide +kernel) (by decide +kernel)

/-- The hypotheses of `C78_generated` are met. -/
example : ∃ dict, generateConstants [callsIr, constantsIr] = some dict ∧ ∀ text, FileText dict text →
      ∃ nr a, loadFromJson text = some (nr, a) ∧ a.name = "x86_64".toList ∧ Describes smallLibrary nr a ∧ ∀ w i, a.constants w = some i ↔
        (w, some i) ∈ [("MINIJAIL_ARCH_BITS".toList, some 64), ("MINIJAIL_ARCH_NR".toList, some 3221225534), ("AT_FDCWD".toList, some (-100)), ("FS_KEY".toList, none)] :=
  C78_generated smallLibrary callsIr_file constantsIr_file rfl (.number (.number (.number (.address .nil)))) smallLibrary_once.1 smallLibrary_once.2 (oneValue_of (by decide))
    (by decide) (by decide) (by decide) (.inl rfl)

theorem both_syscalls : smallArch.syscalls = (bothCx .kill).lang.syscall := by
  funext n
  by_cases h1 : n = "read".toList
  · subst h1; decide
  by_cases h2 : n = "write".toList
  · subst h2; decide
  by_cases h3 : n = "kill".toList
  · subst h3; decide
  show (if n = "read".toList then some 0 else if n = "write".toList then some 1 else if n = "kill".toList then some 62 else none) =
    (([("read".toList, 0), ("write".toList, 1), ("kill".toList, 62)] : List (List Char × Nat)).find? (fun e => e.1 == n)).map (·.2)
  rw [if_neg h1, if_neg h2, if_neg h3, List.find?_cons, beq_false_of_ne (Ne.symm h1), List.find?_cons, beq_false_of_ne (Ne.symm h2), List.find?_cons, beq_false_of_ne (Ne.symm h3)]
  rfl

/-- The hypotheses of `C78_compilers_partial` are met: the machine of C58 and its policy. -/
example : Describes (bothCx .kill) 0xc000003e (bothCommand false).arch ∧ (bothCommand false).archNr = 0xc000003e ∧ (∀ x ∈ (bothCx .kill).constants, Word x.1) ∧
    (∀ x ∈ (bothCx .kill).syscalls, ∀ y ∈ (bothCx .kill).syscalls, x.2 = y.2 → x.1 = y.1) ∧
    CommonPolicy ⟨(bothCx .kill).t.longBits, (bothCx .kill).lang.syscall, (bothCommand false).arch.constants, (bothCx .kill).fs⟩ (bothCx .kill).opts.action.act bothText bothRules := by
  refine ⟨⟨rfl, rfl, fun n => congrFun both_syscalls n, both_task.lang.named⟩, rfl, ?_, ?_, ?_⟩
  · intro x hx
    refine both_task.lang.onlyWords x.1 x.2.toNat ?_
    have : x ∈ [("EPERM".toList, 1#64), ("PROT_EXEC".toList, 4#64), ("PROT_WRITE".toList, 2#64)] := hx
    rcases List.mem_cons.1 this with rfl | this
    · decide
    rcases List.mem_cons.1 this with rfl | this
    · decide
    rcases List.mem_cons.1 this with rfl | this
    · decide
    cases this
  · decide
  · rw [← both_syscalls]; exact both_policy

/-- The two files differ: a constant with the highest bit set is a large number for one and negative for the other, and the address is only in one of them. (Both
stand for the same word; the address is that of the program that printed it.) -/
theorem C78_files_differ : ∃ a b, loadFromJson (dumpOf smallLibrary "x86_64".toList) = some a ∧ ((generateConstants [callsIr, constantsIr]).bind loadArch) = some b ∧
    a.2.constants "AT_FDCWD".toList = some (2 ^ 64 - 100) ∧ b.2.constants "AT_FDCWD".toList = some (-100) ∧
    a.2.constants "FS_KEY".toList = some 0x400800 ∧ b.2.constants "FS_KEY".toList = none := by
  have h1 : (loadFromJson (dumpOf smallLibrary "x86_64".toList)).map (fun a => (a.2.constants "AT_FDCWD".toList, a.2.constants "FS_KEY".toList)) = some (some (2 ^ 64 - 100), some 0x400800) := by
    decide +kernel
  have h2 : ((generateConstants [callsIr, constantsIr]).bind loadArch).map (fun a => (a.2.constants "AT_FDCWD".toList, a.2.constants "FS_KEY".toList)) = some (some (-100), none) := by
    decide +kernel
  cases ha : loadFromJson (dumpOf smallLibrary "x86_64".toList) with
  | none => rw [ha] at h1; cases h1
  | some a =>
    cases hb : (generateConstants [callsIr, constantsIr]).bind loadArch with
    | none => rw [hb] at h2; cases h2
    | some b =>
      rw [ha] at h1; rw [hb] at h2
      simp only [Option.map_some, Option.some.injEq, Prod.mk.injEq] at h1 h2
      exact ⟨a, b, rfl, rfl, h1.1, h2.1, h1.2, h2.2⟩

end Minijail
