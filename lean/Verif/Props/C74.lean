import Verif.Proof.Frequency
import Verif.Props.C73
/-!
C74: the frequency file (tools/generate_seccomp_policy.py --frequency) says how often the files tell of each system call, and the offline compiler reads those
numbers. Without a frequency file the policy has the calls that are told of most often first.
-/
set_option autoImplicit false
set_option linter.unusedSimpArgs false
namespace Minijail
open Spec Offline Generate

/-- The numbers in the tool, in the order in which they are written. -/
theorem main_counts {T : CommonTables} {comm : List Char} {files : List InputFile} (hg : GoodFiles T comm files) {st1 st2 : Seen}
    (h1 : (files.filter fun f => !isLog (pyLines f.2.1)).foldlM (fun st f => parseTraceFile st (f.1, f.2.1)) ⟨[], fun _ => []⟩ = some st1)
    (h2 : (files.filter fun f => isLog (pyLines f.2.1)).foldlM (fun st f => parseAuditLog comm st f.2.2) st1 = some st2)
    (hk : Knows (FilesTell comm files) st2) (frequency : Bool) (n : List Char) (k : Nat) :
    (n, k) ∈ sortedSyscalls frequency (addBasic st2.syscalls) ↔ Frequency comm files n k := by
  obtain ⟨hp, ht⟩ := files_counted hg h1 h2
  rw [(sorted_perm frequency _).mem_iff, addBasic_entry, mem_countOf hk.nodup hp, ← countOf_zero hp]
  unfold Frequency
  have hu : ∀ k, ToldTimes comm files n k ↔ countOf n st2.syscalls = k := fun k => ⟨fun h => (ht n).unique h, fun h => h ▸ ht n⟩
  rw [hu, hu]

/-- The frequency file says how often the files tell of each system call in the policy (once for those that every program needs and that are not told of). The offline
compiler reads from it exactly these numbers, each once. -/
theorem C74_counts {T : CommonTables} (ht : TraceTables T) {comm : List Char} {files : List InputFile} (hg : GoodFiles T comm files) {auparse : Bool}
    {name : Option (List Char)} (ha : LogOptions auparse name comm files) {year : List Char} (hy : '\n' ∉ year ∧ '\r' ∉ year)
    (order : List (List Char) → List (List Char)) :
    ∃ (text freq : List Char) (numbers : List (List Char × Nat)), generateMain year order true auparse name (files.map some) = some (text, some freq) ∧
      (∀ n k, (n, k) ∈ numbers ↔ Frequency comm files n k) ∧ (numbers.map Prod.fst).Nodup ∧ (numbers.map Prod.fst).Pairwise (· ≤ ·) ∧
      ∀ a, ArchFits T a → parseFrequencyFile a freq = some (numbers.map fun x => (⟨x.1, (T.syscall x.1).getD 0⟩, x.2)) := by
  obtain ⟨st1, st2, e1, e2, hk, e⟩ := main_policy hg ha year order true
  have hm := main_counts hg e1 e2 hk true
  refine ⟨_, _, sortedSyscalls true (addBasic st2.syscalls), e, hm, ?_, ?_, ?_⟩
  · exact ((sorted_perm true _).map Prod.fst).nodup_iff.2 (addBasic_nodup hk.nodup)
  · rw [List.pairwise_map]
    refine (pySorted_pairwise (le := fun a b : List Char × Nat => strLe a.1 b.1) ?_ ?_ _).imp fun {a b} h => (strLe_iff _ _).1 h
    · intro a b c h1 h2
      rw [strLe_iff] at h1 h2 ⊢
      exact List.le_trans h1 h2
    · intro a b
      rw [strLe_iff, strLe_iff]
      exact List.le_total _ _
  · intro a hfit
    obtain ⟨lines, h1, h2⟩ := frequency_lines hfit (sortedSyscalls true (addBasic st2.syscalls)) (by
      intro x hx
      have hf := (hm x.1 x.2).1 hx
      have hs : (T.syscall x.1).isSome := by
        have hx' : x.1 ∈ (addBasic st2.syscalls).map Prod.fst := List.mem_map.2 ⟨x, (sorted_perm true _).mem_iff.1 hx, rfl⟩
        rw [addBasic_mem, hk.names] at hx'
        rcases hx' with ⟨args, h⟩ | h
        · exact files_calls hg h
        · exact ht.basic _ h
      refine ⟨(ht.names _ hs).1, (ht.names _ hs).2, hs, ?_⟩
      rcases hf with ⟨h, -⟩ | ⟨h, -, -⟩
      · exact h
      · omega)
    unfold parseFrequencyFile Offline.tokenize
    rw [notice_tokens hy, h1]
    exact h2

theorem addFrequency_fold {l : List (Syscall × Nat)} (hn : (l.map Prod.fst).Nodup) (f : Syscall → Option Nat) (c : Syscall) :
    (∀ k, (c, k) ∈ l → (l.foldl (fun f x => addFrequency f x.1 x.2) f) c = some ((f c).getD 0 + k)) ∧
    (c ∉ l.map Prod.fst → (l.foldl (fun f x => addFrequency f x.1 x.2) f) c = f c) := by
  induction l generalizing f with
  | nil => simp
  | cons x l ih =>
    rw [List.map_cons, List.nodup_cons] at hn
    have ih := ih hn.2 (addFrequency f x.1 x.2)
    rw [List.foldl_cons]
    refine ⟨fun k hk => ?_, fun hc => ?_⟩
    · rcases List.mem_cons.1 hk with rfl | hk
      · rw [ih.2 hn.1]
        simp [addFrequency]
      · have hne : c ≠ x.1 := by rintro rfl; exact hn.1 (List.mem_map.2 ⟨_, hk, rfl⟩)
        rw [ih.1 k hk]
        simp [addFrequency, hne]
    · rw [List.map_cons, List.mem_cons, not_or] at hc
      rw [ih.2 hc.2]
      simp [addFrequency, hc.1]

/-- A policy that names the frequency file (`@frequency`, before any other): the offline compiler then has the numbers of the file, and no others. -/
theorem C74_used {T : CommonTables} (ht : TraceTables T) {comm : List Char} {files : List InputFile} (hg : GoodFiles T comm files) {auparse : Bool}
    {name : Option (List Char)} (ha : LogOptions auparse name comm files) {year : List Char} (hy : '\n' ∉ year ∧ '\r' ∉ year)
    {order : List (List Char) → List (List Char)} {text freq : List Char} (hgen : generateMain year order true auparse name (files.map some) = some (text, some freq))
    {g : Settings} (hfit : ArchFits T g.arch) {fs : PyFiles} {filename path : List Char} (hfs : fs (resolve filename path) = some freq)
    (includes : List Char → FState → Option (List Statement × FState)) (v : List Char) (st : FState) (hst : ∀ c, st.frequency c = none) :
    ∃ st', Offline.parseLine fs g includes filename [⟨.frequency, v⟩, ⟨.path, path⟩] st = some (⟨[], false⟩, st') ∧
      (∀ n nr k, T.syscall n = some nr → (st'.frequency ⟨n, nr⟩ = some k ↔ Frequency comm files n k)) ∧ st'.next = st.next ∧ st'.default = st.default := by
  obtain ⟨text', freq', numbers, e, hm, hn, -, hp⟩ := C74_counts ht hg ha hy order
  rw [hgen] at e
  simp only [Option.some.injEq, Prod.mk.injEq] at e
  obtain ⟨rfl, rfl⟩ := e
  refine ⟨{ st with frequency := ((numbers.map fun x => ((⟨x.1, (T.syscall x.1).getD 0⟩ : Syscall), x.2)).foldl (fun f x => addFrequency f x.1 x.2) st.frequency) }, ?_, ?_, rfl, rfl⟩
  · simp [Offline.parseLine, pathStatement, hfs, hp _ hfit]
  · intro n nr k hnr
    have hnd : ((numbers.map fun x : List Char × Nat => ((⟨x.1, (T.syscall x.1).getD 0⟩ : Syscall), x.2)).map Prod.fst).Nodup := by
      rw [List.map_map]
      have : (Prod.fst ∘ fun x : List Char × Nat => ((⟨x.1, (T.syscall x.1).getD 0⟩ : Syscall), x.2)) = (fun n => (⟨n, (T.syscall n).getD 0⟩ : Syscall)) ∘ Prod.fst := rfl
      rw [this, ← List.map_map]
      refine List.Nodup.map ?_ hn
      intro a b h
      exact congrArg Syscall.name h
    have hf := addFrequency_fold hnd st.frequency ⟨n, nr⟩
    simp only []
    rw [← hm]
    constructor
    · intro h
      by_cases hc : (⟨n, nr⟩ : Syscall) ∈ (numbers.map fun x : List Char × Nat => ((⟨x.1, (T.syscall x.1).getD 0⟩ : Syscall), x.2)).map Prod.fst
      · rw [List.map_map] at hc
        obtain ⟨x, hx, ex⟩ := List.mem_map.1 hc
        have en : x.1 = n := congrArg Syscall.name ex
        rw [hf.1 x.2 (List.mem_map.2 ⟨x, hx, by rw [← ex]; rfl⟩), hst] at h
        simp at h
        rw [← h, ← en]
        exact hx
      · rw [hf.2 hc, hst] at h
        cases h
    · intro h
      rw [hf.1 k (List.mem_map.2 ⟨_, h, by simp [hnr]⟩), hst]
      simp

/-- With a frequency file the rules of the policy are in the order of the names; without one, those that are told of more often come first, and there is no frequency
file. -/
theorem C74_order {T : CommonTables} (ht : TraceTables T) {comm : List Char} {files : List InputFile} (hg : GoodFiles T comm files) {auparse : Bool}
    {name : Option (List Char)} (ha : LogOptions auparse name comm files) {year : List Char} (hy : '\n' ∉ year ∧ '\r' ∉ year)
    {order : List (List Char) → List (List Char)} (ho : ∀ l, (order l).Perm l) (frequency : Bool) {dflt : Spec.Action} (hd : dflt ≠ .allow) :
    ∃ text freq rules, generateMain year order frequency auparse name (files.map some) = some (text, freq) ∧ CommonPolicy T dflt text rules ∧
      (frequency = true → rules.Pairwise fun x y => x.1 ≤ y.1) ∧
      (frequency = false → freq = none ∧ rules.Pairwise fun x y => ∀ j k, Frequency comm files x.1 j → Frequency comm files y.1 k → k ≤ j) := by
  obtain ⟨st1, st2, e1, e2, hk, e⟩ := main_policy hg ha year order frequency
  obtain ⟨rules, h1, h2, -⟩ := policyOf_rules ht (fun n a h => files_calls hg h) (files_written hg) hk hy ho frequency hd
  refine ⟨_, (policyOf year order frequency st2).2, rules, e, h1, ?_, ?_⟩
  · rintro rfl
    have : (rules.map Prod.fst).Pairwise (· ≤ ·) := by
      rw [h2, List.pairwise_map]
      refine (pySorted_pairwise (le := fun a b : List Char × Nat => strLe a.1 b.1) ?_ ?_ _).imp fun {a b} h => (strLe_iff _ _).1 h
      · intro a b c h1 h2
        rw [strLe_iff] at h1 h2 ⊢
        exact List.le_trans h1 h2
      · intro a b
        rw [strLe_iff, strLe_iff]
        exact List.le_total _ _
    rwa [List.pairwise_map] at this
  · rintro rfl
    refine ⟨rfl, ?_⟩
    have hm := main_counts hg e1 e2 hk false
    have hnd : ((sortedSyscalls false (addBasic st2.syscalls)).map Prod.fst).Nodup := ((sorted_perm false _).map Prod.fst).nodup_iff.2 (addBasic_nodup hk.nodup)
    have huniq : ∀ n j k, Frequency comm files n j → Frequency comm files n k → j = k := by
      rintro n j k (⟨h1, h2⟩ | ⟨rfl, -, h2⟩) (⟨h3, h4⟩ | ⟨rfl, -, h4⟩)
      · exact h2.unique h4
      · have := h2.unique h4; omega
      · have := h2.unique h4; omega
      · rfl
    have : (rules.map Prod.fst).Pairwise fun x y => ∀ j k, Frequency comm files x j → Frequency comm files y k → k ≤ j := by
      rw [h2, List.pairwise_map]
      have hpw := pySorted_pairwise (le := fun a b : List Char × Nat => decide (b.2 ≤ a.2)) (by
        intro a b c h1 h2
        simp at h1 h2 ⊢
        omega) (by
        intro a b
        simp
        omega) (addBasic st2.syscalls)
      refine List.Pairwise.imp_of_mem ?_ hpw
      intro x y hx hy' h j k hj hk'
      have ex := huniq _ _ _ hj ((hm x.1 x.2).1 hx)
      have ey := huniq _ _ _ hk' ((hm y.1 y.2).1 hy')
      simp at h
      omega
    rwa [List.pairwise_map] at this

/-- The hypotheses are met by the trace and the log of `C73`. -/
example : TraceTables traceTables ∧ GoodFiles traceTables "server".toList someFiles ∧ LogOptions true (some "server".toList) "server".toList someFiles ∧
    (generateMain "2026".toList id true true (some "server".toList) (someFiles.map some)).map (fun x => x.2.map fun f => f.drop (notice "2026".toList).length) = some (some
      "execve: 2\nexit: 1\nexit_group: 1\nioctl: 1\nmmap: 1\nrestart_syscall: 1\nrt_sigreturn: 1\nsocket: 1\n".toList) :=
  ⟨trace_tables, some_files, .inl ⟨⟨someLog, some_has, some_look⟩, rfl, by decide, rfl⟩, by decide +kernel⟩

end Minijail
