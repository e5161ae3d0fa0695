import Verif.Proof.Rust
import Verif.Props.C48
import Verif.Props.C19
/-! C60: configuring a jail through the Rust interface. -/
set_option autoImplicit false
set_option linter.unusedSimpArgs false
namespace Minijail
open Spec

/-- A method stands for one call. -/
theorem C60_one (env : RustEnv) (m : RustMethod) (c c' : Call) (h : StandsFor env m c) (h' : StandsFor env m c') : c = c' := by
  cases m
  case parseSeccompProgram p =>
    obtain ⟨b, q, hb, hq, rfl⟩ := h
    obtain ⟨b', q', hb', hq', rfl⟩ := h'
    rw [hb] at hb'
    cases hb'
    rw [insnBytes_inj (hq.trans hq'.symm)]
  case parseSeccompBytes p =>
    obtain ⟨q, hq, rfl⟩ := h
    obtain ⟨q', hq', rfl⟩ := h'
    rw [insnBytes_inj (hq.trans hq'.symm)]
  all_goals exact Eq.trans h (Eq.symm h')

/-- **C60**, `Ok`: a method that returns `Ok` has made the call it stands for, and the library accepted it. Missing: users and groups that
do not exist (`C60_user_violated`) and maps for which memory is exhausted (`C60_memory_violated`). -/
theorem C60_ok_partial (env : RustEnv) (j j' : Jail) (m : RustMethod) (hk : Known env m) (ho : env.api.oom = false)
    (h : rustCall env j m = .ret (.ok ()) j') : ∃ c, StandsFor env m c ∧ call env.api j c = .ret 0 j' := by
  rcases rust_does env j m with ⟨e, he⟩ | ⟨c, hs, -, ⟨hr, hz⟩ | ⟨e, hr, hz⟩⟩
  · rw [he] at h; cases h
  · refine ⟨c, hs, ?_⟩
    rw [hr] at h
    cases hq : call env.api j c with
    | die => rw [hq] at h; cases h
    | ret rc k =>
      rw [hq] at h
      cases h
      rw [hz ho hk rc _ hq]
  · refine ⟨c, hs, ?_⟩
    rw [hr] at h
    cases hq : call env.api j c with
    | die => rw [hq] at h; cases h
    | ret rc k =>
      rw [hq] at h
      have := hz rc k hq
      simp only [RustRes.checked] at h
      by_cases h0 : rc < 0
      · rw [if_pos h0] at h; cases h
      · rw [if_neg h0] at h
        cases h
        rw [show rc = 0 by omega]

/-- **C60**, `Err`: unless memory is exhausted, a method that returns `Err` has changed nothing. -/
theorem C60_err (env : RustEnv) (j j' : Jail) (m : RustMethod) (e : RustError) (ho : env.api.oom = false)
    (h : rustCall env j m = .ret (.error e) j') : j' = j := by
  rcases rust_does env j m with ⟨e, he⟩ | ⟨c, hs, -, ⟨hr, hz⟩ | ⟨e, hr, hz⟩⟩
  · rw [he] at h; cases h; rfl
  · rw [hr] at h
    cases hq : call env.api j c with
    | die => rw [hq] at h; cases h
    | ret rc k => rw [hq] at h; cases h
  · rw [hr] at h
    cases hq : call env.api j c with
    | die => rw [hq] at h; cases h
    | ret rc k =>
      rw [hq] at h
      simp only [RustRes.checked] at h
      by_cases h0 : rc < 0
      · rw [if_pos h0] at h
        cases h
        refine C28_refused env.api j c rc _ ho hq ?_
        unfold success
        split_ifs <;> omega
      · rw [if_neg h0] at h; cases h

/-- **C60**: a method that ends the process made the call it stands for, and the library ended it. -/
theorem C60_die (env : RustEnv) (j : Jail) (m : RustMethod) (h : rustCall env j m = .die) :
    ∃ c, StandsFor env m c ∧ call env.api j c = .die := by
  rcases rust_does env j m with ⟨e, he⟩ | ⟨c, hs, -, ⟨hr, hz⟩ | ⟨e, hr, hz⟩⟩
  · rw [he] at h; cases h
  · refine ⟨c, hs, ?_⟩
    rw [hr] at h
    cases hq : call env.api j c with
    | die => rfl
    | ret rc k => rw [hq] at h; cases h
  · refine ⟨c, hs, ?_⟩
    rw [hr] at h
    cases hq : call env.api j c with
    | die => rfl
    | ret rc k => rw [hq] at h; cases h

/-- **C60**: what any methods make of a jail, calls of the library could have made of it, whose arguments are as the library demands. -/
theorem C60_calls (ms : List (RustEnv × RustMethod)) (hs : ∀ p ∈ ms, Sound p.1) (j j' : Jail) (h : rustCalls j ms = some j') :
    ∃ cs, calls j cs = some j' ∧ (∀ p ∈ cs, GoodCall p.1 p.2) ∧
      ∀ p ∈ cs, ∃ q ∈ ms, p.1 = q.1.api ∧ StandsFor q.1 q.2 p.2 := by
  induction ms generalizing j with
  | nil => exact ⟨[], h, by simp, by simp⟩
  | cons p ms ih =>
    obtain ⟨env, m⟩ := p
    simp only [rustCalls] at h
    have ih := ih fun q hq => hs q (by simp [hq])
    have keep : ∀ cs : List (ApiEnv × Call), (∀ p ∈ cs, ∃ q ∈ ms, p.1 = q.1.api ∧ StandsFor q.1 q.2 p.2) →
        ∀ p ∈ cs, ∃ q ∈ (env, m) :: ms, p.1 = q.1.api ∧ StandsFor q.1 q.2 p.2 := fun cs hcs p hp => by
      obtain ⟨q, hq, hr⟩ := hcs p hp
      exact ⟨q, by simp [hq], hr⟩
    have step : ∀ c k rc, StandsFor env m c → GoodCall env.api c → call env.api j c = .ret rc k → rustCalls k ms = some j' →
        ∃ cs, calls j cs = some j' ∧ (∀ p ∈ cs, GoodCall p.1 p.2) ∧
          ∀ p ∈ cs, ∃ q ∈ (env, m) :: ms, p.1 = q.1.api ∧ StandsFor q.1 q.2 p.2 := by
      intro c k rc hc hg hk hr
      obtain ⟨cs, h1, h2, h3⟩ := ih k hr
      refine ⟨(env.api, c) :: cs, by simp only [calls, hk, h1], ?_, ?_⟩
      · intro p hp
        rcases List.mem_cons.1 hp with rfl | hp
        · exact hg
        · exact h2 p hp
      · intro p hp
        rcases List.mem_cons.1 hp with rfl | hp
        · exact ⟨(env, m), by simp, rfl, hc⟩
        · exact keep cs h3 p hp
    rcases rust_does env j m with ⟨e, he⟩ | ⟨c, hc, hg, ⟨hr, -⟩ | ⟨e, hr, -⟩⟩
    · rw [he] at h
      obtain ⟨cs, h1, h2, h3⟩ := ih j h
      exact ⟨cs, h1, h2, keep cs h3⟩
    · cases hq : call env.api j c with
      | die => rw [hr, hq] at h; cases h
      | ret rc k =>
        rw [hr, hq] at h
        exact step c k rc hc (hg (hs (env, m) (by simp))) hq h
    · cases hq : call env.api j c with
      | die => rw [hr, hq] at h; cases h
      | ret rc k =>
        rw [hr, hq] at h
        exact step c k rc hc (hg (hs (env, m) (by simp))) hq h

/-- **C60**: whatever methods are called with whatever arguments and results, the configuration is consistent. -/
theorem C60_consistent (ms : List (RustEnv × RustMethod)) (hs : ∀ p ∈ ms, Sound p.1) (j : Jail)
    (h : rustCalls minijailNew ms = some j) : Consistent j := by
  obtain ⟨cs, h1, h2, -⟩ := C60_calls ms hs minijailNew j h
  exact C28_consistent cs h2 j h1

/-- **C60**, as the user sees it: whatever was called before and is called after, if a method returned `Ok`, what it asks for is in force in
the final configuration. Missing as in `C60_ok_partial`; and builds that let seccomp be missing. -/
theorem C60_in_force_partial (before after : List (RustEnv × RustMethod)) (env : RustEnv) (m : RustMethod) (i i' j : Jail)
    (hs : ∀ p ∈ before ++ (env, m) :: after, Sound p.1 ∧ p.1.api.softfail = false) (hk : Known env m) (ho : env.api.oom = false)
    (h1 : rustCalls minijailNew before = some i) (h2 : rustCall env i m = .ret (.ok ()) i') (h3 : rustCalls i' after = some j) :
    ∃ c, StandsFor env m c ∧ InForce j c := by
  obtain ⟨cs, b1, b2, -⟩ := C60_calls before (fun p hp => (hs p (by simp [hp])).1) _ _ h1
  obtain ⟨ds, a1, a2, a3⟩ := C60_calls after (fun p hp => (hs p (by simp [hp])).1) _ _ h3
  obtain ⟨c, hc, hq⟩ := C60_ok_partial env i i' m hk ho h2
  have hg : GoodCall env.api c := by
    rcases rust_does env i m with ⟨e, he⟩ | ⟨c', hc', hg, -⟩
    · rw [he] at h2; cases h2
    · rw [C60_one env m c c' hc hc']
      exact hg (hs (env, m) (by simp)).1
  have hsucc : success c = 0 := by
    cases m
    case parseSeccompProgram p => obtain ⟨b, q, -, -, rfl⟩ := hc; rfl
    case parseSeccompBytes p => obtain ⟨q, -, rfl⟩ := hc; rfl
    all_goals (cases hc; rfl)
  refine ⟨c, hc, C48_partial cs ds env.api c i i' j ?_ ?_ b1 (by rw [hsucc]; exact hq) a1⟩
  · intro p hp
    rcases List.mem_append.1 hp with hp | hp
    · exact b2 p hp
    · rcases List.mem_cons.1 hp with rfl | hp
      · exact hg
      · exact a2 p hp
  · intro _ p hp
    obtain ⟨q, hq, he, -⟩ := a3 p hp
    rw [he]
    exact (hs q (by simp [hq])).2

/-- **C60**, compiled programs: the instructions whose bytes were given are the filter of the jail. -/
theorem C60_program (env : RustEnv) (j j' : Jail) (b : Bytes) (hs : env.api.softfail = false)
    (h : rustCall env j (.parseSeccompBytes b) = .ret (.ok ()) j') :
    ∃ p : List Insn, p.flatMap insnBytes = b ∧ j'.filter_prog = some p ∧ j'.filter_len = p.length ∧ p.length ≤ 65535 := by
  rcases does_bytes env j b with ⟨e, he⟩ | ⟨p, h1, h2, h3⟩
  · have : rustCall env j (.parseSeccompBytes b) = parseSeccompBytes env j b := rfl
    rw [this, he] at h; cases h
  · have : rustCall env j (.parseSeccompBytes b) = parseSeccompBytes env j b := rfl
    rw [this, h3] at h
    have hq : (shouldUseFilters env.api j).1 = true := by
      unfold shouldUseFilters
      rw [hs]
      simp only [Bool.false_eq_true, and_false, if_false]
      split_ifs <;> rfl
    simp only [call, setSeccompFilters] at h
    rw [hq] at h
    simp only [Bool.not_true, Bool.false_eq_true, if_false] at h
    refine ⟨p, h1, ?_⟩
    by_cases hl : loggingAllowed env.api (shouldUseFilters env.api j).2 = true
    · rw [if_pos hl] at h; cases h
    · rw [if_neg hl] at h
      by_cases ho : env.api.oom = true
      · rw [if_pos ho] at h; cases h
      · rw [if_neg ho] at h
        simp only [ApiRes.ok, RustRes.ignoring, RustRes.ret.injEq, true_and] at h
        rw [← h]
        exact ⟨rfl, rfl, h2⟩

/-- **C60**, compiled programs: buffers that hold no whole number of instructions, or more than 65535, are refused. -/
theorem C60_refused (env : RustEnv) (j : Jail) (b : Bytes) (h : b.length % 8 ≠ 0 ∨ 65535 * 8 < b.length) :
    ∃ e, rustCall env j (.parseSeccompBytes b) = .ret (.error e) j := by
  rcases does_bytes env j b with he | ⟨p, h1, h2, h3⟩
  · exact he
  · have hl : b.length = 8 * p.length := by
      rw [← h1]
      clear h1 h2 h3 h
      induction p with
      | nil => rfl
      | cons i p ih => rw [List.flatMap_cons, List.length_append, ih]; simp only [insnBytes, List.length_cons, List.length_nil]; omega
    omega

/-- **C60**, compiled programs: no other buffer is refused. -/
theorem C60_not_refused (env : RustEnv) (j : Jail) (b : Bytes) (h8 : b.length % 8 = 0) (hl : b.length ≤ 65535 * 8) (ha : env.aligned = true) :
    ∀ e j', rustCall env j (.parseSeccompBytes b) ≠ .ret (.error e) j' := by
  intro e j' h
  change parseSeccompBytes env j b = _ at h
  unfold parseSeccompBytes at h
  rw [if_neg (by omega), if_neg (by omega), ha] at h
  simp only [Bool.not_true, Bool.false_eq_true, if_false] at h
  cases hc : call env.api j (.setSeccompFilters (castFilters b)) with
  | die => rw [hc] at h; cases h
  | ret rc j2 => rw [hc] at h; simp [RustRes.ignoring] at h

/-- Not vacuous: the longest program. -/
example : ∀ e j', rustCall {} minijailNew (.parseSeccompBytes (List.replicate (65535 * 8) 6#8)) ≠ .ret (.error e) j' :=
  C60_not_refused {} minijailNew _ (by rw [List.length_replicate]) (by rw [List.length_replicate]) rfl

/-- **C60 does not hold**: naming a user or a group that does not exist returns `Ok` and leaves the jail as it was, so that the program keeps
the identity of its parent. -/
theorem C60_user_violated (env : RustEnv) (j : Jail) (u : BStr) (hu : CString u) (rc : Int) :
    (env.api.userDb u = .error rc → rustCall env j (.changeUser u) = .ret (.ok ()) j) ∧
    (env.api.groupDb u = .error rc → rustCall env j (.changeGroup u) = .ret (.ok ()) j) := by
  have hc : ¬ u.contains 0#8 = true := fun h => hu (List.contains_iff_mem.1 h)
  constructor
  · intro h; simp only [rustCall, cstringNew, hc, call, changeUser, h]; rfl
  · intro h; simp only [rustCall, cstringNew, hc, call, changeGroup, h]; rfl

/-- Such a jail, after `Ok`, does not change the user. -/
example : ∃ j, rustCall {} minijailNew (.changeUser (bstr "nobody")) = .ret (.ok ()) j ∧ ¬ InForce j (.changeUser (bstr "nobody")) :=
  ⟨minijailNew, (C60_user_violated {} minijailNew (bstr "nobody") (by unfold CString; decide +kernel) (-2)).1 rfl,
    fun h => absurd (show minijailNew.flags.uid = true from h) (by decide)⟩

/-- **C60 does not hold**: when memory is exhausted, setting a uid map returns `Ok`, and the jail has none. -/
theorem C60_memory_violated : ∃ (env : RustEnv) (j' : Jail),
    rustCall env minijailNew (.uidmap (bstr "0 1000 1")) = .ret (.ok ()) j' ∧ j'.uidmap = none :=
  ⟨{ api := { oom := true } }, _, rfl, rfl⟩

/-- **C60 does not hold**: an empty program is accepted, although "file size should be non-zero" (lib.rs:220). -/
theorem C60_empty_violated : ∃ j', rustCall {} minijailNew (.parseSeccompBytes []) = .ret (.ok ()) j' ∧ j'.filter_prog = some [] :=
  ⟨_, rfl, rfl⟩

/-- **C60**, copies: the copy of a jail is the jail, up to what the library does not transfer (`Spec.received`). Missing: the id maps, among
others (`C60_clone_violated`). -/
theorem C60_clone_partial (a : Addrs) (ha : ∀ n, a n ≠ 0#64) (k : LandlockKernel) (j : Jail) (h : GoodJail j) (ht : Transferable j) :
    tryClone a k j = some (received k j) := by
  unfold tryClone
  rw [C19_copy_partial a ha k j h ht]

/-- **C60 does not hold** for copies: a jail with a user namespace and a uid map has a copy with the namespace and without the map. -/
theorem C60_clone_violated : ∃ (j j' : Jail),
    rustCalls minijailNew [({}, .namespaceUser), ({}, .uidmap (bstr "0 1000 1"))] = some j ∧
    tryClone (fun _ => 4096#64) ⟨-1#32, -1#32⟩ j = some j' ∧
    j.uidmap = some (bstr "0 1000 1") ∧ j'.flags.userns = true ∧ j'.uidmap = none := by
  let j : Jail := { minijailNew with
    uidmap := some (bstr "0 1000 1"), flags := { minijailNew.flags with userns := true } }
  have hg : GoodJail j := by constructor <;> decide +kernel
  have ht : Transferable j := by constructor <;> decide +kernel
  exact ⟨j, _, by decide +kernel, C60_clone_partial _ (by intro n; decide) _ j hg ht, rfl, rfl, rfl⟩

/-- **C60 does not hold** for copies: a jail in which a file may be used in no way has none. At least nothing else is returned as a copy. -/
theorem C60_clone_none_violated : ∃ (k : LandlockKernel) (j : Jail), j = addFsRestrictionPath k minijailNew (bstr "/tmp") 0#64 ∧
    tryClone (fun _ => 4096#64) k j = none := by
  refine ⟨⟨-1#32, -1#32⟩, _, rfl, ?_⟩
  decide +kernel

/-- **C60 does not hold** for copies: one made before filters were asked for has lost the program. -/
theorem C60_clone_filter_violated : ∃ (j j' : Jail),
    rustCalls minijailNew [({}, .parseSeccompBytes [6#8, 0#8, 0#8, 0#8, 0#8, 0#8, 0xff#8, 0x7f#8])] = some j ∧
    tryClone (fun _ => 4096#64) ⟨-1#32, -1#32⟩ j = some j' ∧ j.filter_prog ≠ none ∧ j'.filter_prog = none ∧ j'.filter_len = 1 := by
  let j : Jail := { minijailNew with filter_prog := some [⟨6#16, 0#8, 0#8, 0x7fff0000#32⟩], filter_len := 1 }
  have hg : GoodJail j := by constructor <;> decide +kernel
  have ht : Transferable j := by constructor <;> decide +kernel
  exact ⟨j, _, by decide +kernel, C60_clone_partial _ (by intro n; decide) _ j hg ht, by decide, rfl, rfl⟩

/-- The methods of the examples: a jail with most kinds of calls, two of them refused. -/
def exampleMethods : List (RustEnv × RustMethod) :=
  [({}, .noNewPrivs), ({}, .enterChroot (bstr "/srv")), ({}, .enterChroot (bstr "/srv2")), ({}, .mountBind (bstr "/a") (bstr "/b") false),
    ({}, .setRlimit 7#32 10#64 20#64), ({}, .changeGroup [0x61#8, 0#8]),
    ({}, .parseSeccompBytes [6#8, 0#8, 0#8, 0#8, 0#8, 0#8, 0xff#8, 0x7f#8]), ({}, .useSeccompFilter)]

/-- The hypotheses of `C60_consistent` and, with `noNewPrivs` first, of `C60_in_force_partial` are met. -/
example : (∀ p ∈ exampleMethods, Sound p.1 ∧ p.1.api.softfail = false) ∧ ∃ i' j, rustCall {} minijailNew .noNewPrivs = .ret (.ok ()) i' ∧
    rustCalls i' exampleMethods.tail = some j ∧ rustCalls minijailNew exampleMethods = some j ∧
    j.chrootdir = some (bstr "/srv") ∧ j.mounts.length = 1 ∧ j.rlimit_count = 1 ∧ j.flags.gid = false ∧
    j.filter_prog = some [⟨6#16, 0#8, 0#8, 0x7fff0000#32⟩] := by
  refine ⟨?_, _, _, rfl, rfl, rfl, ?_⟩
  · intro p hp
    have : p.1.api = {} := by
      simp only [exampleMethods, List.mem_cons, List.not_mem_nil, or_false] at hp
      rcases hp with rfl | rfl | rfl | rfl | rfl | rfl | rfl | rfl <;> rfl
    unfold Sound
    rw [this]
    refine ⟨⟨?_, ?_, ?_⟩, rfl⟩
    · intro s rc h; cases h; decide
    · intro s rc h; cases h; decide
    · intro s p h; cases h
  · decide +kernel

/-- A second root directory is refused, as in `C60_err`; and the process ends, as in `C60_die`. -/
example : (∃ j', rustCall {} { minijailNew with chrootdir := some (bstr "/a") } (.enterChroot (bstr "/b")) =
      .ret (.error (.settingChrootDirectory (-22))) j') ∧
    rustCall {} minijailNew (.changeUid 0#32) = .die := ⟨⟨_, rfl⟩, rfl⟩

end Minijail
