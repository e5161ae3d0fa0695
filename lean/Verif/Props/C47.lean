import Verif.Spec.Run
import Verif.Proof.EnterFacts
import Verif.Proof.EnterFinal
import Verif.Proof.Jailed
import Verif.Proof.EnterMounts
import Verif.Props.C19
import Verif.Props.C20
import Verif.Props.C21
import Verif.Props.C24
import Verif.Props.C25
import Verif.Props.C26
import Verif.Props.C28
import Verif.Props.EnterExample
/-! C47: a program started with the preload library is in the jail that was configured. -/
set_option autoImplicit false
set_option linter.unusedSimpArgs false
namespace Minijail
open Spec

private theorem childJail_wanted (b : Bool) (j : Jail) :
    childJail b j = if b then minijailPreexec (wanted j) else { wanted j with flags := { (wanted j).flags with pids := false } } := by
  unfold childJail wanted
  cases h1 : j.flags.pids <;> cases h2 : j.flags.do_init <;> cases h3 : j.flags.run_as_init <;> simp [h1, h2, h3]

/-- What the child did is the user namespace's ids, the jail, and the hooks. -/
private theorem child_trace {env : EnterEnv} {b : Bool} {j : Jail} {k : Kernel} {t : List Ev} (h : Executed env b j k t) :
    (b = true → j.hooks = []) ∧ ∃ u t1 v, t = u ++ (t1 ++ v) ∧ Nonempty (EnterTrace env (childJail b j) t1) ∧ v = done (hookPlan j PRE_EXECVE) ∧
      (∀ e ∈ u, (∃ i, e.1 = .setresgid i) ∨ ∃ i, e.1 = .setresuid i) := by
  have r : Runs (runChild env b j) k [] () t := h
  unfold runChild at r
  obtain ⟨_, h1, r1, r⟩ := runs_bind.1 r
  obtain ⟨_, h2, r2, r⟩ := runs_bind.1 r
  obtain ⟨_, h3, r3, r⟩ := runs_bind.1 r
  obtain ⟨_, h4, r4, r⟩ := runs_bind.1 r
  rw [runs_dieIf] at r1 r2
  obtain ⟨t1, e4, E⟩ := runs_enter env _ r4
  have e5 := makes_hooks _ _ _ _ _ r
  have e3 : ∃ u, h3 = h2 ++ u ∧ ∀ e ∈ u, (∃ i, e.1 = .setresgid i) ∨ ∃ i, e.1 = .setresuid i := by
    rcases runs_when.1 r3 with ⟨_, r3⟩ | ⟨_, e⟩
    · have := makes_bind (makes_when _ (makes_must _)) (makes_when _ (makes_must _)) _ _ _ r3
      refine ⟨_, this, fun e he => ?_⟩
      obtain ⟨c, hc, rfl⟩ := List.mem_map.1 he
      rcases List.mem_append.1 hc with hc | hc
      · left
        split at hc
        · exact ⟨_, List.mem_singleton.1 hc⟩
        · exact absurd hc List.not_mem_nil
      · right
        split at hc
        · exact ⟨_, List.mem_singleton.1 hc⟩
        · exact absurd hc List.not_mem_nil
    · exact ⟨[], by simp [e], fun _ h => absurd h List.not_mem_nil⟩
  obtain ⟨u, e3, hu⟩ := e3
  refine ⟨fun hb => ?_, u, t1, _, ?_, E, rfl, hu⟩
  · have := r1.1
    subst hb
    cases hh : j.hooks with
    | nil => rfl
    | cons x l => rw [hh] at this; simp at this
  · rw [e5, e4, e3, r2.2, r1.2]
    simp

/-- **C47**, transfer: the library enters no jail but the one that was configured, whatever happens to the bytes on their way. (`Transferable`: see C19.) -/
theorem C47_transfer_partial (j : Jail) (hj : GoodJail j) (ht : Transferable j) (setid : Bool) (announced : Option Int) (writes : List WriteEv) (r1 r2 : ReadEv)
    (a : Addrs) (ha : ∀ n, a n ≠ 0#64) (hsz : minijailSize a j < 2 ^ 64) (kl : LandlockKernel) (j' : Jail)
    (h : fakeMain setid announced r1 r2 kl (toFd writes a j).1 = .enter j') : j' = minijailPreenter (received kl j) ∧ setid = false := by
  unfold fakeMain at h
  split at h
  · exact absurd h (by simp)
  · next hs =>
    split at h
    · exact absurd h (by simp)
    · split at h
      · exact absurd h (by simp)
      · rcases C21_exact writes r1 r2 a kl j hsz with ⟨e, he, _⟩ | he
        · rw [he] at h
          exact absurd h (by simp)
        · rw [he, C19_roundtrip_partial a ha kl j hj ht] at h
          injection h with h
          exact ⟨h.symm, by simpa using hs⟩

/-- **C47**, whatever is in the pipe: the library enters a jail only if the program is not set-user-id, a descriptor was announced, and what is in the pipe begins with
a length and that many bytes that are a jail; it is the jail that is entered. In all other cases `main` is not called. -/
theorem C47_received {setid : Bool} {announced : Option Int} {r1 r2 : ReadEv} {kl : LandlockKernel} {pipe : Bytes} {j' : Jail}
    (h : fakeMain setid announced r1 r2 kl pipe = .enter j') : setid = false ∧ (∃ fd, announced = some fd ∧ 0 ≤ fd) ∧ ∃ sz m rest j,
      pipe = sz ++ m ++ rest ∧ sz.length = 8 ∧ m.length = (decLE 64 sz).toNat ∧ minijailUnmarshal kl m = .ok j ∧ j' = minijailPreenter j := by
  unfold fakeMain at h
  split at h
  · cases h
  next hs =>
  split at h
  · cases h
  next fd =>
  split at h
  · cases h
  next hfd =>
  refine ⟨by simpa using hs, ⟨fd, rfl, by omega⟩, ?_⟩
  split at h
  · cases h
  · next j hf =>
    injection h with h
    unfold fromFd readOnce at hf
    cases r1 with
    | error => cases hf
    | got n =>
      dsimp only at hf
      split at hf
      · cases hf
      next h8 =>
      split at hf
      · cases hf
      cases r2 with
      | error => cases hf
      | got n' =>
        dsimp only at hf
        split at hf
        · cases hf
        next hl =>
        injection hf with hf
        simp only [Decidable.not_not] at h8 hl
        have e1 : (pipe.take 8).take n = pipe.take 8 := by
          apply List.take_of_length_le
          simp only [List.length_take] at h8 ⊢
          omega
        rw [e1] at hf hl h8
        rw [h8] at hf hl
        have e2 : ((pipe.drop 8).take (decLE 64 (pipe.take 8)).toNat).take n' = (pipe.drop 8).take (decLE 64 (pipe.take 8)).toNat := by
          apply List.take_of_length_le
          rw [List.length_take] at hl
          rw [List.length_take] at hl ⊢
          omega
        rw [e2] at hf hl
        exact ⟨pipe.take 8, (pipe.drop 8).take (decLE 64 (pipe.take 8)).toNat, (pipe.drop 8).drop (decLE 64 (pipe.take 8)).toNat, j,
          by rw [List.append_assoc, List.take_append_drop, List.take_append_drop], h8, hl, hf, h.symm⟩
  · cases h
  · cases h

/-- **C47**, a jail that arrives in part, with a length to match, is not entered. -/
theorem C47_truncated (j : Jail) (hj : GoodJail j) (ht : Transferable j) (a : Addrs) (ha : ∀ n, a n ≠ 0#64) (n : Nat) (hn : n < minijailSize a j) (hn' : n < 2 ^ 64)
    (rest : Bytes) (setid : Bool) (announced : Option Int) (r1 r2 : ReadEv) (kl : LandlockKernel) (j' : Jail) :
    fakeMain setid announced r1 r2 kl (enc64 (BitVec.ofNat 64 n) ++ (minijailMarshal a j (minijailSize a j)).2.take n ++ rest) ≠ .enter j' := by
  intro h
  obtain ⟨-, -, sz, m, rest', j0, e, h8, hl, hu, -⟩ := C47_received h
  rw [List.append_assoc, List.append_assoc] at e
  obtain ⟨rfl, e'⟩ := List.append_inj e (by rw [h8]; rfl)
  rw [decLE_enc64, BitVec.toNat_ofNat, Nat.mod_eq_of_lt hn'] at hl
  have hlen : (minijailMarshal a j (minijailSize a j)).2.length = minijailSize a j := by rw [minijailMarshal_eq, minijailSize_eq]
  have hm : ((minijailMarshal a j (minijailSize a j)).2.take n).length = n := by
    rw [List.length_take, hlen]
    exact Nat.min_eq_left (Nat.le_of_lt hn)
  obtain ⟨e2, -⟩ := List.append_inj e' (by rw [hl, hm])
  rw [← e2] at hu
  exact C20_prefix_rejected a ha kl j hj ht n hn j0 hu

/-- The filter arrives. -/
private theorem filter_received {j : Jail} (hj : GoodJail j) (hf : j.filter_prog ≠ some []) (kl : LandlockKernel) (h : j.flags.seccomp_filter = true) :
    (minijailPreenter (received kl j)).filter_prog = j.filter_prog := by
  unfold minijailPreenter received
  dsimp only
  split
  · rfl
  · next hc =>
    have h0 : j.filter_len = 0 := by
      have : ¬ j.filter_len > 0 := fun q => hc ⟨h, q⟩
      omega
    have := hj.filter.1
    rw [h0] at this
    cases hp : j.filter_prog with
    | none => rfl
    | some l =>
      rw [hp] at this hf
      have : l = [] := List.eq_nil_of_length_eq_zero this.symm
      exact absurd (by rw [this]) hf

private theorem sequence_right {t1 t2 : List Ev} {cs : List Sys} (h : Sequence t2 cs) : Sequence (t1 ++ t2) cs :=
  List.IsInfix.trans h (List.suffix_append t1 t2).isInfix

/-- **C47**, nothing is lost: when a program's `main` is called by the library, every restriction that was asked for has been put in place, by the child before
`execve` or by the library. (Missing: /proc is remounted before the root changes, see `C47_violated_proc`; the configured mounts, see C29; `Transferable`, see C19;
an empty filter program, which the system refuses.) -/
theorem C47_applied_partial (env : EnterEnv) (j : Jail) (hj : GoodJail j) (ht : Transferable j) (hf : j.filter_prog ≠ some []) (setid : Bool) (announced : Option Int)
    (writes : List WriteEv) (r1 r2 : ReadEv) (a : Addrs) (ha : ∀ n, a n ≠ 0#64) (hsz : minijailSize a j < 2 ^ 64) (kl : LandlockKernel) (k1 k2 : Kernel)
    (t1 t2 : List Ev) (h1 : Executed env true j k1 t1) (h2 : MainCalled env j setid announced writes r1 r2 a kl k2 t2) : Applied env (wanted j) (t1 ++ t2) := by
  obtain ⟨hh, u, s1, v, e1, ⟨E1⟩, -, -⟩ := child_trace h1
  obtain ⟨j', h2, h3⟩ := h2
  obtain ⟨rfl, -⟩ := C47_transfer_partial j hj ht setid announced writes r1 r2 a ha hsz kl j' h2
  obtain ⟨E2⟩ := trace_of h3
  have A1 := applied E1
  have A2 := applied E2
  have L : ∀ {c : Sys}, Happened s1 c → Happened (t1 ++ t2) c := fun h => by
    rw [e1]
    exact List.mem_append_left _ (List.mem_append_right _ (List.mem_append_left _ h))
  have R : ∀ {c : Sys}, Happened t2 c → Happened (t1 ++ t2) c := fun h => List.mem_append_right _ h
  rw [childJail_wanted, if_pos rfl] at A1
  have w : wanted j = { j with flags := (wanted j).flags } ∧ (wanted j).flags = { j.flags with remount_proc_ro := (wanted j).flags.remount_proc_ro } := by
    unfold wanted
    split <;> exact ⟨rfl, rfl⟩
  generalize hw : wanted j = w at *
  obtain ⟨w1, w2⟩ := w
  generalize w.flags = fl at *
  subst w1
  generalize fl.remount_proc_ro = ro at *
  subst w2
  exact {
    enterMountNs := fun h => L (A1.enterMountNs h)
    newMountNs := fun h => L (A1.newMountNs h)
    propagation := fun h h' => L (A1.propagation h h')
    ownPropagation := fun h h' m hm => L (A1.ownPropagation h h' m hm)
    newIpcNs := fun h => R (A2.newIpcNs h)
    newUtsNs := fun h => L (A1.newUtsNs h)
    hostname := fun h n hn => L (A1.hostname h n hn)
    enterNetNs := fun h => R (A2.enterNetNs h)
    newNetNs := fun h _ => L (A1.newNetNs h rfl)
    newCgroupNs := fun h => L (A1.newCgroupNs h)
    newKeyring := fun h => by
      obtain ⟨r, h1, h2⟩ := A2.newKeyring h
      exact ⟨r, h1, List.mem_append_right _ h2⟩
    devTmpfs := fun h => R (A2.devTmpfs h)
    devMoved := fun h => R (A2.devMoved h)
    devNodes := fun h x hx => by
      obtain ⟨m, hm⟩ := A2.devNodes h x hx
      exact ⟨m, R hm⟩
    chroot := fun h => sequence_right (A2.chroot h)
    pivotRoot := fun h => sequence_right (A2.pivotRoot h)
    tmp := fun h => by
      obtain ⟨f, d, h1, h2⟩ := A2.tmp h
      exact ⟨f, d, h1, R h2⟩
    proc := fun h => L (A1.proc h)
    hooks := fun x hx => by
      have : x ∈ j.hooks := hx
      rw [hh rfl] at this
      exact absurd this List.not_mem_nil
    groupsSet := fun h => R (A2.groupsSet h)
    groupsInherited := fun h => R (A2.groupsInherited h)
    gid := fun h => R (A2.gid h)
    uid := fun h => R (A2.uid h)
    noNewPrivs := fun h => R (A2.noNewPrivs h)
    landlock := fun h h' h'' => R (A2.landlock h h' h'')
    filter := fun h h' => by
      have := R (A2.filter h h')
      rw [filter_received hj hf kl h] at this
      exact this
    altSyscall := fun h => R (A2.altSyscall h)
    strict := fun h => by
      rcases A2.strict h with h | ⟨h, h'⟩
      · exact .inl (R h)
      · exact .inr ⟨h, List.mem_append_right _ h'⟩ }

/-- **C47**, who the program is: when its `main` is called by the library, its user, groups, capabilities and filter are those that were configured, whoever the
process was before and whatever `execve` did to it. (4294967295 is no id, see C26.) -/
theorem C47_identity_partial (env : EnterEnv) (j : Jail) (hj : GoodJail j) (ht : Transferable j) (hf : j.filter_prog ≠ some []) (setid : Bool) (announced : Option Int)
    (writes : List WriteEv) (r1 r2 : ReadEv) (a : Addrs) (ha : ∀ n, a n ≠ 0#64) (hsz : minijailSize a j < 2 ^ 64) (kl : LandlockKernel) (k2 : Kernel)
    (t2 : List Ev) (h2 : MainCalled env j setid announced writes r1 r2 a kl k2 t2) (g : Option BStr → BitVec 32 → List (BitVec 32)) (p q : Proc) (hp : Evolves g p t2 q) :
    (j.flags.uid = true → j.uid ≠ 4294967295#32 → q.uid = j.uid) ∧ (j.flags.gid = true → j.gid ≠ 4294967295#32 → q.gid = j.gid) ∧
    (j.flags.set_suppl_gids = true → q.groups = (j.suppl_gid_list.getD []).take j.suppl_gid_count) ∧
    (j.flags.inherit_suppl_gids = true → ∃ u, j.user = some u ∧ q.groups = g (some u) j.usergid) ∧
    (j.flags.use_caps = true → ∃ n, LastCap t2 n ∧ ∀ i, q.eff.getLsbD i = (j.caps.getLsbD i && decide (i ≤ n)) ∧ q.perm.getLsbD i = (j.caps.getLsbD i && decide (i ≤ n)) ∧
      q.inh.getLsbD i = (j.caps.getLsbD i && decide (i ≤ n))) ∧
    (j.flags.capbset_drop = true → ∃ n, LastCap t2 n ∧ ∀ i ≤ n, j.cap_bset.getLsbD i = false → q.bound.getLsbD i = false) ∧
    (j.flags.seccomp_filter = true → env.asan = false → q.filters.head? = some j.filter_prog) ∧ (j.flags.no_new_privs = true → q.noNewPrivs = true) := by
  obtain ⟨j', h2, h3⟩ := h2
  obtain ⟨rfl, -⟩ := C47_transfer_partial j hj ht setid announced writes r1 r2 a ha hsz kl j' h2
  have h3 : Entered env (minijailPreenter (received kl j)) k2 t2 := h3
  have i := C26_ids_partial h3 hp
  have gr := C26_groups h3 hp
  have fl := C24_filtered h3 hp
  refine ⟨i.1, i.2, gr.1, gr.2.1, fun hu => ?_, fun hd => ?_, fun hs ha => ?_, fl.2⟩
  · obtain ⟨n, _, hn⟩ := C25_last h3 (.inl hu)
    exact ⟨n, hn, fun i => C25_sets h3 hp hu hn i⟩
  · obtain ⟨n, _, hn⟩ := C25_last h3 (.inr hd)
    exact ⟨n, hn, fun i hi hc => C25_requested_bounding h3 hp hd hn i hi hc⟩
  · rw [← filter_received hj hf kl hs]
    exact fl.1 hs ha

/-- **C47**, the same as one specification that also covers ambient capabilities, the bounding set left by `minijail_use_caps` and the groups
nobody asked for. -/
theorem C47_jailed_partial (env : EnterEnv) (j : Jail) (hj : GoodJail j) (ht : Transferable j) (hf : j.filter_prog ≠ some []) (setid : Bool) (announced : Option Int)
    (writes : List WriteEv) (r1 r2 : ReadEv) (a : Addrs) (ha : ∀ n, a n ≠ 0#64) (hsz : minijailSize a j < 2 ^ 64) (kl : LandlockKernel) (k2 : Kernel)
    (t2 : List Ev) (h2 : MainCalled env j setid announced writes r1 r2 a kl k2 t2) (g : Option BStr → BitVec 32 → List (BitVec 32)) (p q : Proc) (hp : Evolves g p t2 q) :
    ∃ n : Nat, (j.flags.use_caps = true ∨ j.flags.capbset_drop = true → (Sys.lastCap, (n : Int)) ∈ t2) ∧ Jailed env g j n q := by
  obtain ⟨j', h2, h3⟩ := h2
  obtain ⟨rfl, -⟩ := C47_transfer_partial j hj ht setid announced writes r1 r2 a ha hsz kl j' h2
  have h3 : Entered env (minijailPreenter (received kl j)) k2 t2 := h3
  obtain ⟨E⟩ := trace_of h3
  have J := jailed_of E hp
  refine ⟨E.last, fun hu => List.mem_of_mem_head? (head_last E hu), J.uid, J.gid, J.groups, J.inherited, J.noGroups, J.caps, J.ambient,
    J.noAmbient, J.bounding, J.requested, J.noroot, fun hs ha => ?_, J.noNewPrivs⟩
  rw [← filter_received hj hf kl hs]
  exact J.filter hs ha

/-- **C47** without the library and without hooks: when `execve` is called, the process is as the jail wants it. -/
theorem C47_jailed_direct (env : EnterEnv) (j : Jail) (hh : j.hooks = []) (k : Kernel) (t : List Ev) (h : Executed env false j k t)
    (g : Option BStr → BitVec 32 → List (BitVec 32)) (p q : Proc) (hp : Evolves g p t q) :
    ∃ n : Nat, (j.flags.use_caps = true ∨ j.flags.capbset_drop = true → (Sys.lastCap, (n : Int)) ∈ t) ∧ Jailed env g j n q := by
  obtain ⟨-, u, s, v, e, ⟨E⟩, ev, -⟩ := child_trace h
  have : v = [] := by rw [ev, hookPlan, hh]; rfl
  rw [this, List.append_nil] at e
  rw [e] at hp
  obtain ⟨p', -, hp⟩ := evolves_append.1 hp
  have J := jailed_of E hp
  refine ⟨E.last, fun hu => ?_, ?_⟩
  · rw [e]
    refine List.mem_append_right _ (List.mem_of_mem_head? (head_last E ?_))
    rw [childJail_wanted, if_neg (by simp)]
    unfold wanted
    split <;> exact hu
  · generalize E.last = n at J
    rw [childJail_wanted, if_neg (by simp)] at J
    unfold wanted at J
    split at J <;>
      exact ⟨J.uid, J.gid, J.groups, J.inherited, J.noGroups, J.caps, J.ambient, J.noAmbient, J.bounding, J.requested, J.noroot, J.filter, J.noNewPrivs⟩

private theorem mounts_made {env : EnterEnv} {j : Jail} {t : List Ev} (E : EnterTrace env j t) (hc : ∀ e ∈ t, ¬ MountCheck e.1 e.2) :
    ∃ during, during <:+: t ∧ during.filter isNewMount = j.mounts.map (mounted env j) := by
  obtain ⟨a, b, c, e, hm, h1, h2⟩ := mounts_split E
  obtain ⟨n, hf, hn, _⟩ := mountRun_prefix hm
  refine ⟨b, ⟨a, c, e.symm⟩, ?_⟩
  rcases hn with hn | ⟨m, _, _, ⟨o, ho, hmem⟩ | hmem⟩
  · rw [hf, hn, List.take_length]
    unfold mounted
    simp only [target_eq]
  · exact absurd (Or.inl ⟨⟨_, rfl⟩, ho⟩) (hc _ (by rw [e]; simp only [List.mem_append]; exact Or.inl (Or.inr hmem)))
  · exact absurd (Or.inr ⟨⟨_, rfl⟩, rfl⟩) (hc _ (by rw [e]; simp only [List.mem_append]; exact Or.inl (Or.inr hmem)))

/-- **C47**, the mounts: the library makes the configured mounts, in their order, each at its place. (The two checks of a bind source: see C29.) -/
theorem C47_mounts_partial (env : EnterEnv) (j : Jail) (hj : GoodJail j) (ht : Transferable j) (setid : Bool) (announced : Option Int)
    (writes : List WriteEv) (r1 r2 : ReadEv) (a : Addrs) (ha : ∀ n, a n ≠ 0#64) (hsz : minijailSize a j < 2 ^ 64) (kl : LandlockKernel) (k2 : Kernel)
    (t2 : List Ev) (h2 : MainCalled env j setid announced writes r1 r2 a kl k2 t2) (hc : ∀ e ∈ t2, ¬ MountCheck e.1 e.2) :
    ∃ during, during <:+: t2 ∧ during.filter isNewMount = j.mounts.map (mounted env j) := by
  obtain ⟨j', h2, h3⟩ := h2
  obtain ⟨rfl, -⟩ := C47_transfer_partial j hj ht setid announced writes r1 r2 a ha hsz kl j' h2
  have h3 : Entered env (minijailPreenter (received kl j)) k2 t2 := h3
  obtain ⟨E⟩ := trace_of h3
  obtain ⟨d, h1, h2⟩ := mounts_made E hc
  exact ⟨d, h1, h2⟩

/-- **C47**, the mounts without the library. -/
theorem C47_mounts_direct_partial (env : EnterEnv) (j : Jail) (k : Kernel) (t : List Ev) (h : Executed env false j k t)
    (hc : ∀ e ∈ t, ¬ MountCheck e.1 e.2) : ∃ during, during <:+: t ∧ during.filter isNewMount = j.mounts.map (mounted env j) := by
  obtain ⟨-, u, s, v, e, ⟨E⟩, -, -⟩ := child_trace h
  obtain ⟨d, h1, h2⟩ := mounts_made E fun x hx => hc x (by rw [e]; exact List.mem_append_right _ (List.mem_append_left _ hx))
  refine ⟨d, by rw [e]; exact List.IsInfix.trans h1 ⟨u, v, by simp⟩, ?_⟩
  rw [h2, childJail_wanted, if_neg (by simp)]
  unfold wanted
  split <;> rfl

/-- **C47** without the library: when `execve` is called, every restriction is in place. -/
theorem C47_direct (env : EnterEnv) (j : Jail) (k : Kernel) (t : List Ev) (h : Executed env false j k t) : Applied env (wanted j) t := by
  obtain ⟨-, u, s, v, e, ⟨E⟩, -, -⟩ := child_trace h
  have A := applied E
  rw [childJail_wanted, if_neg (by simp)] at A
  have L : ∀ {x : Ev}, x ∈ s → x ∈ t := fun h => by
    rw [e]
    exact List.mem_append_right _ (List.mem_append_left _ h)
  have S : ∀ {cs : List Sys}, Sequence s cs → Sequence t cs := fun h => by
    rw [e]
    exact List.IsInfix.trans h ⟨u, v, by simp⟩
  generalize wanted j = w at A
  exact {
    enterMountNs := fun h => L (A.enterMountNs h)
    newMountNs := fun h => L (A.newMountNs h)
    propagation := fun h h' => L (A.propagation h h')
    ownPropagation := fun h h' m hm => L (A.ownPropagation h h' m hm)
    newIpcNs := fun h => L (A.newIpcNs h)
    newUtsNs := fun h => L (A.newUtsNs h)
    hostname := fun h n hn => L (A.hostname h n hn)
    enterNetNs := fun h => L (A.enterNetNs h)
    newNetNs := fun h h' => L (A.newNetNs h h')
    newCgroupNs := fun h => L (A.newCgroupNs h)
    newKeyring := fun h => by
      obtain ⟨r, h1, h2⟩ := A.newKeyring h
      exact ⟨r, h1, L h2⟩
    devTmpfs := fun h => L (A.devTmpfs h)
    devMoved := fun h => L (A.devMoved h)
    devNodes := fun h x hx => by
      obtain ⟨m, hm⟩ := A.devNodes h x hx
      exact ⟨m, L hm⟩
    chroot := fun h => S (A.chroot h)
    pivotRoot := fun h => S (A.pivotRoot h)
    tmp := fun h => by
      obtain ⟨f, d, h1, h2⟩ := A.tmp h
      exact ⟨f, d, h1, L h2⟩
    proc := fun h => L (A.proc h)
    hooks := fun x hx h => L (A.hooks x hx h)
    groupsSet := fun h => L (A.groupsSet h)
    groupsInherited := fun h => L (A.groupsInherited h)
    gid := fun h => L (A.gid h)
    uid := fun h => L (A.uid h)
    noNewPrivs := fun h => L (A.noNewPrivs h)
    landlock := fun h h' h'' => L (A.landlock h h' h'')
    filter := fun h h' => L (A.filter h h')
    altSyscall := fun h => L (A.altSyscall h)
    strict := fun h => by
      rcases A.strict h with h | ⟨h, h'⟩
      · exact .inl (L h)
      · exact .inr ⟨h, L h'⟩ }

/-- A pid namespace and a new root, as with `-p -P /jail`. -/
def procJail : Jail := ((calls minijailNew [({}, .namespacePids), ({}, .enterPivotRoot (bstr "/jail"))]).getD minijailNew)

/-- A system without path rules. -/
def noLandlock : LandlockKernel := ⟨-1#32, -1#32⟩

/-- **C47 does not hold** for /proc: with the library the read-only /proc is mounted by the child, in the old root; the root changes afterwards, and nothing is
mounted in the new one. Without the library it is mounted behind the change (`C24_new_root`). -/
theorem C47_violated_proc : calls minijailNew [({}, .namespacePids), ({}, .enterPivotRoot (bstr "/jail"))] = some procJail ∧
    ∃ t1 t2, Executed {} true procJail obliging t1 ∧
      MainCalled {} procJail false (some 3) [.wrote 8, .wrote 65535] (.got 8) (.got 65535) (fun _ => 1#64) noLandlock obliging t2 ∧
      (wanted procJail).flags.remount_proc_ro = true ∧ (Sys.pivotRoot, 0) ∈ t2 ∧ (∀ e ∈ t1, e.1 ≠ .pivotRoot) ∧
      ∀ e ∈ t2, ∀ src type flags data, e.1 ≠ .mount src (bstr "/proc") type flags data := by
  have h : ∀ x : Out Unit × List Ev, x.1 = .ok () → x = (.ok (), x.2) := by
    rintro ⟨a, b⟩ h; simp only at h; rw [h]
  have hm : ∀ t : List Ev, (t.all fun e => match e.1 with
      | .mount _ d _ _ _ => decide (d ≠ bstr "/proc")
      | _ => true) = true → ∀ e ∈ t, ∀ src type flags data, e.1 ≠ .mount src (bstr "/proc") type flags data := by
    intro t ht e he src type flags data q
    have := List.all_eq_true.1 ht e he
    rw [q] at this
    simp at this
  refine ⟨by decide +kernel, (runChild {} true procJail obliging []).2, (minijailEnter {} (minijailPreenter (received noLandlock procJail)) obliging []).2,
    h _ (by decide +kernel), ⟨minijailPreenter (received noLandlock procJail), by decide +kernel, h _ (by decide +kernel)⟩, by decide +kernel, by decide +kernel,
    by decide +kernel, hm _ (by decide +kernel)⟩

/-- Most kinds of restrictions: ids, groups, capabilities, a pid, network and ipc namespace, a root, a mount, a host name, a filter. -/
def runJail : Jail := (calls minijailNew [({}, .changeUid 1000#32), ({}, .changeGid 2000#32), ({}, .setSupplementaryGids [30#32, 31#32]), ({}, .useCaps 0x400#64),
  ({}, .namespacePids), ({}, .namespaceNet), ({}, .namespaceIpc), ({}, .namespaceSetHostname (bstr "box")), ({}, .enterChroot (bstr "/jail")),
  ({}, .bind (bstr "/usr") (bstr "/usr") false), ({}, .noNewPrivs), ({}, .useSeccompFilter), ({}, .setSeccompFilters [⟨6, 0, 0, 0⟩])]).getD minijailNew

private theorem ok_of : ∀ x : Out Unit × List Ev, x.1 = .ok () → x = (.ok (), x.2) := by
  rintro ⟨a, b⟩ h; simp only at h; rw [h]

/-- The child gets to `execve`. -/
theorem runJail_executed : Executed {} true runJail obliging (runChild {} true runJail obliging []).2 :=
  ok_of (runChild {} true runJail obliging []) (by decide +kernel)

/-- The library gets to `main`. -/
theorem runJail_main : MainCalled {} runJail false (some 3) [.wrote 8, .wrote 65535] (.got 8) (.got 65535) (fun _ => 1#64) noLandlock obliging
    (minijailEnter {} (minijailPreenter (received noLandlock runJail)) obliging []).2 :=
  ⟨minijailPreenter (received noLandlock runJail), by decide +kernel,
    ok_of (minijailEnter {} (minijailPreenter (received noLandlock runJail)) obliging []) (by decide +kernel)⟩

/-- And it is what C47 asks for. -/
example : GoodJail runJail ∧ Transferable runJail ∧ runJail.filter_prog = some [⟨6, 0, 0, 0⟩] ∧ runJail.flags.ipc = true ∧ runJail.flags.uts = true ∧
    minijailSize (fun _ => 1#64) runJail < 2 ^ 64 :=
  ⟨by constructor <;> decide +kernel, by constructor <;> decide +kernel, by decide +kernel, by decide +kernel, by decide +kernel, by decide +kernel⟩

/-- What is sent of it is received, and nothing is entered if ten bytes of it are missing. -/
example : (∃ j', fakeMain false (some 3) (.got 8) (.got 70000) ⟨3#32, 5#32⟩ (toFd [.wrote 8, .wrote 70000] (fun _ => 1#64) runJail).1 = .enter j') ∧
    10 < minijailSize (fun _ => 1#64) runJail ∧ minijailSize (fun _ => 1#64) runJail - 10 < 2 ^ 64 := by
  refine ⟨?_, by decide +kernel, by decide +kernel⟩
  have : (match fakeMain false (some 3) (.got 8) (.got 70000) ⟨3#32, 5#32⟩ (toFd [.wrote 8, .wrote 70000] (fun _ => 1#64) runJail).1 with
      | .enter _ => true | _ => false) = true := by decide +kernel
  split at this
  · next j' h => exact ⟨j', h⟩
  · cases this

/-- Without the library: the capabilities are made ambient. -/
example : Executed {} false { runJail with flags := { runJail.flags with set_ambient_caps := true } } obliging
    (runChild {} false { runJail with flags := { runJail.flags with set_ambient_caps := true } } obliging []).2 :=
  ok_of (runChild {} false { runJail with flags := { runJail.flags with set_ambient_caps := true } } obliging []) (by decide +kernel)

end Minijail
