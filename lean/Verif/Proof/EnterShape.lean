import Verif.Proof.Enter
/-! The whole trace of a `minijail_enter` that returns. -/
set_option autoImplicit false
set_option linter.unusedSimpArgs false
namespace Minijail

/-- Namespaces: everything but the loopback device and the keyring. -/
def nsPlanA (j : Jail) : List Sys :=
  (if j.flags.enter_vfs then [.setns j.mountns_fd .mount] else []) ++
  ((if j.flags.vfs then [.unshare .mount] ++ (if decide (j.remount_mode ≠ 0#64) then
      [.mount none (bstr "/") none (MS_REC ||| j.remount_mode) none] ++
      j.remounts.flatMap fun t => [.mount none t.mount_name none (MS_REC ||| t.remount_mode) none] else []) else []) ++
  ((if j.flags.ipc then [.unshare .ipc] else []) ++
  ((if j.flags.uts then [.unshare .uts] ++ (if j.hostname.isSome then [.sethostname (j.hostname.getD [])] else []) else []) ++
   (if j.flags.enter_net then [.setns j.netns_fd .net] else if j.flags.net then [.unshare .net] else []))))

/-- The namespace part of a trace, with the answers about the loopback device and the keyring. -/
def nsTrace (j : Jail) (lo kr : Int) : List Ev :=
  done (nsPlanA j) ++ ((if !j.flags.enter_net && j.flags.net && j.flags.net_loopback then [(.loopback, lo)] else []) ++
  (done (if j.flags.ns_cgroups then [.unshare .cgroup] else []) ++ (if j.flags.new_session_keyring then [(.keyring, kr)] else [])))

theorem makes_remounts (mode : BitVec 64) (l : List Remount) :
    Makes (forM' (fun t => do dieIf (t.remount_mode < mode); must (.mount none t.mount_name none (MS_REC ||| t.remount_mode) none)) l)
      (l.flatMap fun t => [.mount none t.mount_name none (MS_REC ||| t.remount_mode) none]) :=
  makes_for _ _ _ fun t _ => makes_bind (s := []) makes_die (makes_must _)

theorem runs_ns (j : Jail) {k : Kernel} {h h' : List Ev} {u : Unit} (r : Runs (enterNamespaces j) k h u h') :
    ∃ lo kr : Int, 0 ≤ kr ∧ h' = h ++ nsTrace j lo kr := by
  unfold enterNamespaces at r
  obtain ⟨_, h1, r1, r⟩ := runs_bind.1 r
  obtain ⟨_, h2, r2, r⟩ := runs_bind.1 r
  obtain ⟨_, h3, r3, r⟩ := runs_bind.1 r
  obtain ⟨_, h4, r4, r⟩ := runs_bind.1 r
  obtain ⟨_, h5, r5, r⟩ := runs_bind.1 r
  obtain ⟨_, h6, r6, r⟩ := runs_bind.1 r
  have e1 := makes_when _ (makes_must _) _ _ _ r1
  have e2 := makes_when _ (makes_bind (makes_must _) (makes_when _ (makes_bind (makes_must _) (makes_remounts _ _)))) _ _ _ r2
  have e3 := makes_when _ (makes_must _) _ _ _ r3
  have e4 := makes_when _ (makes_bind (makes_must _) (makes_when _ (makes_must _))) _ _ _ r4
  have e6 := makes_when _ (makes_must _) _ _ _ r6
  have e5 : ∃ lo : Int, h5 = h4 ++ done (if j.flags.enter_net then [.setns j.netns_fd .net] else if j.flags.net then [.unshare .net] else []) ++
      (if !j.flags.enter_net && j.flags.net && j.flags.net_loopback then [(.loopback, lo)] else []) := by
    rcases runs_ifM.1 r5 with ⟨hn, r5⟩ | ⟨hn, r5⟩
    · exact ⟨0, by rw [makes_must _ _ _ _ r5]; simp [hn]⟩
    · rcases runs_when.1 r5 with ⟨hm, r5⟩ | ⟨hm, e⟩
      · obtain ⟨_, g1, q1, q⟩ := runs_bind.1 r5
        have f1 := makes_must _ _ _ _ q1
        rcases runs_when.1 q with ⟨hl, q⟩ | ⟨hl, e⟩
        · obtain ⟨lo, g2, q2, q⟩ := runs_bind.1 q
          rw [runs_sys] at q2
          rw [runs_pure] at q
          exact ⟨lo, by rw [q.2, q2.2, f1]; simp [hn, hm, hl]⟩
        · exact ⟨0, by rw [e, f1]; simp [hn, hm, hl]⟩
      · exact ⟨0, by rw [e]; simp [hn, hm, done]⟩
  obtain ⟨lo, e5⟩ := e5
  have e7 : ∃ kr : Int, 0 ≤ kr ∧ h' = h6 ++ (if j.flags.new_session_keyring then [(.keyring, kr)] else []) := by
    rcases runs_when.1 r with ⟨hk, r⟩ | ⟨hk, e⟩
    · obtain ⟨kr, g1, q1, q⟩ := runs_bind.1 r
      rw [runs_sys] at q1
      rw [runs_dieIf] at q
      exact ⟨kr, by omega, by rw [q.2, q1.2, hk]; simp⟩
    · exact ⟨0, Int.le_refl 0, by rw [e, hk]; simp⟩
  obtain ⟨kr, hkr, e7⟩ := e7
  refine ⟨lo, kr, hkr, ?_⟩
  rw [e7, e6, e5, e4, e3, e2, e1]
  unfold nsTrace nsPlanA
  simp only [done_append, List.append_assoc]

theorem runs_firstFailing : ∀ (cs : List Sys) {k : Kernel} {h h' : List Ev},
    Runs (firstFailing cs) k h 0 h' → h' = h ++ done cs
  | [], k, h, h', r => by rw [(runs_pure.1 r).2]; simp [done]
  | c :: cs, k, h, h', r => by
    obtain ⟨x, h1, r1, r⟩ := runs_bind.1 r
    rw [runs_sys] at r1
    rcases runs_ifM.1 r with ⟨hx, r⟩ | ⟨hx, r⟩
    · exact absurd (runs_pure.1 r).1.symm hx
    · have hx : x = 0 := by simpa using hx
      rw [runs_firstFailing cs r, r1.2, hx]
      simp [done]

theorem runs_cleanup (env : EnterEnv) {k : Kernel} {h h' : List Ev} {u : Unit} (r : Runs (mountDevCleanup env) k h u h') :
    ∃ a b : Int, h' = h ++ [(.umount env.devPath, a), (.rmdir env.devPath, b)] := by
  unfold mountDevCleanup at r
  obtain ⟨a, h1, r1, r⟩ := runs_bind.1 r
  obtain ⟨b, h2, r2, r⟩ := runs_bind.1 r
  rw [runs_sys] at r1 r2
  exact ⟨a, b, by rw [(runs_pure.1 r).2, r2.2, r1.2]; simp⟩

/-- The trace of a successful `mountDev`. -/
def devTrace (env : EnterEnv) (fd : Int) : List Ev :=
  done [.mkdtemp env.devPath, .mount (some (bstr "minijail-devfs")) env.devPath (some (bstr "tmpfs")) (MS_NOEXEC ||| MS_NOSUID)
    (some (bstr "size=5M,mode=755"))] ++ ((.openDir (some env.devPath), fd) ::
  done (deviceNodes ++ deviceSymlinks ++ [.mkdirat (bstr "shm") 0o1777]))

theorem runs_mountDev (env : EnterEnv) {k : Kernel} {h h' : List Ev} (r : Runs (mountDev env) k h 0 h') :
    ∃ fd : Int, 0 ≤ fd ∧ h' = h ++ devTrace env fd := by
  unfold mountDev at r
  obtain ⟨_, h1, r1, r⟩ := runs_bind.1 r
  obtain ⟨x, h2, r2, r⟩ := runs_bind.1 r
  have e1 := makes_must _ _ _ _ r1
  rw [runs_sys] at r2
  rcases runs_ifM.1 r with ⟨hx, r⟩ | ⟨hx, r⟩
  · obtain ⟨_, h3, r3, r⟩ := runs_bind.1 r
    exact absurd (runs_pure.1 r).1.symm hx
  · have hx : x = 0 := by simpa using hx
    obtain ⟨fd, h3, r3, r⟩ := runs_bind.1 r
    obtain ⟨y, h4, r4, r⟩ := runs_bind.1 r
    rw [runs_sys] at r3
    rcases runs_ifM.1 r with ⟨hy, r⟩ | ⟨hy, r⟩
    · obtain ⟨_, h5, r5, r⟩ := runs_bind.1 r
      exact absurd (runs_pure.1 r).1.symm hy
    · have hy : y = 0 := by simpa using hy
      subst hy
      rcases runs_ifM.1 r4 with ⟨hf, r4⟩ | ⟨hf, r4⟩
      · exact absurd (runs_pure.1 r4).1 (by simp)
      · refine ⟨fd, by omega, ?_⟩
        rw [(runs_pure.1 r).2, runs_firstFailing _ r4, r3.2, r2.2, hx, e1]
        unfold devTrace
        simp [done]

/-- The trace of a successful `mountDevFinalize`. -/
def finTrace (env : EnterEnv) (j : Jail) (a b : Int) : List Ev :=
  done [.umount (bstr "/dev"), .mount (some env.devPath) (j.chrootdir.getD [] ++ bstr "/dev") none MS_MOVE none] ++
    [(.umount env.devPath, a), (.rmdir env.devPath, b)]

theorem runs_finalize (env : EnterEnv) (j : Jail) {k : Kernel} {h h' : List Ev} (r : Runs (mountDevFinalize env j) k h 0 h') :
    ∃ a b : Int, h' = h ++ finTrace env j a b := by
  unfold mountDevFinalize at r
  obtain ⟨x, h1, r1, r⟩ := runs_bind.1 r
  obtain ⟨_, h2, r2, r⟩ := runs_bind.1 r
  obtain ⟨a, b, e2⟩ := runs_cleanup env r2
  obtain ⟨hr, e⟩ := runs_pure.1 r
  by_cases hx : x = 0
  · subst hx
    refine ⟨a, b, ?_⟩
    rw [e, e2, runs_firstFailing _ r1]
    simp [finTrace]
  · rw [if_pos hx] at hr
    exact absurd hr (by decide)

/-- The mount is a plain bind mount made by the bind call. -/
def wantsFlags (m : Mountpoint) : Prop :=
  m.flags &&& MS_BIND ≠ 0#64 ∧ m.type = bstr "minijail_bind" ∧ ¬ m.flags &&& MS_REMOUNT ≠ 0#64
/-- The mount is a plain bind mount. -/
def isBind (m : Mountpoint) : Prop := m.flags &&& MS_BIND ≠ 0#64 ∧ ¬ m.flags &&& MS_REMOUNT ≠ 0#64
/-- The bind mount has to be remounted. -/
def wantsRemount (m : Mountpoint) (o : Int) : Prop :=
  m.flags &&& MS_BIND ≠ 0#64 ∧ m.type = bstr "minijail_bind" ∧ ¬ m.flags &&& MS_REMOUNT ≠ 0#64 ∧
    m.flags &&& MS_RDONLY ≠ BitVec.ofInt 64 o &&& MS_RDONLY

instance (m : Mountpoint) : Decidable (wantsFlags m) := by unfold wantsFlags; infer_instance
instance (m : Mountpoint) : Decidable (isBind m) := by unfold isBind; infer_instance
instance (m : Mountpoint) (o : Int) : Decidable (wantsRemount m o) := by unfold wantsRemount; infer_instance

/-- The request that prepares the target. -/
def prepare (j : Jail) (dev : Option BStr) (m : Mountpoint) : Ev :=
  (.setupDest m.src (mountDest j dev m) j.uid j.gid (m.flags &&& MS_BIND ≠ 0#64), 0)

/-- One mount that was made. -/
def stepTrace (j : Jail) (dev : Option BStr) (m : Mountpoint) (o v : Int) : List Ev :=
  prepare j dev m :: ((if wantsFlags m then [(.mountFlags m.src, o)] else []) ++ ((if isBind m then [(.validBind m.src, v)] else []) ++
  (done [.mount (some m.src) (mountDest j dev m) (some m.type) m.flags m.data] ++
  (if wantsRemount m o then done [.mount (some m.src) (mountDest j dev m) none
    (m.flags ||| BitVec.ofInt 64 o &&& KEPT_MOUNT_FLAGS ||| MS_REMOUNT) m.data] else []))))

/-- The traces of `mountOne` that returns 0. -/
inductive MountRun (j : Jail) (dev : Option BStr) : List Mountpoint → List Ev → Prop
  | nil : MountRun j dev [] []
  | noFlags (m : Mountpoint) (ms : List Mountpoint) (o : Int) (ho : o < 0) (hw : wantsFlags m) :
      MountRun j dev (m :: ms) [prepare j dev m, (.mountFlags m.src, o)]
  | notValid (m : Mountpoint) (ms : List Mountpoint) (o : Int) (ho : wantsFlags m → 0 ≤ o) (hb : isBind m) :
      MountRun j dev (m :: ms) (prepare j dev m :: ((if wantsFlags m then [(.mountFlags m.src, o)] else []) ++ [(.validBind m.src, 0)]))
  | step (m : Mountpoint) (ms : List Mountpoint) (o v : Int) (ho : wantsFlags m → 0 ≤ o) (hv : isBind m → v ≠ 0) (t : List Ev)
      (ht : MountRun j dev ms t) : MountRun j dev (m :: ms) (stepTrace j dev m o v ++ t)

theorem runs_step (j : Jail) (dev : Option BStr) (m : Mountpoint) {k : Kernel} {h h' : List Ev} {b : Bool}
    (r : Runs (mountStep j dev m) k h (0, b) h') :
    (b = true ∧ ∃ o v : Int, (wantsFlags m → 0 ≤ o) ∧ (isBind m → v ≠ 0) ∧ h' = h ++ stepTrace j dev m o v) ∨
    (b = false ∧ wantsFlags m ∧ ∃ o : Int, o < 0 ∧ h' = h ++ [prepare j dev m, (.mountFlags m.src, o)]) ∨
    (b = false ∧ isBind m ∧ ∃ o : Int, (wantsFlags m → 0 ≤ o) ∧
      h' = h ++ (prepare j dev m :: ((if wantsFlags m then [(.mountFlags m.src, o)] else []) ++ [(.validBind m.src, 0)]))) := by
  unfold mountStep at r
  dsimp only at r
  obtain ⟨x, h1, r1, r⟩ := runs_bind.1 r
  rw [runs_sys] at r1
  rcases runs_ifM.1 r with ⟨hx, r⟩ | ⟨hx, r⟩
  · have := (runs_pure.1 r).1
    simp only [Prod.mk.injEq] at this
    exact absurd this.1.symm hx
  have hx : x = 0 := by simpa using hx
  rw [hx] at r1
  have e1 : h1 = h ++ [prepare j dev m] := r1.2
  obtain ⟨o, h2, r2, r⟩ := runs_bind.1 r
  have e2 : h2 = h1 ++ (if wantsFlags m then [(.mountFlags m.src, o)] else []) ∧ (¬ wantsFlags m → o = 0) := by
    rcases runs_ifM.1 r2 with ⟨hw, r2⟩ | ⟨hw, r2⟩
    · have hw : wantsFlags m := hw
      rw [if_pos hw]
      exact ⟨(runs_sys.1 r2).2, fun hn => absurd hw hn⟩
    · have hw : ¬ wantsFlags m := hw
      rw [if_neg hw]
      exact ⟨by simp [(runs_pure.1 r2).2], fun _ => (runs_pure.1 r2).1⟩
  rcases runs_ifM.1 r with ⟨ho, r⟩ | ⟨ho, r⟩
  · have hw : wantsFlags m := Classical.byContradiction fun hn => by
      have := e2.2 hn
      omega
    have hb := (runs_pure.1 r).1
    simp only [Prod.mk.injEq] at hb
    refine Or.inr (Or.inl ⟨hb.2, hw, o, ho, ?_⟩)
    rw [(runs_pure.1 r).2, e2.1, e1, if_pos hw]; simp
  obtain ⟨v, h3, r3, r⟩ := runs_bind.1 r
  have e3 : h3 = h2 ++ (if isBind m then [(.validBind m.src, v)] else []) ∧ (¬ isBind m → v = 1) := by
    rcases runs_ifM.1 r3 with ⟨hw, r3⟩ | ⟨hw, r3⟩
    · have hw : isBind m := hw
      rw [if_pos hw]
      exact ⟨(runs_sys.1 r3).2, fun hn => absurd hw hn⟩
    · have hw : ¬ isBind m := hw
      rw [if_neg hw]
      exact ⟨by simp [(runs_pure.1 r3).2], fun _ => (runs_pure.1 r3).1⟩
  rcases runs_ifM.1 r with ⟨hv, r⟩ | ⟨hv, r⟩
  · have hw : isBind m := Classical.byContradiction fun hn => by
      have := e3.2 hn
      omega
    have hb := (runs_pure.1 r).1
    simp only [Prod.mk.injEq] at hb
    refine Or.inr (Or.inr ⟨hb.2, hw, o, fun _ => by omega, ?_⟩)
    rw [(runs_pure.1 r).2, e3.1, e2.1, e1, if_pos hw, hv]; simp
  obtain ⟨y, h4, r4, r⟩ := runs_bind.1 r
  rw [runs_sys] at r4
  rcases runs_ifM.1 r with ⟨hy, r⟩ | ⟨hy, r⟩
  · have := (runs_pure.1 r).1
    simp only [Prod.mk.injEq] at this
    exact absurd this.1.symm hy
  have hy : y = 0 := by simpa using hy
  obtain ⟨z, h5, r5, r⟩ := runs_bind.1 r
  rcases runs_ifM.1 r with ⟨hz, r⟩ | ⟨hz, r⟩
  · have := (runs_pure.1 r).1
    simp only [Prod.mk.injEq] at this
    exact absurd this.1.symm hz
  have hz : z = 0 := by simpa using hz
  have e5 : h5 = h4 ++ (if wantsRemount m o then done [.mount (some m.src) (mountDest j dev m) none
    (m.flags ||| BitVec.ofInt 64 o &&& KEPT_MOUNT_FLAGS ||| MS_REMOUNT) m.data] else []) := by
    rcases runs_ifM.1 r5 with ⟨hw, r5⟩ | ⟨hw, r5⟩
    · have hw : wantsRemount m o := hw
      rw [if_pos hw, (runs_sys.1 r5).2, hz]
      rfl
    · have hw : ¬ wantsRemount m o := hw
      rw [if_neg hw]
      simp [(runs_pure.1 r5).2]
  have hb := (runs_pure.1 r).1
  simp only [Prod.mk.injEq] at hb
  refine Or.inl ⟨hb.2, o, v, fun _ => by omega, fun _ => hv, ?_⟩
  rw [(runs_pure.1 r).2, e5, r4.2, e3.1, e2.1, e1, hy]
  unfold stepTrace
  simp [done]

theorem runs_mounts (j : Jail) (dev : Option BStr) : ∀ (ms : List Mountpoint) {k : Kernel} {h h' : List Ev},
    Runs (mountOne j dev ms) k h 0 h' → ∃ t, h' = h ++ t ∧ MountRun j dev ms t
  | [], k, h, h', r => ⟨[], by rw [(runs_pure.1 r).2]; simp, .nil⟩
  | m :: ms, k, h, h', r => by
    obtain ⟨⟨x, b⟩, h1, r1, r⟩ := runs_bind.1 r
    rcases runs_ifM.1 r with ⟨hb, r3⟩ | ⟨hb, r3⟩
    · have hb2 : b = true := hb
      have hx : x = 0 := by
        rw [hb2] at r1
        unfold mountStep at r1
        dsimp only at r1
        obtain ⟨_, _, _, q⟩ := runs_bind.1 r1
        rcases runs_ifM.1 q with ⟨_, q⟩ | ⟨_, q⟩
        · simpa using (runs_pure.1 q).1
        obtain ⟨_, _, _, q⟩ := runs_bind.1 q
        rcases runs_ifM.1 q with ⟨_, q⟩ | ⟨_, q⟩
        · simpa using (runs_pure.1 q).1
        obtain ⟨_, _, _, q⟩ := runs_bind.1 q
        rcases runs_ifM.1 q with ⟨_, q⟩ | ⟨_, q⟩
        · simpa using (runs_pure.1 q).1
        obtain ⟨_, _, _, q⟩ := runs_bind.1 q
        rcases runs_ifM.1 q with ⟨_, q⟩ | ⟨_, q⟩
        · simpa using (runs_pure.1 q).1
        obtain ⟨_, _, _, q⟩ := runs_bind.1 q
        rcases runs_ifM.1 q with ⟨_, q⟩ | ⟨_, q⟩
        · simpa using (runs_pure.1 q).1
        · simpa using (runs_pure.1 q).1
      subst hx
      rcases runs_step j dev m r1 with ⟨_, o, v, ho, hv, e⟩ | ⟨hf, _⟩ | ⟨hf, _⟩
      · obtain ⟨t, e2, ht⟩ := runs_mounts j dev ms r3
        exact ⟨stepTrace j dev m o v ++ t, by rw [e2, e]; simp, .step m ms o v ho hv t ht⟩
      · rw [hb2] at hf; exact absurd hf (by simp)
      · rw [hb2] at hf; exact absurd hf (by simp)
    · obtain ⟨hx, e⟩ := runs_pure.1 r3
      have hx2 : x = 0 := hx.symm
      clear hx
      subst hx2
      rcases runs_step j dev m r1 with ⟨ht, _⟩ | ⟨_, hw, o, ho, e1⟩ | ⟨_, hw, o, ho, e1⟩
      · exact absurd ht hb
      · exact ⟨_, by rw [e, e1], .noFlags m ms o ho hw⟩
      · exact ⟨_, by rw [e, e1], .notValid m ms o ho hw⟩

/-- The trace of a successful `processMounts`. -/
def MountsTrace (env : EnterEnv) (j : Jail) (t : List Ev) : Prop :=
  ∃ (fd a b : Int) (mt : List Ev), 0 ≤ fd ∧ MountRun j (if j.flags.mount_dev then some env.devPath else none) j.mounts mt ∧
    t = (if j.flags.mount_dev then devTrace env fd else []) ++ (mt ++ (if j.flags.mount_dev then finTrace env j a b else []))

theorem runs_process (env : EnterEnv) (j : Jail) {k : Kernel} {h h' : List Ev} {u : Unit} (r : Runs (processMounts env j) k h u h') :
    ∃ t, h' = h ++ t ∧ MountsTrace env j t := by
  unfold processMounts at r
  obtain ⟨_, h1, r1, r⟩ := runs_bind.1 r
  obtain ⟨x, h2, r2, r⟩ := runs_bind.1 r
  obtain ⟨_, h3, r3, r⟩ := runs_bind.1 r
  have e1 : ∃ fd : Int, 0 ≤ fd ∧ h1 = h ++ (if j.flags.mount_dev then devTrace env fd else []) := by
    rcases runs_when.1 r1 with ⟨hd, r1⟩ | ⟨hd, e⟩
    · obtain ⟨y, g, q, r1⟩ := runs_bind.1 r1
      rw [runs_dieIf] at r1
      have hy : y = 0 := by simpa using r1.1
      subst hy
      obtain ⟨fd, hf, e⟩ := runs_mountDev env q
      exact ⟨fd, hf, by rw [r1.2, e, hd]; simp⟩
    · exact ⟨0, Int.le_refl 0, by rw [e, hd]; simp⟩
  obtain ⟨fd, hfd, e1⟩ := e1
  rcases runs_when.1 r3 with ⟨hx, r3⟩ | ⟨hx, e3⟩
  · obtain ⟨_, g, _, q⟩ := runs_bind.1 r3
    exact absurd q runs_exit
  · have hx : x = 0 := by simpa using hx
    subst hx
    obtain ⟨mt, e2, hmt⟩ := runs_mounts j _ _ r2
    have e4 : ∃ a b : Int, h' = h3 ++ (if j.flags.mount_dev then finTrace env j a b else []) := by
      rcases runs_when.1 r with ⟨hd, r⟩ | ⟨hd, e⟩
      · obtain ⟨y, g, q, r⟩ := runs_bind.1 r
        rw [runs_dieIf] at r
        have hy : y = 0 := by simpa using r.1
        subst hy
        obtain ⟨a, b, e⟩ := runs_finalize env j q
        exact ⟨a, b, by rw [r.2, e, hd]; simp [e3]⟩
      · exact ⟨0, 0, by rw [e, hd]; simp [e3]⟩
    obtain ⟨a, b, e4⟩ := e4
    refine ⟨_, ?_, fd, a, b, mt, hfd, hmt, rfl⟩
    rw [e4, e3, e2, e1]
    simp only [List.append_assoc]

/-- The requests of `chroot`. -/
def chrootPlan (j : Jail) : List Sys := hookPlan j PRE_CHROOT ++ [.chroot j.chrootdir, .chdir (some (bstr "/"))]

/-- The requests of `pivot_root` after the two directories are open. -/
def pivotPlan (j : Jail) : List Sys :=
  [.mount j.chrootdir (j.chrootdir.getD []) (some (bstr "bind")) (MS_BIND ||| MS_REC) (some []), .chdir j.chrootdir,
   .pivotRoot, .fchdirOld, .mount none (bstr ".") none (MS_REC ||| MS_PRIVATE) none, .umount (bstr "."), .fchdirNew,
   .chroot (some (bstr "/")), .chdir (some (bstr "/"))]

/-- The trace of a change of root. -/
def rootTrace (j : Jail) (a b : Int) : List Ev :=
  done (if j.flags.chroot then chrootPlan j else []) ++ (if j.flags.pivot_root then
    done (hookPlan j PRE_CHROOT) ++ ([(.openDir (some (bstr "/")), a), (.openDir j.chrootdir, b)] ++ done (pivotPlan j)) else [])

theorem runs_open (p : Option BStr) {k : Kernel} {h h' : List Ev} {u : Unit} (r : Runs (mustOpen p) k h u h') :
    ∃ a : Int, 0 ≤ a ∧ h' = h ++ [(.openDir p, a)] := by
  unfold mustOpen at r
  obtain ⟨a, h1, r1, r⟩ := runs_bind.1 r
  rw [runs_sys] at r1
  rw [runs_dieIf] at r
  exact ⟨a, by omega, by rw [r.2, r1.2]⟩

theorem runs_root (j : Jail) {k : Kernel} {h h' : List Ev} {u : Unit}
    (r : Runs (do whenM j.flags.chroot (enterChroot j); whenM j.flags.pivot_root (enterPivotRoot j)) k h u h') :
    ∃ a b : Int, 0 ≤ a ∧ 0 ≤ b ∧ h' = h ++ rootTrace j a b := by
  obtain ⟨_, h1, r1, r⟩ := runs_bind.1 r
  have e1 := makes_when _ (makes_bind (makes_hooks _ _) (makes_bind (makes_must _) (makes_must _))) _ _ _ r1
  rcases runs_when.1 r with ⟨hp, r⟩ | ⟨hp, e⟩
  · unfold enterPivotRoot at r
    obtain ⟨_, h2, r2, r⟩ := runs_bind.1 r
    obtain ⟨_, h3, r3, r⟩ := runs_bind.1 r
    obtain ⟨_, h4, r4, r⟩ := runs_bind.1 r
    obtain ⟨a, ha, e3⟩ := runs_open _ r3
    obtain ⟨b, hb, e4⟩ := runs_open _ r4
    have e5 := makes_bind (makes_must _) (makes_bind (makes_must _) (makes_bind (makes_must _) (makes_bind (makes_must _)
      (makes_bind (makes_must _) (makes_bind (makes_must _) (makes_bind (makes_must _) (makes_bind (makes_must _) (makes_must _))))))))
      _ _ _ r
    refine ⟨a, b, ha, hb, ?_⟩
    rw [e5, e4, e3, makes_hooks _ _ _ _ _ r2, e1]
    unfold rootTrace chrootPlan pivotPlan
    rw [hp]
    simp [done]
  · refine ⟨0, 0, Int.le_refl 0, Int.le_refl 0, ?_⟩
    rw [e, e1]
    unfold rootTrace chrootPlan
    rw [hp]
    simp

/-- Requests between the change of root and the capabilities. -/
def innerPlan (env : EnterEnv) (j : Jail) (last : Nat) : List Sys :=
  (if j.flags.mount_tmp then [.mount (some (bstr "none")) (bstr "/tmp") (some (bstr "tmpfs"))
    (MS_NODEV ||| MS_NOEXEC ||| MS_NOSUID ||| if env.noSymfollow then MS_NOSYMFOLLOW else 0#64)
    (some (bstr ("size=" ++ toString j.tmpfs_size.toNat ++ ",mode=1777")))] else []) ++
  ((if j.flags.remount_proc_ro then (if !j.flags.userns then [.umount (bstr "/proc")] else []) ++
    [.mount (some (bstr "proc")) (bstr "/proc") (some (bstr "proc")) (MS_NODEV ||| MS_NOEXEC ||| MS_NOSUID ||| MS_RDONLY) (some [])] else []) ++
  (hookPlan j PRE_DROP_CAPS ++ (if j.flags.capbset_drop then boundPlan j.cap_bset last else [])))

/-- The trace of a successful `lockSecurebits`. -/
def SecureTrace (env : EnterEnv) (skip : BitVec 64) (req : Bool) (t : List Ev) : Prop :=
  ∃ (cur : Int) (drop : Bool), (req = true → drop = false) ∧
      (req = false → 0 ≤ cur ∧ drop = ((BitVec.ofInt 64 cur).getLsbD 5 && !(BitVec.ofInt 64 cur).getLsbD 4)) ∧
      ∃ s, t = (if req then [] else [(.getSecurebits, cur)]) ++ s ∧
      ((lockBits env skip drop = 0#64 ∧ s = []) ∨
       (lockBits env skip drop ≠ 0#64 ∧ ∃ q : Int, 0 ≤ q ∧
        (s = [(.setSecurebits (lockBits env skip drop), q)] ∨
         (lockBits env skip drop &&& 0xf00#64 ≠ 0#64 ∧
          s = [(.setSecurebits (lockBits env skip drop), -1), (.setSecurebits (lockBits env skip drop &&& ~~~0xf00#64), q)]))))

/-- The trace of `dropCaps`. -/
def capsTrace (j : Jail) (last : Nat) (q : Int) : List Ev :=
  if j.flags.use_caps then
    done ([.capget, .capset (keptCaps j last) (keptCaps j last) (keptCaps j last)] ++
      ((if noroot (~~~j.securebits_skip_mask) then boundPlan j.caps last else []) ++
      [.capset (finalCaps j last) (finalCaps j last) (finalCaps j last)])) ++
      (if j.flags.set_ambient_caps then (.ambientSupported, q) :: done (ambientPlan j last) else []) else []

/-- The trace of `landlock`. -/
def LandlockTrace (j : Jail) (t : List Ev) : Prop :=
  ∃ (a : Int) (s : List Ev), (s.map (·.1) = if a ≠ 0 then j.fs_rules.map fun r => Sys.landlockRule r.path r.landlock_flags else []) ∧
      t = (if usesRules j then (.landlockAvailable, a) :: s ++
        (if decide (j.fs_rules_fd.toInt ≥ 0) then done [.landlockRestrict j.fs_rules_fd] else []) else [])

/-- The trace of a successful `minijail_enter`. -/
structure EnterTrace (env : EnterEnv) (j : Jail) (t : List Ev) where
  last : Nat
  hlast : last ≤ 64
  lt : List Ev
  hlt : lt = if j.flags.capbset_drop || j.flags.use_caps then [(.lastCap, (last : Int))] else []
  lo : Int
  kr : Int
  hkr : 0 ≤ kr
  mt : List Ev
  hmt : MountsTrace env j mt
  a : Int
  b : Int
  ha : 0 ≤ a
  hb : 0 ≤ b
  st : List Ev
  hst : if j.flags.use_caps then SecureTrace env j.securebits_skip_mask (!j.flags.set_ambient_caps) st else st = []
  q : Int
  hq : 0 ≤ q
  ll : List Ev
  hll : LandlockTrace j ll
  alt : List Ev
  halt : alt = done (if j.flags.alt_syscall then [.altSyscall j.alt_syscall_table] else [])
  strict : List Ev
  hstrict : ∃ r : Int, (r = 0 ∨ (r = -22 ∧ env.softfail = true)) ∧ strict = if j.flags.seccomp then [(.seccompStrict, r)] else []
  one : countTrue [j.flags.inherit_suppl_gids, j.flags.keep_suppl_gids, j.flags.set_suppl_gids] ≤ 1
  pids : j.flags.pids = false
  user : j.flags.inherit_suppl_gids = true → j.user.isSome = true
  eq : t = lt ++ (nsTrace j lo kr ++ (mt ++ (rootTrace j a b ++ (done (innerPlan env j last) ++ (st ++
    ((if j.flags.no_new_privs then done (idPlan j) ++ (capsTrace j last q ++ (done [.noNewPrivs] ++ (ll ++ done (filterPlan env j))))
      else ll ++ (done (filterPlan env j) ++ (done (idPlan j) ++ capsTrace j last q))) ++ (alt ++ strict)))))))

theorem runs_last (j : Jail) {k : Kernel} {h h' : List Ev} {last : Nat} (r : Runs (getLastCap j) k h last h') :
    last ≤ 64 ∧ h' = h ++ (if j.flags.capbset_drop || j.flags.use_caps then [(.lastCap, (last : Int))] else []) := by
  unfold getLastCap at r
  rcases runs_ifM.1 r with ⟨hp, r⟩ | ⟨hp, r⟩
  · obtain ⟨x, h1, r1, r⟩ := runs_bind.1 r
    obtain ⟨_, h2, r2, r⟩ := runs_bind.1 r
    rw [runs_sys] at r1
    rw [runs_dieIf] at r2
    rw [runs_pure] at r
    obtain ⟨rfl, e⟩ := r
    refine ⟨by omega, ?_⟩
    rw [if_pos hp, e, r2.2, r1.2, show ((x.toNat : Nat) : Int) = x by omega]
  · rw [runs_pure] at r
    rw [if_neg hp]
    exact ⟨by omega, by simp [r.2]⟩

theorem runs_privileges (env : EnterEnv) (j : Jail) (last : Nat) {k : Kernel} {h h' : List Ev} {u : Unit}
    (r : Runs (dropPrivileges env j last) k h u h') :
    countTrue [j.flags.inherit_suppl_gids, j.flags.keep_suppl_gids, j.flags.set_suppl_gids] ≤ 1 ∧
    ∃ (q : Int) (ll : List Ev), 0 ≤ q ∧ LandlockTrace j ll ∧ h' = h ++
      (if j.flags.no_new_privs then done (idPlan j) ++ (capsTrace j last q ++ (done [.noNewPrivs] ++ (ll ++ done (filterPlan env j))))
      else ll ++ (done (filterPlan env j) ++ (done (idPlan j) ++ capsTrace j last q))) := by
  unfold dropPrivileges at r
  rcases runs_ifM.1 r with ⟨hp, r⟩ | ⟨hp, r⟩
  · obtain ⟨_, h1, r1, r⟩ := runs_bind.1 r
    obtain ⟨_, h2, r2, r⟩ := runs_bind.1 r
    obtain ⟨_, h3, r3, r⟩ := runs_bind.1 r
    obtain ⟨_, h4, r4, r⟩ := runs_bind.1 r
    obtain ⟨q, hq, e2⟩ := runs_caps j last r2
    obtain ⟨a, s, hs, e4⟩ := runs_landlock j r4
    refine ⟨ids_one j r1, q, _, hq, ⟨a, s, hs, rfl⟩, ?_⟩
    rw [makes_filter _ _ _ _ _ r, e4, makes_must _ _ _ _ r3, e2, makes_ids _ _ _ _ r1, if_pos hp]
    unfold capsTrace
    simp only [List.append_assoc]
  · obtain ⟨_, h1, r1, r⟩ := runs_bind.1 r
    obtain ⟨_, h2, r2, r⟩ := runs_bind.1 r
    obtain ⟨_, h3, r3, r⟩ := runs_bind.1 r
    obtain ⟨q, hq, e4⟩ := runs_caps j last r
    obtain ⟨a, s, hs, e1⟩ := runs_landlock j r1
    refine ⟨ids_one j r3, q, _, hq, ⟨a, s, hs, rfl⟩, ?_⟩
    rw [e4, makes_ids _ _ _ _ r3, makes_filter _ _ _ _ _ r2, e1, if_neg hp]
    unfold capsTrace
    simp only [List.append_assoc]

theorem runs_enter (env : EnterEnv) (j : Jail) {k : Kernel} {h h' : List Ev} {u : Unit} (r : Runs (minijailEnter env j) k h u h') :
    ∃ t, h' = h ++ t ∧ Nonempty (EnterTrace env j t) := by
  unfold minijailEnter at r
  obtain ⟨last, h1, r1, r⟩ := runs_bind.1 r
  obtain ⟨_, h2, r2, r⟩ := runs_bind.1 r
  obtain ⟨_, h3, r3, r⟩ := runs_bind.1 r
  obtain ⟨_, h4, r4, r⟩ := runs_bind.1 r
  obtain ⟨_, h5, r5, r⟩ := runs_bind.1 r
  obtain ⟨_, h6, r6, r⟩ := runs_bind.1 r
  obtain ⟨_, h7, r7, r⟩ := runs_bind.1 r
  obtain ⟨_, h8, r8, r⟩ := runs_bind.1 r
  obtain ⟨_, h9, r9, r⟩ := runs_bind.1 r
  obtain ⟨_, h10, r10, r⟩ := runs_bind.1 r
  obtain ⟨_, h11, r11, r⟩ := runs_bind.1 r
  obtain ⟨_, h12, r12, r⟩ := runs_bind.1 r
  obtain ⟨_, h13, r13, r⟩ := runs_bind.1 r
  obtain ⟨_, h14, r14, r⟩ := runs_bind.1 r
  obtain ⟨hl, e1⟩ := runs_last j r1
  rw [runs_dieIf] at r2 r3
  obtain ⟨lo, kr, hkr, e4⟩ := runs_ns j r4
  obtain ⟨mt, e5, hmt⟩ := runs_process env j r5
  obtain ⟨a, b, ha, hb, e7⟩ := runs_root j (runs_bind.2 ⟨_, h6, r6, r7⟩)
  have e8 := makes_when _ (makes_must _) _ _ _ r8
  have e9 := makes_when _ (makes_bind (makes_when _ (makes_must _)) (makes_must _)) _ _ _ r9
  have e10 := makes_hooks _ _ _ _ _ r10
  have e11 := makes_when _ (makes_bound _ _) _ _ _ r11
  have e12 : ∃ st, h12 = h11 ++ st ∧
      (if j.flags.use_caps then SecureTrace env j.securebits_skip_mask (!j.flags.set_ambient_caps) st else st = []) := by
    rcases runs_when.1 r12 with ⟨hc, r12⟩ | ⟨hc, e⟩
    · obtain ⟨cur, drop, hd, hc2, t, e, ht⟩ := runs_secure env _ _ r12
      refine ⟨_, by rw [e, List.append_assoc], ?_⟩
      rw [hc]
      exact ⟨cur, drop, hd, hc2, t, rfl, ht⟩
    · exact ⟨[], by simp [e], by simp [hc]⟩
  obtain ⟨st, e12, hst⟩ := e12
  obtain ⟨hone, q, ll, hq, hll, e13⟩ := runs_privileges env j last r13
  have e14 := makes_when _ (makes_must _) _ _ _ r14
  have e15 : ∃ r : Int, (r = 0 ∨ (r = -22 ∧ env.softfail = true)) ∧
      h' = h14 ++ if j.flags.seccomp then [(.seccompStrict, r)] else [] := by
    rcases runs_when.1 r with ⟨hs, r⟩ | ⟨hs, e⟩
    · unfold enterStrict at r
      obtain ⟨x, g, q1, r⟩ := runs_bind.1 r
      rw [runs_sys] at q1
      rw [runs_dieIf] at r
      refine ⟨x, ?_, by rw [r.2, q1.2, hs]; simp⟩
      have := r.1
      by_cases hx : x = 0
      · exact Or.inl hx
      · right
        exact Classical.byContradiction fun hn => this ⟨hx, hn⟩
    · exact ⟨0, Or.inl rfl, by simp [hs, e]⟩
  obtain ⟨s, hs, e15⟩ := e15
  refine ⟨_, ?_, ⟨⟨last, hl, _, rfl, lo, kr, hkr, mt, hmt, a, b, ha, hb, st, hst, q, hq, ll, hll, _, rfl, _, ⟨s, hs, rfl⟩, hone,
    by simpa using r2.1, ?_, rfl⟩⟩⟩
  · rw [e15, e14, e13, e12, e11, e10, e9, e8, e7, e5, e4, r3.2, r2.2, e1]
    unfold innerPlan
    simp only [done_append, List.append_assoc]
  · intro hi
    have := r3.1
    revert this
    cases j.user <;> simp [hi]

end Minijail
