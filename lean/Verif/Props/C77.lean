import Verif.Proof.RustStart
/-! C77: starting a program through the Rust interface. -/
set_option autoImplicit false
set_option linter.unusedSimpArgs false
namespace Minijail
open Spec

theorem goodCall_asks (env : RustStartEnv) (m : RustStart) : pidTo (goodCall env m) = some env.addr ∧ stdinTo (goodCall env m) = none ∧ stdoutTo (goodCall env m) = none ∧
    stderrTo (goodCall env m) = none ∧ resultsTo (goodCall env m) = [env.addr] ∧ preloads (goodCall env m) = true ∧
    executes (goodCall env m) = some ((programOf m).map chars BitVec.toInt, (argsOf m).map chars, (envOf m).map fun v => v.map chars) := by
  unfold goodCall
  cases programOf m <;> exact ⟨rfl, rfl, rfl, rfl, rfl, rfl, rfl⟩

/-- What is known of the call of the library when it started a process. -/
theorem rustStart_started (env : RustStartEnv) (hk : KernelFds env.run) (m : RustStart) (s s' : Caller) (r : Except RustError Int) (p : Started)
    (hj : MadeInRust s.jail) (h : rustStart env m s = .ret r s') (h0 : s.started = none) (h' : s'.started = some p) :
    ∃ n file j code s1, env.null s.fds = some (n, file) ∧
      preserveStd env.rust.api s.jail (fdsOf m) (some (BitVec.ofNat 32 n)) = .ret (.ok ()) j ∧
      minijailRun env.run (goodCall env m) (withNull env s j n file) = .ret code s1 ∧ s' = { s1 with fds := closeFd s1.fds n } ∧
      r = (if code < 0 then .error (.forkingMinijail code) else .ok (s1.mem env.addr)) ∧ s1.started = some p ∧
      (∀ m, ¬ NamespaceFd j m) ∧ j.fs_rules = [] := by
  rcases rustStart_cases env m s s' r h with ⟨e, j, -, rfl⟩ | ⟨n, file, j, code, s1, h1, h2, h3, h4, h5⟩
  · simp only at h'; rw [h0] at h'; cases h'
  · obtain ⟨a, b, hab⟩ := preserveStd_frame _ _ _ _ _ h2
    obtain ⟨-, -, k3, -, -, k6, k7⟩ := madeInRust_spec hj
    refine ⟨n, file, j, code, s1, h1, h2, h3, h4, h5, by rw [h4] at h'; exact h', fun m hm => ?_, by rw [hab]; exact k3⟩
    rcases hm with ⟨hv, -⟩ | ⟨hv, -⟩
    · rw [hab] at hv; simp only [k6] at hv; cases hv
    · rw [hab] at hv; simp only [k7] at hv; cases hv

/-- **C77**, a method that starts a process: it returns the number of the process, which is the one that `wait` and `kill` mean. The caller's descriptors are those it had,
the same signals are blocked, and no memory changed but the variable of the method. The process executes the program that was named, by its path or its descriptor,
with the arguments that were given. The program's `main` finds the environment that was given or, if none was, the caller's, but for
SECCOMP_POLICY_PATH if there is a policy. (Missing, as in C40: a library whose path has a space, LD_PRELOAD set to nothing, a variable that occurs twice.) -/
theorem C77_started_partial (env : RustStartEnv) (hk : KernelFds env.run) (hn : NullFds env) (m : RustStart) (s s' : Caller) (r : Except RustError Int) (p : Started)
    (hj : MadeInRust s.jail) (h : rustStart env m s = .ret r s') (h0 : s.started = none) (h' : s'.started = some p) :
    r = .ok p.pid ∧ 0 < p.pid ∧ s'.jail.initpid = BitVec.ofInt 32 p.pid ∧ s'.fds = s.fds ∧ s'.blocked = s.blocked ∧ (∀ a, a ≠ env.addr → s'.mem a = s.mem a) ∧
    ∃ path d v, p.exec = some (path, d, (argsOf m).map chars, v) ∧
      (match programOf m with
        | .inl f => path = some (chars f) ∧ d = -1
        | .inr e => path = none ∧ d = e.toInt) ∧
      ∀ given, given = ((envOf m).map fun l => l.map chars).getD env.run.environ →
        EnvDistinct given → envValue given preloadVar ≠ some [] → ' ' ∉ env.run.library →
        ∀ x, envValue (fakeMainEnv v) x = intended given (s.jail.seccomp_policy_path.map chars) true x := by
  obtain ⟨n, file, j, code, s1, h1, h2, h3, h4, h5, h6, hns, hfs⟩ := rustStart_started env hk m s s' r p hj h h0 h'
  obtain ⟨q1, q2, q3, q4, q5, q6, q7⟩ := goodCall_asks env m
  obtain ⟨hfree, -⟩ := hn _ _ _ h1
  obtain ⟨a1, a2, a3, a4, i, o, e, -, b2, b3, b4, -, -, -, -, b9, -, b11, b12, -⟩ := run_started env.run hk (goodCall env m) (withNull env s j n file) s1 code p h3
    (by exact h0) h6 (fun m hm => absurd hm (hns m)) (.inl hfs)
  rw [q2] at b2; rw [q3] at b3; rw [q4] at b4; rw [q7] at a2
  simp only [Option.isSome_none, Option.isSome_eq_false_iff, Option.isNone_iff_eq_none, Option.isSome_some, if_true] at b2 b3 b4 a2
  subst b2 b3 b4 a2
  have hmem := (b11 (by rw [q5]; simp)).1 _ q1
  have hex := C65_executes_partial env.run hk (goodCall env m) (withNull env s j n file) s1 0 p h3 (by exact h0) h6
  rw [q7] at hex
  obtain ⟨path, d, v, c1, c2, -, c4⟩ := hex
  obtain ⟨a, b, hab⟩ := preserveStd_frame _ _ _ _ _ h2
  obtain ⟨-, -, -, -, k5, -, -⟩ := madeInRust_spec hj
  refine ⟨by rw [h5, hmem]; rfl, a1, by rw [h4]; exact a3, ?_, by rw [h4]; exact a4, ?_, path, d, v, c1, ?_, ?_⟩
  · rw [h4]
    funext x
    simp only [closeFd, FdTable.set]
    by_cases hx : x = n
    · rw [if_pos hx, hx, hfree]
    · rw [if_neg hx]
      rcases b9 x (by simp [callerEnds]) with ⟨-, hc⟩ | ⟨hc, -⟩
      · exact absurd hc (hns x)
      · rw [hc]
        simp only [withNull, FdTable.set, if_neg hx]
  · intro x hx
    rw [h4]
    simp only
    rw [b12 x (by rw [q5]; simpa using hx)]
    simp only [withNull, store, if_neg hx]
  · clear * - c2
    cases hp : programOf m <;> rw [hp] at c2 <;> exact c2
  · rintro given rfl g1 g2 g3 x
    rw [q6] at c4
    have hpre : (withNull env s j n file).jail.preload_path = none := by simp only [withNull, hab]; exact k5
    have hpol : asText (withNull env s j n file).jail.seccomp_policy_path = s.jail.seccomp_policy_path.map chars := by simp only [withNull, hab]; rfl
    have := c4 (fun _ => ⟨g1, g2, by rw [hpre]; exact g3⟩) x
    rw [hpol] at this
    exact this

/-- **C77**, a method that starts nothing (if there is memory for a copy of the environment): it returns an error, and the caller's descriptors, signals, processes and memory are as
before, but for the variable of the method. -/
theorem C77_failed_partial (env : RustStartEnv) (hk : KernelFds env.run) (hn : NullFds env) (m : RustStart) (s s' : Caller) (r : Except RustError Int)
    (h : rustStart env m s = .ret r s') (h' : s'.started = none) (hmem : env.run.copyEnv = true) :
    (∃ e, r = .error e) ∧ s'.fds = s.fds ∧ s'.blocked = s.blocked ∧ s'.forwards = s.forwards ∧ s'.killed = s.killed ∧ ∀ a, a ≠ env.addr → s'.mem a = s.mem a := by
  rcases rustStart_cases env m s s' r h with ⟨e, j, rfl, rfl⟩ | ⟨n, file, j, code, s1, h1, h2, h3, h4, h5⟩
  · exact ⟨⟨e, rfl⟩, rfl, rfl, rfl, rfl, fun _ _ => rfl⟩
  · have hs1 : s1.started = none := by rw [h4] at h'; exact h'
    obtain ⟨-, c2, c3, c4, -, c6, c7, -⟩ := C65_failed env.run hk _ _ _ _ h3 hs1
    obtain ⟨hfree, -⟩ := hn _ _ _ h1
    have hneg : code < 0 := by
      rcases run_cases _ _ _ _ _ h3 with ⟨hst, -⟩ | ⟨-, -, x, y, exec, -, -, -, hd⟩
      · refine prepareRun_code _ _ _ _ hmem ?_ ?_ ?_ _ hst <;> (unfold goodCall; cases programOf m <;> rfl)
      · rw [hd.started] at hs1; cases hs1
    refine ⟨⟨_, by rw [h5, if_pos hneg]⟩, ?_, by rw [h4]; exact c4, by rw [h4]; exact c6, by rw [h4]; exact c7, ?_⟩
    · rw [h4]
      funext x
      simp only [closeFd, FdTable.set, c2, withNull]
      by_cases hx : x = n
      · rw [if_pos hx, hx, hfree]
      · rw [if_neg hx, if_neg hx]
    · intro x hx
      rw [h4]
      simp only [c3, withNull, store, if_neg hx]

/-- **C77**, strings with a NUL among the arguments or variables: an error, and nothing at all is changed, not even the jail. -/
theorem C77_strings (env : RustStartEnv) (m : RustStart) (s : Caller) (hbad : ∃ x ∈ argsOf m ++ (envOf m).getD [], ¬ CString x) :
    rustStart env m s = .ret (.error .strToCString) s := by
  unfold rustStart
  cases hc : m.command with
  | error e => rw [((command_spec m).2 e hc).1]
  | ok c =>
    obtain ⟨x, hx, hx'⟩ := hbad
    exact absurd (((command_spec m).1 c hc).1 x hx) hx'

/-- **C77**: the library never reads beyond the arrays of arguments and variables. -/
theorem C77_arrays (env : RustStartEnv) (m : RustStart) (s : Caller) : rustStart env m s ≠ .ub := by
  unfold rustStart
  cases hc : m.command with
  | error e => simp
  | ok c =>
    obtain ⟨-, rfl⟩ := (command_spec m).1 c hc
    simp only [rustRunInternal, rustRunCall_good]
    cases hr : rustRun env.rust s.jail (goodCommand m).preserve_fds ((env.null s.fds).map fun p => BitVec.ofNat 32 p.1) (goodCommand m).program with
    | die => simp
    | err e j => simp
    | starts j =>
      cases hn : env.null s.fds with
      | none =>
        rw [hn] at hr
        have := rustRun_starts _ _ _ _ _ _ hr
        unfold preserveStd at this
        cases hp : preserveAll env.rust.api s.jail (goodCommand m).preserve_fds with
        | die => rw [hp] at this; cases this
        | ret r1 j1 => rw [hp] at this; cases r1 <;> cases this
      | some q =>
        simp only
        split
        · simp
        · simp
        · split <;> simp


/-- **C77**, the descriptors of the program: each that it is to have is there and is the file it should be, and survives `execve`; and no other is open but the library's own pipe
and the file of the program. (`d`, `df` and `entries` are what the process finds in /proc/self/fd.) -/
theorem C77_descriptors (env : RustStartEnv) (hk : KernelFds env.run) (hn : NullFds env) (m : RustStart) (s s' : Caller) (r : Except RustError Int) (p : Started)
    (hj : MadeInRust s.jail) (h : rustStart env m s = .ret r s') (h0 : s.started = none) (h' : s'.started = some p)
    (fenv : FdEnv) (hw : ∀ t, fenv.warn t = t) (d : Nat) (df : OpenFile) (entries : List (Option Nat)) (hd : p.fds d = none) (hlist : ∀ x, p.fds x ≠ none → some x ∈ entries)
    (hopen : ∀ q ∈ fdsOf m, s.fds q.1.toNat ≠ none) (helf : ∀ e, programOf m = .inr e → 0 ≤ e.toInt → s.fds e.toNat ≠ none)
    (c : ChildFds) (hr : startedFds fenv (some (d, df)) entries p = some c) :
    ∃ null file, env.null s.fds = some (null, file) ∧ (∀ dst x, HasFd (fdsOf m) s.fds file dst x → c.table dst = some ⟨x, false⟩) ∧
      ∀ x, c.table x ≠ none → (∃ y, HasFd (fdsOf m) s.fds file x y) ∨ c.pipes = [some x] ∨ c.elf = some x := by
  obtain ⟨n, file, j, code, s1, h1, h2, h3, h4, h5, h6, hns, hfs⟩ := rustStart_started env hk m s s' r p hj h h0 h'
  obtain ⟨q1, q2, q3, q4, q5, q6, q7⟩ := goodCall_asks env m
  obtain ⟨hfree, hlt⟩ := hn _ _ _ h1
  obtain ⟨-, -, -, -, i, o, e, -, b2, b3, b4, -, -, -, -, -, -, -, -, pc, py, hP, hpipes, ⟨j1, j2, j3⟩, j4, j5⟩ := run_started env.run hk (goodCall env m)
    (withNull env s j n file) s1 code p h3 (by exact h0) h6 (fun m hm => absurd hm (hns m)) (.inl hfs)
  rw [q2] at b2; rw [q3] at b3; rw [q4] at b4
  simp only [Option.isSome_none, Option.isSome_eq_false_iff, Option.isNone_iff_eq_none] at b2 b3 b4
  subst b2 b3 b4
  have hex := C65_executes_partial env.run hk (goodCall env m) (withNull env s j n file) s1 code p h3 (by exact h0) h6
  rw [q7] at hex
  obtain ⟨path, dd, v, c1, c2, -, -⟩ := hex
  obtain ⟨a, b, hab⟩ := preserveStd_frame _ _ _ _ _ h2
  obtain ⟨k1, k2, -, -, -, k6, k7⟩ := madeInRust_spec hj
  have hbv : (BitVec.ofNat 32 n).toNat = n := by rw [BitVec.toNat_ofNat]; omega
  have hmaps : startedMaps p.jail = preservedMaps j := by
    have hpm : preservedMaps p.jail = preservedMaps j := by unfold preservedMaps; rw [j4, j5]; rfl
    have hv : p.jail.flags.enter_vfs = false := by rw [j1]; simp only [withNull, hab]; exact k6
    have hnn : p.jail.flags.enter_net = false := by rw [j1]; simp only [withNull, hab]; exact k7
    unfold startedMaps
    rw [hv, hnn]
    simp only [keepNs, Bool.false_eq_true, if_false, ite_self]
    exact hpm
  have hcl : p.jail.flags.close_open_fds = true := by rw [j1]; simp only [withNull, hab]
  unfold startedFds at hr
  rw [if_pos hcl, hmaps] at hr
  have hrest : ∀ x, (withNull env s j n file).fds x ≠ none → p.fds x = (withNull env s j n file).fds x :=
    fun x hx => hP.rest x fun hc => hx (hP.free x hc)
  have hold : ∀ x, s.fds x ≠ none → p.fds x = s.fds x := by
    intro x hx
    have hxn : x ≠ n := fun hc => hx (hc ▸ hfree)
    have : (withNull env s j n file).fds x = s.fds x := by simp only [withNull, FdTable.set, if_neg hxn]
    rw [hrest x (by rw [this]; exact hx), this]
  have hnull : p.fds n = some ⟨file, true⟩ := by
    have : (withNull env s j n file).fds n = some ⟨file, true⟩ := by simp only [withNull, FdTable.set, if_true]
    rw [hrest n (by rw [this]; simp), this]
  have hstarts : rustRun env.rust s.jail (fdsOf m) (some (BitVec.ofNat 32 n)) (.fileDescriptor 0) = .starts j := by unfold rustRun; rw [h2]
  have hends : ∀ x, some x ∈ p.pipes.ends → p.fds x ≠ none := by
    intro x hx
    have : ∃ q ∈ pc.toList ++ (none : Option NewPipe).toList ++ (none : Option NewPipe).toList ++ (none : Option NewPipe).toList ++ py.toList, x = q.r ∨ x = q.w := by
      rw [hpipes] at hx
      clear * - hx
      cases pc <;> cases py <;> simp [RunPipes.ends, endsOf] at hx ⊢
      · exact hx
      · exact hx
      · rcases hx with hx | hx | hx | hx <;> simp [hx]
    obtain ⟨q, hq, hx | hx⟩ := this
    · rw [hx, (hP.ends q hq).1]; simp
    · rw [hx, (hP.ends q hq).2]; simp
  have main := C61_descriptors_partial env.rust s.jail j k1 k2 (fdsOf m) (BitVec.ofNat 32 n) (.fileDescriptor 0) hstarts fenv hw p.fds d df entries p.pipes
    (by rw [hpipes]; exact ⟨rfl, rfl, rfl⟩) (startedElf p) c hd hlist (fun q hq => by rw [hold _ (hopen q hq)]; exact hopen q hq) (by rw [hbv, hnull]; simp) hends
    (by
      intro x hx
      unfold startedElf at hx
      rw [c1] at hx
      simp only at hx
      by_cases hdd : dd ≥ 0
      · rw [if_pos hdd] at hx
        cases hx
        cases hp : programOf m with
        | inl f => rw [hp] at c2; simp only [Sum.map_inl] at c2; rw [c2.2] at hdd; exact absurd hdd (by decide)
        | inr e =>
          rw [hp] at c2
          simp only [Sum.map_inr] at c2
          rw [c2.2] at hdd ⊢
          have : e.toInt.toNat = e.toNat := by
            rw [BitVec.toInt_eq_toNat_cond] at hdd ⊢
            split at hdd
            · rename_i hc; rw [if_pos hc]; rfl
            · have := e.isLt; omega
          rw [this, hold _ (helf e hp hdd)]
          exact helf e hp hdd
      · rw [if_neg hdd] at hx; cases hx) hr
  rw [hbv] at main
  obtain ⟨-, g1, g2⟩ := main
  refine ⟨n, file, h1, ?_, ?_⟩
  · intro dst x hx
    have val : ∀ src, GivenFd (fdsOf m) n src dst → (p.fds src).map (·.file) = some x → c.table dst = some ⟨x, false⟩ := by
      intro src hg hf
      obtain ⟨⟨f, g, u1, u2, u3⟩, ⟨f', w1, w2⟩⟩ := g1 src dst hg
      rw [u1] at w1
      cases w1
      rw [u2] at hf
      simp only [Option.map_some, Option.some.injEq] at hf
      rw [u1]
      congr 1
      cases f
      simp only at u3 w2
      rw [u3, hf, w2]
    rcases hx with ⟨q, hq, rfl, hx⟩ | ⟨hd2, hno, rfl⟩
    · refine val q.1.toNat (.inl ⟨q, hq, rfl, rfl⟩) ?_
      rw [hold _ (hopen q hq)]
      exact hx
    · exact val n (.inr ⟨hd2, rfl, hno⟩) (by rw [hnull]; rfl)
  · intro x hx
    rcases g2 x hx with ⟨src, ⟨q, hq, rfl, hx2⟩ | ⟨hd2, -, hno⟩⟩ | hx | hx
    · cases ho : s.fds q.1.toNat with
      | none => exact absurd ho (hopen q hq)
      | some f => exact .inl ⟨f.file, .inl ⟨q, hq, hx2, by rw [ho]; rfl⟩⟩
    · exact .inl ⟨file, .inr ⟨hd2, hno, rfl⟩⟩
    · exact .inr (.inl hx)
    · exact .inr (.inr hx)

/-- **C77**, what suffices: good strings, no negative descriptor and at most 125 of them, and a system that refuses nothing. Then a process is started, and its number is returned. -/
theorem C77_starts (env : RustStartEnv) (hn : NullFds env) (m : RustStart) (s : Caller) (hj : MadeInRust s.jail) (h0 : s.started = none)
    (hs : ∀ x ∈ argsOf m ++ (envOf m).getD [], CString x) (hp : ∀ f, programOf m = .inl f → env.rust.utf8 f = true ∧ CString f)
    (hf : ∀ q ∈ fdsOf m, 0 ≤ q.1.toInt ∧ 0 ≤ q.2.toInt) (hl : (fdsOf m).length ≤ 125) (hnull : env.null s.fds ≠ none)
    (hu : s.jail.flags.userns = true → s.jail.flags.pids = true) (ht : Bounded s.fds)
    (hpipe : ∀ t, Bounded t → env.run.pipe t ≠ none)
    (hsys : env.run.copyEnv = true ∧ env.run.setPolicyEnv = true ∧ env.run.setPreloadEnv = true ∧ env.run.setFdEnv = true ∧ env.run.setup = true ∧ env.run.sigprocmask = true)
    (hclone : 0 < env.run.clone) : ∃ s' p, rustStart env m s = .ret (.ok env.run.clone) s' ∧ s'.started = some p ∧ p.pid = env.run.clone := by
  obtain ⟨y1, y2, y3, y4, y5, y6⟩ := hsys
  obtain ⟨-, k2, -, k4, -, -, -⟩ := madeInRust_spec hj
  cases hq : env.null s.fds with
  | none => exact absurd hq hnull
  | some q =>
    obtain ⟨n, file⟩ := q
    obtain ⟨-, hlt⟩ := hn _ _ _ hq
    have hnn : 0 ≤ (BitVec.ofNat 32 n).toInt := by
      rw [BitVec.toInt_eq_toNat_cond, BitVec.toNat_ofNat, if_pos (by omega)]
      omega
    obtain ⟨j, hrun⟩ := C61_accepted env.rust s.jail k2 (fdsOf m) hf hl (BitVec.ofNat 32 n) hnn (rustProgramOf m) (by
      intro f hf
      unfold rustProgramOf at hf
      cases hpm : programOf m with
      | inl g => rw [hpm] at hf; cases hf; exact hp _ hpm
      | inr g => rw [hpm] at hf; cases hf)
    have hcmd : m.command = .ok (goodCommand m) := by
      cases hc : m.command with
      | error e =>
        obtain ⟨-, x, hx, hx'⟩ := (command_spec m).2 e hc
        exact absurd (hs x hx) hx'
      | ok c => rw [((command_spec m).1 c hc).2]
    obtain ⟨a, b, hab⟩ := preserveStd_frame _ _ _ _ _ (rustRun_starts _ _ _ _ _ _ hrun)
    have hcfg : (goodCall env m).config.execInChild = true ∧ (goodCall env m).config.usePreload = true ∧
        ((goodCall env m).config.filename.isSome && (goodCall env m).config.elfFd != -1) = false ∧ (goodCall env m).config.pchildPid = some env.addr ∧
        (goodCall env m).config.pstdin = none ∧ (goodCall env m).config.pstdout = none ∧ (goodCall env m).config.pstderr = none := by
      unfold goodCall
      cases programOf m <;> exact ⟨rfl, rfl, rfl, rfl, rfl, rfl, rfl⟩
    obtain ⟨e1, e2, e3, e4, e5, e6, e7⟩ := hcfg
    obtain ⟨fn, hfn⟩ := namedJail_eq (goodCall env m).config j
    have hgo := prepareRun_goes env.run (goodCall env m).config (namedJail (goodCall env m).config j) (withNull env s j n file).fds (ht.set _ _) hpipe y1 y2 y3 y4
      (by rw [hfn, hab]; exact k4) e1 e2
    obtain ⟨s1, hrun2, hst, hm1⟩ : ∃ s1, minijailRun env.run (goodCall env m) (withNull env s j n file) = .ret 0 s1 ∧ (∃ p, s1.started = some p ∧ p.pid = env.run.clone) ∧
        s1.mem env.addr = env.run.clone := by
      have hjail : (withNull env s j n file).jail = j := rfl
      have huser : ((namedJail (goodCall env m).config j).flags.userns && !(namedJail (goodCall env m).config j).flags.pids) = false := by
        rw [hfn, hab]
        simp only
        cases hus : s.jail.flags.userns with
        | false => rfl
        | true => rw [hu hus]; rfl
      unfold minijailRun
      simp only [e3, Bool.false_eq_true, if_false, hjail, hgo, huser, if_neg (show ¬ env.run.clone ≤ 0 by omega)]
      unfold runParent
      simp only [y5, Bool.not_true, Bool.false_and, Bool.false_eq_true, if_false, e2, if_true]
      unfold sendStage
      simp only [y6, Bool.not_true, Bool.false_eq_true, if_false, beq_self_eq_true, Bool.true_or, Bool.not_true, Bool.and_false]
      unfold handOut
      simp only [e1, if_true, e4, e5, e6, e7, store]
      refine ⟨_, rfl, ?_, ?_⟩
      · exact ⟨_, rfl, rfl⟩
      · exact if_pos rfl
    obtain ⟨p, hst, hpid⟩ := hst
    refine ⟨{ s1 with fds := closeFd s1.fds n }, p, ?_, hst, hpid⟩
    unfold rustStart
    rw [hcmd]
    simp only [rustRunInternal, hq, Option.map_some, rustRunCall_good]
    have hrun' : rustRun env.rust s.jail (goodCommand m).preserve_fds (some (BitVec.ofNat 32 n)) (goodCommand m).program = .starts j := hrun
    rw [hrun']
    simp only
    simp only [withNull] at hrun2
    rw [hrun2]
    simp only [Int.lt_irrefl, if_false, hm1]

/-- How `fork` ends in the calling process. -/
theorem rustFork_cases (env : RustStartEnv) (check : Bool) (threads : Option Nat) (fds : List (BitVec 32 × BitVec 32)) (s s' : Caller) (r : Except RustError Int)
    (h : rustForkRemap env check threads fds s = .ret r s') :
    (∃ e j, r = .error e ∧ s' = { s with jail := j }) ∨
    ∃ n file j code s1, env.null s.fds = some (n, file) ∧ (check = true ∨ threads = some 1) ∧
      preserveStd env.rust.api s.jail fds (some (BitVec.ofNat 32 n)) = .ret (.ok ()) j ∧
      minijailRun env.run .fork { s with jail := j, fds := s.fds.set n (some ⟨file, true⟩) } = .ret code s1 ∧ s' = { s1 with fds := closeFd s1.fds n } ∧
      r = if code < 0 then .error (.forkingMinijail code) else .ok code := by
  simp only [rustForkRemap] at h
  cases hr : rustFork env.rust check threads s.jail fds ((env.null s.fds).map fun p => BitVec.ofNat 32 p.1) with
  | die => rw [hr] at h; cases h
  | err e j => rw [hr] at h; cases h; exact .inl ⟨e, j, rfl, rfl⟩
  | starts j =>
    rw [hr] at h
    have hthreads := C61_threads _ _ _ _ _ _ _ hr
    have hp : preserveStd env.rust.api s.jail fds ((env.null s.fds).map fun p => BitVec.ofNat 32 p.1) = .ret (.ok ()) j := by
      unfold rustFork at hr
      have go : (match preserveStd env.rust.api s.jail fds ((env.null s.fds).map fun p => BitVec.ofNat 32 p.1) with
          | .die => RustRun.die
          | .ret (.error e) j => .err e j
          | .ret (.ok _) j => .starts j) = .starts j := by
        rcases hthreads with hc | hc
        · rw [hc] at hr; exact hr
        · cases check with
          | true => exact hr
          | false => rw [hc] at hr; exact hr
      cases hq : preserveStd env.rust.api s.jail fds ((env.null s.fds).map fun p => BitVec.ofNat 32 p.1) with
      | die => rw [hq] at go; cases go
      | ret r1 j1 =>
        rw [hq] at go
        cases r1 with
        | error e => cases go
        | ok u => cases go; rfl
    cases hn : env.null s.fds with
    | none => rw [hn] at h; cases h
    | some q =>
      obtain ⟨n, file⟩ := q
      rw [hn] at h hp
      simp only at h
      right
      cases hq : minijailRun env.run .fork { s with jail := j, fds := s.fds.set n (some ⟨file, true⟩) } with
      | die => rw [hq] at h; cases h
      | killedByPipe => rw [hq] at h; cases h
      | ret code s1 =>
        refine ⟨n, file, j, code, s1, rfl, hthreads, hp, hq, ?_⟩
        rw [hq] at h
        simp only at h
        by_cases h0 : code < 0
        · rw [if_pos h0] at h ⊢; cases h; exact ⟨rfl, rfl⟩
        · rw [if_neg h0] at h ⊢; cases h; exact ⟨rfl, rfl⟩

/-- **C77**, `fork`: a process is only made if there is one thread or the check was disabled. Its number is returned, and is the one that `wait` and `kill` mean; the process executes
nothing. The caller's descriptors are those it had, the same signals are blocked, and no memory changed. -/
theorem C77_forked (env : RustStartEnv) (hk : KernelFds env.run) (hn : NullFds env) (check : Bool) (threads : Option Nat) (fds : List (BitVec 32 × BitVec 32)) (s s' : Caller)
    (r : Except RustError Int) (p : Started) (hj : MadeInRust s.jail) (h : rustForkRemap env check threads fds s = .ret r s') (h0 : s.started = none) (h' : s'.started = some p) :
    (check = true ∨ threads = some 1) ∧ r = .ok p.pid ∧ 0 < p.pid ∧ s'.jail.initpid = BitVec.ofInt 32 p.pid ∧ p.exec = none ∧ s'.fds = s.fds ∧ s'.blocked = s.blocked ∧
      s'.mem = s.mem := by
  rcases rustFork_cases env check threads fds s s' r h with ⟨e, j, -, rfl⟩ | ⟨n, file, j, code, s1, h1, ht, h2, h3, h4, h5⟩
  · simp only at h'; rw [h0] at h'; cases h'
  · have h6 : s1.started = some p := by rw [h4] at h'; exact h'
    obtain ⟨a, b, hab⟩ := preserveStd_frame _ _ _ _ _ h2
    obtain ⟨-, -, k3, -, -, k6, k7⟩ := madeInRust_spec hj
    obtain ⟨hfree, -⟩ := hn _ _ _ h1
    have hns : ∀ m, ¬ NamespaceFd j m := by
      intro m hm
      rcases hm with ⟨hv, -⟩ | ⟨hv, -⟩
      · rw [hab] at hv; simp only [k6] at hv; cases hv
      · rw [hab] at hv; simp only [k7] at hv; cases hv
    obtain ⟨a1, a2, a3, a4, i, o, e, -, b2, b3, b4, -, -, -, -, b9, -, -, b12, -⟩ := run_started env.run hk .fork _ s1 code p h3
      (by exact h0) h6 (fun m hm => absurd hm (hns m)) (.inl (by show j.fs_rules = []; rw [hab]; exact k3))
    simp only [stdinTo, stdoutTo, stderrTo, executes, Option.isSome_none, Option.isSome_eq_false_iff, Option.isNone_iff_eq_none, Bool.false_eq_true, if_false] at b2 b3 b4 a2
    subst b2 b3 b4 a2
    have hex := C65_executes_partial env.run hk .fork _ s1 _ p h3 (by exact h0) h6
    refine ⟨ht, by rw [h5, if_neg (by omega)], a1, by rw [h4]; exact a3, hex, ?_, by rw [h4]; exact a4, ?_⟩
    · rw [h4]
      funext x
      simp only [closeFd, FdTable.set]
      by_cases hx : x = n
      · rw [if_pos hx, hx, hfree]
      · rw [if_neg hx]
        rcases b9 x (by simp [callerEnds]) with ⟨-, hc⟩ | ⟨hc, -⟩
        · exact absurd hc (hns x)
        · rw [hc]
          simp only [FdTable.set, if_neg hx]
    · rw [h4]
      funext x
      exact b12 x (by simp [resultsTo, pidTo, stdinTo, stdoutTo, stderrTo])

/-- **C77**, a `fork` that makes no process (if there is memory for a copy of the environment, which is made if there is a policy file): it returns an error, and the caller's descriptors,
signals, processes and memory are as before. -/
theorem C77_not_forked_partial (env : RustStartEnv) (hk : KernelFds env.run) (hn : NullFds env) (check : Bool) (threads : Option Nat) (fds : List (BitVec 32 × BitVec 32))
    (s s' : Caller) (r : Except RustError Int) (h : rustForkRemap env check threads fds s = .ret r s') (h' : s'.started = none) (hmem : env.run.copyEnv = true) :
    (∃ e, r = .error e) ∧ s'.fds = s.fds ∧ s'.blocked = s.blocked ∧ s'.forwards = s.forwards ∧ s'.killed = s.killed ∧ s'.mem = s.mem := by
  rcases rustFork_cases env check threads fds s s' r h with ⟨e, j, rfl, rfl⟩ | ⟨n, file, j, code, s1, h1, -, h2, h3, h4, h5⟩
  · exact ⟨⟨e, rfl⟩, rfl, rfl, rfl, rfl, rfl⟩
  · have hs1 : s1.started = none := by rw [h4] at h'; exact h'
    obtain ⟨-, c2, c3, c4, -, c6, c7, -⟩ := C65_failed env.run hk _ _ _ _ h3 hs1
    obtain ⟨hfree, -⟩ := hn _ _ _ h1
    have hneg : code < 0 := by
      rcases run_cases _ _ _ _ _ h3 with ⟨hst, -⟩ | ⟨-, -, x, y, exec, -, -, -, hd⟩
      · exact prepareRun_code _ _ _ _ hmem rfl rfl rfl _ hst
      · rw [hd.started] at hs1; cases hs1
    refine ⟨⟨_, by rw [h5, if_pos hneg]⟩, ?_, by rw [h4]; exact c4, by rw [h4]; exact c6, by rw [h4]; exact c7, by rw [h4]; exact c3⟩
    rw [h4]
    funext x
    simp only [closeFd, FdTable.set, c2]
    by_cases hx : x = n
    · rw [if_pos hx, hx, hfree]
    · rw [if_neg hx, if_neg hx]

/-- **C77**, the descriptors of a process made by `fork`: each that it is to have is there and is the file it should be, and survives `execve`; and no other is open. (`d`, `df` and `entries` are what the process finds in /proc/self/fd.) -/
theorem C77_fork_descriptors (env : RustStartEnv) (hk : KernelFds env.run) (hn : NullFds env) (check : Bool) (threads : Option Nat) (fds : List (BitVec 32 × BitVec 32)) (s s' : Caller) (r : Except RustError Int) (p : Started)
    (hj : MadeInRust s.jail) (h : rustForkRemap env check threads fds s = .ret r s') (h0 : s.started = none) (h' : s'.started = some p)
    (fenv : FdEnv) (hw : ∀ t, fenv.warn t = t) (d : Nat) (df : OpenFile) (entries : List (Option Nat)) (hd : p.fds d = none) (hlist : ∀ x, p.fds x ≠ none → some x ∈ entries)
    (hopen : ∀ q ∈ fds, s.fds q.1.toNat ≠ none)
    (c : ChildFds) (hr : startedFds fenv (some (d, df)) entries p = some c) :
    ∃ null file, env.null s.fds = some (null, file) ∧ (∀ dst x, HasFd fds s.fds file dst x → c.table dst = some ⟨x, false⟩) ∧
      ∀ x, c.table x ≠ none → (∃ y, HasFd fds s.fds file x y) := by
  have helf : startedElf p = none := by
    have := C77_forked env hk hn check threads fds s s' r p hj h h0 h'
    unfold startedElf
    rw [this.2.2.2.2.1]
  rcases rustFork_cases env check threads fds s s' r h with ⟨e, j, -, rfl⟩ | ⟨n, file, j, code, s1, h1, -, h2, h3, h4, h5⟩
  · simp only at h'; rw [h0] at h'; cases h'
  have h6 : s1.started = some p := by rw [h4] at h'; exact h'
  obtain ⟨a, b, hab⟩ := preserveStd_frame _ _ _ _ _ h2
  obtain ⟨k1, k2, k3, -, -, k6, k7⟩ := madeInRust_spec hj
  obtain ⟨hfree, hlt⟩ := hn _ _ _ h1
  have hns : ∀ m, ¬ NamespaceFd j m := by
    intro m hm
    rcases hm with ⟨hv, -⟩ | ⟨hv, -⟩
    · rw [hab] at hv; simp only [k6] at hv; cases hv
    · rw [hab] at hv; simp only [k7] at hv; cases hv
  obtain ⟨-, -, -, -, i, o, e, -, b2, b3, b4, -, -, -, -, -, -, -, -, pc, py, hP, hpipes, ⟨j1, j2, j3⟩, j4, j5⟩ := run_started env.run hk .fork _ s1 code p h3
      (by exact h0) h6 (fun m hm => absurd hm (hns m)) (.inl (by show j.fs_rules = []; rw [hab]; exact k3))
  simp only [stdinTo, stdoutTo, stderrTo, Option.isSome_none, Option.isSome_eq_false_iff, Option.isNone_iff_eq_none] at b2 b3 b4
  subst b2 b3 b4
  have hbv : (BitVec.ofNat 32 n).toNat = n := by rw [BitVec.toNat_ofNat]; omega
  have hmaps : startedMaps p.jail = preservedMaps j := by
    have hpm : preservedMaps p.jail = preservedMaps j := by unfold preservedMaps; rw [j4, j5]
    have hv : p.jail.flags.enter_vfs = false := by rw [j1]; show j.flags.enter_vfs = false; rw [hab]; exact k6
    have hnn : p.jail.flags.enter_net = false := by rw [j1]; show j.flags.enter_net = false; rw [hab]; exact k7
    unfold startedMaps
    rw [hv, hnn]
    simp only [keepNs, Bool.false_eq_true, if_false, ite_self]
    exact hpm
  have hcl : p.jail.flags.close_open_fds = true := by rw [j1]; show j.flags.close_open_fds = true; rw [hab]
  unfold startedFds at hr
  rw [if_pos hcl, hmaps] at hr
  have hrest : ∀ x, (s.fds.set n (some ⟨file, true⟩)) x ≠ none → p.fds x = (s.fds.set n (some ⟨file, true⟩)) x :=
    fun x hx => hP.rest x fun hc => hx (hP.free x hc)
  have hold : ∀ x, s.fds x ≠ none → p.fds x = s.fds x := by
    intro x hx
    have hxn : x ≠ n := fun hc => hx (hc ▸ hfree)
    have : (s.fds.set n (some ⟨file, true⟩)) x = s.fds x := by simp only [FdTable.set, if_neg hxn]
    rw [hrest x (by rw [this]; exact hx), this]
  have hnull : p.fds n = some ⟨file, true⟩ := by
    have : (s.fds.set n (some ⟨file, true⟩)) n = some ⟨file, true⟩ := by simp only [FdTable.set, if_true]
    rw [hrest n (by rw [this]; simp), this]
  have hstarts : rustRun env.rust s.jail fds (some (BitVec.ofNat 32 n)) (.fileDescriptor 0) = .starts j := by unfold rustRun; rw [h2]
  have hends : ∀ x, some x ∈ p.pipes.ends → p.fds x ≠ none := by
    intro x hx
    have : ∃ q ∈ pc.toList ++ (none : Option NewPipe).toList ++ (none : Option NewPipe).toList ++ (none : Option NewPipe).toList ++ py.toList, x = q.r ∨ x = q.w := by
      rw [hpipes] at hx
      clear * - hx
      cases pc <;> cases py <;> simp [RunPipes.ends, endsOf] at hx ⊢
      · exact hx
      · exact hx
      · rcases hx with hx | hx | hx | hx <;> simp [hx]
    obtain ⟨q, hq, hx | hx⟩ := this
    · rw [hx, (hP.ends q hq).1]; simp
    · rw [hx, (hP.ends q hq).2]; simp
  have main := C61_descriptors_partial env.rust s.jail j k1 k2 fds (BitVec.ofNat 32 n) (.fileDescriptor 0) hstarts fenv hw p.fds d df entries p.pipes
    (by rw [hpipes]; exact ⟨rfl, rfl, rfl⟩) (startedElf p) c hd hlist (fun q hq => by rw [hold _ (hopen q hq)]; exact hopen q hq) (by rw [hbv, hnull]; simp) hends
    (by rw [helf]; intro x hx; cases hx) hr
  rw [hbv] at main
  obtain ⟨-, g1, g2⟩ := main
  have hown := childFds_no_own (fork_config hk h3 (by exact h0) h6) (helf ▸ hr)
  refine ⟨n, file, h1, ?_, ?_⟩
  · intro dst x hx
    have val : ∀ src, GivenFd fds n src dst → (p.fds src).map (·.file) = some x → c.table dst = some ⟨x, false⟩ := by
      intro src hg hf
      obtain ⟨⟨f, g, u1, u2, u3⟩, ⟨f', w1, w2⟩⟩ := g1 src dst hg
      rw [u1] at w1
      cases w1
      rw [u2] at hf
      simp only [Option.map_some, Option.some.injEq] at hf
      rw [u1]
      congr 1
      cases f
      simp only at u3 w2
      rw [u3, hf, w2]
    rcases hx with ⟨q, hq, rfl, hx⟩ | ⟨hd2, hno, rfl⟩
    · refine val q.1.toNat (.inl ⟨q, hq, rfl, rfl⟩) ?_
      rw [hold _ (hopen q hq)]
      exact hx
    · exact val n (.inr ⟨hd2, rfl, hno⟩) (by rw [hnull]; rfl)
  · intro x hx
    rcases g2 x hx with ⟨src, ⟨q, hq, rfl, hx2⟩ | ⟨hd2, -, hno⟩⟩ | hx | hx
    · cases ho : s.fds q.1.toNat with
      | none => exact absurd ho (hopen q hq)
      | some f => exact ⟨f.file, .inl ⟨q, hq, hx2, by rw [ho]; rfl⟩⟩
    · exact ⟨file, .inr ⟨hd2, hno, rfl⟩⟩
    · rw [hown.1] at hx; cases hx
    · rw [hown.2] at hx; cases hx

/-- **C77**, `fork` with a list of descriptors, or none: the process has these under their numbers. -/
theorem C77_fork_list (env : RustStartEnv) (hk : KernelFds env.run) (hn : NullFds env) (check : Bool) (threads : Option Nat) (fds : Option (List (BitVec 32))) (s s' : Caller)
    (r : Except RustError Int) (p : Started) (hj : MadeInRust s.jail) (h : rustForkCall env check threads fds s = .ret r s') (h0 : s.started = none) (h' : s'.started = some p)
    (fenv : FdEnv) (hw : ∀ t, fenv.warn t = t) (d : Nat) (df : OpenFile) (entries : List (Option Nat)) (hd : p.fds d = none) (hlist : ∀ x, p.fds x ≠ none → some x ∈ entries)
    (hopen : ∀ l, fds = some l → ∀ n ∈ l, s.fds n.toNat ≠ none) (c : ChildFds) (hr : startedFds fenv (some (d, df)) entries p = some c) :
    (∀ l, fds = some l → ∀ n ∈ l, ∀ f, s.fds n.toNat = some f → c.table n.toNat = some ⟨f.file, false⟩) ∧
      ∀ x, c.table x ≠ none → x ≤ 2 ∨ ∃ l, fds = some l ∧ ∃ n ∈ l, n.toNat = x := by
  obtain ⟨null, file, -, g1, g2⟩ := C77_fork_descriptors env hk hn check threads ((fds.getD []).map fun a => (a, a)) s s' r p hj h h0 h' fenv hw d df entries hd hlist
    (by
      intro q hq
      simp only [List.mem_map] at hq
      obtain ⟨n, hn, rfl⟩ := hq
      cases fds with
      | none => cases hn
      | some l => exact hopen l rfl n hn) c hr
  refine ⟨?_, ?_⟩
  · rintro l rfl n hn f hf
    exact g1 _ _ (.inl ⟨(n, n), List.mem_map.2 ⟨n, hn, rfl⟩, rfl, by simp only [hf, Option.map_some]⟩)
  · intro x hx
    obtain ⟨y, ⟨q, hq, rfl, -⟩ | ⟨hx, -⟩⟩ := g2 x hx
    · simp only [List.mem_map] at hq
      obtain ⟨n, hn, rfl⟩ := hq
      cases fds with
      | none => cases hn
      | some l => exact .inr ⟨l, rfl, n, hn, rfl⟩
    · exact .inl (by omega)

open Classical in
/-- A system: a new descriptor, like a new file, gets the first number above all that there are. -/
noncomputable def exRustEnv : RustStartEnv where
  run := {
    pipe := fun t => if h : Bounded t then some ⟨h.choose, h.choose + 1, h.choose, h.choose + 1⟩ else none
    clone := 77
    landlock := fun _ => { ruleset := -1#32, abi := -1#32 }
    rulesetFile := 9
    environ := ["A=1".toList] }
  null := fun t => if t 5 = none then some (5, 50) else none
  addr := 1000

theorem exRustEnv_kernel : KernelFds exRustEnv.run where
  numbers t p h := by
    simp only [exRustEnv] at h
    split at h
    · rename_i hb
      cases h
      have := hb.choose_spec
      refine ⟨?_, ?_, by simp⟩
      · cases hq : t hb.choose with
        | none => rfl
        | some f => have := (this _ _ hq).1; omega
      · cases hq : t (hb.choose + 1) with
        | none => rfl
        | some f => have := (this _ _ hq).1; omega
    · cases h
  files t p h := by
    simp only [exRustEnv] at h
    split at h
    · rename_i hb
      cases h
      have := hb.choose_spec
      refine ⟨by simp, fun n f hf => ?_⟩
      have := (this _ _ hf).2
      simp only
      omega
    · cases h
  ruleset t h := by exact absurd h (by simp [exRustEnv])

theorem exRustEnv_null : NullFds exRustEnv := by
  intro t n f h
  simp only [exRustEnv] at h
  split at h
  · rename_i h5; cases h; exact ⟨h5, by omega⟩
  · cases h

/-- A caller with the standard streams and 3 and 4. -/
def exRustCaller : Caller := { fds := fun n => if n ≤ 4 then some ⟨100 + n, false⟩ else none, mem := fun _ => 0, jail := minijailNew, blocked := fun _ => false }

theorem exRustCaller_bounded : Bounded exRustCaller.fds := by
  refine ⟨105, fun x f h => ?_⟩
  simp only [exRustCaller] at h
  split at h
  · cases h; simp only; omega
  · cases h

/-- The hypotheses of `C77_starts`, and so those of `C77_started_partial`, are met: a program that gets 4 as its standard output, 3 as 3, an argument and a variable. -/
example : ∃ s' p, rustStart exRustEnv (.runCommand (bstr "/bin/true") [3#32] [bstr "true"] (some [bstr "B=2"])) exRustCaller = .ret (.ok 77) s' ∧ s'.started = some p ∧ p.pid = 77 :=
  C77_starts exRustEnv exRustEnv_null _ _ ⟨[], rfl⟩ rfl (by decide) (fun f hf => by cases hf; exact ⟨rfl, by decide⟩) (by decide) (by decide)
    (by simp [exRustEnv, exRustCaller]) (by decide) exRustCaller_bounded (fun t ht => by simp [exRustEnv, ht]) ⟨rfl, rfl, rfl, rfl, rfl, rfl⟩ (by decide)

example : ∃ s' p, rustStart exRustEnv (.runFdRemap 3#32 [(4#32, 1#32)] [bstr "true"]) exRustCaller = .ret (.ok 77) s' ∧ s'.started = some p ∧ p.pid = 77 :=
  C77_starts exRustEnv exRustEnv_null _ _ ⟨[], rfl⟩ rfl (by decide) (fun f hf => by cases hf) (by decide) (by decide)
    (by simp [exRustEnv, exRustCaller]) (by decide) exRustCaller_bounded (fun t ht => by simp [exRustEnv, ht]) ⟨rfl, rfl, rfl, rfl, rfl, rfl⟩ (by decide)

/-- The environment of such a program, and what is demanded of it. -/
example : EnvDistinct ["B=2".toList] ∧ envValue ["B=2".toList] preloadVar ≠ some [] ∧ ' ' ∉ exRustEnv.run.library := by
  refine ⟨by unfold EnvDistinct; decide, by decide, ?_⟩
  show ' ' ∉ "/lib/libminijailpreload.so".toList
  decide +kernel

/-- The hypotheses of `C77_forked` are met, with a pid namespace. -/
example : ∃ s' p, rustForkRemap exRustEnv false (some 1) [(4#32, 1#32)]
    { exRustCaller with jail := { minijailNew with flags := { minijailNew.flags with pids := true } } } = .ret (.ok 77) s' ∧ s'.started = some p ∧ p.pid = 77 :=
  ⟨_, _, rfl, rfl, rfl⟩

/-- Those of `C77_fork_descriptors` (and, with a pipe more, of `C77_descriptors`): 1 is the caller's 4, 3 is kept, 0 and 2 are /dev/null. -/
example : ∃ s' p c, rustForkRemap exRustEnv false (some 1) [(4#32, 1#32), (3#32, 3#32)] exRustCaller = .ret (.ok 77) s' ∧ s'.started = some p ∧
    startedFds ⟨fun _ _ => false, id⟩ (some (8, ⟨0, true⟩)) (none :: none :: (List.range 9).map some) p = some c ∧
    (List.range 9).map (fun n => (c.table n).map (·.file)) = [some 50, some 104, some 50, some 103, none, none, none, none, none] :=
  ⟨_, _, _, rfl, rfl, rfl, by rfl⟩

/-- Those of `C77_not_forked_partial` and `C77_failed_partial` too: no pipe can be made. -/
example : (∃ e s', rustForkRemap { exRustEnv with run := { exRustEnv.run with pipe := fun _ => none } } false (some 1) []
      { exRustCaller with jail := { minijailNew with flags := { minijailNew.flags with userns := true, pids := true } } } = .ret (.error e) s' ∧
      s'.started = none) ∧
    ∃ e s', rustStart { exRustEnv with run := { exRustEnv.run with pipe := fun _ => none } } (.run (bstr "/bin/true") [] [bstr "true"]) exRustCaller = .ret (.error e) s' ∧
      s'.started = none :=
  ⟨⟨_, _, rfl, rfl⟩, _, _, rfl, rfl⟩

/-- **C77 does not hold** without memory for the copy of the environment: the method returns `Ok(0)`, although nothing was started. -/
theorem C77_violated_memory : ∃ (env : RustStartEnv) (s s' : Caller), KernelFds env.run ∧ NullFds env ∧ MadeInRust s.jail ∧
    rustStart env (.run (bstr "/bin/true") [] [bstr "true"]) s = .ret (.ok 0) s' ∧ s.started = none ∧ s'.started = none :=
  ⟨{ exRustEnv with run := { exRustEnv.run with copyEnv := false } }, exRustCaller, _,
    ⟨exRustEnv_kernel.numbers, exRustEnv_kernel.files, exRustEnv_kernel.ruleset⟩, exRustEnv_null, ⟨[], rfl⟩, rfl, rfl, rfl⟩

/-- Nor does it for `fork` with a policy file: it returns the number 12 of a process that has nothing to do with it. -/
theorem C77_violated_fork : ∃ (env : RustStartEnv) (s s' : Caller), KernelFds env.run ∧ NullFds env ∧ s.jail.seccomp_policy_path.isSome = true ∧
    rustForkRemap env false (some 1) [] s = .ret (.ok 12) s' ∧ s.started = none ∧ s'.started = none :=
  ⟨{ exRustEnv with run := { exRustEnv.run with copyEnv := false } }, { exRustCaller with jail := { minijailNew with seccomp_policy_path := some [112#8] } }, _,
    ⟨exRustEnv_kernel.numbers, exRustEnv_kernel.files, exRustEnv_kernel.ruleset⟩, exRustEnv_null, rfl, rfl, rfl, rfl⟩

/-- The hypotheses of `C77_strings` are met. -/
example : ∃ x ∈ argsOf (.run (bstr "/bin/true") [] [bstr "true", [97#8, 0#8]]) ++ (envOf (.run (bstr "/bin/true") [] [bstr "true", [97#8, 0#8]])).getD [], ¬ CString x :=
  ⟨[97#8, 0#8], by decide, by decide⟩

end Minijail
