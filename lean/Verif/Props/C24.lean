import Verif.Proof.EnterStops
import Verif.Props.C29
/-! C24: entering a jail puts every restriction in place or ends the process. -/
set_option autoImplicit false
set_option linter.unusedSimpArgs false
namespace Minijail
open Spec

variable {env : EnterEnv} {j : Jail} {k : Kernel} {t : List Ev} {g : Option BStr → BitVec 32 → List (BitVec 32)} {p q : Proc}

/-- If `minijail_enter` returns, every restriction that was asked for is in place, `Spec.Applied` lists them. (Missing: the configured mounts,
see C29.) -/
theorem C24_applied_partial (h : Entered env j k t) : Applied env j t := by
  obtain ⟨E⟩ := trace_of h
  exact applied E

/-- A request that fails ends the process at once: whatever the outcome of a run, after a request that failed, and is neither one of the tolerated
ones nor one of the two checks of a bind source, only the temporary /dev is taken away, and `minijail_enter` does not return. (Missing: the two
checks, see `C24_violated`.) -/
theorem C24_stops_partial {out : Out Unit} (h : minijailEnter env j k [] = (out, t)) {t1 t2 : List Ev} {e : Ev} (ht : t = t1 ++ e :: t2)
    (hf : Failed e.1 e.2) (h1 : ¬ Tolerated env e.1 e.2) (h2 : ¬ MountCheck e.1 e.2) :
    out ≠ .ok () ∧ ∀ x ∈ t2, x.1 = .umount env.devPath ∨ x.1 = .rmdir env.devPath := by
  obtain ⟨s, e1, hs, hg⟩ := safe_enter (env := env) j k []
  rw [h] at e1 hg
  simp only [List.nil_append] at e1
  subst e1
  have bad : ∀ l, Good env l → e ∉ l := fun l hl he => by
    rcases hl e he hf with h | h
    · exact h1 h
    · exact h2 h
  constructor
  · intro ho
    exact bad _ (hg () (by rw [ho]) trivial) (by rw [ht]; simp)
  · rcases hs with hs | ⟨a, x, b, e2, ha, hb⟩
    · exact absurd (by rw [ht]; simp) (bad _ hs)
    · rw [e2] at ht
      rcases List.append_eq_append_iff.1 ht with ⟨c, e3, e4⟩ | ⟨c, e3, e4⟩
      · cases c with
        | nil =>
          simp only [List.nil_append, List.cons.injEq] at e4
          rw [← e4.2]; exact hb
        | cons y c =>
          simp only [List.cons_append, List.cons.injEq] at e4
          refine fun z hz => hb z ?_
          rw [e4.2]; simp [hz]
      · cases c with
        | nil =>
          simp only [List.nil_append, List.cons.injEq] at e4
          rw [e4.2]; exact hb
        | cons y c =>
          simp only [List.cons_append, List.cons.injEq] at e4
          exact absurd (by rw [e3, e4.1]; simp) (bad _ ha)

/-- The steps come in an order that keeps the earlier ones effective: namespaces, mounts, change of root, securebits, groups, group, user,
capabilities; path rules before the filter, both after `no_new_privs` if that is asked for; then the alternative system call table and strict
mode. -/
theorem C24_order (h : Entered env j k t) : InOrder j.flags.no_new_privs t := by
  obtain ⟨E⟩ := trace_of h
  exact ordered E

/-- The new root is in place before /tmp and /proc are mounted, and all targets have been prepared before it is. -/
theorem C24_new_root (h : Entered env j k t) : ∃ before after, t = before ++ after ∧
    (j.flags.chroot = true → (Sys.chroot j.chrootdir, 0) ∈ before) ∧ (j.flags.pivot_root = true → (Sys.pivotRoot, 0) ∈ before) ∧
    (j.flags.mount_tmp = true → ∃ f d, (Sys.mount (some (bstr "none")) (bstr "/tmp") (some (bstr "tmpfs")) f d, 0) ∈ after) ∧
    (j.flags.remount_proc_ro = true → ∃ f d, (Sys.mount (some (bstr "proc")) (bstr "/proc") (some (bstr "proc")) f d, 0) ∈ after) ∧
    ∀ e ∈ after, ¬ ChangesRoot e.1 ∧ ¬ Prepares e.1 := by
  obtain ⟨E⟩ := trace_of h
  refine ⟨E.lt ++ (nsTrace j E.lo E.kr ++ (E.mt ++ rootTrace j E.a E.b)), restTrace E, (trace_rest E).trans (by simp only [List.append_assoc]),
    fun hc => ?_, fun hc => ?_, fun hc => ?_, fun hc => ?_, fun e he => ⟨fun hc => ?_, fun hc => ?_⟩⟩
  · simp only [List.mem_append]
    exact Or.inr (Or.inr (Or.inr (by simp [rootTrace, chrootPlan, hc, done])))
  · simp only [List.mem_append]
    exact Or.inr (Or.inr (Or.inr (by simp [rootTrace, pivotPlan, hc, done])))
  · exact ⟨_, _, List.mem_append_left _ (mem_done.2 (by unfold innerPlan; rw [hc]; simp; exact Or.inl ⟨rfl, rfl⟩))⟩
  · exact ⟨_, _, List.mem_append_left _ (mem_done.2 (by unfold innerPlan; rw [hc]; simp; exact Or.inr (Or.inl ⟨rfl, rfl⟩)))⟩
  · exact no_stage (rest_seg E) he (changesRoot_stage _ hc) (by omega)
  · exact no_stage (rest_seg E) he (prepares_stage _ hc) (by omega)

/-- What the jail does to mounts, to the host name and to the loopback device it does inside the new namespaces asked for, never to those of the
caller. -/
theorem C24_inside (h : Entered env j k t) {t1 t2 : List Ev} {e : Ev} (ht : t = t1 ++ e :: t2) :
    (j.flags.vfs = true → TouchesFiles e.1 → (Sys.unshare .mount, 0) ∈ t1) ∧
    (j.flags.uts = true → (∃ n, e.1 = .sethostname n) → (Sys.unshare .uts, 0) ∈ t1) ∧
    (j.flags.net = true → j.flags.enter_net = false → e.1 = .loopback → (Sys.unshare .net, 0) ∈ t1) := by
  obtain ⟨E⟩ := trace_of h
  refine ⟨fun hv he => ?_, fun hv he => ?_, fun hv hn he => ?_⟩
  · obtain ⟨X, Y, hX, hno⟩ := inside_mount E hv
    exact before_of hX hno id ht he
  · obtain ⟨X, Y, hX, hno⟩ := inside_uts E hv
    exact before_of (P := fun c => ∃ n, c = .sethostname n) hX (fun x hx ⟨n, hn⟩ => hno x hx n hn) (by simp) ht he
  · obtain ⟨X, Y, hX, hno⟩ := inside_net E hv hn
    exact before_of (P := fun c => c = .loopback) hX hno (by simp) ht he

/-- A requested filter is the innermost filter of the process, and `no_new_privs` is set if asked for. -/
theorem C24_filtered (h : Entered env j k t) (hp : Evolves g p t q) :
    (j.flags.seccomp_filter = true → env.asan = false → q.filters.head? = some j.filter_prog) ∧ (j.flags.no_new_privs = true → q.noNewPrivs = true) := by
  obtain ⟨E⟩ := trace_of h
  exact ⟨filters_final E hp, nnp_final E hp⟩

/-- Not every failing call ends the process: a system that cannot say how the source of a bind mount is mounted, and a jail whose later tmpfs is
never mounted. -/
theorem C24_violated : ∃ t, Entered {} twoMounts unsure t ∧ (∃ e ∈ t, Failed e.1 e.2) ∧
    ∀ e ∈ t, ∀ src type flags data, e.1 ≠ .mount src (bstr "/secret") type flags data := by
  obtain ⟨t, h, hn⟩ := C29_violated
  refine ⟨t, h, ?_, hn⟩
  have e : t = (minijailEnter {} twoMounts unsure []).2 := by rw [h]
  refine ⟨(.mountFlags (bstr "/a"), -13), by rw [e]; decide +kernel, ?_⟩
  show (-13 : Int) < 0
  decide

/-- In the jail of the examples the filter and `no_new_privs` are in place. -/
example : (after rootProc richTrace).filters = [some [⟨6, 0, 0, 0⟩]] ∧ (after rootProc richTrace).noNewPrivs = true := by decide +kernel

/-- A system that refuses to change the user. -/
def stubborn : Kernel := fun h c =>
  match c with
  | .setresuid _ => -1
  | _ => obliging h c

/-- The run ends there: neither the capabilities nor the filter are tried. -/
example : (minijailEnter {} richJail stubborn []).1 = .die ∧
    ((minijailEnter {} richJail stubborn []).2.getLast?.map fun e => (e.1, e.2)) = some (.setresuid 1000, -1) := by decide +kernel

end Minijail
