import Verif.Spec.Forever
import Verif.Proof.Forever
import Verif.Props.C47
/-! C55: what a process gave up on entering the jail it never gets back, whatever it does and whatever it executes. `p` is the process before
`minijail_enter`, `q` after it returned, and `r` any later state. -/
set_option autoImplicit false
set_option linter.unusedSimpArgs false
namespace Minijail
open Spec

variable {env : EnterEnv} {j : Jail} {k : Kernel} {t : List Ev} {g : Option BStr → BitVec 32 → List (BitVec 32)} {p q r : Proc} {n : Nat}

private theorem jailed (h : Entered env j k t) (hp : Evolves g p t q) (hu : j.flags.use_caps = true) (hn : LastCap t n) : Jailed env g j n q := by
  obtain ⟨E, rfl⟩ := last_of h (.inl hu) hn
  exact jailed_of E hp

/-- A capability outside the requested mask is never in any of the capability sets again: not after executing a set-user-id program or a
program with file capabilities, not after becoming user 0. (The caller has not asked to leave SECURE_NOROOT or its lock alone.) -/
theorem C55_capabilities (h : Entered env j k t) (hp : Evolves g p t q) (hu : j.flags.use_caps = true) (hn : LastCap t n)
    (h0 : j.securebits_skip_mask.getLsbD 0 = false) (h1 : j.securebits_skip_mask.getLsbD 1 = false) (hr : Later q r) (i : Nat) (hi : i ≤ n)
    (hc : j.caps.getLsbD i = false) :
    r.eff.getLsbD i = false ∧ r.perm.getLsbD i = false ∧ r.inh.getLsbD i = false ∧ r.amb.getLsbD i = false ∧ r.bound.getLsbD i = false :=
  (stays_of (jailed h hp hu hn) hr).caps hu h0 h1 i hi hc

/-- The filter is never removed, and no_new_privs stays set. -/
theorem C55_filter (h : Entered env j k t) (hp : Evolves g p t q) (hr : Later q r) :
    (j.flags.seccomp_filter = true → env.asan = false → j.filter_prog ∈ r.filters) ∧ (j.flags.no_new_privs = true → r.noNewPrivs = true) := by
  obtain ⟨E⟩ := trace_of h
  have S := stays_of (jailed_of E hp) hr
  exact ⟨S.filter, S.noNewPrivs⟩

/-- With no_new_privs, a process that gave up CAP_SETUID stays the requested user. (User 4294967295: see C26.) -/
theorem C55_user_partial (h : Entered env j k t) (hp : Evolves g p t q) (hu : j.flags.use_caps = true) (hn : LastCap t n) (h7 : capSetuid ≤ n)
    (h0 : j.securebits_skip_mask.getLsbD 0 = false) (h1 : j.securebits_skip_mask.getLsbD 1 = false) (hnn : j.flags.no_new_privs = true)
    (hc : j.caps.getLsbD capSetuid = false) (hf : j.flags.uid = true) (hid : j.uid ≠ 4294967295#32) (hr : Later q r) : r.uid = j.uid :=
  (stays_of (jailed h hp hu hn) hr).user hu h0 h1 hnn h7 hc hf hid

/-- With no_new_privs, a process that gave up CAP_SETGID stays in the requested group and keeps exactly the supplementary groups it was given. -/
theorem C55_groups_partial (h : Entered env j k t) (hp : Evolves g p t q) (hu : j.flags.use_caps = true) (hn : LastCap t n) (h6 : capSetgid ≤ n)
    (h0 : j.securebits_skip_mask.getLsbD 0 = false) (h1 : j.securebits_skip_mask.getLsbD 1 = false) (hnn : j.flags.no_new_privs = true)
    (hc : j.caps.getLsbD capSetgid = false) (hr : Later q r) :
    (j.flags.gid = true → j.gid ≠ 4294967295#32 → r.gid = j.gid) ∧
    (j.flags.set_suppl_gids = true → r.groups = (j.suppl_gid_list.getD []).take j.suppl_gid_count) ∧
    (j.flags.inherit_suppl_gids = true → ∃ u, j.user = some u ∧ r.groups = g (some u) j.usergid) ∧
    (j.flags.set_suppl_gids = false → j.flags.inherit_suppl_gids = false → j.flags.keep_suppl_gids = false →
      j.flags.disable_setgroups = false → j.flags.uid = true ∨ j.flags.gid = true → r.groups = []) :=
  (stays_of (jailed h hp hu hn) hr).groups hu h0 h1 hnn h6 hc

/-- A program without privileges of its own that is executed in the jail has exactly the requested capabilities if they were made ambient, and
nothing beyond them otherwise, user 0 or not. (The caller has not asked to leave SECURE_NOROOT alone, and the library was built to know it.) -/
theorem C55_executed (h : Entered env j k t) (hp : Evolves g p t q) (hu : j.flags.use_caps = true) (hn : LastCap t n)
    (hk : env.secureAllBits.getLsbD 0 = true) (h0 : j.securebits_skip_mask.getLsbD 0 = false) (hr : PlainExec q r) (i : Nat) :
    (j.flags.set_ambient_caps = true → r.eff.getLsbD i = (j.caps.getLsbD i && decide (i ≤ n)) ∧ r.perm.getLsbD i = (j.caps.getLsbD i && decide (i ≤ n))) ∧
    (r.eff.getLsbD i = true ∨ r.perm.getLsbD i = true ∨ r.amb.getLsbD i = true → j.caps.getLsbD i = true ∧ i ≤ n) := by
  have J := jailed h hp hu hn
  obtain ⟨-, -, -, -, -, h5, -, -, -, h8⟩ := hr
  obtain ⟨c, d⟩ := h8 (by rw [J.noroot hu hk h0]; simp)
  rw [c, d, h5]
  exact ⟨fun ha => ⟨J.ambient hu ha i, J.ambient hu ha i⟩, fun hx => J.noAmbient hu i (by rcases hx with hx | hx | hx <;> exact hx)⟩

/-- The same for a program that `minijail_run` starts with the library: `q` is the process when `main` is called, `r` any time later. -/
theorem C55_run_partial (env : EnterEnv) (j : Jail) (hj : GoodJail j) (ht : Transferable j) (hf : j.filter_prog ≠ some []) (setid : Bool) (announced : Option Int)
    (writes : List WriteEv) (r1 r2 : ReadEv) (a : Addrs) (ha : ∀ n, a n ≠ 0#64) (hsz : minijailSize a j < 2 ^ 64) (kl : LandlockKernel) (k2 : Kernel)
    (t2 : List Ev) (h2 : MainCalled env j setid announced writes r1 r2 a kl k2 t2) (g : Option BStr → BitVec 32 → List (BitVec 32)) (p q r : Proc)
    (hp : Evolves g p t2 q) (hr : Later q r) :
    ∃ n : Nat, (j.flags.use_caps = true ∨ j.flags.capbset_drop = true → (Sys.lastCap, (n : Int)) ∈ t2) ∧ Stays env g j n r := by
  obtain ⟨n, hn, J⟩ := C47_jailed_partial env j hj ht hf setid announced writes r1 r2 a ha hsz kl k2 t2 h2 g p q hp
  exact ⟨n, hn, stays_of J hr⟩

/-- And for one that it starts without, when the jail has no hooks: `q` is the process when it calls `execve`. -/
theorem C55_run_direct_partial (env : EnterEnv) (j : Jail) (hh : j.hooks = []) (k : Kernel) (t : List Ev) (h : Executed env false j k t)
    (g : Option BStr → BitVec 32 → List (BitVec 32)) (p q r : Proc) (hp : Evolves g p t q) (hr : Later q r) :
    ∃ n : Nat, (j.flags.use_caps = true ∨ j.flags.capbset_drop = true → (Sys.lastCap, (n : Int)) ∈ t) ∧ Stays env g j n r := by
  obtain ⟨n, hn, J⟩ := C47_jailed_direct env j hh k t h g p q hp
  exact ⟨n, hn, stays_of J hr⟩

/-- What executing some program does: one of set-user-id root without no_new_privs. -/
private def suRoot (p : Proc) : Proc :=
  { p with uid := if p.noNewPrivs = true then p.uid else 0, gid := if p.noNewPrivs = true then p.gid else 0,
           eff := p.inh &&& (-1#64) ||| (-1#64) &&& p.bound ||| 0#64, perm := p.inh &&& (-1#64) ||| (-1#64) &&& p.bound ||| 0#64, amb := 0#64, securebits := 0#64 }

/-- The conditions are needed: with SECURE_NOROOT left alone at the caller's wish, the bounding set is left alone too, and executing a
set-user-id root program brings every capability back. -/
theorem C55_skip_needed : ∃ j t q r, Entered {} j obliging t ∧ Evolves oneGroup rootProc t q ∧ Later q r ∧ j.flags.use_caps = true ∧
    j.caps = 0x400#64 ∧ j.securebits_skip_mask = 1#64 ∧ r.eff = 0x1ffffffffff#64 ∧ j.uid = 1000#32 ∧ r.uid = 0#32 := by
  let jj : Jail := { minijailNew with flags := { uid := true, use_caps := true }, uid := 1000, caps := 0x400#64, securebits_skip_mask := 1#64 }
  refine ⟨jj, (minijailEnter {} jj obliging []).2, after rootProc (minijailEnter {} jj obliging []).2, suRoot _, ?_, evolves_after _ _,
    .step (.exec _ 0 0 (-1#64) (-1#64) 0#64 _ 0#64 (fun i h => by simp at h) (fun i h => h)) (.now _), rfl, rfl, rfl, ?_, rfl, ?_⟩
  · have h : ∀ x : Out Unit × List Ev, x.1 = .ok () → x = (.ok (), x.2) := by
      rintro ⟨a, b⟩ h; simp only at h; rw [h]
    exact h _ (by decide +kernel)
  · decide +kernel
  · decide +kernel

/-- The jail of the other examples, entered by root: user 1000, capability 10 only. Executing a set-user-id root program does not bring
CAP_SYS_ADMIN (21) back, nor does anything else, and the user stays. -/
example : LastCap richTrace 40 ∧ richJail.securebits_skip_mask = 0 ∧ richJail.caps.getLsbD capSetuid = false ∧
    Later (after rootProc richTrace) (suRoot (after rootProc richTrace)) ∧ (suRoot (after rootProc richTrace)).uid = 1000 ∧
    (suRoot (after rootProc richTrace)).perm = 0x400#64 := by
  refine ⟨by decide +kernel, rfl, by decide, ?_, by decide +kernel, by decide +kernel⟩
  exact .step (.exec _ 0 0 (-1#64) (-1#64) 0#64 _ 0#64 (fun i h => by simp at h) (fun i h => h)) (.now _)

example (r : Proc) (h : Later (after rootProc richTrace) r) : r.uid = 1000 ∧ r.eff.getLsbD 21 = false ∧ some [⟨6, 0, 0, 0⟩] ∈ r.filters :=
  ⟨C55_user_partial rich_entered (evolves_after _ _) rfl (by decide +kernel) (by decide : capSetuid ≤ 40) (by decide) (by decide) rfl (by decide) rfl (by decide) h,
    (C55_capabilities rich_entered (evolves_after _ _) rfl (by decide +kernel) (by decide) (by decide) h 21 (by decide : 21 ≤ 40) (by decide)).1,
    (C55_filter rich_entered (evolves_after _ _) h).1 rfl rfl⟩

/-- A program without privileges of its own keeps exactly capability 10. -/
example (r : Proc) (h : PlainExec (after rootProc richTrace) r) (i : Nat) : r.eff.getLsbD i = ((0x400#64 : BitVec 64).getLsbD i && decide (i ≤ 40)) :=
  ((C55_executed rich_entered (evolves_after _ _) rfl (by decide +kernel) (by decide) (by decide) h i).1 rfl).1

/-- And programs started in the jails of the examples, with the library and without. -/
example (q r : Proc) (hp : Evolves oneGroup rootProc (minijailEnter {} (minijailPreenter (received noLandlock runJail)) obliging []).2 q) (hr : Later q r) :
    ∃ n, Stays {} oneGroup runJail n r := by
  obtain ⟨n, -, h⟩ := C55_run_partial {} runJail (by constructor <;> decide +kernel) (by constructor <;> decide +kernel) (by decide +kernel) false (some 3)
    [.wrote 8, .wrote 65535] (.got 8) (.got 65535) (fun _ => 1#64) (fun _ => by decide) (by decide +kernel) noLandlock obliging _ runJail_main oneGroup
    rootProc q r hp hr
  exact ⟨n, h⟩

example (r : Proc) (hr : Later (after rootProc (runChild {} false richJail obliging []).2) r) : ∃ n, Stays {} oneGroup richJail n r := by
  have h : ∀ x : Out Unit × List Ev, x.1 = .ok () → x = (.ok (), x.2) := by
    rintro ⟨a, b⟩ h; simp only at h; rw [h]
  obtain ⟨n, -, h⟩ := C55_run_direct_partial {} richJail rfl obliging _ (h (runChild {} false richJail obliging []) (by decide +kernel)) oneGroup rootProc _ r
    (evolves_after _ _) hr
  exact ⟨n, h⟩

end Minijail
