import Verif.Spec.Process
import Verif.Spec.Enter
/-! A jail, a system and a process for the examples about entering a jail. -/
set_option autoImplicit false
namespace Minijail
open Spec

/-- A system that grants every request, knows 41 capabilities and mounts everything nosuid. -/
def obliging : Kernel := fun _ c =>
  match c with
  | .lastCap => 40
  | .keyring => 77
  | .openDir _ => 5
  | .mountFlags _ => 2
  | .validBind _ => 1
  | _ => 0

/-- Most restrictions at once. -/
def richFlags : Flags :=
  { uid := true, gid := true, use_caps := true, set_ambient_caps := true, capbset_drop := true, vfs := true, ipc := true, net := true,
    chroot := true, mount_tmp := true, remount_proc_ro := true, mount_dev := true, no_new_privs := true, seccomp_filter := true,
    set_suppl_gids := true }

/-- User 1000, group 2000, CAP_NET_BIND_SERVICE (10) as an ambient capability, a bounding set, a new root directory, two mounts, a private
/tmp, a read-only /proc, a filter. -/
def richJail : Jail :=
  { minijailNew with
    flags := richFlags
    uid := 1000, gid := 2000, caps := 0x400#64, cap_bset := 0xfff#64, remount_mode := MS_PRIVATE
    chrootdir := some (bstr "/jail")
    suppl_gid_list := some [30, 31, 32], suppl_gid_count := 2
    mounts := [⟨bstr "/usr", bstr "/usr", bstr "minijail_bind", none, MS_BIND ||| MS_RDONLY⟩, ⟨bstr "none", bstr "/dev/shm", bstr "tmpfs", none, 6⟩]
    filter_prog := some [⟨6, 0, 0, 0⟩] }

/-- The requests made for it. -/
def richTrace : List Ev := (minijailEnter {} richJail obliging []).2

theorem rich_entered : Spec.Entered {} richJail obliging richTrace := by
  have h : ∀ x : Out Unit × List Ev, x.1 = .ok () → x = (.ok (), x.2) := by
    rintro ⟨a, b⟩ h; simp only at h; rw [h]
  exact h _ (by decide +kernel)

/-- A group database: everybody is in group 100 and the given group. -/
def oneGroup : Option BStr → BitVec 32 → List (BitVec 32) := fun _ g => [g, 100]

/-- One way for a process to change by a granted request: leaving user 0 takes all capabilities away, hooks change nothing. -/
def grant (p : Proc) : Sys → Proc
  | .setresuid u => { p with uid := changedId p.uid u, eff := 0#64, perm := 0#64, amb := 0#64 }
  | .setresgid g => { p with gid := changedId p.gid g }
  | .setgroups l => { p with groups := l }
  | .initgroups u g => { p with groups := oneGroup u g }
  | .capset e pm i => { p with eff := e, perm := pm, inh := i, amb := p.amb &&& pm &&& i }
  | .dropBound i => { p with bound := p.bound &&& ~~~BitVec.twoPow 64 i }
  | .ambientClear => { p with amb := 0#64 }
  | .ambientRaise i => { p with amb := p.amb ||| BitVec.twoPow 64 i }
  | .setSecurebits b => { p with securebits := b }
  | .noNewPrivs => { p with noNewPrivs := true }
  | .seccompFilter _ _ f => { p with filters := f :: p.filters }
  | _ => p

/-- The process after all requests. -/
def after (p : Proc) : List Ev → Proc
  | [] => p
  | e :: t => after (if 0 ≤ e.2 then grant p e.1 else p) t

theorem granted_grant (p : Proc) (c : Sys) : Granted oneGroup p c (grant p c) := by
  cases c <;> first | exact rfl | exact trivial | exact ⟨_, _, _, rfl⟩

theorem evolves_after (t : List Ev) : ∀ p, Evolves oneGroup p t (after p t) := by
  induction t with
  | nil => intro p; exact .nil p
  | cons e t ih =>
    intro p
    refine .cons ?_ (ih _)
    by_cases h : 0 ≤ e.2
    · rw [if_pos h]; exact .inl ⟨h, granted_grant _ _⟩
    · rw [if_neg h]; exact .inr ⟨by omega, .inl rfl⟩

/-- Root with everything, in groups 0 and 27. -/
def rootProc : Proc := ⟨0, 0, [0, 27], 0x1ffffffffff#64, 0x1ffffffffff#64, 0#64, 0#64, 0x1ffffffffff#64, 0#64, false, []⟩

end Minijail
