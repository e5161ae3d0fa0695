import Verif.Proof.CliStep
import Verif.Spec.Cli
/-! The local variables of the front end tell which options were given. -/
set_option linter.unusedSimpArgs false
set_option autoImplicit false
namespace Minijail
open Spec

/-- The number of a label. -/
def Opt.num (o : Opt) : Nat := ((optNumbers.find? fun p => p.1 == o).map (·.2)).getD 0

theorem num_of {n : Nat} {o : Opt} (h : optOfNat n = some o) : n = o.num := by
  unfold optOfNat at h
  have key : ∀ p ∈ optNumbers, p.2 = p.1.num := by decide +kernel
  rw [Option.map_eq_some_iff] at h
  obtain ⟨p, hp, rfl⟩ := h
  have h1 := List.find?_some hp
  simp only [beq_iff_eq] at h1
  rw [← h1]
  exact key p (List.mem_of_find?_eq_some hp)

theorem opt_listed (o : Opt) : ∃ n, (o, n) ∈ optNumbers := by
  cases o <;> exact ⟨_, by simp [optNumbers]; rfl⟩

theorem num_inj : ∀ a b : Opt, a.num = b.num → a = b := by
  intro a b h
  have key : ∀ p ∈ optNumbers, optOfNat p.1.num = some p.1 := by decide +kernel
  obtain ⟨n, hn⟩ := opt_listed a
  obtain ⟨m, hm⟩ := opt_listed b
  have h1 := key _ hn
  have h2 := key _ hm
  dsimp only at h1 h2
  rw [h, h2] at h1
  simpa using h1.symm

/-- The option was given. -/
def Has (opts : Options) (o : Opt) : Prop := ∃ a, (o.num, a) ∈ opts

theorem has_append {opts : Options} {n : Nat} {o q : Opt} {a : Option CStr} (h : optOfNat n = some o) :
    Has (opts ++ [(n, a)]) q ↔ Has opts q ∨ o = q := by
  rw [num_of h]
  simp only [Has, List.mem_append, List.mem_singleton, Prod.mk.injEq]
  constructor
  · rintro ⟨b, hb | hb⟩
    · exact .inl ⟨b, hb⟩
    · exact .inr (num_inj _ _ hb.1.symm)
  · rintro (⟨b, hb⟩ | rfl)
    · exact ⟨b, .inl hb⟩
    · exact ⟨a, .inr ⟨rfl, rfl⟩⟩

/-- How often the option was given. -/
def count (opts : Options) (o : Opt) : Nat := (opts.filter fun p => p.1 == o.num).length

theorem count_append {opts : Options} {n : Nat} {o q : Opt} {a : Option CStr} (h : optOfNat n = some o) :
    count (opts ++ [(n, a)]) q = count opts q + if o = q then 1 else 0 := by
  rw [num_of h]
  simp only [count, List.filter_append, List.length_append, Nat.add_left_cancel_iff]
  by_cases e : o = q
  · subst e; simp [List.filter_cons]
  · have : (o.num == q.num) = false := by simpa using fun h => e (num_inj _ _ h)
    simp [List.filter_cons, this, e]

/-- What the local variables say. -/
structure LoopInv (c : Cli) : Prop where
  use_uid : count c.entries .u = if c.use_uid then 1 else 0
  use_gid : count c.entries .g = if c.use_gid then 1 else 0
  chroot : c.chroot = true ↔ Has c.entries .C
  pivot_root : c.pivot_root = true ↔ Has c.entries .P ∨ Has c.entries .profile
  one_root : ¬ (c.chroot = true ∧ c.pivot_root = true)
  inherit : c.inherit_suppl_gids = true ↔ Has c.entries .G
  keep : c.keep_suppl_gids = true ↔ Has c.entries .y
  one_groups : ¬ (c.inherit_suppl_gids = true ∧ c.keep_suppl_gids = true)
  strict : Has c.entries .s → c.seccomp = .strict
  filter : Has c.entries .S → c.seccomp = .filter
  binary : Has c.entries .seccompBpfBinary ↔ c.seccomp = .bpfBinary
  use_filter : c.use_seccomp_filter = true ↔ Has c.entries .S
  use_binary : c.use_seccomp_filter_binary = true ↔ Has c.entries .seccompBpfBinary
  log : c.use_seccomp_log = true ↔ Has c.entries .L
  log_binary : c.use_seccomp_log = true → c.seccomp ≠ .bpfBinary
  caps : c.caps = true ↔ Has c.entries .c
  ambient : c.use_ambient_caps = true ↔ Has c.entries .ambient
  binds : c.have_bind_mounts = true ↔ Has c.entries .b
  mount_ns : c.use_mount_ns = true ↔ Has c.entries .v
  remount : c.change_remount = true ↔ Has c.entries .K
  fs_used : c.fs_path_flag_used = true ↔ Has c.entries .fsDefaultPaths ∨ Has c.entries .fsPathRx ∨ Has c.entries .fsPathRo ∨ Has c.entries .fsPathRw ∨
    Has c.entries .fsPathAdvancedRw
  fs_enabled : c.fs_path_rules_enabled = true ↔ ¬ Has c.entries .noFsRestrictions
  suppl : c.suppl_gids ≠ [] ↔ Has c.entries .addSupplGroup
  uidmap : c.set_uidmap = true ↔ Has c.entries .m
  gidmap : c.set_gidmap = true ↔ Has c.entries .M
  signals : c.forward_signals = true ↔ ¬ Has c.entries .z
  exits : c.exit_immediately = true ↔ Has c.entries .i
  gen : c.parse_mode = true ↔ Has c.entries .genConfig

theorem loopInv_step {c c' : Cli} {n : Nat} {o : Opt} {a : Option CStr} (I : LoopInv c) (h : optOfNat n = some o)
    (E : Effect o { c with entries := c.entries ++ [(n, a)] } c') : LoopInv c' := by
  have e := E.entries
  dsimp only at e
  have hs : ∀ q, Has c'.entries q ↔ Has c.entries q ∨ o = q := fun q => by rw [e, has_append h]
  constructor
  case use_uid =>
    rw [e, count_append h, I.use_uid, E.use_uid]
    by_cases ho : o = .u
    · have := E.u_once ho; dsimp only at this; simp [ho, this]
    · simp [ho]
  case use_gid =>
    rw [e, count_append h, I.use_gid, E.use_gid]
    by_cases ho : o = .g
    · have := E.g_once ho; dsimp only at this; simp [ho, this]
    · simp [ho]
  case chroot => rw [hs, E.chroot, ← I.chroot]; simp
  case pivot_root =>
    have := I.pivot_root
    rw [hs, hs, E.pivot_root]; simp only [Bool.or_eq_true, decide_eq_true_eq, this]
    constructor
    · rintro (((h | h) | h) | h) <;> simp [h]
    · rintro ((h | h) | (h | h)) <;> simp [h]
  case one_root =>
    have h1 := E.no_pivot
    have h2 := E.no_chroot
    have := I.one_root
    rw [E.chroot, E.pivot_root]
    simp only [Bool.or_eq_true, decide_eq_true_eq] at *
    rintro ⟨hc | hc, (hp | hp) | hp⟩ <;> simp_all
  case inherit => rw [hs, E.inherit, ← I.inherit]; simp
  case keep => rw [hs, E.keep, ← I.keep]; simp
  case one_groups =>
    have h1 := E.no_keep
    have h2 := E.no_inherit
    have := I.one_groups
    rw [E.inherit, E.keep]
    simp only [Bool.or_eq_true, decide_eq_true_eq] at *
    rintro ⟨hc | hc, hp | hp⟩ <;> simp_all
  case strict =>
    rw [hs]
    have h0 := I.strict
    have h1 := E.seccomp_s
    have h2 := E.seccomp_S
    have h3 := E.seccomp_b
    have h4 := E.seccomp_other
    by_cases o1 : o = .s
    · exact fun _ => (h1 o1).2
    · by_cases o2 : o = .S
      · rintro (g | g)
        · have := (h2 o2).1; simp_all
        · exact absurd g o1
      · by_cases o3 : o = .seccompBpfBinary
        · rintro (g | g)
          · have := (h3 o3).1; simp_all
          · exact absurd g o1
        · rintro (g | g)
          · rw [h4 o1 o2 o3]; exact h0 g
          · exact absurd g o1
  case filter =>
    rw [hs]
    have h0 := I.filter
    have h1 := E.seccomp_s
    have h2 := E.seccomp_S
    have h3 := E.seccomp_b
    have h4 := E.seccomp_other
    by_cases o2 : o = .S
    · exact fun _ => (h2 o2).2
    · by_cases o1 : o = .s
      · rintro (g | g)
        · have := (h1 o1).1; simp_all
        · exact absurd g o2
      · by_cases o3 : o = .seccompBpfBinary
        · rintro (g | g)
          · have := (h3 o3).1; simp_all
          · exact absurd g o2
        · rintro (g | g)
          · rw [h4 o1 o2 o3]; exact h0 g
          · exact absurd g o2
  case binary =>
    rw [hs, I.binary]
    have h1 := E.seccomp_s
    have h2 := E.seccomp_S
    have h3 := E.seccomp_b
    have h4 := E.seccomp_other
    by_cases o3 : o = .seccompBpfBinary
    · exact ⟨fun _ => (h3 o3).2, fun _ => .inr o3⟩
    · by_cases o1 : o = .s
      · have := h1 o1; rcases this.1 with g | g <;> simp_all
      · by_cases o2 : o = .S
        · have := h2 o2; rcases this.1 with g | g <;> simp_all
        · rw [h4 o1 o2 o3]; simp [o3]
  case use_filter => rw [hs, E.filter, ← I.use_filter]; simp
  case use_binary => rw [hs, E.binary, ← I.use_binary]; simp
  case log => rw [hs, E.log, ← I.log]; simp
  case log_binary =>
    rw [E.log]
    have h0 := I.log_binary
    have h1 := E.seccomp_s
    have h2 := E.seccomp_S
    have h4 := E.seccomp_other
    have h5 := E.log_binary
    have h6 := E.binary_log
    by_cases o3 : o = .seccompBpfBinary
    · have := h6 o3; dsimp only at this; simp [this, o3]
    · by_cases o1 : o = .s
      · have := (h1 o1).2; simp [this]
      · by_cases o2 : o = .S
        · have := (h2 o2).2; simp [this]
        · rw [h4 o1 o2 o3]
          simp only [Bool.or_eq_true, decide_eq_true_eq]
          rintro (g | g)
          · exact h0 g
          · exact h5 g
  case caps => rw [hs, E.caps, ← I.caps]; simp
  case ambient => rw [hs, E.ambient, ← I.ambient]; simp
  case binds => rw [hs, E.binds, ← I.binds]; simp
  case mount_ns => rw [hs, E.mount_ns, ← I.mount_ns]; simp
  case remount => rw [hs, E.remount, ← I.remount]; simp
  case fs_used =>
    have := I.fs_used
    simp only [hs]
    rw [E.fs_used]
    dsimp only
    cases hq : c.fs_path_flag_used <;> simp only [hq, Bool.false_eq_true, false_iff, true_iff, not_or] at this
    · simp [this]
      simp only [or_assoc]
    · simp only [Bool.true_or, true_iff]
      rcases this with h | h | h | h | h <;> simp [h]
  case fs_enabled =>
    have := I.fs_enabled
    rw [hs, E.fs_enabled]; simp [this, not_or]
  case suppl =>
    have h1 := E.suppl
    have h2 := I.suppl
    rw [hs, ← h2, ne_eq, h1]
    dsimp only
    by_cases ho : o = .addSupplGroup <;> simp [ho]
  case uidmap => rw [hs, E.uidmap, ← I.uidmap]; simp
  case gidmap => rw [hs, E.gidmap, ← I.gidmap]; simp
  case signals => have := I.signals; rw [hs, E.signals]; simp [this, not_or]
  case exits => rw [hs, E.exits, ← I.exits]; simp
  case gen => rw [hs, E.parse_mode, ← I.gen]; simp

end Minijail
