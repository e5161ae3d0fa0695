import Verif.Proof.CliDone
import Verif.Proof.CliCarry
/-! What settling the options leaves in the jail. -/
set_option linter.unusedSimpArgs false
set_option autoImplicit false
namespace Minijail
open Spec

/-- Only the jail changed, by calls of the library, and only in these settings. -/
def Did (env : CliEnv) (G : List Setting) (c c' : Cli) : Prop := ∃ j', c' = { c with j := j' } ∧ Reach env c.j j' ∧ ∀ s, s ∉ G → Agree c.j j' s

theorem Did.refl (env : CliEnv) (G : List Setting) (c : Cli) : Did env G c c := ⟨c.j, rfl, Reach.refl _ _, fun s _ => AgreeAll.refl _ s⟩

theorem Did.trans {env : CliEnv} {G H : List Setting} {a b c : Cli} (h : Did env G a b) (h' : Did env H b c) : Did env (G ++ H) a c := by
  obtain ⟨j1, rfl, r1, a1⟩ := h
  obtain ⟨j2, rfl, r2, a2⟩ := h'
  refine ⟨j2, rfl, r1.trans r2, fun s hs => ?_⟩
  simp only [List.mem_append, not_or] at hs
  exact Agree.trans (a1 s hs.1) (a2 s hs.2)

theorem did_call {env : CliEnv} {c : Cli} {k : Call} {rc : Int} {j' : Jail} (hk : GoodCall env.api k) (e : call env.api c.j k = .ret rc j') :
    Did env (gives k) c { c with j := j' } :=
  ⟨j', rfl, (Reach.refl _ _).call hk e, fun s hs => C49_frame _ _ _ _ _ e s hs⟩

theorem did_lib {env : CliEnv} {c : Cli} {k : Call} {P : Cli → Prop} (hk : GoodCall env.api k)
    (n : ∀ c' rc, Did env (gives k) c c' → call env.api c.j k = .ret rc c'.j → P c') : (lib env c k).All P :=
  all_lib fun rc j e => n { c with j := j } rc (did_call hk e) e

theorem did_libMust {env : CliEnv} {c : Cli} {k : Call} {P : Cli → Prop} (hk : GoodCall env.api k)
    (n : ∀ c', Did env (gives k) c c' → call env.api c.j k = .ret 0 c'.j → P c') : (libMust env c k).All P :=
  all_libMust fun j e => n { c with j := j } (did_call hk e) e

theorem Did.more {env : CliEnv} {G H : List Setting} {a b : Cli} (h : Did env G a b) (hs : ∀ s ∈ G, s ∈ H) : Did env H a b := by
  obtain ⟨j1, e, r1, a1⟩ := h
  exact ⟨j1, e, r1, fun s h => a1 s fun q => h (hs s q)⟩

theorem Did.kept {env : CliEnv} {G : List Setting} {a b : Cli} (h : Did env G a b) (hj : Inv a.j) : Inv b.j ∧ Kept env.api.softfail a.j b.j := by
  obtain ⟨j1, rfl, r1, a1⟩ := h
  exact ⟨(reach_kept r1 hj).1, reach_keeps r1 hj⟩

theorem flags_of {env : ApiEnv} {j j' : Jail} {k : Call} {rc : Int} {f : Flags → Flags} (e : call env j k = .ret rc j') (hk : call env j k = setFlags j f) :
    j'.flags = f j.flags := by
  rw [hk] at e
  simp only [setFlags, ApiRes.ok, ApiRes.ret.injEq] at e
  rw [← e.2]

/-- The text of the uid map, minijail0_cli.c:328-344. -/
def uidText (env : CliEnv) (c : Cli) : BStr :=
  match c.uidmap with
  | some m => bytesOf m
  | none => buildIdmap c.uid env.uid

/-- The text of the gid map, minijail0_cli.c:345-368. -/
def gidText (env : CliEnv) (c : Cli) : BStr :=
  match c.gidmap with
  | some m => bytesOf m
  | none => buildIdmap c.gid env.gid

theorem call_uidmap {env : ApiEnv} {j j' : Jail} {m : BStr} (e : call env j (.uidmap m) = .ret 0 j') : j'.uidmap = some (mapLines m) ∧ j'.flags = j.flags := by
  simp only [call, setUidmap] at e
  split at e
  · simp [ENOMEM] at e
  · simp only [ApiRes.ok, ApiRes.ret.injEq, true_and] at e
    rw [← e]
    exact ⟨rfl, rfl⟩

theorem call_gidmap {env : ApiEnv} {j j' : Jail} {m : BStr} (e : call env j (.gidmap m) = .ret 0 j') : j'.gidmap = some (mapLines m) ∧ j'.flags = j.flags := by
  simp only [call, setGidmap] at e
  split at e
  · simp [ENOMEM] at e
  · simp only [ApiRes.ok, ApiRes.ret.injEq, true_and] at e
    rw [← e]
    exact ⟨rfl, rfl⟩

theorem final_uid {env : CliEnv} {c : Cli} : (setUidMapping env c).All fun c' => Did env [.uidmap] c c' ∧
    (c.set_uidmap = true → c'.j.uidmap = some (mapLines (uidText env c)) ∧ c'.j.flags.userns = true ∧ c'.j.flags.pids = true) ∧
    (c.set_uidmap = false → c' = c) := by
  unfold setUidMapping
  split
  · next h =>
    refine all_bind (did_lib trivial fun c1 _ d1 e1 => all_bind (did_lib trivial fun c2 _ d2 e2 => did_libMust trivial fun c3 d3 e3 => ⟨?_, fun _ => ?_, fun q => by simp [h] at q⟩))
    · exact ((d1.trans d2).trans d3).more fun s hs => hs
    · have k1 := flags_of (f := fun f => { f with userns := true }) e1 rfl
      have k2 := flags_of (f := fun f => { f with vfs := true, remount_proc_ro := true, pids := true, do_init := true }) e2 rfl
      obtain ⟨h1, h2⟩ := call_uidmap e3
      refine ⟨?_, ?_, ?_⟩
      · rw [h1]
        obtain ⟨j1, rfl, _⟩ := d1
        obtain ⟨j2, rfl, _⟩ := d2
        rfl
      · rw [h2, k2, k1]
      · rw [h2, k2]
  · next h => exact ⟨Did.refl _ _ _, fun q => absurd q h, fun _ => rfl⟩

theorem final_gid {env : CliEnv} {c : Cli} (hj : Inv c.j) : (setGidMapping env c).All fun c' => Did env [.gidmap] c c' ∧
    (c.set_gidmap = true → c'.j.gidmap = some (mapLines (gidText env c)) ∧ c'.j.flags.userns = true ∧ c'.j.flags.pids = true ∧
      (env.setgidCap = false → c'.j.flags.disable_setgroups = true)) ∧
    (c.set_gidmap = false → c' = c) := by
  unfold setGidMapping
  split
  · next h =>
    have hd : ∀ c, (maybeDisableSetgroups env c).All fun c' => Did env [] c c' ∧ (env.setgidCap = false → c'.j.flags.disable_setgroups = true) := by
      intro c
      unfold maybeDisableSetgroups
      split
      · next h => exact ⟨Did.refl _ _ _, fun q => by simp [h] at q⟩
      · refine did_lib trivial fun c1 _ d1 e1 => ⟨d1, fun _ => ?_⟩
        rw [flags_of (f := fun f => { f with disable_setgroups := true }) e1 rfl]
    refine all_bind (did_lib trivial fun c1 _ d1 e1 => all_bind (did_lib trivial fun c2 _ d2 e2 => all_bind (all_mono (hd c2) ?_)))
    rintro c2' ⟨d2', hs⟩
    refine did_libMust trivial fun c3 d3 e3 => ⟨?_, fun _ => ?_, fun q => by simp [h] at q⟩
    · exact (((d1.trans d2).trans d2').trans d3).more fun s hs => hs
    · have k1 := flags_of (f := fun f => { f with userns := true }) e1 rfl
      have k2 := flags_of (f := fun f => { f with vfs := true, remount_proc_ro := true, pids := true, do_init := true }) e2 rfl
      have i2 := (d1.trans d2).kept hj
      have k3 := (d2'.kept i2.1).2.flags
      obtain ⟨h1, h2⟩ := call_gidmap e3
      refine ⟨?_, ?_, ?_, ?_⟩
      · rw [h1]
        obtain ⟨j1, rfl, _⟩ := d1
        obtain ⟨j2, rfl, _⟩ := d2
        obtain ⟨j2', rfl, _⟩ := d2'
        rfl
      · rw [h2]; exact k3.userns (by rw [k2, k1])
      · rw [h2]; exact k3.pids (by rw [k2])
      · rw [h2]; exact hs
  · next h => exact ⟨Did.refl _ _ _, fun q => absurd q h, fun _ => rfl⟩

theorem final_signals {env : CliEnv} {c : Cli} : (settleSignals env c).All fun c' => Did env [] c c' ∧ (c.forward_signals = true → c'.j.flags.forward_signals = true) := by
  unfold settleSignals
  split
  · refine did_lib trivial fun c1 _ d1 e1 => ⟨d1, fun _ => ?_⟩
    rw [flags_of (f := fun f => { f with forward_signals := true }) e1 rfl]
  · next h => exact ⟨Did.refl _ _ _, fun q => absurd q h⟩

/-- What -K sets, minijail0_cli.c:420-434 and 1407-1414. -/
def modeOf (m : Option CStr) : Option (BitVec 64) :=
  match m with
  | none => some 0#64
  | some m =>
    if m = "shared".toList then some MS_SHARED else if m = "private".toList then some MS_PRIVATE else if m = "slave".toList then some MS_SLAVE
    else if m = "unbindable".toList then some MS_UNBINDABLE else none

theorem final_remount {env : CliEnv} {c : Cli} : (settleRemount env c).All fun c' => Did env [.propagation] c c' ∧
    (c.change_remount = true → modeOf c.remount_mode = some c'.j.remount_mode) ∧ (c.change_remount = false → c' = c) := by
  unfold settleRemount
  split
  · next h =>
    have key : ∀ m, (lib env c (.remountMode m)).All fun c' => Did env [.propagation] c c' ∧ c'.j.remount_mode = m := by
      intro m
      refine did_lib trivial fun c1 _ d1 e1 => ⟨d1, ?_⟩
      simp only [call, ApiRes.ok, ApiRes.ret.injEq] at e1
      rw [← e1.2]
    split
    · next m hm =>
      unfold setRemountMode
      rw [hm]
      unfold modeOf
      dsimp only
      (repeat' split) <;> first
        | trivial
        | (refine all_mono (key _) ?_; rintro c' ⟨d, e⟩; exact ⟨d, fun _ => by rw [e], fun q => by simp [h] at q⟩)
    · next hm =>
      rw [hm]
      refine did_lib trivial fun c1 _ d1 e1 => ⟨d1, fun _ => ?_, fun q => by simp [h] at q⟩
      simp only [call, ApiRes.ok, ApiRes.ret.injEq] at e1
      rw [← e1.2]; rfl
  · next h => exact ⟨Did.refl _ _ _, fun q => absurd q h, fun _ => rfl⟩

theorem final_groups {env : CliEnv} {c : Cli} : (settleGroups env c).All fun c' => Did env [.groups] c c' ∧
    (c.suppl_gids ≠ [] → c'.j.flags.set_suppl_gids = true ∧ c'.j.suppl_gid_list = some c.suppl_gids ∧ c'.j.suppl_gid_count = c.suppl_gids.length) ∧
    (c.suppl_gids = [] → c' = c) := by
  unfold settleGroups
  split
  · next h =>
    refine did_lib trivial fun c1 _ d1 e1 => ⟨d1, fun _ => ?_, fun q => absurd q h⟩
    simp only [call, setSupplementaryGids] at e1
    repeat' split at e1
    all_goals try (simp at e1; done)
    · next h' => exact absurd (List.eq_nil_of_length_eq_zero h') h
    · simp only [ApiRes.ok, ApiRes.ret.injEq] at e1
      rw [← e1.2]
      exact ⟨rfl, rfl, rfl⟩
  · next h => exact ⟨Did.refl _ _ _, fun q => absurd q h, fun _ => rfl⟩

theorem final_file {env : CliEnv} {c : Cli} {p : CStr} : (setSeccompFile env c p).All fun c' => Did env [.filter] c c' ∧
    ∃ prog rc, env.bpfFile p = some (prog, 0) ∧ call env.api c.j (.setSeccompFilters (prog.take (prog.length % 65536))) = .ret rc c'.j := by
  unfold setSeccompFile
  split
  · trivial
  · split
    · trivial
    · next prog extra hb hx =>
      refine did_lib ?_ fun c1 rc d1 e1 => ⟨d1, prog, rc, ?_, e1⟩
      · show (prog.take (prog.length % 65536)).length ≤ 65535
        rw [List.length_take]
        omega
      · rw [hb]; simp at hx; rw [hx]

theorem final_tmp {env : CliEnv} {c : Cli} : (settleTmp env c).All fun c' => Did env [.tmpSize] c c' ∧
    (c.tmp_size ≠ 0#64 → c'.j.flags.mount_tmp = true ∧ c'.j.tmpfs_size = c.tmp_size) ∧ (c.tmp_size = 0#64 → c' = c) := by
  unfold settleTmp
  split
  · next h =>
    refine did_lib trivial fun c1 _ d1 e1 => ⟨d1, fun _ => ?_, fun q => absurd q h⟩
    simp only [call, ApiRes.ok, ApiRes.ret.injEq] at e1
    rw [← e1.2]
    exact ⟨rfl, rfl⟩
  · next h => exact ⟨Did.refl _ _ _, fun q => absurd q h, fun _ => rfl⟩

/-- The filter is the one of the policy or of the file. -/
def FilterFrom (env : CliEnv) (c : Cli) (j' : Jail) : Prop :=
  ∃ j1 rc k, call env.api j1 k = .ret rc j' ∧
    ((c.use_seccomp_filter = true ∧ k = .parseSeccompFilters (bytesOf c.filter_path)) ∨
     (c.use_seccomp_filter = false ∧ c.use_seccomp_filter_binary = true ∧ ∃ prog, env.bpfFile c.filter_path = some (prog, 0) ∧
       k = .setSeccompFilters (prog.take (prog.length % 65536))))

theorem final_seccomp {env : CliEnv} {c : Cli} (he : GoodCliEnv env) (hp : IsText c.filter_path) : (settleSeccomp env c).All fun c' => Did env [.filter] c c' ∧
    (c.use_seccomp_filter = true ∨ c.use_seccomp_filter_binary = true → FilterFrom env c c'.j) ∧
    (c.use_seccomp_filter = false → c.use_seccomp_filter_binary = false → c.j.flags.enable_default_runtime = false → c' = c) ∧
    (c.use_seccomp_filter = false → c.use_seccomp_filter_binary = false → c.j.flags.enable_default_runtime = true → c'.j.flags.no_new_privs = true) := by
  unfold settleSeccomp
  split
  · next h =>
    refine did_lib ⟨text_bytes hp, he.compiled _⟩ fun c1 rc d1 e1 => ⟨d1, fun _ => ⟨c.j, rc, _, e1, .inl ⟨h, rfl⟩⟩, by simp [h], by simp [h]⟩
  · next h =>
    have h : c.use_seccomp_filter = false := by simpa using h
    split
    · next h2 =>
      refine all_mono final_file ?_
      rintro c' ⟨d, prog, rc, hb, e⟩
      exact ⟨d, fun _ => ⟨c.j, rc, _, e, .inr ⟨h, h2, prog, hb, rfl⟩⟩, by simp [h2], by simp [h2]⟩
    · next h2 =>
      have hd : (defaultSeccomp env c).All fun c' => Did env [.filter] c c' := by
        unfold defaultSeccomp
        split
        · refine all_bind (did_lib trivial fun c1 rc d1 e1 => all_mono final_file ?_)
          rintro c' ⟨d, _⟩
          exact (d1.trans d).more fun s hs => hs
        · exact Did.refl _ _ _
      split
      · next h3 =>
        refine all_bind (all_mono hd fun c1 d1 => did_lib trivial fun c2 rc d2 e2 => ⟨(d1.trans d2).more fun s hs => hs, by simp [h, h2], by simp [h3], ?_⟩)
        intro _ _ _
        rw [flags_of (f := fun f => { f with no_new_privs := true }) e2 rfl]
      · next h3 => exact ⟨Did.refl _ _ _, by simp [h, h2], fun _ _ _ => rfl, fun _ _ q => absurd q h3⟩

/-- What settling the options leaves in the jail. -/
structure Final (env : CliEnv) (c : Cli) (j' : Jail) : Prop where
  reach : Reach env c.j j'
  same : ∀ s, s ∉ [Setting.uidmap, .gidmap, .propagation, .groups, .filter, .tmpSize, .rules] → Agree c.j j' s
  uidmap : c.set_uidmap = true → j'.uidmap = some (mapLines (uidText env c)) ∧ j'.flags.userns = true ∧ j'.flags.pids = true
  no_uidmap : c.set_uidmap = false → Agree c.j j' .uidmap
  gidmap : c.set_gidmap = true → j'.gidmap = some (mapLines (gidText env c)) ∧ j'.flags.userns = true ∧ j'.flags.pids = true ∧
    (env.setgidCap = false → j'.flags.disable_setgroups = true)
  no_gidmap : c.set_gidmap = false → Agree c.j j' .gidmap
  signals : c.forward_signals = true → j'.flags.forward_signals = true
  remount : c.change_remount = true → modeOf c.remount_mode = some j'.remount_mode
  no_remount : c.change_remount = false → Agree c.j j' .propagation
  groups : c.suppl_gids ≠ [] → j'.flags.set_suppl_gids = true ∧ j'.suppl_gid_list = some c.suppl_gids ∧ j'.suppl_gid_count = c.suppl_gids.length
  no_groups : c.suppl_gids = [] → Agree c.j j' .groups
  filter : c.use_seccomp_filter = true ∨ c.use_seccomp_filter_binary = true → ∃ j1, FilterFrom env c j1 ∧ Agree j1 j' .filter
  default_runtime : c.use_seccomp_filter = false → c.use_seccomp_filter_binary = false → c.j.flags.enable_default_runtime = true → env.api.softfail = false →
    j'.flags.no_new_privs = true
  tmp : c.tmp_size ≠ 0#64 → j'.flags.mount_tmp = true ∧ j'.tmpfs_size = c.tmp_size
  no_tmp : c.tmp_size = 0#64 → Agree c.j j' .tmpSize
  rules : ∃ j7, Agree c.j j7 .rules ∧ Agree c.j j7 .mounts ∧ j' = addMinimalisticMountnsFsRules env.api j7

theorem Spec.Agree.also {j j' j'' : Jail} {s : Setting} (h : Agree j j' s) (h' : Agree j' j'' s) : Agree j j'' s := Agree.trans h h'

theorem settle_final {env : CliEnv} {c : Cli} (he : GoodCliEnv env) (hp : IsText c.filter_path) (hj : Inv c.j) :
    (settle env c).All fun c' => ∃ j' e, c' = { c with j := j', envp := e } ∧ e = some (c.envp.getD (minijailCopyEnv (some env.environ))) ∧ Final env c j' := by
  unfold settle
  refine all_bind (all_mono final_uid ?_)
  rintro c1 ⟨d1, f1, g1⟩
  have i1 := d1.kept hj
  refine all_bind (all_mono (final_gid i1.1) ?_)
  rintro c2 ⟨d2, f2, g2⟩
  have i2 := d2.kept i1.1
  refine all_bind (all_refuse fun _ => all_bind (all_mono final_signals ?_))
  rintro c3 ⟨d3, f3⟩
  have i3 := d3.kept i2.1
  refine all_bind (all_refuse fun _ => all_bind (all_refuse fun _ => all_bind (all_mono final_remount ?_)))
  rintro c4 ⟨d4, f4, g4⟩
  have i4 := d4.kept i3.1
  refine all_bind (all_mono final_groups ?_)
  rintro c5 ⟨d5, f5, g5⟩
  have i5 := d5.kept i4.1
  have d15 := (((d1.trans d2).trans d3).trans d4).trans d5
  have hp5 : IsText c5.filter_path := by
    obtain ⟨_, rfl, _⟩ := d15
    exact hp
  refine all_bind (all_mono (final_seccomp he hp5) ?_)
  rintro c6 ⟨d6, f6, g6, h6⟩
  have i6 := d6.kept i5.1
  refine all_bind (all_mono final_tmp ?_)
  rintro c7 ⟨d7, f7, g7⟩
  have i7 := d7.kept i6.1
  refine all_bind (did_lib trivial fun c8 _ d8 e8 => all_pure ?_)
  have i8 := d8.kept i7.1
  have a8 : ∀ s, s ≠ .rules → Agree c7.j c8.j s := fun s hs => by obtain ⟨_, rfl, _, a⟩ := d8; exact a s fun h => hs (List.mem_singleton.1 h)
  obtain ⟨j1, rfl, r1, a1⟩ := d1
  obtain ⟨j2, rfl, r2, a2⟩ := d2
  obtain ⟨j3, rfl, r3, a3⟩ := d3
  obtain ⟨j4, rfl, r4, a4⟩ := d4
  obtain ⟨j5, rfl, r5, a5⟩ := d5
  obtain ⟨j6, rfl, r6, a6⟩ := d6
  obtain ⟨j7, rfl, r7, a7⟩ := d7
  obtain ⟨j8, rfl, r8, _⟩ := d8
  dsimp only at *
  have k28 := (i3.2.trans i4.2).trans (i5.2.trans (i6.2.trans (i7.2.trans i8.2)))
  have k38 := i4.2.trans (i5.2.trans (i6.2.trans (i7.2.trans i8.2)))
  have b : ∀ (s : Setting), s ≠ .filter → s ≠ .tmpSize → s ≠ .rules → Agree j5 j8 s := fun s n1 n2 n3 =>
    ((a6 s (by simpa using n1)).also (a7 s (by simpa using n2))).also (a8 s n3)
  have b2 : ∀ (s : Setting), s ≠ .propagation → s ≠ .groups → s ≠ .filter → s ≠ .tmpSize → s ≠ .rules → Agree j2 j8 s := fun s n1 n2 n3 n4 n5 =>
    (((a3 s (by simp)).also (a4 s (by simpa using n1))).also (a5 s (by simpa using n2))).also (b s n3 n4 n5)
  refine ⟨j8, _, rfl, rfl, ?_⟩
  refine
    { reach := ((r1.trans r2).trans (r3.trans r4)).trans ((r5.trans r6).trans (r7.trans r8))
      same := ?_, uidmap := ?_, no_uidmap := ?_, gidmap := ?_, no_gidmap := ?_, signals := ?_, remount := ?_, no_remount := ?_, groups := ?_, no_groups := ?_,
      filter := ?_, default_runtime := ?_, tmp := ?_, no_tmp := ?_, rules := ?_ }
  · intro s hs
    simp only [List.mem_cons, not_or, List.not_mem_nil, not_false_eq_true, and_true] at hs
    obtain ⟨n1, n2, n3, n4, n5, n6, n7⟩ := hs
    exact ((a1 s (by simpa using n1)).also (a2 s (by simpa using n2))).also (b2 s n3 n4 n5 n6 n7)
  · intro q
    obtain ⟨h1, h2, h3⟩ := f1 q
    have k := (i2.2.trans k28).flags
    refine ⟨?_, k.userns h2, k.pids h3⟩
    have e1 : j2.uidmap = j1.uidmap := a2 .uidmap (by simp)
    have e2 : j8.uidmap = j2.uidmap := b2 .uidmap (by simp) (by simp) (by simp) (by simp) (by simp)
    rw [e2, e1, h1]
  · intro q
    have := g1 q
    have e0 : c.j = j1 := by rw [← this]
    rw [e0]
    exact (a2 .uidmap (by simp)).also (b2 .uidmap (by simp) (by simp) (by simp) (by simp) (by simp))
  · intro q
    obtain ⟨h1, h2, h3, h4⟩ := f2 q
    have k := k28.flags
    refine ⟨?_, k.userns h2, k.pids h3, fun q => k.disable_setgroups (h4 q)⟩
    have e2 : j8.gidmap = j2.gidmap := b2 .gidmap (by simp) (by simp) (by simp) (by simp) (by simp)
    rw [e2, h1]
    rfl
  · intro q
    have := g2 q
    have e0 : j1 = j2 := by simpa using (congrArg Cli.j this).symm
    refine (a1 .gidmap (by simp)).also ?_
    rw [e0]
    exact b2 .gidmap (by simp) (by simp) (by simp) (by simp) (by simp)
  · intro q
    exact k38.flags.forward_signals (f3 q)
  · intro q
    have e1 : j5.remount_mode = j4.remount_mode := a5 .propagation (by simp)
    have e2 : j8.remount_mode = j5.remount_mode := b .propagation (by simp) (by simp) (by simp)
    rw [e2, e1]; exact f4 q
  · intro q
    have := g4 q
    have e0 : j3 = j4 := by simpa using (congrArg Cli.j this).symm
    refine (a1 .propagation (by simp)).also ((a2 .propagation (by simp)).also ((a3 .propagation (by simp)).also ?_))
    rw [e0]
    exact (a5 .propagation (by simp)).also (b .propagation (by simp) (by simp) (by simp))
  · intro q
    obtain ⟨h1, h2, h3⟩ := f5 q
    have k := (i6.2.trans (i7.2.trans i8.2)).flags
    have e2 : j8.suppl_gid_list = j5.suppl_gid_list ∧ j8.suppl_gid_count = j5.suppl_gid_count := b .groups (by simp) (by simp) (by simp)
    exact ⟨k.set_suppl_gids h1, by rw [e2.1, h2], by rw [e2.2, h3]⟩
  · intro q
    have := g5 q
    have e0 : j4 = j5 := by simpa using (congrArg Cli.j this).symm
    refine (a1 .groups (by simp)).also ((a2 .groups (by simp)).also ((a3 .groups (by simp)).also ((a4 .groups (by simp)).also ?_)))
    rw [e0]
    exact b .groups (by simp) (by simp) (by simp)
  · intro q
    exact ⟨j6, f6 q, (a7 .filter (by simp)).also (a8 .filter (by simp))⟩
  · intro q1 q2 q3 q4
    have hk : j5.flags.enable_default_runtime = true := by
      have e1 : j5.flags.enable_default_runtime = c.j.flags.enable_default_runtime :=
        ((a1 .runtime (by simp)).also ((a2 .runtime (by simp)).also ((a3 .runtime (by simp)).also ((a4 .runtime (by simp)).also (a5 .runtime (by simp))))) :
          Agree c.j j5 .runtime)
      rw [e1]; exact q3
    exact ((i7.2.trans i8.2).seccomp q4).no_new_privs (h6 q1 q2 hk)
  · intro q
    obtain ⟨h1, h2⟩ := f7 q
    have e2 : j8.tmpfs_size = j7.tmpfs_size := a8 .tmpSize (by simp)
    exact ⟨i8.2.flags.mount_tmp h1, by rw [e2, h2]⟩
  · intro q
    have := g7 q
    have e0 : j6 = j7 := by simpa using (congrArg Cli.j this).symm
    refine (a1 .tmpSize (by simp)).also ((a2 .tmpSize (by simp)).also ((a3 .tmpSize (by simp)).also ((a4 .tmpSize (by simp)).also ((a5 .tmpSize (by simp)).also
      ((a6 .tmpSize (by simp)).also ?_)))))
    rw [e0]
    exact a8 .tmpSize (by simp)
  · refine ⟨j7, ?_, ?_, ?_⟩
    · exact (a1 .rules (by simp)).also ((a2 .rules (by simp)).also ((a3 .rules (by simp)).also ((a4 .rules (by simp)).also ((a5 .rules (by simp)).also
        ((a6 .rules (by simp)).also (a7 .rules (by simp)))))))
    · exact (a1 .mounts (by simp)).also ((a2 .mounts (by simp)).also ((a3 .mounts (by simp)).also ((a4 .mounts (by simp)).also ((a5 .mounts (by simp)).also
        ((a6 .mounts (by simp)).also (a7 .mounts (by simp)))))))
    · simp only [call, ApiRes.ok, ApiRes.ret.injEq] at e8
      exact e8.2.symm

end Minijail
