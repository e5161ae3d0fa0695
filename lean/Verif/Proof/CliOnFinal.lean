import Verif.Proof.CliOn
import Verif.Proof.CliLocals
import Verif.Proof.CliValues
/-! What the front end turns on and off behind the options. -/
set_option linter.unusedSimpArgs false
set_option autoImplicit false
namespace Minijail
open Spec

/-- The local variables are as before, and nothing but `G` was turned on, nothing but `L` off. -/
def Sets (G L : List Feature) (c c' : Cli) : Prop := ∃ j', c' = { c with j := j' } ∧ Switched G L c.j j'

theorem Sets.refl (G L : List Feature) (c : Cli) : Sets G L c c := ⟨c.j, rfl, .refl _ _ _⟩

theorem Sets.trans {G L : List Feature} {a b c : Cli} (h : Sets G L a b) (h' : Sets G L b c) : Sets G L a c := by
  obtain ⟨j1, rfl, s1⟩ := h
  obtain ⟨j2, rfl, s2⟩ := h'
  exact ⟨j2, rfl, s1.trans s2⟩

theorem sets_lib {env : CliEnv} {c : Cli} {k : Call} {G L : List Feature} (hg : ∀ f ∈ turnsOn k, f ∈ G) (hl : ∀ f ∈ turnsOff env.api.softfail k, f ∈ L) :
    (lib env c k).All (Sets G L c) := all_lib fun _ j' e => ⟨j', rfl, (switched_ret e).more hg hl⟩

theorem sets_libMust {env : CliEnv} {c : Cli} {k : Call} {G L : List Feature} (hg : ∀ f ∈ turnsOn k, f ∈ G) (hl : ∀ f ∈ turnsOff env.api.softfail k, f ∈ L) :
    (libMust env c k).All (Sets G L c) := all_libMust fun j' e => ⟨j', rfl, (switched_ret e).more hg hl⟩

/-- What goes off where filters may be left out. -/
def filterFeatures : List Feature := [.seccomp_filter, .seccomp_filter_tsync, .seccomp_filter_logging, .seccomp_filter_allow_speculation, .no_new_privs]

theorem off_filters (b : Bool) : ∀ f ∈ (if b then [Feature.seccomp_filter, .seccomp_filter_tsync, .seccomp_filter_logging, .seccomp_filter_allow_speculation, .no_new_privs]
    else [.seccomp_filter_allow_speculation]), f ∈ filterFeatures := by
  cases b <;> decide

/-- A user namespace goes with a pid namespace. -/
def mapFeatures : List Feature := [.userns, .pids, .vfs, .remount_proc_ro, .do_init]

/-- What the front end turns on behind the options. -/
structure SettleOn (env : CliEnv) (c : Cli) (f : Feature) : Prop where
  why : (c.set_uidmap = true ∧ f ∈ mapFeatures) ∨ (c.set_gidmap = true ∧ (f ∈ mapFeatures ∨ (f = .disable_setgroups ∧ env.setgidCap = false))) ∨
    (c.forward_signals = true ∧ f = .forward_signals) ∨ (c.suppl_gids ≠ [] ∧ f = .set_suppl_gids) ∨
    (c.use_seccomp_filter = false ∧ c.use_seccomp_filter_binary = false ∧ c.j.flags.enable_default_runtime = true ∧
      (f = .no_new_privs ∨ (f = .seccomp_filter ∧ env.defaultPolicy = true))) ∨
    (c.tmp_size ≠ 0#64 ∧ f = .mount_tmp)

/-- One part of it. -/
def Part (G : Feature → Prop) (c c' : Cli) : Prop :=
  ∃ j', c' = { c with j := j' } ∧ (∀ f, On f j' → On f c.j ∨ G f) ∧ (∀ f, On f c.j → On f j' ∨ f ∈ filterFeatures)

theorem Sets.part {H : List Feature} {G : Feature → Prop} {c c' : Cli} (h : Sets H filterFeatures c c') (hg : ∀ f ∈ H, G f) : Part G c c' := by
  obtain ⟨j', rfl, s⟩ := h
  exact ⟨j', rfl, fun f hf => (s.1 f hf).imp id (hg f), s.2⟩

theorem Part.refl (G : Feature → Prop) (c : Cli) : Part G c c := ⟨c.j, rfl, fun _ h => .inl h, fun _ h => .inl h⟩

theorem Part.trans {G H : Feature → Prop} {a b c : Cli} (h : Part G a b) (h' : Part H b c) (hk : ∀ f, G f → H f) : Part H a c := by
  obtain ⟨j1, rfl, s1, t1⟩ := h
  obtain ⟨j2, rfl, s2, t2⟩ := h'
  exact ⟨j2, rfl, fun f hf => (s2 f hf).elim (fun q => (s1 f q).imp id (hk f)) .inr, fun f hf => (t1 f hf).elim (t2 f) .inr⟩

theorem sets_uid {env : CliEnv} {c : Cli} : (setUidMapping env c).All (Part (fun f => c.set_uidmap = true ∧ f ∈ mapFeatures) c) := by
  unfold setUidMapping
  split
  · next h =>
    have : ∀ {c'}, Sets mapFeatures filterFeatures c c' → Part (fun f => c.set_uidmap = true ∧ f ∈ mapFeatures) c c' := fun s => s.part fun f hf => ⟨h, hf⟩
    refine all_bind (all_mono (sets_lib (G := mapFeatures) (L := filterFeatures) (k := .namespaceUser) (by decide) sub_none) fun c1 s1 =>
      all_bind (all_mono (sets_lib (G := mapFeatures) (L := filterFeatures) (k := .namespacePids) (by decide) sub_none) fun c2 s2 =>
        all_mono (sets_libMust (G := mapFeatures) (L := filterFeatures) sub_none sub_none) fun c3 s3 => this ((s1.trans s2).trans s3)))
  · exact Part.refl _ _

theorem sets_gid {env : CliEnv} {c : Cli} :
    (setGidMapping env c).All (Part (fun f => c.set_gidmap = true ∧ (f ∈ mapFeatures ∨ (f = .disable_setgroups ∧ env.setgidCap = false))) c) := by
  unfold setGidMapping
  split
  · next h =>
    have mine : ∀ {c c'}, Sets mapFeatures filterFeatures c c' → Part (fun f => f ∈ mapFeatures ∨ (f = .disable_setgroups ∧ env.setgidCap = false)) c c' :=
      fun s => s.part fun f hf => .inl hf
    have hd : ∀ c, (maybeDisableSetgroups env c).All (Part (fun f => f ∈ mapFeatures ∨ (f = .disable_setgroups ∧ env.setgidCap = false)) c) := by
      intro c
      unfold maybeDisableSetgroups
      split
      · exact Part.refl _ _
      · next hc =>
        refine all_mono (sets_lib (G := [.disable_setgroups]) (L := filterFeatures) (k := .namespaceUserDisableSetgroups) (fun _ h => h) sub_none) fun c1 s1 => s1.part fun f hf => ?_
        exact .inr ⟨List.mem_singleton.1 hf, by simpa using hc⟩
    refine all_bind (all_mono (sets_lib (G := mapFeatures) (L := filterFeatures) (k := .namespaceUser) (by decide) sub_none) fun c1 s1 =>
      all_bind (all_mono (sets_lib (G := mapFeatures) (L := filterFeatures) (k := .namespacePids) (by decide) sub_none) fun c2 s2 => all_bind (all_mono (hd c2) fun c3 s3 =>
        all_mono (sets_libMust (G := mapFeatures) (L := filterFeatures) sub_none sub_none) fun c4 s4 => ?_)))
    have p := ((mine (s1.trans s2)).trans s3 fun _ h => h).trans (mine s4) fun _ h => h
    obtain ⟨j', rfl, a, b⟩ := p
    exact ⟨j', rfl, fun f hf => (a f hf).imp id fun q => ⟨h, q⟩, b⟩
  · exact Part.refl _ _

theorem sets_signals {env : CliEnv} {c : Cli} : (settleSignals env c).All (Part (fun f => c.forward_signals = true ∧ f = .forward_signals) c) := by
  unfold settleSignals
  split
  · next h =>
    exact all_mono (sets_lib (G := [.forward_signals]) (L := filterFeatures) (k := .forwardSignals) (fun _ h => h) sub_none) fun c1 s1 => s1.part fun f hf => ⟨h, List.mem_singleton.1 hf⟩
  · exact Part.refl _ _

theorem sets_remount {env : CliEnv} {c : Cli} : (settleRemount env c).All (Part (fun _ => False) c) := by
  have h : ∀ k, turnsOn k = [] → turnsOff env.api.softfail k = [] → (lib env c k).All (Part (fun _ => False) c) := fun k h1 h2 =>
    all_mono (sets_lib (G := []) (L := filterFeatures) (k := k) (by rw [h1]; exact fun _ h => h) (by rw [h2]; exact sub_none)) fun c1 s1 => s1.part fun f hf => absurd hf List.not_mem_nil
  unfold settleRemount setRemountMode
  (repeat' split) <;> first | trivial | exact h _ rfl rfl | exact Part.refl _ _

theorem sets_groups {env : CliEnv} {c : Cli} : (settleGroups env c).All (Part (fun f => c.suppl_gids ≠ [] ∧ f = .set_suppl_gids) c) := by
  unfold settleGroups
  split
  · next h =>
    exact all_mono (sets_lib (G := [.set_suppl_gids]) (L := filterFeatures) (fun _ h => h) sub_none) fun c1 s1 => s1.part fun f hf => ⟨h, List.mem_singleton.1 hf⟩
  · exact Part.refl _ _

theorem sets_tmp {env : CliEnv} {c : Cli} : (settleTmp env c).All (Part (fun f => c.tmp_size ≠ 0#64 ∧ f = .mount_tmp) c) := by
  unfold settleTmp
  split
  · next h =>
    exact all_mono (sets_lib (G := [.mount_tmp]) (L := filterFeatures) (fun _ h => h) sub_none) fun c1 s1 => s1.part fun f hf => ⟨h, List.mem_singleton.1 hf⟩
  · exact Part.refl _ _

theorem sets_file {env : CliEnv} {c : Cli} {p : CStr} {G : Feature → Prop} : (setSeccompFile env c p).All (Part G c) := by
  unfold setSeccompFile
  (repeat' split) <;> first
    | trivial
    | exact all_mono (sets_lib (G := []) (L := filterFeatures) (fun _ h => h) (off_filters _)) fun c1 s1 => s1.part fun f hf => absurd hf List.not_mem_nil

theorem sets_seccomp {env : CliEnv} {c : Cli} : (settleSeccomp env c).All (Part (fun f => c.use_seccomp_filter = false ∧ c.use_seccomp_filter_binary = false ∧
    c.j.flags.enable_default_runtime = true ∧ (f = .no_new_privs ∨ (f = .seccomp_filter ∧ env.defaultPolicy = true))) c) := by
  unfold settleSeccomp
  split
  · exact all_mono (sets_lib (G := []) (L := filterFeatures) (fun _ h => h) (off_filters _)) fun c1 s1 => s1.part fun f hf => absurd hf List.not_mem_nil
  · next h1 =>
    split
    · exact sets_file
    · next h2 =>
      have h1 : c.use_seccomp_filter = false := by simpa using h1
      have h2 : c.use_seccomp_filter_binary = false := by simpa using h2
      split
      · next h3 =>
        have hd : (defaultSeccomp env c).All (Part (fun f => f = .seccomp_filter ∧ env.defaultPolicy = true) c) := by
          unfold defaultSeccomp
          split
          · next h4 =>
            refine all_bind (all_mono (sets_lib (G := [.seccomp_filter]) (L := filterFeatures) (k := .useSeccompFilter) (fun _ h => h) sub_none) fun c1 s1 => all_mono sets_file fun c2 s2 =>
              (s1.part (G := fun f => f = .seccomp_filter ∧ env.defaultPolicy = true) fun f hf => ⟨List.mem_singleton.1 hf, h4⟩).trans s2 fun _ h => h)
          · exact Part.refl _ _
        refine all_bind (all_mono hd fun c1 s1 => all_mono (sets_lib (G := [.no_new_privs]) (L := filterFeatures) (k := .noNewPrivs) (fun _ h => h) sub_none) fun c2 s2 => ?_)
        exact s1.trans (s2.part (G := fun f => c.use_seccomp_filter = false ∧ c.use_seccomp_filter_binary = false ∧
          c.j.flags.enable_default_runtime = true ∧ (f = .no_new_privs ∨ (f = .seccomp_filter ∧ env.defaultPolicy = true))) fun f hf => ⟨h1, h2, h3, .inl (List.mem_singleton.1 hf)⟩)
          fun f hf => ⟨h1, h2, h3, .inr hf⟩
      · exact Part.refl _ _

theorem settle_on {env : CliEnv} {c : Cli} : (settle env c).All fun c' => (∀ f, On f c'.j → On f c.j ∨ SettleOn env c f) ∧ (∀ f, On f c.j → On f c'.j ∨ f ∈ filterFeatures) := by
  unfold settle
  refine all_bind (all_mono sets_uid ?_)
  rintro _ ⟨j1, rfl, a1, b1⟩
  refine all_bind (all_mono sets_gid ?_)
  rintro _ ⟨j2, rfl, a2, b2⟩
  refine all_bind (all_refuse fun _ => all_bind (all_mono sets_signals ?_))
  rintro _ ⟨j3, rfl, a3, b3⟩
  refine all_bind (all_refuse fun _ => all_bind (all_refuse fun _ => all_bind (all_mono sets_remount ?_)))
  rintro _ ⟨j4, rfl, a4, b4⟩
  refine all_bind (all_mono sets_groups ?_)
  rintro _ ⟨j5, rfl, a5, b5⟩
  refine all_bind (all_mono sets_seccomp ?_)
  rintro _ ⟨j6, rfl, a6, b6⟩
  refine all_bind (all_mono sets_tmp ?_)
  rintro _ ⟨j7, rfl, a7, b7⟩
  refine all_bind (all_mono (sets_lib (G := []) (L := filterFeatures) (k := .addMinimalisticMountnsFsRules) (fun _ h => h) sub_none) ?_)
  rintro _ ⟨j8, rfl, s8⟩
  refine all_pure ⟨fun f hf => ?_, fun f hf => ?_⟩
  · dsimp only at *
    have q5 : ∀ f, On f j5 → On f c.j ∨ SettleOn env c f := by
      intro f hf
      rcases a5 f hf with h | h
      · rcases a4 f h with h | h
        · rcases a3 f h with h | h
          · rcases a2 f h with h | h
            · rcases a1 f h with h | h
              · exact .inl h
              · exact .inr ⟨.inl h⟩
            · exact .inr ⟨.inr (.inl h)⟩
          · exact .inr ⟨.inr (.inr (.inl h))⟩
        · exact h.elim
      · exact .inr ⟨.inr (.inr (.inr (.inl h)))⟩
    rcases s8.1 f hf with h | h
    · rcases a7 f h with h | h
      · rcases a6 f h with h | ⟨h1, h2, h3, h4⟩
        · exact q5 f h
        · rcases q5 .enable_default_runtime h3 with h5 | h5
          · exact .inr ⟨.inr (.inr (.inr (.inr (.inl ⟨h1, h2, h5, h4⟩))))⟩
          · have := h5.why
            simp [mapFeatures] at this
      · exact .inr ⟨.inr (.inr (.inr (.inr (.inr h))))⟩
    · exact absurd h List.not_mem_nil
  · dsimp only at *
    rcases b1 f hf with h | h
    · rcases b2 f h with h | h
      · rcases b3 f h with h | h
        · rcases b4 f h with h | h
          · rcases b5 f h with h | h
            · rcases b6 f h with h | h
              · rcases b7 f h with h | h
                · exact s8.2 f h
                · exact .inr h
              · exact .inr h
            · exact .inr h
          · exact .inr h
        · exact .inr h
      · exact .inr h
    · exact .inr h

/-- The filter changes only with an option or the default runtime. -/
def FilterWhy (env : CliEnv) (c : Cli) : Prop :=
  c.use_seccomp_filter = true ∨ c.use_seccomp_filter_binary = true ∨
    (c.use_seccomp_filter = false ∧ c.use_seccomp_filter_binary = false ∧ c.j.flags.enable_default_runtime = true ∧ env.defaultPolicy = true)

theorem seccomp_filter_why {env : CliEnv} {c : Cli} : (settleSeccomp env c).All fun c' => Agree c.j c'.j .filter ∨ FilterWhy env c := by
  unfold settleSeccomp
  split
  · next h => exact all_of fun _ _ => .inr (.inl h)
  · next h1 =>
    split
    · next h => exact all_of fun _ _ => .inr (.inr (.inl h))
    · next h2 =>
      split
      · next h3 =>
        unfold defaultSeccomp
        split
        · next h4 => exact all_of fun _ _ => .inr (.inr (.inr ⟨by simpa using h1, by simpa using h2, h3, h4⟩))
        · exact all_bind (all_pure (did_lib trivial fun c' rc d e => .inl (by obtain ⟨_, rfl, _, a⟩ := d; exact a .filter (fun h => absurd h List.not_mem_nil))))
      · exact .inl (AgreeAll.refl _ _)

/-- Without the profile there are no rules for mounts. -/
theorem minimalistic_off {env : ApiEnv} {j : Jail} (h : ¬ On .using_minimalistic_mountns j) : addMinimalisticMountnsFsRules env j = j := by
  unfold addMinimalisticMountnsFsRules
  have h : j.flags.using_minimalistic_mountns = false := by simpa [On] using h
  rw [h]
  rfl

theorem settle_rest {env : CliEnv} {c : Cli} (he : GoodCliEnv env) (hp : IsText c.filter_path) (hj : Inv c.j) :
    (settle env c).All fun c' => (Agree c.j c'.j .filter ∨ FilterWhy env c) ∧ (Agree c.j c'.j .rules ∨ On .using_minimalistic_mountns c.j) := by
  unfold settle
  have hm : ∀ {G : Feature → Prop} {j1 j2 : Jail}, (∀ f, On f j2 → On f j1 ∨ G f) → ¬ G .using_minimalistic_mountns → On .using_minimalistic_mountns j2 → On .using_minimalistic_mountns j1 :=
    fun a b h => (a _ h).elim id fun q => absurd q b
  refine all_bind (all_mono (all_and final_uid sets_uid) ?_)
  rintro _ ⟨⟨d1, _, _⟩, ⟨j1, rfl, a1, b1⟩⟩
  have i1 := d1.kept hj
  refine all_bind (all_mono (all_and (final_gid i1.1) sets_gid) ?_)
  rintro _ ⟨⟨d2, _, _⟩, ⟨j2, rfl, a2, b2⟩⟩
  refine all_bind (all_refuse fun _ => all_bind (all_mono (all_and final_signals sets_signals) ?_))
  rintro _ ⟨⟨d3, _⟩, ⟨j3, rfl, a3, b3⟩⟩
  refine all_bind (all_refuse fun _ => all_bind (all_refuse fun _ => all_bind (all_mono (all_and final_remount sets_remount) ?_)))
  rintro _ ⟨⟨d4, _, _⟩, ⟨j4, rfl, a4, b4⟩⟩
  refine all_bind (all_mono (all_and final_groups sets_groups) ?_)
  rintro _ ⟨⟨d5, _, _⟩, ⟨j5, rfl, a5, b5⟩⟩
  refine all_bind (all_mono (all_and (final_seccomp he hp) (all_and seccomp_filter_why sets_seccomp)) ?_)
  rintro _ ⟨⟨d6, _⟩, w6, ⟨j6, rfl, a6, b6⟩⟩
  refine all_bind (all_mono (all_and final_tmp sets_tmp) ?_)
  rintro _ ⟨⟨d7, _, _⟩, ⟨j7, rfl, a7, b7⟩⟩
  refine all_bind (all_lib fun rc j8 e8 => all_pure ?_)
  have e8' : addMinimalisticMountnsFsRules env.api j7 = j8 := by
    simp only [call, ApiRes.ok, ApiRes.ret.injEq] at e8
    exact e8.2
  have ag : ∀ {G : List Setting} {c c' : Cli}, Did env G c c' → ∀ s, s ∉ G → Agree c.j c'.j s := by
    rintro G c _ ⟨_, rfl, _, a⟩
    exact a
  have r15 : ∀ s, s ∉ [Setting.uidmap, .gidmap, .propagation, .groups] → Agree c.j j5 s := by
    intro s hs
    simp only [List.mem_cons, not_or, List.not_mem_nil, not_false_eq_true, and_true] at hs
    obtain ⟨n1, n2, n3, n4⟩ := hs
    exact ((((ag d1 s (by simpa using n1)).also (ag d2 s (by simpa using n2))).also (ag d3 s (by simp))).also (ag d4 s (by simpa using n3))).also (ag d5 s (by simpa using n4))
  have m5 : On .using_minimalistic_mountns j5 → On .using_minimalistic_mountns c.j := fun h =>
    hm a1 (by simp [mapFeatures]) (hm a2 (by simp [mapFeatures]) (hm a3 (by simp) (hm a4 (by simp) (hm a5 (by simp) h))))
  have rt : On .enable_default_runtime j5 → On .enable_default_runtime c.j := fun h => by
    have hm' : ∀ {G : Feature → Prop} {j1 j2 : Jail}, (∀ f, On f j2 → On f j1 ∨ G f) → ¬ G .enable_default_runtime → On .enable_default_runtime j2 → On .enable_default_runtime j1 :=
      fun a b h => (a _ h).elim id fun q => absurd q b
    exact hm' a1 (by simp [mapFeatures]) (hm' a2 (by simp [mapFeatures]) (hm' a3 (by simp) (hm' a4 (by simp) (hm' a5 (by simp) h))))
  refine ⟨?_, ?_⟩
  · rcases w6 with w | w
    · left
      have h8 : Agree j7 j8 .filter := C49_frame env.api j7 j8 .addMinimalisticMountnsFsRules rc e8 .filter (by decide)
      exact (((r15 .filter (by decide)).also w).also (ag d7 .filter (by decide))).also h8
    · right
      rcases w with w | w | ⟨w1, w2, w3, w4⟩
      · exact .inl w
      · exact .inr (.inl w)
      · exact .inr (.inr ⟨w1, w2, rt w3, w4⟩)
  · by_cases h : On .using_minimalistic_mountns c.j
    · exact .inr h
    · left
      have h7 : ¬ On .using_minimalistic_mountns j7 := fun q => h (m5 (hm a6 (by simp) (hm a7 (by simp) q)))
      rw [minimalistic_off h7] at e8'
      subst e8'
      exact ((r15 .rules (by decide)).also (ag d6 .rules (by decide))).also (ag d7 .rules (by decide))

end Minijail
