import Verif.Spec.Confined
import Verif.Spec.Run
import Verif.Spec.Asked
import Verif.Props.C12
import Verif.Props.C50
import Verif.Props.C51
import Verif.Props.C53
import Verif.Props.C55
/-! From what the options make of the jail, and what entering the jail does, to what the options mean for the program. -/
set_option autoImplicit false
set_option linter.unusedSimpArgs false
namespace Minijail
open Spec

/-- A command line has one expansion. -/
theorem expanded_unique {f : CStr → Option CStr} {opts a b : Options} (ha : Expanded f opts a) (hb : Expanded f opts b) : a = b := by
  induction ha generalizing b with
  | nil => cases hb; rfl
  | plain h _ ih =>
    cases hb with
    | plain _ hr => rw [ih hr]
    | file h' => exact absurd h' h
  | file h hf hi _ _ ih =>
    cases hb with
    | plain h' => exact absurd h h'
    | file _ hf' hi' _ hr =>
      rw [hf] at hf'
      cases hf'
      obtain ⟨e1, p1, o1⟩ := hi
      obtain ⟨e2, p2, o2⟩ := hi'
      rw [p1] at p2
      cases p2
      rw [o1] at o2
      cases o2
      rw [ih hr]

/-- Everything that is known of the jail that the options make. -/
structure FromOptions (env : CliEnv) (all : Options) (j : Jail) : Prop where
  effect : TakesEffect env.api.softfail all j
  values : Values env all j
  on : ∀ f, On f j → Default env all f ∨ ∃ p ∈ all, Asks p f
  set : ∀ s, Agree minijailNew j s ∨ DefaultSetting env all s ∨ ∃ p ∈ all, Gives p.1 s
  tmp : (∀ a, Gave all 't' (some a) → parseSize a ≠ .ok 0#64) → (∃ a, Gave all 't' a ∨ GaveLong all "profile" a) → j.flags.mount_tmp = true
  inv : Inv j

theorem fromOptions {env : CliEnv} (he : GoodCliEnv env) {opts : Options} (ht : ∀ p ∈ opts, TextArg p.2) {program : Option CStr} {c : Cli}
    (h : parseArgs env minijailNew opts program = .ok (.run c)) : ∃ all, Expanded env.readConf opts all ∧ FromOptions env all c.j := by
  obtain ⟨a1, x1, h1⟩ := C50_partial env he opts ht program c h
  obtain ⟨a2, x2, h2⟩ := C51_partial env he opts ht program c h
  obtain ⟨a3, x3, h3, -⟩ := C53_on env he opts ht program c h
  obtain ⟨a4, x4, h4⟩ := C53_values env he opts ht program c h
  obtain ⟨a5, x5, h5⟩ := C50_tmp_partial env he opts ht program c h
  cases expanded_unique x1 x2
  cases expanded_unique x1 x3
  cases expanded_unique x1 x4
  cases expanded_unique x1 x5
  refine ⟨_, x1, h1, h2, h3, h4, fun x y => (h5 x y).1, ?_⟩
  obtain ⟨c0, j1, c2, I, q, r1, a1, hk, hm, I1, hx, h2, h3, h4, h5⟩ := run_carry carried_table he inv_new (fun _ a h => by obtain ⟨b, n, af, h, _⟩ := h; simp at h) ht h
  have i0 := (reach_kept I.good.reach inv_new).1
  have i1 := (reach_kept r1 i0).1
  obtain ⟨j', e, he2, _, F⟩ := all_ok (settle_final (c := { c0 with j := j1 }) he I1.good.path i1) h2
  rw [h4, he2]
  exact (reach_kept F.reach i1).1

section
variable {env : CliEnv} {enter : EnterEnv} {all : Options} {j : Jail} {t : List Ev}

theorem given_of_last {ch : Char} {a : CStr} (h : LastArg all (letter ch) a) : Gave all ch (some a) := by
  obtain ⟨b, n, r, rfl, hn, -⟩ := h
  unfold letter at hn
  subst hn
  exact List.mem_append_right _ List.mem_cons_self

theorem long_of_last {name : String} {a : CStr} (h : LastArg all (long name) a) : GaveLong all name (some a) := by
  obtain ⟨b, n, r, rfl, hn, -⟩ := h
  exact ⟨n, hn, List.mem_append_right _ List.mem_cons_self⟩

theorem long_of_first {name : String} {a : CStr} (h : FirstArg all (long name) a) : GaveLong all name (some a) := by
  obtain ⟨b, n, r, rfl, hn, -⟩ := h
  exact ⟨n, hn, List.mem_append_right _ List.mem_cons_self⟩

/-- A feature that only options with certain letters or names ask for is off without them. -/
theorem off_without (F : FromOptions env all j) (f : Feature) (ls : List Char) (ns : List String)
    (h1 : ∀ x ∈ letterAsks, f ∈ x.2 → x.1 ∈ ls) (h2 : ∀ x ∈ longAsks, f ∈ x.2 → x.1 ∈ ns)
    (h3 : f ≠ .net ∧ f ≠ .net_loopback ∧ f ≠ .enter_net) (h4 : f = .mount_dev → "profile" ∈ ns) (hd : ¬ Default env all f)
    (hl : ∀ ch ∈ ls, Without all (letter ch)) (hn : ∀ name ∈ ns, Without all (long name)) : ¬ On f j := by
  intro h
  rcases F.on f h with h | ⟨p, hp, h⟩
  · exact hd h
  · rcases h with ⟨ch, fs, hm, hc, hf⟩ | ⟨name, fs, hm, hc, hf⟩ | ⟨-, -, h | h⟩ | ⟨-, -, h⟩ | ⟨h, -, hf⟩
    · exact hl _ (h1 _ hm hf) p hp hc
    · exact hn _ (h2 _ hm hf) p hp hc
    · exact h3.1 h
    · exact h3.2.1 h
    · exact h3.2.2 h
    · exact hn _ (h4 hf) p hp h

theorem root_is (F : FromOptions env all j) : RootOf all (j.chrootdir.getD []) where
  C d h := by rw [(F.effect.C d h).2]; rfl
  P d h := by rw [(F.effect.P d h).2.1]; rfl
  none h1 h2 h3 := by
    have a : ¬ On .chroot j := off_without F .chroot ['C'] [] (by decide) (by decide) (by decide) (fun h => by cases h) id
      (fun ch h => by rw [List.mem_singleton.1 h]; exact h1) (fun _ h => absurd h List.not_mem_nil)
    have b : ¬ On .pivot_root j := off_without F .pivot_root ['P'] ["profile"] (by decide) (by decide) (by decide) (fun h => by cases h) id
      (fun ch h => by rw [List.mem_singleton.1 h]; exact h2) (fun _ h => by rw [List.mem_singleton.1 h]; exact h3)
    have : j.chrootdir = Option.none := by
      cases e : j.chrootdir with
      | none => rfl
      | some x => exact ((F.inv.2.rootDir.2 (by rw [e]; simp)).elim a b).elim
    rw [this]; rfl

theorem mountNs_is (F : FromOptions env all j) (h : AsksMountNs all) : j.flags.vfs = true := by
  rcases h with ⟨ch, hm, a, ha⟩ | ⟨d, hd⟩ | ⟨n, a, hn, ha⟩ | ⟨⟨ch, hm, a, ha⟩, hV⟩
  · simp only [List.mem_cons, List.not_mem_nil, or_false] at hm
    rcases hm with rfl | rfl | rfl | rfl | rfl | rfl | rfl | rfl | rfl
    · exact F.effect.v a ha
    · exact (F.effect.d a ha).2
    · exact (F.effect.p a ha).2.2
    · exact (F.effect.r a ha).2
    · exact F.effect.t a ha
    · exact (F.effect.U a ha).2.2.2
    · exact (F.effect.I a ha).2.2.2
    · exact (F.inv.2.pids (F.effect.m a ha).2.1).1
    · exact (F.inv.2.pids (F.effect.M a ha).2.1).1
  · exact (F.effect.P d hd).2.2
  · exact (F.effect.profile a ⟨n, hn, ha⟩).2.2.2
  · have b : ¬ On .enter_vfs j := off_without F .enter_vfs ['V'] [] (by decide) (by decide) (by decide) (fun h => by cases h) id
      (fun ch h => by rw [List.mem_singleton.1 h]; exact hV) (fun _ h => absurd h List.not_mem_nil)
    have hm : j.mounts ≠ [] := by
      simp only [List.mem_cons, List.not_mem_nil, or_false] at hm
      rcases hm with rfl | rfl
      · exact F.effect.b a ha
      · exact F.effect.k a ha
    exact (F.inv.2.mounts hm).elim id fun h => absurd h b


theorem propagation_is (F : FromOptions env all j) : PropagationIs all j.remount_mode := ⟨F.values.propagation, F.values.slave, F.values.private_⟩

theorem size_zero {a : CStr} (h : parseSize a = .ok 0#64) : SizeText a 0 := by
  obtain ⟨n, hn, hlt, e⟩ := (C12_exact a 0#64).1 h
  have : n = 0 := by
    have := congrArg BitVec.toNat e
    simp only [BitVec.toNat_ofNat] at this
    rw [Nat.mod_eq_of_lt hlt] at this
    omega
  exact this ▸ hn

/-- The jail that is entered on behalf of the options is theirs, but for the library and perhaps /proc. -/
theorem requested_of (F : FromOptions env all j) {p : Option BStr} (A : Applied enter (wanted { j with preload_path := p }) t)
    (M : (∀ e ∈ t, ¬ MountCheck e.1 e.2) → ∃ during, during <:+: t ∧
      during.filter isNewMount = j.mounts.map (mounted enter { j with preload_path := p })) : Requested env enter all t := by
  have hw : ∃ b, wanted { j with preload_path := p } = { j with preload_path := p, flags := { j.flags with remount_proc_ro := b } } ∧
      (j.flags.remount_proc_ro = true → j.flags.run_as_init = false → b = true) := by
    unfold wanted
    split
    · next h =>
      refine ⟨false, rfl, fun _ h1 => ?_⟩
      obtain ⟨h2, h3⟩ := h
      have := (F.inv.2.pids h2).2
      rcases h3 with h3 | h3
      · rw [show j.flags.do_init = false from h3] at this; exact absurd this (by simp)
      · rw [show j.flags.run_as_init = true from h3] at h1; exact absurd h1 (by simp)
    · exact ⟨j.flags.remount_proc_ro, rfl, fun h _ => h⟩
  obtain ⟨b, hw, hb⟩ := hw
  rw [hw] at A
  have T := F.effect
  have V := F.values
  constructor
  · intro h
    have hv := mountNs_is F h
    exact ⟨A.newMountNs hv, _, propagation_is F, fun hm => A.propagation hv hm⟩
  · exact fun a h => ⟨_, V.mount_ns a h, A.enterMountNs (T.V _ (given_of_last h))⟩
  · intro d h
    have := A.chroot (T.C d h).1
    rw [show j.chrootdir = _ from (T.C d h).2] at this
    exact this
  · intro d h
    have := A.pivotRoot (T.P d h).1
    rw [show j.chrootdir = _ from (T.P d h).2.1] at this
    exact this
  · rintro ⟨a, h⟩
    have hd := (T.d a h).1
    exact ⟨_, root_is F, A.devTmpfs hd, A.devNodes hd, A.devMoved hd⟩
  · intro hc
    obtain ⟨parts, hp, he⟩ := V.mounts
    obtain ⟨during, h1, h2⟩ := M hc
    refine ⟨parts, _, j.flags.mount_dev, hp, root_is F, fun ⟨a, h⟩ => (T.d a h).1, fun h1 h2 => ?_, during, h1, ?_⟩
    · have : ¬ On .mount_dev j := off_without F .mount_dev ['d'] ["profile"] (by decide) (by decide) (by decide) (fun _ => List.mem_cons_self) id
        (fun ch h => by rw [List.mem_singleton.1 h]; exact h1) (fun _ h => by rw [List.mem_singleton.1 h]; exact h2)
      exact Bool.eq_false_of_not_eq_true this
    · rw [h2, he]; rfl
  · intro h hz
    refine A.tmp (F.tmp (fun a ha e => hz a 0 ha (size_zero e) rfl) ?_)
    rcases h with ⟨a, h⟩ | ⟨n, a, hn, h⟩
    · exact ⟨a, .inl h⟩
    · exact ⟨a, .inr ⟨n, hn, h⟩⟩
  · intro h hI
    have hi : ¬ On .run_as_init j := off_without F .run_as_init ['I'] [] (by decide) (by decide) (by decide) (fun h => by cases h) id
      (fun ch h => by rw [List.mem_singleton.1 h]; exact hI) (fun _ h => absurd h List.not_mem_nil)
    refine A.proc (hb ?_ (Bool.eq_false_of_not_eq_true hi))
    rcases h with ⟨ch, hm, a, h⟩ | ⟨n, a, hn, h⟩
    · simp only [List.mem_cons, List.not_mem_nil, or_false] at hm
      rcases hm with rfl | rfl | rfl
      · exact (T.r a h).1
      · exact (T.p a h).2.1
      · exact (T.U a h).2.2.1
    · exact (T.profile a ⟨n, hn, h⟩).2.1
  · intro h hn
    refine A.newNetNs (T.e_new h) ?_
    show j.flags.enter_net = false
    cases he : j.flags.enter_net with
    | false => rfl
    | true =>
      rcases F.on .enter_net he with h | ⟨p, hp, h⟩
      · exact h.elim
      · rcases h with ⟨ch, fs, hm, hc, hf⟩ | ⟨name, fs, hm, hc, hf⟩ | ⟨-, -, h | h⟩ | ⟨h1, h2, h⟩ | ⟨h, -, hf⟩
        · exact absurd hf ((by decide : ∀ x ∈ letterAsks, Feature.enter_net ∉ x.2) _ hm)
        · exact absurd hf ((by decide : ∀ x ∈ longAsks, Feature.enter_net ∉ x.2) _ hm)
        · cases h
        · cases h
        · obtain ⟨n, a⟩ := p
          unfold letter at h1
          simp only at h1 h2
          subst h1
          cases a with
          | none => exact absurd rfl h2
          | some a => exact absurd hp (hn a)
        · cases hf
  · exact fun a h => ⟨_, V.net_ns a h, A.enterNetNs (T.e_enter a (given_of_last h))⟩
  · exact fun ⟨a, h⟩ => A.newIpcNs (T.l a h)
  · exact fun ⟨a, h⟩ => A.newCgroupNs (T.N a h)
  · exact fun ⟨a, h⟩ => A.newKeyring (T.w a h)
  · exact fun ⟨n, a, hn, h⟩ => A.newUtsNs (T.uts a ⟨n, hn, h⟩)
  · exact fun ho a h => A.hostname (T.uts _ (long_of_first h)) _ (V.hostname ho a h)
  · intro x h
    have := A.altSyscall (T.a _ (given_of_last h))
    rw [show j.alt_syscall_table = _ from V.table x h] at this
    exact this
  · exact fun ⟨a, h⟩ => A.strict (T.s a h)

/-- Without -B the securebits are not left alone. -/
theorem no_skip (F : FromOptions env all j) (h : Without all (letter 'B')) : j.securebits_skip_mask = 0#64 := by
  rcases F.set .skipMask with h' | h' | ⟨p, hp, h'⟩
  · exact h'
  · exact h'.elim
  · rcases h' with ⟨ch, ss, hm, hc, hs⟩ | ⟨name, ss, hm, hc, hs⟩
    · have := (by decide : ∀ x ∈ letterSets, Setting.skipMask ∈ x.2 → x.1 = 'B') _ hm hs
      simp only at this
      subst this
      exact absurd hc (h p hp)
    · exact absurd hs ((by decide : ∀ x ∈ longSets, Setting.skipMask ∉ x.2) _ hm)

theorem no_hooks (F : FromOptions env all j) : j.hooks = [] := by
  rcases F.set .hooks with h' | h' | ⟨p, hp, h'⟩
  · exact h'
  · exact h'.elim
  · rcases h' with ⟨ch, ss, hm, hc, hs⟩ | ⟨name, ss, hm, hc, hs⟩
    · exact absurd hs ((by decide : ∀ x ∈ letterSets, Setting.hooks ∉ x.2) _ hm)
    · exact absurd hs ((by decide : ∀ x ∈ longSets, Setting.hooks ∉ x.2) _ hm)

variable {g : Option BStr → BitVec 32 → List (BitVec 32)} {q r : Proc} {n : Nat} {p : Option BStr}

theorem identity_of (F : FromOptions env all j) (J : Jailed enter g { j with preload_path := p } n q) : Identity env enter.asan g all n q := by
  have T := F.effect
  have V := F.values
  constructor
  · exact fun a h => ⟨_, (V.user a h).1, fun hi => J.uid (T.u _ h) hi⟩
  · exact fun a h => ⟨_, V.group a h, fun hi => J.gid (T.g _ h) hi⟩
  · intro as h hne
    obtain ⟨ids, h1, h2, h3⟩ := V.groups as h hne
    refine ⟨ids, h1, ?_⟩
    have hg : ∀ {opts : Options} {as : List CStr}, Args (long "add-suppl-group") opts as → as ≠ [] → ∃ t, GaveLong opts "add-suppl-group" t := by
      intro opts as h hne
      induction h with
      | nil => exact absurd rfl hne
      | given h _ => exact ⟨_, _, h, List.mem_cons_self⟩
      | bare h _ _ => exact ⟨_, _, h, List.mem_cons_self⟩
      | other h _ ih =>
        obtain ⟨t, n, h, hm⟩ := ih hne
        exact ⟨t, n, h, List.mem_cons_of_mem _ hm⟩
    obtain ⟨x, hx⟩ := hg h hne
    have hs := T.groups x hx
    rw [J.groups hs, show ({ j with preload_path := p } : Jail).suppl_gid_list = j.suppl_gid_list from rfl, h2,
      show ({ j with preload_path := p } : Jail).suppl_gid_count = j.suppl_gid_count from rfl, h3]
    exact List.take_length
  · intro a ⟨x, hG⟩ hu hd
    obtain ⟨-, h2⟩ := V.user a hu
    obtain ⟨h3, h4⟩ := h2 hd
    obtain ⟨u, h5, h6⟩ := J.inherited (T.G x hG)
    have h5 : j.user = some u := h5
    rw [h3] at h5
    cases h5
    exact ⟨_, _, h4, h6⟩
  · intro hug hG hy hs hM
    have off : ∀ (f : Feature) (ls : List Char) (ns : List String), (∀ x ∈ letterAsks, f ∈ x.2 → x.1 ∈ ls) → (∀ x ∈ longAsks, f ∈ x.2 → x.1 ∈ ns) →
        (f ≠ .net ∧ f ≠ .net_loopback ∧ f ≠ .enter_net) → (f = .mount_dev → "profile" ∈ ns) → ¬ Default env all f →
        (∀ ch ∈ ls, Without all (letter ch)) → (∀ name ∈ ns, Without all (long name)) → ¬ On f j := fun f ls ns => off_without F f ls ns
    have o1 := off .set_suppl_gids [] ["add-suppl-group"] (by decide) (by decide) (by decide) (fun h => by cases h) id
      (fun _ h => absurd h List.not_mem_nil) (fun _ h => by rw [List.mem_singleton.1 h]; exact hs)
    have o2 := off .inherit_suppl_gids ['G'] [] (by decide) (by decide) (by decide) (fun h => by cases h) id
      (fun ch h => by rw [List.mem_singleton.1 h]; exact hG) (fun _ h => absurd h List.not_mem_nil)
    have o3 := off .keep_suppl_gids ['y'] [] (by decide) (by decide) (by decide) (fun h => by cases h) id
      (fun ch h => by rw [List.mem_singleton.1 h]; exact hy) (fun _ h => absurd h List.not_mem_nil)
    have o4 := off .disable_setgroups ['M'] [] (by decide) (by decide) (by decide) (fun h => by cases h) id
      (fun ch h => by rw [List.mem_singleton.1 h]; exact hM) (fun _ h => absurd h List.not_mem_nil)
    refine J.noGroups (Bool.eq_false_of_not_eq_true o1) (Bool.eq_false_of_not_eq_true o2) (Bool.eq_false_of_not_eq_true o3) (Bool.eq_false_of_not_eq_true o4) ?_
    obtain ⟨ch, hm, a, h⟩ := hug
    simp only [List.mem_cons, List.not_mem_nil, or_false] at hm
    rcases hm with rfl | rfl
    · exact .inl (T.u a h)
    · exact .inr (T.g a h)
  · intro a h
    have hu := T.c _ (given_of_last h)
    refine ⟨_, V.caps a h, fun i => ?_, fun ⟨n, x, hn, ha⟩ i => J.ambient hu (T.ambient x ⟨n, hn, ha⟩) i, fun hB i hi hm => ?_⟩
    · obtain ⟨h1, h2, h3⟩ := J.caps hu i
      exact ⟨h1, h2, h3, J.noAmbient hu i⟩
    · have := no_skip F hB
      exact J.bounding hu (by show j.securebits_skip_mask.getLsbD 0 = false; rw [this]; rfl)
        (by show j.securebits_skip_mask.getLsbD 1 = false; rw [this]; rfl) i hi hm
  · exact fun hs ⟨a, h⟩ => J.noNewPrivs (T.n a h hs)
  · intro hs ha a h
    rw [← V.filter hs a h]
    exact J.filter (T.S _ (given_of_last h) hs) ha
  · exact fun hs ha a h => ⟨_, V.binary hs a h, J.filter (T.binary _ (long_of_last h) hs) ha⟩

theorem lasting_of (F : FromOptions env all j) (S : Stays enter g { j with preload_path := p } n r) : Lasting env enter.asan all n r := by
  have T := F.effect
  have V := F.values
  have b0 : Without all (letter 'B') → ({ j with preload_path := p } : Jail).securebits_skip_mask.getLsbD 0 = false := fun h => by
    show j.securebits_skip_mask.getLsbD 0 = false
    rw [no_skip F h]; rfl
  have b1 : Without all (letter 'B') → ({ j with preload_path := p } : Jail).securebits_skip_mask.getLsbD 1 = false := fun h => by
    show j.securebits_skip_mask.getLsbD 1 = false
    rw [no_skip F h]; rfl
  constructor
  · exact fun a h hB => ⟨_, V.caps a h, fun i hi hm => S.caps (T.c _ (given_of_last h)) (b0 hB) (b1 hB) i hi hm⟩
  · exact fun hs ⟨a, h⟩ => S.noNewPrivs (T.n a h hs)
  · intro hs ha a h
    rw [← V.filter hs a h]
    exact S.filter (T.S _ (given_of_last h) hs) ha
  · exact fun hs ha a h => ⟨_, V.binary hs a h, S.filter (T.binary _ (long_of_last h) hs) ha⟩
  · exact fun hs ⟨x, hn⟩ hB h7 a b hc hu => ⟨_, _, V.caps a hc, (V.user b hu).1, fun hm hi =>
      S.user (T.c _ (given_of_last hc)) (b0 hB) (b1 hB) (T.n x hn hs) h7 hm (T.u _ hu) hi⟩
  · exact fun hs ⟨x, hn⟩ hB h6 a b hc hu => ⟨_, _, V.caps a hc, V.group b hu, fun hm hi =>
      (S.groups (T.c _ (given_of_last hc)) (b0 hB) (b1 hB) (T.n x hn hs) h6 hm).1 (T.g _ hu) hi⟩

end
end Minijail
