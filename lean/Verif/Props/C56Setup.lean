import Verif.Props.C56
import Verif.Props.C39
import Verif.Props.C69
import Verif.Spec.SetFor
/-! C56, what is written and set for the program's process: limits, the file with its number, maps of ids. -/
set_option linter.unusedSimpArgs false
set_option autoImplicit false
namespace Minijail
open Spec

/-- **C56**, from outside: if the front end goes on after it has started the process `pid`, then what it did for that process is what the options say: the file of -f
holds the number, the limits of -R are set in order, the maps of -m and -M are written in full, and nothing else is done. (Missing: as in C69, that writing to
the log keeps `errno`.) -/
theorem C56_setup_partial (env : MainEnv) (he : GoodCliEnv env.cli) (opts : Options) (htx : ∀ p ∈ opts, TextArg p.2) (args : List CStr) (s : Start)
    (h : mainStart env opts args = .start s) (sys : SetupEnv) (hs : SetupErrors sys) (hk : LogKeeps sys) (pid : Nat)
    (hg : (setupChild sys pid s.jail []).1 = .goesOn) :
    ∃ all, Expanded env.cli.readConf opts all ∧
      SetFor env.cli pid all (∀ d, sys.open_ d (procPath pid "setgroups") ≠ some 2) (setupChild sys pid s.jail []).2 := by
  obtain ⟨c, pp, hc, hj⟩ := start_jail h
  obtain ⟨all, hx, F⟩ := fromOptions he htx hc
  obtain ⟨all', hx', M⟩ := C39_partial env.cli he opts htx args.head? c hc
  cases expanded_unique hx hx'
  refine ⟨all, hx, ?_⟩
  obtain ⟨b, hd, hb⟩ := C69_done_partial hs hk hg
  rw [hd, List.nil_append]
  have hcg : s.jail.flags.cgroups = false := by
    rw [hj]
    cases hf : c.j.flags.cgroups
    · rfl
    · exact absurd (show On .cgroups c.j from hf) (off_without F .cgroups [] [] (by decide) (by decide) (by decide) (by decide) (fun h => h) (by simp) (by simp))
  have e1 : s.jail.flags = c.j.flags := by rw [hj]
  have e2 : s.jail.pid_file_path = c.j.pid_file_path := by rw [hj]
  have e3 : s.jail.rlimits.take s.jail.rlimit_count = c.j.rlimits.take c.j.rlimit_count := by rw [hj]
  have e4 : s.jail.uidmap = c.j.uidmap := by rw [hj]
  have e5 : s.jail.gidmap = c.j.gidmap := by rw [hj]
  have T := F.effect
  have V := F.values
  refine ⟨if c.j.flags.pid_file then givenTo (c.j.pid_file_path.getD []) true (line pid) else [],
    (c.j.rlimits.take c.j.rlimit_count).map (Deed.limited pid),
    if c.j.flags.userns then (match c.j.uidmap with
      | some m => givenTo (procPath pid "uid_map") false m
      | none => []) else [],
    if c.j.flags.userns && (c.j.gidmap.isSome && (c.j.flags.disable_setgroups && b)) then givenTo (procPath pid "setgroups") false (bstr "deny") else [],
    if c.j.flags.userns then (match c.j.gidmap with
      | some m => givenTo (procPath pid "gid_map") false m
      | none => []) else [], ?_, ?_, ?_, ?_, ?_, ?_⟩
  · unfold setupDeeds
    rw [hcg, e1, e2, e3, e4, e5]
    cases c.j.flags.pid_file <;> cases c.j.flags.userns <;> cases c.j.uidmap <;> cases c.j.gidmap <;> cases c.j.flags.disable_setgroups <;> cases b <;> simp
  · constructor
    · intro a ha
      have hf : c.j.flags.pid_file = true := by
        obtain ⟨bf, n, af, h, hn, -⟩ := ha
        rw [letter] at hn
        subst hn
        exact T.f (some a) (by rw [Gave, h]; simp)
      rw [if_pos hf, V.pid_file a ha]; rfl
    · intro hw
      cases hf : c.j.flags.pid_file
      · rfl
      · exact absurd (show On .pid_file c.j from hf) (off_without F .pid_file ['f'] [] (by decide) (by decide) (by decide) (by decide) (fun h => h)
        (by simpa using hw) (by simp))
  · intro as ha
    exact ⟨_, V.limits as ha, rfl⟩
  · have hm : ∀ {a}, Last all (letter 'm') a → c.j.flags.userns = true := by
      rintro a ⟨bf, n, af, h, hn, -⟩
      rw [letter] at hn
      subst hn
      exact (T.m a (by rw [Gave, h]; simp)).1
    have put : ∀ {es}, c.j.flags.userns = true → MapsTo c.j.uidmap es → MapDeeds pid "uid_map" es (if c.j.flags.userns then (match c.j.uidmap with
        | some m => givenTo (procPath pid "uid_map") false m
        | none => []) else []) := by
      rintro es hu ⟨t, ht, hmt⟩
      exact ⟨t, hmt, by rw [if_pos hu, ht]⟩
    constructor
    · exact fun a es hl hes => put (hm hl) (M.uid_given a es hl hes)
    · exact fun hl a ha => ⟨_, (V.user a ha).1, fun h1 h2 => put (hm hl) (M.uid_chosen hl ⟨_, ha⟩ h1 h2)⟩
    · exact fun hl hu h1 => put (hm hl) (M.uid_root hl hu h1)
    · intro hw
      rw [M.uid_none hw]
      cases c.j.flags.userns <;> rfl
  · constructor
    · intro hM hcap hfile
      have hu := (M.userns (.inr hM)).1
      have hds := M.setgroups hM hcap
      obtain ⟨t, ht⟩ := hM
      have hgm := (T.M t ht).2.2
      have hb' : b = true := by
        cases b
        · obtain ⟨before, -, h2⟩ := hb rfl
          exact absurd h2 (hfile before)
        · rfl
      rw [hu, hds, hb']
      cases hgm' : c.j.gidmap with
      | none => exact absurd hgm' hgm
      | some m => rfl
    · by_cases hc' : (c.j.flags.userns && (c.j.gidmap.isSome && (c.j.flags.disable_setgroups && b))) = true
      · left; rw [if_pos hc']
      · right; rw [if_neg hc']
    · intro hw
      rw [M.gid_none hw]
      cases c.j.flags.userns <;> rfl
  · have hm : ∀ {a}, Last all (letter 'M') a → c.j.flags.userns = true := by
      rintro a ⟨bf, n, af, h, hn, -⟩
      rw [letter] at hn
      subst hn
      exact (T.M a (by rw [Gave, h]; simp)).1
    have put : ∀ {es}, c.j.flags.userns = true → MapsTo c.j.gidmap es → MapDeeds pid "gid_map" es (if c.j.flags.userns then (match c.j.gidmap with
        | some m => givenTo (procPath pid "gid_map") false m
        | none => []) else []) := by
      rintro es hu ⟨t, ht, hmt⟩
      exact ⟨t, hmt, by rw [if_pos hu, ht]⟩
    constructor
    · exact fun a es hl hes => put (hm hl) (M.gid_given a es hl hes)
    · exact fun hl hgl a ha => ⟨_, V.group a ha, fun h1 h2 => put (hm hl) (M.gid_chosen hl hgl h1 h2)⟩
    · exact fun hl hul a ha hna => ⟨_, _, ((V.user a ha).2 hna).2, fun h1 h2 => put (hm hl) (M.gid_user hl hul h1 h2)⟩
    · exact fun hl hng hnn h1 => put (hm hl) (M.gid_root hl hng hnn h1)
    · intro hw
      rw [M.gid_none hw]
      cases c.j.flags.userns <;> rfl

/-- A command line: -f /run/p -R 7,10,unlimited -u 1000 -m -M "0 100 1" -T static. -/
private def setupOpts : Options :=
  [('f'.toNat, some "/run/p".toList), ('R'.toNat, some "7,10,unlimited".toList), ('u'.toNat, some "1000".toList), ('m'.toNat, none),
   ('M'.toNat, some "0 100 1".toList), ('T'.toNat, some "static".toList)]

private def setupMain : MainEnv := { cli := { uid := 500#32, setgidCap := false } }

private def setupStart : Start := match mainStart setupMain setupOpts ["/bin/true".toList] with
  | .start s => s
  | _ => ⟨minijailNew, false, [], [], none, false⟩

/-- A case: it is started, everything is granted, and this is what is done. -/
example : GoodCliEnv setupMain.cli ∧ (∀ p ∈ setupOpts, TextArg p.2) ∧ mainStart setupMain setupOpts ["/bin/true".toList] = .start setupStart ∧
    SetupErrors exWilling ∧ LogKeeps exWilling ∧ (setupChild exWilling 42 setupStart.jail []).1 = .goesOn ∧
    (setupChild exWilling 42 setupStart.jail []).2 = [.opened (bstr "/run/p") true, .wrote (bstr "/run/p") (bstr "42\n"),
      .limited 42 ⟨7#32, 10#64, BitVec.allOnes 64⟩, .opened (bstr "/proc/42/uid_map") false, .wrote (bstr "/proc/42/uid_map") (bstr "1000 500 1"),
      .opened (bstr "/proc/42/setgroups") false, .wrote (bstr "/proc/42/setgroups") (bstr "deny"),
      .opened (bstr "/proc/42/gid_map") false, .wrote (bstr "/proc/42/gid_map") (bstr "0 100 1")] := by
  refine ⟨⟨fun _ _ h => by cases h; decide, fun _ _ h => by cases h; decide, fun _ p h => (by cases h), fun _ _ h => (by cases h), by decide⟩, ?_, ?_,
    ⟨?_, ?_, ?_⟩, fun _ _ => rfl, by decide +kernel, by decide +kernel⟩
  · intro p hp s hs
    revert hs
    simp only [setupOpts, List.mem_cons, List.not_mem_nil, or_false] at hp
    rcases hp with rfl | rfl | rfl | rfl | rfl | rfl <;> intro hs <;> cases hs <;> (unfold IsText; decide +kernel)
  · have : (match mainStart setupMain setupOpts ["/bin/true".toList] with | .start _ => true | _ => false) = true := by decide +kernel
    unfold setupStart
    generalize mainStart setupMain setupOpts ["/bin/true".toList] = o at this ⊢
    cases o <;> simp_all
  · intro h p e he; cases he
  · intro h p n e he; cases he
  · intro h p e he; cases he

end Minijail
