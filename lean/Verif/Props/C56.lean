import Verif.Proof.Confined
import Verif.Model.Main
import Verif.Props.EnterExample
import Verif.Props.C47
/-! C56: what the command line of minijail0 asks for holds of the process that runs the program. -/
set_option linter.unusedSimpArgs false
set_option autoImplicit false
namespace Minijail
open Spec

/-- The jail in which the program is started is the one that the options made; a library's path may have been added. -/
theorem start_jail {env : MainEnv} {opts : Options} {args : List CStr} {s : Start} (h : mainStart env opts args = .start s) :
    ∃ c p, parseArgs env.cli minijailNew opts args.head? = .ok (.run c) ∧ s.jail = { c.j with preload_path := p } := by
  unfold mainStart at h
  split at h
  · next c hc =>
    unfold mainRun at h
    split at h
    · cases h
    · split at h
      · cases h
      · split at h
        · cases h
          exact ⟨c, c.j.preload_path, hc, rfl⟩
        · split at h
          · cases h
          · split at h
            · cases h
            · split at h
              · cases h
              · next rc j hj =>
                cases h
                simp only [call, setPreloadPath] at hj
                split at hj
                · cases hj
                  exact ⟨c, c.j.preload_path, hc, rfl⟩
                · split at hj <;> cases hj
                  · exact ⟨c, c.j.preload_path, hc, rfl⟩
                  · exact ⟨c, _, hc, rfl⟩
        · cases h
  all_goals cases h

theorem from_main {env : MainEnv} (he : GoodCliEnv env.cli) {opts : Options} (ht : ∀ p ∈ opts, TextArg p.2) {args : List CStr} {s : Start}
    (h : mainStart env opts args = .start s) : ∃ all j p, Expanded env.cli.readConf opts all ∧ FromOptions env.cli all j ∧ s.jail = { j with preload_path := p } := by
  obtain ⟨c, p, hc, hj⟩ := start_jail h
  obtain ⟨all, hx, F⟩ := fromOptions he ht hc
  exact ⟨all, c.j, p, hx, F, hj⟩

/-- **C56**, a program run with the library: when its `main` is called, everything that the options ask for, and that is modelled, has been done (`t1` in the
child before it executes the program, `t2` in the library), the process is what they say, and stays within it whatever the program does. -/
theorem C56_library_partial (env : MainEnv) (he : GoodCliEnv env.cli) (opts : Options) (htx : ∀ p ∈ opts, TextArg p.2) (args : List CStr) (s : Start)
    (h : mainStart env opts args = .start s) (hw : Words s.jail) (hs : Transferable s.jail) (hf : s.jail.filter_prog ≠ some [])
    (enter : EnterEnv) (setid : Bool) (announced : Option Int)
    (writes : List WriteEv) (r1 r2 : ReadEv) (a : Addrs) (ha : ∀ n, a n ≠ 0#64) (hsz : minijailSize a s.jail < 2 ^ 64) (kl : LandlockKernel) (k1 k2 : Kernel)
    (t1 t2 : List Ev) (h1 : Executed enter true s.jail k1 t1) (h2 : MainCalled enter s.jail setid announced writes r1 r2 a kl k2 t2)
    (g : Option BStr → BitVec 32 → List (BitVec 32)) (p q : Proc) (hp : Evolves g p t2 q) :
    ∃ all, Expanded env.cli.readConf opts all ∧ Requested env.cli enter all (t1 ++ t2) ∧
      ∃ n : Nat, (Given all 'c' → (Sys.lastCap, (n : Int)) ∈ t2) ∧ Identity env.cli enter.asan g all n q ∧ ∀ r, Later q r → Lasting env.cli enter.asan all n r := by
  obtain ⟨all, j, pp, hx, F, hj⟩ := from_main he htx h
  have hg : GoodJail s.jail := by
    rw [hj] at hw ⊢
    have G := F.inv.good hw
    exact ⟨G.strings, G.gids, G.filter, G.mounts, G.mountsCount, G.mountsNs, G.cgroups, G.cgroupCount, G.cgroupMax, G.fsRules, G.fsRulesCount, G.rlimits,
      G.rlimitCount, G.preserved, G.preservedCount, hw⟩
  have A := C47_applied_partial enter s.jail hg hs hf setid announced writes r1 r2 a ha hsz kl k1 k2 t1 t2 h1 h2
  obtain ⟨n, hn, J⟩ := C47_jailed_partial enter s.jail hg hs hf setid announced writes r1 r2 a ha hsz kl k2 t2 h2 g p q hp
  have M := C47_mounts_partial enter s.jail hg hs setid announced writes r1 r2 a ha hsz kl k2 t2 h2
  rw [hj] at A J M
  refine ⟨all, hx, requested_of F A fun hc => ?_, n, fun ⟨x, hc⟩ => hn (.inl ?_), identity_of F J, fun r hr => lasting_of F (stays_of J hr)⟩
  · obtain ⟨d, h1, h2⟩ := M fun e he => hc e (List.mem_append_right _ he)
    exact ⟨d, List.IsInfix.trans h1 (List.suffix_append _ _).isInfix, h2⟩
  · rw [hj]
    exact F.effect.c x hc

/-- **C56**, a program run without the library: the same when `execve` is called. -/
theorem C56_static (env : MainEnv) (he : GoodCliEnv env.cli) (opts : Options) (htx : ∀ p ∈ opts, TextArg p.2) (args : List CStr) (s : Start)
    (h : mainStart env opts args = .start s) (enter : EnterEnv) (k : Kernel) (t : List Ev) (h1 : Executed enter false s.jail k t)
    (g : Option BStr → BitVec 32 → List (BitVec 32)) (p q : Proc) (hp : Evolves g p t q) :
    ∃ all, Expanded env.cli.readConf opts all ∧ Requested env.cli enter all t ∧
      ∃ n : Nat, (Given all 'c' → (Sys.lastCap, (n : Int)) ∈ t) ∧ Identity env.cli enter.asan g all n q ∧ ∀ r, Later q r → Lasting env.cli enter.asan all n r := by
  obtain ⟨all, j, pp, hx, F, hj⟩ := from_main he htx h
  have A := C47_direct enter s.jail k t h1
  obtain ⟨n, hn, J⟩ := C47_jailed_direct enter s.jail (by rw [hj]; show j.hooks = []; exact no_hooks F) k t h1 g p q hp
  have M := C47_mounts_direct_partial enter s.jail k t h1
  rw [hj] at A J M
  refine ⟨all, hx, requested_of F A M, n, fun ⟨x, hc⟩ => hn (.inl ?_), identity_of F J, fun r hr => lasting_of F (stays_of J hr)⟩
  rw [hj]
  exact F.effect.c x hc

/-- A command line: -u 1000 -g 2000 -c 400 -n -S /policy -C /jail -v -l -b /usr --ambient, for a statically linked program or one with the library. -/
private def confinedEnv : MainEnv := { cli := { api := { compiled := fun _ => some [⟨6, 0, 0, 0⟩] } } }
private def confinedOpts (type : String) : Options :=
  [('u'.toNat, some "1000".toList), ('g'.toNat, some "2000".toList), ('c'.toNat, some "400".toList), ('n'.toNat, none), ('S'.toNat, some "/policy".toList),
   ('C'.toNat, some "/jail".toList), ('v'.toNat, none), ('l'.toNat, none), ('b'.toNat, some "/usr".toList), (optVal "AMBIENT", none),
   ('T'.toNat, some type.toList)]

private def startOf : MainOut → Start
  | .start s => s
  | _ => ⟨minijailNew, false, [], [], none, false⟩

private theorem start_of {o : MainOut} (h : (match o with | .start _ => true | _ => false) = true) : o = .start (startOf o) := by
  cases o <;> simp_all [startOf]

private def staticStart : Start := startOf (mainStart confinedEnv (confinedOpts "static") ["/bin/true".toList])
private def libraryStart : Start := startOf (mainStart confinedEnv (confinedOpts "dynamic") ["/bin/true".toList])

private theorem staticStart_is : mainStart confinedEnv (confinedOpts "static") ["/bin/true".toList] = .start staticStart := start_of (by decide +kernel)
private theorem libraryStart_is : mainStart confinedEnv (confinedOpts "dynamic") ["/bin/true".toList] = .start libraryStart := start_of (by decide +kernel)

private theorem ok_of : ∀ x : Out Unit × List Ev, x.1 = .ok () → x = (.ok (), x.2) := by
  rintro ⟨a, b⟩ h; simp only at h; rw [h]

private theorem good_env : GoodCliEnv confinedEnv.cli :=
  ⟨fun _ _ h => by cases h; decide, fun _ _ h => by cases h; decide, fun _ p h => by cases h; decide, fun _ _ h => (by cases h), by decide⟩

private theorem text_opts (type : String) (h : type = "static" ∨ type = "dynamic") : ∀ p ∈ confinedOpts type, TextArg p.2 := by
  intro p hp s hs
  rcases h with rfl | rfl <;> revert hs <;> simp only [confinedOpts, List.mem_cons, List.not_mem_nil, or_false] at hp <;>
    rcases hp with rfl | rfl | rfl | rfl | rfl | rfl | rfl | rfl | rfl | rfl | rfl <;> intro hs <;> cases hs <;> (unfold IsText; decide +kernel)

/-- It is run statically linked; everything is granted. -/
private theorem staticRun : Executed {} false staticStart.jail obliging (runChild {} false staticStart.jail obliging []).2 :=
  ok_of (runChild {} false staticStart.jail obliging []) (by decide +kernel)

/-- And with the library. -/
private theorem libraryRun : Executed {} true libraryStart.jail obliging (runChild {} true libraryStart.jail obliging []).2 :=
  ok_of (runChild {} true libraryStart.jail obliging []) (by decide +kernel)

private theorem libraryMain : MainCalled {} libraryStart.jail false (some 3) [.wrote 8, .wrote 65535] (.got 8) (.got 65535) (fun _ => 1#64) noLandlock obliging
    (minijailEnter {} (minijailPreenter (received noLandlock libraryStart.jail)) obliging []).2 :=
  ⟨minijailPreenter (received noLandlock libraryStart.jail), by decide +kernel,
    ok_of (minijailEnter {} (minijailPreenter (received noLandlock libraryStart.jail)) obliging []) (by decide +kernel)⟩

example : Words libraryStart.jail ∧ Transferable libraryStart.jail ∧ libraryStart.jail.filter_prog ≠ some [] ∧ minijailSize (fun _ => 1#64) libraryStart.jail < 2 ^ 64 :=
  ⟨by unfold Words; decide +kernel, by constructor <;> decide +kernel, by decide +kernel, by decide +kernel⟩

private theorem expanded_opts (type : String) : Expanded confinedEnv.cli.readConf (confinedOpts type) (confinedOpts type) := by
  repeat' first | exact .nil | refine .plain (by decide +kernel) ?_

private theorem digits_400 : Digits 16 "400".toList 1024 :=
  .snoc (s := ['4', '0']) (c := '0') (n := 64) (v := 0) (.snoc (s := ['4']) (c := '0') (n := 4) (v := 0) (.snoc (s := []) (c := '4') (n := 0) (v := 4) .nil rfl (by decide)) rfl (by decide)) rfl (by decide)
private theorem digits_1000 : Digits 10 "1000".toList 1000 :=
  .snoc (s := ['1', '0', '0']) (c := '0') (n := 100) (v := 0) (.snoc (s := ['1', '0']) (c := '0') (n := 10) (v := 0) (.snoc (s := ['1']) (c := '0') (n := 1) (v := 0) (.snoc (s := []) (c := '1') (n := 0) (v := 1) .nil rfl (by decide)) rfl (by decide)) rfl (by decide)) rfl (by decide)

/-- The program is user 1000 for ever, is never again without the filter, and never has CAP_SYS_ADMIN. -/
example (r : Proc) (hr : Later (after rootProc (runChild {} false staticStart.jail obliging []).2) r) :
    r.uid = 1000#32 ∧ some [⟨6, 0, 0, 0⟩] ∈ r.filters ∧ r.eff.getLsbD 21 = false := by
  obtain ⟨all, hx, -, n, hn, -, L⟩ := C56_static confinedEnv good_env (confinedOpts "static") (text_opts _ (.inl rfl)) _ _ staticStart_is {} obliging _ staticRun oneGroup
    rootProc _ (evolves_after _ _)
  cases expanded_unique hx (expanded_opts _)
  have L := L r hr
  have hc : LastArg (confinedOpts "static") (letter 'c') "400".toList := ⟨(confinedOpts "static").take 2, _, (confinedOpts "static").drop 3, rfl, rfl, by unfold letter; decide⟩
  have hS : LastArg (confinedOpts "static") (letter 'S') "/policy".toList := ⟨(confinedOpts "static").take 4, _, (confinedOpts "static").drop 5, rfl, rfl, by unfold letter; decide⟩
  have hB : Without (confinedOpts "static") (letter 'B') := by unfold Without letter; decide
  have hu : Gave (confinedOpts "static") 'u' (some "1000".toList) := by unfold Gave; decide
  have hnn : Given (confinedOpts "static") 'n' := ⟨none, by decide⟩
  have h40 : n = 40 := by
    have h := hn ⟨some "400".toList, by decide⟩
    have ha : ((runChild {} false staticStart.jail obliging []).2.all fun e => match e.1 with | .lastCap => decide (e.2 = 40) | _ => true) = true := by decide +kernel
    have := List.all_eq_true.1 ha _ h
    simp only [decide_eq_true_eq] at this
    exact Int.ofNat.inj this
  subst h40
  refine ⟨?_, L.S rfl rfl _ hS, ?_⟩
  · obtain ⟨m, id, h1, h2, h3⟩ := L.u rfl hnn hB (by decide) _ _ hc hu
    have hm := h1.2 rfl 1024 (.plain (ws := []) (fun _ h => by cases h) ⟨"400".toList, by decide, digits_400, .inl rfl⟩) (by decide)
    have hid := h2.1 1000 (.plain (ws := []) (fun _ h => by cases h) ⟨by decide, digits_1000⟩) (by decide)
    have hm : m = 1024#64 := BitVec.eq_of_toNat_eq hm
    have hid : id = 1000#32 := BitVec.eq_of_toNat_eq hid
    subst hm hid
    exact h3 (by decide) (by decide)
  · obtain ⟨m, h1, h2⟩ := L.c _ hc hB
    have hm := h1.2 rfl 1024 (.plain (ws := []) (fun _ h => by cases h) ⟨"400".toList, by decide, digits_400, .inl rfl⟩) (by decide)
    have hm : m = 1024#64 := BitVec.eq_of_toNat_eq hm
    subst hm
    exact (h2 21 (by decide) (by decide)).1

end Minijail
