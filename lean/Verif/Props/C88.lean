import Verif.Proof.Loopback
/-! C88: a jail with a network of its own gets its own loopback device, and touches nobody else's devices. -/
set_option autoImplicit false
set_option linter.unusedSimpArgs false
namespace Minijail
open Spec Loopback

variable {env : EnterEnv} {j : Jail} {k : Kernel} {t : List Ev} {s s' : NetState}

/-- Bringing up the loopback device, on every kernel and whatever it refuses: either it says so and nothing is different afterwards, or the device was there, is up now and has all its other
flags (but "running", 0x40), and no other device is different. No socket stays open. -/
theorem C88_device (no : Refused) (s s' : NetState) (r : Int) (h : configNetLoopback no s = (r, s')) :
    s'.own = s.own ∧ s'.next = s.next ∧ s'.socks = s.socks ∧ (∀ n name, (n ≠ s.own ∨ name ≠ bstr "lo") → s'.dev n name = s.dev n name) ∧
    ((r = -1 ∧ s' = s) ∨ (r = 0 ∧ ∃ f g, s.dev s.own (bstr "lo") = some f ∧ s'.dev s.own (bstr "lo") = some g ∧ isUp g ∧
      ∀ i, i ≠ 0 → i ≠ 6 → g.getLsbD i = f.getLsbD i)) := by
  unfold configNetLoopback at h
  by_cases h1 : no.socket = true
  · rw [if_pos h1] at h
    obtain ⟨rfl, rfl⟩ := Prod.mk.injEq .. ▸ h
    exact ⟨rfl, rfl, rfl, fun _ _ _ => rfl, Or.inl ⟨rfl, rfl⟩⟩
  · rw [if_neg h1] at h
    unfold raiseLoopback getIfFlags setIfFlags at h
    by_cases h2 : no.get = true
    · rw [if_pos h2] at h
      obtain ⟨rfl, rfl⟩ := Prod.mk.injEq .. ▸ h
      exact ⟨rfl, rfl, rfl, fun _ _ _ => rfl, Or.inl ⟨rfl, rfl⟩⟩
    · rw [if_neg h2] at h
      cases h3 : s.dev s.own (bstr "lo") with
      | none =>
        simp only [h3] at h
        obtain ⟨rfl, rfl⟩ := Prod.mk.injEq .. ▸ h
        exact ⟨rfl, rfl, rfl, fun _ _ _ => rfl, Or.inl ⟨rfl, rfl⟩⟩
      | some f =>
        simp only [h3] at h
        by_cases h4 : no.set = true
        · simp only [h4, true_or, if_true] at h
          obtain ⟨rfl, rfl⟩ := Prod.mk.injEq .. ▸ h
          exact ⟨rfl, rfl, rfl, fun _ _ _ => rfl, Or.inl ⟨rfl, rfl⟩⟩
        · simp only [h4, false_or, reduceCtorEq, if_false] at h
          obtain ⟨rfl, rfl⟩ := Prod.mk.injEq .. ▸ h
          refine ⟨rfl, rfl, rfl, ?_, Or.inr ⟨rfl, f, f ||| UP_RUNNING, rfl, ?_, ?_, ?_⟩⟩
          · intro n name hn
            show (if n = s.own ∧ name = bstr "lo" then _ else _) = _
            rw [if_neg (by rintro ⟨a, b⟩; rcases hn with hn | hn <;> contradiction)]
          · show (if s.own = s.own ∧ bstr "lo" = bstr "lo" then _ else _) = _
            rw [if_pos ⟨rfl, rfl⟩]
          · simp [isUp, UP_RUNNING]
          · intro i h0 h6
            have : UP_RUNNING.getLsbD i = false := by
              by_cases hi : i < 16
              · have : ∀ i < 16, i ≠ 0 → i ≠ 6 → UP_RUNNING.getLsbD i = false := by decide
                exact this i hi h0 h6
              · exact BitVec.getLsbD_of_ge _ _ (by omega)
            rw [BitVec.getLsbD_or, this, Bool.or_false]

/-- Whatever was asked for, entering a jail leaves the devices of every network that was there before as they are, also of one that is joined, and leaves no socket open. -/
theorem C88_others (h : Entered env j k t) (hr : NetRun s t s') : s'.socks = s.socks ∧ ∀ n < s.next, s'.dev n = s.dev n := by
  obtain ⟨lo, hr, -, -⟩ := net_run h hr
  unfold netEvents at hr
  split_ifs at hr
  · obtain ⟨m, h1, rfl⟩ := hr
    change (if (0 : Int) = 0 then ∃ n < s.next, s' = { s with own := n } else s' = s) at h1
    rw [if_pos rfl] at h1
    obtain ⟨n, -, rfl⟩ := h1
    exact ⟨rfl, fun _ _ => rfl⟩
  · obtain ⟨m, h1, m', h2, rfl⟩ := hr
    obtain rfl : m = newNet s := h1
    obtain ⟨no, h2⟩ := h2
    obtain ⟨-, -, hs, ho, -⟩ := C88_device no _ _ _ h2
    refine ⟨hs, fun n hn => funext fun name => ?_⟩
    rw [ho n name (Or.inl (by show n ≠ s.next; omega))]
    show (if n = s.next then _ else _) = _
    rw [if_neg (by omega)]
  · obtain ⟨m, h1, rfl⟩ := hr
    obtain rfl : s' = newNet s := h1
    refine ⟨rfl, fun n hn => funext fun name => ?_⟩
    show (if n = s.next then _ else _) = _
    rw [if_neg (by omega)]
  · obtain rfl : s' = s := hr
    exact ⟨rfl, fun _ _ => rfl⟩

/-- A jail with a network of its own is in a network that was not there before and has no device but the loopback device. -/
theorem C88_own (h : Entered env j k t) (hr : NetRun s t s') (hn : j.flags.net = true) (he : j.flags.enter_net = false) :
    s'.own = s.next ∧ ∀ name, (s'.dev s'.own name).isSome = true ↔ name = bstr "lo" := by
  obtain ⟨lo, hr, -, -⟩ := net_run h hr
  have new : ∀ name, ((newNet s).dev s.next name).isSome = true ↔ name = bstr "lo" := by
    intro name
    show Option.isSome (if s.next = s.next then (if name = bstr "lo" then some 8#16 else none) else s.dev s.next name) = true ↔ _
    rw [if_pos rfl]
    split_ifs with h <;> simp [h]
  unfold netEvents at hr
  rw [he, hn, if_neg (by decide), if_pos rfl] at hr
  obtain ⟨m, h1, hr⟩ := hr
  obtain rfl : m = newNet s := h1
  split_ifs at hr
  · obtain ⟨m', h2, rfl⟩ := hr
    obtain ⟨no, h2⟩ := h2
    obtain ⟨h3, -, -, ho, h4⟩ := C88_device no _ _ _ h2
    refine ⟨h3, fun name => ?_⟩
    rw [h3, ← new name]
    by_cases hl : name = bstr "lo"
    · subst hl
      rcases h4 with ⟨-, h4⟩ | ⟨-, f, g, h4, h5, -, -⟩
      · rw [h4]; rfl
      · rw [h5]; exact iff_of_true rfl ((new _).2 rfl)
    · rw [ho _ _ (Or.inr hl)]; rfl
  · obtain rfl : s' = newNet s := hr
    exact ⟨rfl, new⟩

/-- If a jail with a network of its own was asked for its loopback device, bringing it up was tried, and the device works if that was not refused; if it was not asked for it, the device does
not work and nothing leaves the jail. (Missing: the program is run although bringing it up was refused, `C88_violated`.) -/
theorem C88_loopback_partial (h : Entered env j k t) (hr : NetRun s t s') (hn : j.flags.net = true) (he : j.flags.enter_net = false) :
    (j.flags.net_loopback = true → ∃ r, (Sys.loopback, r) ∈ t ∧ (Works s' (bstr "lo") ↔ r = 0)) ∧ (j.flags.net_loopback = false → ∀ name, ¬ Works s' name) := by
  obtain ⟨lo, hr, hm, -⟩ := net_run h hr
  have new : ∀ name f, (newNet s).dev s.next name = some f → f = 8#16 := by
    intro name f hf
    change (if s.next = s.next then (if name = bstr "lo" then some 8#16 else none) else s.dev s.next name) = some f at hf
    rw [if_pos rfl] at hf
    split_ifs at hf
    exact (Option.some.inj hf).symm
  have down : ∀ name, ¬ Works (newNet s) name := by
    rintro name ⟨f, hf, hu⟩
    rw [new name f hf] at hu
    exact absurd hu (by unfold isUp; decide)
  unfold netEvents at hr
  rw [he, hn, if_neg (by decide), if_pos rfl] at hr
  obtain ⟨m, h1, hr⟩ := hr
  obtain rfl : m = newNet s := h1
  constructor
  · intro hl
    rw [if_pos hl] at hr
    obtain ⟨m', h2, rfl⟩ := hr
    obtain ⟨no, h2⟩ := h2
    obtain ⟨h3, -, -, -, h4⟩ := C88_device no _ _ _ h2
    refine ⟨lo, hm ⟨he, hn, hl⟩, ?_⟩
    rcases h4 with ⟨hlo, h4⟩ | ⟨hlo, f, g, -, h5, hu, -⟩
    · have hlo : lo = -1 := hlo
      rw [h4, hlo]
      exact iff_of_false (down _) (by decide)
    · exact iff_of_true ⟨g, by rw [h3]; exact h5, hu⟩ hlo
  · intro hl
    rw [if_neg (by rw [hl]; decide)] at hr
    obtain rfl : s' = newNet s := hr
    exact down

/-- A jail without a network of its own brings no device up. -/
theorem C88_unasked (h : Entered env j k t) (hr : NetRun s t s') (hn : j.flags.net = false ∨ j.flags.enter_net = true) : s'.dev = s.dev := by
  obtain ⟨lo, hr, -, -⟩ := net_run h hr
  unfold netEvents at hr
  by_cases he : j.flags.enter_net = true
  · rw [if_pos he] at hr
    obtain ⟨m, h1, rfl⟩ := hr
    change (if (0 : Int) = 0 then ∃ n < s.next, s' = { s with own := n } else s' = s) at h1
    rw [if_pos rfl] at h1
    obtain ⟨n, -, rfl⟩ := h1
    rfl
  · have hn : j.flags.net = false := hn.resolve_right he
    rw [if_neg he, if_neg (by rw [hn]; decide)] at hr
    obtain rfl : s' = s := hr
    rfl

/-- The jail of `minijail0 -e`. -/
def netJail : Jail := { minijailNew with flags := { minijailNew.flags with net := true, net_loopback := true } }
/-- One network, with a device that is up. -/
def oneNet : NetState := ⟨0, 1, fun n name => if n = 0 ∧ name = bstr "eth0" then some 1#16 else none, 0⟩
/-- The kernel refuses to open a socket, else does as it is asked. -/
def noSocket : Kernel := fun _ c => if c = .loopback then -1 else 0

/-- The loopback device was asked for, bringing it up was refused, and the jail is entered all the same: the device does not work (the result of system.c:230-263 is not looked at in
libminijail.c:2884-2885). -/
theorem C88_violated : ∃ t s', calls minijailNew [({}, .namespaceNet)] = some netJail ∧ Entered {} netJail noSocket t ∧ NetRun oneNet t s' ∧ netJail.flags.net_loopback = true ∧ ¬ Works s' (bstr "lo") := by
  refine ⟨[(.unshare .net, 0), (.loopback, -1)], newNet oneNet, rfl, by unfold Entered; decide +kernel, ⟨newNet oneNet, rfl, newNet oneNet, ⟨{ socket := true }, rfl⟩, rfl⟩, rfl, ?_⟩
  rintro ⟨f, hf, hu⟩
  obtain rfl : (8#16 : BitVec 16) = f := Option.some.inj hf
  exact absurd hu (by unfold isUp; decide)

/-- And where nothing is refused. -/
example : ∃ t s', Entered {} netJail (fun _ _ => 0) t ∧ NetRun oneNet t s' ∧ Works s' (bstr "lo") := by
  refine ⟨[(.unshare .net, 0), (.loopback, 0)], (configNetLoopback {} (newNet oneNet)).2, by unfold Entered; decide +kernel, ⟨newNet oneNet, rfl, _, ⟨{}, rfl⟩, rfl⟩, ?_⟩
  exact ⟨8#16 ||| UP_RUNNING, rfl, by unfold isUp; decide⟩
/-- Without the wish for a loopback device. -/
example : ∃ t s', Entered {} { netJail with flags := { net := true } } (fun _ _ => 0) t ∧ NetRun oneNet t s' ∧ s'.dev 0 (bstr "eth0") = some 1#16 ∧ s'.dev s'.own (bstr "eth0") = none :=
  ⟨[(.unshare .net, 0)], newNet oneNet, by unfold Entered; decide +kernel, ⟨newNet oneNet, rfl, rfl⟩, rfl, rfl⟩
/-- Joining a network. -/
example : ∃ t s', Entered {} { netJail with flags := { enter_net := true } } (fun _ _ => 0) t ∧ NetRun oneNet t s' :=
  ⟨[(.setns ({} : Jail).netns_fd .net, 0)], oneNet, by unfold Entered; decide +kernel, ⟨oneNet, ⟨0, by decide, rfl⟩, rfl⟩⟩
/-- A device keeps its other flags. -/
example : ∃ s', configNetLoopback {} (newNet oneNet) = (0, s') ∧ s'.dev 1 (bstr "lo") = some 0x49#16 := ⟨_, rfl, rfl⟩

end Minijail
