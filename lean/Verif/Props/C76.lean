import Verif.Proof.BindPath
import Verif.Props.C29
import Verif.Model.Api
/-!
C76: in a build that blocks symbolic links in the sources of bind mounts, a bind mount shows the file that its source names, and not one that a symbolic link leads to.
-/
set_option autoImplicit false
set_option linter.unusedSimpArgs false
namespace Minijail
open Spec Links

variable {T : Tree} {cwd : List (List Char)} {realpath : CStr → Option CStr}

/-- The path, up to one slash at its end, spells the names of a place, and no name on the way is a symbolic link. -/
def Literal (T : Tree) (path : List Char) (r : List (List Char)) : Prop := Direct T r ∧ (path = pathTo r ∨ path = pathTo r ++ ['/'])

private theorem literal_leads {path : List Char} {r r' : List (List Char)} (h : Literal T path r) (hl : PathLeads T cwd path r') : r' = r := by
  obtain ⟨hd, hp⟩ := h
  have hh : path.head? = some '/' := by
    rcases hp with rfl | rfl
    · exact (pathTo_head r).1
    · rw [List.head?_append, (pathTo_head r).1]; rfl
  have hl := hl.2
  rw [if_pos hh] at hl
  rcases hp with rfl | rfl
  · rw [fields_pathTo hd.1, leads_blank] at hl
    by_cases e : r = []
    · subst e
      simp only [if_true] at hl
      rw [leads_blank] at hl
      cases hl; rfl
    · rw [if_neg e] at hl
      have := leads_unique (cur := []) (by simpa using hd) hl
      simpa using this
  · have hf : fields '/' (pathTo r ++ ['/']) = ([] :: (if r = [] then [[]] else r)) ++ [[]] := by
      rw [fields_append, fields_pathTo hd.1]; rfl
    rw [hf, List.cons_append, leads_blank] at hl
    by_cases e : r = []
    · subst e
      simp only [if_true, List.cons_append, List.nil_append] at hl
      rw [leads_blank, leads_blank] at hl
      cases hl; rfl
    · rw [if_neg e] at hl
      have := leads_trailing (cur := []) hl (by simpa using hd)
      simpa using this

/-- A source that is accepted, and that is not below an allowed prefix, spells the place that it leads to, and leads to no other. -/
theorem C76_literal (hc : Direct T cwd) (hcd : cwd ≠ [] → T cwd = some .dir) (hr : TrueAnswers T cwd realpath) (prefixes path : CStr)
    (hp : ∀ p ∈ fields ',' prefixes, p ≠ [] ∧ ¬ Below p path) (h : isValidBindPath true prefixes realpath path = .ok true) :
    ∃ r, Literal T path r ∧ PathLeads T cwd path r ∧ ∀ r', PathLeads T cwd path r' → r' = r := by
  unfold isValidBindPath at h
  rw [tokenizeAll_one ',' _ _ (Nat.le_refl _)] at h
  simp only [Bool.not_true, Bool.false_eq_true, if_false] at h
  cases hcan : isCanonicalPath realpath path with
  | false =>
    rw [hcan] at h
    simp only [Bool.not_false, if_true] at h
    obtain ⟨b, hb, hi⟩ := underPrefix_eq (path := path) (fun p hm => (hp p hm).1)
    rw [hb] at h
    injection h with h
    obtain ⟨p, hm, hbelow⟩ := hi.1 h
    exact absurd hbelow (hp p hm).2
  | true =>
    obtain ⟨rp, hrp, hpath⟩ := isCanonicalPath_iff.1 hcan
    obtain ⟨r, hl, rfl⟩ := hr path rp hrp
    have hd : Direct T r := by
      refine leads_direct hl.2 ?_ ?_
      · split
        · exact Direct.nil
        · exact hc
      · split
        · intro h; exact absurd rfl h
        · exact hcd
    exact ⟨r, ⟨hd, hpath⟩, hl, fun r' hl' => literal_leads ⟨hd, hpath⟩ hl'⟩

/-- Exactly the literal sources are accepted, and those below an allowed prefix; for each source for which realpath(3) answers whenever the path leads to some place. -/
theorem C76_exact (hc : Direct T cwd) (hcd : cwd ≠ [] → T cwd = some .dir) (hr : TrueAnswers T cwd realpath) (prefixes path : CStr)
    (hp : ∀ p ∈ fields ',' prefixes, p ≠ []) (hans : ∀ r, PathLeads T cwd path r → (realpath path).isSome) :
    ∃ b, isValidBindPath true prefixes realpath path = .ok b ∧
      (b = true ↔ (∃ p ∈ fields ',' prefixes, Below p path) ∨ ∃ r, Literal T path r ∧ PathLeads T cwd path r) := by
  obtain ⟨b, hb, hi⟩ := underPrefix_eq (path := path) hp
  unfold isValidBindPath
  rw [tokenizeAll_one ',' _ _ (Nat.le_refl _)]
  simp only [Bool.not_true, Bool.false_eq_true, if_false]
  cases hcan : isCanonicalPath realpath path with
  | false =>
    simp only [Bool.not_false, if_true]
    refine ⟨b, hb, hi.trans ⟨Or.inl, ?_⟩⟩
    rintro (h | ⟨r, hlit, hl⟩)
    · exact h
    · exfalso
      obtain ⟨rp, hrp⟩ := Option.isSome_iff_exists.1 (hans r hl)
      obtain ⟨r', hl', rfl⟩ := hr path rp hrp
      obtain rfl := literal_leads hlit hl'
      have := isCanonicalPath_iff.2 ⟨_, hrp, hlit.2⟩
      rw [hcan] at this
      exact absurd this (by simp)
  | true =>
    refine ⟨true, rfl, ⟨fun _ => Or.inr ?_, fun _ => rfl⟩⟩
    obtain ⟨rp, hrp, hpath⟩ := isCanonicalPath_iff.1 hcan
    obtain ⟨r, hl, rfl⟩ := hr path rp hrp
    refine ⟨r, ⟨leads_direct hl.2 ?_ ?_, hpath⟩, hl⟩
    · split
      · exact Direct.nil
      · exact hc
    · split
      · intro h; exact absurd rfl h
      · exact hcd

/-- A path of the jail's configuration as a text, byte for byte. -/
def byteText (s : BStr) : List Char := s.map fun b => Char.ofNat b.toNat

/-- `minijail_bind` refuses a source that is not literal, and leaves the jail as it was. -/
theorem C76_bind (hc : Direct T cwd) (hcd : cwd ≠ [] → T cwd = some .dir) (hr : TrueAnswers T cwd realpath) (prefixes : CStr) (env : ApiEnv) (j : Jail) (src dest : BStr) (w : Bool)
    (henv : ∀ s, env.validBind s = true → isValidBindPath true prefixes realpath (byteText s) = .ok true)
    (hp : ∀ p ∈ fields ',' prefixes, p ≠ [] ∧ ¬ Below p (byteText src)) (hbad : ∀ r, PathLeads T cwd (byteText src) r → ¬ Literal T (byteText src) r) :
    bindCall env j src dest w = .ret (-ELOOP) j := by
  unfold bindCall
  cases hv : env.validBind src with
  | false => rfl
  | true =>
    obtain ⟨r, h1, h2, _⟩ := C76_literal hc hcd hr prefixes _ hp (henv src hv)
    exact absurd h1 (hbad r h2)

/-- The bind mounts that are made when a jail is entered, whoever configured them, have literal sources: checked right before. `T` is the files at that time. The mounts are the first ones
of those configured (all of them, unless a check failed: C29). -/
theorem C76_mounts {env : EnterEnv} {j : Jail} {k : Kernel} {t : List Ev} (h : Entered env j k t)
    (hc : Direct T cwd) (hcd : cwd ≠ [] → T cwd = some .dir) (hr : TrueAnswers T cwd realpath) (prefixes : CStr)
    (hk : ∀ (src : BStr) (v : Int), (Sys.validBind src, v) ∈ t → v ≠ 0 → isValidBindPath true prefixes realpath (byteText src) = .ok true) :
    ∃ before during after n, t = before ++ during ++ after ∧ during.filter isNewMount = (j.mounts.take n).map (mounted env j) ∧
      (∀ e ∈ before ++ during, ¬ ChangesRoot e.1) ∧ (∀ e ∈ before ++ after, ¬ Prepares e.1) ∧
      ∀ m ∈ j.mounts.take n, m.flags &&& MS_BIND ≠ 0#64 → m.flags &&& MS_REMOUNT = 0#64 → (∀ p ∈ fields ',' prefixes, p ≠ [] ∧ ¬ Below p (byteText m.src)) →
        ∃ r, Literal T (byteText m.src) r ∧ ∀ r', PathLeads T cwd (byteText m.src) r' → r' = r := by
  obtain ⟨E⟩ := trace_of h
  obtain ⟨a, b, c, e, hm, h1, h2⟩ := mounts_split E
  obtain ⟨n, hf, _, _⟩ := mountRun_prefix hm
  have hf' : b.filter isNewMount = (j.mounts.take n).map (mounted env j) := by
    rw [hf]
    unfold mounted
    simp only [target_eq]
  refine ⟨a, b, c, n, e, hf', h1, h2, fun m hmem hb hrem hp => ?_⟩
  have hin : mounted env j m ∈ b := List.mem_of_mem_filter (hf' ▸ List.mem_map_of_mem hmem)
  obtain ⟨v, hv, hvt⟩ := mountRun_checked hm _ _ _ _ _ hin hb hrem
  obtain ⟨r, h1, _, h3⟩ := C76_literal hc hcd hr prefixes _ hp (hk m.src v (by rw [e]; simp only [List.mem_append]; exact Or.inl (Or.inr hvt)) hv)
  exact ⟨r, h1, h3⟩

/-! ### Cases -/

/-- /dev, /etc, /home and /home/x, which is a symbolic link to /etc. -/
def linkTree : Tree := fun p =>
  if p = ["dev".toList] ∨ p = ["etc".toList] ∨ p = ["home".toList] then some .dir
  else if p = ["home".toList, "x".toList] then some (.link "/etc".toList)
  else if p = ["etc".toList, "passwd".toList] then some .file
  else none

/-- What realpath(3) says of some paths there. -/
def linkAnswers : CStr → Option CStr := fun p =>
  if p = "/home/x".toList ∨ p = "/dev/../home/x".toList ∨ p = "/etc/".toList then some "/etc".toList
  else if p = "/etc/passwd".toList ∨ p = "/home/x/passwd".toList then some "/etc/passwd".toList
  else none

theorem link_answers : TrueAnswers linkTree [] linkAnswers := by
  have hx : ∀ rest r, Leads linkTree [] ("etc".toList :: rest) r → Leads linkTree [] ("home".toList :: "x".toList :: rest) r := by
    intro rest r h
    refine .down (by unfold Proper; decide) (by decide) (.link (t := "/etc".toList) (by unfold Proper; decide) (by decide) (by decide) ?_)
    exact .stay (Or.inl rfl) h
  have hetc : Leads linkTree [] ["etc".toList] ["etc".toList] := .down (by unfold Proper; decide) (by decide) .done
  have hpw : Leads linkTree [] ["etc".toList, "passwd".toList] ["etc".toList, "passwd".toList] :=
    .down (by unfold Proper; decide) (by decide) (.file (by unfold Proper; decide) (by decide))
  intro path s h
  unfold linkAnswers at h
  split at h
  · next hp =>
    obtain rfl := Option.some.inj h
    refine ⟨["etc".toList], ?_, by decide⟩
    rcases hp with rfl | rfl | rfl
    · exact ⟨by decide, .stay (Or.inl rfl) (hx [] _ hetc)⟩
    · exact ⟨by decide, .stay (Or.inl rfl) (.down (by unfold Proper; decide) (by decide) (.up (hx [] _ hetc)))⟩
    · exact ⟨by decide, .stay (Or.inl rfl) (.down (by unfold Proper; decide) (by decide) (.stay (Or.inl rfl) .done))⟩
  · split at h
    · next hp =>
      obtain rfl := Option.some.inj h
      refine ⟨["etc".toList, "passwd".toList], ?_, by decide⟩
      rcases hp with rfl | rfl
      · exact ⟨by decide, .stay (Or.inl rfl) hpw⟩
      · exact ⟨by decide, .stay (Or.inl rfl) (hx ["passwd".toList] _ hpw)⟩
    · exact absurd h (by simp)

/-- With the default prefixes: /etc/passwd and /etc/ are accepted, and the link and what is behind it are refused. -/
example : Direct linkTree [] ∧ fields ',' "/dev,/sys".toList = ["/dev".toList, "/sys".toList] ∧
    pathIsParent "/dev".toList "/etc/passwd".toList = .ok false ∧
    isValidBindPath true "/dev,/sys".toList linkAnswers "/etc/passwd".toList = .ok true ∧ isValidBindPath true "/dev,/sys".toList linkAnswers "/etc/".toList = .ok true ∧
    isValidBindPath true "/dev,/sys".toList linkAnswers "/home/x".toList = .ok false ∧ isValidBindPath true "/dev,/sys".toList linkAnswers "/home/x/passwd".toList = .ok false ∧
    isValidBindPath true "/dev,/sys".toList linkAnswers "/nothing".toList = .ok false ∧ isValidBindPath false "/dev,/sys".toList linkAnswers "/home/x".toList = .ok true := by
  have ht : tokenizeAll [','] "/dev,/sys".toList = ["/dev".toList, "/sys".toList] := (tokenizeAll_one ',' _ _ (Nat.le_refl _)).trans (by decide)
  refine ⟨Direct.nil, by decide, by decide, ?_, ?_, ?_, ?_, ?_, ?_⟩ <;> unfold isValidBindPath <;> (try rw [ht]) <;> decide +kernel

/-- The hypotheses of `C76_mounts`: a jail with a bind mount of /a is entered where /a is a directory. -/
example : ∃ t, Entered {} twoMounts obliging t ∧ Direct (fun p => if p = ["a".toList] then some .dir else none) [] ∧
    TrueAnswers (fun p => if p = ["a".toList] then some .dir else none) [] (fun p => if p = "/a".toList then some "/a".toList else none) ∧
    (∀ (src : BStr) (v : Int), (Sys.validBind src, v) ∈ t → v ≠ 0 →
      isValidBindPath true "/dev".toList (fun p => if p = "/a".toList then some "/a".toList else none) (byteText src) = .ok true) ∧
    (∃ v : Int, (Sys.validBind (bstr "/a"), v) ∈ t ∧ v ≠ 0) ∧ twoMounts.mounts.head?.map (·.flags &&& MS_BIND) = some MS_BIND := by
  have h : ∀ x : Out Unit × List Ev, x.1 = .ok () → x = (.ok (), x.2) := by
    rintro ⟨a, b⟩ h; simp only at h; rw [h]
  refine ⟨(minijailEnter {} twoMounts obliging []).2, h _ (by decide +kernel), Direct.nil, ?_, ?_, ⟨1, by decide +kernel, by decide⟩, by decide +kernel⟩
  · intro path s hs
    dsimp only at hs
    split at hs
    · next hp =>
      subst hp
      obtain rfl := Option.some.inj hs
      exact ⟨["a".toList], ⟨by decide, .stay (Or.inl rfl) (.down (by unfold Proper; decide) (by decide) .done)⟩, by decide⟩
    · exact absurd hs (by simp)
  · have key : ∀ e ∈ (minijailEnter {} twoMounts obliging []).2, (match e.1 with | .validBind s => s == bstr "/a" | _ => true) = true := by decide +kernel
    intro src v hm _
    have := key _ hm
    simp only [beq_iff_eq] at this
    rw [this]
    decide +kernel

/-- An allowed prefix is a matter of letters: `/dev/../home/x` begins with `/dev`, is accepted, and leads through a symbolic link in /home to /etc. -/
theorem C76_violated_prefix : isValidBindPath true "/dev,/sys".toList linkAnswers "/dev/../home/x".toList = .ok true ∧
    PathLeads linkTree [] "/dev/../home/x".toList ["etc".toList] ∧ linkTree ["home".toList, "x".toList] = some (.link "/etc".toList) := by
  have ht : tokenizeAll [','] "/dev,/sys".toList = ["/dev".toList, "/sys".toList] := (tokenizeAll_one ',' _ _ (Nat.le_refl _)).trans (by decide)
  refine ⟨?_, ?_, by decide⟩
  · unfold isValidBindPath
    rw [ht]
    decide +kernel
  · obtain ⟨r, h, e⟩ := link_answers "/dev/../home/x".toList "/etc".toList (by decide)
    have : r = ["etc".toList] := by
      have hp : (∀ n ∈ r, Proper n) := (leads_direct h.2 (by rw [if_pos (by decide)]; exact Direct.nil) (by rw [if_pos (by decide)]; intro h; exact absurd rfl h)).1
      have hf := fields_pathTo hp
      rw [← e] at hf
      by_cases hr : r = []
      · rw [if_pos hr] at hf
        exact absurd hf (by decide)
      · rw [if_neg hr] at hf
        have : fields '/' "/etc".toList = [[], "etc".toList] := by decide
        rw [this] at hf
        simpa using hf.symm
    rw [← this]
    exact h

/-- An empty list of prefixes (Android.bp:78), or an empty item in it, is one empty prefix, for which the byte before the string is read (C15_violated). -/
theorem C76_violated_empty (path : CStr) (hne : path ≠ []) (hbad : isCanonicalPath realpath path = false) : isValidBindPath true [] realpath path = .ub := by
  unfold isValidBindPath
  rw [tokenizeAll_one ',' _ _ (Nat.le_refl _), hbad]
  have : pathIsParent [] path = .ub := by
    cases path with
    | nil => exact absurd rfl hne
    | cons c s => rfl
  simp [fields, underPrefix, this]

/-- A system where /a has become a symbolic link since the jail was configured. -/
def relinked : Kernel := fun h c =>
  match c with
  | .validBind _ => 0
  | _ => obliging h c

/-- The check right before the mount does not end the process: entering goes on without that mount and without all later ones, and nothing hides /secret. -/
theorem C76_violated_skipped : ∃ t, Entered {} twoMounts relinked t ∧ (Sys.validBind (bstr "/a"), 0) ∈ t ∧
    ∀ e ∈ t, ∀ src type flags data, e.1 ≠ .mount src (bstr "/secret") type flags data := by
  have h : ∀ x : Out Unit × List Ev, x.1 = .ok () → x = (.ok (), x.2) := by
    rintro ⟨a, b⟩ h; simp only at h; rw [h]
  refine ⟨(minijailEnter {} twoMounts relinked []).2, h _ (by decide +kernel), by decide +kernel, ?_⟩
  have key : ∀ e ∈ (minijailEnter {} twoMounts relinked []).2, (match e.1 with | .mount _ d _ _ _ => d != bstr "/secret" | _ => true) = true := by
    decide +kernel
  intro e he src type flags data hc
  have := key e he
  rw [hc] at this
  simp at this

end Minijail
