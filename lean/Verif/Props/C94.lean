import Verif.Proof.RustLog
/-!
# C94: Messages of the Rust crate go where they were asked for last, and into no other file

A program makes, clones and drops jails in any order, gives them files for messages, asks for the default, and opens and closes other files (`Act`). Where messages are expected is `Expect`: wherever was
asked for last (`Spec/LogOwner`). The theorems are about all that a program can do (`Does`), of any length.

`C94_told_partial`: a message goes there, unless the jail it was asked for is gone. `C94_own_partial`: if at no message that jail was gone, every message has gone to the system log, to standard error or
to a file given for messages. `C94_closed`: jails close their own descriptors and no others, and leave none open. The full claims have no such condition, and are false: a clone takes the messages over, and when it is dropped, its descriptor is closed (rust/minijail/src/lib.rs:385,
452-457, 1055-1064), but the library keeps the number. The messages are lost (`C94_violated_lost`), although the first jail still lives and has the file open (`C94_open`); or they go into whatever file the
program opens next (`C94_violated`). It is always one of the two (`C94_astray`).
-/
set_option autoImplicit false
set_option linter.unusedSimpArgs false
namespace Minijail
open RustLog

/-- Where the next message of a priority goes. Nothing is said (the last line) if the jail that was asked for last is gone; for that see `C94_astray`. -/
theorem C94_told_partial (table : Nat → Option Nat) (se : Nat) (h2 : table 2 = some se) (l : List Act) (p : Proc) (h : Does (Proc.start table) l p) (priority : Int) (text : Nat) :
    (act p (.message priority text)).sent =
        match (l.foldl expect Expect.start).told with
        | .syslog => (text, .syslog) :: p.sent
        | .stderr => if priority ≤ 6 then (text, .file se) :: p.sent else p.sent
        | .jail _ f least => if priority ≤ least then (text, .file f) :: p.sent else p.sent
        | .gone => (act p (.message priority text)).sent := by
  have i := inv_does h (inv_start h2)
  have ht := i.told
  cases e : (l.foldl expect Expect.start).told with
  | syslog => rw [e] at ht; simp [act, doLog, ht]
  | stderr =>
    rw [e] at ht
    by_cases hp : priority ≤ 6
    · have : ¬ (6 < priority) := by omega
      simp [act, doLog, ht, i.two, hp, this]
    · have : 6 < priority := by omega
      simp [act, doLog, ht, hp, this]
  | jail j f least =>
    rw [e] at ht
    obtain ⟨h1, n, h3, h4⟩ := ht
    obtain ⟨g, h5, h6⟩ := i.own j n least h3
    have hg : f = g := by rw [h1] at h5; cases h5; rfl
    by_cases hp : priority ≤ least
    · have : ¬ (least < priority) := by omega
      simp [act, doLog, h4, h6, hg, hp, this]
    · have : least < priority := by omega
      simp [act, doLog, h4, hp, this]
  | gone => rfl

/-- A jail that lives has the file it was given last open, under its own descriptor, whatever is done with other jails. -/
theorem C94_open (table : Nat → Option Nat) (se : Nat) (h2 : table 2 = some se) (l : List Act) (p : Proc) (h : Does (Proc.start table) l p) (j f : Nat) (least : Int)
    (hj : (l.foldl expect Expect.start).files j = some (f, least)) :
    ∃ n, p.jails j = some (some (n, least)) ∧ p.table n = some f ∧ n ≠ 2 ∧ ∀ k q, p.jails k = some (some (n, q)) → k = j := by
  have i := inv_does h (inv_start h2)
  by_cases hx : ∃ n pr, p.jails j = some (some (n, pr))
  · obtain ⟨n, pr, hx⟩ := hx
    obtain ⟨g, h5, h6⟩ := i.own j n pr hx
    rw [hj] at h5
    cases h5
    exact ⟨n, hx, h6, i.nottwo j n least hx, fun k q hk => i.apart k j n q least hk hx⟩
  · have := i.bare j fun n pr q => hx ⟨n, pr, q⟩
    rw [hj] at this
    cases this

/-- Jails close their own descriptors and no others, and leave none open: what is open is what the program has open itself, and one descriptor for each living jail that was given a file. -/
theorem C94_closed (table : Nat → Option Nat) (se : Nat) (h2 : table 2 = some se) (l : List Act) (p : Proc) (h : Does (Proc.start table) l p) (n : Nat) :
    (∃ j f least, (l.foldl expect Expect.start).files j = some (f, least) ∧ p.jails j = some (some (n, least)) ∧ p.table n = some f ∧ (l.foldl without table) n = none) ∨
    ((∀ j least, p.jails j ≠ some (some (n, least))) ∧ p.table n = (l.foldl without table) n) := by
  have i := inv_does h (inv_start h2)
  have s := split_does h (inv_start h2) (split_start table)
  by_cases ho : Owned p n
  · obtain ⟨j, pr, hj⟩ := ho
    obtain ⟨f, h5, h6⟩ := i.own j n pr hj
    exact .inl ⟨j, f, pr, h5, hj, h6, s.jails n ⟨j, pr, hj⟩⟩
  · exact .inr ⟨fun j pr q => ho ⟨j, pr, q⟩, s.rest n ho⟩

/-- What happens once the jail that was asked for last is gone, until a place is asked for again: there is a number under which no jail has a file, and all messages of the priority go into what the
program has open under it, or are lost. -/
theorem C94_astray (table : Nat → Option Nat) (se : Nat) (h2 : table 2 = some se) (l : List Act) (p : Proc) (h : Does (Proc.start table) l p)
    (hg : (l.foldl expect Expect.start).told = .gone) :
    ∃ n least, (∀ j q, p.jails j ≠ some (some (n, q))) ∧ ∀ priority text, (act p (.message priority text)).sent =
      if priority ≤ least then (text, match (l.foldl without table) n with | some f => .file f | none => .nowhere) :: p.sent else p.sent := by
  have s := split_does h (inv_start h2) (split_start table)
  obtain ⟨n, least, h3, h4⟩ := gone_does h (inv_start h2) (fun q => by cases q) hg
  refine ⟨n, least, fun j q hq => h4 ⟨j, q, hq⟩, fun priority text => ?_⟩
  rw [← s.rest n h4]
  by_cases hp : priority ≤ least
  · have : ¬ (least < priority) := by omega
    cases ht : p.table n <;> simp [act, doLog, h3, ht, hp, this]
  · have : least < priority := by omega
    simp [act, doLog, h3, hp, this]

/-- The file of a jail has been given for messages. -/
theorem given_for_messages {l : List Act} {j f : Nat} {pr : Int} :
    ((l.foldl expect Expect.start).files j = some (f, pr) ∨ (l.foldl expect Expect.start).told = .jail j f pr) → ∃ k n q, Act.logToFd k n f q ∈ l := by
  suffices H : ∀ (r : List Act), ∀ j f pr,
      ((r.reverse.foldl expect Expect.start).files j = some (f, pr) ∨ (r.reverse.foldl expect Expect.start).told = .jail j f pr) → ∃ k n q, Act.logToFd k n f q ∈ r by
    intro h
    have := H l.reverse j f pr (by rw [List.reverse_reverse]; exact h)
    simpa using this
  intro r
  induction r with
  | nil => intro j f pr h; cases h with | inl h => cases h | inr h => cases h
  | cons a r ih =>
    intro j f pr h
    rw [List.reverse_cons, List.foldl_append] at h
    simp only [List.foldl_cons, List.foldl_nil] at h
    generalize he : r.reverse.foldl expect Expect.start = e at h ih
    have old : (e.files j = some (f, pr) ∨ e.told = .jail j f pr) → ∃ k n q, Act.logToFd k n f q ∈ a :: r := fun x => by
      obtain ⟨k, n, q, hx⟩ := ih j f pr x
      exact ⟨k, n, q, List.mem_cons_of_mem _ hx⟩
    cases a with
    | logToFd i n g q =>
      by_cases hf : f = g
      · exact ⟨i, n, q, by rw [hf]; exact List.mem_cons_self⟩
      · cases h with
        | inl h =>
          by_cases hi : j = i
          · simp [expect, hi] at h; exact absurd h.1.symm hf
          · simp only [expect, hi, if_false] at h; exact old (.inl h)
        | inr h => simp [expect] at h; exact absurd h.2.1.symm hf
    | clone i k n =>
      cases hi : e.files i with
      | none => simp only [expect, hi] at h; exact old h
      | some x =>
        obtain ⟨g, q⟩ := x
        obtain ⟨k', n', q', hx⟩ := ih i g q (.inl hi)
        by_cases hf : f = g
        · exact ⟨k', n', q', by rw [hf]; exact List.mem_cons_of_mem _ hx⟩
        · cases h with
          | inl h =>
            by_cases hk : j = k
            · simp [expect, hi, hk] at h; exact absurd h.1.symm hf
            · simp only [expect, hi, hk, if_false] at h; exact old (.inl h)
          | inr h => simp [expect, hi] at h; exact absurd h.2.1.symm hf
    | drop i =>
      cases h with
      | inl h =>
        by_cases hi : j = i
        · simp [expect, hi] at h
        · simp only [expect, hi, if_false] at h; exact old (.inl h)
      | inr h =>
        refine old (.inr ?_)
        cases ht : e.told with
        | syslog => simp [expect, ht] at h
        | stderr => simp [expect, ht] at h
        | gone => simp [expect, ht] at h
        | jail a b c =>
          by_cases ha : a = i
          · simp [expect, ht, ha] at h
          · simp [expect, ht, ha] at h; simp [h]
    | initDefault =>
      cases hs : e.asked with
      | true => simp only [expect, hs, if_true] at h; exact old h
      | false =>
        cases h with
        | inl h => simp only [expect, hs, Bool.false_eq_true, if_false] at h; exact old (.inl h)
        | inr h => simp [expect, hs] at h
    | new i => exact old h
    | opens n g => exact old h
    | closes n => exact old h
    | message q m => exact old h

/-- If at no message the jail that was asked for last was gone, no message is lost and none goes into a file that was not given for messages. -/
theorem C94_own_partial (table : Nat → Option Nat) (se : Nat) (h2 : table 2 = some se) (l : List Act) (p : Proc) (h : Does (Proc.start table) l p)
    (hl : ∀ a b priority text, l = a ++ .message priority text :: b → (a.foldl expect Expect.start).told ≠ .gone) :
    ∀ text went, (text, went) ∈ p.sent → went = .syslog ∨ went = .file se ∨ ∃ f, went = .file f ∧ ∃ j n least, Act.logToFd j n f least ∈ l := by
  generalize hs : Proc.start table = s at h
  induction h with
  | nil => intro t w hw; rw [← hs] at hw; cases hw
  | @snoc q l a h ha ih =>
    have ih := ih fun x y pr t e => hl x (y ++ [a]) pr t (by rw [e]; simp)
    have old : ∀ t w, (t, w) ∈ q.sent → w = .syslog ∨ w = .file se ∨ ∃ f, w = .file f ∧ ∃ j n least, Act.logToFd j n f least ∈ l ++ [a] := fun t w hw =>
      (ih t w hw).imp id fun x => x.imp id fun ⟨f, hf, j, n, least, hm⟩ => ⟨f, hf, j, n, least, List.mem_append_left _ hm⟩
    have same : (act q a).sent = q.sent ∨ ∃ pr t, a = .message pr t := by
      cases a with
      | message pr t => exact .inr ⟨pr, t, rfl⟩
      | clone i k n =>
        refine .inl ?_
        simp only [act]
        split <;> rfl
      | initDefault =>
        refine .inl ?_
        simp only [act]
        split <;> rfl
      | new i => exact .inl rfl
      | logToFd i n f pr => exact .inl rfl
      | drop i => exact .inl rfl
      | opens n f => exact .inl rfl
      | closes n => exact .inl rfl
    intro t w hw
    cases same with
    | inl same => rw [same] at hw; exact old t w hw
    | inr same =>
      obtain ⟨pr, m, rfl⟩ := same
      have hg := hl l [] pr m rfl
      rw [← hs] at h
      have ht := C94_told_partial table se h2 l q h pr m
      rw [ht] at hw
      cases e : (l.foldl expect Expect.start).told with
      | gone => exact absurd e hg
      | syslog =>
        simp only [e, List.mem_cons, Prod.mk.injEq] at hw
        exact hw.elim (fun x => .inl x.2) (old t w)
      | stderr =>
        simp only [e] at hw
        split at hw
        · simp only [List.mem_cons, Prod.mk.injEq] at hw
          exact hw.elim (fun x => .inr (.inl x.2)) (old t w)
        · exact old t w hw
      | jail j f least =>
        simp only [e] at hw
        split at hw
        · simp only [List.mem_cons, Prod.mk.injEq] at hw
          refine hw.elim (fun x => .inr (.inr ⟨f, x.2, ?_⟩)) (old t w)
          obtain ⟨k, n, q', hx⟩ := given_for_messages (.inr e)
          exact ⟨k, n, q', List.mem_append_left _ hx⟩
        · exact old t w hw

/-- Descriptors 0, 1 and 2 are open. -/
def stdOpen (i : Nat) : Option Nat := if i < 3 then some i else none

/-- A jail is given the file 100 for messages, cloned, and the clone is dropped (`Minijail::fork` takes one jail each, so programs clone). -/
def cloneDropped : List Act := [.new 0, .logToFd 0 3 100 6, .clone 0 1 4, .drop 1]

/-- What `cloneDropped` leaves. -/
def afterDrop : Proc := cloneDropped.foldl act (Proc.start stdOpen)

theorem cloneDropped_does : Does (Proc.start stdOpen) cloneDropped afterDrop :=
  .snoc (l := [.new 0, .logToFd 0 3 100 6, .clone 0 1 4]) (.drop 1)
    (.snoc (l := [.new 0, .logToFd 0 3 100 6]) (.clone 0 1 4)
      (.snoc (l := [.new 0]) (.logToFd 0 3 100 6) (.snoc (l := []) (.new 0) (.nil _) (by simp [Possible, Proc.start]))
        (by simp [Possible, act, Proc.start, stdOpen]))
      (by simp [Possible, act, Proc.start, stdOpen, closed]))
    (by simp [Possible, act, Proc.start, stdOpen, closed])

/-- The first jail lives and has its file, yet its messages are lost. -/
theorem C94_violated_lost : ∃ l p, Does (Proc.start stdOpen) l p ∧ (l.foldl expect Expect.start).files 0 = some (100, 6) ∧ (act p (.message 3 7)).sent = [(7, .nowhere)] :=
  ⟨cloneDropped, afterDrop, cloneDropped_does, rfl, rfl⟩

/-- The first jail lives and has its file, yet its messages are written into another file that the program opens, and that was never given for messages. -/
theorem C94_violated : ∃ l p, Does (Proc.start stdOpen) l p ∧ (l.foldl expect Expect.start).files 0 = some (100, 6) ∧ (∀ j n q, Act.logToFd j n 200 q ∉ l) ∧
    (act p (.message 3 7)).sent = [(7, .file 200)] :=
  ⟨cloneDropped ++ [.opens 4 200], act afterDrop (.opens 4 200), .snoc _ cloneDropped_does (by simp [Possible, afterDrop, cloneDropped, act, Proc.start, stdOpen, closed]), rfl,
    by intro j n q; simp [cloneDropped], rfl⟩

/-- `C94_closed` on `cloneDropped`: the first jail's number is its own, the clone's is free again. -/
example : afterDrop.table 3 = some 100 ∧ afterDrop.table 4 = none ∧ afterDrop.table 1 = some 1 := ⟨rfl, rfl, rfl⟩

/-- The condition of `C94_astray` is met. -/
example : (cloneDropped.foldl expect Expect.start).told = .gone := rfl

/-- Without the clone's end, all is well: the message goes into the file. -/
example : ∃ l p, Does (Proc.start stdOpen) l p ∧ (l.foldl expect Expect.start).told = .jail 1 100 6 ∧ (act p (.message 3 7)).sent = [(7, .file 100)] :=
  ⟨[.new 0, .logToFd 0 3 100 6, .clone 0 1 4], _,
    .snoc (l := [.new 0, .logToFd 0 3 100 6]) (.clone 0 1 4)
      (.snoc (l := [.new 0]) (.logToFd 0 3 100 6) (.snoc (l := []) (.new 0) (.nil _) (by simp [Possible, Proc.start])) (by simp [Possible, act, Proc.start, stdOpen]))
      (by simp [Possible, act, Proc.start, stdOpen, closed]), rfl, rfl⟩

/-- A program for `C94_own_partial`: the default, a message, a jail's file, a message, and the jail's end. -/
example : ∃ p, Does (Proc.start stdOpen) [.initDefault, .message 3 1, .new 0, .logToFd 0 3 100 6, .message 3 2, .drop 0] p ∧ p.sent = [(2, .file 100), (1, .file 2)] :=
  ⟨_, .snoc (l := [.initDefault, .message 3 1, .new 0, .logToFd 0 3 100 6, .message 3 2]) (.drop 0)
    (.snoc (l := [.initDefault, .message 3 1, .new 0, .logToFd 0 3 100 6]) (.message 3 2)
      (.snoc (l := [.initDefault, .message 3 1, .new 0]) (.logToFd 0 3 100 6)
        (.snoc (l := [.initDefault, .message 3 1]) (.new 0)
          (.snoc (l := [.initDefault]) (.message 3 1) (.snoc (l := []) .initDefault (.nil _) trivial) trivial)
          (by simp [Possible, act, doLog, Proc.start, stdOpen]))
        (by simp [Possible, act, doLog, Proc.start, stdOpen]))
      trivial)
    (by simp [Possible, act, doLog, Proc.start, stdOpen, closed]), rfl⟩

end Minijail
