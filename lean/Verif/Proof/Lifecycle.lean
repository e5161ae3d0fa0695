import Verif.Spec.Lifecycle
import Mathlib.Tactic.Tauto
import Mathlib.Tactic.SplitIfs
/-! Invariants for C70. -/
set_option autoImplicit false
set_option linter.unusedSimpArgs false
namespace Minijail.Lifecycle
open Spec

/-- Whoever is `w` has the number `pid`. -/
def At (s : System) (w : Nat) (pid : Int) : Prop := 0 < pid ∧ ∀ q t, s.tasks q = some t → t.who = w → (q : Int) = pid

structure Inv (s : System) : Prop where
  pos : ∀ p t, s.tasks p = some t → p ≠ 0
  lt : ∀ p t, s.tasks p = some t → t.who < s.next
  uniq : ∀ p q t u, s.tasks p = some t → s.tasks q = some u → t.who = u.who → p = q
  ranLt : ∀ j w f, .ran j w f ∈ s.log → w < s.next
  ranOne : ∀ j k w f g, .ran j w f ∈ s.log → .ran k w g ∈ s.log → j = k
  there : ∀ j w f, .ran j w f ∈ s.log → Unreaped w s.log → ∃ p e, s.tasks p = some ⟨w, true, e⟩
  endedLt : ∀ w st, .ended w st ∈ s.log → w < s.next
  ended : ∀ p t, s.tasks p = some t → ∀ st, .ended t.who st ∈ s.log ↔ t.ended = some st
  endedOne : ∀ w st st', .ended w st ∈ s.log → .ended w st' ∈ s.log → st = st'
  told : ∀ w, (s.log.countP (tells w) ≤ 1) ∧ (∀ p t, s.tasks p = some t → t.who = w → s.log.countP (tells w) = 0) ∧ (s.next ≤ w → s.log.countP (tells w) = 0)
  value : ∀ j w v, .reported j w v ∈ s.log → ∃ st, .ended w st ∈ s.log ∧ v = waitResult st
  jail : ∀ j, (lastRun j s.log = none → s.initpid j = 0) ∧ ∀ w, lastRun j s.log = some w → At s w (s.initpid j)
  fwd : (lastForwarded s.log = none → s.forward = -1) ∧ ∀ w, lastForwarded s.log = some w → At s w s.forward

theorem lastRun_mem {j w : Nat} {l : List Note} (h : lastRun j l = some w) : ∃ f, .ran j w f ∈ l := by
  induction l with
  | nil => simp [lastRun] at h
  | cons x l ih =>
    cases x with
    | ran k v f =>
      simp only [lastRun] at h
      by_cases hk : k = j
      · rw [if_pos hk] at h; cases h; subst hk; exact ⟨f, by simp⟩
      · rw [if_neg hk] at h; obtain ⟨g, hg⟩ := ih h; exact ⟨g, by simp [hg]⟩
    | _ => obtain ⟨g, hg⟩ := ih h; exact ⟨g, by simp [hg]⟩

theorem lastForwarded_mem {w : Nat} {l : List Note} (h : lastForwarded l = some w) : ∃ j, .ran j w true ∈ l := by
  induction l with
  | nil => simp [lastForwarded] at h
  | cons x l ih =>
    cases x with
    | ran k v f =>
      cases f with
      | true => simp only [lastForwarded] at h; cases h; exact ⟨k, by simp⟩
      | false => obtain ⟨g, hg⟩ := ih h; exact ⟨g, by simp [hg]⟩
    | _ => obtain ⟨g, hg⟩ := ih h; exact ⟨g, by simp [hg]⟩

theorem inv_start : Inv .start := by
  constructor <;> simp [System.start, lastRun, lastForwarded]

/-- A note that is neither a start, an end, nor tells how something has ended. -/
def Note.plain : Note → Bool
  | .killed _ _ => true
  | .forwarded _ _ => true
  | .refused _ _ => true
  | _ => false

theorem inv_note {s : System} (I : Inv s) {n : Note} (hn : Note.plain n = true) : Inv { s with log := n :: s.log } := by
  have hc : ∀ w, (n :: s.log).countP (tells w) = s.log.countP (tells w) := by
    intro w; cases n <;> simp_all [Note.plain, tells]
  have hl : ∀ j, lastRun j (n :: s.log) = lastRun j s.log := by intro j; cases n <;> simp_all [Note.plain, lastRun]
  have hf : lastForwarded (n :: s.log) = lastForwarded s.log := by cases n <;> simp_all [Note.plain, lastForwarded]
  have hm : ∀ m, Note.plain m = false → (m ∈ n :: s.log ↔ m ∈ s.log) := by
    intro m hm; simp only [List.mem_cons, or_iff_right_iff_imp]; rintro rfl; rw [hn] at hm; cases hm
  have h1 : ∀ j w f, Note.ran j w f ∈ n :: s.log ↔ .ran j w f ∈ s.log := fun _ _ _ => hm _ rfl
  have h2 : ∀ w st, Note.ended w st ∈ n :: s.log ↔ .ended w st ∈ s.log := fun _ _ => hm _ rfl
  have h3 : ∀ j w v, Note.reported j w v ∈ n :: s.log ↔ .reported j w v ∈ s.log := fun _ _ _ => hm _ rfl
  have h4 : ∀ w, Note.taken w ∈ n :: s.log ↔ .taken w ∈ s.log := fun _ => hm _ rfl
  have hu : ∀ w, Unreaped w (n :: s.log) ↔ Unreaped w s.log := by intro w; simp only [Unreaped, h3, h4]
  constructor <;> simp only [h1, h2, h3, hu, hc, hl, hf]
  · exact I.pos
  · exact I.lt
  · exact I.uniq
  · exact I.ranLt
  · exact I.ranOne
  · exact I.there
  · exact I.endedLt
  · exact I.ended
  · exact I.endedOne
  · exact I.told
  · exact I.value
  · exact I.jail
  · exact I.fwd

theorem unreaped_iff (w : Nat) (l : List Note) : Unreaped w l ↔ l.countP (tells w) = 0 := by
  rw [List.countP_eq_zero]
  constructor
  · intro h x hx hc
    cases x <;> simp [tells] at hc
    · subst hc; exact h.1 _ _ hx
    · subst hc; exact h.2 hx
  · intro h
    exact ⟨fun j v hm => by simpa [tells] using h _ hm, fun hm => by simpa [tells] using h _ hm⟩

/-- A process is started. -/
theorem inv_born {s : System} (I : Inv s) {pid : Nat} (child : Bool) (hp : pid ≠ 0) (hfree : s.tasks pid = none) :
    Inv { s with tasks := fun p => if p = pid then some ⟨s.next, child, none⟩ else s.tasks p, next := s.next + 1 } := by
  have hne : ∀ w p, w < s.next → ∀ t : Task, (if p = pid then some ⟨s.next, child, none⟩ else s.tasks p) = some t → t.who = w → s.tasks p = some t := by
    intro w p hw t h ht
    by_cases hq : p = pid
    · rw [if_pos hq] at h; cases h; simp at ht; omega
    · rw [if_neg hq] at h; exact h
  constructor
  · intro p t h
    simp only at h
    by_cases hq : p = pid
    · rw [hq]; exact hp
    · rw [if_neg hq] at h; exact I.pos _ _ h
  · intro p t h
    simp only at h ⊢
    by_cases hq : p = pid
    · rw [if_pos hq] at h; cases h; simp
    · rw [if_neg hq] at h; have := I.lt _ _ h; omega
  · intro p q t u h1 h2 h
    simp only at h1 h2
    by_cases ha : p = pid <;> by_cases hb : q = pid
    · rw [ha, hb]
    · rw [if_pos ha] at h1; rw [if_neg hb] at h2; cases h1; have := I.lt _ _ h2; simp at h; omega
    · rw [if_neg ha] at h1; rw [if_pos hb] at h2; cases h2; have := I.lt _ _ h1; simp at h; omega
    · rw [if_neg ha] at h1; rw [if_neg hb] at h2; exact I.uniq _ _ _ _ h1 h2 h
  · intro j w f h; have := I.ranLt _ _ _ h; simp only; omega
  · exact I.ranOne
  · intro j w f h hu
    obtain ⟨p, e, h'⟩ := I.there j w f h hu
    refine ⟨p, e, ?_⟩
    simp only
    rw [if_neg (by rintro rfl; rw [hfree] at h'; cases h')]
    exact h'
  · intro w st h; have := I.endedLt _ _ h; simp only; omega
  · intro p t h st
    simp only at h
    by_cases hq : p = pid
    · rw [if_pos hq] at h; cases h
      simp only
      constructor
      · intro hm; have := I.endedLt _ _ hm; omega
      · intro h; cases h
    · rw [if_neg hq] at h; exact I.ended _ _ h st
  · exact I.endedOne
  · intro w
    refine ⟨(I.told w).1, ?_, ?_⟩
    · intro p t h ht
      simp only at h
      by_cases hq : p = pid
      · rw [if_pos hq] at h; cases h; exact (I.told w).2.2 (by simp at ht; omega)
      · rw [if_neg hq] at h; exact (I.told w).2.1 _ _ h ht
    · intro hw; exact (I.told w).2.2 (by simp only at hw; omega)
  · exact I.value
  · intro j
    refine ⟨(I.jail j).1, fun w h => ?_⟩
    have := (I.jail j).2 w h
    obtain ⟨f, hf⟩ := lastRun_mem h
    have hw := I.ranLt _ _ _ hf
    exact ⟨this.1, fun q t hq ht => this.2 q t (hne w q hw t hq ht) ht⟩
  · refine ⟨I.fwd.1, fun w h => ?_⟩
    have := I.fwd.2 w h
    obtain ⟨f, hf⟩ := lastForwarded_mem h
    have hw := I.ranLt _ _ _ hf
    exact ⟨this.1, fun q t hq ht => this.2 q t (hne w q hw t hq ht) ht⟩

/-- The process that was started last is the program of a jail. -/
theorem inv_ran {s : System} (I : Inv s) {pid w : Nat} {j : Nat} {fwd : Bool} {d : Nat → Disposition} (hp : pid ≠ 0) (ht : s.tasks pid = some ⟨w, true, none⟩)
    (hnew : ∀ k f, .ran k w f ∉ s.log) :
    Inv { s with initpid := fun k => if k = j then pid else s.initpid k, forward := if fwd then pid else s.forward, disposition := d, log := .ran j w fwd :: s.log } := by
  have hat : At s w pid := ⟨by omega, fun q t hq hw => by rw [I.uniq q pid t _ hq ht hw]⟩
  constructor
  · exact I.pos
  · exact I.lt
  · exact I.uniq
  · intro k v f h
    rcases List.mem_cons.1 h with h | h
    · cases h; exact I.lt _ _ ht
    · exact I.ranLt _ _ _ h
  · intro k l v f g h1 h2
    rcases List.mem_cons.1 h1 with h1 | h1 <;> rcases List.mem_cons.1 h2 with h2 | h2
    · cases h1; cases h2; rfl
    · cases h1; exact absurd h2 (hnew _ _)
    · cases h2; exact absurd h1 (hnew _ _)
    · exact I.ranOne _ _ _ _ _ h1 h2
  · intro k v f h hu
    rcases List.mem_cons.1 h with h | h
    · cases h; exact ⟨pid, none, ht⟩
    · exact I.there k v f h (by rw [unreaped_iff] at hu ⊢; simpa [tells] using hu)
  · intro v st h; exact I.endedLt v st (by simpa using h)
  · intro p t h st
    have := I.ended p t h st
    simpa using this
  · intro v a b h1 h2; exact I.endedOne v a b (by simpa using h1) (by simpa using h2)
  · intro v
    have : ∀ v, (Note.ran j w fwd :: s.log).countP (tells v) = s.log.countP (tells v) := by intro v; simp [tells]
    simp only [this]
    exact I.told v
  · intro k v x h
    obtain ⟨st, h1, h2⟩ := I.value k v x (by simpa using h)
    exact ⟨st, by simp [h1], h2⟩
  · intro k
    simp only [lastRun]
    by_cases hk : j = k
    · subst hk
      rw [if_pos rfl]
      refine ⟨by simp, fun v hv => ?_⟩
      cases hv
      simpa [At] using hat
    · rw [if_neg hk]
      have := I.jail k
      simp only [if_neg (Ne.symm hk)]
      exact this
  · cases fwd with
    | true =>
      simp only [lastForwarded, if_true]
      refine ⟨by simp, fun v hv => ?_⟩
      cases hv
      exact hat
    | false =>
      have := I.fwd
      simp only [lastForwarded, Bool.false_eq_true, if_false]
      exact this

/-- A process ends. -/
theorem inv_ends {s : System} (I : Inv s) {pid w : Nat} {c : Bool} {st : BitVec 32} (ht : s.tasks pid = some ⟨w, c, none⟩) :
    Inv { s with tasks := fun p => if p = pid then some ⟨w, c, some st⟩ else s.tasks p, log := .ended w st :: s.log } := by
  have hsame : ∀ p t, (if p = pid then some ⟨w, c, some st⟩ else s.tasks p) = some t → ∃ u, s.tasks p = some u ∧ u.who = t.who := by
    intro p t h
    by_cases hq : p = pid
    · rw [if_pos hq] at h; cases h; exact ⟨⟨w, c, none⟩, by rw [hq]; exact ht, rfl⟩
    · rw [if_neg hq] at h; exact ⟨t, h, rfl⟩
  have hold : ∀ st', .ended w st' ∉ s.log := by
    intro st' h; have := (I.ended _ _ ht st').1 h; simp at this
  constructor
  · intro p t h; obtain ⟨u, hu, _⟩ := hsame p t h; exact I.pos _ _ hu
  · intro p t h; obtain ⟨u, hu, e⟩ := hsame p t h; rw [← e]; exact I.lt _ _ hu
  · intro p q t u h1 h2 h
    obtain ⟨t', ht', e1⟩ := hsame p t h1
    obtain ⟨u', hu', e2⟩ := hsame q u h2
    exact I.uniq _ _ _ _ ht' hu' (by rw [e1, e2, h])
  · intro k v f h; exact I.ranLt k v f (by simpa using h)
  · intro k l v f g h1 h2; exact I.ranOne k l v f g (by simpa using h1) (by simpa using h2)
  · intro k v f h hu
    obtain ⟨p, e, h'⟩ := I.there k v f (by simpa using h) (by rw [unreaped_iff] at hu ⊢; simpa [tells] using hu)
    by_cases hq : p = pid
    · subst hq; rw [ht] at h'; cases h'; exact ⟨p, some st, by simp⟩
    · exact ⟨p, e, by simp [hq, h']⟩
  · intro v a h
    rcases List.mem_cons.1 h with h | h
    · cases h; exact I.lt _ _ ht
    · exact I.endedLt _ _ h
  · intro p t h a
    simp only at h ⊢
    by_cases hq : p = pid
    · rw [if_pos hq] at h
      cases h
      simp only [List.mem_cons, Note.ended.injEq, true_and, Option.some.injEq]
      constructor
      · rintro (h | h)
        · exact h.symm
        · exact absurd h (hold _)
      · intro h; exact .inl h.symm
    · rw [if_neg hq] at h
      have hw : t.who ≠ w := fun e => hq (I.uniq _ _ _ _ h ht e)
      have := I.ended _ _ h a
      simp only [List.mem_cons, Note.ended.injEq, hw, false_and, false_or]
      exact this
  · intro v a b h1 h2
    rcases List.mem_cons.1 h1 with h1 | h1 <;> rcases List.mem_cons.1 h2 with h2 | h2
    · cases h1; cases h2; rfl
    · cases h1; exact absurd h2 (hold _)
    · cases h2; exact absurd h1 (hold _)
    · exact I.endedOne _ _ _ h1 h2
  · intro v
    have hc : (Note.ended w st :: s.log).countP (tells v) = s.log.countP (tells v) := by simp [tells]
    simp only [hc]
    refine ⟨(I.told v).1, ?_, (I.told v).2.2⟩
    intro p t h hv
    obtain ⟨u, hu, e⟩ := hsame p t h
    exact (I.told v).2.1 _ _ hu (by rw [e, hv])
  · intro k v x h
    obtain ⟨a, h1, h2⟩ := I.value k v x (by simpa using h)
    exact ⟨a, by simp [h1], h2⟩
  · intro k
    have := I.jail k
    refine ⟨this.1, fun v hv => ⟨(this.2 v hv).1, fun q t hq e => ?_⟩⟩
    obtain ⟨u, hu, e'⟩ := hsame q t hq
    exact (this.2 v hv).2 q u hu (by rw [e', e])
  · refine ⟨I.fwd.1, fun v hv => ⟨(I.fwd.2 v hv).1, fun q t hq e => ?_⟩⟩
    obtain ⟨u, hu, e'⟩ := hsame q t hq
    exact (I.fwd.2 v hv).2 q u hu (by rw [e', e])

/-- A process's number becomes free; the note tells how it has ended if it is a program's. -/
theorem inv_gone {s : System} (I : Inv s) {pid : Nat} {t : Task} {notes : List Note} (ht : s.tasks pid = some t)
    (hn : notes = [] ∧ s.log.any (Note.starts t.who) = false ∨ (∃ j st, notes = [.reported j t.who (waitResult st)] ∧ t.ended = some st) ∨ notes = [.taken t.who]) :
    Inv { s with tasks := fun p => if p = pid then none else s.tasks p, log := notes ++ s.log } := by
  have hsame : ∀ p u, (if p = pid then none else s.tasks p) = some u → s.tasks p = some u ∧ u.who ≠ t.who := by
    intro p u h
    by_cases hq : p = pid
    · rw [if_pos hq] at h; cases h
    · rw [if_neg hq] at h; exact ⟨h, fun e => hq (I.uniq _ _ _ _ h ht e)⟩
  have h1 : ∀ j w f, Note.ran j w f ∈ notes ++ s.log ↔ .ran j w f ∈ s.log := by
    intro j w f; rcases hn with ⟨rfl, _⟩ | ⟨k, st, rfl, _⟩ | rfl <;> simp
  have h2 : ∀ w st, Note.ended w st ∈ notes ++ s.log ↔ .ended w st ∈ s.log := by
    intro w st; rcases hn with ⟨rfl, _⟩ | ⟨k, st, rfl, _⟩ | rfl <;> simp
  have hl : ∀ j, lastRun j (notes ++ s.log) = lastRun j s.log := by
    intro j; rcases hn with ⟨rfl, _⟩ | ⟨k, st, rfl, _⟩ | rfl <;> simp [lastRun]
  have hf : lastForwarded (notes ++ s.log) = lastForwarded s.log := by
    rcases hn with ⟨rfl, _⟩ | ⟨k, st, rfl, _⟩ | rfl <;> simp [lastForwarded]
  have hc : ∀ w, w ≠ t.who → (notes ++ s.log).countP (tells w) = s.log.countP (tells w) := by
    intro w hw; rcases hn with ⟨rfl, _⟩ | ⟨k, st, rfl, _⟩ | rfl <;> simp [tells, Ne.symm hw]
  have hc' : (notes ++ s.log).countP (tells t.who) ≤ 1 := by
    have := (I.told t.who).2.1 _ _ ht rfl
    rcases hn with ⟨rfl, _⟩ | ⟨k, st, rfl, _⟩ | rfl <;> simp [tells, this]
  constructor
  · intro p u h; exact I.pos _ _ (hsame p u h).1
  · intro p u h; exact I.lt _ _ (hsame p u h).1
  · intro p q u v a b h; exact I.uniq _ _ _ _ (hsame p u a).1 (hsame q v b).1 h
  · simp only [h1]; exact I.ranLt
  · simp only [h1]; exact I.ranOne
  · intro k w f h hu
    rw [h1] at h
    have hw : w ≠ t.who := by
      rintro rfl
      rcases hn with ⟨_, hs⟩ | ⟨k', st, rfl, _⟩ | rfl
      · have : s.log.any (Note.starts t.who) = true := List.any_eq_true.2 ⟨Note.ran k t.who f, h, by simp [Note.starts]⟩
        rw [hs] at this; cases this
      · exact hu.1 _ _ (List.mem_append_left _ (List.mem_singleton.2 rfl))
      · exact hu.2 (List.mem_append_left _ (List.mem_singleton.2 rfl))
    obtain ⟨p, e, h'⟩ := I.there k w f h (by rw [unreaped_iff] at hu ⊢; rwa [hc w hw] at hu)
    refine ⟨p, e, ?_⟩
    simp only
    rw [if_neg]
    · exact h'
    · rintro rfl; rw [ht] at h'; cases h'; exact hw rfl
  · simp only [h2]; exact I.endedLt
  · intro p u h st; exact (h2 _ _).trans (I.ended _ _ (hsame p u h).1 st)
  · simp only [h2]; exact I.endedOne
  · intro w
    by_cases hw : w = t.who
    · subst hw
      refine ⟨hc', ?_, ?_⟩
      · intro p u h e; exact absurd e (hsame p u h).2
      · intro h; have h1 := I.lt _ _ ht; change s.next ≤ t.who at h; omega
    · simp only [hc w hw]
      exact ⟨(I.told w).1, fun p u h => (I.told w).2.1 p u (hsame p u h).1, (I.told w).2.2⟩
  · intro k w v h
    simp only [h2]
    have hcase : .reported k w v ∈ s.log ∨ ∃ st, w = t.who ∧ v = waitResult st ∧ t.ended = some st := by
      rcases List.mem_append.1 h with h | h
      · rcases hn with ⟨rfl, _⟩ | ⟨k', st, rfl, he⟩ | rfl
        · cases h
        · rw [List.mem_singleton] at h; cases h; exact .inr ⟨st, rfl, rfl, he⟩
        · rw [List.mem_singleton] at h; cases h
      · exact .inl h
    rcases hcase with h | ⟨st, rfl, rfl, he⟩
    · exact I.value k w v h
    · exact ⟨st, (I.ended _ _ ht st).2 he, rfl⟩
  · intro k
    simp only [hl]
    exact ⟨(I.jail k).1, fun w h => ⟨((I.jail k).2 w h).1, fun q u hq => ((I.jail k).2 w h).2 q u (hsame q u hq).1⟩⟩
  · simp only [hf]
    exact ⟨I.fwd.1, fun w h => ⟨(I.fwd.2 w h).1, fun q u hq => (I.fwd.2 w h).2 q u (hsame q u hq).1⟩⟩

theorem ran_inv {s : System} (I : Inv s) {j : Nat} {fwd : Bool} {pid : Nat} {d : Nat → Disposition} (hp : pid ≠ 0) (hfree : s.tasks pid = none) :
    Inv { tasks := fun p => if p = pid then some ⟨s.next, true, none⟩ else s.tasks p
          next := s.next + 1
          initpid := fun k => if k = j then pid else s.initpid k
          forward := if fwd then pid else s.forward
          disposition := d
          log := .ran j s.next fwd :: s.log } := by
  have I1 := inv_born I true hp hfree
  exact inv_ran (j := j) (fwd := fwd) (d := d) (pid := pid) (w := s.next) I1 hp (by simp)
    (fun k f h => by have := I.ranLt _ _ _ h; omega)

theorem inv_step {sg : Signals} {s : System} (I : Inv s) (e : LifeEv) : Inv (lifeStep sg s e) := by
  cases e with
  | run j fwd pid =>
    simp only [lifeStep]
    by_cases h : pid = 0 ∨ (s.tasks pid).isSome
    · rw [if_pos h]; exact I
    · rw [if_neg h]
      simp only [not_or, Bool.not_eq_true, Option.isSome_eq_false_iff, Option.isNone_iff_eq_none] at h
      exact ran_inv I h.1 h.2
  | starts child pid =>
    simp only [lifeStep]
    by_cases h : pid = 0 ∨ (s.tasks pid).isSome
    · rw [if_pos h]; exact I
    · rw [if_neg h]
      simp only [not_or, Bool.not_eq_true, Option.isSome_eq_false_iff, Option.isNone_iff_eq_none] at h
      exact inv_born I child h.1 h.2
  | ends pid st =>
    simp only [lifeStep]
    split
    · rename_i w c h; exact inv_ends I h
    · exact I
  | vanishes pid =>
    simp only [lifeStep]
    split
    · rename_i w c st h
      by_cases ha : s.log.any (Note.starts w) = true
      · rw [if_pos ha]; exact I
      · rw [if_neg ha]
        exact inv_gone (notes := []) I h (.inl ⟨rfl, by simpa using ha⟩)
    · exact I
  | takes pid =>
    simp only [lifeStep]
    split
    · rename_i w st h
      exact inv_gone (notes := [.taken w]) I h (.inr (.inr rfl))
    · exact I
  | wait j =>
    simp only [lifeStep]
    by_cases hp : s.initpid j ≤ 0
    · rw [if_pos hp]; exact inv_note I rfl
    · rw [if_neg hp]
      split
      · exact I
      · rename_i st t ha ht
        have hst : t.ended = some st := by
          unfold waitpidAnswer at ha
          split at ha
          · cases ha
          · rename_i w st' heq
            rw [ht] at heq
            cases heq; cases ha; rfl
          · cases ha
        have hv : ((minijailWait (s.initpid j) [.status st]).map (·.1)).getD 0 = waitResult st := by
          simp [minijailWait, hp, waitLoop]
        rw [hv]
        exact inv_gone (notes := [.reported j t.who (waitResult st)]) I ht (.inr (.inl ⟨j, st, rfl, hst⟩))
      · exact inv_note I rfl
  | kill j permitted =>
    simp only [lifeStep]
    by_cases hp : s.initpid j ≤ 0
    · rw [if_pos hp]; exact inv_note I rfl
    · rw [if_neg hp]
      split
      · exact inv_note I rfl
      · cases permitted <;> exact inv_note I rfl
  | signal sig =>
    simp only [lifeStep]
    split
    · exact I
    · split
      · exact I
      · split
        · exact I
        · exact inv_note I rfl

theorem inv_steps {sg : Signals} {s : System} (I : Inv s) (evs : List LifeEv) : Inv (evs.foldl (lifeStep sg) s) := by
  induction evs generalizing s with
  | nil => exact I
  | cons e es ih => exact ih (inv_step I e)

theorem inv_life (sg : Signals) (evs : List LifeEv) : Inv (lifeRun sg evs) := inv_steps inv_start evs

/-- The number of the jail is that of its program until someone is told how that has ended. -/
theorem jail_task {s : System} (I : Inv s) {j w : Nat} (h : lastRun j s.log = some w) (hu : Unreaped w s.log) :
    0 < s.initpid j ∧ ∃ e, s.tasks (s.initpid j).toNat = some ⟨w, true, e⟩ := by
  obtain ⟨f, hf⟩ := lastRun_mem h
  obtain ⟨p, e, hp⟩ := I.there _ _ _ hf hu
  have hat := (I.jail j).2 w h
  have := hat.2 p _ hp rfl
  refine ⟨hat.1, e, ?_⟩
  rw [← this]; exact hp

theorem fwd_task {s : System} (I : Inv s) {w : Nat} (h : lastForwarded s.log = some w) (hu : Unreaped w s.log) :
    0 < s.forward ∧ ∃ e, s.tasks s.forward.toNat = some ⟨w, true, e⟩ := by
  obtain ⟨f, hf⟩ := lastForwarded_mem h
  obtain ⟨p, e, hp⟩ := I.there _ _ _ hf hu
  have hat := I.fwd.2 w h
  have := hat.2 p _ hp rfl
  refine ⟨hat.1, e, ?_⟩
  rw [← this]; exact hp

end Minijail.Lifecycle
