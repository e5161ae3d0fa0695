import Verif.Spec.Log
import Mathlib.Tactic.Basic
/-! What effects do to files. -/
set_option autoImplicit false
set_option linter.unusedSimpArgs false
namespace Minijail
open Spec Logs Blocked

/-- What one effect appends to file `i`. -/
def appended (t : FdTable) (i : Nat) : Effect → List Char
  | .syslog _ _ => []
  | .write fd data => if 0 ≤ fd ∧ (t fd.toNat).map (·.file) = some i then data else []

theorem take_file (t : FdTable) (m : Media) (e : Effect) (i : Nat) : (take t m e).files i = m.files i ++ appended t i e := by
  cases e with
  | syslog p x => simp [take, appended]
  | write fd data =>
    unfold take appended
    by_cases h : fd < 0
    · have h' : ¬0 ≤ fd := by omega
      simp [h, h']
    · have h' : 0 ≤ fd := by omega
      simp only [h, h', if_false, true_and]
      cases t fd.toNat with
      | none => simp
      | some f =>
        simp only [Option.map_some, Option.some.injEq]
        by_cases hi : i = f.file
        · simp [hi]
        · have : ¬f.file = i := fun h => hi h.symm
          simp [hi, this]

theorem takeAll_file (t : FdTable) (i : Nat) : ∀ (es : List Effect) (m : Media), (takeAll t m es).files i = m.files i ++ es.flatMap (appended t i)
  | [], m => by simp [takeAll]
  | e :: es, m => by
    have := takeAll_file t i es (take t m e)
    unfold takeAll at this ⊢
    rw [List.foldl_cons, this, take_file, List.flatMap_cons, List.append_assoc]

theorem appended_vdprintf {pieces : List Char → List (List Char)} (hp : Whole pieces) (t : FdTable) (i : Nat) (fd : Int) (text : List Char) :
    (vdprintf pieces fd text).flatMap (appended t i) = if 0 ≤ fd ∧ (t fd.toNat).map (·.file) = some i then text else [] := by
  unfold vdprintf
  rw [List.flatMap_map]
  unfold appended
  by_cases h : 0 ≤ fd ∧ (t fd.toNat).map (·.file) = some i
  · simp only [h, and_self, if_true]
    have e : List.flatMap (fun a => a) (pieces text) = (pieces text).flatten := by rw [List.flatten_eq_flatMap]; rfl
    exact e.trans (hp text)
  · simp only [h, if_false]
    simp

theorem appended_message {pieces : List Char → List (List Char)} (hp : Whole pieces) (t : FdTable) (i : Nat) (fd p : Int) (text : List Char) :
    (vdprintf pieces fd text ++ vdprintf pieces fd ['\n']).flatMap (appended t i) = asLines (textsFor t i [(.fd fd, p, text)]) := by
  rw [List.flatMap_append, appended_vdprintf hp, appended_vdprintf hp]
  unfold asLines textsFor
  by_cases h : 0 ≤ fd ∧ (t fd.toNat).map (·.file) = some i
  · rw [if_pos h, if_pos h, List.filterMap_cons]
    simp only [h, and_self, if_true]
    simp
  · rw [if_neg h, if_neg h, List.filterMap_cons]
    simp only [h, if_false]
    simp

theorem asLines_append (a b : List (List Char)) : asLines (a ++ b) = asLines a ++ asLines b := by simp [asLines]

theorem textsFor_cons (t : FdTable) (i : Nat) (x : Sink × Int × List Char) (l : List (Sink × Int × List Char)) : textsFor t i (x :: l) = textsFor t i [x] ++ textsFor t i l := by
  unfold textsFor
  rw [← List.filterMap_append]; rfl

theorem effects_file {pieces : List Char → List (List Char)} (hp : Whole pieces) (t : FdTable) (i : Nat) {place : LogPlace} {acts : List LogAct}
    {out : List (Sink × Int × List Char)} (h : Reported place acts out) :
    ∀ cfg, atPlace place cfg → (effects pieces cfg acts).flatMap (appended t i) = asLines (textsFor t i out) := by
  induction h with
  | done => intro cfg _; rfl
  | chosen _ ih => intro cfg _; exact ih _ ⟨rfl, rfl⟩
  | toSyslog _ ih =>
    intro cfg hc
    rw [effects, List.flatMap_append, ih cfg hc, textsFor_cons, asLines_append]
    unfold doLog
    rw [show cfg.logger = .syslog from hc]
    rfl
  | toFd hle _ ih =>
    intro cfg hc
    rw [effects, List.flatMap_append, ih cfg hc, textsFor_cons, asLines_append]
    unfold doLog
    rw [hc.1, hc.2]
    simp only
    rw [if_neg (by omega), appended_message hp]
  | tooLow hlt _ ih =>
    intro cfg hc
    rw [effects, List.flatMap_append, ih cfg hc]
    unfold doLog
    rw [hc.1, hc.2]
    simp only
    rw [if_pos hlt]
    rfl
  | lastSyslog =>
    intro cfg hc
    rw [effects]
    unfold doFatalLog
    rw [show cfg.logger = .syslog from hc]
    rfl
  | lastFd =>
    intro cfg hc
    rw [effects]
    unfold doFatalLog
    rw [hc.1]
    simp only
    rw [appended_message hp]

/-- What one effect adds to the system's log. -/
def logged : Effect → List (Int × List Char)
  | .syslog p x => [(p, x)]
  | .write _ _ => []

theorem takeAll_syslog (t : FdTable) : ∀ (es : List Effect) (m : Media), (takeAll t m es).syslog = m.syslog ++ es.flatMap logged
  | [], m => by simp [takeAll]
  | e :: es, m => by
    have := takeAll_syslog t es (take t m e)
    unfold takeAll at this ⊢
    rw [List.foldl_cons, this, List.flatMap_cons, ← List.append_assoc]
    congr 1
    cases e with
    | syslog p x => rfl
    | write fd data =>
      simp only [take, logged, List.append_nil]
      split
      · rfl
      · split <;> rfl

theorem logged_vdprintf (pieces : List Char → List (List Char)) (fd : Int) (text : List Char) : (vdprintf pieces fd text).flatMap logged = [] := by
  unfold vdprintf
  rw [List.flatMap_map]
  simp [logged]

theorem effects_syslog (pieces : List Char → List (List Char)) {place : LogPlace} {acts : List LogAct} {out : List (Sink × Int × List Char)} (h : Reported place acts out) :
    ∀ cfg, atPlace place cfg → (effects pieces cfg acts).flatMap logged = (out.filter fun x => x.1 = .syslog).map (·.2) := by
  induction h with
  | done => intro cfg _; rfl
  | chosen _ ih => intro cfg _; exact ih _ ⟨rfl, rfl⟩
  | toSyslog _ ih =>
    intro cfg hc
    rw [effects, List.flatMap_append, ih cfg hc]
    unfold doLog
    rw [show cfg.logger = .syslog from hc]
    simp [logged]
  | toFd hle _ ih =>
    intro cfg hc
    rw [effects, List.flatMap_append, ih cfg hc]
    unfold doLog
    rw [hc.1, hc.2]
    simp only
    rw [if_neg (by omega), List.flatMap_append, logged_vdprintf, logged_vdprintf]
    simp
  | tooLow hlt _ ih =>
    intro cfg hc
    rw [effects, List.flatMap_append, ih cfg hc]
    unfold doLog
    rw [hc.1, hc.2]
    simp only
    rw [if_pos hlt]
    rfl
  | lastSyslog =>
    intro cfg hc
    rw [effects]
    unfold doFatalLog
    rw [show cfg.logger = .syslog from hc]
    simp [logged]
  | lastFd =>
    intro cfg hc
    rw [effects]
    unfold doFatalLog
    rw [hc.1]
    simp only
    rw [List.flatMap_append, logged_vdprintf, logged_vdprintf]
    simp

theorem reported_exists : ∀ (acts : List LogAct) (place : LogPlace), ∃ out, Reported place acts out
  | [], _ => ⟨_, .done⟩
  | .logToFd _ _ :: rest, _ => let ⟨out, h⟩ := reported_exists rest _; ⟨out, .chosen h⟩
  | .log _ _ :: rest, .syslog => let ⟨_, h⟩ := reported_exists rest _; ⟨_, .toSyslog h⟩
  | .log p _ :: rest, .fd n least => by
    obtain ⟨out, h⟩ := reported_exists rest (.fd n least)
    by_cases hp : p ≤ least
    · exact ⟨_, .toFd hp h⟩
    · exact ⟨_, .tooLow (by omega) h⟩
  | .fatal _ _ :: _, .syslog => ⟨_, .lastSyslog⟩
  | .fatal _ _ :: _, .fd _ _ => ⟨_, .lastFd⟩

/-- Lines that hold no newline can be told apart. -/
theorem asLines_inj : ∀ {a b : List (List Char)}, (∀ x ∈ a, OneLine x) → (∀ x ∈ b, OneLine x) → asLines a = asLines b → a = b
  | [], [], _, _, _ => rfl
  | [], y :: b, _, _, h => by simp [asLines] at h
  | x :: a, [], _, _, h => by simp [asLines] at h
  | x :: a, y :: b, ha, hb, h => by
    have key : ∀ {x y r s : List Char}, OneLine x → OneLine y → x ++ '\n' :: r = y ++ '\n' :: s → x = y ∧ r = s := by
      intro x
      induction x with
      | nil =>
        intro y r s _ hy h
        cases y with
        | nil => simpa using h
        | cons c y =>
          simp only [List.nil_append, List.cons_append, List.cons.injEq] at h
          exact absurd (by rw [← h.1]; simp) hy
      | cons c x ih =>
        intro y r s hx hy h
        cases y with
        | nil =>
          simp only [List.nil_append, List.cons_append, List.cons.injEq] at h
          exact absurd (by rw [h.1]; simp) hx
        | cons d y =>
          simp only [List.cons_append, List.cons.injEq] at h
          obtain ⟨e1, e2⟩ := ih (fun hm => hx (List.mem_cons_of_mem _ hm)) (fun hm => hy (List.mem_cons_of_mem _ hm)) h.2
          exact ⟨by rw [h.1, e1], e2⟩
    have h' : x ++ '\n' :: asLines a = y ++ '\n' :: asLines b := by simpa [asLines] using h
    obtain ⟨e1, e2⟩ := key (ha x (by simp)) (hb y (by simp)) h'
    rw [e1, asLines_inj (fun z hz => ha z (by simp [hz])) (fun z hz => hb z (by simp [hz])) e2]

theorem mixed_perm {α : Type} {a b c : List α} (h : Mixed a b c) : c.Perm (a ++ b) := by
  induction h with
  | nil => exact .rfl
  | left _ ih => exact ih.cons _
  | right _ ih => exact (ih.cons _).trans List.perm_middle.symm

theorem count_asLines {l : List (List Char)} (h : ∀ x ∈ l, OneLine x) : (asLines l).count '\n' = l.length := by
  induction l with
  | nil => rfl
  | cons x l ih =>
    have e : asLines (x :: l) = x ++ '\n' :: asLines l := by simp [asLines]
    rw [e, List.count_append, List.count_cons_self, ih fun y hy => h y (by simp [hy]), List.count_eq_zero.2 (h x (by simp)), List.length_cons]
    omega

end Minijail
