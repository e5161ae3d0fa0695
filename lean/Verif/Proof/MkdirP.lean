import Verif.Spec.Files
/-! What `mkdir_p` asks for and what that leaves behind. -/
set_option linter.unusedSimpArgs false
set_option autoImplicit false
namespace Minijail
open Spec

variable {σ : Type} {ops : FsOps σ}

/-- The answers `mkdir_p` goes on after. -/
def GoesOn (e : Nat) : Prop := e = 0 ∨ e = 17

/-- Making directories one after the other until one cannot be made. -/
def mkdirAll (ops : FsOps σ) : σ → List BStr → σ × Nat
  | s, [] => (s, 0)
  | s, p :: ps =>
    if (ops.mkdir s p).2 ≠ 0 ∧ (ops.mkdir s p).2 ≠ E_EXIST then ops.mkdir s p else mkdirAll ops (ops.mkdir s p).1 ps

theorem mkdirAll_append (ps qs : List BStr) (s : σ) :
    mkdirAll ops s (ps ++ qs) = if (mkdirAll ops s ps).2 ≠ 0 then mkdirAll ops s ps else mkdirAll ops (mkdirAll ops s ps).1 qs := by
  induction ps generalizing s with
  | nil => simp [mkdirAll]
  | cons p ps ih =>
    by_cases h : (ops.mkdir s p).2 ≠ 0 ∧ (ops.mkdir s p).2 ≠ E_EXIST
    · have e : ∀ l, mkdirAll ops s (p :: l) = ops.mkdir s p := fun l => by rw [mkdirAll, if_pos h]
      rw [List.cons_append, e, e, if_pos h.1]
    · have e : ∀ l, mkdirAll ops s (p :: l) = mkdirAll ops (ops.mkdir s p).1 l := fun l => by rw [mkdirAll, if_neg h]
      rw [List.cons_append, e, e, ih]

/-- What lies before each slash of `rest`, behind `done`. -/
def before (done : BStr) : BStr → List BStr
  | [] => []
  | c :: rest => if c = 47#8 then done :: before (done ++ [c]) rest else before (done ++ [c]) rest

theorem mkdirLoop_eq (rest : BStr) : ∀ (s : σ) (done : BStr), mkdirLoop ops s done rest = mkdirAll ops s (before done rest) := by
  induction rest with
  | nil => intro s done; rfl
  | cons c rest ih =>
    intro s done
    simp only [mkdirLoop, before]
    by_cases h : c = 47#8
    · simp only [h, if_true, mkdirAll, ih]
    · simp only [h, if_false, ih]

theorem before_eq (rest : BStr) : ∀ (done : BStr), before done rest =
    (List.range rest.length).filterMap fun i => if rest[i]? = some 47#8 then some (done ++ rest.take i) else none := by
  induction rest with
  | nil => intro _; rfl
  | cons c rest ih =>
    intro done
    rw [before, List.length_cons, List.range_succ_eq_map, List.filterMap_cons, List.filterMap_map, ih]
    by_cases h : c = 47#8
    · simp [h, Function.comp_def]
    · simp [h, Function.comp_def]

theorem before_waypoints (c : BitVec 8) (rest : BStr) : before [c] rest = waypoints (c :: rest) := by
  rw [before_eq, waypoints, List.length_cons, List.range_succ_eq_map, List.filterMap_cons, List.filterMap_map]
  simp [Function.comp_def]

/-- `mkdir_p` asks for the directories on the way, then for the last one. -/
theorem mkdirP_eq (s : σ) {path : BStr} (hp : path ≠ []) (isdir : Bool) :
    mkdirP ops s path isdir = .ok ((mkdirAll ops s (waypoints path ++ if isdir then [path] else [])).1,
      -((mkdirAll ops s (waypoints path ++ if isdir then [path] else [])).2 : Int)) := by
  cases path with
  | nil => exact absurd rfl hp
  | cons c rest =>
    simp only [mkdirP, mkdirLoop_eq, before_waypoints, mkdirAll_append]
    by_cases h : (mkdirAll ops s (waypoints (c :: rest))).2 ≠ 0
    · simp only [if_pos h]
    · simp only [if_neg h]
      cases isdir with
      | false =>
        have : (mkdirAll ops s (waypoints (c :: rest))).2 = 0 := by omega
        simp [mkdirAll]
      | true =>
        simp only [if_true, mkdirAll]
        by_cases h2 : (ops.mkdir (mkdirAll ops s (waypoints (c :: rest))).1 (c :: rest)).2 ≠ 0 ∧
            (ops.mkdir (mkdirAll ops s (waypoints (c :: rest))).1 (c :: rest)).2 ≠ E_EXIST
        · rw [if_pos h2, if_pos h2]
        · rw [if_neg h2, if_neg h2]; rfl

theorem mem_waypoints {path q : BStr} : q ∈ waypoints path ↔ q ≠ [] ∧ ∃ r, path = q ++ 47#8 :: r := by
  simp only [waypoints, List.mem_filterMap, List.mem_range]
  constructor
  · rintro ⟨i, hi, h⟩
    split at h
    · next hc =>
      simp only [Option.some.injEq] at h
      subst h
      have hg := hc.2
      rw [List.getElem?_eq_getElem hi, Option.some.injEq] at hg
      refine ⟨?_, path.drop (i + 1), ?_⟩
      · intro h0
        have := congrArg List.length h0
        simp only [List.length_take, List.length_nil] at this
        omega
      · rw [← hg, ← List.drop_eq_getElem_cons hi, List.take_append_drop]
    · simp at h
  · rintro ⟨hq, r, rfl⟩
    have : 0 < q.length := by cases q with | nil => simp at hq | cons _ _ => simp
    exact ⟨q.length, by simp, by simp [this]⟩

theorem ancestor_mem {path q : BStr} (h : Ancestor q path) : q ∈ waypoints path := by
  obtain ⟨r, e, hq, -⟩ := h
  exact mem_waypoints.2 ⟨hq, r, e⟩

theorem keeps_all (fs : FileSystem ops) {q : BStr} {k : FileKind} (ps : List BStr) : ∀ s, ops.stat s q = .ok k → ops.stat (mkdirAll ops s ps).1 q = .ok k := by
  induction ps with
  | nil => intro s h; exact h
  | cons p ps ih =>
    intro s h
    rw [mkdirAll]
    split
    · exact fs.mkdir_keeps _ _ _ _ h
    · exact ih _ (fs.mkdir_keeps _ _ _ _ h)

/-- Where each of the directories was asked for, if none was refused. -/
theorem all_asked (fs : FileSystem ops) (ps : List BStr) : ∀ s, (mkdirAll ops s ps).2 = 0 → ∀ p ∈ ps, ∃ t, ((ops.mkdir t p).2 = 0 ∨ (ops.mkdir t p).2 = 17) ∧
    (∀ q k, ops.stat t q = .ok k → ops.stat (mkdirAll ops s ps).1 q = .ok k) ∧
    (∀ q k, ops.stat (ops.mkdir t p).1 q = .ok k → ops.stat (mkdirAll ops s ps).1 q = .ok k) := by
  induction ps with
  | nil => intro s _ p hp; simp at hp
  | cons a ps ih =>
    intro s h p hp
    rw [mkdirAll] at h ⊢
    split at h
    · next hc => exact absurd h hc.1
    · next hc =>
      rw [if_neg hc]
      rcases List.mem_cons.1 hp with rfl | hp
      · exact ⟨s, by unfold E_EXIST at hc; omega, fun q k hk => keeps_all fs _ _ (fs.mkdir_keeps _ _ _ _ hk), fun q k hk => keeps_all fs _ _ hk⟩
      · exact ih _ h p hp

end Minijail
