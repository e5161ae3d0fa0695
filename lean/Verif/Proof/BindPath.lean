import Verif.Model.BindPath
import Verif.Spec.Links
import Verif.Proof.CliArgs
import Verif.Proof.EnterMounts
import Verif.Props.C15
/-! Lemmas for C76. -/
set_option autoImplicit false
set_option linter.unusedSimpArgs false
namespace Minijail
open Spec

theorem tokenizeAll_one (d : Char) : ∀ (n : Nat) (s : CStr), s.length ≤ n → tokenizeAll [d] s = fields d s := by
  intro n
  induction n with
  | zero =>
    intro s hs
    obtain rfl := List.length_eq_zero_iff.1 (Nat.le_zero.1 hs)
    rw [tokenizeAll_eq _ _ (by simp)]
    rfl
  | succ n ih =>
    intro s hs
    obtain ⟨f, r, e⟩ := token_some s d
    rw [token_fields e, tokenizeAll_eq _ _ (by simp)]
    simp only [tokenize] at e
    rw [if_neg (by simp)] at e
    split at e
    · next h =>
      simp only [Option.some.injEq, Prod.mk.injEq] at e
      obtain ⟨rfl, rfl⟩ := e
      rw [h]
      rfl
    · next x y h =>
      simp only [Option.some.injEq, Prod.mk.injEq] at e
      obtain ⟨rfl, rfl⟩ := e
      rw [h]
      obtain ⟨rfl, _⟩ := strstr1_some.1 h
      simp only [Option.elim]
      rw [ih y (by simp at hs; omega)]

theorem underPrefix_eq {path : CStr} {ps : List CStr} (h : ∀ p ∈ ps, p ≠ []) :
    ∃ b, underPrefix path ps = .ok b ∧ (b = true ↔ ∃ p ∈ ps, Below p path) := by
  induction ps with
  | nil => exact ⟨false, rfl, by simp⟩
  | cons p ps ih =>
    obtain ⟨b, hb, hi⟩ := C15_parent_exact_partial p path (h p (by simp))
    obtain ⟨c, hc, hj⟩ := ih (fun q hq => h q (List.mem_cons_of_mem _ hq))
    unfold underPrefix
    rw [hb]
    cases b with
    | true => exact ⟨true, rfl, by simp only [true_iff]; exact ⟨p, by simp, hi.1 rfl⟩⟩
    | false =>
      refine ⟨c, hc, hj.trans ⟨fun ⟨q, hq, hh⟩ => ⟨q, List.mem_cons_of_mem _ hq, hh⟩, ?_⟩⟩
      rintro ⟨q, hq, hh⟩
      rcases List.mem_cons.1 hq with rfl | hq
      · exact absurd (hi.2 hh) (by simp)
      · exact ⟨q, hq, hh⟩

namespace Links

variable {T : Tree}

theorem Direct.nil : Direct T [] := by
  refine ⟨by simp, fun p hp h => absurd (List.prefix_nil.1 h) hp⟩

theorem Direct.dropLast {r : List (List Char)} (h : Direct T r) : Direct T r.dropLast := by
  refine ⟨fun n hn => h.1 n (List.mem_of_mem_dropLast hn), fun p hp hpre => ?_⟩
  rcases h.2 p hp (hpre.trans (List.dropLast_prefix r)) with hd | ⟨rfl, hf⟩
  · exact Or.inl hd
  · exfalso
    have := hpre.length_le
    simp only [List.length_dropLast] at this
    have := List.length_pos_iff.2 hp
    omega

theorem prefix_snoc {p r : List (List Char)} {n : List Char} (h : p <+: r ++ [n]) : p <+: r ∨ p = r ++ [n] := by
  obtain ⟨q, e⟩ := h
  induction q using List.reverseRecOn with
  | nil => exact Or.inr (by simpa using e)
  | append_singleton q x _ =>
    rw [← List.append_assoc] at e
    exact Or.inl ⟨q, (List.append_inj' e rfl).1⟩

theorem Direct.down {r : List (List Char)} {n : List Char} (h : Direct T r) (hdir : r ≠ [] → T r = some .dir) (hn : Proper n)
    (ht : T (r ++ [n]) = some .dir ∨ T (r ++ [n]) = some .file) : Direct T (r ++ [n]) := by
  refine ⟨fun m hm => ?_, fun p hp hpre => ?_⟩
  · rcases List.mem_append.1 hm with hm | hm
    · exact h.1 m hm
    · rw [List.mem_singleton.1 hm]; exact hn
  · rcases prefix_snoc hpre with hpre | rfl
    · rcases h.2 p hp hpre with hd | ⟨rfl, hf⟩
      · exact Or.inl hd
      · exact Or.inl (hdir hp)
    · exact ht.imp id fun hf => ⟨rfl, hf⟩

/-- The place that is reached is there without links. -/
theorem leads_direct {cur names r : List (List Char)} (h : Leads T cur names r) (hc : Direct T cur) (hd : cur ≠ [] → T cur = some .dir) : Direct T r := by
  induction h with
  | done => exact hc
  | stay _ _ ih => exact ih hc hd
  | @up cur rest r _ ih =>
    refine ih hc.dropLast fun hne => ?_
    rcases hc.dropLast.2 _ hne (List.prefix_refl _) with h | ⟨_, h⟩
    · exact h
    · rcases hc.2 _ hne (List.dropLast_prefix cur) with h' | ⟨e, h'⟩
      · exact h'
      · have hcur : cur ≠ [] := by rintro rfl; exact hne rfl
        rw [e]; exact hd hcur
  | down hp ht _ ih => exact ih (hc.down hd hp (Or.inl ht)) fun _ => ht
  | file hp ht => exact hc.down hd hp (Or.inr ht)
  | @link cur n rest t r hp ht hne _ ih =>
    refine ih ?_ ?_
    · split
      · exact Direct.nil
      · exact hc
    · split
      · intro h; exact absurd rfl h
      · exact hd

/-- The names of a place without links lead to it and to no other. -/
theorem leads_unique {cur names r : List (List Char)} (hn : Direct T (cur ++ names)) (h : Leads T cur names r) : r = cur ++ names := by
  induction names generalizing cur with
  | nil => cases h; simp
  | cons n names ih =>
    have hp : Proper n := hn.1 n (by simp)
    have hpre : cur ++ [n] <+: cur ++ n :: names := ⟨names, by simp⟩
    have hnode := hn.2 (cur ++ [n]) (by simp) hpre
    cases h with
    | stay hs _ => exact absurd hs (by rintro (h | h); exacts [hp.1 h, hp.2.1 h])
    | up _ => exact absurd rfl hp.2.2.1
    | down _ _ hl =>
      rw [ih (by simpa using hn) hl]
      simp
    | file _ _ => rfl
    | link _ ht _ _ =>
      rw [ht] at hnode
      rcases hnode with h | ⟨_, h⟩ <;> simp at h

theorem direct_leads {cur names : List (List Char)} (hn : Direct T (cur ++ names)) : Leads T cur names (cur ++ names) := by
  induction names generalizing cur with
  | nil => simpa using Leads.done
  | cons n names ih =>
    have hp : Proper n := hn.1 n (by simp)
    rcases hn.2 (cur ++ [n]) (by simp) ⟨names, by simp⟩ with h | ⟨e, h⟩
    · have := ih (cur := cur ++ [n]) (by simpa using hn)
      simp only [List.append_assoc, List.singleton_append] at this
      exact .down hp h this
    · have hnames : names = [] := by simpa using e
      subst hnames
      exact .file hp h

theorem fields_proper {n : List Char} (h : '/' ∉ n) : fields '/' n = [n] := by
  induction n with
  | nil => rfl
  | cons c n ih =>
    simp only [List.mem_cons, not_or] at h
    rw [fields, if_neg (fun e => h.1 e.symm), ih h.2]
    rfl

theorem fields_flat {r : List (List Char)} (h : ∀ n ∈ r, '/' ∉ n) : fields '/' (r.flatMap fun n => '/' :: n) = [] :: r := by
  induction r using List.reverseRecOn with
  | nil => rfl
  | append_singleton r n ih =>
    rw [List.flatMap_append]
    simp only [List.flatMap_cons, List.flatMap_nil, List.append_nil]
    rw [fields_append, ih (fun m hm => h m (by simp [hm])), fields_proper (h n (by simp))]
    simp

/-- The fields of the path of a place. -/
theorem fields_pathTo {r : List (List Char)} (h : ∀ n ∈ r, Proper n) : fields '/' (pathTo r) = [] :: (if r = [] then [[]] else r) := by
  unfold pathTo
  split
  · rfl
  · rw [fields_flat fun n hn => (h n hn).2.2.2]

theorem pathTo_head (r : List (List Char)) : (pathTo r).head? = some '/' ∧ pathTo r ≠ [] := by
  unfold pathTo
  split
  · exact ⟨rfl, by simp⟩
  · next h =>
    cases r with
    | nil => exact absurd rfl h
    | cons n r => exact ⟨rfl, by simp⟩

theorem leads_blank {cur names r : List (List Char)} : Leads T cur ([] :: names) r ↔ Leads T cur names r := by
  constructor
  · intro h
    cases h with
    | stay _ h => exact h
    | down hp _ _ => exact absurd rfl hp.1
    | file hp _ => exact absurd rfl hp.1
    | link hp _ _ _ => exact absurd rfl hp.1
  · exact .stay (Or.inl rfl)

/-- Trailing slashes change nothing about where names lead, if they lead anywhere. -/
theorem leads_trailing {cur names r : List (List Char)} (h : Leads T cur (names ++ [[]]) r) (hn : Direct T (cur ++ names)) : r = cur ++ names := by
  induction names generalizing cur with
  | nil =>
    rw [List.nil_append, leads_blank] at h
    cases h
    simp
  | cons n names ih =>
    have hp : Proper n := hn.1 n (by simp)
    have hnode := hn.2 (cur ++ [n]) (by simp) ⟨names, by simp⟩
    rw [List.cons_append] at h
    generalize hl : names ++ [[]] = l at h
    cases h with
    | stay hs _ => exact absurd hs (by rintro (h | h); exacts [hp.1 h, hp.2.1 h])
    | up _ => exact absurd rfl hp.2.2.1
    | down _ _ h =>
      rw [← hl] at h
      rw [ih h (by simpa using hn)]
      simp
    | file _ _ => simp at hl
    | link _ ht _ _ =>
      rw [ht] at hnode
      rcases hnode with h | ⟨_, h⟩ <;> simp at h

end Links

/-- Whether a path is canonical. -/
theorem isCanonicalPath_iff {realpath : CStr → Option CStr} {path : CStr} :
    isCanonicalPath realpath path = true ↔ ∃ rp, realpath path = some rp ∧ (path = rp ∨ path = rp ++ ['/']) := by
  unfold isCanonicalPath
  cases realpath path with
  | none => simp
  | some rp =>
    simp only [Option.some.injEq, exists_eq_left']
    by_cases e : path = rp
    · simp [e]
    · rw [if_neg e]
      simp only [e, false_or, Bool.and_eq_true, beq_iff_eq]
      constructor
      · rintro ⟨⟨h1, h2⟩, h3⟩
        have hs := List.take_append_drop rp.length path
        rw [h2] at hs
        have hl : (path.drop rp.length).length = 1 := by rw [List.length_drop]; omega
        obtain ⟨c, hc⟩ := List.length_eq_one_iff.1 hl
        rw [hc] at hs
        rw [← hs] at h3
        simp at h3
        rw [← hs, h3]
      · rintro rfl
        simp

/-- Every bind mount that is made comes after a check that its source is valid. -/
theorem mountRun_checked {j : Jail} {dev : Option BStr} {ms : List Mountpoint} {t : List Ev} (h : MountRun j dev ms t) :
    ∀ src dest type flags data, (Sys.mount (some src) dest (some type) flags data, 0) ∈ t → flags &&& MS_BIND ≠ 0#64 → flags &&& MS_REMOUNT = 0#64 →
      ∃ v : Int, v ≠ 0 ∧ (Sys.validBind src, v) ∈ t := by
  intro src dest type flags data hm hb hr
  induction h with
  | nil => simp at hm
  | noFlags m ms o ho hw => simp [prepare] at hm
  | notValid m ms o ho hb' =>
    simp only [prepare, List.mem_cons, Prod.mk.injEq, reduceCtorEq, false_and, List.mem_append, List.not_mem_nil, or_false, false_or] at hm
    split at hm <;> simp at hm
  | step m ms o v ho hv t ht ih =>
    rcases List.mem_append.1 hm with hm | hm
    · have hmem : src = m.src ∧ flags = m.flags := by
        unfold stepTrace at hm
        simp only [prepare, done, List.mem_cons, Prod.mk.injEq, reduceCtorEq, false_and, List.mem_append, false_or, List.map_cons, List.map_nil, List.not_mem_nil, or_false] at hm
        rcases hm with hm | hm | hm | hm
        · split at hm <;> simp at hm
        · split at hm <;> simp at hm
        · simp only [Sys.mount.injEq, Option.some.injEq] at hm
          exact ⟨hm.1.1, hm.1.2.2.2.1⟩
        · split at hm <;> simp at hm
      have hbind : isBind m := ⟨by rw [← hmem.2]; exact hb, by rw [← hmem.2]; simp [hr]⟩
      refine ⟨v, hv hbind, List.mem_append_left _ ?_⟩
      unfold stepTrace
      rw [if_pos hbind, hmem.1]
      simp
    · obtain ⟨v, h1, h2⟩ := ih hm
      exact ⟨v, h1, List.mem_append_right _ h2⟩

end Minijail
