import Verif.Proof.AcceptLabels
import Verif.Props.C09
import Verif.Props.C58
import Verif.Props.ExampleText
/-!
C64: minijail takes exactly the policies of its language that fit, and the length of the program is known beforehand.
-/
set_option autoImplicit false
set_option linter.unusedSimpArgs false
namespace Minijail
open Spec

/-- A policy of the language that fits is taken, and its program has the length that its rules say. -/
theorem C64_accepted (cx : Ctx) (hcx : NamesFit cx) (text : List Char) (rules : List (BitVec 32 × Rule)) (h : PolicyText cx.lang text rules) (hf : PolicyFits cx rules) :
    ∃ prog, compileFilter cx text = .ok prog ∧ prog.length = policySize cx.t.longBits (cx.builtin ++ rules) :=
  compileFilter_total cx hcx text rules h hf.once hf.oneBlock hf.log hf.labels hf.size

/-- A policy that is taken fits. (`hinj`: no two names of the table have the same number.) -/
theorem C64_only (cx : Ctx) (hcx : NamesFit cx) (hinj : ∀ a ∈ cx.syscalls, ∀ b ∈ cx.syscalls, a.2 = b.2 → a.1 = b.1) (text : List Char)
    (rules : List (BitVec 32 × Rule)) (h : PolicyText cx.lang text rules) (prog : List Insn) (hc : compileFilter cx text = .ok prog) :
    PolicyFits cx rules ∧ prog.length = policySize cx.t.longBits (cx.builtin ++ rules) := by
  have hdup : cx.opts.allowDuplicateSyscalls = false → (rules.map Prod.fst).Nodup := fun ho => C09_no_duplicates cx ho hcx.small hinj text prog hc rules h
  obtain ⟨h1, h2, h3, h4, h5⟩ := compileFilter_only cx hcx hinj text rules h hdup prog hc
  exact ⟨⟨hdup, h1, h2, h3, h5⟩, h4⟩

/-- The texts that minijail takes are the policies that fit. -/
theorem C64_exactly (cx : Ctx) (hcx : NamesFit cx) (hinj : ∀ a ∈ cx.syscalls, ∀ b ∈ cx.syscalls, a.2 = b.2 → a.1 = b.1) (text : List Char) :
    (∃ prog, compileFilter cx text = .ok prog) ↔ ∃ rules, PolicyText cx.lang text rules ∧ PolicyFits cx rules := by
  constructor
  · rintro ⟨prog, hc⟩
    obtain ⟨items, ritems, count, h, -⟩ := compileFilter_ok cx text prog hcx.small hc
    exact ⟨_, h, (C64_only cx hcx hinj text _ h prog hc).1⟩
  · rintro ⟨rules, h, hf⟩
    obtain ⟨prog, hc, -⟩ := C64_accepted cx hcx text rules h hf
    exact ⟨prog, hc⟩

/-- In particular a policy of the language that both compilers take, as far as it fits. -/
theorem C64_common {T : CommonTables} {cx : Ctx} {fs : Offline.PyFiles} {c : Offline.Command} {text : List Char} {rules : List (List Char × Rule)} (h : SameTask T cx fs c text)
    (hcx : NamesFit cx) (hp : CommonPolicy T cx.opts.action.act text rules) (hl : labelDemand (numbered T rules) ≤ 512)
    (hs : policySize T.bits (numbered T rules) ≤ 4096) : ∃ prog, compileFilter cx text = .ok prog ∧ prog.length = policySize T.bits (numbered T rules) := by
  have hm := policy_means (L := cx.lang) h.lang hp
  have hb : cx.t.longBits = T.bits := h.lang.bits
  have hn := numbers_nodup h.arch h.good hp.2.1 hp.2.2
  have hlt : ∀ x ∈ rules, numberOf T x < 2 ^ 31 := by
    intro x hx
    obtain ⟨n, h1⟩ := Option.isSome_iff_exists.1 (hp.2.2 x hx)
    have h2 := h.lang.syscall _ _ h1
    simp only [Ctx.lang, Option.map_eq_some_iff] at h2
    obtain ⟨e, he, rfl⟩ := h2
    have := hcx.small e (List.mem_of_find?_eq_some he)
    simpa [numberOf, h1] using this
  have hnodup : ((numbered T rules).map Prod.fst).Nodup := by
    have : (numbered T rules).map Prod.fst = (rules.map (numberOf T)).map (BitVec.ofNat 32) := by simp [numbered, numberOf]
    rw [this]
    refine hn.map_on fun a ha b hb he => ?_
    obtain ⟨x, hx, rfl⟩ := List.mem_map.1 ha
    obtain ⟨y, hy, rfl⟩ := List.mem_map.1 hb
    have := hlt x hx
    have := hlt y hy
    exact ofNat_inj_small (by omega) (by omega) he
  have := C64_accepted cx hcx text _ hm ⟨fun _ => hnodup, hnodup.sublist (List.filter_sublist.map _), ?_, hl, by rw [h.builtin, List.nil_append, hb]; exact hs⟩
  · rwa [h.builtin, List.nil_append, hb] at this
  · intro hlog
    rw [h.kill] at hlog
    split at hlog <;> cases hlog

/-! ### Cases -/

theorem exCx_names : NamesFit exCx := ⟨by decide, by decide, by
  intro e he c hc
  simp only [exCx, List.mem_cons, List.not_mem_nil, or_false] at he
  rcases he with rfl | rfl | rfl | rfl | rfl <;> simp at hc <;> subst hc <;> rfl⟩

/-- The example: 43 instructions, two of them for the call allowed in every policy. -/
example : NamesFit exCx ∧ (∀ a ∈ exCx.syscalls, ∀ b ∈ exCx.syscalls, a.2 = b.2 → a.1 = b.1) ∧ PolicyText exCx.lang exText exRules ∧ PolicyFits exCx exRules ∧
    policySize 64 (exCx.builtin ++ exRules) = 43 :=
  ⟨exCx_names, by decide, exText_means, ⟨by intro _; decide, by unfold OneBlock; decide, by decide, by decide, by decide⟩, by decide⟩

/-- The policy of the language of both compilers. -/
example : SameTask bothTables (bothCx .kill) (bothFiles bothText) (bothCommand false) bothText ∧ NamesFit (bothCx .kill) ∧
    CommonPolicy bothTables (bothCx .kill).opts.action.act bothText bothRules ∧ labelDemand (numbered bothTables bothRules) ≤ 512 ∧
    policySize bothTables.bits (numbered bothTables bothRules) ≤ 4096 :=
  ⟨both_task, ⟨by decide, by decide, by
    intro e he c hc
    simp only [bothCx, List.mem_cons, List.not_mem_nil, or_false] at he
    rcases he with rfl | rfl | rfl <;> simp at hc <;> subst hc <;> rfl⟩, both_policy, by decide, by decide⟩

end Minijail
