import Verif.Proof.CliMaps
/-! C39: the maps of ids that the front end sets up. -/
set_option linter.unusedSimpArgs false
set_option autoImplicit false
namespace Minijail
open Spec

private theorem last_given {ch : Char} {a : Option CStr} {opts : Options} (h : Last opts (letter ch) a) : Given opts ch := by
  obtain ⟨b, n, af, e, hn, _⟩ := h
  exact ⟨a, by rw [e, ← show n = ch.toNat from hn]; simp⟩

/-- **C39**: maps that are given are passed on unchanged; a default map has exactly one entry, which maps the id that was chosen to that of the caller. Not part of
it: ids from 2147483648 on, and a group given before a user that is given by name (see below). -/
theorem C39_partial (env : CliEnv) (he : GoodCliEnv env) (opts : Options) (ht : ∀ p ∈ opts, TextArg p.2) (program : Option CStr) (c : Cli)
    (h : parseArgs env minijailNew opts program = .ok (.run c)) : ∃ all, Expanded env.readConf opts all ∧ Maps env all c.j := by
  have K := carried_uidmap.and <| carried_gidmap.and <| carried_ids.and <| carried_no_maps (env := env) (j0 := minijailNew)
  obtain ⟨c0, j1, c2, I, ⟨um, gm, ids, no⟩, r1, a1, hk, hm, I1, hx, h2, h3, h4, h5⟩ := run_carry K he inv_new (by
    refine ⟨?_, ?_, fun _ => ⟨?_, ?_, ?_, ?_, ?_⟩, rfl, rfl⟩
    · rintro a ⟨b, n, af, h, _⟩; simp at h
    · rintro a ⟨b, n, af, h, _⟩; simp at h
    · rintro ⟨a, h⟩; simp at h
    · exact fun _ => rfl
    · rintro ⟨b, n, af, h, _⟩; simp at h
    · rintro ⟨b, n, af, h, _⟩; simp at h
    · exact fun _ _ => rfl) ht h
  refine ⟨c0.entries, hx, ?_⟩
  have i0 := (reach_kept I.good.reach inv_new).1
  have i1 := (reach_kept r1 i0).1
  obtain ⟨j', e, he2, _, F⟩ := all_ok (settle_final (c := { c0 with j := j1 }) he I1.good.path i1) h2
  have hcj : c.j = j' := by rw [h4, he2]
  rw [hcj]
  clear h2 h3 h4 h5 he2 hcj
  have ag : ∀ s, s ∉ [Setting.uidmap, .gidmap, .propagation, .groups, .filter, .tmpSize, .rules, .preserved] → Agree c0.j j' s := by
    intro s hs
    simp only [List.mem_cons, List.not_mem_nil, or_false, not_or] at hs
    exact (a1 s hs.2.2.2.2.2.2.2).also (F.same s (by simp only [List.mem_cons, List.not_mem_nil, or_false, not_or]; exact ⟨hs.1, hs.2.1, hs.2.2.1, hs.2.2.2.1, hs.2.2.2.2.1, hs.2.2.2.2.2.1, hs.2.2.2.2.2.2.1⟩))
  have u1 : j'.uid = c0.j.uid := ag .uid (by decide)
  have u2 : j'.user = c0.j.user ∧ j'.usergid = c0.j.usergid := ag .user (by decide)
  have u3 : j'.gid = c0.j.gid := ag .gid (by decide)
  have ids := ids hm
  have hset : Given c0.entries 'm' → c0.set_uidmap = true := I.loop.uidmap.2
  have hsetg : Given c0.entries 'M' → c0.set_gidmap = true := I.loop.gidmap.2
  have uid_default : ∀ {id : BitVec 32}, Last c0.entries (letter 'm') none → c0.uid = id → id.toNat < 2 ^ 31 → env.uid.toNat < 2 ^ 31 →
      MapsTo j'.uidmap [(id.toNat, env.uid.toNat, 1)] := by
    intro id hl hi h1 h2
    refine mapsTo_default h1 h2 ?_
    rw [(F.uidmap (hset (last_given hl))).1]
    simp only [uidText, um _ hl, hi]
  have gid_default : ∀ {id : BitVec 32}, Last c0.entries (letter 'M') none → c0.gid = id → id.toNat < 2 ^ 31 → env.gid.toNat < 2 ^ 31 →
      MapsTo j'.gidmap [(id.toNat, env.gid.toNat, 1)] := by
    intro id hl hi h1 h2
    refine mapsTo_default h1 h2 ?_
    rw [(F.gidmap (hsetg (last_given hl))).1]
    simp only [gidText, gm _ hl, hi]
  constructor
  case uid_given =>
    intro a es hl hf
    refine mapsTo_given hf ?_
    rw [(F.uidmap (hset (last_given hl))).1]
    simp only [uidText, um _ hl]
  case uid_chosen =>
    intro hl hg h1 h2
    exact uid_default hl (by rw [u1]; exact ids.uid hg) h1 h2
  case uid_root => exact fun hl hg h2 => uid_default hl (ids.no_uid hg) (by decide) h2
  case gid_given =>
    intro a es hl hf
    refine mapsTo_given hf ?_
    rw [(F.gidmap (hsetg (last_given hl))).1]
    simp only [gidText, gm _ hl]
  case gid_chosen => exact fun hl hg h1 h2 => gid_default hl (by rw [u3]; exact ids.gid hg) h1 h2
  case gid_user => exact fun hl hg h1 h2 => gid_default hl (by rw [u2.2]; exact ids.user_gid hg) h1 h2
  case gid_root => exact fun hl hg hn h2 => gid_default hl (ids.no_gid hg hn) (by decide) h2
  case uid_none =>
    intro hw
    have hs : c0.set_uidmap = false := by
      cases hs : c0.set_uidmap
      · rfl
      · obtain ⟨a, ha⟩ := I.loop.uidmap.1 hs
        exact absurd rfl (hw _ ha)
    have e1 : j'.uidmap = j1.uidmap := F.no_uidmap hs
    have e2 : j1.uidmap = c0.j.uidmap := a1 .uidmap (by decide)
    rw [e1, e2, no.1]; rfl
  case gid_none =>
    intro hw
    have hs : c0.set_gidmap = false := by
      cases hs : c0.set_gidmap
      · rfl
      · obtain ⟨a, ha⟩ := I.loop.gidmap.1 hs
        exact absurd rfl (hw _ ha)
    have e1 : j'.gidmap = j1.gidmap := F.no_gidmap hs
    have e2 : j1.gidmap = c0.j.gidmap := a1 .gidmap (by decide)
    rw [e1, e2, no.2]; rfl
  case setgroups => exact fun hg hc => (F.gidmap (hsetg hg)).2.2.2 hc
  case userns =>
    rintro (h | h)
    · exact (F.uidmap (hset h)).2
    · exact ⟨(F.gidmap (hsetg h)).2.1, (F.gidmap (hsetg h)).2.2.1⟩

private theorem no_minus {t : CStr} {es : List (Nat × Nat × Nat)} (h : MapText t es) : ∀ ch ∈ t, ch.toNat < 256 ∧ ch ≠ '-' := by
  have key : ∀ line e, MapLine line e → ∀ ch ∈ line, ch.toNat < 256 ∧ ch ≠ '-' := by
    intro line e hl ch hm
    refine ⟨(mapLine_chars hl ch hm).1, ?_⟩
    obtain ⟨a, b, c, hw, ha, hb, hc⟩ := hl
    have hd : ∀ {s : CStr} {n : Nat}, Digits 10 s n → ∀ ch ∈ s, ch ≠ '-' := by
      intro s n h ch hc e
      have := digit_plain (((digits_iff 10 (by omega) s n).1 h).1 ch hc)
      rw [e] at this
      exact absurd this (by decide)
    have := fields_chars (P := fun ch => ch ≠ '-') (words_fields (d := ' ') (s := line) (by
      intro f hf
      rw [hw] at hf
      simp only [List.mem_cons, List.not_mem_nil, or_false] at hf
      rcases hf with rfl | rfl | rfl
      · exact hd ha
      · exact hd hb
      · exact hd hc)) ch hm
    rcases this with rfl | h
    · decide
    · exact h
  unfold MapText at h
  have hf : ∀ f ∈ fields '\n' t, ∀ ch ∈ f, ch.toNat < 256 ∧ ch ≠ '-' := by
    generalize fields '\n' t = l at h
    induction h with
    | nil => simp
    | cons h _ ih =>
      intro f hf
      rcases List.mem_cons.1 hf with rfl | hf
      · exact key _ _ h
      · exact ih f hf
  intro ch hc
  rcases fields_chars hf ch hc with rfl | h
  · decide
  · exact h

/-- The user id 3000000000 is a valid one, but its default map says -1294967296, which the kernel refuses. -/
theorem C39_violated_large : ∃ c, parseArgs {} minijailNew [('u'.toNat, some "3000000000".toList), ('m'.toNat, none)] (some "/bin/true".toList) = .ok (.run c) ∧
    c.j.uid = 3000000000#32 ∧ c.j.uidmap = some (bstr "-1294967296 0 1") := by
  refine ⟨_, rfl, ?_⟩
  decide +kernel

/-- That text is no map, whatever the entries. -/
theorem C39_violated_large_text (es : List (Nat × Nat × Nat)) : ¬ MapsTo (some (bstr "-1294967296 0 1")) es := by
  rintro ⟨t, h, q⟩
  have h := Option.some.inj h
  cases t with
  | nil => revert h; decide
  | cons x t =>
    have hx : (45#8 : BitVec 8) = BitVec.ofNat 8 x.toNat := by
      have := congrArg List.head? h
      exact Option.some.inj this
    have hq := no_minus q x (by simp)
    have : 45 = x.toNat % 256 := congrArg BitVec.toNat hx
    rw [Nat.mod_eq_of_lt hq.1] at this
    exact hq.2 (Char.ext (UInt32.toNat_inj.1 this.symm))

/-- A group and then a user by name: the jail runs with group 5, but the default map is made for the group of the user. -/
theorem C39_violated_order : ∃ c, parseArgs { api := { userDb := fun _ => .ok (7#32, 8#32) } } minijailNew
    [('g'.toNat, some "5".toList), ('u'.toNat, some "bob".toList), ('M'.toNat, none)] (some "/bin/true".toList) = .ok (.run c) ∧
    c.j.flags.gid = true ∧ c.j.gid = 5#32 ∧ c.j.gidmap = some (bstr "8 0 1") := by
  refine ⟨_, rfl, ?_⟩
  decide +kernel

/-- Given the other way round, the map is made for group 5. -/
example : ∃ c, parseArgs { uid := 1000#32, gid := 100#32, api := { userDb := fun _ => .ok (7#32, 8#32) } } minijailNew
    [('u'.toNat, some "bob".toList), ('g'.toNat, some "5".toList), ('M'.toNat, none), ('m'.toNat, some "0 1000 1,1 100000 65535".toList)] (some "/bin/true".toList) = .ok (.run c) ∧
    c.j.gid = 5#32 ∧ c.j.gidmap = some (bstr "5 100 1") ∧ c.j.uidmap = some (bstr "0 1000 1\n1 100000 65535") := by
  refine ⟨_, rfl, ?_⟩
  decide +kernel

/-- The text of -m in the example above is one of two entries. -/
example : List.Forall₂ MapLine (fields ',' "0 1000 1,1 100000 65535".toList) [(0, 1000, 1), (1, 100000, 65535)] := by
  have d : ∀ n, Digits 10 (Nat.toDigits 10 n) n := toDigits_digits
  refine .cons ⟨"0".toList, "1000".toList, "1".toList, by decide +kernel, d 0, d 1000, d 1⟩ (.cons ⟨"1".toList, "100000".toList, "65535".toList, by decide +kernel, d 1, d 100000, d 65535⟩ .nil)

end Minijail
