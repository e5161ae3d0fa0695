import Verif.Model.Delivery
import Verif.Props.C21
import Verif.Model.Api
/-! C89: a jail arrives in the process that is to enter it, however the two processes take turns. -/
set_option autoImplicit false
set_option linter.unusedSimpArgs false
namespace Minijail
open Delivery

/-- The bytes a pipe holds when nothing is in the way (pipe(7)), and when the user has too many pipes (pipe-user-pages-soft): two pages. -/
def usualPipe : Nat := 65536
def smallPipe : Nat := 8192

/-- What there is to say of a state of the sending when the reads cannot come between two parts of the jail; the number goes down with every step. -/
inductive Calm (m : Bytes) (k : LandlockKernel) : Nat → St → Prop where
  | s0 : Calm m k 4 (start m)
  | s1 : Calm m k 3 ⟨enc64 (BitVec.ofNat 64 m.length), [wr m], .size⟩
  | s2 : Calm m k 2 ⟨enc64 (BitVec.ofNat 64 m.length) ++ m, [], .size⟩
  | s3 : Calm m k 2 ⟨[], [wr m], .body m.length⟩
  | s4 : Calm m k 1 ⟨m, [], .body m.length⟩
  | s5 : Calm m k 0 ⟨[], [], .done (.unmarshal (minijailUnmarshal k m))⟩

theorem afterSize_enc {m : Bytes} (hm : m.length ≤ 65535) : afterSize (enc64 (BitVec.ofNat 64 m.length)) = .body m.length := by
  unfold afterSize
  rw [if_neg (by simp), decLE_enc64, BitVec.toNat_ofNat, Nat.mod_eq_of_lt (by omega), if_neg (by unfold USHRT_MAX; omega)]

/-- The pipe has room for the jail and its size, or the jail is written at once. -/
def Fits (cap : Nat) (m : Bytes) : Prop := m.length + 8 ≤ cap ∨ (m.length ≤ 4096 ∧ m.length ≤ cap ∧ 8 ≤ cap)

theorem calm_step {cap : Nat} {k : LandlockKernel} {m : Bytes} {n : Nat} {s t : St} (hm : m.length ≤ 65535) (hf : Fits cap m) (h : Calm m k n s) (hs : Step cap k s t) :
    ∃ n', n' < n ∧ Calm m k n' t := by
  have hsplit : ∀ p : Bytes, p.length ≤ 8 → (wr m).split = true → cap < p.length + (wr m).left.length → False := by
    intro p hp h1 h2
    have h1 : m.length > 4096 := by simpa [wr] using h1
    have h2 : cap < p.length + m.length := h2
    rcases hf with hf | hf <;> omega
  cases h with
  | s0 =>
    unfold start at hs
    cases hs with
    | whole _ _ _ _ h => exact ⟨3, by omega, .s1⟩
    | part _ _ _ _ n hs => exact absurd hs (by simp [wr])
    | size _ _ h => exact absurd h (by simp)
  | s1 =>
    cases hs with
    | whole _ _ _ _ h => exact ⟨2, by omega, .s2⟩
    | part _ _ _ _ n hs h0 h1 h2 => exact (hsplit _ (by simp) hs h2).elim
    | size _ _ h =>
      refine ⟨2, by omega, ?_⟩
      rw [List.take_of_length_le (by simp), List.drop_of_length_le (by simp), afterSize_enc hm]
      exact .s3
  | s2 =>
    cases hs with
    | size _ _ h =>
      refine ⟨1, by omega, ?_⟩
      rw [List.take_append_of_le_length (by simp), List.take_of_length_le (by simp), List.drop_append_of_le_length (by simp),
        List.drop_of_length_le (by simp), afterSize_enc hm]
      exact .s4
  | s3 =>
    cases hs with
    | whole _ _ _ _ h => exact ⟨1, by omega, .s4⟩
    | part _ _ _ _ n hs h0 h1 h2 => exact (hsplit _ (by simp) hs h2).elim
    | body _ _ _ h => exact absurd h (by simp)
  | s4 =>
    cases hs with
    | body _ _ _ h =>
      refine ⟨0, by omega, ?_⟩
      rw [List.take_length, List.drop_length]
      unfold afterBody
      rw [if_neg (by simp)]
      exact .s5
  | s5 => cases hs

theorem calm_go {cap : Nat} {k : LandlockKernel} {m : Bytes} {n : Nat} {s : St} (hf : Fits cap m) (h0 : m ≠ []) (h : Calm m k n s) :
    s.reader = .done (.unmarshal (minijailUnmarshal k m)) ∨ ((∀ r, s.reader ≠ .done r) ∧ ∃ t, Step cap k s t) := by
  have h8 : 8 ≤ cap := by rcases hf with h | h <;> omega
  have hc : m.length ≤ cap := by rcases hf with h | h <;> omega
  cases h with
  | s0 => exact .inr ⟨fun r => by unfold start; simp, _, .whole _ _ _ _ (by simpa [wr] using h8)⟩
  | s1 => exact .inr ⟨fun r => by simp, _, .size _ _ (.inl (List.ne_nil_of_length_pos (by simp)))⟩
  | s2 => exact .inr ⟨fun r => by simp, _, .size _ _ (.inr rfl)⟩
  | s3 => exact .inr ⟨fun r => by simp, _, .whole _ _ _ _ (by simpa [wr] using hc)⟩
  | s4 => exact .inr ⟨fun r => by simp, _, .body _ _ _ (.inl h0)⟩
  | s5 => exact .inl rfl

/-- A jail of at most 65535 bytes arrives, whatever turns the two processes take, if the pipe has room for it and its size together, or if it has at most 4096 bytes and the pipe has room for it:
no run has more than four steps, none gets stuck, and where one ends the jail has arrived whole. (Missing: larger jails and smaller pipes, `C89_lost` and `C89_race`.) -/
theorem C89_arrives_partial (cap : Nat) (k : LandlockKernel) (m : Bytes) (hm : m.length ≤ 65535) (h0 : m ≠ []) (hf : Fits cap m) (n : Nat) (s : St)
    (h : Steps cap k n (start m) s) : n ≤ 4 ∧ (s.reader = .done (.unmarshal (minijailUnmarshal k m)) ∨ ((∀ r, s.reader ≠ .done r) ∧ ∃ t, Step cap k s t)) := by
  have inv : ∃ i, i + n ≤ 4 ∧ Calm m k i s := by
    generalize hst : start m = st at h
    induction h with
    | refl => subst hst; exact ⟨4, by omega, .s0⟩
    | step _ h' ih =>
      obtain ⟨i, hi, hc⟩ := ih hst
      obtain ⟨i', hi', hc'⟩ := calm_step hm hf hc h'
      exact ⟨i', by omega, hc'⟩
  obtain ⟨i, hi, hc⟩ := inv
  exact ⟨by omega, calm_go hf h0 hc⟩

/-- What is still to be read, and what came of it. -/
def Stream (cap : Nat) (k : LandlockKernel) (m : Bytes) (s : St) : Prop :=
  s.pipe.length ≤ cap ∧
  match s.reader with
  | .size => s.pipe ++ s.writes.flatMap (·.left) = enc64 (BitVec.ofNat 64 m.length) ++ m
  | .body sz => sz = m.length ∧ s.pipe ++ s.writes.flatMap (·.left) = m
  | .done r => r = .errno 22 ∨ (r = .unmarshal (minijailUnmarshal k m) ∧ m.length ≤ cap)

theorem stream_step {cap : Nat} {k : LandlockKernel} {m : Bytes} {s t : St} (hm : m.length ≤ 65535) (h : Stream cap k m s) (hs : Step cap k s t) : Stream cap k m t := by
  cases hs with
  | whole p w ws r hc =>
    refine ⟨by simpa using hc, ?_⟩
    have := h.2
    cases r <;> simpa using this
  | part p w ws r n hs h0 h1 h2 =>
    refine ⟨by simp only [List.length_append, List.length_take]; omega, ?_⟩
    have := h.2
    cases r <;> simpa [← List.append_assoc (w.left.take n)] using this
  | size p ws hc =>
    have h2 : p ++ ws.flatMap (·.left) = enc64 (BitVec.ofNat 64 m.length) ++ m := h.2
    have h1 : p.length ≤ cap := h.1
    refine ⟨by simp only [List.length_drop]; omega, ?_⟩
    by_cases h8 : (p.take 8).length = 8
    · have hl : 8 ≤ p.length := by simp only [List.length_take] at h8; omega
      have e1 : p.take 8 = enc64 (BitVec.ofNat 64 m.length) := by
        have := congrArg (List.take 8) h2
        rwa [List.take_append_of_le_length hl, List.take_append_of_le_length (by simp), List.take_of_length_le (l := enc64 _) (by simp)] at this
      have e2 : p.drop 8 ++ ws.flatMap (·.left) = m := by
        have := congrArg (List.drop 8) h2
        rwa [List.drop_append_of_le_length hl, List.drop_append_of_le_length (by simp), List.drop_of_length_le (l := enc64 _) (by simp), List.nil_append] at this
      rw [e1, afterSize_enc hm]
      exact ⟨rfl, e2⟩
    · unfold afterSize
      rw [if_pos h8]
      exact .inl rfl
  | body p ws sz hc =>
    obtain ⟨rfl, h2⟩ : sz = m.length ∧ p ++ ws.flatMap (·.left) = m := h.2
    have h1 : p.length ≤ cap := h.1
    refine ⟨by simp only [List.length_drop]; omega, ?_⟩
    unfold afterBody
    by_cases hl : (p.take m.length).length = m.length
    · rw [if_neg (by simpa using hl)]
      have hp : m.length ≤ p.length := by simp only [List.length_take] at hl; omega
      have hw : ws.flatMap (·.left) = [] := by
        have := congrArg List.length h2
        simp only [List.length_append] at this
        exact List.eq_nil_of_length_eq_zero (by omega)
      rw [hw, List.append_nil] at h2
      subst h2
      rw [List.take_length]
      exact .inr ⟨rfl, h1⟩
    · rw [if_pos hl]
      exact .inl rfl

theorem stream_run {cap : Nat} {k : LandlockKernel} {m : Bytes} {n : Nat} {s : St} (hm : m.length ≤ 65535) (h : Steps cap k n (start m) s) : Stream cap k m s := by
  generalize hst : start m = st at h
  induction h with
  | refl => subst hst; exact ⟨by simp [start], by simp [start, wr]⟩
  | step _ h' ih => exact stream_step hm (ih hst) h'

/-- With any pipe and any turns: what arrives is the whole jail, or the library says so and the process ends; nothing else is ever taken for a jail. -/
theorem C89_whole (cap : Nat) (k : LandlockKernel) (m : Bytes) (hm : m.length ≤ 65535) (n : Nat) (s : St) (r : FromFd) (h : Steps cap k n (start m) s) (hr : s.reader = .done r) :
    r = .errno 22 ∨ r = .unmarshal (minijailUnmarshal k m) := by
  have := (stream_run hm h).2
  rw [hr] at this
  rcases this with h | h
  · exact .inl h
  · exact .inr h.1

/-- A jail for which the pipe has no room never arrives, whatever turns the two processes take. -/
theorem C89_lost (cap : Nat) (k : LandlockKernel) (m : Bytes) (hm : m.length ≤ 65535) (hc : cap < m.length) (n : Nat) (s : St) (r : FromFd) (h : Steps cap k n (start m) s)
    (hr : s.reader = .done r) : r = .errno 22 := by
  have := (stream_run hm h).2
  rw [hr] at this
  rcases this with h | h
  · exact h
  · omega

/-- A jail of more than 4096 bytes for which the pipe has room, but not for its size as well: it depends on the turns of the two processes whether it arrives. -/
theorem C89_race (cap : Nat) (k : LandlockKernel) (m : Bytes) (hm : m.length ≤ 65535) (h1 : 4096 < m.length) (h2 : m.length ≤ cap) (h3 : cap < m.length + 8) :
    (∃ n s, Steps cap k n (start m) s ∧ s.reader = .done (.unmarshal (minijailUnmarshal k m))) ∧ ∃ n s, Steps cap k n (start m) s ∧ s.reader = .done (.errno 22) := by
  have first : Step cap k (start m) ⟨enc64 (BitVec.ofNat 64 m.length), [wr m], .size⟩ := .whole _ _ _ _ (by simp [wr]; omega)
  constructor
  · have a2 : Step cap k ⟨enc64 (BitVec.ofNat 64 m.length), [wr m], .size⟩ ⟨[], [wr m], .body m.length⟩ := by
      have := Step.size (cap := cap) (k := k) (enc64 (BitVec.ofNat 64 m.length)) [wr m] (.inl (List.ne_nil_of_length_pos (by simp)))
      rwa [List.take_of_length_le (by simp), List.drop_of_length_le (by simp), afterSize_enc hm] at this
    have a3 : Step cap k ⟨[], [wr m], .body m.length⟩ ⟨m, [], .body m.length⟩ := .whole _ _ _ _ (by simpa [wr] using h2)
    have a4 := Step.body (cap := cap) (k := k) m [] m.length (.inr rfl)
    refine ⟨_, _, .step (.step (.step (.step (.refl _) first) a2) a3) a4, ?_⟩
    show afterBody k m.length (m.take m.length) = _
    rw [List.take_length]
    unfold afterBody
    rw [if_neg (by simp)]
  · have b2 := Step.part (cap := cap) (k := k) (enc64 (BitVec.ofNat 64 m.length)) (wr m) [] .size (cap - 8) (by simpa [wr] using h1) (by omega) (by simp; omega) (by simp [wr]; omega)
    have b3 := Step.size (cap := cap) (k := k) (enc64 (BitVec.ofNat 64 m.length) ++ (wr m).left.take (cap - 8)) [{ (wr m) with left := (wr m).left.drop (cap - 8) }]
      (.inl (List.ne_nil_of_length_pos (by simp)))
    rw [List.take_append_of_le_length (by simp), List.take_of_length_le (l := enc64 _) (by simp), List.drop_append_of_le_length (by simp),
      List.drop_of_length_le (l := enc64 _) (by simp), afterSize_enc hm, List.nil_append] at b3
    have hlen : ((wr m).left.take (cap - 8)).length = cap - 8 := by simp [wr]; omega
    have b4 := Step.body (cap := cap) (k := k) ((wr m).left.take (cap - 8)) [{ (wr m) with left := (wr m).left.drop (cap - 8) }] m.length
      (.inl (List.ne_nil_of_length_pos (by omega)))
    refine ⟨_, _, .step (.step (.step (.step (.refl _) first) b2) b3) b4, ?_⟩
    show afterBody k m.length (((wr m).left.take (cap - 8)).take m.length) = _
    unfold afterBody
    rw [if_pos (by rw [List.length_take, hlen]; omega)]

/-- A jail with a filter of `n` instructions. -/
def longFilter (n : Nat) : Jail := { minijailNew with filter_len := n, filter_prog := some (List.replicate n ⟨6#16, 0#8, 0#8, 0x7fff0000#32⟩), flags := { minijailNew.flags with seccomp_filter := true, no_new_privs := true } }

theorem longFilter_size (a : Addrs) (n : Nat) : minijailSize a (longFilter n) = 2180 + 8 * n := by
  have hs : ((longFilter n).image a).Sized := ⟨by simp [Jail.image], rfl, rfl⟩
  have h1 : (encImage ((longFilter n).image a)).length = 2176 := length_encImage hs
  have h2 := length_flatMap_const length_encInsn (List.replicate n (⟨6#16, 0#8, 0#8, 0x7fff0000#32⟩ : Insn))
  rw [List.length_replicate] at h2
  rw [minijailSize_eq]
  have e : serialised a (longFilter n) = encImage ((longFilter n).image a) ++ ((List.replicate n (⟨6#16, 0#8, 0#8, 0x7fff0000#32⟩ : Insn)).flatMap encInsn ++ enc32 (longFilter n).fs_rules_fd) := by
    simp [serialised, marshalPieces, longFilter, minijailNew, marshalOpt, marshalGids, marshalFilter]
  rw [e, List.length_append, List.length_append, h1, h2, length_enc32]
  omega

/-- A filter of 1100 instructions, sent through a pipe of two pages: no turns let the jail arrive, and the program is not run. -/
theorem C89_violated : calls minijailNew [({}, .noNewPrivs), ({}, .useSeccompFilter), ({}, .setSeccompFilters (List.replicate 1100 ⟨6#16, 0#8, 0#8, 0x7fff0000#32⟩))] = some (longFilter 1100) ∧
    ∀ (k : LandlockKernel) (a : Addrs) (n : Nat) (s : St) (r : FromFd), Steps smallPipe k n (start (minijailMarshal a (longFilter 1100) (minijailSize a (longFilter 1100))).2) s → s.reader = .done r → r = .errno 22 := by
  refine ⟨by decide +kernel, fun k a n s r h hr => ?_⟩
  have hs : minijailSize a (longFilter 1100) ≤ 65535 ∧ smallPipe < minijailSize a (longFilter 1100) := by
    rw [longFilter_size]; unfold smallPipe; omega
  have hlen : (minijailMarshal a (longFilter 1100) (minijailSize a (longFilter 1100))).2.length = minijailSize a (longFilter 1100) := by rw [minijailMarshal_eq, minijailSize_eq]
  exact C89_lost _ k _ (by omega) (by omega) n s r h hr

/-- A jail with a filter of 700 instructions arrives also through such a pipe. -/
example (k : LandlockKernel) (a : Addrs) (n : Nat) (s : St) (h : Steps smallPipe k n (start (minijailMarshal a (longFilter 700) (minijailSize a (longFilter 700))).2) s) : n ≤ 4 := by
  have hs := longFilter_size a 700
  have hlen : (minijailMarshal a (longFilter 700) (minijailSize a (longFilter 700))).2.length = minijailSize a (longFilter 700) := by rw [minijailMarshal_eq, minijailSize_eq]
  exact (C89_arrives_partial _ k _ (by omega) (List.ne_nil_of_length_pos (by omega)) (.inl (by unfold smallPipe; omega)) n s h).1
/-- Small jails fit in two ways, also into a pipe of one page. -/
example (m : Bytes) : (m.length = 4096 → Fits 4096 m) ∧ (m.length = 65528 → Fits usualPipe m) := by
  unfold Fits usualPipe
  constructor <;> intro h <;> omega
/-- The usual pipe and a jail of 65530 bytes: it depends. -/
example (k : LandlockKernel) : ∃ m n s, Steps usualPipe k n (start m) s ∧ s.reader = .done (.errno 22) := by
  refine ⟨_, (C89_race usualPipe k (List.replicate 65530 0) ?_ ?_ ?_ ?_).2⟩ <;> (try unfold usualPipe) <;> rw [List.length_replicate] <;> omega

end Minijail
