import Verif.Model.Pipe
import Verif.Props.C19
/-! C21: sending a jail over the pipe is all or nothing. -/
set_option linter.unusedSimpArgs false
set_option autoImplicit false
namespace Minijail

theorem writeExactly_prefix (evs : List WriteEv) (b : Bytes) : (writeExactly evs b).1 <+: b := by
  induction evs generalizing b with
  | nil => cases b <;> simp [writeExactly]
  | cons ev evs ih =>
    cases b with
    | nil => simp [writeExactly]
    | cons x b =>
      cases ev with
      | eintr => simpa [writeExactly] using ih (x :: b)
      | error e => simp [writeExactly]
      | wrote n =>
        simp only [writeExactly]
        conv => rhs; rw [← List.take_append_drop n (x :: b)]
        exact (List.prefix_append_right_inj _).mpr (ih _)

theorem writeExactly_ok (evs : List WriteEv) (b : Bytes) (h : (writeExactly evs b).2.1 = some (.ok ())) :
    (writeExactly evs b).1 = b := by
  induction evs generalizing b with
  | nil =>
    cases b with
    | nil => rfl
    | cons => simp [writeExactly] at h
  | cons ev evs ih =>
    cases b with
    | nil => simp [writeExactly]
    | cons x b =>
      cases ev with
      | eintr => simp only [writeExactly] at h ⊢; exact ih _ h
      | error e => simp [writeExactly] at h
      | wrote n =>
        simp only [writeExactly] at h ⊢
        rw [ih _ h, List.take_append_drop]

/-- The bytes that make up a jail on the pipe. -/
theorem toFd_prefix (evs : List WriteEv) (a : Addrs) (j : Jail) :
    (toFd evs a j).1 <+: enc64 (BitVec.ofNat 64 (minijailSize a j)) ++ (minijailMarshal a j (minijailSize a j)).2 := by
  unfold toFd
  dsimp only
  split
  · simp
  · split
    · simp
    · have h1 := writeExactly_prefix evs (enc64 (BitVec.ofNat 64 (minijailSize a j)))
      split
      · rename_i he
        rw [writeExactly_ok _ _ he]
        exact (List.prefix_append_right_inj _).mpr (writeExactly_prefix _ _)
      · exact h1.trans (List.prefix_append _ _)

/-- **C21**, the sender: when it reports success, everything is in the pipe, however writes were split or interrupted. -/
theorem C21_sender (evs : List WriteEv) (a : Addrs) (j : Jail) (h : (toFd evs a j).2 = some (.ok ())) :
    (toFd evs a j).1 = enc64 (BitVec.ofNat 64 (minijailSize a j)) ++ (minijailMarshal a j (minijailSize a j)).2 := by
  unfold toFd at h ⊢
  dsimp only at h ⊢
  split
  · rename_i h0; rw [if_pos h0] at h; simp at h
  · rename_i h0
    rw [if_neg h0] at h
    split
    · rename_i h1; rw [if_pos h1] at h; simp at h
    · rename_i h1
      rw [if_neg h1] at h
      cases he : (writeExactly evs (enc64 (BitVec.ofNat 64 (minijailSize a j)))).2.1 with
      | none => simp only [he] at h; cases h
      | some x =>
        cases x with
        | error e => simp only [he] at h; cases h
        | ok u =>
          simp only [he] at h ⊢
          rw [writeExactly_ok _ _ he, writeExactly_ok _ _ h]

/-- **C21**: whatever the writes and reads do, and even if the sender fails or stops midway, the receiver either reports
an error or deserialises exactly the bytes that the sender serialised. -/
theorem C21_exact (evs : List WriteEv) (r1 r2 : ReadEv) (a : Addrs) (k : LandlockKernel) (j : Jail)
    (hsz : minijailSize a j < 2 ^ 64) :
    (∃ e, fromFd r1 r2 k (toFd evs a j).1 = .errno e ∧ e ≠ 0) ∨
    fromFd r1 r2 k (toFd evs a j).1 = .unmarshal (minijailUnmarshal k (minijailMarshal a j (minijailSize a j)).2) := by
  obtain ⟨t, ht⟩ := toFd_prefix evs a j
  have hlen : (minijailMarshal a j (minijailSize a j)).2.length = minijailSize a j := by
    rw [minijailMarshal_eq, minijailSize_eq]
  generalize (toFd evs a j).1 = pipe at ht ⊢
  generalize (minijailMarshal a j (minijailSize a j)).2 = m at ht hlen ⊢
  generalize minijailSize a j = sz at *
  unfold fromFd readOnce
  cases r1 with
  | error => exact .inl ⟨22, rfl, by decide⟩
  | got n =>
    simp only
    by_cases h8 : ((pipe.take 8).take n).length = 8
    · have hp : (pipe.take 8).take n = enc64 (BitVec.ofNat 64 sz) := by
        have h1 : (pipe.take 8).take n = pipe.take 8 := by
          apply List.take_of_length_le
          simp only [List.length_take] at h8 ⊢
          omega
        have h2 : pipe.take 8 = (pipe ++ t).take 8 := by
          rw [List.take_append_of_le_length]
          simp only [List.length_take] at h8
          omega
        rw [h1, h2, ht, List.take_append_of_le_length (by simp)]
        exact List.take_of_length_le (by simp)
      have hd : ((decLE 64 ((pipe.take 8).take n)).toNat) = sz := by
        rw [hp, decLE_enc64, BitVec.toNat_ofNat, Nat.mod_eq_of_lt hsz]
      rw [if_neg (by simpa using h8), hd]
      split
      · exact .inl ⟨7, rfl, by decide⟩
      · cases r2 with
        | error => exact .inl ⟨22, rfl, by decide⟩
        | got n' =>
          simp only
          split
          · exact .inl ⟨22, rfl, by decide⟩
          · rename_i hb
            right
            congr 2
            simp only [ne_eq, not_not] at hb
            rw [h8] at hb ⊢
            have h1 : ((pipe.drop 8).take sz).take n' = (pipe.drop 8).take sz := by
              apply List.take_of_length_le
              simp only [List.length_take] at hb ⊢
              omega
            have hl : sz ≤ (pipe.drop 8).length := by
              simp only [List.length_take] at hb
              omega
            have h8' : 8 ≤ pipe.length := by
              simp only [List.length_take] at h8
              omega
            rw [h1]
            have h2 : (pipe.drop 8) ++ t = m := by
              rw [← List.drop_append_of_le_length h8', ht, List.drop_append_of_le_length (by simp)]
              simp
            have h3 : pipe.drop 8 = m.take (pipe.drop 8).length := by
              rw [← h2]; simp
            rw [h3, List.take_take, Nat.min_eq_left hl]
            exact List.take_of_length_le (by omega)
    · exact .inl ⟨22, by rw [if_pos h8], by decide⟩

/-- **C21**, too long: the receiver refuses what does not fit its limit, whatever it reads. -/
theorem C21_limit (evs : List WriteEv) (r1 r2 : ReadEv) (a : Addrs) (k : LandlockKernel) (j : Jail)
    (hsz : minijailSize a j < 2 ^ 64) (hbig : minijailSize a j > 65535) :
    ∃ e, fromFd r1 r2 k (toFd evs a j).1 = .errno e ∧ e ≠ 0 := by
  rcases C21_exact evs r1 r2 a k j hsz with h | h
  · exact h
  · exfalso
    obtain ⟨t, ht⟩ := toFd_prefix evs a j
    unfold fromFd at h
    cases r1 with
    | error => simp [readOnce] at h
    | got n =>
      simp only [readOnce] at h
      split_ifs at h with h8 hs
      have hp : ((toFd evs a j).1.take 8).take n = enc64 (BitVec.ofNat 64 (minijailSize a j)) := by
        have h1 : ((toFd evs a j).1.take 8).take n = (toFd evs a j).1.take 8 := by
          apply List.take_of_length_le
          simp only [List.length_take] at h8 ⊢
          omega
        have h2 : (toFd evs a j).1.take 8 = ((toFd evs a j).1 ++ t).take 8 := by
          rw [List.take_append_of_le_length]
          simp only [List.length_take] at h8
          omega
        rw [h1, h2, ht, List.take_append_of_le_length (by simp)]
        exact List.take_of_length_le (by simp)
      rw [hp, decLE_enc64, BitVec.toNat_ofNat, Nat.mod_eq_of_lt hsz] at hs
      exact hs hbig

/-- **C21**, end to end: if the sender reports success and the receiver's two reads deliver what they ask for, a jail that
fits the limit arrives. -/
theorem C21_success (evs : List WriteEv) (a : Addrs) (k : LandlockKernel) (j : Jail) (n1 n2 : Nat) (h1 : 8 ≤ n1)
    (h2 : minijailSize a j ≤ n2) (hsz : minijailSize a j ≤ 65535) (h : (toFd evs a j).2 = some (.ok ())) :
    fromFd (.got n1) (.got n2) k (toFd evs a j).1 =
      .unmarshal (minijailUnmarshal k (minijailMarshal a j (minijailSize a j)).2) := by
  have hlen : (minijailMarshal a j (minijailSize a j)).2.length = minijailSize a j := by
    rw [minijailMarshal_eq, minijailSize_eq]
  rw [C21_sender evs a j h]
  generalize (minijailMarshal a j (minijailSize a j)).2 = m at hlen ⊢
  generalize minijailSize a j = sz at *
  have e1 : ((enc64 (BitVec.ofNat 64 sz) ++ m).take 8).take n1 = enc64 (BitVec.ofNat 64 sz) := by
    rw [List.take_take, Nat.min_eq_right h1, List.take_append_of_le_length (by simp)]
    exact List.take_of_length_le (by simp)
  have e2 : (enc64 (BitVec.ofNat 64 sz) ++ m).drop 8 = m := by
    rw [List.drop_append_of_le_length (by simp), List.drop_of_length_le (by simp)]
    rfl
  have e3 : (m.take sz).take n2 = m := by
    rw [List.take_take, Nat.min_eq_right h2]
    exact List.take_of_length_le (by omega)
  unfold fromFd
  simp only [readOnce, e1, length_enc64, e2, decLE_enc64, BitVec.toNat_ofNat]
  rw [Nat.mod_eq_of_lt (by omega : sz < 2 ^ 64), e3, if_neg (by decide), if_neg (by simpa [USHRT_MAX] using hsz), if_neg (by omega)]

/-- The hypotheses are met: a jail with every kind of part, sent in small pieces with interruptions. -/
example : (toFd [.eintr, .wrote 3, .wrote 5, .wrote 2000, .eintr, .wrote 1, .wrote 4096] (fun _ => 4096#64) exampleJail).2 =
    some (.ok ()) ∧ minijailSize (fun _ => 4096#64) exampleJail ≤ 65535 := by
  have : ∀ x : WriteEnd, (match x with | some (.ok ()) => true | _ => false) = true → x = some (.ok ()) := by
    intro x h
    match x with
    | none => cases h
    | some (.ok ()) => rfl
    | some (.error e) => cases h
  exact ⟨this _ (by decide +kernel), by decide +kernel⟩

end Minijail
