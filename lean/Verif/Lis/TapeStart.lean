/-
Loading of LIS files: C54, the first offset of a file with tape marks.
-/
import Verif.Lis.Load

namespace Dlisio.Lis

/-- The type of a tape mark at a position: a number of 32 bits, least significant byte first. -/
def Spec.markType (data : Bytes) (pos : Nat) : Nat := Dlisio.Spec.leNat ((data.drop pos).take 4)

theorem tapemark_at (data : Bytes) (pos : Nat) :
    (pos + 12 ≤ data.length ∧ ∃ tm, readTapemark ⟨data, .eof⟩ pos = .ok tm ∧
      tm.type.toNat = Spec.markType data pos ∧
      (validTapemark tm = true ↔ Spec.markType data pos < 2 ∧
        Dlisio.Spec.leNat ((data.drop (pos + 4)).take 4) <
          Dlisio.Spec.leNat ((data.drop (pos + 8)).take 4))) ∨
    (data.length < pos + 12 ∧ ∀ tm, readTapemark ⟨data, .eof⟩ pos ≠ .ok tm) := by
  unfold readTapemark readAt
  rw [if_neg (by omega)]
  by_cases h : pos + 12 ≤ data.length
  · left
    refine ⟨h, ?_⟩
    rw [if_pos h]
    simp only
    obtain ⟨tm, h1, h2, h3, h4, h5⟩ := c55_tapemark ((data.drop pos).take 12)
      (by simp; omega)
    rw [h1]
    refine ⟨tm, rfl, ?_, ?_⟩
    · rw [h2, List.take_take]; rfl
    · rw [h5, List.take_take, List.drop_take, List.take_take, List.drop_take, List.drop_drop,
        List.drop_drop]
      have : ∀ n : Nat, (n = 0 ∨ n = 1) ↔ n < 2 := by intro n; omega
      rw [this]
      rfl
  · right
    refine ⟨by omega, ?_⟩
    rw [if_neg h]
    simp

theorem firstMark_iff (data : Bytes) (pos off : Nat) :
    firstMark ⟨data, .eof⟩ pos = some off ↔
      ∃ n, off = pos + 12 * n ∧ off + 12 ≤ data.length ∧ Spec.markType data off = 0 ∧
        ∀ m, m < n → Spec.markType data (pos + 12 * m) ≠ 0 := by
  induction hk : data.length - pos using Nat.strong_induction_on generalizing pos with
  | _ k ih =>
    subst hk
    rw [firstMark]
    rcases tapemark_at data pos with ⟨hl, tm, h1, h2, -⟩ | ⟨hl, h1⟩
    · rw [h1]
      simp only
      have hz : tm.type = 0 ↔ Spec.markType data pos = 0 := by
        rw [← h2]
        constructor
        · intro h; rw [h]; rfl
        · intro h; exact BitVec.eq_of_toNat_eq h
      by_cases h0 : Spec.markType data pos = 0
      · rw [if_pos (hz.2 h0)]
        constructor
        · intro h
          cases h
          exact ⟨0, rfl, hl, h0, by simp⟩
        · rintro ⟨n, rfl, -, -, h⟩
          cases n with
          | zero => rfl
          | succ n => exact absurd h0 (by simpa using h 0 (by omega))
      · rw [if_neg (fun h => h0 (hz.1 h)), ih (data.length - (pos + 12)) (by omega) _ rfl]
        constructor
        · rintro ⟨n, rfl, h3, h4, h5⟩
          refine ⟨n + 1, by omega, h3, h4, ?_⟩
          intro m hm
          cases m with
          | zero => exact h0
          | succ m =>
            have := h5 m (by omega)
            rwa [show pos + 12 + 12 * m = pos + 12 * (m + 1) from by omega] at this
        · rintro ⟨n, rfl, h3, h4, h5⟩
          cases n with
          | zero => exact absurd h4 h0
          | succ n =>
            refine ⟨n, by omega, h3, h4, ?_⟩
            intro m hm
            have := h5 (m + 1) (by omega)
            rwa [show pos + 12 * (m + 1) = pos + 12 + 12 * m from by omega] at this
    · constructor
      · intro h
        split at h
        · rename_i tm htm
          exact absurd htm (h1 tm)
        · cases h
      · rintro ⟨n, rfl, h3, -⟩
        omega

/-- C54.  A file is taken as a tape image exactly if its first 12 bytes are a tape mark, and then the
first logical file starts at the first of the following marks that has type 0: the marks in front
of it have other types, whatever is there otherwise. -/
theorem c54_tapemarks (data : Bytes) (off : Nat) :
    checkForTapemarks ⟨data, .eof⟩ = some (true, off) ↔
      (Spec.markType data 0 < 2 ∧ Dlisio.Spec.leNat ((data.drop 4).take 4) <
        Dlisio.Spec.leNat ((data.drop 8).take 4)) ∧
      ∃ n, off = 12 * n ∧ off + 12 ≤ data.length ∧ Spec.markType data off = 0 ∧
        ∀ m, m < n → Spec.markType data (12 * m) ≠ 0 := by
  have hf := firstMark_iff data 0 off
  simp only [Nat.zero_add] at hf
  rw [← hf]
  unfold checkForTapemarks
  rcases tapemark_at data 0 with ⟨hl, tm, h1, -, h3⟩ | ⟨hl, h1⟩
  · rw [h1]
    simp only [Nat.zero_add] at h3 ⊢
    rw [← h3]
    cases hv : validTapemark tm with
    | false => simp
    | true =>
      simp only [if_true, true_and]
      cases firstMark ⟨data, .eof⟩ 0 <;> simp
  · constructor
    · intro h
      split at h
      · rename_i tm htm
        exact absurd htm (h1 tm)
      · cases h
    · rintro ⟨-, h⟩
      obtain ⟨n, rfl, h3, -⟩ := hf.1 h
      omega

/-- C54.  A file is taken as one without tape marks, from offset 0 on, exactly if it has at least 12
bytes and these are no tape mark. -/
theorem c54_no_tapemarks (data : Bytes) (off : Nat) :
    checkForTapemarks ⟨data, .eof⟩ = some (false, off) ↔ off = 0 ∧ 12 ≤ data.length ∧
      ¬ (Spec.markType data 0 < 2 ∧ Dlisio.Spec.leNat ((data.drop 4).take 4) <
        Dlisio.Spec.leNat ((data.drop 8).take 4)) := by
  unfold checkForTapemarks
  rcases tapemark_at data 0 with ⟨hl, tm, h1, -, h3⟩ | ⟨hl, h1⟩
  · rw [h1]
    simp only [Nat.zero_add] at h3 hl ⊢
    rw [← h3]
    cases hv : validTapemark tm with
    | false => simp [hl, eq_comm]
    | true =>
      simp only [if_true, not_true_eq_false, and_false, iff_false]
      cases firstMark ⟨data, .eof⟩ 0 <;> simp
  · constructor
    · intro h
      split at h
      · rename_i tm htm
        exact absurd htm (h1 tm)
      · cases h
    · rintro ⟨-, h, -⟩
      omega

/-- Case: two marks of type 1, then one of type 0. -/
example : checkForTapemarks ⟨[1, 0, 0, 0] ++ [0, 0, 0, 0] ++ [12, 0, 0, 0] ++
    ([1, 0, 0, 0] ++ [0, 0, 0, 0] ++ [24, 0, 0, 0]) ++
    ([0, 0, 0, 0] ++ [12, 0, 0, 0] ++ [90, 0, 0, 0]) ++ List.replicate 54 7, .eof⟩ =
      some (true, 24) :=
  (c54_tapemarks _ _).2 ⟨by decide, 2, rfl, by decide, by decide, by decide⟩

/-- Case: no tape marks. -/
example : checkForTapemarks ⟨[0, 64, 0, 0] ++ [128, 0] ++ List.replicate 58 32, .eof⟩ =
    some (false, 0) :=
  (c54_no_tapemarks _ _).2 ⟨rfl, by decide, by decide⟩

end Dlisio.Lis
