import Verif.Lis.ProtocolProps
/-
C49 and C50: header, trailer and text records, lib/src/lis/protocol.cpp.
-/
namespace Dlisio.Lis

namespace Spec

/-- The fields of a file header or trailer, LIS79 ch. 4.1.1, by position. -/
def fileRecord (b : Bytes) : FileRecord where
  fileName := slice b 0 10
  sublevel := slice b 12 6
  version := slice b 18 8
  date := slice b 26 8
  maxPrLength := slice b 35 5
  fileType := slice b 42 2
  name := slice b 46 10

/-- The fields of a tape or reel header or trailer, LIS79 ch. 4.1.1, by position. -/
def tapeRecord (b : Bytes) : TapeRecord where
  serviceName := slice b 0 6
  date := slice b 12 8
  origin := slice b 22 4
  name := slice b 28 8
  continuation := slice b 38 2
  other := slice b 42 8
  comment := slice b 52 74

end Spec

/-- C49: a file header or trailer is accepted exactly if it has the type of one of them and
at least 56 bytes; its fields are those at the positions of the standard. -/
theorem c49_file (type : ℕ) (data : Bytes) :
    parseFileRecord type data =
      if type ∈ [128, 129] ∧ 56 ≤ data.length then .ok (Spec.fileRecord data) else .throws := by
  unfold parseFileRecord
  by_cases ht : type ∈ [128, 129]
  · rw [if_neg (by simp at ht ⊢; tauto)]
    by_cases hl : data.length < 56
    · rw [if_pos hl, if_neg (by omega)]
    · rw [if_neg hl, if_pos ⟨ht, by omega⟩]
      rw [get_fixed (c41_string_mask 10).1 (by omega),
        get_fixed (c41_string_mask 6).1 (by simp only [List.length_drop]; omega),
        get_fixed (c41_string_mask 8).1 (by simp only [List.length_drop]; omega),
        get_fixed (c41_string_mask 8).1 (by simp only [List.length_drop]; omega),
        get_fixed (c41_string_mask 5).1 (by simp only [List.length_drop]; omega),
        get_fixed (c41_string_mask 2).1 (by simp only [List.length_drop]; omega),
        get_fixed (c41_string_mask 10).1 (by simp only [List.length_drop]; omega)]
      simp only [List.drop_drop, id, Spec.fileRecord, Spec.slice, List.drop_zero]
  · rw [if_pos (by simp at ht ⊢; tauto), if_neg (by tauto)]

/-- C49: likewise for headers and trailers of tapes and reels, of at least 126 bytes. -/
theorem c49_tape (type : ℕ) (data : Bytes) :
    parseTapeRecord type data =
      if type ∈ [130, 131, 132, 133] ∧ 126 ≤ data.length then .ok (Spec.tapeRecord data)
      else .throws := by
  unfold parseTapeRecord
  by_cases ht : type ∈ [130, 131, 132, 133]
  · rw [if_neg (by simp at ht ⊢; tauto)]
    by_cases hl : data.length < 126
    · rw [if_pos hl, if_neg (by omega)]
    · rw [if_neg hl, if_pos ⟨ht, by omega⟩]
      rw [get_fixed (c41_string_mask 6).1 (by omega),
        get_fixed (c41_string_mask 8).1 (by simp only [List.length_drop]; omega),
        get_fixed (c41_string_mask 4).1 (by simp only [List.length_drop]; omega),
        get_fixed (c41_string_mask 8).1 (by simp only [List.length_drop]; omega),
        get_fixed (c41_string_mask 2).1 (by simp only [List.length_drop]; omega),
        get_fixed (c41_string_mask 8).1 (by simp only [List.length_drop]; omega),
        get_fixed (c41_string_mask 74).1 (by simp only [List.length_drop]; omega)]
      simp only [List.drop_drop, id, Spec.tapeRecord, Spec.slice, List.drop_zero]
  · rw [if_pos (by simp at ht ⊢; tauto), if_neg (by tauto)]

/-- C49: writing the fields at their places, with any bytes between them and behind them,
and reading the record gives the fields back. -/
theorem c49_roundtrip (type : ℕ) (ht : type ∈ [128, 129]) (r : FileRecord) (g1 g2 g3 g4 rest : Bytes)
    (h1 : r.fileName.length = 10) (h2 : r.sublevel.length = 6) (h3 : r.version.length = 8)
    (h4 : r.date.length = 8) (h5 : r.maxPrLength.length = 5) (h6 : r.fileType.length = 2)
    (h7 : r.name.length = 10) (k1 : g1.length = 2) (k2 : g2.length = 1) (k3 : g3.length = 2)
    (k4 : g4.length = 2) :
    parseFileRecord type (r.fileName ++ g1 ++ r.sublevel ++ r.version ++ r.date ++ g2 ++
      r.maxPrLength ++ g3 ++ r.fileType ++ g4 ++ r.name ++ rest) = .ok r := by
  rw [c49_file, if_pos ⟨ht, by simp only [List.length_append]; omega⟩]
  have key : ∀ (a b c : Bytes) (i n : ℕ), a.length = i → b.length = n →
      Spec.slice (a ++ (b ++ c)) i n = b := by
    rintro a b c i n rfl rfl
    simp [Spec.slice]
  congr 1
  obtain ⟨a1, a2, a3, a4, a5, a6, a7⟩ := r
  simp only at h1 h2 h3 h4 h5 h6 h7
  simp only [Spec.fileRecord, FileRecord.mk.injEq]
  refine ⟨?_, ?_, ?_, ?_, ?_, ?_, ?_⟩
  · simpa using key [] a1 (g1 ++ a2 ++ a3 ++ a4 ++ g2 ++ a5 ++ g3 ++ a6 ++ g4 ++ a7 ++ rest) 0 10 rfl h1
  · simpa using key (a1 ++ g1) a2 (a3 ++ a4 ++ g2 ++ a5 ++ g3 ++ a6 ++ g4 ++ a7 ++ rest) 12 6
      (by simp only [List.length_append]; omega) h2
  · simpa using key (a1 ++ g1 ++ a2) a3 (a4 ++ g2 ++ a5 ++ g3 ++ a6 ++ g4 ++ a7 ++ rest) 18 8
      (by simp only [List.length_append]; omega) h3
  · simpa using key (a1 ++ g1 ++ a2 ++ a3) a4 (g2 ++ a5 ++ g3 ++ a6 ++ g4 ++ a7 ++ rest) 26 8
      (by simp only [List.length_append]; omega) h4
  · simpa using key (a1 ++ g1 ++ a2 ++ a3 ++ a4 ++ g2) a5 (g3 ++ a6 ++ g4 ++ a7 ++ rest) 35 5
      (by simp only [List.length_append]; omega) h5
  · simpa using key (a1 ++ g1 ++ a2 ++ a3 ++ a4 ++ g2 ++ a5 ++ g3) a6 (g4 ++ a7 ++ rest) 42 2
      (by simp only [List.length_append]; omega) h6
  · simpa using key (a1 ++ g1 ++ a2 ++ a3 ++ a4 ++ g2 ++ a5 ++ g3 ++ a6 ++ g4) a7 rest 46 10
      (by simp only [List.length_append]; omega) h7

/-- Case: byte `i` of the record is `i`. -/
example : (match parseFileRecord 129 ((List.range 60).map (BitVec.ofNat 8)) with
    | .ok r => (r.date, r.maxPrLength, r.fileType)
    | _ => ([], [], [])) =
    ([26, 27, 28, 29, 30, 31, 32, 33], [35, 36, 37, 38, 39], [42, 43]) := by decide +kernel

example : parseFileRecord 128 (List.replicate 55 0) = .throws := by decide +kernel

example : (match parseTapeRecord 130 ((List.range 126).map (BitVec.ofNat 8)) with
    | .ok r => (r.origin, r.continuation, r.comment.head?, r.comment.length)
    | _ => ([], [], none, 0)) = ([22, 23, 24, 25], [38, 39], some 52, 74) := by decide +kernel

/-- C50: a text record is accepted exactly for the types of text records, and its text is
the complete payload. -/
theorem c50_text (type : ℕ) (data : Bytes) :
    parseText type data =
      if type ∈ [224, 225, 227, 232] then .ok (type, data) else .throws := by
  unfold parseText
  by_cases ht : type ∈ [224, 225, 227, 232]
  · rw [if_pos ht, if_neg (by simp at ht ⊢; tauto),
      get_fixed (c41_string_mask _).1 (Nat.le_refl _)]
    simp
  · rw [if_neg ht, if_pos (by simp at ht ⊢; tauto)]

/-- Case: with a NUL within the text. -/
example : parseText 232 [72, 0, 73, 13] = .ok (232, [72, 0, 73, 13]) ∧ parseText 64 [1] = .throws := by
  decide +kernel

end Dlisio.Lis
