/-
The storage unit label of a logical file: `LogicalFile.storage_label`
(python/dlisio/dlis/file.py:662-673), the function of the extension it calls
(python/dlisio/ext/dlis.cpp:188-245), and what pybind11 makes of the result.  C80.
-/
import Verif.Dlis.FromDisk

namespace Dlisio.Dlis

open _root_.Dlisio.Dlis.Spec

/-! ## Model -/

/-- What `storage_label` gives: nothing, and a warning in the log; the dictionary of
ext/dlis.cpp:238-244, and whether a `RuntimeWarning` was issued; or an exception. -/
inductive PyLabel where
  | nothing
  | dict (warned : Bool) (sequence : Int) (version layout : Text) (maxlen : Int) (id : Text)
  | raises
deriving DecidableEq

/-- `std::to_string` of an `int`, ext/dlis.cpp:231-233, as a Python string. -/
def intText (n : Int) : Text :=
  if n < 0 then text "-" ++ Text.ofNat n.natAbs else Text.ofNat n.natAbs

/-- `LogicalFile.storage_label`, file.py:662-673, with ext/dlis.cpp:223-244.  `strict`: the user has
turned warnings into exceptions, for which `runtime_warning` (ext/dlis.cpp:182-185) throws.  `id` is an
array of `char`, which pybind11 turns into a `str` as UTF-8, whatever encodings are set, and throws if
it is not. -/
def LogFile.storageLabel (strict : Bool) (g : LogFile) : PyLabel :=
  match g.sul with
  | none => .nothing
  | some sul =>
    if sul = [] then .nothing
    else
      match Dlis.storageLabel sul with
      | .tooSmall => .raises
      | .unparsable => .raises
      | .label warned seq major minor layout maxlen id =>
        if warned && strict then .raises
        else
          match utf8Decode id with
          | none => .raises
          | some t => .dict warned seq (intText major ++ text "." ++ intText minor)
              (if layout then text "record" else text "unknown") maxlen t

/-! ## Specification -/

/-- What is written in a label of version 1.0: the sequence number, the maximum length of records,
and the identifier, which may end with a NUL. -/
def Spec.LabelSays (sul : Bytes) (seq maxlen : Nat) (id : Text) : Prop :=
  ∃ f1 f2 f3 f4 f5 raw, Spec.Label sul f1 f2 f3 f4 f5 ∧ Spec.Number f1 seq ∧ 0 < seq ∧
    Spec.Version f2 1 0 ∧ f3 = Spec.RECORD ∧ Spec.Number f4 maxlen ∧ Spec.UptoNul raw f5 ∧
    Spec.Utf8 id raw

/-! ## C80 -/

/-- C80.  A label that is written as the standard says gives what is written in it, without warning. -/
theorem c80_label (strict : Bool) (g : LogFile) (sul : Bytes) (hg : g.sul = some sul)
    (seq maxlen : Nat) (id : Text) (h : Spec.LabelSays sul seq maxlen id) :
    g.storageLabel strict = .dict false seq (text "1.0") (text "record") maxlen id := by
  obtain ⟨f1, f2, f3, f4, f5, raw, hl, h1, h1', h2, h3, h4, h5, h6⟩ := h
  have hne : sul ≠ [] := by
    obtain ⟨rest, rfl⟩ := hl.eq
    have := hl.seq4
    intro h0
    simp only [List.append_eq_nil_iff] at h0
    rw [h0.1.1.1.1.1] at this
    cases this
  have := (c13_well_formed hl seq 1 0 true maxlen raw).2
    ⟨⟨seq, h1, h1', rfl⟩, h2, rfl, rfl, h3, rfl, ⟨maxlen, h4, rfl⟩, h5⟩
  unfold LogFile.storageLabel
  rw [hg]
  simp only [hne, if_false, this, Bool.false_and, Bool.false_eq_true, (utf8Decode_iff raw id).2 h6]
  congr 1
  decide +kernel

/-- C80.  When `storage_label` raises: there is a label, and it is cut off, of another version,
inconsistent while warnings are exceptions, or has an identifier that is not UTF-8. -/
theorem c80_raises (strict : Bool) (g : LogFile) :
    g.storageLabel strict = .raises ↔ ∃ sul, g.sul = some sul ∧ sul ≠ [] ∧
      (sul.length < 80 ∨ ∃ f1 f2 f3 f4 f5, Spec.Label sul f1 f2 f3 f4 f5 ∧
        ((∃ M m, Spec.Version f2 M m ∧ ¬ (M = 1 ∧ m = 0)) ∨
        (strict = true ∧ ¬ ((∃ k, 0 < k ∧ Spec.Number f1 k) ∧ Spec.Version f2 1 0 ∧
          f3 = Spec.RECORD ∧ ∃ k, Spec.Number f4 k)) ∨
        ∃ raw, Spec.UptoNul raw f5 ∧ ∀ t, ¬ Spec.Utf8 t raw)) := by
  unfold LogFile.storageLabel
  rcases hg : g.sul with _ | sul
  · simp
  by_cases hne : sul = []
  · simp [hne]
  simp only [hne, if_false, Option.some.injEq, exists_eq_left', ne_eq, not_false_eq_true, true_and]
  by_cases hlen : sul.length < 80
  · rw [(c13_too_small sul).2 hlen]
    simp [hlen]
  obtain ⟨f1, f2, f3, f4, f5, hl⟩ := c13_label_exists sul (by omega)
  have huniq : ∀ {a1 a2 a3 a4 a5 : Bytes}, Spec.Label sul a1 a2 a3 a4 a5 →
      a1 = f1 ∧ a2 = f2 ∧ a3 = f3 ∧ a4 = f4 ∧ a5 = f5 := by
    intro a1 a2 a3 a4 a5 ha
    obtain ⟨r, hr⟩ := ha.eq
    obtain ⟨r', hr'⟩ := hl.eq
    rw [hr'] at hr
    simp only [List.append_assoc] at hr
    obtain ⟨e1, hr⟩ := List.append_inj hr (by rw [hl.seq4, ha.seq4])
    obtain ⟨e2, hr⟩ := List.append_inj hr (by rw [hl.ver5, ha.ver5])
    obtain ⟨e3, hr⟩ := List.append_inj hr (by rw [hl.struct6, ha.struct6])
    obtain ⟨e4, hr⟩ := List.append_inj hr (by rw [hl.maxlen5, ha.maxlen5])
    obtain ⟨e5, -⟩ := List.append_inj hr (by rw [hl.id60, ha.id60])
    exact ⟨e1.symm, e2.symm, e3.symm, e4.symm, e5.symm⟩
  have hone : (∃ a1 a2 a3 a4 a5, Spec.Label sul a1 a2 a3 a4 a5 ∧
        ((∃ M m, Spec.Version a2 M m ∧ ¬ (M = 1 ∧ m = 0)) ∨
        (strict = true ∧ ¬ ((∃ k, 0 < k ∧ Spec.Number a1 k) ∧ Spec.Version a2 1 0 ∧
          a3 = Spec.RECORD ∧ ∃ k, Spec.Number a4 k)) ∨
        ∃ raw, Spec.UptoNul raw a5 ∧ ∀ t, ¬ Spec.Utf8 t raw)) ↔
      ((∃ M m, Spec.Version f2 M m ∧ ¬ (M = 1 ∧ m = 0)) ∨
        (strict = true ∧ ¬ ((∃ k, 0 < k ∧ Spec.Number f1 k) ∧ Spec.Version f2 1 0 ∧
          f3 = Spec.RECORD ∧ ∃ k, Spec.Number f4 k)) ∨
        ∃ raw, Spec.UptoNul raw f5 ∧ ∀ t, ¬ Spec.Utf8 t raw) := by
    constructor
    · rintro ⟨a1, a2, a3, a4, a5, ha, h⟩
      obtain ⟨rfl, rfl, rfl, rfl, rfl⟩ := huniq ha
      exact h
    · exact fun h => ⟨f1, f2, f3, f4, f5, hl, h⟩
  rw [hone]
  simp only [hlen, false_or]
  rcases hs : Dlis.storageLabel sul with _ | _ | ⟨w, q, M, m, lay, l, s⟩
  · exact absurd ((c13_too_small sul).1 hs) hlen
  · simp only [true_iff]
    exact Or.inl ((c13_rejected hl).1 hs)
  · have hd := c13_defaulted hl hs
    have hnr : ¬ ∃ M m, Spec.Version f2 M m ∧ ¬ (M = 1 ∧ m = 0) := by
      rw [← c13_rejected hl, hs]
      simp
    simp only [hnr, false_or]
    rw [← hd.2.2.2.2.2.2.2.2]
    have hraw : (∃ raw, Spec.UptoNul raw f5 ∧ ∀ t, ¬ Spec.Utf8 t raw) ↔ utf8Decode s = none := by
      have hs' := (uptoNul_iff _ _).1 hd.2.2.2.2.2.2.2.1
      constructor
      · rintro ⟨raw, h1, h2⟩
        rw [(uptoNul_iff _ _).1 h1, ← hs'] at h2
        rcases hu : utf8Decode s with _ | t
        · rfl
        · exact absurd ((utf8Decode_iff s t).1 hu) (h2 t)
      · intro h
        refine ⟨s, hd.2.2.2.2.2.2.2.1, fun t ht => ?_⟩
        rw [(utf8Decode_iff s t).2 ht] at h
        cases h
    rw [hraw]
    cases w <;> cases strict <;> rcases utf8Decode s with _ | t <;> simp

/-- C80.  A label with errors gives what is written in the fields that are correct, and values that
cannot be there in the others. -/
theorem c80_defaulted {strict : Bool} {g : LogFile} {w : Bool} {q : Int} {v lay : Text} {l : Int}
    {t : Text} (h : g.storageLabel strict = .dict w q v lay l t) :
    ∃ sul f1 f2 f3 f4 f5 raw, g.sul = some sul ∧ Spec.Label sul f1 f2 f3 f4 f5 ∧
      (∀ k : Nat, 0 < k → Spec.Number f1 k → q = k) ∧
      ((¬ ∃ k : Nat, 0 < k ∧ Spec.Number f1 k) → q = -1) ∧ v = text "1.0" ∧
      (f3 = Spec.RECORD → lay = text "record") ∧ (f3 ≠ Spec.RECORD → lay = text "unknown") ∧
      (∀ k : Nat, Spec.Number f4 k → l = k) ∧ ((¬ ∃ k : Nat, Spec.Number f4 k) → l = 0) ∧
      Spec.UptoNul raw f5 ∧ Spec.Utf8 t raw ∧
      (w = true ↔ ¬ ((∃ k, 0 < k ∧ Spec.Number f1 k) ∧ Spec.Version f2 1 0 ∧ f3 = Spec.RECORD ∧
        ∃ k, Spec.Number f4 k)) := by
  unfold LogFile.storageLabel at h
  rcases hg : g.sul with _ | sul
  · rw [hg] at h; cases h
  rw [hg] at h
  simp only at h
  split_ifs at h with hne
  rcases hs : Dlis.storageLabel sul with _ | _ | ⟨w', q', M, m, lay', l', s⟩
  · rw [hs] at h; cases h
  · rw [hs] at h; cases h
  · rw [hs] at h
    simp only at h
    by_cases hw : (w' && strict) = true
    · rw [if_pos hw] at h; cases h
    rw [if_neg hw] at h
    have hlen : 80 ≤ sul.length := by
      by_contra hc
      rw [(c13_too_small sul).2 (by omega)] at hs
      cases hs
    obtain ⟨f1, f2, f3, f4, f5, hl⟩ := c13_label_exists sul hlen
    obtain ⟨d1, d2, rfl, rfl, d5, d6, d7, d8, d9⟩ := c13_defaulted hl hs
    rcases hu : utf8Decode s with _ | t'
    · rw [hu] at h; cases h
    · rw [hu] at h
      simp only [PyLabel.dict.injEq] at h
      obtain ⟨rfl, rfl, rfl, rfl, rfl, rfl⟩ := h
      refine ⟨sul, f1, f2, f3, f4, f5, s, rfl, hl, d1, d2, by decide +kernel, fun h => ?_, fun h => ?_,
        d6, d7, d8, (utf8Decode_iff s t').1 hu, d9⟩
      · rw [if_pos (d5.2 h)]
      · rw [if_neg (fun hh => h (d5.1 hh))]

/-- C80.  Whatever the medium is, the label of a logical file is the one it belongs to; there is
none if there is no label in front of it. -/
theorem c80_load_partial (policy : Policy) (stale : Nat → Bytes) (hst : ∀ t, 262 ≤ (stale t).length)
    (hp : policy .minor = false) (disk : Disk) (fs : List (Option Bytes × Stored))
    (hm : Spec.Medium policy disk fs) (strict : Bool) :
    ∃ n₀, ∀ n, n₀ ≤ n → ∃ y, load disk policy stale n = (y, .files) ∧
      List.Forall₂ (fun x g => (x.1 = none → g.storageLabel strict = .nothing) ∧
        ∀ sul seq maxlen id, x.1 = some sul → Spec.LabelSays sul seq maxlen id →
          g.storageLabel strict = .dict false seq (text "1.0") (text "record") maxlen id)
        fs y.files := by
  obtain ⟨n₀, h⟩ := c77_load_partial policy stale hst hp disk fs hm
  refine ⟨n₀, fun n hn => ?_⟩
  obtain ⟨y, h1, h2⟩ := h n hn
  refine ⟨y, h1, h2.imp fun x g hg => ⟨fun hx => ?_, fun sul seq maxlen id hx hs => ?_⟩⟩
  · unfold LogFile.storageLabel
    rw [hg.label, hx]
  · exact c80_label strict g sul (by rw [hg.label, hx]) seq maxlen id hs

/-! ## Cases -/

namespace LabelCase

open FromDiskCase EndToEndCase StoreCase

/-- A label with the sequence number, and an identifier. -/
def labelWith (seq : Bytes) (id : Bytes) : Bytes :=
  seq ++ [0x56, 0x31, 0x2e, 0x30, 0x30] ++ Spec.RECORD ++ [0x20, 0x38, 0x31, 0x39, 0x32] ++
    id ++ List.replicate (60 - id.length) 0

/-- A logical file with this label. -/
def fileWith (sul : Option Bytes) : LogFile :=
  { src := ⟨[], .eof⟩, handle := 0, sul := sul, explicits := [], implicits := [], sets := [], fdata := [] }

/-- Case for `c80_label`: the identifier is "æ", as UTF-8. -/
theorem says_case : Spec.LabelSays (labelWith [0x20, 0x20, 0x31, 0x32] [0xc3, 0xa6]) 12 8192 [0xe6] :=
  ⟨[0x20, 0x20, 0x31, 0x32], [0x56, 0x31, 0x2e, 0x30, 0x30], Spec.RECORD, [0x20, 0x38, 0x31, 0x39, 0x32],
    [0xc3, 0xa6] ++ List.replicate 58 0, [0xc3, 0xa6],
    ⟨⟨[], by decide⟩, rfl, rfl, rfl, rfl, by simp⟩,
    ⟨[0x20, 0x20], [0x31, 0x32], [], [], by simp, by unfold Spec.Blank; decide,
      by unfold Spec.Digits; decide, by simp, by simp [Spec.Blank], by simp, by decide⟩, by decide,
    (version_one_zero _).2 rfl, rfl,
    ⟨[0x20], [0x38, 0x31, 0x39, 0x32], [], [], by simp, by unfold Spec.Blank; decide,
      by unfold Spec.Digits; decide, by simp, by simp [Spec.Blank], by simp, by decide⟩,
    (uptoNul_iff _ _).2 (by decide), (utf8Decode_iff _ _).1 (by decide +kernel)⟩

example : (fileWith (some (labelWith [0x20, 0x20, 0x31, 0x32] [0xc3, 0xa6]))).storageLabel true =
    .dict false 12 (text "1.0") (text "record") 8192 [0xe6] :=
  c80_label true _ _ rfl 12 8192 [0xe6] says_case

/-- Case for `c80_defaulted` and `c80_raises`: no number in the first field; without a label. -/
example : (fileWith (some (labelWith [0x20, 0x20, 0x41, 0x32] [0x41]))).storageLabel false =
      .dict true (-1) (text "1.0") (text "record") 8192 [0x41] ∧
    (fileWith (some (labelWith [0x20, 0x20, 0x41, 0x32] [0x41]))).storageLabel true = .raises ∧
    (fileWith (some [0x20, 0x20])).storageLabel false = .raises ∧
    (fileWith (some [])).storageLabel false = .nothing ∧
    (fileWith none).storageLabel false = .nothing := by
  decide +kernel

/-- C80 is violated: a label that is correct but for the identifier, which is "æ" as Latin 1, cannot
be asked for; other strings that are not UTF-8 are decoded with the encodings of the user, or given as
`bytes`. -/
theorem c80_identifier_defect : ∃ sul f1 f2 f3 f4 f5, Spec.StorageLabel sul ∧
    Spec.Label sul f1 f2 f3 f4 f5 ∧ Spec.Number f1 1 ∧ Spec.Version f2 1 0 ∧ f3 = Spec.RECORD ∧
    Spec.Number f4 8192 ∧ Spec.UptoNul [0xe6] f5 ∧
    ∀ g : LogFile, g.sul = some sul → g.storageLabel false = .raises := by
  refine ⟨labelWith [0x20, 0x20, 0x20, 0x31] [0xe6], [0x20, 0x20, 0x20, 0x31],
    [0x56, 0x31, 0x2e, 0x30, 0x30], Spec.RECORD, [0x20, 0x38, 0x31, 0x39, 0x32],
    [0xe6] ++ List.replicate 59 0, ⟨by decide, ⟨by rw [occurs_bytes]; decide, ?_⟩, ?_⟩,
    ⟨⟨[], by decide⟩, rfl, rfl, rfl, rfl, by simp⟩,
    ⟨[0x20, 0x20, 0x20], [0x31], [], [], by simp, by unfold Spec.Blank; decide,
      by unfold Spec.Digits; decide, by simp, by simp [Spec.Blank], by simp, by decide⟩,
    (version_one_zero _).2 rfl, rfl,
    ⟨[0x20], [0x38, 0x31, 0x39, 0x32], [], [], by simp, by unfold Spec.Blank; decide,
      by unfold Spec.Digits; decide, by simp, by simp [Spec.Blank], by simp, by decide⟩,
    (uptoNul_iff _ _).2 (by decide), fun g hg => ?_⟩
  · intro j hj
    rw [occurs_bytes]
    revert j
    decide
  · intro b hb
    cases hb
    decide
  · unfold LogFile.storageLabel
    rw [hg]
    decide +kernel

/-- Case for `c80_load_partial`: the file of FromDisk.lean behind the label above. -/
example : ∃ n₀, ∀ n, n₀ ≤ n → ∃ y g,
    load (rawDisk (labelWith [0x20, 0x20, 0x31, 0x32] [0xc3, 0xa6] ++ [fileOn].flatMap Stored.bytes))
      env.policy exStale n = (y, .files) ∧ y.files = [g] ∧
      g.storageLabel true = .dict false 12 (text "1.0") (text "record") 8192 [0xe6] := by
  have hlab : Spec.StorageLabel (labelWith [0x20, 0x20, 0x31, 0x32] [0xc3, 0xa6]) := by
    refine ⟨by decide, ⟨by rw [occurs_bytes]; decide, ?_⟩, ?_⟩
    · intro j hj
      rw [occurs_bytes]
      revert j
      decide
    · intro b hb
      cases hb
      decide
  obtain ⟨n₀, h0⟩ := c80_load_partial env.policy exStale
    (fun _ => by rw [exStale, List.length_replicate]) (by decide) _ _
    (.labelled hlab (fs := [fileOn]) (by simpa using loadable_case) (by decide +kernel)) true
  refine ⟨n₀, fun n hn => ?_⟩
  obtain ⟨y, h1, h2⟩ := h0 n hn
  cases hy : y.files with
  | nil => rw [hy] at h2; cases h2
  | cons g gs =>
    rw [hy] at h2
    cases h2 with
    | cons hg h2 =>
      cases h2
      exact ⟨y, g, h1, hy, hg.2 _ _ _ _ rfl says_case⟩

end LabelCase

end Dlisio.Dlis
