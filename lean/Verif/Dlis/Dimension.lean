/-
Structuring of the values of parameters, computations and measurements:
python/dlisio/dlis/utils/dimensional.py.

The elements of the data are abstract.  A value that is not a sequence is `none`.  The
dimension consists of natural numbers (that is what the codes that the standard allows
give).  NumPy is assumed to work as follows: `np.prod` of integers is computed modulo
2^64 as `int64`; the remainder and the quotient of a division by the integer zero are
zero, with a warning; a dtype whose size does not fit into a C `int` is refused with a
`ValueError`; `np.ndarray(shape, dtype, buffer)` takes the elements of the buffer in
order, and refuses a negative shape (`ValueError`) and a buffer that is too small
(`TypeError`).
-/
import Mathlib.Algebra.BigOperators.Ring.List
import Mathlib.Data.Nat.Cast.Basic
import Verif.Basic

namespace Dlisio.Dlis

/-- `np.prod(np.array(shape))`, dimensional.py:66 and 121: an `int64`. -/
def npProd (shape : List Nat) : Int := (BitVec.ofNat 64 shape.prod).toInt

/-- `size % samplesize` with a NumPy integer, dimensional.py:68. -/
def npMod (a : Nat) (b : Int) : Int := if b = 0 then 0 else Int.fmod a b

/-- `size // samplesize` with a NumPy integer, dimensional.py:122. -/
def npDiv (a : Nat) (b : Int) : Int := if b = 0 then 0 else Int.fdiv a b

/-- `validshape`, dimensional.py:14-69; `none` is `ValueError`. -/
def validshape {α : Type} (data : Option (List α)) (shape : List Nat) (samplecount : Option Nat) :
    Option (List Nat) :=
  match data with
  | none => some [1]
  | some [] => some shape
  | some data =>
    if shape = [] then
      if samplecount = some data.length then some [1]
      else if data.length = 1 then some [1]
      else none
    else if npMod data.length (npProd shape) = 0 then some shape
    else none

/-- An array of samples: how many, the shape of each (`[]` for scalars), and the elements
in the order in which NumPy iterates over them. -/
structure Samples (α : Type) where
  count : Nat
  shape : List Nat
  elems : List α
deriving DecidableEq

/-- The shape of one sample, dimensional.py:133-134: samples of shape `[1]` are scalars. -/
def sampleShape (shape : List Nat) : List Nat := if shape = [1] then [] else shape

/-- `sampling` with `single=False`, dimensional.py:71-144; `none` is `ValueError` or
`TypeError`.  `itemsize` is the size in bytes of an element. -/
def sampling {α : Type} (itemsize : Nat) (data : Option (List α)) (shape : List Nat) :
    Option (Samples α) :=
  match data with
  | none => some ⟨0, [], []⟩
  | some [] => some ⟨0, [], []⟩
  | some data =>
    let samplecount := npDiv data.length (npProd shape)
    if (sampleShape shape).prod * itemsize ≥ 2 ^ 31 then none
    else if samplecount < 0 then none
    else if samplecount.toNat * (sampleShape shape).prod > data.length then none
    else some ⟨samplecount.toNat, sampleShape shape,
      data.take (samplecount.toNat * (sampleShape shape).prod)⟩

/-- What `sampling` with `single=True` gives. -/
inductive Single (α : Type) where
  | sample (shape : List Nat) (elems : List α)
  | empty
  | error
deriving DecidableEq

/-- `sampling` with `single=True`, dimensional.py:138-142: the first sample; without samples
`array[0]` is an `IndexError`. -/
def samplingSingle {α : Type} (itemsize : Nat) (data : Option (List α)) (shape : List Nat) :
    Single α :=
  match data with
  | none => .empty
  | some [] => .empty
  | some data =>
    match sampling itemsize (some data) shape with
    | none => .error
    | some s =>
      if s.count = 0 then .error else .sample s.shape (s.elems.take s.shape.prod)

/-- The property that gives the structured values of an object, for example
`Parameter.values`, parameter.py:136-142, and `Measurement.samples`, measurement.py:146-152; an
attribute that is missing gives an empty array. -/
def structured {α : Type} (itemsize : Nat) (data : Option (List α)) (dimension : List Nat)
    (samplecount : Option Nat) : Option (Samples α) :=
  match validshape data dimension samplecount with
  | none => none
  | some shape => sampling itemsize data shape

/-! ### C39 -/

/-- The number of elements that belong to one sample of a declared dimension. -/
def Spec.sampleSize (dimension : List Nat) : Nat := dimension.prod

theorem npProd_eq {shape : List Nat} (h : shape.prod < 2 ^ 63) : npProd shape = shape.prod := by
  unfold npProd
  rw [BitVec.toInt_eq_toNat_of_lt]
  · simp; omega
  · simp; omega

theorem npMod_eq {a b : Nat} (hb : b ≠ 0) : npMod a b = ((a % b : Nat) : Int) := by
  unfold npMod
  rw [if_neg (by omega), Int.fmod_eq_emod_of_nonneg _ (by omega)]
  omega

theorem npDiv_eq {a b : Nat} (hb : b ≠ 0) : npDiv a b = ((a / b : Nat) : Int) := by
  unfold npDiv
  rw [if_neg (by omega), Int.fdiv_eq_ediv_of_nonneg _ (by omega)]
  omega

theorem sampleShape_prod (shape : List Nat) : (sampleShape shape).prod = shape.prod := by
  unfold sampleShape
  split
  · rename_i h; rw [h]; rfl
  · rfl

/-- C39.  For a dimension without zeros: if structuring succeeds, no element is lost, the
elements are in order, and there are exactly as many samples as are needed.  The samples have
the declared dimension (scalars if that is `[1]` or nothing). -/
theorem c39_preserves_partial {α : Type} (itemsize : Nat) (hi : 0 < itemsize) (data : List α)
    (hd : data ≠ []) (dimension : List Nat) (hz : 0 ∉ dimension) (samplecount : Option Nat)
    (s : Samples α) (h : structured itemsize (some data) dimension samplecount = some s) :
    s.elems = data ∧ s.count * s.shape.prod = data.length ∧ 0 < s.count ∧
    (s.shape = dimension ∧ dimension ≠ [] ∨
     s.shape = [] ∧ (dimension = [1] ∨
       dimension = [] ∧ (samplecount = some data.length ∨ data.length = 1))) := by
  obtain ⟨x, xs, rfl⟩ := List.exists_cons_of_ne_nil hd
  generalize hdata : x :: xs = data at *
  have hlen : 0 < data.length := by rw [← hdata]; simp
  have key : ∀ shape, 0 ∉ shape → (npMod data.length (npProd shape) = 0) →
      sampling itemsize (some data) shape = some s →
      s.elems = data ∧ s.count * s.shape.prod = data.length ∧ 0 < s.count ∧
        s.shape = sampleShape shape := by
    intro shape hz hm hs
    have hpos : 0 < shape.prod := Nat.pos_of_ne_zero fun h0 => hz (List.prod_eq_zero_iff.1 h0)
    unfold sampling at hs
    rw [← hdata] at hs
    simp only [hdata] at hs
    rw [sampleShape_prod] at hs
    split at hs
    · cases hs
    rename_i hsz
    have hsmall : shape.prod < 2 ^ 31 := by
      have : shape.prod * 1 ≤ shape.prod * itemsize := Nat.mul_le_mul_left _ hi
      omega
    have hp : npProd shape = shape.prod := npProd_eq (by omega)
    rw [hp, npMod_eq (by omega)] at hm
    rw [hp, npDiv_eq (by omega)] at hs
    have hmul : data.length / shape.prod * shape.prod = data.length :=
      Nat.div_mul_cancel (Nat.dvd_of_mod_eq_zero (by omega))
    simp only [Int.toNat_natCast] at hs
    split at hs
    · cases hs
    split at hs
    · cases hs
    cases hs
    refine ⟨?_, ?_, ?_, rfl⟩
    · simp only [hmul, List.take_length]
    · simp only [sampleShape_prod, hmul]
    · simp only
      exact Nat.div_pos (Nat.le_of_dvd hlen (Nat.dvd_of_mod_eq_zero (by omega))) hpos
  unfold structured at h
  split at h
  · cases h
  rename_i shape hv
  unfold validshape at hv
  rw [← hdata] at hv
  simp only [hdata] at hv
  have key1 := key [1] (by simp) (by
    rw [npProd_eq (by simp)]
    rw [npMod_eq (by simp)]
    simp [Nat.mod_one])
  split at hv
  · rename_i hnil
    split at hv
    · rename_i hsc
      cases hv
      obtain ⟨h1, h2, h3, h4⟩ := key1 h
      exact ⟨h1, h2, h3, Or.inr ⟨h4, Or.inr ⟨hnil, Or.inl hsc⟩⟩⟩
    · split at hv
      · rename_i hsc
        cases hv
        obtain ⟨h1, h2, h3, h4⟩ := key1 h
        exact ⟨h1, h2, h3, Or.inr ⟨h4, Or.inr ⟨hnil, Or.inr hsc⟩⟩⟩
      · cases hv
  · rename_i hnil
    split at hv
    · rename_i hm
      cases hv
      obtain ⟨h1, h2, h3, h4⟩ := key dimension hz hm h
      refine ⟨h1, h2, h3, ?_⟩
      unfold sampleShape at h4
      split at h4
      · rename_i ho; exact Or.inr ⟨h4, Or.inl ho⟩
      · exact Or.inl ⟨h4, hnil⟩
    · cases hv

/-- C39.  Structuring succeeds if the number of elements is a multiple of the size of a sample,
and the size of a sample in bytes fits into a C `int`; it is refused if the number is no
multiple. -/
theorem c39_succeeds {α : Type} (itemsize : Nat) (data : List α)
    (dimension : List Nat) (hne : dimension ≠ []) (hz : 0 ∉ dimension)
    (hs : Spec.sampleSize dimension * itemsize < 2 ^ 31) (hi : 0 < itemsize)
    (samplecount : Option Nat) :
    (structured itemsize (some data) dimension samplecount).isSome = true ↔
      Spec.sampleSize dimension ∣ data.length := by
  unfold Spec.sampleSize at *
  have hpos : 0 < dimension.prod := Nat.pos_of_ne_zero fun h0 => hz (List.prod_eq_zero_iff.1 h0)
  have hsmall : dimension.prod < 2 ^ 31 := by
    have : dimension.prod * 1 ≤ dimension.prod * itemsize := Nat.mul_le_mul_left _ hi
    omega
  have hp : npProd dimension = dimension.prod := npProd_eq (by omega)
  cases data with
  | nil => simp [structured, validshape, sampling]
  | cons x xs =>
    unfold structured validshape
    simp only [hne, if_false]
    rw [hp, npMod_eq (by omega)]
    by_cases hd : dimension.prod ∣ (x :: xs).length
    · have hm := Nat.mod_eq_zero_of_dvd hd
      simp only [hd, iff_true]
      rw [if_pos (by omega)]
      unfold sampling
      simp only
      rw [sampleShape_prod, hp, npDiv_eq (by omega), Int.toNat_natCast, Nat.div_mul_cancel hd]
      have h1 : ¬ dimension.prod * itemsize ≥ 2 ^ 31 := by omega
      have h2 : ¬ (((x :: xs).length / dimension.prod : Nat) : Int) < 0 := by
        generalize (x :: xs).length / dimension.prod = k; omega
      have h3 : ¬ (x :: xs).length > (x :: xs).length := by omega
      rw [if_neg h1, if_neg h2, if_neg h3]
      rfl
    · have hm : (x :: xs).length % dimension.prod ≠ 0 := fun h => hd (Nat.dvd_of_mod_eq_zero h)
      simp only [hd, iff_false]
      rw [if_neg (by omega)]
      simp

/-- C39.  Without values there are no samples, whatever the dimension; samples that do not fit
into a C `int` are refused, also if their size overflows an `int64`. -/
theorem c39_limits {α : Type} (itemsize : Nat) (dimension : List Nat) (samplecount : Option Nat) :
    structured itemsize (none : Option (List α)) dimension samplecount = some ⟨0, [], []⟩ ∧
    structured itemsize (some ([] : List α)) dimension samplecount = some ⟨0, [], []⟩ ∧
    ∀ data : List α, data ≠ [] → dimension ≠ [] →
      2 ^ 31 ≤ Spec.sampleSize dimension * itemsize →
      structured itemsize (some data) dimension samplecount = none := by
  refine ⟨rfl, rfl, fun data hd hne hs => ?_⟩
  obtain ⟨x, xs, rfl⟩ := List.exists_cons_of_ne_nil hd
  unfold structured validshape
  simp only [hne, if_false]
  split
  · rfl
  · rename_i shape h
    split at h
    · cases h
      unfold sampling Spec.sampleSize at *
      simp only
      rw [sampleShape_prod, if_pos hs]
    · cases h

/-- C39.  A single sample is the first of the data, in order. -/
theorem c39_single_partial {α : Type} (itemsize : Nat) (hi : 0 < itemsize) (data : List α)
    (hd : data ≠ []) (dimension : List Nat) (hne : dimension ≠ []) (hz : 0 ∉ dimension)
    (hv : validshape (some data) dimension none = some dimension) (shape : List Nat)
    (elems : List α) (h : samplingSingle itemsize (some data) dimension = .sample shape elems) :
    elems = data.take (Spec.sampleSize dimension) ∧
    elems.length = Spec.sampleSize dimension ∧ shape.prod = Spec.sampleSize dimension := by
  obtain ⟨x, xs, hdata⟩ := List.exists_cons_of_ne_nil hd
  unfold samplingSingle at h
  rw [hdata] at h
  simp only [← hdata] at h
  split at h
  · cases h
  rename_i s hs
  have hst : structured itemsize (some data) dimension none = some s := by
    unfold structured; rw [hv]; exact hs
  obtain ⟨h1, h2, h3, h4⟩ := c39_preserves_partial itemsize hi data hd dimension hz none s hst
  have hsp : s.shape.prod = dimension.prod := by
    rcases h4 with h4 | ⟨h4, h5 | h5⟩
    · rw [h4.1]
    · rw [h4, h5]; rfl
    · exact absurd h5.1 hne
  split at h
  · cases h
  cases h
  unfold Spec.sampleSize
  rw [h1, hsp]
  refine ⟨rfl, ?_, rfl⟩
  rw [List.length_take, ← h2, hsp]
  have : 1 * dimension.prod ≤ s.count * dimension.prod := Nat.mul_le_mul_right _ h3
  omega

/-- C39 is violated by a dimension that contains a zero: it is taken for valid whatever the
number of elements is, and all the elements are dropped. -/
theorem c39_zero_dimension_defect {α : Type} (itemsize : Nat) (x : α) (xs : List α)
    (pre post : List Nat) (samplecount : Option Nat) :
    structured itemsize (some (x :: xs)) (pre ++ 0 :: post) samplecount =
      some ⟨0, pre ++ 0 :: post, []⟩ := by
  have hp : (pre ++ 0 :: post).prod = 0 := List.prod_eq_zero_iff.2 (by simp)
  have hnp : npProd (pre ++ 0 :: post) = 0 := by unfold npProd; rw [hp]; rfl
  have hs : sampleShape (pre ++ 0 :: post) = pre ++ 0 :: post := by
    unfold sampleShape
    rw [if_neg]
    intro h
    have := congrArg List.prod h
    rw [hp] at this
    simp at this
  unfold structured validshape
  simp only [hnp, npMod, if_true]
  rw [if_neg (by simp)]
  unfold sampling
  simp only [hnp, hs, hp, npDiv, if_true]
  simp

/-- Case: twelve values as two samples of dimension [2, 3]; seven values cannot be structured
that way; values without a dimension are scalars if there are as many as zones. -/
example :
    structured 8 (some (List.range 12)) [2, 3] none = some ⟨2, [2, 3], List.range 12⟩ ∧
    structured 8 (some (List.range 7)) [2, 3] none = none ∧
    structured 8 (some (List.range 3)) [] (some 3) = some ⟨3, [], List.range 3⟩ ∧
    structured 8 (some (List.range 3)) [] (some 2) = none ∧
    structured 8 (some (List.range 3)) [1] none = some ⟨3, [], List.range 3⟩ ∧
    structured 8 (some (List.range 12)) [2 ^ 33, 2 ^ 31] none = none ∧
    samplingSingle 8 (some (List.range 12)) [2, 3] = .sample [2, 3] [0, 1, 2, 3, 4, 5] := by
  decide +kernel

end Dlisio.Dlis
