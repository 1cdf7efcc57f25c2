/-
The structured values of an object: `Parameter.values`, `Computation.values`,
`Measurement.samples`, `Measurement.reference` and the like, from the object to the array
(python/dlisio/dlis/{parameter,computation,measurement}.py).  C68.

What `np.array` makes of a list of values is a parameter: it either refuses the list (for
example a mixture of `str` and `bytes`) or gives elements of some size, which is the number
that `sampling` needs (see Dimension.lean).  It is assumed to keep the values.
-/
import Verif.Dlis.EndToEnd
import Verif.Dlis.Dimension

namespace Dlisio.Dlis

open _root_.Dlisio.Dlis.Spec

/-! ## Model -/

/-- `Parameter.attributes` and `Parameter.linkage`, parameter.py:56-68. -/
def parameterRules : Rules where
  attributes := ruleOf
    [("LONG-NAME", .scalar), ("DIMENSION", .reverse), ("AXIS", .reverse), ("ZONES", .vector),
     ("VALUES", .vector)]
  linkage := ruleOf [("LONG-NAME", .obname (.str (text "LONG-NAME"))),
    ("AXIS", .obname (.str (text "AXIS"))), ("ZONES", .obname (.str (text "ZONE")))]

/-- `Computation.attributes` and `Computation.linkage`, computation.py:71-86. -/
def computationRules : Rules where
  attributes := ruleOf
    [("LONG-NAME", .scalar), ("PROPERTIES", .vector), ("DIMENSION", .reverse), ("AXIS", .reverse),
     ("ZONES", .vector), ("SOURCE", .scalar), ("VALUES", .vector)]
  linkage := ruleOf [("LONG-NAME", .obname (.str (text "LONG-NAME"))),
    ("AXIS", .obname (.str (text "AXIS"))), ("ZONES", .obname (.str (text "ZONE"))),
    ("SOURCE", .objref)]

/-- `Measurement.attributes` and `Measurement.linkage`, measurement.py:75-96. -/
def measurementRules : Rules where
  attributes := ruleOf
    [("PHASE", .scalar), ("MEASUREMENT-SOURCE", .scalar), ("TYPE", .scalar),
     ("DIMENSION", .reverse), ("AXIS", .reverse), ("MEASUREMENT", .vector),
     ("SAMPLE-COUNT", .scalar), ("MAXIMUM-DEVIATION", .vector), ("STANDARD-DEVIATION", .vector),
     ("BEGIN-TIME", .scalar), ("DURATION", .scalar), ("REFERENCE", .vector),
     ("STANDARD", .vector), ("PLUS-TOLERANCE", .vector), ("MINUS-TOLERANCE", .vector)]
  linkage := ruleOf [("AXIS", .obname (.str (text "AXIS"))), ("MEASUREMENT-SOURCE", .objref)]

/-- What `self.attic[key].value` gives. -/
inductive AtticValue where
  | missing
  | raised
  | value (vs : Option (List PyVal))
deriving DecidableEq

/-- `self.attic[key].value`, parameter.py:137: `KeyError` if there is no such attribute, an
exception if a date does not exist, `None` (`none`) if the attribute has no value. -/
def atticValue (e : Env) (o : BasicObject) (key : PyStr) : AtticValue :=
  match attrAt key.toStd o.attributes with
  | none => .missing
  | some a =>
    match a.value with
    | none => .value none
    | some (c, vs) =>
      match toPyList e.dec c vs with
      | none => .raised
      | some vs => .value (some vs)

/-- `utils.validshape` and `utils.sampling`, parameter.py:141-142, of values and a dimension as they
are in Python; `none` is an exception.  Every dimension that is no natural number leads to an
exception: negative numbers are refused by `np.dtype` (`ValueError`), numbers that are no integers
by `np.dtype` or `np.ndarray` (`TypeError`), everything else by `np.prod` or `%`. -/
def samplesOf (np : List PyVal → Option Nat) (data : Option (List PyVal)) (dim : List PyVal)
    (samplecount : Option Nat) : Option (Samples PyVal) :=
  match data with
  | none => some ⟨0, [], []⟩
  | some [] => some ⟨0, [], []⟩
  | some (v :: vs) =>
    match dim.mapM natOf, np (v :: vs) with
    | some d, some itemsize => structured itemsize (some (v :: vs)) d samplecount
    | _, _ => none

/-- The same with `single=True`, measurement.py:173-174. -/
def sampleOf (np : List PyVal → Option Nat) (data : Option (List PyVal)) (dim : List PyVal) :
    Single PyVal :=
  match data with
  | none => .empty
  | some [] => .empty
  | some (v :: vs) =>
    match dim.mapM natOf, np (v :: vs) with
    | some d, some itemsize =>
      match validshape (some (v :: vs)) d none with
      | none => .error
      | some shape => samplingSingle itemsize (some (v :: vs)) shape
    | _, _ => .error

/-- `Parameter.values`, parameter.py:89-142, and `Computation.values`, computation.py:115-168. -/
def Store.zonedValues (e : Env) (np : List PyVal → Option Nat) (rules : Rules) (s : Store)
    (o : BasicObject) : Store × Option (Samples PyVal) :=
  match atticValue e o (.str (text "VALUES")) with
  | .missing => (s, some ⟨0, [], []⟩)
  | .raised => (s, none)
  | .value data =>
    match getItem e rules s o (.str (text "DIMENSION")) with
    | (s, .ok (.list dim)) =>
      match getItem e rules s o (.str (text "ZONES")) with
      | (s, .ok (.list zones)) => (s, samplesOf np data dim (some zones.length))
      | (s, _) => (s, none)
    | (s, _) => (s, none)

/-- `Measurement.samples`, measurement.py:137-152. -/
def Store.measurementSamples (e : Env) (np : List PyVal → Option Nat) (s : Store)
    (o : BasicObject) : Store × Option (Samples PyVal) :=
  match atticValue e o (.str (text "MEASUREMENT")) with
  | .missing => (s, some ⟨0, [], []⟩)
  | .raised => (s, none)
  | .value data =>
    match getItem e measurementRules s o (.str (text "DIMENSION")) with
    | (s, .ok (.list dim)) => (s, samplesOf np data dim none)
    | (s, _) => (s, none)

/-- `Measurement.max_deviation`, `std_deviation`, `reference`, `plus_tolerance` and
`minus_tolerance`, measurement.py:155-252, which differ in the label only. -/
def Store.measurementSingle (e : Env) (np : List PyVal → Option Nat) (s : Store)
    (o : BasicObject) (label : String) : Store × Single PyVal :=
  match atticValue e o (.str (text label)) with
  | .missing => (s, .empty)
  | .raised => (s, .error)
  | .value data =>
    match getItem e measurementRules s o (.str (text "DIMENSION")) with
    | (s, .ok (.list dim)) => (s, sampleOf np data dim)
    | (s, _) => (s, .error)

/-- The position of an element in an array in C order, as NumPy counts it. -/
def rowMajor : List Nat → List Nat → Nat
  | _ :: ns, i :: is => i * ns.prod + rowMajor ns is
  | _, _ => 0

/-- `array[i][j1]...[jd]` in NumPy. -/
def Samples.get {α : Type} (s : Samples α) (i : Nat) (js : List Nat) : Option α :=
  if i < s.count ∧ List.Forall₂ (· < ·) js s.shape then s.elems[i * s.shape.prod + rowMajor s.shape js]?
  else none

/-- The same for a single sample. -/
def Single.get {α : Type} (s : Single α) (js : List Nat) : Option α :=
  match s with
  | .sample shape elems => if List.Forall₂ (· < ·) js shape then elems[rowMajor shape js]? else none
  | _ => none

/-! ## What the values should be -/

/-- A value in Python, as it was decoded. -/
def Spec.Decoded (e : Env) (c : Reprc) (v : Val) (w : PyVal) : Prop :=
  match v with
  | .str s => w = .str (e.dec s)
  | v => w = .raw c v

/-- The position of an element according to the standard, where the first subscript varies
fastest. -/
def Spec.columnMajor : List Nat → List Nat → Nat
  | n :: ns, i :: is => i + n * Spec.columnMajor ns is
  | _, _ => 0

/-- The dimension that an object declares, in the order of the file; `[]` if none. -/
inductive Spec.Declares (e : Env) (o : BasicObject) : List Nat → Prop where
  | absent : (∀ a ∈ o.attributes, a.label ≠ Fingerprint.ascii "DIMENSION") → Spec.Declares e o []
  | empty (a : ObjAttr) : a ∈ o.attributes → a.label = Fingerprint.ascii "DIMENSION" →
      Spec.Quiet e o a.log → (a.value = none ∨ ∃ c, a.value = some (c, [])) → Spec.Declares e o []
  | given (vs : List Val) (dims : List Nat) : Spec.HasValues e o "DIMENSION" vs →
      List.Forall₂ Spec.IsNat vs dims → dims ≠ [] → Spec.Declares e o dims

/-- How many zones an object refers to. -/
inductive Spec.Zones (e : Env) (p : List ObjectSet) (o : BasicObject) : Nat → Prop where
  | absent : (∀ a ∈ o.attributes, a.label ≠ Fingerprint.ascii "ZONES") → Spec.Zones e p o 0
  | empty (a : ObjAttr) : a ∈ o.attributes → a.label = Fingerprint.ascii "ZONES" →
      Spec.Quiet e o a.log → (a.value = none ∨ ∃ c, a.value = some (c, [])) → Spec.Zones e p o 0
  | refs (ns : List Dlis.Obname) : Spec.HasValues e o "ZONES" (ns.map .obname) → ns ≠ [] →
      Spec.RefsOk e p (.obname (.str (text "ZONE"))) (ns.map .obname) →
      Spec.Zones e p o ns.length

/-- The object has an attribute with this label and these values, of this code. -/
def Spec.ValuesAre (o : BasicObject) (label : String) (c : Reprc) (vs : List Val) : Prop :=
  ∃ a ∈ o.attributes, a.label = Fingerprint.ascii label ∧ a.value = some (c, vs)

/-- The number of values goes with the dimension; without a dimension the values are scalars if
there is one for each of the zones, or only one. -/
def Spec.Fits (n : Nat) (zones : Option Nat) (dims : List Nat) : Prop :=
  if dims = [] then zones = some n ∨ n = 1 else dims.prod ∣ n

/-- The subscripts of an element in Python: in the opposite order; none for scalars. -/
def Spec.subscripts (dims ss : List Nat) : List Nat := if dims = [1] then [] else ss.reverse

/-- The values are arranged in samples: each value has its place, and each place its value. -/
def Spec.Arranged (ws : List PyVal) (dims : List Nat) (arr : Samples PyVal) : Prop :=
  arr.count * dims.prod = ws.length ∧
  ∀ i ss, i < arr.count → List.Forall₂ (· < ·) ss dims →
    ∃ w, ws[i * dims.prod + Spec.columnMajor dims ss]? = some w ∧
      arr.get i (Spec.subscripts dims ss) = some w

/-! ## Lemmas -/

theorem rowMajor_concat (a b : List Nat) (n s : Nat) (h : b.length = a.length) :
    rowMajor (a ++ [n]) (b ++ [s]) = rowMajor a b * n + s := by
  induction a generalizing b with
  | nil =>
    cases b with
    | nil => simp [rowMajor]
    | cons => simp at h
  | cons x a ih =>
    cases b with
    | nil => simp at h
    | cons y b =>
      simp only [List.cons_append, rowMajor, List.prod_append, List.prod_cons, List.prod_nil, mul_one]
      rw [ih b (by simpa using h)]
      ring

theorem rowMajor_reverse (dims ss : List Nat) (h : ss.length = dims.length) :
    rowMajor dims.reverse ss.reverse = Spec.columnMajor dims ss := by
  induction dims generalizing ss with
  | nil => cases ss <;> rfl
  | cons n dims ih =>
    cases ss with
    | nil => simp at h
    | cons s ss =>
      rw [List.reverse_cons, List.reverse_cons, rowMajor_concat _ _ _ _ (by simpa using h),
        ih ss (by simpa using h)]
      simp only [Spec.columnMajor]
      ring

theorem columnMajor_lt (dims ss : List Nat) (h : List.Forall₂ (· < ·) ss dims) :
    Spec.columnMajor dims ss < dims.prod := by
  induction h with
  | nil => simp [Spec.columnMajor]
  | @cons s n ss dims h _ ih =>
    simp only [Spec.columnMajor, List.prod_cons]
    calc s + n * Spec.columnMajor dims ss < n + n * Spec.columnMajor dims ss := by omega
      _ = n * (Spec.columnMajor dims ss + 1) := by ring
      _ ≤ n * dims.prod := Nat.mul_le_mul_left _ ih

theorem structured_scalars {α : Type} (itemsize : Nat) (data : List α) (hd : data ≠ [])
    (sc : Option Nat) :
    structured itemsize (some data) [] sc =
      if sc = some data.length ∨ data.length = 1 then structured itemsize (some data) [1] sc
      else none := by
  obtain ⟨x, xs, rfl⟩ := List.exists_cons_of_ne_nil hd
  have h1 : npMod (x :: xs).length (npProd [1]) = 0 := by
    rw [npProd_eq (by simp), npMod_eq (by simp)]
    simp [Nat.mod_one]
  unfold structured validshape
  simp only [if_true, h1]
  by_cases ha : sc = some (x :: xs).length
  · simp [ha]
  · by_cases hb : (x :: xs).length = 1
    · rw [if_neg ha, if_pos hb, if_pos (Or.inr hb)]
      rfl
    · rw [if_neg ha, if_neg hb, if_neg (by tauto)]

theorem structured_fits {α : Type} (itemsize : Nat) (hi : 0 < itemsize) (data : List α)
    (hd : data ≠ []) (dims : List Nat) (hz : 0 ∉ dims) (hs : dims.prod * itemsize < 2 ^ 31)
    (sc : Option Nat) :
    (Spec.Fits data.length sc dims → ∃ s, structured itemsize (some data) dims.reverse sc = some s ∧
      s.elems = data ∧ s.count * dims.prod = data.length ∧
      s.shape = if dims = [1] then [] else dims.reverse) ∧
    (¬ Spec.Fits data.length sc dims → structured itemsize (some data) dims.reverse sc = none) := by
  have key : ∀ dims : List Nat, dims ≠ [] → 0 ∉ dims → dims.prod * itemsize < 2 ^ 31 →
      (dims.prod ∣ data.length → ∃ s, structured itemsize (some data) dims.reverse sc = some s ∧
        s.elems = data ∧ s.count * dims.prod = data.length ∧
        s.shape = if dims = [1] then [] else dims.reverse) ∧
      (¬ dims.prod ∣ data.length → structured itemsize (some data) dims.reverse sc = none) := by
    intro dims hne hz hs
    have hp : dims.reverse.prod = dims.prod := List.prod_reverse _
    have hz' : 0 ∉ dims.reverse := by simpa using hz
    have := c39_succeeds itemsize data dims.reverse (by simpa using hne) hz'
      (by unfold Spec.sampleSize; rw [hp]; exact hs) hi sc
    unfold Spec.sampleSize at this
    rw [hp] at this
    refine ⟨fun h => ?_, fun h => ?_⟩
    · obtain ⟨s, h1⟩ := Option.isSome_iff_exists.1 (this.2 h)
      obtain ⟨h2, h3, h4, h5⟩ := c39_preserves_partial itemsize hi data hd dims.reverse hz' sc s h1
      have hsh : s.shape = if dims = [1] then [] else dims.reverse := by
        rcases h5 with ⟨h5, -⟩ | ⟨h5, h6 | h6⟩
        · by_cases ho : dims = [1]
          · subst ho
            exfalso
            unfold structured at h1
            split at h1
            · cases h1
            · rename_i shape hv
              have : shape = [1] := by
                unfold validshape at hv
                split at hv
                · cases hv; rfl
                · cases hv; rfl
                · split at hv
                  · split at hv
                    · cases hv; rfl
                    · split at hv
                      · cases hv; rfl
                      · cases hv
                  · split at hv
                    · cases hv; rfl
                    · cases hv
              subst this
              unfold sampling at h1
              split at h1
              · rename_i hdn; cases hdn
              · rename_i hdn; cases hdn; exact hd rfl
              · simp only at h1
                split at h1
                · cases h1
                split at h1
                · cases h1
                split at h1
                · cases h1
                cases h1
                simp [sampleShape] at h5
          · rw [if_neg ho, h5]
        · rw [h5, if_pos (by simpa using h6)]
        · exact absurd (by simpa using h6.1) hne
      refine ⟨s, h1, h2, ?_, hsh⟩
      rw [← h3, hsh]
      split
      · rename_i ho; subst ho; rfl
      · rw [hp]
    · by_contra hc
      exact h (this.1 (Option.isSome_iff_ne_none.2 hc))
  unfold Spec.Fits
  by_cases hn : dims = []
  · subst hn
    simp only [if_true, List.reverse_nil]
    rw [structured_scalars itemsize data hd sc]
    refine ⟨fun h => ?_, fun h => by rw [if_neg h]⟩
    rw [if_pos h]
    obtain ⟨s, h1, h2, h3, h4⟩ := (key [1] (by simp) (by simp) (by simpa using hs)).1 (by simp)
    exact ⟨s, h1, h2, by simpa using h3, by rw [h4]; simp⟩
  · rw [if_neg hn]
    exact key dims hn hz hs

theorem arranged {ws : List PyVal} {dims : List Nat} {arr : Samples PyVal} (h1 : arr.elems = ws)
    (h2 : arr.count * dims.prod = ws.length)
    (h3 : arr.shape = if dims = [1] then [] else dims.reverse) : Spec.Arranged ws dims arr := by
  refine ⟨h2, fun i ss hi hss => ?_⟩
  have hlt := columnMajor_lt dims ss hss
  have hin : i * dims.prod + Spec.columnMajor dims ss < ws.length := by
    rw [← h2]
    calc i * dims.prod + Spec.columnMajor dims ss < i * dims.prod + dims.prod := by omega
      _ = (i + 1) * dims.prod := by ring
      _ ≤ arr.count * dims.prod := Nat.mul_le_mul_right _ hi
  refine ⟨_, List.getElem?_eq_getElem hin, ?_⟩
  unfold Samples.get Spec.subscripts
  rw [h3]
  by_cases ho : dims = [1]
  · subst ho
    simp only [if_true]
    rw [if_pos ⟨hi, .nil⟩, h1, ← List.getElem?_eq_getElem hin]
    have : Spec.columnMajor [1] ss = 0 := by simpa using hlt
    rw [this]
    simp [rowMajor]
  · simp only [ho, if_false]
    rw [if_pos ⟨hi, List.rel_reverse hss⟩, h1, List.prod_reverse,
      rowMajor_reverse dims ss hss.length_eq, ← List.getElem?_eq_getElem hin]

theorem decoded_toPy {e : Env} {c : Reprc} {v : Val} {w : PyVal} (h : Spec.Decoded e c v w)
    (hd : ∀ t, v = .dtime t → dateOk t = true) : toPy e.dec c v = some w := by
  cases v with
  | dtime t => simp only [Spec.Decoded] at h; simp [toPy, hd t rfl, h]
  | _ => simp only [Spec.Decoded] at h; simp [toPy, h]

theorem decoded_list {e : Env} {c : Reprc} {vs : List Val} {ws : List PyVal}
    (h : List.Forall₂ (Spec.Decoded e c) vs ws) (hd : Spec.DatesOk vs) :
    toPyList e.dec c vs = some ws := by
  induction h with
  | nil => rfl
  | cons h _ ih =>
    rw [toPyList, decoded_toPy h fun t ht => hd t (by simp [ht]),
      ih fun t ht => hd t (List.mem_cons_of_mem _ ht)]

/-- A label that is plain ASCII. -/
def PlainLabel (label : String) : Prop :=
  (∀ b ∈ Fingerprint.ascii label, 0 < b.toNat ∧ b.toNat < 128) ∧
    (Fingerprint.ascii label).map (·.toNat) = text label

theorem label_dec {e : Env} (hd : Spec.ReadsUtf8 e.dec) {label : String} (h : PlainLabel label) :
    e.dec (Fingerprint.ascii label) = .str (text label) ∧
      (PyStr.str (text label)).toStd = Fingerprint.ascii label := by
  have h1 := dec_ascii hd label h
  exact ⟨h1, by rw [← h1]; exact readsUtf8_toStd hd (plain_ascii h.1)⟩

theorem attic_values {e : Env} (hd : Spec.ReadsUtf8 e.dec) {o : BasicObject}
    (hl : Spec.LabelsOk e o) {label : String} (hp : PlainLabel label) {c : Reprc} {vs : List Val}
    (h : Spec.ValuesAre o label c vs) {ws : List PyVal}
    (hw : List.Forall₂ (Spec.Decoded e c) vs ws) (hdates : Spec.DatesOk vs) :
    atticValue e o (.str (text label)) = .value (some ws) := by
  obtain ⟨a, ha, hlab, hv⟩ := h
  unfold atticValue
  rw [(label_dec hd hp).2, ← hlab, attrAt_of_mem hl.1 ha]
  simp only [hv, decoded_list hw hdates]

theorem dimension_run {e : Env} (hd : Spec.ReadsUtf8 e.dec) {rules : Rules}
    (hr : rules.attributes (.str (text "DIMENSION")) = some .reverse) {o : BasicObject}
    (hl : Spec.LabelsOk e o) (hq : Spec.Quiet e o o.log) {dims : List Nat}
    (h : Spec.Declares e o dims) (s : Store) :
    ∃ ds, getItem e rules s o (.str (text "DIMENSION")) = (s, .ok (.list ds)) ∧
      ds.mapM natOf = some dims.reverse := by
  obtain ⟨h1, h2⟩ := label_dec (label := "DIMENSION") hd (by unfold PlainLabel; decide +kernel)
  have hpar : Spec.parsing rules (.str (text "DIMENSION")) = .reverse := by
    unfold Spec.parsing; rw [hr]
  cases h with
  | absent ha =>
    obtain ⟨r, g1, g2⟩ := c35_absent e rules s o (.str (text "DIMENSION")) .reverse hr
      (by rw [h2]; exact ha) hq
    simp only [Spec.Missing] at g2
    subst g2
    exact ⟨[], g1, rfl⟩
  | empty a ha hlab hqa hv =>
    obtain ⟨r, g1, g2⟩ := c35_no_value_partial e rules s o a hl ha hq hqa hv
    rw [hlab, h1] at g1 g2
    rw [hpar] at g2
    simp only [Spec.Missing] at g2
    subst g2
    exact ⟨[], g1, rfl⟩
  | given vs dims hvs hns hne =>
    obtain ⟨a, ha, hlab, hqa, rc, hv⟩ := hvs
    have hvne : vs ≠ [] := by
      rintro rfl
      cases hns
      exact hne rfl
    obtain ⟨ws, r, g1, g2, g3⟩ := c35_value_partial e rules s o a hl ha hq hqa
      rc vs hv hvne (nats_shape hns).1 (Or.inr (nats_shape hns).2)
    rw [hlab, h1] at g1 g3
    rw [hpar, shown_nats _ _ _ hns g2] at g3
    obtain ⟨us, rfl, hlen, hus⟩ := g3
    have hrev : us = (vs.reverse).map (PyVal.raw rc) := by
      apply List.ext_getElem?
      intro i
      by_cases hi : i < vs.length
      · rw [hus i (by simpa using hi), List.map_reverse, List.getElem?_reverse (by simpa using hi)]
      · rw [List.getElem?_eq_none (by simp at hlen; omega), List.getElem?_eq_none (by simp; omega)]
    refine ⟨us, g1, ?_⟩
    rw [hrev]
    exact mapM_natOf _ _ (List.rel_reverse hns)

theorem zones_run {e : Env} (hd : Spec.ReadsUtf8 e.dec) {p : List ObjectSet} (hf : Spec.Fresh p)
    {rules : Rules} (hr : rules.attributes (.str (text "ZONES")) = some .vector)
    (hlink : rules.linkage (.str (text "ZONES")) = some (.obname (.str (text "ZONE"))))
    {o : BasicObject} (hl : Spec.LabelsOk e o) (hq : Spec.Quiet e o o.log) {n : Nat}
    (h : Spec.Zones e p o n) (hist : List Spec.StoreOp) :
    ∃ s zs, getItem e rules (Spec.after e p hist) o (.str (text "ZONES")) = (s, .ok (.list zs)) ∧
      zs.length = n := by
  obtain ⟨h1, h2⟩ := label_dec (label := "ZONES") hd (by unfold PlainLabel; decide +kernel)
  have hpar : Spec.parsing rules (.str (text "ZONES")) = .vector := by
    unfold Spec.parsing; rw [hr]
  cases h with
  | absent ha =>
    obtain ⟨r, g1, g2⟩ := c35_absent e rules (Spec.after e p hist) o (.str (text "ZONES")) .vector hr
      (by rw [h2]; exact ha) hq
    simp only [Spec.Missing] at g2
    subst g2
    exact ⟨_, [], g1, rfl⟩
  | empty a ha hlab hqa hv =>
    obtain ⟨r, g1, g2⟩ := c35_no_value_partial e rules (Spec.after e p hist) o a hl ha hq hqa hv
    rw [hlab, h1] at g1 g2
    rw [hpar] at g2
    simp only [Spec.Missing] at g2
    subst g2
    exact ⟨_, [], g1, rfl⟩
  | refs ns hvs hne hok =>
    obtain ⟨a, ha, hlab, hqa, rc, hv⟩ := hvs
    obtain ⟨ws, r, g1, g2, g3⟩ := c35_linked_partial e rules p hf o a hl ha hq hqa rc _ hv
      (by simpa using hne) (.obname (.str (text "ZONE"))) (by rw [hlab, h1]; exact hlink)
      (by
        intro v hv
        obtain ⟨n, -, rfl⟩ := List.mem_map.1 hv
        exact Or.inl ⟨n, rfl⟩) hok
    rw [hlab, h1] at g2 g3
    rw [hpar] at g2
    simp only [Spec.Presented] at g2
    subst g2
    refine ⟨(getItem e rules (Spec.after e p hist) o (.str (text "ZONES"))).1, ws,
      Prod.ext rfl (g3 hist), ?_⟩
    rw [← g1.length_eq, List.length_map]

/-! ## C68 -/

/-- C68.  The values of a parameter or a computation: if their number goes with the declared
dimension (or, without a dimension, with the number of zones), all of them are in the array, each
with the subscripts that the standard gives it; otherwise the access fails.  Whatever was accessed
before. -/
theorem c68_values_partial (e : Env) (hd : Spec.ReadsUtf8 e.dec) (np : List PyVal → Option Nat)
    (rules : Rules) (hr : rules = parameterRules ∨ rules = computationRules)
    (p : List ObjectSet) (hf : Spec.Fresh p) (o : BasicObject) (hl : Spec.LabelsOk e o)
    (hq : Spec.Quiet e o o.log) (c : Reprc) (vs : List Val) (hvs : Spec.ValuesAre o "VALUES" c vs)
    (hne : vs ≠ []) (hdates : Spec.DatesOk vs) (ws : List PyVal)
    (hws : List.Forall₂ (Spec.Decoded e c) vs ws) (itemsize : Nat) (hi : 0 < itemsize)
    (hnp : np ws = some itemsize) (dims : List Nat) (hdims : Spec.Declares e o dims)
    (hz : 0 ∉ dims) (hs : dims.prod * itemsize < 2 ^ 31) (zones : Nat)
    (hzones : Spec.Zones e p o zones) :
    (Spec.Fits vs.length (some zones) dims → ∃ arr, Spec.Arranged ws dims arr ∧
      ∀ hist, ((Spec.after e p hist).zonedValues e np rules o).2 = some arr) ∧
    (¬ Spec.Fits vs.length (some zones) dims →
      ∀ hist, ((Spec.after e p hist).zonedValues e np rules o).2 = none) := by
  have hlen := hws.length_eq
  have hwne : ws ≠ [] := by rintro rfl; cases hws; exact hne rfl
  have r1 : rules.attributes (.str (text "DIMENSION")) = some .reverse := by
    rcases hr with rfl | rfl <;> decide +kernel
  have r2 : rules.attributes (.str (text "ZONES")) = some .vector := by
    rcases hr with rfl | rfl <;> decide +kernel
  have r3 : rules.linkage (.str (text "ZONES")) = some (.obname (.str (text "ZONE"))) := by
    rcases hr with rfl | rfl <;> rfl
  have hat := attic_values hd hl (label := "VALUES") (by unfold PlainLabel; decide +kernel) hvs hws
    hdates
  have run : ∀ hist, ((Spec.after e p hist).zonedValues e np rules o).2 =
      structured itemsize (some ws) dims.reverse (some zones) := by
    intro hist
    obtain ⟨ds, h1, h2⟩ := dimension_run hd r1 hl hq hdims (Spec.after e p hist)
    obtain ⟨s, zs, h3, h4⟩ := zones_run hd hf r2 r3 hl hq hzones hist
    unfold Store.zonedValues
    simp only [hat, h1, h3]
    obtain ⟨w, ws, rfl⟩ := List.exists_cons_of_ne_nil hwne
    simp only [samplesOf, h2, hnp, h4]
  obtain ⟨h1, h2⟩ := structured_fits itemsize hi ws hwne dims hz hs (some zones)
  rw [hlen]
  refine ⟨fun h => ?_, fun h hist => by rw [run]; exact h2 h⟩
  obtain ⟨arr, g1, g2, g3, g4⟩ := h1 h
  exact ⟨arr, arranged g2 g3 g4, fun hist => by rw [run]; exact g1⟩

/-- C68.  The samples of a measurement: as `c68_values_partial`, without zones. -/
theorem c68_samples_partial (e : Env) (hd : Spec.ReadsUtf8 e.dec) (np : List PyVal → Option Nat)
    (s : Store) (o : BasicObject) (hl : Spec.LabelsOk e o)
    (hq : Spec.Quiet e o o.log) (c : Reprc) (vs : List Val)
    (hvs : Spec.ValuesAre o "MEASUREMENT" c vs)
    (hne : vs ≠ []) (hdates : Spec.DatesOk vs) (ws : List PyVal)
    (hws : List.Forall₂ (Spec.Decoded e c) vs ws) (itemsize : Nat) (hi : 0 < itemsize)
    (hnp : np ws = some itemsize) (dims : List Nat) (hdims : Spec.Declares e o dims)
    (hz : 0 ∉ dims) (hs : dims.prod * itemsize < 2 ^ 31) :
    (Spec.Fits vs.length none dims → ∃ arr, Spec.Arranged ws dims arr ∧
      s.measurementSamples e np o = (s, some arr)) ∧
    (¬ Spec.Fits vs.length none dims → s.measurementSamples e np o = (s, none)) := by
  have hlen := hws.length_eq
  have hwne : ws ≠ [] := by rintro rfl; cases hws; exact hne rfl
  have hat := attic_values hd hl (label := "MEASUREMENT") (by unfold PlainLabel; decide +kernel) hvs
    hws hdates
  have run : s.measurementSamples e np o =
      (s, structured itemsize (some ws) dims.reverse none) := by
    obtain ⟨ds, h1, h2⟩ := dimension_run (rules := measurementRules) hd (by decide +kernel) hl hq
      hdims s
    unfold Store.measurementSamples
    simp only [hat, h1]
    obtain ⟨w, ws, rfl⟩ := List.exists_cons_of_ne_nil hwne
    simp only [samplesOf, h2, hnp]
  obtain ⟨h1, h2⟩ := structured_fits itemsize hi ws hwne dims hz hs none
  rw [hlen, run]
  refine ⟨fun h => ?_, fun h => by rw [h2 h]⟩
  obtain ⟨arr, g1, g2, g3, g4⟩ := h1 h
  exact ⟨arr, arranged g2 g3 g4, by rw [g1]⟩

theorem sampleOf_structured (np : List PyVal → Option Nat) (ws : List PyVal) (hne : ws ≠ [])
    (ds : List PyVal) (d : List Nat) (hds : ds.mapM natOf = some d) (itemsize : Nat)
    (hnp : np ws = some itemsize) :
    sampleOf np (some ws) ds =
      match structured itemsize (some ws) d none with
      | none => .error
      | some s => if s.count = 0 then .error else .sample s.shape (s.elems.take s.shape.prod) := by
  obtain ⟨w, ws, rfl⟩ := List.exists_cons_of_ne_nil hne
  simp only [sampleOf, hds, hnp, structured]
  cases validshape (some (w :: ws)) d none with
  | none => rfl
  | some shape =>
    simp only [samplingSingle]
    cases sampling itemsize (some (w :: ws)) shape <;> rfl

/-- The first sample, if the number of values goes with the dimension. -/
theorem sampleOf_fits (np : List PyVal → Option Nat) {ws : List PyVal} (hwne : ws ≠ [])
    {ds : List PyVal} {dims : List Nat} (d2 : ds.mapM natOf = some dims.reverse) {itemsize : Nat}
    (hi : 0 < itemsize) (hnp : np ws = some itemsize) (hz : 0 ∉ dims)
    (hs : dims.prod * itemsize < 2 ^ 31) :
    (Spec.Fits ws.length none dims → ∃ sh el, sampleOf np (some ws) ds = .sample sh el ∧
      ∀ ss, List.Forall₂ (· < ·) ss dims → ∃ w, ws[Spec.columnMajor dims ss]? = some w ∧
        (Single.sample sh el).get (Spec.subscripts dims ss) = some w) ∧
    (¬ Spec.Fits ws.length none dims → sampleOf np (some ws) ds = .error) := by
  rw [sampleOf_structured np ws hwne ds _ d2 itemsize hnp]
  obtain ⟨h1, h2⟩ := structured_fits itemsize hi ws hwne dims hz hs none
  refine ⟨fun h => ?_, fun h => by rw [h2 h]⟩
  obtain ⟨arr, g1, g2, g3, g4⟩ := h1 h
  have hpos : 0 < arr.count := by
    rcases Nat.eq_zero_or_pos arr.count with h0 | h0
    · rw [h0, Nat.zero_mul] at g3
      exact absurd (List.length_eq_zero_iff.1 g3.symm) hwne
    · exact h0
  obtain ⟨-, g5⟩ := arranged g2 g3 g4
  rw [g1]
  simp only
  rw [if_neg (by omega)]
  refine ⟨_, _, rfl, fun ss hss => ?_⟩
  obtain ⟨w, g6, g7⟩ := g5 0 ss hpos hss
  rw [Nat.zero_mul, Nat.zero_add] at g6
  refine ⟨w, g6, ?_⟩
  unfold Samples.get at g7
  split at g7
  · rename_i hin
    rw [Nat.zero_mul, Nat.zero_add] at g7
    unfold Single.get
    simp only
    rw [if_pos hin.2, List.getElem?_take_of_lt, g7]
    have hlt := columnMajor_lt dims ss hss
    have hsp : arr.shape.prod = dims.prod := by
      rw [g4]
      split
      · rename_i ho; rw [ho]; rfl
      · exact List.prod_reverse _
    have hrm : rowMajor arr.shape (Spec.subscripts dims ss) = Spec.columnMajor dims ss := by
      rw [g4]
      unfold Spec.subscripts
      by_cases ho : dims = [1]
      · subst ho
        simp only [if_true, rowMajor]
        have : Spec.columnMajor [1] ss < 1 := by simpa using hlt
        omega
      · simp only [ho, if_false]
        exact rowMajor_reverse dims ss hss.length_eq
    rw [hsp, hrm]
    exact hlt
  · cases g7

/-- C68.  The reference, the deviations and the tolerances of a measurement: the first sample, each
value with the subscripts that the standard gives it; the access fails if the number of values does
not go with the dimension. -/
theorem c68_single_partial (e : Env) (hd : Spec.ReadsUtf8 e.dec) (np : List PyVal → Option Nat)
    (s : Store) (o : BasicObject) (hl : Spec.LabelsOk e o)
    (hq : Spec.Quiet e o o.log) (label : String) (hlab : label ∈ ["MAXIMUM-DEVIATION",
      "STANDARD-DEVIATION", "REFERENCE", "PLUS-TOLERANCE", "MINUS-TOLERANCE"])
    (c : Reprc) (vs : List Val) (hvs : Spec.ValuesAre o label c vs)
    (hne : vs ≠ []) (hdates : Spec.DatesOk vs) (ws : List PyVal)
    (hws : List.Forall₂ (Spec.Decoded e c) vs ws) (itemsize : Nat) (hi : 0 < itemsize)
    (hnp : np ws = some itemsize) (dims : List Nat) (hdims : Spec.Declares e o dims)
    (hz : 0 ∉ dims) (hs : dims.prod * itemsize < 2 ^ 31) :
    (Spec.Fits vs.length none dims → ∃ r, s.measurementSingle e np o label = (s, r) ∧
      ∀ ss, List.Forall₂ (· < ·) ss dims → ∃ w, ws[Spec.columnMajor dims ss]? = some w ∧
        r.get (Spec.subscripts dims ss) = some w) ∧
    (¬ Spec.Fits vs.length none dims → s.measurementSingle e np o label = (s, .error)) := by
  have hlen := hws.length_eq
  have hwne : ws ≠ [] := by rintro rfl; cases hws; exact hne rfl
  have hp : PlainLabel label := by
    simp only [List.mem_cons, List.not_mem_nil, or_false] at hlab
    unfold PlainLabel
    rcases hlab with rfl | rfl | rfl | rfl | rfl <;> decide +kernel
  have hat := attic_values hd hl hp hvs hws hdates
  obtain ⟨ds, d1, d2⟩ := dimension_run (rules := measurementRules) hd (by decide +kernel) hl hq
    hdims s
  have run : s.measurementSingle e np o label = (s, sampleOf np (some ws) ds) := by
    unfold Store.measurementSingle
    simp only [hat, d1]
  obtain ⟨h1, h2⟩ := sampleOf_fits np hwne d2 hi hnp hz hs
  rw [hlen, run]
  refine ⟨fun h => ?_, fun h => by rw [h2 h]⟩
  obtain ⟨sh, el, g1, g2⟩ := h1 h
  exact ⟨_, by rw [g1], g2⟩

/-- C68.  An object without such an attribute gives an empty array, whatever else is in it. -/
theorem c68_missing (e : Env) (hd : Spec.ReadsUtf8 e.dec) (np : List PyVal → Option Nat)
    (rules : Rules) (s : Store) (o : BasicObject) :
    ((∀ a ∈ o.attributes, a.label ≠ Fingerprint.ascii "VALUES") →
      s.zonedValues e np rules o = (s, some ⟨0, [], []⟩)) ∧
    ((∀ a ∈ o.attributes, a.label ≠ Fingerprint.ascii "MEASUREMENT") →
      s.measurementSamples e np o = (s, some ⟨0, [], []⟩)) ∧
    ∀ label, PlainLabel label → (∀ a ∈ o.attributes, a.label ≠ Fingerprint.ascii label) →
      s.measurementSingle e np o label = (s, .empty) := by
  have key : ∀ label, PlainLabel label → (∀ a ∈ o.attributes, a.label ≠ Fingerprint.ascii label) →
      atticValue e o (.str (text label)) = .missing := by
    intro label hp ha
    have hat : attrAt (PyStr.str (text label)).toStd o.attributes = none := by
      rw [(label_dec hd hp).2]
      unfold attrAt
      rw [List.find?_eq_none]
      intro a h
      simpa using ha a h
    unfold atticValue
    rw [hat]
  refine ⟨fun h => ?_, fun h => ?_, fun label hp h => ?_⟩
  · unfold Store.zonedValues
    rw [key "VALUES" (by unfold PlainLabel; decide +kernel) h]
  · unfold Store.measurementSamples
    rw [key "MEASUREMENT" (by unfold PlainLabel; decide +kernel) h]
  · unfold Store.measurementSingle
    rw [key label hp h]

/-- C68.  An object whose attribute has no values gives an empty array as well, if dimension and
zones can be read. -/
theorem c68_no_values (e : Env) (hd : Spec.ReadsUtf8 e.dec) (np : List PyVal → Option Nat)
    (p : List ObjectSet) (hf : Spec.Fresh p) (o : BasicObject) (hl : Spec.LabelsOk e o)
    (hq : Spec.Quiet e o o.log) (label : String) (a : ObjAttr) (ha : a ∈ o.attributes)
    (hlab : a.label = Fingerprint.ascii label)
    (hv : a.value = none ∨ ∃ c, a.value = some (c, []))
    (dims : List Nat) (hdims : Spec.Declares e o dims) (hist : List Spec.StoreOp) :
    (label = "VALUES" → ∀ rules, rules = parameterRules ∨ rules = computationRules → ∀ zones,
      Spec.Zones e p o zones →
      ((Spec.after e p hist).zonedValues e np rules o).2 = some ⟨0, [], []⟩) ∧
    (label = "MEASUREMENT" →
      ((Spec.after e p hist).measurementSamples e np o).2 = some ⟨0, [], []⟩) ∧
    (PlainLabel label → ((Spec.after e p hist).measurementSingle e np o label).2 = .empty) := by
  have key : PlainLabel label → ∃ vs, (vs = none ∨ vs = some []) ∧
      atticValue e o (.str (text label)) = .value vs := by
    intro hp
    unfold atticValue
    rw [(label_dec hd hp).2, ← hlab, attrAt_of_mem hl.1 ha]
    rcases hv with h | ⟨c, h⟩
    · exact ⟨none, .inl rfl, by simp only [h]⟩
    · exact ⟨some [], .inr rfl, by simp only [h]; rfl⟩
  refine ⟨?_, ?_, ?_⟩
  · rintro rfl rules hr zones hz
    obtain ⟨vs, h1, h2⟩ := key (by unfold PlainLabel; decide +kernel)
    have r1 : rules.attributes (.str (text "DIMENSION")) = some .reverse := by
      rcases hr with rfl | rfl <;> decide +kernel
    have r2 : rules.attributes (.str (text "ZONES")) = some .vector := by
      rcases hr with rfl | rfl <;> decide +kernel
    have r3 : rules.linkage (.str (text "ZONES")) = some (.obname (.str (text "ZONE"))) := by
      rcases hr with rfl | rfl <;> rfl
    obtain ⟨ds, h3, -⟩ := dimension_run hd r1 hl hq hdims (Spec.after e p hist)
    obtain ⟨s, zs, h4, -⟩ := zones_run hd hf r2 r3 hl hq hz hist
    unfold Store.zonedValues
    simp only [h2, h3, h4]
    rcases h1 with rfl | rfl <;> rfl
  · rintro rfl
    obtain ⟨vs, h1, h2⟩ := key (by unfold PlainLabel; decide +kernel)
    obtain ⟨ds, h3, -⟩ := dimension_run (rules := measurementRules) hd (by decide +kernel) hl hq
      hdims (Spec.after e p hist)
    unfold Store.measurementSamples
    simp only [h2, h3]
    rcases h1 with rfl | rfl <;> rfl
  · intro hp
    obtain ⟨vs, h1, h2⟩ := key hp
    obtain ⟨ds, h3, -⟩ := dimension_run (rules := measurementRules) hd (by decide +kernel) hl hq
      hdims (Spec.after e p hist)
    unfold Store.measurementSingle
    simp only [h2, h3]
    rcases h1 with rfl | rfl <;> rfl

/-! ## A case, and where the claim fails -/

namespace SampledCase

open StoreCase AttributeCase

/-- An object with these attributes. -/
def object (attrs : List (String × Reprc × List Val)) : BasicObject where
  name := ⟨1, 0, bytesOf "X"⟩
  type := bytesOf "PARAMETER"
  log := []
  attributes := attrs.map fun x => { label := bytesOf x.1, value := some (x.2.1, x.2.2) }

def ints (l : List Nat) : List Val := l.map fun k => .int 1 k

def np : List PyVal → Option Nat := fun _ => some 8

/-- Twelve values of dimension 2 x 3 (in the order of the file), for two zones. -/
def matrix : BasicObject := object
  [("VALUES", .ushort, ints (List.range 12)), ("DIMENSION", .ushort, ints [2, 3]),
   ("ZONES", .obname, [.obname ⟨1, 0, bytesOf "A"⟩, .obname ⟨1, 0, bytesOf "B"⟩])]

def start : Store := Spec.after env [] []

def cells (r : Option (Samples PyVal)) (l : List (Nat × List Nat)) : Option (List (Option Int)) :=
  r.map fun arr => l.map fun x =>
    match arr.get x.1 x.2 with
    | some (.raw _ (.int _ v)) => some v
    | _ => none

/-- C68: the element (1, 2) of the second sample is found under [1][2][1]. -/
example :
    cells (start.zonedValues env np parameterRules matrix).2 [(0, [0, 1]), (1, [2, 1]), (1, [1, 2])] =
      some [some 1, some 11, none] ∧
    Spec.columnMajor [2, 3] [1, 2] = 5 := by
  decide +kernel

/-- C68: its hypotheses hold for this object. -/
example : Spec.LabelsOk env matrix ∧ Spec.Quiet env matrix matrix.log ∧
    Spec.ValuesAre matrix "VALUES" .ushort (ints (List.range 12)) ∧
    Spec.Declares env matrix [2, 3] ∧ Spec.Zones env [] matrix 2 ∧
    Spec.Fits 12 (some 2) [2, 3] := by
  refine ⟨by unfold Spec.LabelsOk; decide +kernel, by unfold Spec.Quiet; decide +kernel, ?_, ?_, ?_,
    by unfold Spec.Fits; decide⟩
  · exact ⟨_, List.mem_cons_self, by decide +kernel, rfl⟩
  · refine .given (ints [2, 3]) _ ⟨_, List.mem_cons_of_mem _ List.mem_cons_self, by decide +kernel,
      by unfold Spec.Quiet; decide +kernel, _, rfl⟩ (.cons ⟨1, rfl⟩ (.cons ⟨1, rfl⟩ .nil)) (by simp)
  · refine .refs [⟨1, 0, bytesOf "A"⟩, ⟨1, 0, bytesOf "B"⟩] ⟨_,
      List.mem_cons_of_mem _ (List.mem_cons_of_mem _ List.mem_cons_self), by decide +kernel,
      by unfold Spec.Quiet; decide +kernel, _, rfl⟩ (by simp) ?_
    intro v hv
    refine ⟨fun t n ht => ?_, fun hn => ?_⟩
    rotate_left
    · simp only [List.map_cons, List.map_nil, List.mem_cons, List.not_mem_nil, or_false] at hv
      rcases hv with rfl | rfl <;> simp [Spec.target] at hn
    have hs : ∀ x : String, x = "A" ∨ x = "B" → Spec.Stable env (env.dec (bytesOf x)) ∧
        (env.dec (bytesOf x)).isEmpty = false := by
      unfold Spec.Stable
      rintro x (rfl | rfl) <;> decide +kernel
    have hz : Spec.Stable env (.str (text "ZONE")) := by unfold Spec.Stable; decide +kernel
    simp only [List.map_cons, List.map_nil, List.mem_cons, List.not_mem_nil, or_false] at hv
    rcases hv with rfl | rfl
    · simp only [Spec.target, Option.some.injEq, Prod.mk.injEq] at ht
      obtain ⟨rfl, rfl⟩ := ht
      exact ⟨hz, (hs "A" (by simp)).1, (hs "A" (by simp)).2, rfl⟩
    · simp only [Spec.target, Option.some.injEq, Prod.mk.injEq] at ht
      obtain ⟨rfl, rfl⟩ := ht
      exact ⟨hz, (hs "B" (by simp)).1, (hs "B" (by simp)).2, rfl⟩

/-- C68: a reference has the structure of one sample; without a dimension one value is a scalar,
and several values fail. -/
example :
    (start.measurementSingle env np (object [("REFERENCE", .ushort, ints [5, 6, 7, 8]),
      ("DIMENSION", .ushort, ints [2])]) "REFERENCE").2 =
        .sample [2] [.raw .ushort (.int 1 5), .raw .ushort (.int 1 6)] ∧
    (start.measurementSingle env np (object [("REFERENCE", .ushort, ints [5])]) "REFERENCE").2 =
        .sample [] [.raw .ushort (.int 1 5)] ∧
    (start.measurementSingle env np (object [("REFERENCE", .ushort, ints [5, 6])]) "REFERENCE").2 =
        .error ∧
    (start.measurementSamples env np (object [("MEASUREMENT", .ushort, ints [5, 6, 7, 8]),
      ("DIMENSION", .ushort, ints [4])])).2.map (·.count) = some 1 := by
  decide +kernel

/-- C68 is violated: the number of samples need not be that of the zones.  A parameter of scalar
values with one zone and three values gives three samples instead of an error, and so does one
without zones, for which there should be one value only. -/
theorem c68_zones_defect :
    ((start.zonedValues env np parameterRules (object [("VALUES", .ushort, ints [5, 6, 7]),
      ("DIMENSION", .ushort, ints [1]), ("ZONES", .obname, [.obname ⟨1, 0, bytesOf "A"⟩])])).2.map
        (·.count) = some 3) ∧
    ((start.zonedValues env np parameterRules (object [("VALUES", .ushort, ints [5, 6, 7]),
      ("DIMENSION", .ushort, ints [1])])).2.map (·.count) = some 3) := by
  decide +kernel

/-- A parameter with a problem in its values. -/
def flawed : BasicObject where
  name := ⟨1, 0, bytesOf "X"⟩
  type := bytesOf "PARAMETER"
  log := []
  attributes := [{ label := bytesOf "VALUES", value := some (.ushort, ints [5]), log := [.critical] }]

/-- C68 is violated: problems that were found in the values are not reported.  If the error handler
raises for a problem in the attribute, then `parameter["VALUES"]` raises, but `parameter.values`
does not. -/
theorem c68_unreported_defect :
    (∃ a ∈ flawed.attributes, a.label = bytesOf "VALUES" ∧ ∃ x ∈ a.log, env.policy x = true) ∧
      (getItem env parameterRules start flawed (key "VALUES")).2.toOption = none ∧
      (start.zonedValues env np parameterRules flawed).2.map (·.count) = some 1 := by
  decide +kernel

/-- C68: an attribute without value, and one with no values. -/
example :
    (start.zonedValues env np parameterRules
      { object [] with attributes := [{ label := bytesOf "VALUES", value := none }] }).2 =
      some ⟨0, [], []⟩ ∧
    (start.zonedValues env np parameterRules (object [("VALUES", .ushort, [])])).2 =
      some ⟨0, [], []⟩ := by
  decide +kernel

end SampledCase

end Dlisio.Dlis
