import Verif.Lis.CurvesIndex
import Verif.Dlis.FrameProps
/-
Model of the labels of LIS curves (python/dlisio/lis/curves.py) and C53.

Mnemonics are decoded by a parameter `dec`; where `decode_str` gives `bytes` (see C56)
NumPy refuses the label, which is left out.
-/
namespace Dlisio.Lis

open _root_.Dlisio.Lis.Spec
open _root_.Dlisio.Dlis (tail tail_injective)

/-! ### Model -/

/-- The keys of `Counter(mnemonics)`: in the order in which they are first seen,
curves.py:531. -/
def firsts : List Text → List Text → List Text
  | _, [] => []
  | seen, x :: xs => if x ∈ seen then firsts seen xs else x :: firsts (x :: seen) xs

/-- `duplicates`, curves.py:531. -/
def duplicates (ms : List Text) : List Text := (firsts [] ms).filter fun x => 1 < ms.count x

/-- The inner loop, curves.py:536-542. -/
def relabel (d : Text) : Nat → List Text → List Text
  | _, [] => []
  | k, x :: xs => if x = d then (x ++ tail k) :: relabel d (k + 1) xs else x :: relabel d k xs

/-- `unique_mnemonics`, curves.py:528-545. -/
def uniqueMnemonics (ms : List Text) : List Text :=
  (duplicates ms).foldl (fun ms d => relabel d 0 ms) ms

/-- The names that `np.dtype` gives to a list of fields: a field without a name is named
after its position; `none` (ValueError) if a name occurs twice. -/
def npNames (names : List Text) : Option (List Text) :=
  let named := names.mapIdx fun i n => if n = [] then text "f" ++ Text.ofNat i else n
  if named.Nodup then some named else none

/-- `dfsr_dtype`, curves.py:414-445, the names: `none` when it raises. -/
def dtypeNames (labels : List Text) (strict : Bool) : Option (List Text) :=
  match npNames labels with
  | some names => some names
  | none => if strict then none else npNames (uniqueMnemonics labels)

/-- The names of the columns of the array that `curves` returns, curves.py:253-281: `none`
when it raises. -/
def curvesNames (dec : Bytes → Text) (f : Format) (rate : Option Nat) (strict : Bool) :
    Option (List Text) :=
  match curvesRate f rate with
  | none => none
  | some rate =>
    if !validFormat f then none
    else
      match dfsrColumns f rate with
      | none => none
      | some cols => dtypeNames (cols.map fun c => dec c.1) strict

/-- `dict(...)` of pairs: the place of the first, the value of the last. -/
def dictOf {α : Type} : List (Text × α) → List (Text × α)
  | l => l.foldl (fun d p =>
      if d.any (fun q => q.1 = p.1) then d.map fun q => if q.1 = p.1 then p else q else d ++ [p]) []

/-- `DataFormatSpec.index_mnem`, dataformatspec.py:50-62, with channels. -/
def indexMnem (f : Format) : Bytes :=
  if f.mode = 0 then (f.specs.head?.map SpecCommon.mnemonic).getD [] else [0x44, 0x45, 0x50, 0x54]

/-- The loop over the channels in `curves_metadata`, curves.py:84-88. -/
def metadataChannels (f : Format) (rate : Nat) : List SpecCommon :=
  (f.specs.zipIdx.filter fun p => p.1.samples = rate && !isIndex p.2 f.mode).map (·.1)

/-- `curves_metadata`, curves.py:24-101: `none` when it raises. -/
def curvesMetadata (dec : Bytes → Text) (f : Format) (rate : Option Nat) (strict : Bool) :
    Option (List (Text × Option SpecCommon)) :=
  if f.specs = [] then some []
  else
    match curvesRate f rate with
    | none => none
    | some rate =>
      let channels := metadataChannels f rate
      let index := if f.mode = 0 then f.specs.head? else none
      let mnemonics := dec (indexMnem f) :: channels.map fun s => dec s.mnemonic
      let uniques := uniqueMnemonics mnemonics
      if strict && uniques ≠ mnemonics then none
      else some (dictOf (uniques.zip (index :: channels.map some)))

/-! ### Specification -/
namespace Spec

/-- The label of number `i`: with the number of those before that are called the same, if
the name is not unique. -/
def label (ms : List Text) (i : Nat) (x : Text) : Text :=
  if 1 < ms.count x then x ++ tail ((ms.take i).count x) else x

/-- No name is that of another one with a number. -/
def NoClash (ms : List Text) : Prop :=
  ∀ a ∈ ms, 1 < ms.count a → ∀ n < ms.count a, a ++ tail n ∉ ms

end Spec

/-! ### Proofs -/

theorem mem_firsts {x : Text} : ∀ {l seen : List Text}, x ∈ firsts seen l ↔ x ∈ l ∧ x ∉ seen
  | [], seen => by simp [firsts]
  | y :: l, seen => by
    rw [firsts]
    split
    · rename_i h
      rw [mem_firsts, List.mem_cons]
      constructor
      · rintro ⟨h1, h2⟩; exact ⟨Or.inr h1, h2⟩
      · rintro ⟨rfl | h1, h2⟩
        · exact absurd h h2
        · exact ⟨h1, h2⟩
    · rename_i h
      rw [List.mem_cons, mem_firsts, List.mem_cons, List.mem_cons]
      constructor
      · rintro (rfl | ⟨h1, h2⟩)
        · exact ⟨Or.inl rfl, h⟩
        · exact ⟨Or.inr h1, fun h => h2 (Or.inr h)⟩
      · rintro ⟨rfl | h1, h2⟩
        · exact Or.inl rfl
        · by_cases e : x = y
          · exact Or.inl e
          · exact Or.inr ⟨h1, by rintro (h | h); exacts [e h, h2 h]⟩

theorem firsts_nodup : ∀ (l seen : List Text), (firsts seen l).Nodup
  | [], _ => by simp [firsts]
  | y :: l, seen => by
    rw [firsts]
    split
    · exact firsts_nodup l seen
    · rw [List.nodup_cons, mem_firsts]
      exact ⟨fun h => h.2 (by simp), firsts_nodup l _⟩

theorem mem_duplicates {ms : List Text} {x : Text} : x ∈ duplicates ms ↔ 1 < ms.count x := by
  rw [duplicates, List.mem_filter, mem_firsts]
  simp only [List.not_mem_nil, not_false_eq_true, and_true, decide_eq_true_eq]
  constructor
  · exact fun h => h.2
  · exact fun h => ⟨List.count_pos_iff.1 (by omega), h⟩

/-- Labels with numbers for some of the names. -/
def lab (D : List Text) : List Text → List Text → List Text
  | _, [] => []
  | seen, x :: xs => (if x ∈ D then x ++ tail (seen.count x) else x) :: lab D (seen ++ [x]) xs

theorem relabel_lab {ms : List Text} (hc : NoClash ms) {D : List Text}
    (hD : ∀ x ∈ D, 1 < ms.count x) {d : Text} (hd : d ∉ D) (hm : d ∈ ms) :
    ∀ (rest seen : List Text), ms = seen ++ rest →
    relabel d (seen.count d) (lab D seen rest) = lab (d :: D) seen rest
  | [], _, _ => rfl
  | x :: xs, seen, he => by
    have ih := relabel_lab hc hD hd hm xs (seen ++ [x]) (by rw [he]; simp)
    rw [lab, lab]
    by_cases hx : x = d
    · subst hx
      rw [if_neg hd, relabel, if_pos rfl, if_pos (by simp)]
      rw [List.count_append, List.count_singleton_self] at ih
      rw [ih]
    · rw [List.count_append, List.count_singleton, if_neg (by simpa using hx), add_zero] at ih
      have hne : (if x ∈ D then x ++ tail (seen.count x) else x) ≠ d := by
        split
        · rename_i hxD
          intro e
          refine hc x (by rw [he]; simp) (hD x hxD) (seen.count x) ?_ (by rw [e]; exact hm)
          rw [he, List.count_append, List.count_cons_self]
          omega
        · exact hx
      rw [relabel, if_neg hne, ih]
      congr 1
      by_cases hxD : x ∈ D
      · rw [if_pos hxD, if_pos (by simp [hxD])]
      · rw [if_neg hxD, if_neg (by simp [hxD, hx])]

theorem foldl_lab {ms : List Text} (hc : NoClash ms) : ∀ (ds D : List Text),
    (∀ x ∈ D, 1 < ms.count x) → (∀ x ∈ ds, 1 < ms.count x) → ds.Nodup → (∀ x ∈ ds, x ∉ D) →
    ds.foldl (fun ms d => relabel d 0 ms) (lab D [] ms) = lab (ds.reverse ++ D) [] ms
  | [], D, _, _, _, _ => rfl
  | d :: ds, D, h1, h2, h3, h4 => by
    rw [List.nodup_cons] at h3
    have hd := h2 d (by simp)
    have := relabel_lab hc h1 (h4 d (by simp)) (List.count_pos_iff.1 (by omega)) ms [] rfl
    rw [List.count_nil] at this
    rw [List.foldl_cons, this, foldl_lab hc ds (d :: D) ?_ (fun x hx => h2 x (by simp [hx])) h3.2 ?_]
    · simp
    · intro x hx
      rcases List.mem_cons.1 hx with rfl | hx
      exacts [hd, h1 x hx]
    · intro x hx hx'
      rcases List.mem_cons.1 hx' with rfl | hx'
      exacts [h3.1 hx, h4 x (by simp [hx]) hx']

theorem lab_nil : ∀ (rest seen : List Text), lab [] seen rest = rest
  | [], _ => rfl
  | x :: xs, seen => by rw [lab, lab_nil xs]; simp

theorem lab_getElem (D : List Text) : ∀ (rest seen : List Text) (i : Nat),
    (lab D seen rest)[i]? = rest[i]?.map fun x =>
      if x ∈ D then x ++ tail ((seen ++ rest.take i).count x) else x
  | [], _, _ => by simp [lab]
  | x :: xs, seen, 0 => by simp [lab]
  | x :: xs, seen, i + 1 => by
    rw [lab, List.getElem?_cons_succ, lab_getElem D xs, List.getElem?_cons_succ]
    simp

/-- C53: names that occur more than once get the number of those before; the others are
left alone.  Provided that no name looks like one with such a number. -/
theorem c53_labels {ms : List Text} (hc : NoClash ms) :
    uniqueMnemonics ms = ms.mapIdx (label ms) := by
  have h := foldl_lab hc (duplicates ms) [] (by simp) (fun x hx => mem_duplicates.1 hx)
    ((firsts_nodup ms []).filter _) (by simp)
  rw [lab_nil, List.append_nil] at h
  rw [uniqueMnemonics, h]
  refine List.ext_getElem? fun i => ?_
  rw [lab_getElem, List.getElem?_mapIdx]
  congr 1
  funext x
  simp only [List.mem_reverse, mem_duplicates, List.nil_append, label]

theorem count_take_lt {ms : List Text} {i j : Nat} {x : Text} (hij : i < j) (hi : ms[i]? = some x) :
    (ms.take i).count x < (ms.take j).count x := by
  have h1 : ms.take (i + 1) = ms.take i ++ [x] := by
    rw [List.take_add_one, hi]; rfl
  have h2 : (ms.take (i + 1)).count x ≤ (ms.take j).count x :=
    List.Sublist.count_le x (List.take_sublist_take_left (by omega))
  rw [h1, List.count_append, List.count_singleton_self] at h2
  omega

/-- C53: then the labels are unique. -/
theorem c53_unique_partial {ms : List Text} (hc : NoClash ms) : (uniqueMnemonics ms).Nodup := by
  rw [c53_labels hc, List.nodup_iff_getElem?_ne_getElem?]
  intro i j hij hj
  rw [List.length_mapIdx] at hj
  rw [List.getElem?_mapIdx, List.getElem?_mapIdx, List.getElem?_eq_getElem hj,
    List.getElem?_eq_getElem (by omega : i < ms.length), Option.map_some, Option.map_some]
  have hi : ms[i]? = some ms[i] := List.getElem?_eq_getElem _
  have hj' : ms[j]? = some ms[j] := List.getElem?_eq_getElem _
  set x := ms[i] with hx
  set y := ms[j] with hy
  have hxm : x ∈ ms := List.getElem_mem _
  have hym : y ∈ ms := List.getElem_mem _
  have lt : ∀ (i : Nat) (x : Text), ms[i]? = some x → (ms.take i).count x < ms.count x := by
    intro i x h
    have := count_take_lt (j := ms.length) (List.getElem?_eq_some_iff.1 h).1 h
    rwa [List.take_length] at this
  intro e
  rw [Option.some.injEq] at e
  unfold label at e
  split at e <;> split at e
  · rename_i h1 h2
    obtain ⟨e1, e2⟩ := tail_injective e
    rw [← e1] at e2 hj'
    have := count_take_lt hij hi
    omega
  · rename_i h1 h2
    exact hc x hxm h1 _ (lt i x hi) (by rw [e]; exact hym)
  · rename_i h1 h2
    exact hc y hym h2 _ (lt j y hj') (by rw [← e]; exact hxm)
  · rename_i h1 h2
    have a := count_take_lt hij hi
    have b := lt j y hj'
    rw [← e] at b
    omega

/-- C53: names of the same length (mnemonics have four bytes) do not clash. -/
theorem c53_unique_fixed (ms : List Text) (k : Nat) (h : ∀ x ∈ ms, x.length = k) :
    (uniqueMnemonics ms).Nodup := by
  refine c53_unique_partial fun a ha _ n _ hm => ?_
  have h1 := h a ha
  have h2 := h _ hm
  rw [List.length_append] at h2
  have t : 0 < (tail n).length := by simp [tail, text]
  omega

example : uniqueMnemonics [text "GR  ", text "RHOB", text "GR  "] =
    [text "GR  (0)", text "RHOB", text "GR  (1)"] := by decide +kernel

theorem relabel_length (d : Text) : ∀ (k : Nat) (l : List Text), (relabel d k l).length = l.length
  | _, [] => rfl
  | k, x :: xs => by
    rw [relabel]
    split <;> simp [relabel_length d]

/-- All the characters. -/
def chars (l : List Text) : Nat := (l.map List.length).sum

theorem relabel_chars (d : Text) : ∀ (l : List Text) (k : Nat),
    chars l ≤ chars (relabel d k l) ∧ (d ∈ l → chars l < chars (relabel d k l))
  | [], k => by simp [relabel, chars]
  | x :: xs, k => by
    have t : 0 < (tail k).length := by simp [tail, text]
    rw [relabel]
    split
    · rename_i h
      have ih := (relabel_chars d xs (k + 1)).1
      simp only [chars, List.map_cons, List.sum_cons, List.length_append] at ih ⊢
      exact ⟨by omega, fun _ => by omega⟩
    · rename_i h
      have ih := relabel_chars d xs k
      simp only [chars, List.map_cons, List.sum_cons, List.mem_cons] at ih ⊢
      exact ⟨by omega, fun hm => by have := ih.2 (hm.resolve_left fun e => h e.symm); omega⟩

theorem foldl_chars : ∀ (ds : List Text) (l : List Text),
    chars l ≤ chars (ds.foldl (fun ms d => relabel d 0 ms) l)
  | [], _ => le_rfl
  | d :: ds, l => (relabel_chars d l 0).1.trans (foldl_chars ds _)

/-- C53: the list is left alone exactly when there are no duplicates (so that `strict`
refuses exactly these). -/
theorem c53_strict (ms : List Text) : uniqueMnemonics ms = ms ↔ ms.Nodup := by
  constructor
  · intro h
    rw [List.nodup_iff_count_le_one]
    by_contra hn
    push Not at hn
    obtain ⟨a, ha⟩ := hn
    have hd := mem_duplicates.2 ha
    rw [uniqueMnemonics] at h
    match hds : duplicates ms with
    | [] => rw [hds] at hd; cases hd
    | d :: ds =>
      rw [hds, List.foldl_cons] at h
      have hdm : d ∈ ms := by
        have : d ∈ duplicates ms := by rw [hds]; simp
        exact List.count_pos_iff.1 (by have := mem_duplicates.1 this; omega)
      have h1 := (relabel_chars d ms 0).2 hdm
      have h2 := foldl_chars ds (relabel d 0 ms)
      rw [h] at h2
      omega
  · intro h
    have : duplicates ms = [] := by
      rw [List.eq_nil_iff_forall_not_mem]
      intro x hx
      have := mem_duplicates.1 hx
      have := List.nodup_iff_count_le_one.1 h x
      omega
    rw [uniqueMnemonics, this]
    rfl

/-- C53: every channel keeps its place. -/
theorem c53_length (ms : List Text) : (uniqueMnemonics ms).length = ms.length := by
  rw [uniqueMnemonics]
  generalize duplicates ms = ds
  induction ds generalizing ms with
  | nil => rfl
  | cons d ds ih => rw [List.foldl_cons, ih, relabel_length]

theorem npNames_of_nodup {l : List Text} (h0 : [] ∉ l) (h : l.Nodup) : npNames l = some l := by
  have e : l.mapIdx (fun i n => if n = [] then text "f" ++ Text.ofNat i else n) = l := by
    refine List.ext_getElem? fun i => ?_
    rw [List.getElem?_mapIdx]
    cases hi : l[i]? with
    | none => rfl
    | some x =>
      rw [Option.map_some, if_neg]
      rintro rfl
      exact h0 (List.mem_of_getElem? hi)
  rw [npNames]
  simp only [e]
  rw [if_pos h]

theorem npNames_of_dup {l : List Text} (h0 : [] ∉ l) (h : ¬ l.Nodup) : npNames l = none := by
  have e : l.mapIdx (fun i n => if n = [] then text "f" ++ Text.ofNat i else n) = l := by
    refine List.ext_getElem? fun i => ?_
    rw [List.getElem?_mapIdx]
    cases hi : l[i]? with
    | none => rfl
    | some x =>
      rw [Option.map_some, if_neg]
      rintro rfl
      exact h0 (List.mem_of_getElem? hi)
  rw [npNames]
  simp only [e]
  rw [if_neg h]

theorem dictOf_nodup {α : Type} (l : List (Text × α)) (h : (l.map (·.1)).Nodup) : dictOf l = l := by
  have key : ∀ (l d : List (Text × α)), ((d ++ l).map (·.1)).Nodup →
      l.foldl (fun d p => if d.any (fun q => q.1 = p.1) then
        d.map fun q => if q.1 = p.1 then p else q else d ++ [p]) d = d ++ l := by
    intro l
    induction l with
    | nil => simp
    | cons p l ih =>
      intro d hd
      rw [List.foldl_cons, if_neg]
      · rw [ih (d ++ [p]) (by simpa using hd)]
        simp
      · intro hany
        rw [List.any_eq_true] at hany
        obtain ⟨q, hq, hqp⟩ := hany
        simp only [decide_eq_true_eq] at hqp
        rw [List.map_append, List.nodup_append] at hd
        exact hd.2.2 _ (List.mem_map_of_mem hq) _ (List.mem_map_of_mem (List.mem_cons_self)) hqp
  exact key l [] (by simpa using h)

theorem filter_zipIdx {mode : Int} {rate : Nat} : ∀ (specs : List SpecCommon) (i : Nat),
    (mode ≠ 0 ∨ 0 < i) →
    ((specs.zipIdx i).filter fun p => p.1.samples = rate && !isIndex p.2 mode).map (·.1) =
      specs.filter fun s => s.samples = rate
  | [], _, _ => rfl
  | s :: specs, i, h => by
    have hi : isIndex i mode = false := by
      rw [isIndex]
      rcases h with h | h
      · simp [h]
      · simp; omega
    rw [List.zipIdx_cons, List.filter_cons, List.filter_cons]
    simp only [hi, Bool.not_false, Bool.and_true]
    split
    · rw [List.map_cons, filter_zipIdx specs (i + 1) (Or.inr (by omega))]
    · exact filter_zipIdx specs (i + 1) (Or.inr (by omega))

theorem metadataChannels_eq (f : Format) (rate : Nat) :
    metadataChannels f rate = (channels f).filter fun s => s.samples = rate := by
  unfold metadataChannels channels
  split
  · rename_i h0
    cases f.specs with
    | nil => rfl
    | cons s specs =>
      have hi : isIndex 0 f.mode = true := by rw [isIndex]; simp [h0]
      rw [List.zipIdx_cons, List.filter_cons]
      simp only [hi, Bool.not_true, Bool.and_false, Bool.false_eq_true, if_false, List.tail_cons]
      exact filter_zipIdx specs 1 (Or.inr (by omega))
  · rename_i h0
    exact filter_zipIdx f.specs 0 (Or.inl h0)

/-- The labels of the columns: of the index and of the channels. -/
def Spec.columnLabels (dec : Bytes → Text) (f : Format) (rate : Nat) : List Text :=
  (columns f rate).map fun c => dec c.1

/-- **C53** (without suppressed channels at the rate, and with labels that are not empty and
do not clash).  The array has a column for the index and each channel, with unique names;
the metadata has the same names in the same order, with the channels they stand for.  With
`strict` both are refused exactly if a label occurs twice. -/
theorem c53_metadata_partial (dec : Bytes → Text) (f : Format) (rate : Option Nat) (strict : Bool)
    {n : Nat} (hv : validFormat f = true) (hrate : curvesRate f rate = some n)
    (hsup : ∀ s ∈ channels f, s.samples = n → 0 < s.reservedSize)
    (h0 : [] ∉ columnLabels dec f n) (hc : NoClash (columnLabels dec f n)) :
    if strict = true ∧ ¬ (columnLabels dec f n).Nodup then
      curvesNames dec f rate strict = none ∧ curvesMetadata dec f rate strict = none
    else
      ∃ names, curvesNames dec f rate strict = some names ∧ names.Nodup ∧
        names = (columnLabels dec f n).mapIdx (label (columnLabels dec f n)) ∧
        names.length = (columns f n).length ∧
        curvesMetadata dec f rate strict = some (names.zip
          ((if f.mode = 0 then f.specs.head? else none) ::
            ((channels f).filter fun s => Selected n s).map some)) := by
  have hne : f.specs ≠ [] := by
    intro e
    rw [validFormat, e] at hv
    simp at hv
  have hfilter : ((channels f).filter fun s => s.samples = n) = (channels f).filter fun s => Selected n s := by
    refine List.filter_congr fun s hs => ?_
    have : s.samples = n ↔ Selected n s := ⟨fun h => ⟨hsup s hs h, h⟩, fun h => h.2⟩
    simp only [this]
  have hlabels : (dec (indexMnem f) :: (metadataChannels f n).map fun s => dec s.mnemonic) =
      columnLabels dec f n := by
    rw [metadataChannels_eq, hfilter, columnLabels, columns, List.map_cons, List.map_map]
    rfl
  have hnames : curvesNames dec f rate strict = dtypeNames (columnLabels dec f n) strict := by
    rw [curvesNames, hrate]
    simp only [hv, Bool.not_true, Bool.false_eq_true, if_false]
    rw [c51_columns hv]
    rfl
  have hmeta : curvesMetadata dec f rate strict =
      if strict && uniqueMnemonics (columnLabels dec f n) ≠ columnLabels dec f n then none
      else some (dictOf ((uniqueMnemonics (columnLabels dec f n)).zip
        ((if f.mode = 0 then f.specs.head? else none) ::
            ((channels f).filter fun s => Selected n s).map some))) := by
    rw [curvesMetadata, if_neg hne, hrate]
    simp only [hlabels]
    rw [metadataChannels_eq, hfilter]
  rw [hnames, hmeta]
  generalize hl : columnLabels dec f n = labels at *
  have hlen : (uniqueMnemonics labels).length = (columns f n).length := by
    rw [c53_length, ← hl, columnLabels, List.length_map]
  have hdict : dictOf ((uniqueMnemonics labels).zip ((if f.mode = 0 then f.specs.head? else none) ::
      ((channels f).filter fun s => Selected n s).map some)) =
      (uniqueMnemonics labels).zip ((if f.mode = 0 then f.specs.head? else none) ::
      ((channels f).filter fun s => Selected n s).map some) := by
    refine dictOf_nodup _ ?_
    rw [List.map_fst_zip (by rw [hlen, columns]; simp)]
    exact c53_unique_partial hc
  have h0' : [] ∉ uniqueMnemonics labels := by
    rw [c53_labels hc]
    intro hmem
    rw [List.mem_mapIdx] at hmem
    obtain ⟨i, hi, he⟩ := hmem
    unfold label at he
    split at he
    · exact absurd he (by simp [tail, text])
    · exact h0 (by rw [← he]; exact List.getElem_mem _)
  by_cases hd : labels.Nodup
  · rw [if_neg (by simp [hd])]
    refine ⟨labels, ?_, hd, ?_, ?_, ?_⟩
    · rw [dtypeNames, npNames_of_nodup h0 hd]
    · rw [← c53_labels hc, (c53_strict labels).2 hd]
    · rw [(c53_strict labels).2 hd] at hlen; exact hlen
    · rw [hdict, (c53_strict labels).2 hd]; simp
  · have hu : uniqueMnemonics labels ≠ labels := fun e => hd ((c53_strict labels).1 e)
    cases strict with
    | true =>
      rw [if_pos ⟨rfl, hd⟩]
      exact ⟨by rw [dtypeNames, npNames_of_dup h0 hd]; rfl, by simp [hu]⟩
    | false =>
      rw [if_neg (by simp)]
      refine ⟨uniqueMnemonics labels, ?_, c53_unique_partial hc, c53_labels hc, hlen, ?_⟩
      · rw [dtypeNames, npNames_of_dup h0 hd]
        simp only [Bool.false_eq_true, if_false]
        exact npNames_of_nodup h0' (c53_unique_partial hc)
      · rw [hdict]; simp

/-- ASCII bytes for the examples. -/
def latin (s : String) : Bytes := (text s).map (BitVec.ofNat 8)

/-- Decoding of ASCII for the examples. -/
def ascii (b : Bytes) : Text := b.map BitVec.toNat

/-- Two channels of the same name, a third and an index. -/
def exLabels : Format := ⟨0, none, [exChan [0x44] 4 1 73, exChan [0x41] 1 1 66, exChan [0x42] 1 1 66,
  exChan [0x41] 1 1 66]⟩

example : curvesNames ascii exLabels none false = some [text "D", text "A(0)", text "B", text "A(1)"] ∧
    (curvesMetadata ascii exLabels none false).map (·.map (·.1)) =
      some [text "D", text "A(0)", text "B", text "A(1)"] ∧
    curvesNames ascii exLabels none true = none ∧ curvesMetadata ascii exLabels none true = none := by
  decide +kernel

/-- The hypotheses of `c53_metadata_partial` hold there. -/
example : validFormat exLabels = true ∧ curvesRate exLabels none = some 1 ∧
    (∀ s ∈ channels exLabels, s.samples = 1 → 0 < s.reservedSize) ∧
    [] ∉ columnLabels ascii exLabels 1 ∧ NoClash (columnLabels ascii exLabels 1) := by
  refine ⟨by decide +kernel, by decide +kernel, by decide +kernel, by decide +kernel, ?_⟩
  have : columnLabels ascii exLabels 1 = [text "D", text "A", text "B", text "A"] := by decide +kernel
  rw [this]
  unfold NoClash
  decide +kernel

/-- `decode_str` ends at the first zero (see `c56_nul_defect`). -/
def cstr (b : Bytes) : Text := (b.takeWhile (· ≠ 0)).map BitVec.toNat

/-- **C53 fails**: the labels made up for duplicates may be taken, by mnemonics of four
bytes if they are padded with zeros.  Then the array can not be read with `strict=False`
either, and an entry of the metadata is lost. -/
theorem c53_clash_defect :
    let f : Format := ⟨0, none, [exChan (latin "DEPT") 4 1 73, exChan [0x41, 0, 0, 0] 1 1 66,
      exChan [0x41, 0, 0, 0] 1 1 66, exChan (latin "A(0)") 1 1 66]⟩
    uniqueMnemonics [text "A", text "A", text "A(0)"] = [text "A(0)", text "A(1)", text "A(0)"] ∧
    curvesNames cstr f none false = none ∧
    (curvesMetadata cstr f none false).map (·.map (·.1)) =
      some [text "DEPT", text "A(0)", text "A(1)"] := by
  decide +kernel

/-- **C53 fails** for suppressed channels: they are in the metadata, not in the array ... -/
theorem c53_suppressed_defect :
    let f : Format := ⟨0, none, [exChan (latin "D") 4 1 73, exChan (latin "A") (-1) 1 66]⟩
    curvesNames ascii f none true = some [text "D"] ∧
    (curvesMetadata ascii f none true).map (·.map (·.1)) = some [text "D", text "A"] := by
  decide +kernel

/-- ... and count as duplicates there: the metadata is refused, or has other names. -/
theorem c53_suppressed_name_defect :
    let f : Format := ⟨0, none, [exChan (latin "D") 4 1 73, exChan (latin "A") (-1) 1 66,
      exChan (latin "A") 1 1 66]⟩
    curvesNames ascii f none true = some [text "D", text "A"] ∧
    curvesMetadata ascii f none true = none ∧
    (curvesMetadata ascii f none false).map (·.map (·.1)) = some [text "D", text "A(0)", text "A(1)"] := by
  decide +kernel

/-- **C53 fails** for empty labels: the column is named by NumPy. -/
theorem c53_empty_defect :
    let f : Format := ⟨0, none, [exChan (latin "DEPT") 4 1 73, exChan [0, 0, 0, 0] 1 1 66]⟩
    curvesNames cstr f none true = some [text "DEPT", text "f1"] ∧
    (curvesMetadata cstr f none true).map (·.map (·.1)) = some [text "DEPT", []] := by
  decide +kernel

end Dlisio.Lis
