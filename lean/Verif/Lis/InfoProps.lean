import Verif.Lis.ProtocolProps
import Verif.Decode
/-
C48: information records, lib/src/lis/protocol.cpp and
python/dlisio/lis/information_record.py.
-/
namespace Dlisio.Lis

namespace Spec

/-- A component block on disk. -/
structure RawComponent where
  type : Byte
  code : Byte
  category : Byte
  mnemonic : Bytes
  units : Bytes
  payload : Bytes

/-- Its bytes: type, representation code, size, category, mnemonic, units and value. -/
def RawComponent.bytes (c : RawComponent) : Bytes :=
  [c.type, c.code, BitVec.ofNat 8 c.payload.length, c.category] ++ c.mnemonic ++ c.units ++ c.payload

/-- Component blocks of the standard. -/
structure RawComponent.Ok (c : RawComponent) : Prop where
  type : c.type.toNat ∈ [0, 69, 73]
  mnemonic : c.mnemonic.length = 4
  units : c.units.length = 4
  length : c.payload.length < 256
  fits : Fits c.code.toNat c.payload.length

/-- The component as seen by users. -/
def RawComponent.component (c : RawComponent) : Component :=
  ⟨c.type.toNat, c.code.toNat, c.payload.length, c.category.toNat, c.mnemonic, c.units,
    content c.code.toNat c.payload⟩

/-- The bytes of consecutive blocks. -/
def componentBytes (cs : List RawComponent) : Bytes := (cs.map RawComponent.bytes).flatten

end Spec

/-! ### Blocks -/

theorem component_element {cur : Bytes} {z c : Byte} (hf : Spec.Fits c.toNat z.toNat)
    (hl : ¬ cur.length < z.toNat) (h0 : z.toNat ≠ 0) :
    element cur z.toNat c.toNat = .ok (Spec.content c.toNat (cur.take z.toNat)) := by
  have hlen : (cur.take z.toNat).length = z.toNat := by rw [List.length_take]; omega
  have := element_content (code := c.toNat) (p := cur.take z.toNat) (by rwa [hlen])
    (by intro hn; rw [hn] at hlen; simp at hlen; omega) (cur.drop z.toNat)
  rwa [List.take_append_drop, hlen] at this

theorem validComponent_iff (t z c : ℕ) :
    validComponent t z c = true ↔ t ∈ [0, 69, 73] ∧ Spec.Fits c z := by
  simp only [validComponent, Bool.and_eq_true, Bool.or_eq_true, decide_eq_true_eq, validSize_iff,
    List.mem_cons, List.not_mem_nil, or_false, or_assoc]

theorem readComponent_iff (cur : Bytes) (c : Component) (rest : Bytes) :
    readComponent cur = .ok (c, rest) ↔
      ∃ r : Spec.RawComponent, r.Ok ∧ cur = r.bytes ++ rest ∧ c = r.component := by
  constructor
  · intro h
    by_cases h12 : cur.length < 12
    · unfold readComponent at h
      rw [if_pos h12] at h
      cases h
    · obtain ⟨t, r, z, d, m, u, tail, rfl, hm, hu⟩ := twelve (Nat.le_of_not_lt h12)
      rw [readComponent_parts _ _ _ _ _ _ hm hu] at h
      split at h
      · cases h
      · rename_i hv
        simp only [Bool.not_eq_true', Bool.not_eq_false, validComponent_iff] at hv
        split at h
        · cases h
        · rename_i hl
          have hlen : (tail.take z.toNat).length = z.toNat := by rw [List.length_take]; omega
          refine ⟨⟨t, r, d, m, u, tail.take z.toNat⟩, ⟨hv.1, hm, hu, by simp only [hlen]; exact z.isLt,
            by simpa only [hlen] using hv.2⟩, ?_, ?_⟩
          · simp only [Spec.RawComponent.bytes, hlen, BitVec.ofNat_toNat, BitVec.setWidth_eq]
            split at h
            · split at h <;> cases h
              simp
            · rename_i h0
              cases h
              simp at h0
              simp [h0]
          · simp only [Spec.RawComponent.component, hlen]
            split at h
            · rename_i h0
              rw [component_element hv.2 hl h0] at h
              cases h
              rfl
            · cases h
              have h0 : z.toNat = 0 := by omega
              simp [h0, Spec.content]
  · rintro ⟨r, hr, rfl, rfl⟩
    have hz : (BitVec.ofNat 8 r.payload.length).toNat = r.payload.length := by
      rw [BitVec.toNat_ofNat]; exact Nat.mod_eq_of_lt hr.length
    have hv := (validComponent_iff r.type.toNat r.payload.length r.code.toNat).2 ⟨hr.type, hr.fits⟩
    have hb : r.bytes ++ rest = r.type :: r.code :: BitVec.ofNat 8 r.payload.length :: r.category ::
        (r.mnemonic ++ (r.units ++ (r.payload ++ rest))) := by
      simp [Spec.RawComponent.bytes]
    rw [hb, readComponent_parts _ _ _ _ _ _ hr.mnemonic hr.units, hz, hv]
    simp only [Bool.not_true, Bool.false_eq_true, if_false, List.length_append]
    rw [if_neg (by omega)]
    split
    · rename_i h0
      rw [element_content hr.fits (by simpa using h0)]
      simp [Spec.RawComponent.component]
    · rename_i h0
      have h0 : r.payload = [] := by simpa using h0
      simp [Spec.RawComponent.component, h0, Spec.content]

theorem readComponent_safe (cur : Bytes) : readComponent cur ≠ .overrun := by
  by_cases h12 : cur.length < 12
  · unfold readComponent
    rw [if_pos h12]
    simp
  · obtain ⟨t, r, z, d, m, u, tail, rfl, hm, hu⟩ := twelve (Nat.le_of_not_lt h12)
    rw [readComponent_parts _ _ _ _ _ _ hm hu]
    split
    · simp
    · rename_i hv
      simp only [Bool.not_eq_true', Bool.not_eq_false, validComponent_iff] at hv
      split
      · simp
      · rename_i hl
        split
        · rename_i h0
          rw [component_element hv.2 hl h0]
          simp
        · simp

theorem component_bytes_pos (c : Spec.RawComponent) : 0 < c.bytes.length := by
  simp [Spec.RawComponent.bytes]

theorem componentLoop_bytes (cs : List Spec.RawComponent) (h : ∀ c ∈ cs, c.Ok)
    (acc : List Component) :
    componentLoop (Spec.componentBytes cs) acc = .ok (acc ++ cs.map Spec.RawComponent.component) := by
  induction cs generalizing acc with
  | nil => rw [componentLoop]; simp [Spec.componentBytes]
  | cons c cs ih =>
    have hb : Spec.componentBytes (c :: cs) = c.bytes ++ Spec.componentBytes cs := by
      simp [Spec.componentBytes]
    have hr := (readComponent_iff (c.bytes ++ Spec.componentBytes cs) c.component _).2
      ⟨c, h c (by simp), rfl, rfl⟩
    have hp := component_bytes_pos c
    rw [componentLoop, if_pos (by rw [hb, List.length_append]; omega)]
    split
    · rename_i he; rw [hb, hr] at he; cases he
    · rename_i he; rw [hb, hr] at he; cases he
    · rename_i he
      rw [hb, hr] at he
      cases he
      rw [ih (fun d hd => h d (by simp [hd]))]
      simp

theorem componentLoop_ok (cur : Bytes) (acc : List Component) {cs : List Component}
    (h : componentLoop cur acc = .ok cs) :
    ∃ rs : List Spec.RawComponent, (∀ c ∈ rs, c.Ok) ∧ cur = Spec.componentBytes rs := by
  fun_induction componentLoop cur acc with
  | case1 => cases h
  | case2 => cases h
  | case3 cur acc hp c r hr ih =>
    obtain ⟨t, ht, rfl, rfl⟩ := (readComponent_iff _ _ _).1 hr
    obtain ⟨rs, hok, rfl⟩ := ih h
    refine ⟨t :: rs, ?_, by simp [Spec.componentBytes]⟩
    intro d hd
    rcases List.mem_cons.1 hd with rfl | hd
    · exact ht
    · exact hok d hd
  | case4 cur acc hp => exact ⟨[], by simp, by simpa [Spec.componentBytes] using hp⟩

/-! ### C48: parsing -/

/-- C48: an information record is accepted exactly if it is a sequence of component blocks
of the standard; then these are returned in order. -/
theorem c48_parse (data : Bytes) (cs : List Component) :
    parseInfo data = .ok cs ↔ ∃ rs : List Spec.RawComponent, (∀ c ∈ rs, c.Ok) ∧
      data = Spec.componentBytes rs ∧ cs = rs.map Spec.RawComponent.component := by
  constructor
  · intro h
    obtain ⟨rs, hok, rfl⟩ := componentLoop_ok _ _ h
    refine ⟨rs, hok, rfl, ?_⟩
    unfold parseInfo at h
    rw [componentLoop_bytes rs hok] at h
    cases h
    simp
  · rintro ⟨rs, hok, rfl, rfl⟩
    unfold parseInfo
    rw [componentLoop_bytes rs hok]
    simp

theorem componentLoop_safe (cur : Bytes) (acc : List Component) :
    componentLoop cur acc ≠ .overrun := by
  fun_induction componentLoop cur acc with
  | case1 => simp
  | case2 cur _ _ h => exact absurd h (readComponent_safe cur)
  | case3 _ _ _ _ _ _ ih => exact ih
  | case4 => simp

/-- C48: nothing behind the record is read, whatever it holds. -/
theorem c48_safe (data : Bytes) : parseInfo data ≠ .overrun := componentLoop_safe data []

theorem componentLoop_cut (rs : List Spec.RawComponent) (hok : ∀ c ∈ rs, c.Ok) (n : ℕ)
    (hn : n ≤ (Spec.componentBytes rs).length)
    (hcut : ∀ k, n ≠ (Spec.componentBytes (rs.take k)).length) (acc : List Component) :
    componentLoop ((Spec.componentBytes rs).take n) acc = .throws := by
  induction rs generalizing n acc with
  | nil =>
    have := hcut 0
    simp [Spec.componentBytes] at hn this
    omega
  | cons c rs ih =>
    have h0 := hcut 0
    simp only [List.take_zero, Spec.componentBytes, List.map_nil, List.flatten_nil,
      List.length_nil] at h0
    have hb : Spec.componentBytes (c :: rs) = c.bytes ++ Spec.componentBytes rs := by
      simp [Spec.componentBytes]
    have hfull := (readComponent_iff (c.bytes ++ Spec.componentBytes rs) c.component _).2
      ⟨c, hok c (by simp), rfl, rfl⟩
    rw [hb] at hn ⊢
    rw [componentLoop, if_pos (by rw [List.length_take]; omega)]
    split
    · rfl
    · rename_i he; exact absurd he (readComponent_safe _)
    · rename_i d r he
      obtain ⟨q, hq, hqe, rfl⟩ := (readComponent_iff _ _ _).1 he
      have hall : c.bytes ++ Spec.componentBytes rs =
          q.bytes ++ (r ++ (c.bytes ++ Spec.componentBytes rs).drop n) := by
        conv_lhs => rw [← List.take_append_drop n (c.bytes ++ _), hqe]
        simp
      have h2 := (readComponent_iff _ _ _).2 ⟨q, hq, hall, rfl⟩
      rw [hfull] at h2
      simp only [Parsed.ok.injEq, Prod.mk.injEq] at h2
      have hlen := congrArg List.length hall
      have hlen2 := congrArg List.length h2.2
      have hlen3 := congrArg List.length hqe
      simp only [List.length_append, List.length_drop, List.length_take] at hlen hlen2 hlen3 hn
      have hr : r = (Spec.componentBytes rs).take (n - c.bytes.length) := by
        rw [h2.2, List.take_left' (by omega)]
      rw [hr]
      refine ih (fun d hd => hok d (by simp [hd])) _ (by omega) ?_ _
      intro k hk
      apply hcut (k + 1)
      have : Spec.componentBytes ((c :: rs).take (k + 1)) =
          c.bytes ++ Spec.componentBytes (rs.take k) := by simp [Spec.componentBytes]
      rw [this, List.length_append]
      omega

/-- C48: a record cut anywhere within a block is rejected. -/
theorem c48_truncated (rs : List Spec.RawComponent) (hok : ∀ c ∈ rs, c.Ok) (n : ℕ)
    (hn : n ≤ (Spec.componentBytes rs).length)
    (hcut : ∀ k, n ≠ (Spec.componentBytes (rs.take k)).length) :
    parseInfo ((Spec.componentBytes rs).take n) = .throws :=
  componentLoop_cut rs hok n hn hcut []

/-! ### Model of the table -/

/-- `isstructured`, ext/lis.cpp:852-856. -/
def isStructured : List Component → Bool
  | [] => false
  | c :: _ => c.type = 73

/-- Exceptions of `InformationRecord.table`. -/
inductive TableError where
  | unstructured
  | illFormed
  /-- a mnemonic is not available as `str`: it cannot be decoded, or numpy refuses it as
  name of a field -/
  | label
deriving DecidableEq

/-- The array: number of rows, names of columns, and cells; a cell that was not assigned
holds the fill value, here `none`. -/
structure Table where
  rows : Nat
  columns : List Text
  cell : Nat → Text → Option Component

/-- The loop that collects columns, information_record.py:165-170. -/
def columnLoop : List Text → List Text → List Text
  | [], columns => columns
  | l :: ls, columns => columnLoop ls (if l ∈ columns then columns else columns ++ [l])

/-- Position of an index as numpy takes it: negative ones count from the end. -/
def position (rows : Nat) (i : Int) : Nat := (if i < 0 then i + rows else i).toNat

/-- The loop that assigns cells, information_record.py:181-184. -/
def cellLoop (rows : Nat) : List (Text × Component) → Int → (Nat → Text → Option Component) →
    Nat → Text → Option Component
  | [], _, cell => cell
  | (l, c) :: rest, row, cell =>
    let row := if c.type = 0 then row + 1 else row
    cellLoop rows rest row fun i k => if i = position rows row ∧ k = l then some c else cell i k

/-- `InformationRecord.table`, information_record.py:98-186. `label` is the mnemonic as
`str`, if it is one. For a record with nothing but its name an array without fields is
returned. -/
def table (label : Bytes → Option Text) (cs : List Component) : Except TableError Table :=
  if !isStructured cs then .error .unstructured
  else match cs with
    | [] => .error .unstructured
    | [_] => .ok ⟨0, [], fun _ _ => none⟩
    | _ :: second :: rest =>
      if second.type ≠ 0 then .error .illFormed
      else
        let rows := (cs.filter fun c => c.type = 0).length
        match (second :: rest).mapM (fun c => label c.mnemonic) with
        | none => .error .label
        | some labels => .ok ⟨rows, columnLoop labels [],
            cellLoop rows (labels.zip (second :: rest)) (-1) fun _ _ => none⟩

/-- A mnemonic as seen in Python, if it is a `str` (ext/lis.cpp:64-70). -/
def mnemonicLabel (encs : List Encoding) (strict : Bool) (m : Bytes) : Option Text :=
  match (decodeStr encs strict m).1 with
  | some (.str t) => some t
  | _ => none

namespace Spec

/-- A row: a block of type 0 and blocks of other types. -/
def Row (row : List Component) : Prop :=
  ∃ first rest, row = first :: rest ∧ first.type = 0 ∧ ∀ c ∈ rest, c.type ≠ 0

/-- The block that a row has for a column: the last one. -/
def lastWith (name : Bytes → Text) (row : List Component) (l : Text) : Option Component :=
  (row.filter fun c => name c.mnemonic = l).getLast?

end Spec

/-! ### Lemmas -/

theorem columnLoop_spec (ls columns : List Text) (hn : columns.Nodup) :
    (columnLoop ls columns).Nodup ∧ (∀ l, l ∈ columnLoop ls columns ↔ l ∈ columns ∨ l ∈ ls) ∧
    columns <+: columnLoop ls columns := by
  induction ls generalizing columns with
  | nil => simp [columnLoop, hn]
  | cons l ls ih =>
    unfold columnLoop
    by_cases h : l ∈ columns
    · rw [if_pos h]
      obtain ⟨h1, h2, h3⟩ := ih columns hn
      refine ⟨h1, fun k => ?_, h3⟩
      rw [h2, List.mem_cons]
      constructor
      · tauto
      · rintro (hk | rfl | hk)
        · exact .inl hk
        · exact .inl h
        · exact .inr hk
    · rw [if_neg h]
      have hn' : (columns ++ [l]).Nodup := by
        rw [List.nodup_append]
        refine ⟨hn, by simp, ?_⟩
        intro a ha b hb
        simp only [List.mem_singleton] at hb
        rintro rfl
        exact h (hb ▸ ha)
      obtain ⟨h1, h2, h3⟩ := ih (columns ++ [l]) hn'
      refine ⟨h1, fun k => ?_, (List.prefix_append _ _).trans h3⟩
      rw [h2, List.mem_append, List.mem_singleton, List.mem_cons]
      tauto

/-- Columns come in the order of their first blocks. -/
theorem columnLoop_order (ls columns all : List Text)
    (pre : List Text) (hp : all = pre ++ ls) (hc : ∀ l, l ∈ columns ↔ l ∈ pre)
    (hord : columns.Pairwise fun a b => all.idxOf a < all.idxOf b) :
    (columnLoop ls columns).Pairwise fun a b => all.idxOf a < all.idxOf b := by
  induction ls generalizing columns pre with
  | nil => exact hord
  | cons l ls ih =>
    unfold columnLoop
    have hp' : all = (pre ++ [l]) ++ ls := by simp [hp]
    by_cases h : l ∈ columns
    · rw [if_pos h]
      refine ih columns (pre ++ [l]) hp' (fun k => ?_) hord
      rw [hc, List.mem_append, List.mem_singleton]
      constructor
      · exact .inl
      · rintro (hk | rfl)
        · exact hk
        · exact (hc _).1 h
    · rw [if_neg h]
      refine ih (columns ++ [l]) (pre ++ [l]) hp' (fun k => ?_) ?_
      · rw [List.mem_append, List.mem_append, hc]
      · rw [List.pairwise_append]
        refine ⟨hord, by simp, ?_⟩
        intro a ha b hb
        simp only [List.mem_singleton] at hb
        subst hb
        have hb : b ∉ pre := fun hk => h ((hc _).2 hk)
        have ha := (hc _).1 ha
        rw [hp, List.idxOf_append_of_mem ha, List.idxOf_append_of_notMem hb]
        have := List.idxOf_lt_length_of_mem ha
        omega

theorem zip_map_left {α β : Type} (f : β → α) (l : List β) : (l.map f).zip l = l.map fun b => (f b, b) := by
  induction l with
  | nil => rfl
  | cons b l ih => simp [ih]

theorem cellLoop_append (rows : ℕ) (a b : List (Text × Component)) (row : ℤ)
    (cell : ℕ → Text → Option Component) :
    cellLoop rows (a ++ b) row cell =
      cellLoop rows b (row + (a.filter fun p => p.2.type = 0).length) (cellLoop rows a row cell) := by
  induction a generalizing row cell with
  | nil => simp [cellLoop]
  | cons p a ih =>
    obtain ⟨l, c⟩ := p
    simp only [List.cons_append, cellLoop, ih]
    by_cases h : c.type = 0
    · simp only [h, if_true, decide_true, List.filter_cons_of_pos, List.length_cons]
      congr 1
      push_cast
      ring
    · simp [h]

theorem position_nat (rows row : ℕ) : position rows (row : ℤ) = row := by
  unfold position
  rw [if_neg (by omega)]
  rfl

theorem lastWith_cons (name : Bytes → Text) (c : Component) (cs : List Component) (l : Text) :
    Spec.lastWith name (c :: cs) l =
      (Spec.lastWith name cs l).or (if name c.mnemonic = l then some c else none) := by
  unfold Spec.lastWith
  by_cases hl : name c.mnemonic = l
  · rw [List.filter_cons_of_pos (by simpa using hl), if_pos hl, List.getLast?_cons]
    cases (List.filter (fun c => decide (name c.mnemonic = l)) cs).getLast? <;> simp
  · rw [List.filter_cons_of_neg (by simpa using hl), if_neg hl, Option.or_none]

/-- Blocks that open no row go to the current row. -/
theorem cellLoop_rest (rows : ℕ) (name : Bytes → Text) (cs : List Component)
    (h : ∀ c ∈ cs, c.type ≠ 0) (row : ℕ) (cell : ℕ → Text → Option Component) (i : ℕ) (l : Text) :
    cellLoop rows (cs.map fun c => (name c.mnemonic, c)) row cell i l =
      if i = row then (Spec.lastWith name cs l).or (cell i l) else cell i l := by
  induction cs generalizing cell with
  | nil => simp [cellLoop, Spec.lastWith]
  | cons c cs ih =>
    have hp : position rows (row : ℤ) = row := position_nat rows row
    simp only [List.map_cons, cellLoop, if_neg (h c (by simp))]
    rw [ih (fun d hd => h d (by simp [hd])), hp]
    by_cases hi : i = row
    · subst hi
      rw [lastWith_cons, if_pos rfl, if_pos rfl]
      by_cases hl : name c.mnemonic = l
      · simp [hl]
      · simp [hl, Ne.symm hl]
    · simp [hi]

theorem cellLoop_row (rows : ℕ) (name : Bytes → Text) (r : List Component) (h : Spec.Row r)
    (row : ℕ) (cell : ℕ → Text → Option Component) (i : ℕ) (l : Text) :
    cellLoop rows (r.map fun c => (name c.mnemonic, c)) ((row : ℤ) - 1) cell i l =
      if i = row then (Spec.lastWith name r l).or (cell i l) else cell i l := by
  obtain ⟨c, cs, rfl, h0, hr⟩ := h
  have hp : position rows (row : ℤ) = row := position_nat rows row
  simp only [List.map_cons, cellLoop, if_pos h0, Int.sub_add_cancel]
  rw [cellLoop_rest _ _ _ hr, hp]
  by_cases hi : i = row
  · subst hi
    rw [lastWith_cons, if_pos rfl, if_pos rfl]
    by_cases hl : name c.mnemonic = l
    · simp [hl]
    · simp [hl, Ne.symm hl]
  · simp [hi]

theorem row_opens {r : List Component} (h : Spec.Row r) :
    (r.filter fun c => c.type = 0).length = 1 := by
  obtain ⟨c, cs, rfl, h0, hr⟩ := h
  rw [List.filter_cons_of_pos (by simpa using h0),
    List.filter_eq_nil_iff.2 (by intro d hd; simpa using hr d hd)]
  rfl

theorem rows_open (rs : List (List Component)) (h : ∀ r ∈ rs, Spec.Row r) :
    (rs.flatten.filter fun c => c.type = 0).length = rs.length := by
  induction rs with
  | nil => rfl
  | cons r rs ih =>
    rw [List.flatten_cons, List.filter_append, List.length_append, row_opens (h r (by simp)),
      ih (fun q hq => h q (by simp [hq])), List.length_cons]
    omega

theorem cellLoop_rows (rows : ℕ) (name : Bytes → Text) (rs : List (List Component))
    (h : ∀ r ∈ rs, Spec.Row r) (row : ℕ) (cell : ℕ → Text → Option Component)
    (hc : ∀ i l, row ≤ i → cell i l = none) (i : ℕ) (l : Text) :
    cellLoop rows (rs.flatten.map fun c => (name c.mnemonic, c)) ((row : ℤ) - 1) cell i l =
      if i < row then cell i l else (rs[i - row]?).bind fun r => Spec.lastWith name r l := by
  induction rs generalizing row cell with
  | nil =>
    simp only [List.flatten_nil, List.map_nil, cellLoop, List.getElem?_nil, Option.bind_none]
    split
    · rfl
    · exact hc i l (by omega)
  | cons r rs ih =>
    have hr := h r (by simp)
    have ho : ((r.map fun c => (name c.mnemonic, c)).filter fun p => p.2.type = 0).length = 1 := by
      rw [List.filter_map, List.length_map]
      exact row_opens hr
    rw [List.flatten_cons, List.map_append, cellLoop_append, ho]
    have hrow : (row : ℤ) - 1 + (1 : ℕ) = ((row + 1 : ℕ) : ℤ) - 1 := by push_cast; ring
    rw [hrow, ih (fun q hq => h q (by simp [hq])) (row + 1)]
    · rw [cellLoop_row _ _ _ hr]
      rcases Nat.lt_trichotomy i row with hi | hi | hi
      · rw [if_pos (by omega), if_neg (by omega), if_pos hi]
      · subst hi
        rw [if_pos (by omega), if_pos rfl, hc i l (Nat.le_refl _)]
        simp
      · rw [if_neg (by omega), if_neg (by omega)]
        have : i - row = (i - (row + 1)) + 1 := by omega
        rw [this, List.getElem?_cons_succ]
    · intro j k hj
      rw [cellLoop_row _ _ _ hr, if_neg (by omega)]
      exact hc j k (by omega)

theorem mapM_some {α β : Type} (f : α → Option β) (g : α → β) (l : List α)
    (h : ∀ a ∈ l, f a = some (g a)) : l.mapM f = some (l.map g) := by
  induction l with
  | nil => rfl
  | cons a l ih =>
    rw [List.mapM_cons, h a (by simp), ih (fun b hb => h b (by simp [hb]))]
    rfl

/-! ### C48: the table -/

/-- C48: the table form is recognised exactly if the first block, hence the first byte of
the record, has the type 73. -/
theorem c48_structured (data : Bytes) (cs : List Component) (h : parseInfo data = .ok cs) :
    (isStructured cs = true ↔ data.head? = some 73) ∧
    (∀ label, table label cs = .error .unstructured ↔ data.head? ≠ some 73) := by
  obtain ⟨rs, -, rfl, rfl⟩ := (c48_parse _ _).1 h
  have h1 : isStructured (rs.map Spec.RawComponent.component) = true ↔
      (Spec.componentBytes rs).head? = some 73 := by
    match rs with
    | [] => simp [isStructured, Spec.componentBytes]
    | c :: rs =>
      simp only [List.map_cons, isStructured, Spec.RawComponent.component, decide_eq_true_eq,
        Spec.componentBytes, Spec.RawComponent.bytes, List.flatten_cons, List.cons_append,
        List.head?_cons, Option.some.injEq]
      constructor
      · intro hc; exact BitVec.eq_of_toNat_eq (by simpa using hc)
      · intro hc; rw [hc]; rfl
  refine ⟨h1, fun label => ?_⟩
  rw [ne_eq, ← h1]
  unfold table
  generalize rs.map Spec.RawComponent.component = cs
  constructor
  · intro ht hs
    simp only [hs, Bool.not_true, Bool.false_eq_true, if_false] at ht
    split at ht
    · simp [isStructured] at hs
    · cases ht
    · split at ht
      · cases ht
      · split at ht <;> cases ht
  · intro hs
    simp [hs]

/-- C48: a table of any number of rows has these rows in order; its columns are the
mnemonics of the blocks, each once, in order of first appearance; a cell holds the last
block of its row with the mnemonic, or else the fill value. -/
theorem c48_table (label : Bytes → Option Text) (name : Bytes → Text) (title : Component)
    (ht : title.type = 73) (rs : List (List Component)) (h : ∀ r ∈ rs, Spec.Row r)
    (hl : ∀ r ∈ rs, ∀ c ∈ r, label c.mnemonic = some (name c.mnemonic)) :
    ∃ t, table label (title :: rs.flatten) = .ok t ∧ t.rows = rs.length ∧
      t.columns.Nodup ∧
      (∀ l, l ∈ t.columns ↔ ∃ r ∈ rs, ∃ c ∈ r, name c.mnemonic = l) ∧
      (t.columns.Pairwise fun a b => (rs.flatten.map (name ·.mnemonic)).idxOf a <
        (rs.flatten.map (name ·.mnemonic)).idxOf b) ∧
      ∀ i l, t.cell i l = (rs[i]?).bind fun r => Spec.lastWith name r l := by
  match rs, h with
  | [], _ => exact ⟨⟨0, [], fun _ _ => none⟩, by simp [table, isStructured, ht], rfl, by simp, by simp, by simp, by simp⟩
  | r :: rs, h =>
    obtain ⟨c, cs, rfl, h0, hr⟩ := h r (by simp)
    have hm : (((c :: cs) :: rs).flatten).mapM (fun c => label c.mnemonic) =
        some (((c :: cs) :: rs).flatten.map (name ·.mnemonic)) := by
      apply mapM_some _ (fun c : Component => name c.mnemonic)
      intro d hd
      obtain ⟨q, hq, hd⟩ := List.mem_flatten.1 hd
      exact hl q hq d hd
    have hrows : ((title :: ((c :: cs) :: rs).flatten).filter fun c => c.type = 0).length =
        rs.length + 1 := by
      rw [List.filter_cons_of_neg (by simp [ht]), rows_open _ h, List.length_cons]
    obtain ⟨n1, n2, -⟩ := columnLoop_spec (((c :: cs) :: rs).flatten.map (name ·.mnemonic)) []
      List.nodup_nil
    have n3 := columnLoop_order (((c :: cs) :: rs).flatten.map (name ·.mnemonic)) [] _ [] rfl
      (by simp) List.Pairwise.nil
    refine ⟨⟨rs.length + 1, columnLoop (((c :: cs) :: rs).flatten.map (name ·.mnemonic)) [],
      cellLoop (rs.length + 1) ((((c :: cs) :: rs).flatten.map (name ·.mnemonic)).zip
        ((c :: cs) :: rs).flatten) (-1) fun _ _ => none⟩, ?_, by simp, n1, ?_, n3, ?_⟩
    · unfold table
      rw [if_neg (by simp [isStructured, ht])]
      have hf : ((c :: cs) :: rs).flatten = c :: (cs ++ rs.flatten) := by simp
      rw [hf] at hm hrows ⊢
      simp only [hm, hrows, h0]
      simp
    · intro l
      rw [n2]
      simp only [List.not_mem_nil, false_or, List.mem_map, List.mem_flatten]
      constructor
      · rintro ⟨d, ⟨q, hq, hd⟩, he⟩; exact ⟨q, hq, d, hd, he⟩
      · rintro ⟨q, hq, d, hd, he⟩; exact ⟨d, ⟨q, hq, hd⟩, he⟩
    · intro i l
      simp only
      rw [zip_map_left]
      have := cellLoop_rows (rs.length + 1) name ((c :: cs) :: rs) h 0 (fun _ _ => none)
        (by simp) i l
      simpa using this

/-- C48: if no row has two blocks of the same mnemonic, each block is in its cell. -/
theorem c48_cells (label : Bytes → Option Text) (name : Bytes → Text) (title : Component)
    (ht : title.type = 73) (rs : List (List Component)) (h : ∀ r ∈ rs, Spec.Row r)
    (hl : ∀ r ∈ rs, ∀ c ∈ r, label c.mnemonic = some (name c.mnemonic))
    (hu : ∀ r ∈ rs, (r.map (name ·.mnemonic)).Nodup) :
    ∃ t, table label (title :: rs.flatten) = .ok t ∧
      ∀ i (hi : i < rs.length), ∀ c ∈ rs[i], t.cell i (name c.mnemonic) = some c := by
  obtain ⟨t, h1, -, -, -, -, h2⟩ := c48_table label name title ht rs h hl
  refine ⟨t, h1, fun i hi c hc => ?_⟩
  rw [h2, List.getElem?_eq_getElem hi, Option.bind_some]
  have hn := hu _ (List.getElem_mem hi)
  generalize rs[i] = r at hc hn
  unfold Spec.lastWith
  induction r with
  | nil => simp at hc
  | cons d r ih =>
    simp only [List.map_cons, List.nodup_cons] at hn
    rcases List.mem_cons.1 hc with rfl | hm
    · have : r.filter (fun e => decide (name e.mnemonic = name c.mnemonic)) = [] := by
        rw [List.filter_eq_nil_iff]
        intro e he
        simp only [decide_eq_true_eq]
        intro hen
        exact hn.1 (List.mem_map.2 ⟨e, he, hen⟩)
      rw [List.filter_cons_of_pos (by simp), this]
      rfl
    · have hd : name d.mnemonic ≠ name c.mnemonic := by
        intro hen
        exact hn.1 (List.mem_map.2 ⟨c, hm, hen.symm⟩)
      rw [List.filter_cons_of_neg (by simpa using hd)]
      exact ih hm hn.2

/-- C48: blocks after the name that do not start with a row are refused. -/
theorem c48_ill_formed (label : Bytes → Option Text) (title c : Component) (cs : List Component)
    (ht : title.type = 73) (hc : c.type ≠ 0) :
    table label (title :: c :: cs) = .error .illFormed := by
  simp [table, isStructured, ht, hc]

/-! ### Cases -/

def exName : Spec.RawComponent := ⟨73, 65, 0, [84, 89, 80, 69], List.replicate 4 32, [67, 79, 78, 83]⟩
def exCell (t : Byte) (m : Byte) (v : Byte) : Spec.RawComponent :=
  ⟨t, 66, 0, [77, 32, 32, m], List.replicate 4 32, [v]⟩

/-- Two rows, the second without a value for the second column. -/
def exRecord : List Spec.RawComponent := [exName, exCell 0 65 1, exCell 69 66 2, exCell 0 65 3]

example : ∀ c ∈ exRecord, c.Ok := by
  intro c hc
  simp only [exRecord, List.mem_cons, List.not_mem_nil, or_false] at hc
  rcases hc with rfl | rfl | rfl | rfl
  · exact ⟨by decide, by decide, by decide, by decide, 0, by decide, by decide⟩
  all_goals exact ⟨by decide, by decide, by decide, by decide, 1, by decide, by decide⟩

def exValue (t : Except TableError Table) (i : ℕ) (m : Nat) : Option Value :=
  match t with
  | .ok t => (t.cell i [77, 32, 32, m]).map Component.value
  | .error _ => none

example : (match parseInfo (Spec.componentBytes exRecord) with
    | .ok cs =>
      let t := table (mnemonicLabel [] false) cs
      [exValue t 0 65, exValue t 0 66, exValue t 1 65, exValue t 1 66]
    | _ => []) = [some (.byte 1), some (.byte 2), some (.byte 3), none] := by decide +kernel

example : parseInfo ((Spec.componentBytes exRecord).take 20) = .throws := by decide +kernel

/-- C48 fails: of two blocks with the same mnemonic in a row only the last one is in the
table. -/
theorem c48_duplicate_defect :
    ∃ cs, parseInfo (Spec.componentBytes [exName, exCell 0 65 1, exCell 69 65 2]) = .ok cs ∧
      exValue (table (mnemonicLabel [] false) cs) 0 65 = some (.byte 2) ∧
      (table (mnemonicLabel [] false) cs).toOption.map (fun t => (t.rows, t.columns.length)) =
        some (1, 1) := by
  refine ⟨[exName, exCell 0 65 1, exCell 69 65 2].map Spec.RawComponent.component, ?_, ?_, ?_⟩
  · decide +kernel
  · decide +kernel
  · decide +kernel

end Dlisio.Lis
