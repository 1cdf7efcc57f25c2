/-
C30 (row layout).
-/
import Verif.Dlis.FrameProps

namespace Dlisio.Dlis

open _root_.Dlisio.Dlis.Spec

/-! ### Layout of rows -/

namespace Spec

/-- The items are what a NumPy element of this type is made of: a pointer, 255 code units, or
numbers of the right size within the range of the type. -/
inductive Holds : NpBase → List Item → Prop
  | object {v} : Holds .object [.obj v]
  | u255 {us} : us.length = 255 → Holds .u255 [.text us]
  | i1 {v : Int} : -2 ^ 7 ≤ v → v < 2 ^ 7 → Holds .i1 [.host (.int 1 v)]
  | i2 {v : Int} : -2 ^ 15 ≤ v → v < 2 ^ 15 → Holds .i2 [.host (.int 2 v)]
  | i4 {v : Int} : -2 ^ 31 ≤ v → v < 2 ^ 31 → Holds .i4 [.host (.int 4 v)]
  | u1 {v : Int} : 0 ≤ v → v < 2 ^ 8 → Holds .u1 [.host (.int 1 v)]
  | u2 {v : Int} : 0 ≤ v → v < 2 ^ 16 → Holds .u2 [.host (.int 2 v)]
  | u4 {v : Int} : 0 ≤ v → v < 2 ^ 32 → Holds .u4 [.host (.int 4 v)]
  | bool {v : Int} : 0 ≤ v → v < 2 ^ 8 → Holds .bool [.host (.int 1 v)]
  | f4 {b} : Holds .f4 [.host (.f32 b)]
  | f4v {x} : Holds .f4 [.host (.f32v x)]
  | f8 {b} : Holds .f8 [.host (.f64 b)]
  | c8 {a b} : Holds .c8 [.host (.f32 a), .host (.f32 b)]
  | c16 {a b} : Holds .c16 [.host (.f64 a), .host (.f64 b)]

/-- The codes of the values in a row, column by column: the frame number and for each channel
as many values as its dimensions say. -/
def columns (chs : List (Nat × Reprc)) : List (List Reprc) :=
  [.uvari] :: chs.map (fun p => List.replicate p.1 p.2)

end Spec

theorem holds_items {c : Reprc} {v : Val} {e : Bytes} {b : NpBase} (h : Spec.Enc c v e)
    (hb : npBase c.code = some b) : Spec.Holds b (items c v) := by
  have hlt := beNat_lt e
  have hu : ∀ n, Uvari n e → n < 2 ^ 30 := by
    rintro n (⟨-, -, h⟩ | ⟨-, -, h⟩ | ⟨-, -, h⟩) <;> omega
  cases c <;> simp only [Reprc.code, npBase, Option.some.injEq] at hb <;> subst hb <;>
    simp only [Spec.Enc] at h
  case fshort => obtain ⟨-, rfl⟩ := h; exact .f4v
  case fsingl => obtain ⟨-, rfl⟩ := h; exact .f4
  case fsing1 => obtain ⟨-, rfl⟩ := h; exact .object
  case fsing2 => obtain ⟨-, rfl⟩ := h; exact .object
  case isingl => obtain ⟨-, rfl⟩ := h; exact .f4
  case vsingl => obtain ⟨-, rfl⟩ := h; exact .f4v
  case fdoubl => obtain ⟨-, rfl⟩ := h; exact .f8
  case fdoub1 => obtain ⟨-, rfl⟩ := h; exact .object
  case fdoub2 => obtain ⟨-, rfl⟩ := h; exact .object
  case csingl => obtain ⟨-, rfl⟩ := h; exact .c8
  case cdoubl => obtain ⟨-, rfl⟩ := h; exact .c16
  case sshort =>
    obtain ⟨hl, rfl⟩ := h
    rw [hl] at hlt
    refine .i1 ?_ ?_ <;> (unfold twosComplement; split <;> omega)
  case snorm =>
    obtain ⟨hl, rfl⟩ := h
    rw [hl] at hlt
    refine .i2 ?_ ?_ <;> (unfold twosComplement; split <;> omega)
  case slong =>
    obtain ⟨hl, rfl⟩ := h
    rw [hl] at hlt
    refine .i4 ?_ ?_ <;> (unfold twosComplement; split <;> omega)
  case ushort => obtain ⟨hl, rfl⟩ := h; rw [hl] at hlt; exact .u1 (by omega) (by omega)
  case unorm => obtain ⟨hl, rfl⟩ := h; rw [hl] at hlt; exact .u2 (by omega) (by omega)
  case ulong => obtain ⟨hl, rfl⟩ := h; rw [hl] at hlt; exact .u4 (by omega) (by omega)
  case uvari =>
    obtain ⟨n, rfl, hn⟩ := h
    have := hu n hn
    exact .u4 (by omega) (by omega)
  case origin =>
    obtain ⟨n, rfl, hn⟩ := h
    have := hu n hn
    exact .u4 (by omega) (by omega)
  case ident =>
    obtain ⟨s, rfl, b, hb, -⟩ := h
    refine .u255 ?_
    have := b.isLt
    simp [textUnits]; omega
  case units =>
    obtain ⟨s, rfl, b, hb, -⟩ := h
    refine .u255 ?_
    have := b.isLt
    simp [textUnits]; omega
  case ascii => exact .object
  case dtime => exact .object
  case obname => exact .object
  case objref => exact .object
  case attref => exact .object
  case status => obtain ⟨hl, rfl⟩ := h; rw [hl] at hlt; exact .bool (by omega) (by omega)

theorem npBase_size {c : Reprc} {b : NpBase} (hb : npBase c.code = some b) :
    b.size = colSize c := by
  cases c <;> simp only [Reprc.code, npBase, Option.some.injEq] at hb <;> subst hb <;> rfl

theorem npBase_isSome (n : Nat) (b : NpBase) (h : npBase n = some b) :
    ∃ c : Reprc, c.code = n ∧ pyFmt n = some c.fmtChar := by
  unfold npBase at h
  split at h
  case h_28 => cases h
  · exact ⟨.fshort, rfl, rfl⟩
  · exact ⟨.fsingl, rfl, rfl⟩
  · exact ⟨.fsing1, rfl, rfl⟩
  · exact ⟨.fsing2, rfl, rfl⟩
  · exact ⟨.isingl, rfl, rfl⟩
  · exact ⟨.vsingl, rfl, rfl⟩
  · exact ⟨.fdoubl, rfl, rfl⟩
  · exact ⟨.fdoub1, rfl, rfl⟩
  · exact ⟨.fdoub2, rfl, rfl⟩
  · exact ⟨.csingl, rfl, rfl⟩
  · exact ⟨.cdoubl, rfl, rfl⟩
  · exact ⟨.sshort, rfl, rfl⟩
  · exact ⟨.snorm, rfl, rfl⟩
  · exact ⟨.slong, rfl, rfl⟩
  · exact ⟨.ushort, rfl, rfl⟩
  · exact ⟨.unorm, rfl, rfl⟩
  · exact ⟨.ulong, rfl, rfl⟩
  · exact ⟨.uvari, rfl, rfl⟩
  · exact ⟨.ident, rfl, rfl⟩
  · exact ⟨.ascii, rfl, rfl⟩
  · exact ⟨.dtime, rfl, rfl⟩
  · exact ⟨.origin, rfl, rfl⟩
  · exact ⟨.obname, rfl, rfl⟩
  · exact ⟨.objref, rfl, rfl⟩
  · exact ⟨.attref, rfl, rfl⟩
  · exact ⟨.status, rfl, rfl⟩
  · exact ⟨.units, rfl, rfl⟩

/-- Type and format string of a channel that has both. -/
theorem chan_layout {ch : Chan} {t : NpType} {f : List Char} (ht : ch.dtype = some t)
    (hf : ch.fmtstr = some f) :
    ∃ c : Reprc, ch.reprc = some c.code ∧ f = Spec.format (List.replicate ch.dimension.prod c) ∧
      npBase c.code = some t.base ∧ t.shape.prod = ch.dimension.prod ∧
      t.size = rowSize (List.replicate ch.dimension.prod c) := by
  unfold Chan.dtype at ht
  match hr : ch.reprc with
  | none => simp [hr] at ht
  | some n =>
    rw [hr] at ht
    simp only [Option.bind_some] at ht
    match hb : npBase n with
    | none => simp [hb] at ht
    | some b =>
      rw [hb] at ht
      dsimp only at ht
      obtain ⟨c, rfl, hpf⟩ := npBase_isSome n b hb
      unfold Chan.fmtstr at hf
      split at hf
      · cases hf
      rw [hr] at hf
      simp only [Option.bind_some, hpf, Option.some.injEq] at hf
      have hsz := npBase_size hb
      have hts : t.base = b ∧ t.shape.prod = ch.dimension.prod := by
        split at ht
        · rename_i h1; simp at ht; subst ht; simp [h1]
        · split at ht
          · simp at ht; subst ht; simp
          · cases ht
      refine ⟨c, rfl, ?_, by rw [hb, hts.1], hts.2, ?_⟩
      · rw [← hf]; simp [Spec.format]
      · simp [NpType.size, hts.1, hts.2, hsz, rowSize, Nat.mul_comm]

theorem rowSize_flatten (ls : List (List Reprc)) :
    rowSize ls.flatten = (ls.map rowSize).sum := by
  induction ls with
  | nil => rfl
  | cons l ls ih => simp [rowSize] at ih ⊢; rw [ih]

/-- C30: format string and type of a frame agree.  There is a list of columns of codes, one for
the frame number and one per channel with as many values as its dimensions say, such that the
format string has exactly these codes; a row takes as many bytes as the itemsize of the type;
column `j` begins at the offset the type says and has the size that it says; and its values are
what a NumPy element of that type is made of. -/
theorem c30_layout (fmt : Text → Nat → Nat → Option Text) (channels : List (Option Chan))
    (strict : Bool) (dt : List Field) (f : List Char)
    (hdt : frameDtype fmt channels strict = some dt) (hf : frameFmtstr channels = some f) :
    ∃ chs : List (Chan × Reprc), channels = chs.map (fun p => some p.1) ∧
      (∀ p ∈ chs, p.1.reprc = some p.2.code) ∧
      let cols := Spec.columns (chs.map (fun p => (p.1.dimension.prod, p.2)))
      f = Spec.format cols.flatten ∧ itemsize dt = rowSize cols.flatten ∧
      dt.length = cols.length ∧
      ∀ j fld col, dt[j]? = some fld → cols[j]? = some col →
        fieldOffset dt j = rowSize (cols.take j).flatten ∧ fld.type.size = rowSize col ∧
        fld.type.shape.prod = col.length ∧
        ∀ c ∈ col, ∀ v e, Spec.Enc c v e → Spec.Holds fld.type.base (items c v) := by
  obtain ⟨chs, fs, rfl, h2, h3, -⟩ := frameDtype_types hdt
  -- channel by channel
  have key : ∀ (chs : List Chan) (types : List NpType) (f : List Char),
      chs.map Chan.dtype = types.map some → channelsFmtstr (chs.map some) = some f →
      ∃ cs : List (Chan × Reprc), chs = cs.map Prod.fst ∧ (∀ p ∈ cs, p.1.reprc = some p.2.code) ∧
        f = Spec.format (cs.map (fun p => List.replicate p.1.dimension.prod p.2)).flatten ∧
        List.Forall₂ (fun (t : NpType) (col : List Reprc) => t.size = rowSize col ∧
          t.shape.prod = col.length ∧
          ∀ c ∈ col, ∀ v e, Spec.Enc c v e → Spec.Holds t.base (items c v)) types
          (cs.map (fun p => List.replicate p.1.dimension.prod p.2)) := by
    intro chs
    induction chs with
    | nil =>
      intro types f h1 h2
      obtain rfl : types = [] := by simpa using h1
      obtain rfl : f = [] := by simpa [channelsFmtstr, eq_comm] using h2
      exact ⟨[], rfl, by simp, rfl, .nil⟩
    | cons ch chs ih =>
      intro types f h1 h2
      cases types with
      | nil => simp at h1
      | cons t types =>
        simp only [List.map_cons, List.cons.injEq] at h1
        simp only [List.map_cons, channelsFmtstr] at h2
        match hcf : ch.fmtstr with
        | none => simp [hcf] at h2
        | some a =>
          match hrest : channelsFmtstr (chs.map some) with
          | none => simp [hcf, hrest] at h2
          | some b =>
            rw [hcf, hrest] at h2
            simp only [Option.some.injEq] at h2
            obtain ⟨cs, rfl, e2, e3, e4⟩ := ih types b h1.2 hrest
            obtain ⟨c, d1, d2, d3, d4, d5⟩ := chan_layout h1.1 hcf
            refine ⟨(ch, c) :: cs, rfl, ?_, ?_, ?_⟩
            · intro p hp
              rcases List.mem_cons.1 hp with rfl | hp
              · exact d1
              · exact e2 p hp
            · rw [← h2, d2, e3]; simp [Spec.format]
            · refine .cons ⟨d5, by simp [d4], ?_⟩ e4
              intro c' hc' v e he
              obtain rfl := List.eq_of_mem_replicate hc'
              exact holds_items he d3
  have htypes : chs.map Chan.dtype = (fs.map Field.type).map some := by
    have := congrArg (List.map (Option.map Field.type)) h2
    simp only [List.map_map] at this
    rw [show (fs.map Field.type).map some = fs.map (Option.map Field.type ∘ some) from by
      simp [Function.comp_def], ← this]
    apply List.map_congr_left
    intro ch hch
    have hne : Spec.column fmt chs ch ≠ none := by
      intro hn
      have : none ∈ chs.map (Spec.column fmt chs) := List.mem_map.2 ⟨ch, hch, hn⟩
      rw [h2] at this
      simp at this
    simp only [Function.comp_apply]
    unfold Spec.column at hne ⊢
    match hd : ch.dtype, hl : Spec.label fmt chs ch with
    | some t, some l => rfl
    | none, _ => simp [hd] at hne
    | some t, none => simp [hd, hl] at hne
  unfold frameFmtstr at hf
  match hcf : channelsFmtstr (chs.map some) with
  | none => simp [hcf] at hf
  | some g =>
    rw [hcf] at hf
    simp only [Option.map_some, Option.some.injEq] at hf
    obtain ⟨cs, rfl, e2, e3, e4⟩ := key chs _ g htypes hcf
    refine ⟨cs, by simp [Function.comp_def], e2, ?_⟩
    have hcols : Spec.columns (cs.map (fun p => (p.1.dimension.prod, p.2))) =
        [.uvari] :: cs.map (fun p => List.replicate p.1.dimension.prod p.2) := by
      simp [Spec.columns, Function.comp_def]
    rw [hcols]
    have hfmt : f = Spec.format ([Reprc.uvari] ::
        cs.map (fun p => List.replicate p.1.dimension.prod p.2)).flatten := by
      rw [← hf, e3]; rfl
    have hall : List.Forall₂ (fun (t : NpType) (col : List Reprc) => t.size = rowSize col ∧
          t.shape.prod = col.length ∧
          ∀ c ∈ col, ∀ v e, Spec.Enc c v e → Spec.Holds t.base (items c v)) (dt.map Field.type)
          ([.uvari] :: cs.map (fun p => List.replicate p.1.dimension.prod p.2)) := by
      rw [h3]
      refine .cons ⟨rfl, rfl, ?_⟩ e4
      intro c hc v e he
      obtain rfl : c = .uvari := by simpa using hc
      obtain ⟨n, rfl, hn⟩ := he
      have : n < 2 ^ 30 := by
        rcases hn with ⟨-, -, h⟩ | ⟨-, -, h⟩ | ⟨-, -, h⟩ <;> omega
      exact .i4 (by omega) (by omega)
    generalize [Reprc.uvari] :: cs.map (fun p => List.replicate p.1.dimension.prod p.2) = cols
      at hall hcols hfmt
    have hsizes : ∀ j, itemsize (dt.take j) = rowSize (cols.take j).flatten := by
      intro j
      rw [rowSize_flatten, itemsize]
      congr 1
      rw [List.map_take, List.map_take]
      congr 1
      rw [show dt.map (fun f => f.type.size) = (dt.map Field.type).map NpType.size from by simp]
      generalize dt.map Field.type = types at hall
      clear hcols hfmt
      induction hall with
      | nil => rfl
      | cons h _ ih => rw [List.map_cons, List.map_cons, h.1, ih]
    have hlen : dt.length = cols.length := by simpa using hall.length_eq
    refine ⟨hfmt, ?_, hlen, ?_⟩
    · have := hsizes dt.length
      rw [List.take_length, hlen, List.take_length] at this
      exact this
    · intro j fld col hfld hcol
      refine ⟨hsizes j, ?_⟩
      obtain ⟨hj1, rfl⟩ := List.getElem?_eq_some_iff.1 hfld
      obtain ⟨hj2, rfl⟩ := List.getElem?_eq_some_iff.1 hcol
      have := (List.forall₂_iff_get.1 hall).2 j (by simpa using hj1) hj2
      simpa using this

theorem rowEnc_split : ∀ (cs ds : List Reprc) (row : List Item) (e : Bytes),
    RowEnc (cs ++ ds) row e → ∃ r1 r2 e1 e2, row = r1 ++ r2 ∧ e = e1 ++ e2 ∧
      RowEnc cs r1 e1 ∧ RowEnc ds r2 e2 := by
  intro cs
  induction cs with
  | nil => intro ds row e h; exact ⟨[], row, [], e, rfl, rfl, .nil, h⟩
  | cons c cs ih =>
    intro ds row e h
    cases h with
    | cons h1 h2 h3 =>
      obtain ⟨r1, r2, e1, e2, rfl, rfl, h4, h5⟩ := ih _ _ _ h3
      exact ⟨_, r2, _, e2, by simp, by simp, .cons h1 h2 h4, h5⟩

theorem rowEnc_holds {b : NpBase} : ∀ (cs : List Reprc) (row : List Item) (e : Bytes),
    RowEnc cs row e → (∀ c ∈ cs, ∀ v e, Spec.Enc c v e → Spec.Holds b (items c v)) →
    ∃ vals : List (List Item), vals.length = cs.length ∧ vals.flatten = row ∧
      ∀ x ∈ vals, Spec.Holds b x := by
  intro cs row e h
  induction h with
  | nil => intro _; exact ⟨[], rfl, rfl, by simp⟩
  | cons h1 _ _ ih =>
    intro hb
    obtain ⟨vals, v1, v2, v3⟩ := ih (fun c hc => hb c (by simp [hc]))
    refine ⟨_ :: vals, by simp [v1], by rw [List.flatten_cons, v2], ?_⟩
    intro x hx
    rcases List.mem_cons.1 hx with rfl | hx
    · exact hb _ (by simp) _ _ h1
    · exact v3 x hx

/-- C30: in the array that is read for a frame, every element of every row lies where its type
says, with as many values as the shape says, and each of them is what a NumPy element of
that type is made of; nothing is written outside the array. -/
theorem c30_written (fmt : Text → Nat → Nat → Option Text) (channels : List (Option Chan))
    (strict : Bool) (dt : List Field) (f : List Char)
    (hdt : frameDtype fmt channels strict = some dt) (hf : frameFmtstr channels = some f)
    (policy : Policy) (src : Source) (stale : Nat → Bytes) (tells : List Nat) (d : Dst)
    (logs : List Severity)
    (h : readFdata policy src stale (itemsize dt) f tells = .array d logs) :
    d.overrun = false ∧ ∀ i, i < d.allocated → ∀ j fld, dt[j]? = some fld →
      ∃ vals : List (List Item), vals.length = fld.type.shape.prod ∧
        (∀ x ∈ vals, Spec.Holds fld.type.base x) ∧
        RowAt d.mem (i * itemsize dt + fieldOffset dt j) vals.flatten := by
  obtain ⟨chs, -, -, hl⟩ := c30_layout fmt channels strict dt f hdt hf
  dsimp only at hl
  generalize hcols : Spec.columns (chs.map (fun p => (p.1.dimension.prod, p.2))) = cols at hl
  obtain ⟨rfl, h2, h3, h4⟩ := hl
  have hne : cols.flatten ≠ [] := by rw [← hcols]; simp [Spec.columns]
  rw [h2] at h
  obtain ⟨ho, rows, hr1, hr2⟩ := c29_in_bounds policy src stale cols.flatten hne tells d logs h
  refine ⟨ho, fun i hi j fld hfld => ?_⟩
  have hj : j < cols.length := by rw [← h3]; exact (List.getElem?_eq_some_iff.1 hfld).1
  obtain ⟨h5, h6, h7, h8⟩ := h4 j fld _ hfld (List.getElem?_eq_getElem hj)
  obtain ⟨hrow, e, he⟩ := hr2 i _ (List.getElem?_eq_getElem (by omega))
  generalize rows[i] = row at hrow he
  have hsplit : cols.flatten = (cols.take j).flatten ++ (cols[j] ++ (cols.drop (j + 1)).flatten) := by
    rw [← List.flatten_cons, ← List.flatten_append, ← List.drop_eq_getElem_cons hj,
      List.take_append_drop]
  rw [hsplit] at he
  obtain ⟨r1, r', e1, e', rfl, rfl, hr1', hr'⟩ := rowEnc_split _ _ _ _ he
  obtain ⟨r2, r3, e2, e3, rfl, rfl, hr2', -⟩ := rowEnc_split _ _ _ _ hr'
  obtain ⟨vals, v1, v2, v3⟩ := rowEnc_holds _ _ _ hr2' h8
  refine ⟨vals, by rw [v1, h7], v3, ?_⟩
  rw [v2, h2, h5]
  rw [rowAt_append, rowAt_append, row_size hr1'] at hrow
  exact hrow.2.1

/-- Case: a frame with a scalar single, a 2 x 3 array of shorts, a text and an object name. -/
def layoutCase : List (Option Chan) :=
  [some ⟨text "DEPT", 0, 0, text "T.CHANNEL-I.DEPT-O.0-C.0", some 2, [1]⟩,
   some ⟨text "IMG", 0, 0, text "T.CHANNEL-I.IMG-O.0-C.0", some 12, [2, 3]⟩,
   some ⟨text "NAME", 0, 0, text "T.CHANNEL-I.NAME-O.0-C.0", some 19, [1]⟩,
   some ⟨text "REF", 0, 0, text "T.CHANNEL-I.REF-O.0-C.0", some 23, [1]⟩]

example : (frameDtype defaultFmt layoutCase true).map
      (fun dt => (itemsize dt, (List.range 5).map (fieldOffset dt))) =
      some (1042, [0, 4, 8, 14, 1034]) ∧
    frameFmtstr layoutCase = some "ifddddddso".toList := by
  constructor <;> decide +kernel

end Dlisio.Dlis
