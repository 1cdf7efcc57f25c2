import Verif.Lis.TypesProps
/-
Model of lib/src/lis/pack.cpp and C42: `lis_packf` and `lis_packflen` agree.

As in `Dlis/Pack.lean` a format is the list of characters before the terminating
zero and the counters are unbounded.
-/
namespace Dlisio.Lis

open _root_.Dlisio.Dlis.Spec (ReadsFixed)

/-- A host variable as written to the destination by `pack`, pack.cpp:63-71. -/
inductive Cell where
  | i8 (x : Int)
  | i16 (x : Int)
  | i32 (x : Int)
  | float (x : Flt)
  | u8 (x : Nat)
deriving DecidableEq

/-- `sizeof(T)`, pack.cpp:65. -/
def Cell.size : Cell → Nat
  | .i8 _ => 1 | .i16 _ => 2 | .i32 _ => 4 | .float _ => 4 | .u8 _ => 1

/-- Error codes used, lib/include/dlisio/dlis/dlisio.h:454-462. -/
inductive Err where
  | ok | unexpectedValue
deriving DecidableEq, Repr

/-- `struct cursor`, pack.cpp:29-47; see `Dlis.Cursor`. -/
structure Cursor where
  src : Option Bytes
  dst : Option (List Cell)
  written : Nat

/-- The decoder and variable behind each format character, pack.cpp:132-139 with the
characters of lis/types.h:140-151. -/
def step (ch : Char) (src : Bytes) : Option (Option (Cell × Bytes)) :=
  if ch = 's' then some ((i8 src).map fun p => (.i8 p.1, p.2))
  else if ch = 'i' then some ((i16 src).map fun p => (.i16 p.1, p.2))
  else if ch = 'l' then some ((i32 src).map fun p => (.i32 p.1, p.2))
  else if ch = 'e' then some ((f16 src).map fun p => (.float p.1, p.2))
  else if ch = 'f' then some ((f32 src).map fun p => (.float p.1, p.2))
  else if ch = 'r' then some ((f32low src).map fun p => (.float p.1, p.2))
  else if ch = 'p' then some ((f32fix src).map fun p => (.float p.1, p.2))
  else if ch = 'b' then some ((byte src).map fun p => (.u8 p.1, p.2))
  else none

/-- `interpret`, pack.cpp:93-114: pack and advance after decoding. -/
def advance (cur : Cursor) (c : Cell) (src : Bytes) : Cursor :=
  ⟨some src, cur.dst.map (· ++ [c]), cur.written + c.size⟩

/-- The loop of the worker `packf`, pack.cpp:116-147. -/
def packfLoop : List Char → Cursor → Bytes → Option Cursor
  | [], cur, _ => some cur
  | ch :: fmt, cur, src =>
    match step ch src with
    | none => some ⟨none, cur.dst, cur.written⟩
    | some none => none
    | some (some (c, src)) => packfLoop fmt (advance cur c src) src

/-- `lis_packf`, pack.cpp:151-163. -/
def packf (fmt : List Char) (src : Bytes) : Option (Err × List Cell) :=
  match packfLoop fmt ⟨some src, some [], 0⟩ src with
  | none => none
  | some cur =>
    match cur.src with
    | none => some (.unexpectedValue, cur.dst.getD [])
    | some _ => some (.ok, cur.dst.getD [])

/-- `lis_packflen`, pack.cpp:165-175: error code, `nread`, `nwrite` (0 when not set). -/
def packflen (fmt : List Char) (src : Bytes) : Option (Err × Nat × Nat) :=
  match packfLoop fmt ⟨some src, none, 0⟩ src with
  | none => none
  | some cur =>
    match cur.src with
    | none => some (.unexpectedValue, 0, 0)
    | some r => some (.ok, src.length - r.length, cur.written)

/-! ### Specification -/
namespace Spec

/-- Bytes in the file for each format character (LIS79 Appendix B). -/
def onDisk (ch : Char) : Option Nat :=
  [('s', 1), ('b', 1), ('i', 2), ('e', 2), ('l', 4), ('f', 4), ('r', 4), ('p', 4)].lookup ch

/-- Bytes in memory: all floats take four. -/
def inMemory (ch : Char) : Nat := if ch = 'e' then 4 else (onDisk ch).getD 0

/-- The value of each format character. -/
def value (ch : Char) (e : Bytes) : Cell :=
  if ch = 's' then .i8 (twosComplement 8 (beNat e))
  else if ch = 'i' then .i16 (twosComplement 16 (beNat e))
  else if ch = 'l' then .i32 (twosComplement 32 (beNat e))
  else if ch = 'e' then .float (.num (f16 (beNat e)))
  else if ch = 'f' then .float (.num (rnd32 (f32 (beNat e))))
  else if ch = 'r' then .float (f32lowValue (BitVec.ofNat 32 (beNat e)))
  else if ch = 'p' then .float (.num (rnd32 (f32fix (beNat e))))
  else .u8 (beNat e)

/-- Total size of a format of known characters. -/
def total (f : Char → Nat) (fmt : List Char) : Nat := (fmt.map f).sum

/-- All characters of the format are known. -/
def Known (fmt : List Char) : Prop := ∀ ch ∈ fmt, onDisk ch ≠ none

/-- Bytes in the file of one character, 0 if unknown. -/
def disk (ch : Char) : Nat := (onDisk ch).getD 0

/-- The values of a format: consecutive pieces of the source. -/
def values : List Char → Bytes → List Cell
  | [], _ => []
  | ch :: fmt, src => value ch (src.take (disk ch)) :: values fmt (src.drop (disk ch))

end Spec

/-! ### Lemmas -/

theorem readsFixed_eq {α : Type} {f : Decoder α} {n : ℕ} {val : Bytes → α}
    (h : ReadsFixed f n val) (bs : Bytes) :
    f bs = if n ≤ bs.length then some (val (bs.take n), bs.drop n) else none := by
  split
  · rename_i hn
    exact (h _ _ _).2 ⟨bs.take n, by simp [hn], by simp, rfl⟩
  · rename_i hn
    match hf : f bs with
    | none => rfl
    | some (v, r) =>
      obtain ⟨e, he, rfl, -⟩ := (h _ _ _).1 hf
      simp at hn; omega

theorem map_reads {α : Type} {f : Decoder α} {n : ℕ} {val : Bytes → α}
    (h : ReadsFixed f n val) (g : α → Cell) (src : Bytes) :
    ((f src).map fun p => (g p.1, p.2)) =
      if n ≤ src.length then some (g (val (src.take n)), src.drop n) else none := by
  rw [readsFixed_eq h]; split <;> rfl

theorem onDisk_known {ch : Char} {n : ℕ} (h : Spec.onDisk ch = some n) :
    ch = 's' ∨ ch = 'b' ∨ ch = 'i' ∨ ch = 'e' ∨ ch = 'l' ∨ ch = 'f' ∨ ch = 'r' ∨ ch = 'p' := by
  by_contra hc
  simp only [not_or] at hc
  obtain ⟨h1, h2, h3, h4, h5, h6, h7, h8⟩ := hc
  simp only [← ne_eq, ← beq_eq_false_iff_ne] at h1 h2 h3 h4 h5 h6 h7 h8
  simp [Spec.onDisk, List.lookup, h1, h2, h3, h4, h5, h6, h7, h8] at h

/-- One character: unknown, source too short, or the specified value. -/
theorem step_spec (ch : Char) (src : Bytes) :
    step ch src = (Spec.onDisk ch).map fun n =>
      if n ≤ src.length then some (Spec.value ch (src.take n), src.drop n) else none := by
  match h : Spec.onDisk ch with
  | none =>
    have hne : ch ≠ 's' ∧ ch ≠ 'b' ∧ ch ≠ 'i' ∧ ch ≠ 'e' ∧ ch ≠ 'l' ∧ ch ≠ 'f' ∧ ch ≠ 'r' ∧
        ch ≠ 'p' := by
      refine ⟨?_, ?_, ?_, ?_, ?_, ?_, ?_, ?_⟩ <;> (rintro rfl; revert h; decide)
    simp [step, hne]
  | some n =>
    rcases onDisk_known h with rfl | rfl | rfl | rfl | rfl | rfl | rfl | rfl <;>
      obtain rfl := Option.some.inj h
    · exact congrArg some (map_reads c41_i8 Cell.i8 src)
    · exact congrArg some (map_reads c41_byte Cell.u8 src)
    · exact congrArg some (map_reads c41_i16 Cell.i16 src)
    · exact congrArg some (map_reads c41_f16 Cell.float src)
    · exact congrArg some (map_reads c41_i32 Cell.i32 src)
    · exact congrArg some (map_reads c41_f32 Cell.float src)
    · exact congrArg some (map_reads c41_f32low_reads Cell.float src)
    · exact congrArg some (map_reads c41_f32fix Cell.float src)

theorem value_size {ch : Char} {n : ℕ} (h : Spec.onDisk ch = some n) (e : Bytes) :
    (Spec.value ch e).size = Spec.inMemory ch := by
  rcases onDisk_known h with rfl | rfl | rfl | rfl | rfl | rfl | rfl | rfl <;> rfl

theorem known_cons {ch : Char} {fmt : List Char} (h : Spec.Known (ch :: fmt)) :
    (∃ n, Spec.onDisk ch = some n) ∧ Spec.Known fmt :=
  ⟨Option.ne_none_iff_exists'.1 (h ch (by simp)), fun c hc => h c (by simp [hc])⟩

theorem packfLoop_known (fmt rest : List Char) (hk : Spec.Known fmt) (src : Bytes)
    (d : Option (List Cell)) (w : ℕ) :
    packfLoop (fmt ++ rest) ⟨some src, d, w⟩ src =
      if Spec.total Spec.disk fmt ≤ src.length then
        packfLoop rest ⟨some (src.drop (Spec.total Spec.disk fmt)),
          d.map (· ++ Spec.values fmt src), w + Spec.total Spec.inMemory fmt⟩
          (src.drop (Spec.total Spec.disk fmt))
      else none := by
  induction fmt generalizing src d w with
  | nil => cases d <;> simp [Spec.total, Spec.values]
  | cons ch fmt ih =>
    obtain ⟨⟨n, hn⟩, hk'⟩ := known_cons hk
    have hd : Spec.disk ch = n := by simp [Spec.disk, hn]
    have htot : ∀ f : Char → ℕ, Spec.total f (ch :: fmt) = f ch + Spec.total f fmt := by
      intro f; simp [Spec.total]
    rw [List.cons_append, packfLoop, step_spec, hn, Option.map_some]
    by_cases hl : n ≤ src.length
    · rw [if_pos hl]
      simp only [advance]
      rw [ih hk', htot, htot, hd, List.length_drop, value_size hn, List.drop_drop, Spec.values, hd]
      by_cases h2 : Spec.total Spec.disk fmt ≤ src.length - n
      · rw [if_pos h2, if_pos (by omega)]
        have : w + Spec.inMemory ch + Spec.total Spec.inMemory fmt =
          w + (Spec.inMemory ch + Spec.total Spec.inMemory fmt) := by omega
        rw [this]
        cases d <;> simp
      · rw [if_neg h2, if_neg (by omega)]
    · rw [if_neg hl, if_neg (by rw [htot, hd]; omega)]

theorem values_size (fmt : List Char) (hk : Spec.Known fmt) (src : Bytes) :
    ((Spec.values fmt src).map Cell.size).sum = Spec.total Spec.inMemory fmt := by
  induction fmt generalizing src with
  | nil => rfl
  | cons ch fmt ih =>
    obtain ⟨⟨n, hn⟩, hk'⟩ := known_cons hk
    simp [Spec.values, Spec.total, value_size hn, ih hk']

/-! ## C42 -/

/-- C42: a format of known characters is unpacked from exactly the bytes its characters
take in the file, each into its value. -/
theorem c42_packf (fmt : List Char) (hk : Spec.Known fmt) (src : Bytes) :
    packf fmt src = if Spec.total Spec.disk fmt ≤ src.length then
      some (.ok, Spec.values fmt src) else none := by
  have h := packfLoop_known fmt [] hk src (some []) 0
  rw [List.append_nil] at h
  rw [packf, h]
  by_cases hl : Spec.total Spec.disk fmt ≤ src.length
  · simp [hl, packfLoop]
  · simp [hl]

/-- C42: the size query gives the bytes in the file and in memory; both depend on the
format only.  (It reads the source all the same: with too short a source it reads past
the end.) -/
theorem c42_packflen (fmt : List Char) (hk : Spec.Known fmt) (src : Bytes) :
    packflen fmt src = if Spec.total Spec.disk fmt ≤ src.length then
      some (.ok, Spec.total Spec.disk fmt, Spec.total Spec.inMemory fmt) else none := by
  have h := packfLoop_known fmt [] hk src none 0
  rw [List.append_nil] at h
  rw [packflen, h]
  by_cases hl : Spec.total Spec.disk fmt ≤ src.length
  · simp [hl, packfLoop]; omega
  · simp [hl]

/-- C42: the first unknown character is an error for both, once the source holds the
characters before it. -/
theorem c42_unknown (pre : List Char) (hk : Spec.Known pre) (ch : Char) (rest : List Char)
    (hu : Spec.onDisk ch = none) (src : Bytes) (hl : Spec.total Spec.disk pre ≤ src.length) :
    packf (pre ++ ch :: rest) src = some (.unexpectedValue, Spec.values pre src) ∧
    packflen (pre ++ ch :: rest) src = some (.unexpectedValue, 0, 0) := by
  constructor
  · rw [packf, packfLoop_known pre _ hk, if_pos hl, packfLoop, step_spec, hu]; simp
  · rw [packflen, packfLoop_known pre _ hk, if_pos hl, packfLoop, step_spec, hu]; simp

/-- Every format is of known characters, or has a first unknown one. -/
theorem known_or_unknown (fmt : List Char) : Spec.Known fmt ∨
    ∃ pre ch rest, fmt = pre ++ ch :: rest ∧ Spec.Known pre ∧ Spec.onDisk ch = none := by
  induction fmt with
  | nil => left; intro c hc; cases hc
  | cons ch fmt ih =>
    match h : Spec.onDisk ch with
    | none => exact Or.inr ⟨[], ch, fmt, rfl, (by intro c hc; cases hc), h⟩
    | some n =>
      have hkc : ∀ l, Spec.Known l → Spec.Known (ch :: l) := by
        intro l hl c hc
        rcases List.mem_cons.1 hc with rfl | hc
        · rw [h]; simp
        · exact hl c hc
      rcases ih with ih | ⟨pre, c, rest, rfl, hk, hc⟩
      · exact Or.inl (hkc _ ih)
      · exact Or.inr ⟨ch :: pre, c, rest, rfl, hkc _ hk, hc⟩

/-- C42: for every format and source, both calls succeed together; then the size query
has given the number of bytes written, and as many bytes as it says are read: what
follows them makes no difference. -/
theorem c42_agree (fmt : List Char) (src : Bytes) :
    ((packf fmt src = none ↔ packflen fmt src = none) ∧
      ((∃ cs, packf fmt src = some (.unexpectedValue, cs)) ↔
        ∃ n m, packflen fmt src = some (.unexpectedValue, n, m))) ∧
    ∀ cs, packf fmt src = some (.ok, cs) → ∃ n,
      packflen fmt src = some (.ok, n, (cs.map Cell.size).sum) ∧ n ≤ src.length ∧
      ∀ tail, packf fmt (src.take n ++ tail) = some (.ok, cs) := by
  rcases known_or_unknown fmt with hk | ⟨pre, ch, rest, rfl, hk, hu⟩
  · rw [c42_packf fmt hk, c42_packflen fmt hk]
    by_cases hl : Spec.total Spec.disk fmt ≤ src.length
    · simp only [if_pos hl]
      refine ⟨by simp, ?_⟩
      intro cs hcs
      simp only [Option.some.injEq, Prod.mk.injEq, true_and] at hcs
      subst hcs
      refine ⟨Spec.total Spec.disk fmt, by rw [values_size fmt hk], hl, fun tail => ?_⟩
      rw [c42_packf fmt hk, if_pos (by simp; omega)]
      congr 2
      have : ∀ (fmt : List Char) (a b : Bytes), Spec.total Spec.disk fmt ≤ a.length →
          a.take (Spec.total Spec.disk fmt) = b.take (Spec.total Spec.disk fmt) →
          Spec.values fmt b = Spec.values fmt a := by
        intro fmt
        induction fmt with
        | nil => intro a b _ _; rfl
        | cons c fmt ih =>
          intro a b hla hab
          have ht : Spec.total Spec.disk (c :: fmt) = Spec.disk c + Spec.total Spec.disk fmt := by
            simp [Spec.total]
          rw [ht] at hla hab
          have h1 : a.take (Spec.disk c) = b.take (Spec.disk c) := by
            have := congrArg (List.take (Spec.disk c)) hab
            simpa [List.take_take] using this
          have h2 : (a.drop (Spec.disk c)).take (Spec.total Spec.disk fmt) =
              (b.drop (Spec.disk c)).take (Spec.total Spec.disk fmt) := by
            have := congrArg (List.drop (Spec.disk c)) hab
            simpa [List.drop_take] using this
          rw [Spec.values, Spec.values, h1, ih _ _ (by simp; omega) h2]
      apply this fmt _ _ hl
      rw [List.take_append_of_le_length (by simp; omega), List.take_take, Nat.min_self]
    · simp [if_neg hl]
  · by_cases hl : Spec.total Spec.disk pre ≤ src.length
    · obtain ⟨h1, h2⟩ := c42_unknown pre hk ch rest hu src hl
      rw [h1, h2]; simp
    · have h1 : packf (pre ++ ch :: rest) src = none := by
        rw [packf, packfLoop_known pre _ hk, if_neg hl]
      have h2 : packflen (pre ++ ch :: rest) src = none := by
        rw [packflen, packfLoop_known pre _ hk, if_neg hl]
      rw [h1, h2]; simp

/-- A byte, a 16-bit float and a 16-bit integer: 5 bytes read, 7 written; a string in
the format is an error. -/
example : packf "bei".toList [0x07, 0x4C, 0x88, 0xFF, 0xFE, 0x00] =
      some (.ok, [.u8 7, .float (.num 153), .i16 (-2)]) ∧
    packflen "bei".toList [0x07, 0x4C, 0x88, 0xFF, 0xFE, 0x00] = some (.ok, 5, 7) ∧
    packflen "ba".toList [0x07, 0x4C] = some (.unexpectedValue, 0, 0) ∧
    packf "ba".toList [0x07, 0x4C] = some (.unexpectedValue, [.u8 7]) := by
  have hk : Spec.Known "bei".toList := by unfold Spec.Known; decide
  refine ⟨?_, ?_, ?_, ?_⟩
  · rw [c42_packf _ hk, if_pos (by decide)]
    have e : (Spec.f16 (beNat [0x4C, 0x88])) = 153 := by
      rw [show beNat [0x4C, 0x88] = 0x4C88 from rfl]; norm_num [Spec.f16, twosComplement]
    show some (Err.ok, [Cell.u8 7, Cell.float (.num (Spec.f16 (beNat [0x4C, 0x88]))), Cell.i16 (-2)]) = _
    rw [e]
  · rw [c42_packflen _ hk, if_pos (by decide)]; rfl
  · exact (c42_unknown ['b'] (by unfold Spec.Known; decide) 'a' [] (by decide) _ (by decide)).2
  · exact (c42_unknown ['b'] (by unfold Spec.Known; decide) 'a' [] (by decide) _ (by decide)).1

end Dlisio.Lis
