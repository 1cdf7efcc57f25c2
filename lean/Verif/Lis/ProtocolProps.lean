import Verif.Lis.Protocol
/-
C47 to C50: parsing of LIS records (lib/src/lis/protocol.cpp).
-/
namespace Dlisio.Lis
open Dlis.Spec (ReadsFixed)

namespace Spec

/-- The representation codes of LIS79 appendix B and the bytes that a value takes;
0 for codes of any length. -/
def width (code : ℕ) : Option ℕ :=
  [(49, 2), (50, 4), (56, 1), (65, 0), (66, 1), (68, 4), (70, 4), (73, 4), (77, 0), (79, 2)].lookup
    code

/-- A value with this code may have this many bytes; none stands for a missing value. -/
def Fits (code n : ℕ) : Prop := ∃ w, width code = some w ∧ (n = 0 ∨ w = 0 ∨ n = w)

/-- The value that the bytes stand for. -/
def content (code : ℕ) (p : Bytes) : Value :=
  if p = [] then .none
  else match code with
    | 49 => .f16 (.num (f16 (beNat p)))
    | 50 => .f32low (f32lowValue (BitVec.ofNat 32 (beNat p)))
    | 56 => .i8 (twosComplement 8 (beNat p))
    | 65 => .string p
    | 66 => .byte (beNat p)
    | 68 => .f32 (.num (rnd32 (f32 (beNat p))))
    | 70 => .f32fix (.num (rnd32 (f32fix (beNat p))))
    | 73 => .i32 (twosComplement 32 (beNat p))
    | 77 => .mask p
    | 79 => .i16 (twosComplement 16 (beNat p))
    | _ => .none

/-- The number that a value holds. -/
def number : Value → Option ℚ
  | .i8 x => some x
  | .i16 x => some x
  | .i32 x => some x
  | .byte x => some x
  | .f16 (.num q) => some q
  | .f32 (.num q) => some q
  | .f32low (.num q) => some q
  | .f32fix (.num q) => some q
  | _ => none

/-- An entry block on disk. -/
structure RawEntry where
  type : Byte
  code : Byte
  payload : Bytes

/-- Its bytes: type, size, representation code and value. -/
def RawEntry.bytes (e : RawEntry) : Bytes :=
  e.type :: BitVec.ofNat 8 e.payload.length :: e.code :: e.payload

/-- Entry blocks of the standard. -/
structure RawEntry.Ok (e : RawEntry) : Prop where
  type : e.type.toNat ≤ 16
  length : e.payload.length < 256
  fits : Fits e.code.toNat e.payload.length

/-- The entry as seen by users. -/
def RawEntry.entry (e : RawEntry) : Entry :=
  ⟨e.type.toNat, e.payload.length, e.code.toNat, content e.code.toNat e.payload⟩

/-- The bytes from position `i`. -/
def slice (b : Bytes) (i n : ℕ) : Bytes := (b.drop i).take n

/-- A signed 16-bit number at a position. -/
def short (b : Bytes) (i : ℕ) : ℤ := twosComplement 16 (beNat (slice b i 2))

/-- A byte at a position. -/
def octet (b : Bytes) (i : ℕ) : ℕ := beNat (slice b i 1)

/-- Fields of both layouts. -/
def common (b : Bytes) : SpecCommon where
  mnemonic := slice b 0 4
  serviceId := slice b 4 6
  serviceOrderNr := slice b 10 8
  units := slice b 18 4
  filenr := short b 26
  reservedSize := short b 28
  samples := octet b 33
  reprc := octet b 34

/-- A specification block by position of its fields. -/
def block (one : Bool) (b : Bytes) : SpecBlock :=
  if one then .sub1 (common b) (twosComplement 32 (beNat (slice b 22 4))) (slice b 35 5)
  else .sub0 (common b) (octet b 22) (octet b 23) (octet b 24) (octet b 25) (octet b 32)

/-- A data format specification on disk: entries up to and with the terminator, then
blocks of 40 bytes. -/
structure RawDfsr where
  entries : List RawEntry
  terminator : RawEntry
  blocks : List Bytes

def RawDfsr.all (r : RawDfsr) : List RawEntry := r.entries ++ [r.terminator]

structure RawDfsr.Ok (r : RawDfsr) : Prop where
  ok : ∀ e ∈ r.all, e.Ok
  inner : ∀ e ∈ r.entries, e.type ≠ 0
  last : r.terminator.type = 0
  blocks : ∀ b ∈ r.blocks, b.length = 40

/-- The entry blocks as bytes. -/
def RawDfsr.head (r : RawDfsr) : Bytes := (r.all.map RawEntry.bytes).flatten

def RawDfsr.bytes (r : RawDfsr) : Bytes := r.head ++ r.blocks.flatten

/-- Layout 1 is used if an entry of type 16 holds the number one. -/
def One (l : List RawEntry) : Prop :=
  ∃ e ∈ l, e.type = 16 ∧ number (content e.code.toNat e.payload) = some 1

instance (l : List RawEntry) : Decidable (One l) := by unfold One; infer_instance

/-- What is to be returned. -/
def RawDfsr.dfsr (r : RawDfsr) : Dfsr :=
  ⟨r.all.map RawEntry.entry, r.blocks.map (block (decide (One r.all)))⟩

end Spec

/-! ### Values -/

theorem get_fixed {α β : Type} {d : Decoder α} {n : ℕ} {val : Bytes → α}
    (h : ReadsFixed d n val) {cur : Bytes} (hn : n ≤ cur.length) (k : α → Bytes → Parsed β) :
    get d cur k = k (val (cur.take n)) (cur.drop n) := by
  simp only [get, readsFixed_eq h, if_pos hn]

theorem width_cases {code w : ℕ} (h : Spec.width code = some w) :
    (code = 49 ∧ w = 2) ∨ (code = 50 ∧ w = 4) ∨ (code = 56 ∧ w = 1) ∨ (code = 65 ∧ w = 0) ∨
    (code = 66 ∧ w = 1) ∨ (code = 68 ∧ w = 4) ∨ (code = 70 ∧ w = 4) ∨ (code = 73 ∧ w = 4) ∨
    (code = 77 ∧ w = 0) ∨ (code = 79 ∧ w = 2) := by
  have := List.lookup_eq_some_iff.1 h
  obtain ⟨l₁, l₂, he, -⟩ := this
  have hm : (code, w) ∈ [(49, 2), (50, 4), (56, 1), (65, 0), (66, 1), (68, 4), (70, 4), (73, 4),
      (77, 0), (79, 2)] := by rw [he]; simp
  simpa using hm

theorem sizeofType_width (code : ℕ) :
    sizeofType code = match Spec.width code with | some w => (w : ℤ) | none => -1 := by
  match h : Spec.width code with
  | some w =>
    rcases width_cases h with ⟨rfl, rfl⟩ | ⟨rfl, rfl⟩ | ⟨rfl, rfl⟩ | ⟨rfl, rfl⟩ | ⟨rfl, rfl⟩ |
      ⟨rfl, rfl⟩ | ⟨rfl, rfl⟩ | ⟨rfl, rfl⟩ | ⟨rfl, rfl⟩ | ⟨rfl, rfl⟩ <;> decide
  | none =>
    have hn := List.lookup_eq_none_iff.1 h
    simp only [List.mem_cons, List.not_mem_nil, or_false, forall_eq_or_imp, forall_eq,
      bne_iff_ne, ne_eq] at hn
    unfold sizeofType Reprc.ofCode
    repeat rw [if_neg (by omega)]

theorem validSize_iff (code n : ℕ) : validSize code n = true ↔ Spec.Fits code n := by
  simp only [validSize, sizeofType_width, Spec.Fits]
  match Spec.width code with
  | none => simp
  | some w =>
    simp only [Option.some.injEq, exists_eq_left', Bool.and_eq_true, Bool.not_eq_true',
      decide_eq_false_iff_not]
    omega

theorem element_content {code : ℕ} {p : Bytes} (h : Spec.Fits code p.length) (hp : p ≠ [])
    (rest : Bytes) : element (p ++ rest) p.length code = .ok (Spec.content code p) := by
  obtain ⟨w, hw, hl⟩ := h
  have hpos : p.length ≠ 0 := by simpa using hp
  have hz : w = 0 ∨ p.length = w := by tauto
  have key : ∀ {α : Type} {d : Decoder α} {n : ℕ} {val : Bytes → α} (_ : ReadsFixed d n val)
      (_ : p.length = n) (k : α → Value), (get d (p ++ rest) fun x _ => .ok (k x)) =
        .ok (k (val p)) := by
    intro α d n val hr hn k
    rw [get_fixed hr (by simp [hn])]
    simp [← hn]
  rcases width_cases hw with ⟨rfl, rfl⟩ | ⟨rfl, rfl⟩ | ⟨rfl, rfl⟩ | ⟨rfl, rfl⟩ | ⟨rfl, rfl⟩ |
      ⟨rfl, rfl⟩ | ⟨rfl, rfl⟩ | ⟨rfl, rfl⟩ | ⟨rfl, rfl⟩ | ⟨rfl, rfl⟩ <;>
    simp only [Spec.content, if_neg hp]
  · exact key c41_f16 (by omega) _
  · exact key c41_f32low_reads (by omega) _
  · exact key c41_i8 (by omega) _
  · exact key (c41_string_mask _).1 rfl _
  · exact key c41_byte (by omega) _
  · exact key c41_f32 (by omega) _
  · exact key c41_f32fix (by omega) _
  · exact key c41_i32 (by omega) _
  · exact key (c41_string_mask _).2 rfl _
  · exact key c41_i16 (by omega) _

theorem isOne_iff (v : Value) : v.isOne = true ↔ Spec.number v = some 1 := by
  match v with
  | .none => simp [Value.isOne, Spec.number]
  | .string _ => simp [Value.isOne, Spec.number]
  | .mask _ => simp [Value.isOne, Spec.number]
  | .i8 x => simp [Value.isOne, Spec.number]
  | .i16 x => simp [Value.isOne, Spec.number]
  | .i32 x => simp [Value.isOne, Spec.number]
  | .byte x => simp [Value.isOne, Spec.number]
  | .f16 x => cases x <;> simp [Value.isOne, Spec.number]
  | .f32 x => cases x <;> simp [Value.isOne, Spec.number]
  | .f32low x => cases x <;> simp [Value.isOne, Spec.number]
  | .f32fix x => cases x <;> simp [Value.isOne, Spec.number]

/-! ### Entries -/

/-- What is read as an entry is an entry, and each entry is read. -/
theorem readEntry_iff (cur : Bytes) (e : Entry) (rest : Bytes) :
    readEntry cur = .ok (e, rest) ↔
      ∃ r : Spec.RawEntry, r.Ok ∧ cur = r.bytes ++ rest ∧ e = r.entry := by
  constructor
  · intro h
    match cur with
    | [] => simp [readEntry] at h
    | [_] => simp [readEntry] at h
    | [_, _] => simp [readEntry] at h
    | t :: z :: c :: cur =>
      simp only [readEntry, get, byte, List.length_cons] at h
      rw [if_neg (by omega)] at h
      split at h
      · cases h
      · rename_i hv
        simp only [validEntry, Bool.not_eq_true', Bool.not_eq_false, Bool.and_eq_true,
          decide_eq_false_iff_not, validSize_iff] at hv
        split at h
        · cases h
        · rename_i hl
          have hlen : (cur.take z.toNat).length = z.toNat := by
            rw [List.length_take]; omega
          refine ⟨⟨t, c, cur.take z.toNat⟩, ⟨by simp only; omega, by simp only [hlen]; exact z.isLt,
            by simpa only [hlen] using hv.2⟩, ?_, ?_⟩
          · simp only [Spec.RawEntry.bytes, hlen, BitVec.ofNat_toNat, BitVec.setWidth_eq,
              List.cons_append]
            split at h
            · split at h <;> cases h
              simp
            · rename_i h0
              cases h
              simp at h0
              simp [h0]
          · simp only [Spec.RawEntry.entry, hlen]
            split at h
            · rename_i h0
              have hc : element cur z.toNat c.toNat =
                  .ok (Spec.content c.toNat (cur.take z.toNat)) := by
                have := element_content (code := c.toNat) (p := cur.take z.toNat)
                  (by simpa only [hlen] using hv.2)
                  (by intro hn; rw [hn] at hlen; simp at hlen; omega) (cur.drop z.toNat)
                rwa [List.take_append_drop, hlen] at this
              rw [hc] at h
              cases h
              rfl
            · rename_i h0
              cases h
              have h0 : z.toNat = 0 := by omega
              simp [h0, Spec.content]
  · rintro ⟨r, hr, rfl, rfl⟩
    have hz : (BitVec.ofNat 8 r.payload.length).toNat = r.payload.length := by
      rw [BitVec.toNat_ofNat]; exact Nat.mod_eq_of_lt hr.length
    have ht := hr.type
    have hv : validEntry r.type.toNat r.payload.length r.code.toNat = true := by
      simp only [validEntry, Bool.and_eq_true, validSize_iff]
      exact ⟨by simp; omega, hr.fits⟩
    simp only [readEntry, get, byte, Spec.RawEntry.bytes, List.cons_append, hz, hv,
      List.length_cons, List.length_append]
    rw [if_neg (by omega)]
    simp only [Bool.not_true, Bool.false_eq_true, if_false]
    rw [if_neg (by omega)]
    split
    · rename_i h0
      rw [element_content hr.fits (by simpa using h0)]
      simp [Spec.RawEntry.entry]
    · rename_i h0
      have h0 : r.payload = [] := by simpa using h0
      simp [Spec.RawEntry.entry, h0, Spec.content]

/-- No entry reads past the record. -/
theorem readEntry_safe (cur : Bytes) : readEntry cur ≠ .overrun := by
  match cur with
  | [] => simp [readEntry]
  | [_] => simp [readEntry]
  | [_, _] => simp [readEntry]
  | t :: z :: c :: cur =>
    simp only [readEntry, get, byte]
    split
    · simp
    · split
      · simp
      · rename_i hv
        simp only [validEntry, Bool.not_eq_true', Bool.not_eq_false, Bool.and_eq_true,
          decide_eq_false_iff_not, validSize_iff] at hv
        split
        · simp
        · rename_i hl
          have hlen : (cur.take z.toNat).length = z.toNat := by
            rw [List.length_take]; omega
          split
          · rename_i h0
            have := element_content (code := c.toNat) (p := cur.take z.toNat)
              (by simpa only [hlen] using hv.2)
              (by intro hn; rw [hn] at hlen; simp at hlen; omega) (cur.drop z.toNat)
            rw [List.take_append_drop, hlen] at this
            rw [this]
            simp
          · simp

/-- Entries up to the terminator. -/
structure Closed (init : List Spec.RawEntry) (term : Spec.RawEntry) : Prop where
  ok : ∀ e ∈ init ++ [term], e.Ok
  inner : ∀ e ∈ init, e.type ≠ 0
  last : term.type = 0

theorem type_zero (b : Byte) : b.toNat = 0 ↔ b = 0 := by
  constructor
  · intro h; exact BitVec.eq_of_toNat_eq (by simpa using h)
  · rintro rfl; rfl

theorem type_sixteen (b : Byte) : b.toNat = 16 ↔ b = 16 := by
  constructor
  · intro h; exact BitVec.eq_of_toNat_eq (by simpa using h)
  · rintro rfl; rfl

theorem entryLoop_closed (init : List Spec.RawEntry) (term : Spec.RawEntry) (h : Closed init term)
    (rest : Bytes) (acc : List Entry) (sub : ℕ) :
    entryLoop (((init ++ [term]).map Spec.RawEntry.bytes).flatten ++ rest) acc sub =
      .ok (acc ++ (init ++ [term]).map Spec.RawEntry.entry,
        if Spec.One (init ++ [term]) then 1 else sub, rest) := by
  induction init generalizing acc sub with
  | nil =>
    have hr := (readEntry_iff (term.bytes ++ rest) term.entry rest).2
      ⟨term, h.ok term (by simp), rfl, rfl⟩
    rw [entryLoop]
    simp only [List.nil_append, List.map_cons, List.map_nil]
    split
    · simp_all
    · simp_all
    · rename_i e r he
      simp only [List.map_cons, List.map_nil, List.flatten_cons, List.flatten_nil,
        List.append_nil, hr] at he
      cases he
      have h0 : term.entry.type = 0 := (type_zero _).2 h.last
      have h16 : ¬ Spec.One [term] := by
        rintro ⟨e, he, ht, -⟩
        simp only [List.mem_singleton] at he
        rw [he, h.last] at ht
        exact absurd ht (by decide)
      simp [h0, h16]
  | cons a init ih =>
    have hr := (readEntry_iff (a.bytes ++ ((((init ++ [term]).map Spec.RawEntry.bytes).flatten ++
      rest))) a.entry _).2 ⟨a, h.ok a (by simp), rfl, rfl⟩
    have hc : Closed init term := ⟨fun e he => h.ok e (by simp at he ⊢; tauto),
      fun e he => h.inner e (by simp [he]), h.last⟩
    rw [entryLoop]
    simp only [List.cons_append, List.map_cons] at hr ⊢
    split
    · simp_all
    · simp_all
    · rename_i e r he
      simp only [List.map_cons, List.flatten_cons, List.append_assoc, hr] at he
      cases he
      have h0 : ¬ a.entry.type = 0 := fun hz => h.inner a (by simp) ((type_zero _).1 hz)
      have h1 : (a.entry.type = 16 ∧ a.entry.value.isOne = true) ↔
          (a.type = 16 ∧ Spec.number (Spec.content a.code.toNat a.payload) = some 1) := by
        rw [isOne_iff]; exact and_congr (type_sixteen _) Iff.rfl
      have h2 : Spec.One (a :: (init ++ [term])) ↔
          (a.type = 16 ∧ Spec.number (Spec.content a.code.toNat a.payload) = some 1) ∨
            Spec.One (init ++ [term]) := by
        simp [Spec.One]
      rw [if_neg h0, ih hc]
      simp only [h1, h2, List.append_assoc, List.singleton_append]
      congr 3
      split <;> split <;> simp_all

theorem entryLoop_ok (cur : Bytes) (acc : List Entry) (sub : ℕ) {es : List Entry} {sub' : ℕ}
    {rest : Bytes} (h : entryLoop cur acc sub = .ok (es, sub', rest)) :
    ∃ init term, Closed init term ∧
      cur = ((init ++ [term]).map Spec.RawEntry.bytes).flatten ++ rest := by
  fun_induction entryLoop cur acc sub with
  | case1 => cases h
  | case2 => cases h
  | case3 cur acc sub e r hr sub2 h0 =>
    simp only [Parsed.ok.injEq, Prod.mk.injEq] at h
    obtain ⟨-, -, rfl⟩ := h
    obtain ⟨t, ht, rfl, rfl⟩ := (readEntry_iff _ _ _).1 hr
    exact ⟨[], t, ⟨by simpa using ht, by simp, (type_zero _).1 h0⟩, by simp⟩
  | case4 cur acc sub e r hr sub2 h0 ih =>
    obtain ⟨t, ht, rfl, rfl⟩ := (readEntry_iff _ _ _).1 hr
    obtain ⟨init, term, hc, rfl⟩ := ih h
    refine ⟨t :: init, term, ⟨?_, ?_, hc.last⟩, by simp⟩
    · intro e he
      rcases List.mem_cons.1 he with rfl | he
      · exact ht
      · exact hc.ok e he
    · intro e he
      rcases List.mem_cons.1 he with rfl | he
      · exact fun hz => h0 ((type_zero _).2 hz)
      · exact hc.inner e he

theorem entryLoop_safe (cur : Bytes) (acc : List Entry) (sub : ℕ) :
    entryLoop cur acc sub ≠ .overrun := by
  fun_induction entryLoop cur acc sub with
  | case1 => simp
  | case2 cur _ _ h => exact absurd h (readEntry_safe cur)
  | case3 => simp
  | case4 _ _ _ _ _ _ _ _ ih => exact ih

/-! ### Specification blocks -/

theorem slice_take (b : Bytes) (i n m : ℕ) (h : i + n ≤ m) :
    Spec.slice (b.take m) i n = Spec.slice b i n := by
  unfold Spec.slice
  rw [List.drop_take, List.take_take, Nat.min_eq_left (by omega)]

theorem readSpecCommon_eq (cur : Bytes) :
    readSpecCommon cur = if cur.length < 40 then .throws else .ok (Spec.common cur) := by
  unfold readSpecCommon
  split
  · rfl
  · rw [get_fixed (c41_string_mask 4).1 (by omega),
      get_fixed (c41_string_mask 6).1 (by simp only [List.length_drop]; omega),
      get_fixed (c41_string_mask 8).1 (by simp only [List.length_drop]; omega),
      get_fixed (c41_string_mask 4).1 (by simp only [List.length_drop]; omega),
      get_fixed c41_i16 (by simp only [List.length_drop]; omega),
      get_fixed c41_i16 (by simp only [List.length_drop]; omega),
      get_fixed c41_byte (by simp only [List.length_drop]; omega),
      get_fixed c41_byte (by simp only [List.length_drop]; omega)]
    simp only [List.drop_drop, id, Spec.common, Spec.slice, Spec.short, Spec.octet, List.drop_zero]

theorem readSpec_eq (sub : ℕ) (cur : Bytes) :
    (if sub = 0 then readSpec0 cur else readSpec1 cur) =
      if cur.length < 40 then .throws
      else .ok (Spec.block (decide (sub ≠ 0)) (cur.take 40)) := by
  have hc : Spec.common (cur.take 40) = Spec.common cur := by
    simp only [Spec.common, Spec.short, Spec.octet]
    repeat rw [slice_take _ _ _ _ (by omega)]
  split
  · rename_i h0
    subst h0
    unfold readSpec0
    rw [readSpecCommon_eq]
    split
    · simp_all
    · rename_i h; split at h <;> cases h
    · rename_i c h
      split at h
      · cases h
      · rename_i hl
        cases h
        rw [get_fixed c41_byte (by simp only [List.length_drop]; omega),
          get_fixed c41_byte (by simp only [List.length_drop]; omega),
          get_fixed c41_byte (by simp only [List.length_drop]; omega),
          get_fixed c41_byte (by simp only [List.length_drop]; omega),
          get_fixed c41_byte (by simp only [List.length_drop]; omega), if_neg hl]
        simp only [Spec.block, hc, List.drop_drop, Spec.octet]
        repeat rw [slice_take _ _ _ _ (by omega)]
        simp [Spec.slice]
  · rename_i h0
    unfold readSpec1
    rw [readSpecCommon_eq]
    split
    · simp_all
    · rename_i h; split at h <;> cases h
    · rename_i c h
      split at h
      · cases h
      · rename_i hl
        cases h
        rw [get_fixed c41_i32 (by simp only [List.length_drop]; omega),
          get_fixed (c41_string_mask 5).2 (by simp only [List.length_drop]; omega), if_neg hl]
        simp only [Spec.block, hc, List.drop_drop]
        repeat rw [slice_take _ _ _ _ (by omega)]
        simp [Spec.slice, h0]

theorem specLoop_blocks (sub : ℕ) (blocks : List Bytes) (h : ∀ b ∈ blocks, b.length = 40)
    (acc : List SpecBlock) : specLoop sub blocks.flatten acc =
      .ok (acc ++ blocks.map (Spec.block (decide (sub ≠ 0)))) := by
  induction blocks generalizing acc with
  | nil => rw [specLoop]; simp
  | cons b blocks ih =>
    have hb := h b (by simp)
    rw [specLoop, readSpec_eq, if_neg (c := (_ < 40)) (by simp [hb])]
    have h1 : (b :: blocks).flatten.take 40 = b := by simp [← hb]
    have h2 : (b :: blocks).flatten.drop 40 = blocks.flatten := by simp [← hb]
    rw [h1, h2, dif_pos (by simp [hb])]
    simp only
    rw [ih (fun c hc => h c (by simp [hc]))]
    simp

/-- Reading stops with an exception unless the blocks are complete. -/
theorem specLoop_iff (sub : ℕ) (cur : Bytes) (acc : List SpecBlock) :
    specLoop sub cur acc ≠ .overrun ∧
    ((∃ s, specLoop sub cur acc = .ok s) ↔ cur.length % 40 = 0) := by
  fun_induction specLoop sub cur acc with
  | case1 cur acc h0 h =>
    rw [dite_eq_ite, readSpec_eq] at h
    split at h
    · simp; omega
    · cases h
  | case2 cur acc h0 h =>
    rw [dite_eq_ite, readSpec_eq] at h
    split at h <;> cases h
  | case3 cur acc h0 s h ih =>
    rw [dite_eq_ite, readSpec_eq] at h
    split at h
    · cases h
    · rename_i hl
      refine ⟨ih.1, ih.2.trans ?_⟩
      simp only [List.length_drop]
      omega
  | case4 cur acc h0 => simp; omega

theorem chunks (n : ℕ) (cur : Bytes) (h : cur.length = 40 * n) :
    ∃ blocks : List Bytes, (∀ b ∈ blocks, b.length = 40) ∧ cur = blocks.flatten := by
  induction n generalizing cur with
  | zero => exact ⟨[], by simp, by simpa using h⟩
  | succ n ih =>
    obtain ⟨blocks, hb, he⟩ := ih (cur.drop 40) (by rw [List.length_drop]; omega)
    refine ⟨cur.take 40 :: blocks, ?_, ?_⟩
    · intro b hm
      rcases List.mem_cons.1 hm with rfl | hm
      · rw [List.length_take]; omega
      · exact hb b hm
    · simp [← he]

/-! ### C47 -/

theorem parseDfsr_raw (r : Spec.RawDfsr) (h : r.Ok) : parseDfsr r.bytes = .ok r.dfsr := by
  have hl := entryLoop_closed r.entries r.terminator ⟨h.ok, h.inner, h.last⟩ r.blocks.flatten [] 0
  unfold parseDfsr
  rw [Spec.RawDfsr.bytes, Spec.RawDfsr.head, Spec.RawDfsr.all, hl]
  simp only [List.nil_append]
  rw [specLoop_blocks _ _ h.blocks]
  simp only [List.nil_append, Spec.RawDfsr.dfsr, Spec.RawDfsr.all]
  by_cases ho : Spec.One (r.entries ++ [r.terminator]) <;> simp [ho]

/-- C47: a data format specification is accepted exactly if it consists of entry blocks of
the standard, the first of type 0 being the last, and of complete specification blocks
behind it; then these blocks are returned in order, with the layout that the entry of type
16 selects. -/
theorem c47_parse (data : Bytes) (d : Dfsr) :
    parseDfsr data = .ok d ↔ ∃ r : Spec.RawDfsr, r.Ok ∧ data = r.bytes ∧ d = r.dfsr := by
  constructor
  · intro h
    have h' := h
    unfold parseDfsr at h
    split at h
    · cases h
    · cases h
    · rename_i es sub rest he
      obtain ⟨init, term, hc, rfl⟩ := entryLoop_ok _ _ _ he
      split at h
      · cases h
      · cases h
      · rename_i specs hs
        have hm := (specLoop_iff sub rest []).2.1 ⟨_, hs⟩
        obtain ⟨blocks, hb, rfl⟩ := chunks (rest.length / 40) rest (by omega)
        have hok : (Spec.RawDfsr.mk init term blocks).Ok := ⟨hc.ok, hc.inner, hc.last, hb⟩
        refine ⟨⟨init, term, blocks⟩, hok, rfl, ?_⟩
        have := parseDfsr_raw _ hok
        unfold Spec.RawDfsr.bytes Spec.RawDfsr.head Spec.RawDfsr.all at this
        simp only at this
        rw [h'] at this
        cases this
        rfl
  · rintro ⟨r, hr, rfl, rfl⟩
    exact parseDfsr_raw r hr

/-- C47: whatever the record holds, nothing behind it is read: anything else is an
exception. -/
theorem c47_safe (data : Bytes) : parseDfsr data ≠ .overrun := by
  unfold parseDfsr
  split
  · simp
  · rename_i h; exact absurd h (entryLoop_safe _ _ _)
  · split
    · simp
    · rename_i h; exact absurd h (specLoop_iff _ _ _).1
    · simp

theorem flatten_forty (blocks : List Bytes) (h : ∀ b ∈ blocks, b.length = 40) :
    blocks.flatten.length = 40 * blocks.length := by
  induction blocks with
  | nil => rfl
  | cons b blocks ih =>
    rw [List.flatten_cons, List.length_append, h b (by simp), ih (fun c hc => h c (by simp [hc])),
      List.length_cons]
    omega

/-- C47: a specification cut within its entries, or within a specification block, is
rejected. -/
theorem c47_truncated (r : Spec.RawDfsr) (h : r.Ok) (n : ℕ) (hn : n ≤ r.bytes.length)
    (hcut : n < r.head.length ∨ (n - r.head.length) % 40 ≠ 0) :
    parseDfsr (r.bytes.take n) = .throws := by
  match hp : parseDfsr (r.bytes.take n) with
  | .throws => rfl
  | .overrun => exact absurd hp (c47_safe _)
  | .ok d =>
    obtain ⟨q, hq, he, -⟩ := (c47_parse _ _).1 hp
    have h1 := entryLoop_closed r.entries r.terminator ⟨h.ok, h.inner, h.last⟩ r.blocks.flatten [] 0
    have h2 := entryLoop_closed q.entries q.terminator ⟨hq.ok, hq.inner, hq.last⟩
      (q.blocks.flatten ++ r.bytes.drop n) [] 0
    have hb : r.bytes = q.head ++ (q.blocks.flatten ++ r.bytes.drop n) := by
      conv_lhs => rw [← List.take_append_drop n r.bytes, he]
      simp [Spec.RawDfsr.bytes]
    have hb2 : entryLoop r.bytes [] 0 = entryLoop (q.head ++ (q.blocks.flatten ++ r.bytes.drop n)) [] 0 :=
      congrArg (entryLoop · [] 0) hb
    unfold Spec.RawDfsr.head Spec.RawDfsr.all at hb2
    rw [h2] at hb2
    unfold Spec.RawDfsr.bytes Spec.RawDfsr.head Spec.RawDfsr.all at hb2
    rw [h1] at hb2
    simp only [Parsed.ok.injEq, Prod.mk.injEq] at hb2
    have h3 := congrArg List.length hb2.2.2
    have h4 := congrArg List.length he
    have h5 := congrArg List.length hb
    have h6 := flatten_forty _ hq.blocks
    have h7 : r.bytes.length = r.head.length + r.blocks.flatten.length := by
      simp [Spec.RawDfsr.bytes]
    have h8 : q.bytes.length = q.head.length + q.blocks.flatten.length := by
      simp [Spec.RawDfsr.bytes]
    change _ = (_ ++ r.bytes.drop n).length at h3
    simp only [List.length_append, List.length_take, List.length_drop] at h3 h4 h5
    omega

/-- A specification with an entry for the frame size, the subtype 1, and one block. -/
def exDfsr : Spec.RawDfsr where
  entries := [⟨3, 79, [0, 12]⟩, ⟨16, 66, [1]⟩]
  terminator := ⟨0, 66, []⟩
  blocks := [[0x44, 0x45, 0x50, 0x54] ++ List.replicate 18 0x20 ++ [0, 0, 1, 2, 0, 1, 255, 252, 0, 0, 0,
    1, 68, 0x82, 0, 3, 0, 0]]

example : exDfsr.Ok := by
  refine ⟨?_, by decide, by decide, by decide⟩
  intro e he
  simp only [Spec.RawDfsr.all, exDfsr, List.cons_append, List.nil_append, List.mem_cons,
    List.not_mem_nil, or_false] at he
  rcases he with rfl | rfl | rfl
  · exact ⟨by decide, by decide, 2, by decide, by decide⟩
  · exact ⟨by decide, by decide, 1, by decide, by decide⟩
  · exact ⟨by decide, by decide, 1, by decide, by decide⟩

/-- As read: the reserved size −4, one sample, code 68, API codes 258. -/
example : parseDfsr exDfsr.bytes = .ok ⟨
    [⟨3, 2, 79, .i16 12⟩, ⟨16, 1, 66, .byte 1⟩, ⟨0, 0, 66, .none⟩],
    [.sub1 ⟨[0x44, 0x45, 0x50, 0x54], List.replicate 6 0x20, List.replicate 8 0x20,
      List.replicate 4 0x20, 1, -4, 1, 68⟩ 258 [0x82, 0, 3, 0, 0]]⟩ := by decide +kernel

/-- Cut within the block, and within the entries. -/
example : parseDfsr (exDfsr.bytes.take 50) = .throws ∧ parseDfsr (exDfsr.bytes.take 4) = .throws := by
  decide +kernel

theorem flag_eq (b : Byte) (n : ℕ) (h : n < 8) : flag b n = decide (b.toNat / 2 ^ n % 2 = 1) := by
  have hall : ∀ n : Fin 8, ∀ b : Byte, flag b n = decide (b.toNat / 2 ^ n.val % 2 = 1) := by
    decide +kernel
  exact hall ⟨n, h⟩ b

namespace Spec

/-- A bit of a mask, bit 7 of byte 0 being the first. -/
def bit (p : Bytes) (byte n : ℕ) : Bool := decide (octet p byte / 2 ^ n % 2 = 1)

end Spec

/-- C47: the process indicators are the bits of the mask; a mask that is not of 5 bytes is
rejected. -/
theorem c47_indicators (p : Bytes) :
    (p.length ≠ 5 → processIndicators p = .throws) ∧
    (p.length = 5 → processIndicators p = .ok {
      direction := Spec.octet p 0 / 64
      trueVerticalDepth := Spec.bit p 0 5, notOnDepth := Spec.bit p 0 4
      filtered := Spec.bit p 0 3, calibrated := Spec.bit p 0 2, computed := Spec.bit p 0 1
      derived := Spec.bit p 0 0, tool2 := Spec.bit p 1 7, tool1 := Spec.bit p 1 6
      mudcake := Spec.bit p 1 5, lithology := Spec.bit p 1 4, inclinometry := Spec.bit p 1 3
      pressure := Spec.bit p 1 2, holeSize := Spec.bit p 1 1, temperature := Spec.bit p 1 0
      auxiliary := Spec.bit p 2 1, proprietary := Spec.bit p 2 0 }) := by
  constructor
  · intro h
    unfold processIndicators
    split
    · simp at h
    · rfl
  · intro h
    match p, h with
    | [b0, b1, b2, b3, b4], _ =>
      have hd : ∀ b : Byte, ((b &&& (1#8 <<< 7 ||| 1#8 <<< 6)) >>> 6).toNat = b.toNat / 64 := by
        decide +kernel
      have h0 : Spec.octet [b0, b1, b2, b3, b4] 0 = b0.toNat := by
        simp [Spec.octet, Spec.slice, beNat]
      have h1 : Spec.octet [b0, b1, b2, b3, b4] 1 = b1.toNat := by
        simp [Spec.octet, Spec.slice, beNat]
      have h2 : Spec.octet [b0, b1, b2, b3, b4] 2 = b2.toNat := by
        simp [Spec.octet, Spec.slice, beNat]
      simp only [processIndicators, hd, Spec.bit, h0, h1, h2]
      repeat rw [flag_eq _ _ (by omega)]

example : (match processIndicators [0x82, 0, 3, 0, 0] with
    | .ok i => (i.direction, i.computed, i.derived, i.proprietary)
    | _ => (0, false, false, false)) = (2, true, false, true) := by decide

end Dlisio.Lis
