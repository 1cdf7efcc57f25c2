import Verif.Dlis.TypesLemmas
import Verif.Dlis.TypesSpec
/-
Property theorems C01-C05: integers, strings, dates and references.
-/
namespace Dlisio.Dlis

/-! ## C01 UVARI -/

/-- C01 (decoding).  `dlis_uvari` yields value `v` and cursor `r` exactly when the
buffer is a UVARI encoding of `v` followed by `r`. -/
theorem c01_uvari_decodes (bs : Bytes) (v : Nat) (r : Bytes) :
    uvari bs = some (v, r) ↔ ∃ enc, Spec.Uvari v enc ∧ bs = enc ++ r := by
  constructor
  · intro h
    match bs with
    | [] => simp [uvari] at h
    | a :: bs =>
      by_cases h4 : 192 ≤ a.toNat
      · have hl : uvariLen a = 4 := by rw [uvariLen_eq, if_pos h4]
        match bs with
        | b :: c :: d :: bs =>
          rw [uvari_four _ _ _ _ _ h4] at h
          simp only [Option.some.injEq, Prod.mk.injEq] at h
          obtain ⟨rfl, rfl⟩ := h
          refine ⟨[a, b, c, d], Or.inr (Or.inr ⟨rfl, ?_, ?_⟩), rfl⟩ <;>
            · have := a.isLt
              have := b.isLt
              have := c.isLt
              have := d.isLt
              simp only [beNat, List.length_cons, List.length_nil]
              omega
        | [] => simp [uvari, hl] at h
        | [_] => simp [uvari, hl] at h
        | [_, _] => simp [uvari, hl] at h
      · by_cases h2 : 128 ≤ a.toNat
        · have hl : uvariLen a = 2 := by rw [uvariLen_eq, if_neg h4, if_pos h2]
          match bs with
          | b :: bs =>
            rw [uvari_two _ _ _ h2 (by omega)] at h
            simp only [Option.some.injEq, Prod.mk.injEq] at h
            obtain ⟨rfl, rfl⟩ := h
            refine ⟨[a, b], Or.inr (Or.inl ⟨rfl, ?_, ?_⟩), rfl⟩ <;>
              · have := b.isLt
                simp only [beNat, List.length_cons, List.length_nil]
                omega
          | [] => simp [uvari, hl] at h
        · rw [uvari_one _ _ (by omega)] at h
          simp only [Option.some.injEq, Prod.mk.injEq] at h
          obtain ⟨rfl, rfl⟩ := h
          exact ⟨[a], Or.inl ⟨rfl, by simp [beNat], by omega⟩, rfl⟩
  · rintro ⟨enc, h | h | h, rfl⟩
    · obtain ⟨hl, hv, hlt⟩ := h
      match enc, hl with
      | [a], _ =>
        simp only [beNat, List.length_nil] at hv
        rw [List.singleton_append, uvari_one _ _ (by omega)]
        simp only [Option.some.injEq, Prod.mk.injEq, and_true]; omega
    · obtain ⟨hl, hv, hlt⟩ := h
      match enc, hl with
      | [a, b], _ =>
        have := b.isLt
        simp only [beNat, List.length_cons, List.length_nil] at hv
        simp only [List.cons_append, List.nil_append]
        rw [uvari_two _ _ _ (by omega) (by omega)]
        simp only [beNat, List.length_cons, List.length_nil, Option.some.injEq, Prod.mk.injEq,
          and_true]
        omega
    · obtain ⟨hl, hv, hlt⟩ := h
      match enc, hl with
      | [a, b, c, d], _ =>
        have := b.isLt
        have := c.isLt
        have := d.isLt
        simp only [beNat, List.length_cons, List.length_nil] at hv
        simp only [List.cons_append, List.nil_append]
        rw [uvari_four _ _ _ _ _ (by omega)]
        simp only [beNat, List.length_cons, List.length_nil, Option.some.injEq, Prod.mk.injEq,
          and_true]
        omega

/-- Case: a two-byte UVARI followed by other bytes. -/
example : Spec.Uvari 256 [0x81#8, 0x00#8] ∧ uvari [0x81#8, 0x00#8, 0xFF#8] = some (256, [0xFF#8]) := by
  refine ⟨Or.inr (Or.inl ?_), ?_⟩ <;> decide

/-- The encoder writes a correct UVARI, except for 0x4000..0xBFFF at width ≤ 2. -/
theorem uvario_encodes (x : Nat) (w : Int) (hx : x < 2 ^ 30)
    (hw : ¬ (2 ^ 14 ≤ x ∧ x ≤ 0xBFFF ∧ w ≤ 2)) : Spec.Uvari x (uvario x w) := by
  unfold uvario
  split
  · next h =>
    refine Or.inl ⟨rfl, ?_, by omega⟩
    simp only [beNat, List.length_nil, BitVec.ofInt_natCast, BitVec.toNat_ofNat]
    omega
  · split
    · next h =>
      obtain ⟨a, b, hab⟩ := bytes16 (BitVec.ofInt 16 x ||| 0x8000#16)
      have hn : (BitVec.ofInt 16 (x : Int) ||| 0x8000#16).toNat = 2 * 2 ^ 14 + x := by
        rw [BitVec.toNat_or, BitVec.ofInt_natCast, BitVec.toNat_ofNat,
          Nat.mod_eq_of_lt (by omega), Nat.or_comm]
        exact or_eq_add 1 x 15 (by omega)
      refine Or.inr (Or.inl ?_)
      rw [hab, store16_bswap, ← toNat16, ← hab, hn]
      exact ⟨rfl, rfl, by omega⟩
    · obtain ⟨a, b, c, d, hab⟩ := bytes32 (BitVec.ofInt 32 x ||| 0xC0000000#32)
      have hn : (BitVec.ofInt 32 (x : Int) ||| 0xC0000000#32).toNat = 3 * 2 ^ 30 + x := by
        rw [BitVec.toNat_or, BitVec.ofInt_natCast, BitVec.toNat_ofNat,
          Nat.mod_eq_of_lt (by omega), Nat.or_comm]
        exact or_eq_add 3 x 30 (by omega)
      refine Or.inr (Or.inr ?_)
      rw [hab, store32_bswap, ← toNat32, ← hab, hn]
      exact ⟨rfl, rfl, hx⟩

/-- C01 (round trip), partial: writing a value below 2^30 with any requested width
and reading it back, with anything following, gives the value and the following
bytes.  Missing (and false, see `c01_uvario_width2_defect`): values 0x4000..0xBFFF
written with width 1 or 2. -/
theorem c01_uvari_roundtrip_partial (x : Nat) (w : Int) (r : Bytes) (hx : x < 2 ^ 30)
    (hw : ¬ (2 ^ 14 ≤ x ∧ x ≤ 0xBFFF ∧ w ≤ 2)) :
    uvari (uvario x w ++ r) = some (x, r) :=
  (c01_uvari_decodes _ _ _).2 ⟨_, uvario_encodes x w hx hw, rfl⟩

example : uvari (uvario 300 1 ++ [7#8]) = some (300, [7#8]) :=
  c01_uvari_roundtrip_partial 300 1 [7#8] (by decide) (by decide)

/-- C01, the excluded band is a real defect: for every value in 0x4000..0xBFFF the
2-byte form that the encoder chooses at width ≤ 2 is never read back as that value
with the cursor behind it, whatever bytes follow. -/
theorem c01_uvario_width2_defect (x : Nat) (w : Int) (r : Bytes)
    (h₁ : 2 ^ 14 ≤ x) (h₂ : x ≤ 0xBFFF) (hw : w ≤ 2) :
    uvari (uvario x w ++ r) ≠ some (x, r) := by
  intro h
  obtain ⟨enc, henc, heq⟩ := (c01_uvari_decodes _ _ _).1 h
  rw [uvario, if_neg (by omega), if_pos (by omega)] at heq
  obtain ⟨a, b, hab⟩ := bytes16 (BitVec.ofInt 16 x ||| 0x8000#16)
  have hn : (BitVec.ofInt 16 (x : Int) ||| 0x8000#16).toNat = x % 2 ^ 15 + 2 ^ 15 := by
    rw [BitVec.toNat_or, BitVec.ofInt_natCast, BitVec.toNat_ofNat,
      Nat.mod_eq_of_lt (by omega)]
    rw [Nat.or_comm]
    have h3 : x = x / 2 ^ 15 * 2 ^ 15 + x % 2 ^ 15 := by omega
    have h5 := or_eq_add (x / 2 ^ 15) (x % 2 ^ 15) 15 (by omega)
    have h6 := or_eq_add 1 (x % 2 ^ 15) 15 (by omega)
    have h4 : x / 2 ^ 15 = 0 ∨ x / 2 ^ 15 = 1 := by omega
    rcases h4 with h4 | h4
    · have hx : x % 2 ^ 15 = x := by omega
      rw [hx] at h6 ⊢
      simpa [Nat.add_comm] using h6
    · rw [h4] at h5
      have : x = (1 * 2 ^ 15) ||| (x % 2 ^ 15) := by omega
      conv_lhs => rw [this]
      rw [← Nat.or_assoc]
      have e : (32768#16).toNat ||| 1 * 2 ^ 15 = 1 * 2 ^ 15 := by decide
      rw [e, h6]; omega
  rw [hab, store16_bswap] at heq
  rw [hab, toNat16] at hn
  have ha := a.isLt
  have hb := b.isLt
  simp only [beNat, List.length_cons, List.length_nil] at hn
  rcases henc with ⟨hl, hv, hlt⟩ | ⟨hl, hv, hlt⟩ | ⟨hl, hv, hlt⟩
  · omega
  · omega
  · have := congrArg List.length heq
    simp only [List.length_append, List.length_cons, List.length_nil] at this
    omega

example : (2 ^ 14 ≤ 0x4001 ∧ 0x4001 ≤ 0xBFFF) ∧ uvario 0x4001 2 = [0xC0#8, 0x01#8] := by decide

/-- C01: the number of bytes written never exceeds 4 and is the smallest form that
is at least the requested width (with the encoder's own thresholds). -/
theorem c01_uvario_length (x : Nat) (w : Int) :
    (uvario x w).length = if x ≤ 0x7F ∧ w ≤ 1 then 1 else if x ≤ 0xBFFF ∧ w ≤ 2 then 2 else 4 := by
  have e1 : ((x : Int) ≤ 0x7F ∧ w ≤ 1) ↔ (x ≤ 0x7F ∧ w ≤ 1) := by omega
  have e2 : ((x : Int) ≤ 0xBFFF ∧ w ≤ 2) ↔ (x ≤ 0xBFFF ∧ w ≤ 2) := by omega
  simp only [uvario, e1, e2]
  split
  · rfl
  · split <;> rfl

/-! ## C02 Fixed-width integers -/

theorem c02_ushort_reads : Spec.ReadsFixed ushort 1 beNat := by
  intro bs v r
  constructor
  · intro h
    match bs, h with
    | b :: bs, h =>
      simp only [ushort, Option.some.injEq, Prod.mk.injEq] at h
      obtain ⟨rfl, rfl⟩ := h
      exact ⟨[b], rfl, rfl, by simp [beNat]⟩
  · rintro ⟨enc, hl, rfl, rfl⟩
    match enc, hl with
    | [b], _ => simp [ushort, beNat]

theorem c02_sshort_reads : Spec.ReadsFixed sshort 1 (fun e => twosComplement 8 (beNat e)) := by
  intro bs v r
  constructor
  · intro h
    match bs, h with
    | b :: bs, h =>
      simp only [sshort, Option.some.injEq, Prod.mk.injEq] at h
      obtain ⟨rfl, rfl⟩ := h
      exact ⟨[b], rfl, rfl, by rw [toInt_eq_twosComplement (n := 7)]; simp [beNat]⟩
  · rintro ⟨enc, hl, rfl, rfl⟩
    match enc, hl with
    | [b], _ => simp [sshort, beNat, toInt_eq_twosComplement (n := 7)]

theorem c02_unorm_reads : Spec.ReadsFixed unorm 2 beNat := by
  intro bs v r
  constructor
  · intro h
    match bs, h with
    | a :: b :: bs, h =>
      simp only [unorm, Option.some.injEq, Prod.mk.injEq, bswap16_load, toNat16] at h
      obtain ⟨rfl, rfl⟩ := h
      exact ⟨[a, b], rfl, rfl, rfl⟩
  · rintro ⟨enc, hl, rfl, rfl⟩
    match enc, hl with
    | [a, b], _ => simp [unorm, bswap16_load, toNat16]

theorem c02_snorm_reads : Spec.ReadsFixed snorm 2 (fun e => twosComplement 16 (beNat e)) := by
  intro bs v r
  constructor
  · intro h
    match bs, h with
    | a :: b :: bs, h =>
      simp only [snorm, Option.some.injEq, Prod.mk.injEq, bswap16_load,
        toInt_eq_twosComplement (n := 15), toNat16] at h
      obtain ⟨rfl, rfl⟩ := h
      exact ⟨[a, b], rfl, rfl, rfl⟩
  · rintro ⟨enc, hl, rfl, rfl⟩
    match enc, hl with
    | [a, b], _ => simp [snorm, bswap16_load, toInt_eq_twosComplement (n := 15), toNat16]

theorem c02_ulong_reads : Spec.ReadsFixed ulong 4 beNat := by
  intro bs v r
  constructor
  · intro h
    match bs, h with
    | a :: b :: c :: d :: bs, h =>
      simp only [ulong, Option.some.injEq, Prod.mk.injEq, bswap32_load, toNat32] at h
      obtain ⟨rfl, rfl⟩ := h
      exact ⟨[a, b, c, d], rfl, rfl, rfl⟩
  · rintro ⟨enc, hl, rfl, rfl⟩
    match enc, hl with
    | [a, b, c, d], _ => simp only [ulong, List.cons_append, List.nil_append, bswap32_load, toNat32]

theorem c02_slong_reads : Spec.ReadsFixed slong 4 (fun e => twosComplement 32 (beNat e)) := by
  intro bs v r
  constructor
  · intro h
    match bs, h with
    | a :: b :: c :: d :: bs, h =>
      simp only [slong, Option.some.injEq, Prod.mk.injEq, bswap32_load,
        toInt_eq_twosComplement (n := 31), toNat32] at h
      obtain ⟨rfl, rfl⟩ := h
      exact ⟨[a, b, c, d], rfl, rfl, rfl⟩
  · rintro ⟨enc, hl, rfl, rfl⟩
    match enc, hl with
    | [a, b, c, d], _ =>
      simp only [slong, List.cons_append, List.nil_append, bswap32_load,
        toInt_eq_twosComplement (n := 31), toNat32]

example : slong [0xFF#8, 0xFF#8, 0xFF#8, 0xFE#8, 0x01#8] = some (-2, [0x01#8]) := by decide

/-- C02: status is read as an unsigned byte. -/
theorem c02_status_reads : Spec.ReadsFixed status 1 beNat := c02_ushort_reads

theorem beNat_lt (enc : Bytes) : beNat enc < 256 ^ enc.length := by
  induction enc with
  | nil => simp [beNat]
  | cons b bs ih =>
    have := b.isLt
    simp only [beNat, List.length_cons, Nat.pow_succ]
    have h : b.toNat * 256 ^ bs.length + 256 ^ bs.length ≤ 256 ^ bs.length * 256 := by
      have : (b.toNat + 1) * 256 ^ bs.length ≤ 256 * 256 ^ bs.length :=
        Nat.mul_le_mul_right _ (by omega)
      rw [Nat.add_mul] at this; omega
    omega

/-- A byte string is determined by its length and the number it denotes. -/
theorem beNat_injective (x y : Bytes) (hl : x.length = y.length) (h : beNat x = beNat y) :
    x = y := by
  induction x generalizing y with
  | nil => cases y with
    | nil => rfl
    | cons _ _ => simp at hl
  | cons a x ih => cases y with
    | nil => simp at hl
    | cons b y =>
      simp only [List.length_cons, Nat.add_right_cancel_iff] at hl
      simp only [beNat, hl] at h
      have hx := beNat_lt x
      have hy := beNat_lt y
      rw [hl] at hx
      have hp : 0 < 256 ^ y.length := Nat.pow_pos (by decide)
      have hab : a.toNat = b.toNat := by
        have h1 : (a.toNat * 256 ^ y.length + beNat x) / 256 ^ y.length = a.toNat := by
          rw [Nat.add_comm, Nat.add_mul_div_right _ _ hp, Nat.div_eq_of_lt hx]; omega
        have h2 : (b.toNat * 256 ^ y.length + beNat y) / 256 ^ y.length = b.toNat := by
          rw [Nat.add_comm, Nat.add_mul_div_right _ _ hp, Nat.div_eq_of_lt hy]; omega
        rw [← h1, ← h2, h]
      rw [hab] at h
      rw [BitVec.eq_of_toNat_eq hab, ih y hl (by omega)]

/-- The unsigned encoders write the big-endian digits. -/
theorem c02_ushorto_digits (x : Nat) : (ushorto x).length = 1 ∧ beNat (ushorto x) = x % 2 ^ 8 := by
  simp [ushorto, beNat]

theorem c02_unormo_digits (x : Nat) : (unormo x).length = 2 ∧ beNat (unormo x) = x % 2 ^ 16 := by
  obtain ⟨a, b, h⟩ := bytes16 (BitVec.ofNat 16 x)
  rw [unormo, h, store16_bswap, ← toNat16, ← h]; simp

theorem c02_ulongo_digits (x : Nat) : (ulongo x).length = 4 ∧ beNat (ulongo x) = x % 2 ^ 32 := by
  obtain ⟨a, b, c, d, h⟩ := bytes32 (BitVec.ofNat 32 x)
  rw [ulongo, h, store32_bswap, ← toNat32, ← h]; simp

/-- The signed encoders write the digits of the two's complement. -/
theorem c02_sshorto_digits (x : Int) :
    (sshorto x).length = 1 ∧ (beNat (sshorto x) : Int) = x % 2 ^ 8 := by
  simp only [sshorto, beNat, List.length_cons, List.length_nil, BitVec.toNat_ofInt]
  refine ⟨trivial, ?_⟩; omega

theorem c02_snormo_digits (x : Int) :
    (snormo x).length = 2 ∧ (beNat (snormo x) : Int) = x % 2 ^ 16 := by
  obtain ⟨a, b, h⟩ := bytes16 (BitVec.ofInt 16 x)
  rw [snormo, h, store16_bswap, ← toNat16, ← h, BitVec.toNat_ofInt]
  refine ⟨rfl, ?_⟩; omega

theorem c02_slongo_digits (x : Int) :
    (slongo x).length = 4 ∧ (beNat (slongo x) : Int) = x % 2 ^ 32 := by
  obtain ⟨a, b, c, d, h⟩ := bytes32 (BitVec.ofInt 32 x)
  rw [slongo, h, store32_bswap, ← toNat32, ← h, BitVec.toNat_ofInt]
  refine ⟨rfl, ?_⟩; omega

/-- C02 round trips: decode after encode. -/
theorem c02_unsigned_roundtrip (r : Bytes) :
    (∀ x, x < 2 ^ 8 → ushort (ushorto x ++ r) = some (x, r)) ∧
    (∀ x, x < 2 ^ 16 → unorm (unormo x ++ r) = some (x, r)) ∧
    (∀ x, x < 2 ^ 32 → ulong (ulongo x ++ r) = some (x, r)) := by
  refine ⟨fun x h => ?_, fun x h => ?_, fun x h => ?_⟩
  · exact (c02_ushort_reads _ _ _).2
      ⟨_, (c02_ushorto_digits x).1, rfl, by rw [(c02_ushorto_digits x).2, Nat.mod_eq_of_lt h]⟩
  · exact (c02_unorm_reads _ _ _).2
      ⟨_, (c02_unormo_digits x).1, rfl, by rw [(c02_unormo_digits x).2, Nat.mod_eq_of_lt h]⟩
  · exact (c02_ulong_reads _ _ _).2
      ⟨_, (c02_ulongo_digits x).1, rfl, by rw [(c02_ulongo_digits x).2, Nat.mod_eq_of_lt h]⟩

theorem c02_signed_roundtrip (r : Bytes) :
    (∀ x : Int, -2 ^ 7 ≤ x → x < 2 ^ 7 → sshort (sshorto x ++ r) = some (x, r)) ∧
    (∀ x : Int, -2 ^ 15 ≤ x → x < 2 ^ 15 → snorm (snormo x ++ r) = some (x, r)) ∧
    (∀ x : Int, -2 ^ 31 ≤ x → x < 2 ^ 31 → slong (slongo x ++ r) = some (x, r)) := by
  refine ⟨fun x h h' => ?_, fun x h h' => ?_, fun x h h' => ?_⟩
  · refine (c02_sshort_reads _ _ _).2 ⟨_, (c02_sshorto_digits x).1, rfl, ?_⟩
    have := (c02_sshorto_digits x).2
    simp only [twosComplement]; split <;> omega
  · refine (c02_snorm_reads _ _ _).2 ⟨_, (c02_snormo_digits x).1, rfl, ?_⟩
    have := (c02_snormo_digits x).2
    simp only [twosComplement]; split <;> omega
  · refine (c02_slong_reads _ _ _).2 ⟨_, (c02_slongo_digits x).1, rfl, ?_⟩
    have := (c02_slongo_digits x).2
    simp only [twosComplement]; split <;> omega

/-- C02: encode after decode reproduces the bytes, for every buffer. -/
theorem c02_encode_decode (bs r : Bytes) :
    (∀ x, ushort bs = some (x, r) → ushorto x ++ r = bs) ∧
    (∀ x, unorm bs = some (x, r) → unormo x ++ r = bs) ∧
    (∀ x, ulong bs = some (x, r) → ulongo x ++ r = bs) ∧
    (∀ x, sshort bs = some (x, r) → sshorto x ++ r = bs) ∧
    (∀ x, snorm bs = some (x, r) → snormo x ++ r = bs) ∧
    (∀ x, slong bs = some (x, r) → slongo x ++ r = bs) := by
  refine ⟨?_, ?_, ?_, ?_, ?_, ?_⟩ <;> intro x h
  · obtain ⟨e, hl, rfl, rfl⟩ := (c02_ushort_reads _ _ _).1 h
    have hd := c02_ushorto_digits (beNat e)
    have hlt := beNat_lt e
    rw [hl] at hlt
    rw [beNat_injective _ e (by rw [hd.1, hl]) (hd.2.trans (by omega))]
  · obtain ⟨e, hl, rfl, rfl⟩ := (c02_unorm_reads _ _ _).1 h
    have hd := c02_unormo_digits (beNat e)
    have hlt := beNat_lt e
    rw [hl] at hlt
    rw [beNat_injective _ e (by rw [hd.1, hl]) (hd.2.trans (by omega))]
  · obtain ⟨e, hl, rfl, rfl⟩ := (c02_ulong_reads _ _ _).1 h
    have hd := c02_ulongo_digits (beNat e)
    have hlt := beNat_lt e
    rw [hl] at hlt
    rw [beNat_injective _ e (by rw [hd.1, hl]) (hd.2.trans (by omega))]
  · obtain ⟨e, hl, rfl, rfl⟩ := (c02_sshort_reads _ _ _).1 h
    have hd := c02_sshorto_digits (twosComplement 8 (beNat e))
    have hlt := beNat_lt e
    rw [hl] at hlt
    have h2 : beNat (sshorto (twosComplement 8 (beNat e))) = beNat e := by
      have h2 := hd.2
      generalize beNat (sshorto _) = y at h2 ⊢
      unfold twosComplement at h2
      split at h2 <;> omega
    have h3 := beNat_injective _ e (by rw [hd.1, hl]) h2
    simp only [h3]
  · obtain ⟨e, hl, rfl, rfl⟩ := (c02_snorm_reads _ _ _).1 h
    have hd := c02_snormo_digits (twosComplement 16 (beNat e))
    have hlt := beNat_lt e
    rw [hl] at hlt
    have h2 : beNat (snormo (twosComplement 16 (beNat e))) = beNat e := by
      have h2 := hd.2
      generalize beNat (snormo _) = y at h2 ⊢
      unfold twosComplement at h2
      split at h2 <;> omega
    have h3 := beNat_injective _ e (by rw [hd.1, hl]) h2
    simp only [h3]
  · obtain ⟨e, hl, rfl, rfl⟩ := (c02_slong_reads _ _ _).1 h
    have hd := c02_slongo_digits (twosComplement 32 (beNat e))
    have hlt := beNat_lt e
    rw [hl] at hlt
    have h2 : beNat (slongo (twosComplement 32 (beNat e))) = beNat e := by
      have h2 := hd.2
      generalize beNat (slongo _) = y at h2 ⊢
      unfold twosComplement at h2
      split at h2 <;> omega
    have h3 := beNat_injective _ e (by rw [hd.1, hl]) h2
    simp only [h3]

example : snorm (snormo (-300) ++ [1#8]) = some (-300, [1#8]) :=
  (c02_signed_roundtrip [1#8]).2.1 (-300) (by decide) (by decide)

/-- C02: IEEE floats are read as their big-endian bit pattern and written back
unchanged. -/
theorem c02_fsingl_reads :
    Spec.ReadsFixed fsingl 4 (fun e => BitVec.ofNat 32 (beNat e)) := by
  intro bs v r
  constructor
  · intro h
    match bs, h with
    | a :: b :: c :: d :: bs, h =>
      simp only [fsingl, Option.some.injEq, Prod.mk.injEq, bswap32_load] at h
      obtain ⟨rfl, rfl⟩ := h
      exact ⟨[a, b, c, d], rfl, rfl, by simp [← toNat32]⟩
  · rintro ⟨enc, hl, rfl, rfl⟩
    match enc, hl with
    | [a, b, c, d], _ => simp [fsingl, bswap32_load, ← toNat32]

theorem c02_fdoubl_reads :
    Spec.ReadsFixed fdoubl 8 (fun e => BitVec.ofNat 64 (beNat e)) := by
  intro bs v r
  constructor
  · intro h
    match bs, h with
    | a :: b :: c :: d :: e :: f :: g :: i :: bs, h =>
      simp only [fdoubl, Option.some.injEq, Prod.mk.injEq, bswap64_load] at h
      obtain ⟨rfl, rfl⟩ := h
      exact ⟨[a, b, c, d, e, f, g, i], rfl, rfl, by simp [← toNat64]⟩
  · rintro ⟨enc, hl, rfl, rfl⟩
    match enc, hl with
    | [a, b, c, d, e, f, g, i], _ => simp [fdoubl, bswap64_load, ← toNat64]

theorem fsingl_fsinglo (x : BitVec 32) (r : Bytes) : fsingl (fsinglo x ++ r) = some (x, r) := by
  obtain ⟨a, b, c, d, rfl⟩ := bytes32 x
  rw [fsinglo, store32_bswap]
  simp [fsingl, bswap32_load]

theorem fdoubl_fdoublo (x : BitVec 64) (r : Bytes) : fdoubl (fdoublo x ++ r) = some (x, r) := by
  obtain ⟨a, b, c, d, e, f, g, h, rfl⟩ := bytes64 x
  rw [fdoublo, store64_bswap]
  simp [fdoubl, bswap64_load]

/-- C02: round trips of all IEEE types (including validated and complex pairs). -/
theorem c02_ieee_roundtrip (r : Bytes) :
    (∀ x, fsingl (fsinglo x ++ r) = some (x, r)) ∧
    (∀ x, fsing1 (fsing1o x ++ r) = some (x, r)) ∧
    (∀ x, fsing2 (fsing2o x ++ r) = some (x, r)) ∧
    (∀ x, csingl (csinglo x ++ r) = some (x, r)) ∧
    (∀ x, fdoubl (fdoublo x ++ r) = some (x, r)) ∧
    (∀ x, fdoub1 (fdoub1o x ++ r) = some (x, r)) ∧
    (∀ x, fdoub2 (fdoub2o x ++ r) = some (x, r)) ∧
    (∀ x, cdoubl (cdoublo x ++ r) = some (x, r)) := by
  refine ⟨?_, ?_, ?_, ?_, ?_, ?_, ?_, ?_⟩ <;> intro x <;>
    simp [fsing1, fsing2, csingl, fdoub1, fdoub2, cdoubl, pair, triple, fsing1o, fsing2o, csinglo,
      fdoub1o, fdoub2o, cdoublo, List.append_assoc, fsingl_fsinglo, fdoubl_fdoublo]

/-! ## C03 Strings -/

theorem c03_ident_decodes (bs s r : Bytes) :
    ident bs = some (s, r) ↔ ∃ enc, Spec.Ident s enc ∧ bs = enc ++ r := by
  constructor
  · intro h
    match bs, h with
    | b :: bs, h =>
      simp only [ident, ushort, Option.bind_eq_bind, Option.bind_some] at h
      obtain ⟨rfl, hl⟩ := takeN_eq_some h
      exact ⟨b :: s, ⟨b, hl.symm, rfl⟩, rfl⟩
  · rintro ⟨enc, ⟨b, hb, rfl⟩, rfl⟩
    simp [ident, ushort, takeN_append' s r hb.symm]

theorem c03_units_decodes (bs s r : Bytes) :
    units bs = some (s, r) ↔ ∃ enc, Spec.Ident s enc ∧ bs = enc ++ r :=
  c03_ident_decodes bs s r

theorem c03_ascii_decodes (bs s r : Bytes) :
    ascii bs = some (s, r) ↔ ∃ enc, Spec.Ascii s enc ∧ bs = enc ++ r := by
  constructor
  · intro h
    simp only [ascii, Option.bind_eq_bind, Option.bind_eq_some_iff] at h
    obtain ⟨⟨ln, xs⟩, h1, h2⟩ := h
    obtain ⟨enc, he, rfl⟩ := (c01_uvari_decodes _ _ _).1 h1
    obtain ⟨rfl, hl⟩ := takeN_eq_some h2
    exact ⟨enc ++ s, ⟨enc, hl ▸ he, rfl⟩, by simp⟩
  · rintro ⟨enc, ⟨l, hl, rfl⟩, rfl⟩
    have h1 : uvari (l ++ (s ++ r)) = some (s.length, s ++ r) :=
      (c01_uvari_decodes _ _ _).2 ⟨l, hl, rfl⟩
    simp [ascii, h1, takeN_append]

theorem idento_encodes (s : Bytes) (h : s.length < 256) : Spec.Ident s (idento s) := by
  refine ⟨BitVec.ofNat 8 s.length, ?_, ?_⟩
  · simp [Nat.mod_eq_of_lt h]
  · simp [idento, ushorto, Nat.mod_eq_of_lt h]

/-- C03: round trip of IDENT, UNITS and ASCII with any continuation. -/
theorem c03_string_roundtrip (s r : Bytes) :
    (s.length < 256 → ident (idento s ++ r) = some (s, r)) ∧
    (s.length < 256 → units (unitso s ++ r) = some (s, r)) ∧
    (∀ w, s.length < 2 ^ 30 → (2 < w ∨ s.length < 2 ^ 14) → ascii (asciio s w ++ r) = some (s, r)) := by
  refine ⟨fun h => ?_, fun h => ?_, fun w h hw => ?_⟩
  · exact (c03_ident_decodes _ _ _).2 ⟨_, idento_encodes s h, rfl⟩
  · exact (c03_ident_decodes _ _ _).2 ⟨_, idento_encodes s h, rfl⟩
  · exact (c03_ascii_decodes _ _ _).2
      ⟨_, ⟨_, uvario_encodes s.length w h (by omega), rfl⟩, rfl⟩

example : ascii (asciio (List.replicate 200 65#8) 1 ++ [9#8]) =
    some (List.replicate 200 65#8, [9#8]) :=
  (c03_string_roundtrip _ _).2.2 1 (by rw [List.length_replicate]; omega)
    (by rw [List.length_replicate]; omega)

/-! ## C04 DTIME -/

/-- C04 (reading): exactly eight bytes, fields at their positions, time zone and
month are the two hexadecimal digits of the second byte. -/
theorem c04_dtime_reads (bs : Bytes) (t : DTime) (r : Bytes) :
    dtime bs = some (t, r) ↔
      ∃ y tzm d h mn s m0 m1 : Byte, bs = [y, tzm, d, h, mn, s, m0, m1] ++ r ∧
        t.Y = y.toNat ∧ t.TZ = tzm.toNat / 16 ∧ t.M = tzm.toNat % 16 ∧ t.D = d.toNat ∧
        t.H = h.toNat ∧ t.MN = mn.toNat ∧ t.S = s.toNat ∧ t.MS = m0.toNat * 256 + m1.toNat := by
  have hm : ∀ x : Byte, (x &&& 0x0F#8).toNat = x.toNat % 16 := by decide +kernel
  have hz : ∀ x : Byte, ((x &&& 0xF0#8) >>> 4).toNat = x.toNat / 16 := by decide +kernel
  have hs : ∀ a b : Byte, (bswap16 (load16 a b)).toNat = a.toNat * 256 + b.toNat := by
    intro a b; rw [bswap16_load, toNat16]; simp [beNat]
  constructor
  · intro h
    match bs, h with
    | x0 :: x1 :: x2 :: x3 :: x4 :: x5 :: m0 :: m1 :: bs, h =>
      simp only [dtime, Option.some.injEq, Prod.mk.injEq] at h
      obtain ⟨rfl, rfl⟩ := h
      exact ⟨x0, x1, x2, x3, x4, x5, m0, m1, rfl, rfl, hz _, hm _, rfl, rfl, rfl, rfl, hs _ _⟩
  · rintro ⟨y, tzm, d, h, mn, s, m0, m1, rfl, h1, h2, h3, h4, h5, h6, h7, h8⟩
    cases t
    simp only at h1 h2 h3 h4 h5 h6 h7 h8
    subst h1 h2 h3 h4 h5 h6 h7 h8
    simp [dtime, hm, hz, hs]

/-- C04: write then read, for every date whose fields fit their bit fields. -/
theorem c04_dtime_roundtrip (t : DTime) (r : Bytes)
    (hY : t.Y < 256) (hTZ : t.TZ < 16) (hM : t.M < 16) (hD : t.D < 256) (hH : t.H < 256)
    (hMN : t.MN < 256) (hS : t.S < 256) (hMS : t.MS < 65536) :
    dtime (dtimeo t ++ r) = some (t, r) := by
  obtain ⟨m0, m1, hm⟩ := bytes16 (BitVec.ofNat 16 t.MS)
  have hmv : t.MS = m0.toNat * 256 + m1.toNat := by
    have h := toNat16 m0 m1
    rw [← hm, BitVec.toNat_ofNat, Nat.mod_eq_of_lt hMS] at h
    simpa [beNat] using h
  have htz : ((BitVec.ofNat 8 t.TZ <<< 4) ||| BitVec.ofNat 8 t.M).toNat = t.TZ * 16 + t.M := by
    rw [BitVec.toNat_or, BitVec.toNat_shiftLeft, BitVec.toNat_ofNat, BitVec.toNat_ofNat,
      Nat.shiftLeft_eq]
    have := or_eq_add t.TZ t.M 4 (by omega)
    rw [Nat.mod_eq_of_lt (by omega : t.TZ < 2 ^ 8), Nat.mod_eq_of_lt (by omega : t.M < 2 ^ 8),
      Nat.mod_eq_of_lt (by omega), this]
  rw [c04_dtime_reads]
  refine ⟨BitVec.ofNat 8 t.Y, (BitVec.ofNat 8 t.TZ <<< 4) ||| BitVec.ofNat 8 t.M, BitVec.ofNat 8 t.D, BitVec.ofNat 8 t.H, BitVec.ofNat 8 t.MN,
    BitVec.ofNat 8 t.S, m0, m1, ?_, ?_, ?_, ?_, ?_, ?_, ?_, ?_, hmv⟩
  · rw [dtimeo, hm, store16_bswap]; rfl
  all_goals first
    | (simp; omega)
    | (rw [htz]; omega)

/-- C04: read then write reproduces the eight bytes. -/
theorem c04_dtime_encode_decode (bs r : Bytes) (t : DTime) (h : dtime bs = some (t, r)) :
    dtimeo t ++ r = bs := by
  obtain ⟨y, tzm, d, h, mn, s, m0, m1, rfl, h1, h2, h3, h4, h5, h6, h7, h8⟩ :=
    (c04_dtime_reads _ _ _).1 h
  have hms : BitVec.ofNat 16 t.MS = m0 ++ m1 := by
    apply BitVec.eq_of_toNat_eq
    rw [toNat16, h8, BitVec.toNat_ofNat]
    have := m0.isLt
    have := m1.isLt
    simp only [beNat, List.length_cons, List.length_nil]; omega
  have htz : (BitVec.ofNat 8 t.TZ <<< 4) ||| BitVec.ofNat 8 t.M = tzm := by
    have key : ∀ b : Byte, (BitVec.ofNat 8 (b.toNat / 16) <<< 4) |||
        BitVec.ofNat 8 (b.toNat % 16) = b := by decide +kernel
    rw [h2, h3, key]
  rw [dtimeo, hms, store16_bswap, htz, h1, h4, h5, h6, h7]
  simp

/-- C04: calendar year and stored year are inverse. -/
theorem c04_year_inverse (y : Int) : year (yearo y) = y ∧ yearo (year y) = y := by
  unfold year yearo; omega

example : dtime (dtimeo ⟨117, 2, 12, 24, 18, 30, 59, 999⟩ ++ [1#8]) =
    some (⟨117, 2, 12, 24, 18, 30, 59, 999⟩, [1#8]) :=
  c04_dtime_roundtrip _ _ (by decide) (by decide) (by decide) (by decide) (by decide) (by decide)
    (by decide) (by decide)

/-! ## C05 Object references -/

theorem c05_obname_decodes (bs : Bytes) (n : Obname) (r : Bytes) :
    obname bs = some (n, r) ↔ ∃ enc, Spec.Obname n.origin n.copy n.id enc ∧ bs = enc ++ r := by
  constructor
  · intro h
    simp only [obname, origin, Option.bind_eq_bind, Option.bind_eq_some_iff, Option.some.injEq,
      Prod.mk.injEq] at h
    obtain ⟨⟨o, x1⟩, h1, ⟨c, x2⟩, h2, ⟨i, x3⟩, h3, rfl, rfl⟩ := h
    obtain ⟨eo, ho, rfl⟩ := (c01_uvari_decodes _ _ _).1 h1
    obtain ⟨ei, hi, rfl⟩ := (c03_ident_decodes _ _ _).1 h3
    match x1, h2 with
    | b :: x1, h2 =>
      simp only [ushort, Option.some.injEq, Prod.mk.injEq] at h2
      obtain ⟨rfl, rfl⟩ := h2
      exact ⟨eo ++ b :: ei, ⟨eo, ei, b, ho, rfl, hi, rfl⟩, by simp⟩
  · rintro ⟨enc, ⟨o, i, c, ho, hc, hi, rfl⟩, rfl⟩
    have h1 : uvari (o ++ (c :: i ++ r)) = some (n.origin, c :: i ++ r) :=
      (c01_uvari_decodes _ _ _).2 ⟨o, ho, rfl⟩
    have h3 : ident (i ++ r) = some (n.id, r) := (c03_ident_decodes _ _ _).2 ⟨i, hi, rfl⟩
    simp only [List.cons_append] at h1
    simp [obname, origin, h1, ushort, h3, hc]

theorem c05_objref_decodes (bs : Bytes) (x : Objref) (r : Bytes) :
    objref bs = some (x, r) ↔
      ∃ enc, Spec.Objref x.type x.name.origin x.name.copy x.name.id enc ∧ bs = enc ++ r := by
  constructor
  · intro h
    simp only [objref, Option.bind_eq_bind, Option.bind_eq_some_iff, Option.some.injEq,
      Prod.mk.injEq] at h
    obtain ⟨⟨t, x1⟩, h1, ⟨n, x2⟩, h2, rfl, rfl⟩ := h
    obtain ⟨et, ht, rfl⟩ := (c03_ident_decodes _ _ _).1 h1
    obtain ⟨en, hn, rfl⟩ := (c05_obname_decodes _ _ _).1 h2
    exact ⟨et ++ en, ⟨et, en, ht, hn, rfl⟩, by simp⟩
  · rintro ⟨enc, ⟨t, n, ht, hn, rfl⟩, rfl⟩
    have h1 : ident (t ++ (n ++ r)) = some (x.type, n ++ r) :=
      (c03_ident_decodes _ _ _).2 ⟨t, ht, rfl⟩
    have h2 : obname (n ++ r) = some (x.name, r) := (c05_obname_decodes _ _ _).2 ⟨n, hn, rfl⟩
    simp [objref, h1, h2]

theorem c05_attref_decodes (bs : Bytes) (x : Attref) (r : Bytes) :
    attref bs = some (x, r) ↔
      ∃ enc, Spec.Attref x.type x.name.origin x.name.copy x.name.id x.label enc ∧
        bs = enc ++ r := by
  constructor
  · intro h
    simp only [attref, Option.bind_eq_bind, Option.bind_eq_some_iff, Option.some.injEq,
      Prod.mk.injEq] at h
    obtain ⟨⟨t, x1⟩, h1, ⟨n, x2⟩, h2, ⟨l, x3⟩, h3, rfl, rfl⟩ := h
    obtain ⟨et, ht, rfl⟩ := (c03_ident_decodes _ _ _).1 h1
    obtain ⟨en, hn, rfl⟩ := (c05_obname_decodes _ _ _).1 h2
    obtain ⟨el, hl, rfl⟩ := (c03_ident_decodes _ _ _).1 h3
    exact ⟨et ++ en ++ el, ⟨et, en, el, ht, hn, hl, rfl⟩, by simp⟩
  · rintro ⟨enc, ⟨t, n, l, ht, hn, hl, rfl⟩, rfl⟩
    have h1 : ident (t ++ (n ++ (l ++ r))) = some (x.type, n ++ (l ++ r)) :=
      (c03_ident_decodes _ _ _).2 ⟨t, ht, rfl⟩
    have h2 : obname (n ++ (l ++ r)) = some (x.name, l ++ r) :=
      (c05_obname_decodes _ _ _).2 ⟨n, hn, rfl⟩
    have h3 : ident (l ++ r) = some (x.label, r) := (c03_ident_decodes _ _ _).2 ⟨l, hl, rfl⟩
    simp [attref, h1, h2, h3]

theorem obnameo_encodes (n : Obname) (ho : n.origin < 2 ^ 30) (hc : n.copy < 256)
    (hi : n.id.length < 256) : Spec.Obname n.origin n.copy n.id (obnameo n) :=
  ⟨_, _, BitVec.ofNat 8 n.copy, uvario_encodes n.origin 4 ho (by omega),
    by simp [Nat.mod_eq_of_lt hc], idento_encodes _ hi, by simp [obnameo, origino, ushorto]⟩

/-- C05: references survive writing and reading, for all fields in range. -/
theorem c05_reference_roundtrip (n : Obname) (type label r : Bytes)
    (ho : n.origin < 2 ^ 30) (hc : n.copy < 256) (hi : n.id.length < 256)
    (ht : type.length < 256) (hl : label.length < 256) :
    obname (obnameo n ++ r) = some (n, r) ∧
    objref (objrefo ⟨type, n⟩ ++ r) = some (⟨type, n⟩, r) ∧
    attref (attrefo ⟨type, n, label⟩ ++ r) = some (⟨type, n, label⟩, r) := by
  have hn := obnameo_encodes n ho hc hi
  refine ⟨(c05_obname_decodes _ _ _).2 ⟨_, hn, rfl⟩, (c05_objref_decodes _ _ _).2 ⟨_, ?_, rfl⟩,
    (c05_attref_decodes _ _ _).2 ⟨_, ?_, rfl⟩⟩
  · exact ⟨_, _, idento_encodes type ht, hn, rfl⟩
  · exact ⟨_, _, _, idento_encodes type ht, hn, idento_encodes label hl, rfl⟩

example : obname (obnameo ⟨70000, 3, [65#8, 66#8]⟩ ++ [0#8]) =
    some (⟨70000, 3, [65#8, 66#8]⟩, [0#8]) :=
  (c05_reference_roundtrip _ [] [] _ (by decide) (by decide) (by decide) (by decide)
    (by decide)).1

end Dlisio.Dlis
