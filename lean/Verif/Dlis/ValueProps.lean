import Verif.Dlis.Value
import Verif.Dlis.TypesProps
import Verif.Dlis.FloatsProps
/-
C09 and the master decoding theorem for all 27 representation codes.
-/
namespace Dlisio.Dlis

/-- The floats that `n` consecutive groups of four bytes denote. -/
def Spec.singles : Nat → Bytes → List (BitVec 32)
  | 0, _ => []
  | n + 1, e => BitVec.ofNat 32 (beNat (e.take 4)) :: Spec.singles n (e.drop 4)

/-- The doubles that `n` consecutive groups of eight bytes denote. -/
def Spec.doubles : Nat → Bytes → List (BitVec 64)
  | 0, _ => []
  | n + 1, e => BitVec.ofNat 64 (beNat (e.take 8)) :: Spec.doubles n (e.drop 8)

/-- `enc` is an encoding of the value `v` in representation code `c` (RP66 V1,
appendix B); the IBM and VAX words are given by `isinglBits`/`vsinglValue`, whose
meaning is the subject of C07 and C08. -/
def Spec.Enc (c : Reprc) (v : Val) (enc : Bytes) : Prop :=
  match c with
  | .fshort => enc.length = 2 ∧ v = .f32v (.num (Spec.fshort (beNat enc)))
  | .fsingl => enc.length = 4 ∧ v = .f32s (Spec.singles 1 enc)
  | .fsing1 => enc.length = 8 ∧ v = .f32s (Spec.singles 2 enc)
  | .fsing2 => enc.length = 12 ∧ v = .f32s (Spec.singles 3 enc)
  | .isingl => enc.length = 4 ∧ v = .f32s [isinglBits (BitVec.ofNat 32 (beNat enc))]
  | .vsingl => enc.length = 4 ∧ v = .f32v (vsinglValue (BitVec.ofNat 32
      (beNat [enc.getD 1 0, enc.getD 0 0, enc.getD 3 0, enc.getD 2 0])))
  | .fdoubl => enc.length = 8 ∧ v = .f64s (Spec.doubles 1 enc)
  | .fdoub1 => enc.length = 16 ∧ v = .f64s (Spec.doubles 2 enc)
  | .fdoub2 => enc.length = 24 ∧ v = .f64s (Spec.doubles 3 enc)
  | .csingl => enc.length = 8 ∧ v = .f32s (Spec.singles 2 enc)
  | .cdoubl => enc.length = 16 ∧ v = .f64s (Spec.doubles 2 enc)
  | .sshort => enc.length = 1 ∧ v = .int 1 (twosComplement 8 (beNat enc))
  | .snorm => enc.length = 2 ∧ v = .int 2 (twosComplement 16 (beNat enc))
  | .slong => enc.length = 4 ∧ v = .int 4 (twosComplement 32 (beNat enc))
  | .ushort => enc.length = 1 ∧ v = .int 1 (beNat enc)
  | .unorm => enc.length = 2 ∧ v = .int 2 (beNat enc)
  | .ulong => enc.length = 4 ∧ v = .int 4 (beNat enc)
  | .uvari => ∃ n : Nat, v = .int 4 n ∧ Spec.Uvari n enc
  | .ident => ∃ s, v = .str s ∧ Spec.Ident s enc
  | .ascii => ∃ s, v = .str s ∧ Spec.Ascii s enc
  | .dtime => enc.length = 8 ∧ v = .dtime
      { Y := beNat (enc.take 1), TZ := beNat ((enc.drop 1).take 1) / 16,
        M := beNat ((enc.drop 1).take 1) % 16, D := beNat ((enc.drop 2).take 1),
        H := beNat ((enc.drop 3).take 1), MN := beNat ((enc.drop 4).take 1),
        S := beNat ((enc.drop 5).take 1), MS := beNat (enc.drop 6) }
  | .origin => ∃ n : Nat, v = .int 4 n ∧ Spec.Uvari n enc
  | .obname => ∃ n : Dlis.Obname, v = .obname n ∧ Spec.Obname n.origin n.copy n.id enc
  | .objref => ∃ x : Dlis.Objref, v = .objref x ∧
      Spec.Objref x.type x.name.origin x.name.copy x.name.id enc
  | .attref => ∃ x : Dlis.Attref, v = .attref x ∧
      Spec.Attref x.type x.name.origin x.name.copy x.name.id x.label enc
  | .status => enc.length = 1 ∧ v = .int 1 (beNat enc)
  | .units => ∃ s, v = .str s ∧ Spec.Ident s enc

theorem readsFixed_pair {α : Type} {f : Decoder α} {n : Nat} {val : Bytes → α}
    (h : Spec.ReadsFixed f n val) :
    Spec.ReadsFixed (pair f) (n + n) (fun e => (val (e.take n), val (e.drop n))) := by
  intro bs v r
  simp only [pair, Option.bind_eq_bind, Option.bind_eq_some_iff]
  constructor
  · rintro ⟨⟨a, ys⟩, h1, ⟨b, zs⟩, h2, h3⟩
    simp only [Option.some.injEq, Prod.mk.injEq] at h3
    obtain ⟨rfl, rfl⟩ := h3
    obtain ⟨e1, l1, rfl, rfl⟩ := (h _ _ _).1 h1
    obtain ⟨e2, l2, rfl, rfl⟩ := (h _ _ _).1 h2
    exact ⟨e1 ++ e2, by simp [l1, l2], by simp, by simp [← l1]⟩
  · rintro ⟨e, hl, rfl, rfl⟩
    refine ⟨(val (e.take n), e.drop n ++ r), (h _ _ _).2 ⟨e.take n, by simp; omega, ?_, rfl⟩,
      (val (e.drop n), r), (h _ _ _).2 ⟨e.drop n, by simp; omega, rfl, rfl⟩, rfl⟩
    rw [← List.append_assoc, List.take_append_drop]

theorem readsFixed_triple {α : Type} {f : Decoder α} {n : Nat} {val : Bytes → α}
    (h : Spec.ReadsFixed f n val) :
    Spec.ReadsFixed (triple f) (n + n + n)
      (fun e => (val (e.take n), val ((e.drop n).take n), val ((e.drop n).drop n))) := by
  intro bs v r
  simp only [triple, Option.bind_eq_bind, Option.bind_eq_some_iff]
  constructor
  · rintro ⟨⟨a, ys⟩, h1, ⟨b, zs⟩, h2, ⟨c, ws⟩, h3, h4⟩
    simp only [Option.some.injEq, Prod.mk.injEq] at h4
    obtain ⟨rfl, rfl⟩ := h4
    obtain ⟨e1, l1, rfl, rfl⟩ := (h _ _ _).1 h1
    obtain ⟨e2, l2, rfl, rfl⟩ := (h _ _ _).1 h2
    obtain ⟨e3, l3, rfl, rfl⟩ := (h _ _ _).1 h3
    refine ⟨e1 ++ (e2 ++ e3), by simp [l1, l2, l3]; omega, by simp, ?_⟩
    have a1 : (e1 ++ (e2 ++ e3)).take n = e1 := by rw [← l1]; simp
    have a2 : (e1 ++ (e2 ++ e3)).drop n = e2 ++ e3 := by rw [← l1]; simp
    have a3 : (e2 ++ e3).take n = e2 := by rw [← l2]; simp
    have a4 : (e2 ++ e3).drop n = e3 := by rw [← l2]; simp
    simp only [a1, a2, a3, a4]
  · rintro ⟨e, hl, rfl, rfl⟩
    refine ⟨(val (e.take n), e.drop n ++ r), (h _ _ _).2 ⟨e.take n, by simp; omega, ?_, rfl⟩,
      (val ((e.drop n).take n), (e.drop n).drop n ++ r),
      (h _ _ _).2 ⟨(e.drop n).take n, by simp; omega, ?_, rfl⟩,
      (val ((e.drop n).drop n), r),
      (h _ _ _).2 ⟨(e.drop n).drop n, by simp; omega, rfl, rfl⟩, rfl⟩
    · rw [← List.append_assoc, List.take_append_drop]
    · rw [← List.append_assoc, List.take_append_drop]

theorem map_readsFixed {α : Type} {f : Decoder α} {n : Nat} {val : Bytes → α}
    (h : Spec.ReadsFixed f n val) (g : α → Val) (bs : Bytes) (v : Val) (r : Bytes) :
    (f bs).map (fun (v, r) => (g v, r)) = some (v, r) ↔
      ∃ enc, (enc.length = n ∧ v = g (val enc)) ∧ bs = enc ++ r := by
  simp only [Option.map_eq_some_iff, Prod.exists, Prod.mk.injEq]
  constructor
  · rintro ⟨a, r', h1, rfl, rfl⟩
    obtain ⟨e, l, rfl, rfl⟩ := (h _ _ _).1 h1
    exact ⟨e, ⟨l, rfl⟩, rfl⟩
  · rintro ⟨e, ⟨l, rfl⟩, rfl⟩
    exact ⟨_, _, (h _ _ _).2 ⟨e, l, rfl, rfl⟩, rfl, rfl⟩

theorem map_reads {α : Type} {f : Decoder α} {P : α → Bytes → Prop}
    (h : ∀ bs v r, f bs = some (v, r) ↔ ∃ enc, P v enc ∧ bs = enc ++ r)
    (g : α → Val) (bs : Bytes) (v : Val) (r : Bytes) :
    (f bs).map (fun (v, r) => (g v, r)) = some (v, r) ↔
      ∃ enc, (∃ a, v = g a ∧ P a enc) ∧ bs = enc ++ r := by
  simp only [Option.map_eq_some_iff, Prod.exists, Prod.mk.injEq]
  constructor
  · rintro ⟨a, r', h1, rfl, rfl⟩
    obtain ⟨e, l, rfl⟩ := (h _ _ _).1 h1
    exact ⟨e, ⟨a, rfl, l⟩, rfl⟩
  · rintro ⟨e, ⟨a, rfl, l⟩, rfl⟩
    exact ⟨_, _, (h _ _ _).2 ⟨e, l, rfl⟩, rfl, rfl⟩

theorem beNat_one (b : Byte) : beNat [b] = b.toNat := by simp [beNat]

/-- Decoding in any representation code yields `v` and cursor `r` exactly when the
buffer is an encoding of `v` followed by `r`. -/
theorem c09_decodeVal (c : Reprc) (bs : Bytes) (v : Val) (r : Bytes) :
    decodeVal c bs = some (v, r) ↔ ∃ enc, Spec.Enc c v enc ∧ bs = enc ++ r := by
  cases c
  case fshort => exact map_readsFixed c06_fshort_reads (fun x => .f32v x) bs v r
  case fsingl =>
    refine (map_readsFixed c02_fsingl_reads (fun x => .f32s [x]) bs v r).trans ?_
    refine exists_congr fun e => and_congr_left fun _ => and_congr_right fun hl => ?_
    simp only [Spec.singles, List.take_of_length_le (show e.length ≤ 4 by omega)]
  case fsing1 =>
    refine (map_readsFixed (readsFixed_pair c02_fsingl_reads)
      (fun x => .f32s [x.1, x.2]) bs v r).trans ?_
    refine exists_congr fun e => and_congr_left fun _ => and_congr_right fun hl => ?_
    simp only [Spec.singles,
      List.take_of_length_le (show (e.drop 4).length ≤ 4 by simp; omega)]
  case fsing2 =>
    refine (map_readsFixed (readsFixed_triple c02_fsingl_reads)
      (fun x => .f32s [x.1, x.2.1, x.2.2]) bs v r).trans ?_
    refine exists_congr fun e => and_congr_left fun _ => and_congr_right fun hl => ?_
    simp only [Spec.singles,
      List.take_of_length_le (show ((e.drop 4).drop 4).length ≤ 4 by simp; omega)]
  case isingl => exact map_readsFixed c07_isingl_reads (fun x => .f32s [x]) bs v r
  case vsingl => exact map_readsFixed c08_vsingl_reads (fun x => .f32v x) bs v r
  case fdoubl =>
    refine (map_readsFixed c02_fdoubl_reads (fun x => .f64s [x]) bs v r).trans ?_
    refine exists_congr fun e => and_congr_left fun _ => and_congr_right fun hl => ?_
    simp only [Spec.doubles, List.take_of_length_le (show e.length ≤ 8 by omega)]
  case fdoub1 =>
    refine (map_readsFixed (readsFixed_pair c02_fdoubl_reads)
      (fun x => .f64s [x.1, x.2]) bs v r).trans ?_
    refine exists_congr fun e => and_congr_left fun _ => and_congr_right fun hl => ?_
    simp only [Spec.doubles,
      List.take_of_length_le (show (e.drop 8).length ≤ 8 by simp; omega)]
  case fdoub2 =>
    refine (map_readsFixed (readsFixed_triple c02_fdoubl_reads)
      (fun x => .f64s [x.1, x.2.1, x.2.2]) bs v r).trans ?_
    refine exists_congr fun e => and_congr_left fun _ => and_congr_right fun hl => ?_
    simp only [Spec.doubles,
      List.take_of_length_le (show ((e.drop 8).drop 8).length ≤ 8 by simp; omega)]
  case csingl =>
    refine (map_readsFixed (readsFixed_pair c02_fsingl_reads)
      (fun x => .f32s [x.1, x.2]) bs v r).trans ?_
    refine exists_congr fun e => and_congr_left fun _ => and_congr_right fun hl => ?_
    simp only [Spec.singles,
      List.take_of_length_le (show (e.drop 4).length ≤ 4 by simp; omega)]
  case cdoubl =>
    refine (map_readsFixed (readsFixed_pair c02_fdoubl_reads)
      (fun x => .f64s [x.1, x.2]) bs v r).trans ?_
    refine exists_congr fun e => and_congr_left fun _ => and_congr_right fun hl => ?_
    simp only [Spec.doubles,
      List.take_of_length_le (show (e.drop 8).length ≤ 8 by simp; omega)]
  case sshort => exact map_readsFixed c02_sshort_reads (fun x => .int 1 x) bs v r
  case snorm => exact map_readsFixed c02_snorm_reads (fun x => .int 2 x) bs v r
  case slong => exact map_readsFixed c02_slong_reads (fun x => .int 4 x) bs v r
  case ushort => exact map_readsFixed c02_ushort_reads (fun x => .int 1 x) bs v r
  case unorm => exact map_readsFixed c02_unorm_reads (fun x => .int 2 x) bs v r
  case ulong => exact map_readsFixed c02_ulong_reads (fun x => .int 4 x) bs v r
  case uvari => exact map_reads c01_uvari_decodes (fun x => .int 4 x) bs v r
  case ident => exact map_reads c03_ident_decodes (fun x => .str x) bs v r
  case ascii => exact map_reads c03_ascii_decodes (fun x => .str x) bs v r
  case dtime =>
    simp only [decodeVal, Option.map_eq_some_iff, Prod.exists, Prod.mk.injEq]
    constructor
    · rintro ⟨t, r', h1, rfl, rfl⟩
      obtain ⟨y, z, d, h, mn, s, m0, m1, rfl, h1, h2, h3, h4, h5, h6, h7, h8⟩ :=
        (c04_dtime_reads _ _ _).1 h1
      refine ⟨_, ⟨rfl, ?_⟩, rfl⟩
      cases t
      simp_all [beNat]
    · rintro ⟨e, ⟨hl, rfl⟩, rfl⟩
      match e, hl with
      | [y, z, d, h, mn, s, m0, m1], _ =>
        refine ⟨_, _, (c04_dtime_reads _ _ _).2
          ⟨y, z, d, h, mn, s, m0, m1, rfl, ?_⟩, rfl, rfl⟩
        simp [beNat]
  case origin => exact map_reads c01_uvari_decodes (fun x => .int 4 x) bs v r
  case obname => exact map_reads c05_obname_decodes (fun x => .obname x) bs v r
  case objref => exact map_reads c05_objref_decodes (fun x => .objref x) bs v r
  case attref => exact map_reads c05_attref_decodes (fun x => .attref x) bs v r
  case status => exact map_readsFixed c02_status_reads (fun x => .int 1 x) bs v r
  case units => exact map_reads c03_units_decodes (fun x => .str x) bs v r

example : decodeVal .obname [0x05#8, 0x01#8, 0x02#8, 0x41#8, 0x42#8, 0x99#8] =
    some (.obname ⟨5, 1, [0x41#8, 0x42#8]⟩, [0x99#8]) :=
  (c09_decodeVal .obname _ _ _).2 ⟨[0x05#8, 0x01#8, 0x02#8, 0x41#8, 0x42#8],
    ⟨⟨5, 1, [0x41#8, 0x42#8]⟩, rfl, [5#8], [2#8, 0x41#8, 0x42#8], 1#8,
      Or.inl ⟨rfl, rfl, by decide⟩, rfl, ⟨2#8, rfl, rfl⟩, rfl⟩, rfl⟩

/-- An encoding is never empty. -/
theorem Spec.Enc.ne_nil {c : Reprc} {v : Val} {enc : Bytes} (h : Spec.Enc c v enc) : enc ≠ [] := by
  rintro rfl
  have hu : ∀ n, ¬ Spec.Uvari n [] := by
    intro n h; simp [Spec.Uvari] at h
  have hi : ∀ s, ¬ Spec.Ident s [] := by
    intro s h; simp [Spec.Ident] at h
  cases c <;> simp [Spec.Enc, hu, hi] at h
  case ascii =>
    obtain ⟨s, _, l, h1, h2⟩ := h
    simp at h2; obtain ⟨rfl, rfl⟩ := h2; exact hu _ h1
  case obname => obtain ⟨n, -, o, i, c, h1, h2, h3, h4⟩ := h; simp at h4
  case objref =>
    obtain ⟨n, -, t, i, h1, h2, h3⟩ := h
    simp at h3; obtain ⟨rfl, rfl⟩ := h3; exact hi _ h1
  case attref =>
    obtain ⟨n, -, t, i, l, h1, h2, h3, h4⟩ := h
    simp at h4; obtain ⟨rfl, rfl, rfl⟩ := h4; exact hi _ h1

/-- A decoder only looks at the bytes it consumes: with the same leading bytes and
any other continuation the value is the same. -/
theorem c09_decodeVal_local (c : Reprc) (bs : Bytes) (v : Val) (r : Bytes)
    (h : decodeVal c bs = some (v, r)) :
    ∃ enc, enc ≠ [] ∧ bs = enc ++ r ∧ ∀ r', decodeVal c (enc ++ r') = some (v, r') := by
  obtain ⟨e, he, rfl⟩ := (c09_decodeVal c bs v r).1 h
  exact ⟨e, he.ne_nil, rfl, fun r' => (c09_decodeVal c _ _ _).2 ⟨e, he, rfl⟩⟩

/-- Every encoding of a type with a declared size has that size. -/
theorem enc_length {c : Reprc} {v : Val} {enc : Bytes} (h : Spec.Enc c v enc)
    (hs : sizeofType c.code ≠ 0) : (enc.length : Int) = sizeofType c.code := by
  cases c <;> simp [Spec.Enc, Reprc.code, sizeofType] at * <;> omega

/-- Every byte string of the declared size is an encoding. -/
theorem enc_of_length {c : Reprc} {enc : Bytes} (hs : sizeofType c.code ≠ 0)
    (hl : (enc.length : Int) = sizeofType c.code) : ∃ v, Spec.Enc c v enc := by
  cases c <;> simp [Reprc.code, sizeofType] at hs hl <;>
    exact ⟨_, by exact_mod_cast hl, rfl⟩

/-- C09, fixed-size types: a type with declared size `n` decodes every `n` bytes, to a
value that does not depend on what follows, moves the cursor by `n`, and needs `n`
bytes. -/
theorem c09_fixed_size (c : Reprc) (n : Nat) (hn : sizeofType c.code = n) (h0 : n ≠ 0) :
    (∀ enc, enc.length = n → ∃ v, ∀ r, decodeVal c (enc ++ r) = some (v, r)) ∧
    (∀ bs, bs.length < n → decodeVal c bs = none) := by
  constructor
  · intro enc hl
    obtain ⟨v, hv⟩ := enc_of_length (c := c) (enc := enc) (by omega) (by omega)
    exact ⟨v, fun r => (c09_decodeVal _ _ _ _).2 ⟨enc, hv, rfl⟩⟩
  · intro bs hl
    match hd : decodeVal c bs with
    | none => rfl
    | some (v, r) =>
      obtain ⟨e, he, rfl⟩ := (c09_decodeVal _ _ _ _).1 hd
      have := enc_length he (by omega)
      simp at hl; omega

example : sizeofType Reprc.fsing2.code = (12 : Nat) ∧ (12 : Nat) ≠ 0 := by decide

/-- C09, variable types: a type is declared variable exactly when two encodings of
it differ in length. -/
theorem c09_variable_size (c : Reprc) :
    sizeofType c.code = 0 ↔
      ∃ e₁ e₂ v₁ v₂, decodeVal c e₁ = some (v₁, []) ∧ decodeVal c e₂ = some (v₂, []) ∧
        e₁.length ≠ e₂.length := by
  constructor
  · intro h
    cases c <;> simp [Reprc.code, sizeofType] at h
    case uvari => exact ⟨[0#8], [0x80#8, 0#8], _, _, rfl, rfl, by decide⟩
    case origin => exact ⟨[0#8], [0x80#8, 0#8], _, _, rfl, rfl, by decide⟩
    case ident => exact ⟨[0#8], [1#8, 65#8], _, _, rfl, rfl, by decide⟩
    case ascii => exact ⟨[0#8], [1#8, 65#8], _, _, rfl, rfl, by decide⟩
    case units => exact ⟨[0#8], [1#8, 65#8], _, _, rfl, rfl, by decide⟩
    case obname => exact ⟨[0#8, 0#8, 0#8], [0#8, 0#8, 1#8, 65#8], _, _, rfl, rfl, by decide⟩
    case objref =>
      exact ⟨[0#8, 0#8, 0#8, 0#8], [0#8, 0#8, 0#8, 1#8, 65#8], _, _, rfl, rfl, by decide⟩
    case attref =>
      exact ⟨[0#8, 0#8, 0#8, 0#8, 0#8], [0#8, 0#8, 0#8, 0#8, 1#8, 65#8], _, _, rfl, rfl, by decide⟩
  · rintro ⟨e₁, e₂, v₁, v₂, h1, h2, hne⟩
    by_contra h0
    obtain ⟨x, hx, e⟩ := (c09_decodeVal _ _ _ _).1 h1
    obtain ⟨y, hy, e'⟩ := (c09_decodeVal _ _ _ _).1 h2
    simp at e e'
    subst e; subst e'
    have := enc_length hx h0
    have := enc_length hy h0
    omega

/-- C09, invalid codes: the size is negative exactly when the number is not one of
the 27 codes; codes, numbers and format characters correspond one to one. -/
theorem c09_invalid_code (x : Int) :
    sizeofType x < 0 ↔ ¬ ∃ c : Reprc, (c.code : Int) = x := by
  constructor
  · rintro h ⟨c, rfl⟩
    cases c <;> simp [Reprc.code, sizeofType] at h
  · intro h
    unfold sizeofType
    split
    · omega
    · next hx =>
      exfalso; apply h
      have : 1 ≤ x ∧ x ≤ 27 := by omega
      obtain ⟨h1, h2⟩ := this
      have hc : ∀ n : Fin 27, ∃ c : Reprc, c.code = n.val + 1 := by
        intro n
        have : ∀ n : Fin 27, ∃ c ∈ Reprc.all, c.code = n.val + 1 := by decide
        obtain ⟨c, -, hc⟩ := this n
        exact ⟨c, hc⟩
      obtain ⟨c, hc⟩ := hc ⟨(x - 1).toNat, by omega⟩
      exact ⟨c, by rw [hc]; simp; omega⟩

theorem ofCode_eq_some (n : Nat) (c : Reprc) : Reprc.ofCode n = some c ↔ c.code = n := by
  constructor
  · intro h
    unfold Reprc.ofCode at h
    split at h <;> first | (cases h; rfl) | cases h
  · rintro rfl; cases c <;> rfl

theorem ofFmtChar_eq_some (x : Char) (c : Reprc) : Reprc.ofFmtChar x = some c ↔ c.fmtChar = x := by
  constructor
  · intro h
    unfold Reprc.ofFmtChar at h
    split at h <;> first | (cases h; rfl) | cases h
  · rintro rfl; cases c <;> rfl

end Dlisio.Dlis
