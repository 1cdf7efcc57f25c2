/-
Decoding of strings: `decode_str`, python/dlisio/ext/core.cpp:79-112, and the reverse
conversion of function arguments.

The user-supplied encodings are functions: `PyUnicode_Decode` with the name of a codec is
`none` if the codec does not exist or does not accept the bytes.
-/
import Verif.Py
import Verif.Utf8

namespace Dlisio

/-- What Python gets for a string: `str` or `bytes`. -/
inductive PyStr where
  | str (t : Text)
  | bytes (b : Bytes)
deriving DecidableEq

/-- `PyUnicode_Decode(s, size, name, "strict")` for a fixed name. -/
abbrev Encoding := Bytes → Option Text

/-- What `src.c_str()` denotes for a function that takes a C string: everything up to the
first NUL. -/
def cStr (src : Bytes) : Bytes := src.takeWhile (fun b => decide (b ≠ 0))

/-- The loop over the encodings, core.cpp:84-94. -/
def tryEncodings : List Encoding → Bytes → Option Text
  | [], _ => none
  | enc :: encs, src =>
    match enc src with
    | some t => some t
    | none => tryEncodings encs src

/-- `decode_str`, core.cpp:79-112: the value (`none` for an exception) and whether a
`UnicodeWarning` was issued. `strict` says that the warning filter turns warnings into
exceptions. -/
def decodeStr (encs : List Encoding) (strict : Bool) (src : Bytes) : Option PyStr × Bool :=
  match utf8Decode (cStr src) with
  | some t => (some (.str t), false)
  | none =>
    match tryEncodings encs src with
    | some t => (some (.str t), false)
    | none => if strict then (none, true) else (some (.bytes src), true)

/-- The bytes of the UTF-8 encoding of a code point. -/
def utf8Bytes (c : Nat) : Bytes := (Spec.utf8Char c).map (BitVec.ofNat 8)

/-- pybind11's conversion of an argument to `std::string`: UTF-8 for `str` (which has no
surrogates), the same bytes for `bytes`. -/
def PyStr.toStd : PyStr → Bytes
  | .str t => t.flatMap utf8Bytes
  | .bytes b => b

/-! ### C56 -/

theorem cStr_eq_self {src : Bytes} (h : 0 ∉ src) : cStr src = src := by
  unfold cStr
  induction src with
  | nil => rfl
  | cons b bs ih =>
    have hb : b ≠ 0 := by rintro rfl; exact h (by simp)
    rw [List.takeWhile_cons_of_pos (by simpa using hb), ih (fun h' => h (List.mem_cons_of_mem _ h'))]

theorem tryEncodings_eq_some (encs : List Encoding) (src : Bytes) (t : Text) :
    tryEncodings encs src = some t ↔
      ∃ pre enc post, encs = pre ++ enc :: post ∧ (∀ e ∈ pre, e src = none) ∧ enc src = some t := by
  induction encs with
  | nil => simp [tryEncodings]
  | cons e encs ih =>
    rw [tryEncodings]
    cases he : e src with
    | some t' =>
      simp only [Option.some.injEq]
      constructor
      · rintro rfl; exact ⟨[], e, encs, rfl, by simp, he⟩
      · rintro ⟨pre, enc, post, h1, h2, h3⟩
        cases pre with
        | nil => simp at h1; rw [h1.1, h3] at he; simpa using he.symm
        | cons x pre =>
          simp at h1
          have := h2 x (by simp)
          rw [← h1.1, he] at this
          cases this
    | none =>
      simp only [ih]
      constructor
      · rintro ⟨pre, enc, post, rfl, h2, h3⟩
        refine ⟨e :: pre, enc, post, rfl, ?_, h3⟩
        intro x hx
        rcases List.mem_cons.1 hx with rfl | hx
        · exact he
        · exact h2 x hx
      · rintro ⟨pre, enc, post, h1, h2, h3⟩
        cases pre with
        | nil => simp at h1; rw [h1.1, h3] at he; cases he
        | cons x pre =>
          simp at h1
          exact ⟨pre, enc, post, h1.2, fun y hy => h2 y (by simp [hy]), h3⟩

theorem tryEncodings_eq_none (encs : List Encoding) (src : Bytes) :
    tryEncodings encs src = none ↔ ∀ e ∈ encs, e src = none := by
  induction encs with
  | nil => simp [tryEncodings]
  | cons e encs ih =>
    rw [tryEncodings]
    cases he : e src <;> simp [ih, he]

/-- C56: a string without NUL that is UTF-8 becomes the text that it encodes, whatever
encodings there are, without a warning. -/
theorem c56_utf8_partial (encs : List Encoding) (strict : Bool) (src : Bytes) (h0 : 0 ∉ src)
    (t : Text) (h : Spec.Utf8 t src) : decodeStr encs strict src = (some (.str t), false) := by
  unfold decodeStr
  rw [cStr_eq_self h0, (utf8Decode_iff _ _).2 h]

/-- C56: any other string without NUL is decoded, as a whole, with the first encoding that
accepts it. -/
theorem c56_fallback_partial (encs : List Encoding) (strict : Bool) (src : Bytes) (h0 : 0 ∉ src)
    (h : ∀ t, ¬ Spec.Utf8 t src) (pre : List Encoding) (enc : Encoding) (post : List Encoding)
    (he : encs = pre ++ enc :: post) (hpre : ∀ e ∈ pre, e src = none) (t : Text)
    (ht : enc src = some t) : decodeStr encs strict src = (some (.str t), false) := by
  unfold decodeStr
  rw [cStr_eq_self h0]
  match hu : utf8Decode src with
  | some u => exact absurd ((utf8Decode_iff _ _).1 hu) (h u)
  | none =>
    have := (tryEncodings_eq_some encs src t).2 ⟨pre, enc, post, he, hpre, ht⟩
    simp only [this]

/-- C56: if none accepts it, the bytes are returned unchanged, with a warning, or the warning is
raised. -/
theorem c56_bytes_partial (encs : List Encoding) (strict : Bool) (src : Bytes) (h0 : 0 ∉ src)
    (h : ∀ t, ¬ Spec.Utf8 t src) (hencs : ∀ e ∈ encs, e src = none) :
    decodeStr encs strict src = (if strict then none else some (.bytes src), true) := by
  unfold decodeStr
  rw [cStr_eq_self h0]
  match hu : utf8Decode src with
  | some u => exact absurd ((utf8Decode_iff _ _).1 hu) (h u)
  | none =>
    have := (tryEncodings_eq_none encs src).2 hencs
    simp only [this]
    cases strict <;> rfl

/-- C56 is violated: of a string with a NUL only what is in front of it is looked at by the
first attempt, and the rest is lost, without a warning and whatever the encodings are. -/
theorem c56_nul_defect (encs : List Encoding) (strict : Bool) (a b : Bytes) (h0 : 0 ∉ a)
    (t : Text) (h : Spec.Utf8 t a) :
    decodeStr encs strict (a ++ 0 :: b) = (some (.str t), false) := by
  unfold decodeStr
  have : cStr (a ++ 0 :: b) = a := by
    unfold cStr
    rw [List.takeWhile_append_of_pos]
    · simp
    · intro x hx
      simp only [decide_eq_true_eq]
      rintro rfl
      exact h0 hx
  rw [this, (utf8Decode_iff _ _).2 h]

theorem utf8Char_lt (c : Nat) (h : Spec.Scalar c) : ∀ x ∈ Spec.utf8Char c, x < 256 := by
  intro x hx
  unfold Spec.utf8Char at hx
  unfold Spec.Scalar at h
  split at hx
  · simp at hx; omega
  · split at hx
    · simp at hx; omega
    · split at hx <;> simp at hx <;> omega

theorem toStd_utf8 (t : Text) (src : Bytes) (h : Spec.Utf8 t src) : (PyStr.str t).toStd = src := by
  obtain ⟨h1, h2⟩ := h
  have h3 : (PyStr.str t).toStd.map (·.toNat) = t.flatMap Spec.utf8Char := by
    clear h2
    simp only [PyStr.toStd]
    induction t with
    | nil => rfl
    | cons c t ih =>
      rw [List.flatMap_cons, List.flatMap_cons, List.map_append, ih (fun x hx => h1 x (by simp [hx]))]
      congr 1
      unfold utf8Bytes
      rw [List.map_map]
      conv_rhs => rw [← List.map_id (Spec.utf8Char c)]
      apply List.map_congr_left
      intro x hx
      have := utf8Char_lt c (h1 c (by simp)) x hx
      simp [Nat.mod_eq_of_lt this]
  rw [← h2] at h3
  exact List.map_injective_iff.2 (fun x y h => BitVec.eq_of_toNat_eq h) h3

/-- C56: nothing is lost of a string without NUL unless a user-supplied encoding is used: it can
be recovered from what is returned. -/
theorem c56_complete_partial (encs : List Encoding) (strict : Bool) (src : Bytes) (h0 : 0 ∉ src)
    (hencs : ∀ e ∈ encs, e src = none) (p : PyStr) (w : Bool)
    (h : decodeStr encs strict src = (some p, w)) : p.toStd = src := by
  unfold decodeStr at h
  rw [cStr_eq_self h0] at h
  match hu : utf8Decode src with
  | some u =>
    rw [hu] at h
    simp only [Prod.mk.injEq, Option.some.injEq] at h
    rw [← h.1]
    exact toStd_utf8 u src ((utf8Decode_iff _ _).1 hu)
  | none =>
    rw [hu] at h
    simp only [(tryEncodings_eq_none encs src).2 hencs] at h
    cases strict with
    | true => simp at h
    | false => simp at h; rw [← h.1]; rfl

theorem zero_mem_utf8 (t : Text) (src : Bytes) (h : Spec.Utf8 t src) : 0 ∈ src ↔ 0 ∈ t := by
  obtain ⟨h1, h2⟩ := h
  have : 0 ∈ src ↔ 0 ∈ src.map (·.toNat) := by
    constructor
    · intro h; exact List.mem_map.2 ⟨0, h, rfl⟩
    · intro h
      obtain ⟨x, hx, h0⟩ := List.mem_map.1 h
      have : x = 0 := BitVec.eq_of_toNat_eq h0
      rwa [← this]
  rw [this, h2, List.mem_flatMap]
  constructor
  · rintro ⟨c, hc, h0⟩
    have : c = 0 := by
      unfold Spec.utf8Char at h0
      split at h0
      · simp at h0; exact h0.symm
      · split at h0
        · simp at h0; omega
        · split at h0 <;> simp at h0 <;> omega
    rwa [← this]
  · intro h; exact ⟨0, h, by simp [Spec.utf8Char]⟩

/-- A text without NUL survives the way to C++ and back. -/
theorem decodeStr_toStd (encs : List Encoding) (strict : Bool) (t : Text)
    (hs : ∀ c ∈ t, Spec.Scalar c) (h0 : 0 ∉ t) :
    decodeStr encs strict (PyStr.str t).toStd = (some (.str t), false) := by
  have hu : Spec.Utf8 t (PyStr.str t).toStd := by
    refine ⟨hs, ?_⟩
    simp only [PyStr.toStd]
    clear h0
    induction t with
    | nil => rfl
    | cons c t ih =>
      rw [List.flatMap_cons, List.flatMap_cons, List.map_append, ih (fun x hx => hs x (by simp [hx]))]
      congr 1
      unfold utf8Bytes
      rw [List.map_map]
      conv_rhs => rw [← List.map_id (Spec.utf8Char c)]
      apply List.map_congr_left
      intro x hx
      have := utf8Char_lt c (hs c (by simp)) x hx
      simp [Nat.mod_eq_of_lt this]
  exact c56_utf8_partial _ _ _ (by rwa [zero_mem_utf8 _ _ hu]) _ hu

/-- ISO 8859-1, which accepts everything. -/
def latin1 : Encoding := fun bs => some (bs.map BitVec.toNat)

/-- Case: "µs" in UTF-8. -/
example : decodeStr [] false [0xC2, 0xB5, 0x73] = (some (.str [0xB5, 0x73]), false) := by
  decide +kernel

/-- Case: "µs" in ISO 8859-1: the first encoding refuses it, the second is used. -/
example : decodeStr [fun _ => none, latin1] false [0xB5, 0x73] =
    (some (.str [0xB5, 0x73]), false) := by decide +kernel

/-- Case: no encoding is given. -/
example : decodeStr [] false [0xB5, 0x73] = (some (.bytes [0xB5, 0x73]), true) := by
  decide +kernel

end Dlisio
