/-
C14 (searches), C15 (headers and descriptors), C16 (segment trimming).
-/
import Verif.Dlis.Sul
import Verif.Dlis.TypesProps

namespace Dlisio.Dlis

/-! ## C14: searches -/

namespace Spec

/-- `needle` occurs in `hay` with `i` bytes in front of it. -/
def OccursAt (needle hay : Bytes) (i : Nat) : Prop :=
  ∃ pre post, hay = pre ++ needle ++ post ∧ pre.length = i

/-- The first occurrence. -/
def FirstAt (needle hay : Bytes) (i : Nat) : Prop :=
  OccursAt needle hay i ∧ ∀ j, j < i → ¬ OccursAt needle hay j

/-- The text `RECORD`. -/
def recordText : Bytes := [0x52, 0x45, 0x43, 0x4f, 0x52, 0x44]

/-- The bytes `FF 01`. -/
def ff01 : Bytes := [0xff, 0x01]

end Spec

theorem startsWith_iff (n h : Bytes) : startsWith n h = true ↔ ∃ r, h = n ++ r := by
  induction n generalizing h with
  | nil => simp [startsWith]
  | cons a t ih =>
    cases h with
    | nil => simp [startsWith]
    | cons b hs =>
      rw [startsWith]
      split
      · subst_vars; rw [ih]; simp
      · rename_i hne
        simp only [Bool.false_eq_true, List.cons_append, List.cons.injEq, false_iff, not_exists,
          not_and]
        intro r hb; exact absurd hb.symm hne

theorem occursAt_zero (n h : Bytes) : Spec.OccursAt n h 0 ↔ startsWith n h = true := by
  rw [startsWith_iff]
  constructor
  · rintro ⟨pre, post, rfl, h0⟩
    rw [List.length_eq_zero_iff] at h0; subst h0; exact ⟨post, by simp⟩
  · rintro ⟨r, rfl⟩; exact ⟨[], r, by simp, rfl⟩

theorem occursAt_succ (n : Bytes) (b : Byte) (h : Bytes) (i : Nat) :
    Spec.OccursAt n (b :: h) (i + 1) ↔ Spec.OccursAt n h i := by
  constructor
  · rintro ⟨pre, post, e, hl⟩
    cases pre with
    | nil => simp at hl
    | cons a t =>
      simp only [List.cons_append, List.cons.injEq] at e
      exact ⟨t, post, e.2, by simpa using hl⟩
  · rintro ⟨pre, post, rfl, rfl⟩
    exact ⟨b :: pre, post, by simp, by simp⟩

theorem search_some (n : Bytes) (h : Bytes) (hn : n ≠ []) (i : Nat) :
    search n h = some i ↔ Spec.FirstAt n h i := by
  induction h generalizing i with
  | nil =>
    simp only [search, reduceCtorEq, false_iff]
    rintro ⟨⟨pre, post, e, _⟩, _⟩
    simp at e; exact hn e.2.1
  | cons b hs ih =>
    rw [search]
    split
    · rename_i hs0
      rw [← occursAt_zero] at hs0
      constructor
      · intro h; cases h; exact ⟨hs0, by simp⟩
      · rintro ⟨_, h2⟩
        cases i with
        | zero => rfl
        | succ i => exact absurd hs0 (h2 0 (by omega))
    · rename_i hs0
      rw [← occursAt_zero] at hs0
      cases i with
      | zero =>
        constructor
        · intro h; simp at h
        · rintro ⟨h, _⟩; exact absurd h hs0
      | succ i =>
        simp only [Option.map_eq_some_iff, Nat.add_right_cancel_iff, exists_eq_right]
        rw [ih]
        constructor
        · rintro ⟨h1, h2⟩
          refine ⟨(occursAt_succ ..).2 h1, ?_⟩
          intro j hj
          cases j with
          | zero => exact hs0
          | succ j => rw [occursAt_succ]; exact h2 j (by omega)
        · rintro ⟨h1, h2⟩
          refine ⟨(occursAt_succ ..).1 h1, ?_⟩
          intro j hj h
          exact h2 (j + 1) (by omega) ((occursAt_succ ..).2 h)

theorem search_none (n : Bytes) (h : Bytes) (hn : n ≠ []) :
    search n h = none ↔ ∀ i, ¬ Spec.OccursAt n h i := by
  induction h with
  | nil =>
    simp only [search, true_iff]
    rintro i ⟨pre, post, e, _⟩
    simp at e; exact hn e.2.1
  | cons b hs ih =>
    rw [search]
    split
    · rename_i hs0
      rw [← occursAt_zero] at hs0
      simp only [reduceCtorEq, false_iff, not_forall, not_not]
      exact ⟨0, hs0⟩
    · rename_i hs0
      rw [← occursAt_zero] at hs0
      rw [Option.map_eq_none_iff, ih]
      constructor
      · intro h i
        cases i with
        | zero => exact hs0
        | succ i => rw [occursAt_succ]; exact h i
      · intro h i hi; exact h (i + 1) ((occursAt_succ ..).2 hi)

/-- C14, storage label.  The search succeeds at `o` exactly when the first `RECORD`
of the window is nine bytes after `o`; it is 'not found' exactly when the window
holds no `RECORD`, and 'inconsistent' exactly when the first one has fewer than nine
bytes in front of it. -/
theorem c14_find_sul (win : Bytes) :
    (∀ o, findSul win = (.ok, some o) ↔ Spec.FirstAt Spec.recordText win (o + 9)) ∧
    (findSul win = (.notFound, none) ↔ ∀ i, ¬ Spec.OccursAt Spec.recordText win i) ∧
    (findSul win = (.inconsistent, none) ↔
      ∃ i, i < 9 ∧ Spec.FirstAt Spec.recordText win i) := by
  have hn : Spec.recordText ≠ [] := by simp [Spec.recordText]
  have hs := search_some Spec.recordText win hn
  have h0 := search_none Spec.recordText win hn
  have e : findSul win = match search Spec.recordText win with
    | none => (.notFound, none)
    | some i => if i < 9 then (.inconsistent, none) else (.ok, some (i - 9)) := rfl
  rw [e]
  cases hc : search Spec.recordText win with
  | none =>
    have h0' := h0.1 hc
    refine ⟨?_, by simpa using h0', ?_⟩
    · intro o; simp; intro h; exact absurd h.1 (h0' _)
    · simp; rintro i _ h; exact h0' _ h.1
  | some i =>
    have hi := (hs i).1 hc
    have uniq : ∀ j, Spec.FirstAt Spec.recordText win j → j = i := by
      intro j hj
      have := (hs j).2 hj
      rw [hc] at this; cases this; rfl
    refine ⟨?_, ?_, ?_⟩
    · intro o
      simp only
      split
      · simp only [Prod.mk.injEq, reduceCtorEq, false_and, false_iff]
        intro h; have := uniq _ h; omega
      · simp only [Prod.mk.injEq, Option.some.injEq, true_and]
        constructor
        · intro h; rw [show o + 9 = i by omega]; exact hi
        · intro h; have := uniq _ h; omega
    · simp only
      have : ¬ ∀ j, ¬ Spec.OccursAt Spec.recordText win j := fun h => h i hi.1
      split <;> simpa using ⟨i, hi.1⟩
    · simp only
      split
      · simp only [true_iff]; exact ⟨i, by assumption, hi⟩
      · simp only [Prod.mk.injEq, reduceCtorEq, false_and, false_iff, not_exists, not_and]
        intro j hj h; have := uniq _ h; omega

/-- C14, first visible record: as for the label, with the marker `FF 01` two bytes
after the reported position. -/
theorem c14_find_vrl (win : Bytes) :
    (∀ o, findVrl win = (.ok, some o) ↔ Spec.FirstAt Spec.ff01 win (o + 2)) ∧
    (findVrl win = (.notFound, none) ↔ ∀ i, ¬ Spec.OccursAt Spec.ff01 win i) ∧
    (findVrl win = (.inconsistent, none) ↔
      ∃ i, i < 2 ∧ Spec.FirstAt Spec.ff01 win i) := by
  have hn : Spec.ff01 ≠ [] := by simp [Spec.ff01]
  have hs := search_some Spec.ff01 win hn
  have h0 := search_none Spec.ff01 win hn
  have e : findVrl win = match search Spec.ff01 win with
    | none => (.notFound, none)
    | some i => if i < 2 then (.inconsistent, none) else (.ok, some (i - 2)) := rfl
  rw [e]
  cases hc : search Spec.ff01 win with
  | none =>
    have h0' := h0.1 hc
    refine ⟨?_, by simpa using h0', ?_⟩
    · intro o; simp; intro h; exact absurd h.1 (h0' _)
    · simp; rintro i _ h; exact h0' _ h.1
  | some i =>
    have hi := (hs i).1 hc
    have uniq : ∀ j, Spec.FirstAt Spec.ff01 win j → j = i := by
      intro j hj
      have := (hs j).2 hj
      rw [hc] at this; cases this; rfl
    refine ⟨?_, ?_, ?_⟩
    · intro o
      simp only
      split
      · simp only [Prod.mk.injEq, reduceCtorEq, false_and, false_iff]
        intro h; have := uniq _ h; omega
      · simp only [Prod.mk.injEq, Option.some.injEq, true_and]
        constructor
        · intro h; rw [show o + 2 = i by omega]; exact hi
        · intro h; have := uniq _ h; omega
    · simp only
      split <;> simpa using ⟨i, hi.1⟩
    · simp only
      split
      · simp only [true_iff]; exact ⟨i, by assumption, hi⟩
      · simp only [Prod.mk.injEq, reduceCtorEq, false_and, false_iff, not_exists, not_and]
        intro j hj h; have := uniq _ h; omega

/-- Case: two garbage bytes in front of a label. -/
example : findSul ([0x00, 0x0d, 0x20, 0x20, 0x20, 0x31, 0x56, 0x31, 0x2e, 0x30, 0x30] ++
    Spec.recordText) = (.ok, some 2) := by decide

example : findVrl [0x00, 0x20, 0x00, 0xff, 0x01, 0xff, 0x01] = (.ok, some 1) := by decide

/-! ## C15: headers -/

theorem flag_iff (a c : Byte) (k : Nat) (h : c.toNat = (2 ^ 1 - 1) <<< k) :
    flag a c = true ↔ a.toNat / 2 ^ k % 2 = 1 := by
  unfold flag
  have := toNat_and_mask a c k 1 h
  have hp : 0 < 2 ^ k := Nat.pos_of_ne_zero (by simp)
  rw [decide_eq_true_eq, ne_eq, ← BitVec.toNat_inj, this, Nat.pow_one]
  constructor
  · intro h
    rcases Nat.mod_two_eq_zero_or_one (a.toNat / 2 ^ k) with e | e
    · rw [e] at h; simp at h
    · exact e
  · intro h; rw [h]; simp

/-- C15.  A segment header decodes to the big-endian length, the attribute byte and
the type, for each of the 2^32 headers and whatever follows; with fewer than four
bytes the decoder would read past the buffer. -/
theorem c15_lrsh (xs : Bytes) (h : Lrsh) :
    lrsh xs = some h ↔ ∃ e r, xs = e ++ r ∧ e.length = 4 ∧
      h.length = beNat (e.take 2) ∧ h.attrs.toNat = beNat ((e.drop 2).take 1) ∧
      h.type = beNat (e.drop 3) := by
  constructor
  · intro hh
    match xs, hh with
    | a :: b :: c :: d :: r, hh =>
      simp only [lrsh, unorm, ushort, Option.bind_eq_bind, Option.bind_some, bswap16_load,
        Option.pure_def, Option.some.injEq] at hh
      subst hh
      refine ⟨[a, b, c, d], r, rfl, rfl, by simp [toNat16], by simp [beNat], by simp [beNat]⟩
    | [], hh | [_], hh | [_, _], hh | [_, _, _], hh => simp [lrsh, unorm, ushort] at hh
  · rintro ⟨e, r, rfl, hl, h1, h2, h3⟩
    match e, hl with
    | [a, b, c, d], _ =>
      simp only [lrsh, unorm, ushort, Option.bind_eq_bind, Option.bind_some, bswap16_load,
        Option.pure_def, Option.some.injEq, List.cons_append, toNat16]
      obtain ⟨hlen, hat, hty⟩ := h
      simp [beNat] at h1 h2 h3
      simp [h1, ← h2, h3, beNat]

/-- C15.  A visible record header decodes to the big-endian length and the version in
the fourth byte; the third byte is skipped. -/
theorem c15_vrl (xs : Bytes) (len ver : Nat) :
    vrl xs = some (len, ver) ↔ ∃ e r, xs = e ++ r ∧ e.length = 4 ∧
      len = beNat (e.take 2) ∧ ver = beNat (e.drop 3) := by
  constructor
  · intro hh
    match xs, hh with
    | a :: b :: c :: d :: r, hh =>
      simp only [vrl, unorm, ushort, takeN, Option.bind_eq_bind, Option.bind_some, bswap16_load,
        Option.pure_def] at hh
      simp at hh
      obtain ⟨rfl, rfl⟩ := hh
      refine ⟨[a, b, c, d], r, rfl, rfl, by simp [toNat16, beNat], by simp [beNat]⟩
    | [], hh | [_], hh | [_, _], hh | [_, _, _], hh => simp [vrl, unorm, ushort, takeN] at hh
  · rintro ⟨e, r, rfl, hl, h1, h2⟩
    match e, hl with
    | [a, b, c, d], _ =>
      simp [beNat] at h1 h2
      simp [vrl, unorm, ushort, takeN, bswap16_load, toNat16, h1, h2, beNat]

/-- C15.  Each of the eight attribute bits is found at its documented position (bit 1
of the standard is the most significant one), for every attribute byte. -/
theorem c15_segment_attributes (a : Byte) :
    let s := segmentAttributes a
    (s.explicit = true ↔ a.toNat / 2 ^ 7 % 2 = 1) ∧
    (s.predecessor = true ↔ a.toNat / 2 ^ 6 % 2 = 1) ∧
    (s.successor = true ↔ a.toNat / 2 ^ 5 % 2 = 1) ∧
    (s.encrypted = true ↔ a.toNat / 2 ^ 4 % 2 = 1) ∧
    (s.encryptionPacket = true ↔ a.toNat / 2 ^ 3 % 2 = 1) ∧
    (s.checksum = true ↔ a.toNat / 2 ^ 2 % 2 = 1) ∧
    (s.trailingLength = true ↔ a.toNat / 2 ^ 1 % 2 = 1) ∧
    (s.padding = true ↔ a.toNat / 2 ^ 0 % 2 = 1) :=
  ⟨flag_iff a 0x80 7 (by decide), flag_iff a 0x40 6 (by decide), flag_iff a 0x20 5 (by decide),
   flag_iff a 0x10 4 (by decide), flag_iff a 0x08 3 (by decide), flag_iff a 0x04 2 (by decide),
   flag_iff a 0x02 1 (by decide), flag_iff a 0x01 0 (by decide)⟩

/-- The attribute byte with the given flags: most significant bit first. -/
def Spec.attrByte (s : SegAttrs) : Byte :=
  BitVec.ofNat 8 (s.explicit.toNat * 128 + s.predecessor.toNat * 64 + s.successor.toNat * 32 +
    s.encrypted.toNat * 16 + s.encryptionPacket.toNat * 8 + s.checksum.toNat * 4 +
    s.trailingLength.toNat * 2 + s.padding.toNat)

/-- C15.  Attribute bytes and flag combinations correspond one to one. -/
theorem c15_segment_attributes_roundtrip :
    (∀ a, Spec.attrByte (segmentAttributes a) = a) ∧
    (∀ s, segmentAttributes (Spec.attrByte s) = s) := by
  refine ⟨by decide +kernel, ?_⟩
  rintro ⟨a, b, c, d, e, f, g, h⟩
  revert a b c d e f g h; decide +kernel

/-- C15.  Every four bytes are a segment header, and the header of given length,
attributes and type is read back. -/
theorem c15_lrsh_roundtrip (len type : Nat) (a : Byte) (r : Bytes)
    (hl : len < 2 ^ 16) (ht : type < 2 ^ 8) :
    lrsh (unormo len ++ ushorto a.toNat ++ ushorto type ++ r) = some ⟨len, a, type⟩ := by
  have h1 := c02_unormo_digits len
  have h2 := c02_ushorto_digits a.toNat
  have h3 := c02_ushorto_digits type
  refine (c15_lrsh _ _).2 ⟨unormo len ++ ushorto a.toNat ++ ushorto type, r, rfl, ?_, ?_, ?_, ?_⟩
  · simp [h1.1, h2.1, h3.1]
  · rw [List.append_assoc, List.take_left' h1.1, h1.2, Nat.mod_eq_of_lt hl]
  · rw [List.append_assoc, List.drop_left' h1.1, List.take_left' h2.1, h2.2,
      Nat.mod_eq_of_lt a.isLt]
  · rw [List.drop_left' (by simp [h1.1, h2.1]), h3.2, Nat.mod_eq_of_lt ht]

/-- C15.  Encryption packet header: refused when the stated length does not cover the
header itself or is odd; otherwise length of the rest, and company code. -/
theorem c15_encryption_packet (a b c d : Byte) (r : Bytes) :
    encryptionPacketInfo (a :: b :: c :: d :: r) = some (
      if beNat [a, b] < 4 then (.inconsistent, none)
      else if beNat [a, b] % 2 = 1 then (.unexpectedValue, none)
      else (.ok, some (beNat [a, b] - 4, beNat [c, d]))) := by
  simp only [encryptionPacketInfo, unorm, Option.bind_eq_bind, Option.bind_some, bswap16_load,
    Option.pure_def, toNat16]
  generalize beNat [a, b] = n
  generalize beNat [c, d] = m
  by_cases h1 : n < 4
  · rw [if_pos (by omega), if_pos h1]
  · rw [if_neg (by omega), if_neg h1]
    by_cases h2 : n % 2 = 1
    · rw [if_pos (by omega), if_pos h2]
    · rw [if_neg (by omega), if_neg h2]

/-- the eight roles in the order of their codes -/
def Spec.roles : List Role :=
  [.absatr, .attrib, .invatr, .object, .reserv, .rdset, .rset, .set]

/-- C15.  The role of a component is given by the three high bits of its descriptor,
for every descriptor. -/
theorem c15_component_role (d : Byte) :
    Spec.roles[d.toNat / 32]? = some (component d) := by
  revert d; decide +kernel

/-- C15.  The format bits of set, object and attribute components, for every
descriptor: attribute label 4, count 3, representation code 2, units 1, value 0;
set type 4, name 3; object name 4.  Descriptors of other roles are refused. -/
theorem c15_component_flags (d : Byte) (role : Role) :
    ((∃ f, componentAttrib d role = some f) ↔ role = .attrib ∨ role = .invatr) ∧
    (∀ f, componentAttrib d role = some f →
      (f.label = true ↔ d.toNat / 2 ^ 4 % 2 = 1) ∧ (f.count = true ↔ d.toNat / 2 ^ 3 % 2 = 1) ∧
      (f.reprc = true ↔ d.toNat / 2 ^ 2 % 2 = 1) ∧ (f.units = true ↔ d.toNat / 2 ^ 1 % 2 = 1) ∧
      (f.value = true ↔ d.toNat / 2 ^ 0 % 2 = 1)) ∧
    ((∃ f, componentSet d role = some f) ↔ role = .rdset ∨ role = .rset ∨ role = .set) ∧
    (∀ t n, componentSet d role = some (t, n) →
      (t = true ↔ d.toNat / 2 ^ 4 % 2 = 1) ∧ (n = true ↔ d.toNat / 2 ^ 3 % 2 = 1)) ∧
    ((∃ f, componentObject d role = some f) ↔ role = .object) ∧
    (∀ o, componentObject d role = some o → (o = true ↔ d.toNat / 2 ^ 4 % 2 = 1)) := by
  have f4 := flag_iff d 0x10 4 (by decide)
  have f3 := flag_iff d 0x08 3 (by decide)
  have f2 := flag_iff d 0x04 2 (by decide)
  have f1 := flag_iff d 0x02 1 (by decide)
  have f0 := flag_iff d 0x01 0 (by decide)
  cases role <;> simp only [componentAttrib, componentSet, componentObject, Option.some.injEq,
    reduceCtorEq, exists_eq', exists_const, or_true, or_self, iff_self,
    or_false, true_and, and_true, false_imp_iff, implies_true, Prod.mk.injEq, exists_false]
  all_goals first
    | (rintro f rfl; exact ⟨f4, f3, f2, f1, f0⟩)
    | (rintro t n ⟨rfl, rfl⟩; exact ⟨f4, f3⟩)
    | (rintro f rfl; exact f4)

example : lrsh [0x00, 0x7c, 0x80, 0x03, 0xff] = some ⟨124, 0x80, 3⟩ := by decide

example : component 0x3d = .attrib ∧ componentAttrib 0x3d .attrib = some
    { label := true, count := true, reprc := true, units := false, value := true } := by decide

/-! ## C16: segment trimming -/

namespace Spec

/-- `tail` is a segment trailer for the attribute byte `a`: padding (whose last byte is
the number of padding bytes), checksum and trailing length, each only if announced.
Trailers of encrypted segments are not visible. -/
def Trailer (a : Byte) (tail : Bytes) : Prop :=
  if a.toNat / 2 ^ 4 % 2 = 1 then tail = []
  else ∃ pad chk len, tail = pad ++ chk ++ len ∧
    (if a.toNat / 2 ^ 0 % 2 = 1 then ∃ p n, pad = p ++ [n] ∧ n.toNat = pad.length else pad = []) ∧
    chk.length = (if a.toNat / 2 ^ 2 % 2 = 1 then 2 else 0) ∧
    len.length = (if a.toNat / 2 ^ 1 % 2 = 1 then 2 else 0)

/-- Size of checksum and trailing length. -/
def fixedTrailer (a : Byte) : Nat :=
  (if a.toNat / 2 ^ 2 % 2 = 1 then 2 else 0) + (if a.toNat / 2 ^ 1 % 2 = 1 then 2 else 0)

end Spec

theorem trailerSize_eq (a : Byte) : trailerSize a = Spec.fixedTrailer a := by
  unfold trailerSize Spec.fixedTrailer
  have f2 := flag_iff a 0x04 2 (by decide)
  have f1 := flag_iff a 0x02 1 (by decide)
  simp only [SEGATTR_CHCKSUM, SEGATTR_TRAILEN, f2, f1]

/-- The exact result of the trimming function, when the byte it needs is present. -/
theorem trim_eq (a : Byte) (before seg : Bytes) :
    trimRecordSegment a before seg =
      if a.toNat / 2 ^ 4 % 2 = 1 then some (.ok, 0)
      else if a.toNat / 2 ^ 0 % 2 = 1 then
        ((before ++ seg).reverse[Spec.fixedTrailer a]?).map fun n =>
          trimVerdict (Spec.fixedTrailer a + n.toNat) seg.length
      else some (trimVerdict (Spec.fixedTrailer a) seg.length) := by
  unfold trimRecordSegment
  have f4 := flag_iff a 0x10 4 (by decide)
  have f0 := flag_iff a 0x01 0 (by decide)
  simp only [SEGATTR_ENCRYPT, SEGATTR_PADDING, f4, f0, trailerSize_eq]
  by_cases h4 : a.toNat / 2 ^ 4 % 2 = 1
  · rw [if_pos h4, if_pos h4]; simp [trimVerdict]
  · rw [if_neg h4, if_neg h4]
    by_cases h0 : a.toNat / 2 ^ 0 % 2 = 1
    · rw [if_pos h0, if_pos h0]
      generalize before ++ seg = all
      generalize Spec.fixedTrailer a = t
      split
      · rename_i h
        rw [List.getElem?_eq_none (by simp; omega)]; rfl
      · rename_i h
        have ht : t < all.length := by omega
        rw [List.getElem?_eq_getElem (by simpa using ht), List.getElem_reverse,
          List.drop_eq_getElem_cons (by omega)]
        simp [ushort]
    · rw [if_neg h0, if_neg h0]

/-- C16.  For a segment built as body, padding, checksum and trailing length, exactly
the trailer is trimmed, so the body is what is left; whatever precedes it in the
buffer. -/
theorem c16_body_left (a : Byte) (before body tail : Bytes) (h : Spec.Trailer a tail) :
    trimRecordSegment a before (body ++ tail) = some (.ok, tail.length) ∧
      (body ++ tail).take ((body ++ tail).length - tail.length) = body := by
  refine ⟨?_, by simp⟩
  rw [trim_eq]
  unfold Spec.Trailer at h
  split
  · rename_i he
    rw [if_pos he] at h; subst h; rfl
  · rename_i he
    rw [if_neg he] at h
    obtain ⟨pad, chk, len, rfl, hp, hc, hl⟩ := h
    have hft : Spec.fixedTrailer a = chk.length + len.length := by
      rw [Spec.fixedTrailer, hc, hl]
    rw [hft]
    split
    · rename_i hpd
      rw [if_pos hpd] at hp
      obtain ⟨p, n, rfl, hn⟩ := hp
      have : (before ++ (body ++ ((p ++ [n]) ++ chk ++ len))).reverse[chk.length + len.length]?
          = some n := by
        simp only [List.reverse_append, List.append_assoc, List.reverse_cons, List.reverse_nil,
          List.nil_append]
        rw [← List.append_assoc, List.getElem?_append_right (by simp; omega)]
        simp [Nat.add_comm]
      rw [this]
      simp only [Option.map_some, trimVerdict]
      rw [if_neg (by simp at hn ⊢; omega), hn]
      simp; omega
    · rename_i hpd
      rw [if_neg hpd] at hp; subst hp
      simp [trimVerdict]

/-- C16.  What is trimmed never exceeds the segment unless a bad size is reported; a
bad size is reported exactly when it would; no other outcome exists. -/
theorem c16_never_too_much (a : Byte) (before seg : Bytes) (e : Err) (n : Nat)
    (h : trimRecordSegment a before seg = some (e, n)) :
    (e = .ok ∧ n ≤ seg.length) ∨ (e = .badSize ∧ seg.length < n) := by
  rw [trim_eq] at h
  have key : ∀ t, trimVerdict t seg.length = (e, n) →
      (e = .ok ∧ n ≤ seg.length) ∨ (e = .badSize ∧ seg.length < n) := by
    intro t ht
    unfold trimVerdict at ht
    split at ht <;> cases ht
    · right; exact ⟨rfl, by assumption⟩
    · left; exact ⟨rfl, by omega⟩
  split at h
  · cases h; left; exact ⟨rfl, by omega⟩
  · split at h
    · rw [Option.map_eq_some_iff] at h
      obtain ⟨b, _, hb⟩ := h
      exact key _ hb
    · exact key _ (Option.some.inj h)

/-- C16.  The amount: nothing for encrypted segments, else 2 for the checksum, 2 for
the trailing length and, if padded, the number in the last padding byte. -/
theorem c16_amount (a : Byte) (before seg : Bytes) (e : Err) (n : Nat)
    (h : trimRecordSegment a before seg = some (e, n)) :
    n = if a.toNat / 2 ^ 4 % 2 = 1 then 0
        else Spec.fixedTrailer a + (if a.toNat / 2 ^ 0 % 2 = 1 then
          ((before ++ seg).reverse[Spec.fixedTrailer a]?.map BitVec.toNat).getD 0 else 0) := by
  rw [trim_eq] at h
  have key : ∀ t, trimVerdict t seg.length = (e, n) → n = t := by
    intro t ht
    unfold trimVerdict at ht
    split at ht <;> cases ht <;> rfl
  split at h
  · rename_i h1; rw [if_pos h1]; cases h; rfl
  · rename_i h1; rw [if_neg h1]
    split at h
    · rename_i h2
      rw [if_pos h2]
      rw [Option.map_eq_some_iff] at h
      obtain ⟨b, hb, hb'⟩ := h
      rw [key _ hb', hb]; rfl
    · rename_i h2; rw [if_neg h2]
      exact key _ (Option.some.inj h)

/-- C16, memory safety.  When the segment is long enough to hold the announced
trailer including one padding byte, the padding length is read inside the segment:
the result exists and does not depend on what precedes the segment. -/
theorem c16_reads_inside_partial (a : Byte) (seg : Bytes)
    (h : Spec.fixedTrailer a < seg.length) :
    ∃ res, ∀ before, trimRecordSegment a before seg = some res := by
  by_cases h1 : a.toNat / 2 ^ 4 % 2 = 1
  · exact ⟨_, fun before => by rw [trim_eq, if_pos h1]⟩
  · by_cases h2 : a.toNat / 2 ^ 0 % 2 = 1
    · have : ∀ before, (before ++ seg).reverse[Spec.fixedTrailer a]?
          = seg.reverse[Spec.fixedTrailer a]? := by
        intro before
        rw [List.reverse_append, List.getElem?_append_left (by simpa using h)]
      have hx : seg.reverse[Spec.fixedTrailer a]? = some (seg.reverse[Spec.fixedTrailer a]'(by
          simpa using h)) := List.getElem?_eq_getElem _
      exact ⟨_, fun before => by rw [trim_eq, if_neg h1, if_pos h2, this, hx]; rfl⟩
    · exact ⟨_, fun before => by rw [trim_eq, if_neg h1, if_neg h2]⟩

/-- C16, defect: for a padded segment that is too short for its trailer the padding
length is taken from memory in front of the segment.  For each such segment the
result depends on that memory, and with nothing in front the read is out of
bounds. -/
theorem c16_reads_outside_defect (a : Byte) (seg : Bytes)
    (he : a.toNat / 2 ^ 4 % 2 = 0) (hp : a.toNat / 2 ^ 0 % 2 = 1)
    (h : seg.length ≤ Spec.fixedTrailer a) :
    trimRecordSegment a [] seg = none ∧
    ∃ b b', trimRecordSegment a b seg ≠ trimRecordSegment a b' seg := by
  have key : ∀ before, trimRecordSegment a before seg =
      ((before ++ seg).reverse[Spec.fixedTrailer a]?).map fun n =>
          trimVerdict (Spec.fixedTrailer a + n.toNat) seg.length := by
    intro before
    rw [trim_eq, if_neg (by omega), if_pos hp]
  refine ⟨?_, [], List.replicate (Spec.fixedTrailer a + 1) 0, ?_⟩
  · rw [key, List.getElem?_eq_none (by simpa using h)]; rfl
  · rw [key, key, List.getElem?_eq_none (by simpa using h)]
    rw [List.getElem?_eq_getElem (by simp; omega)]
    simp

/-- Case: body of three bytes, two padding bytes, checksum and trailing length. -/
example : Spec.Trailer 0x87 ([0x00, 0x02] ++ [0xaa, 0xbb] ++ [0x00, 0x0b]) ∧
    trimRecordSegment 0x87 [] ([1, 2, 3] ++ [0x00, 0x02, 0xaa, 0xbb, 0x00, 0x0b])
      = some (.ok, 6) := by
  refine ⟨?_, by decide⟩
  unfold Spec.Trailer
  rw [if_neg (by decide)]
  exact ⟨_, _, _, rfl, by rw [if_pos (by decide)]; exact ⟨[0x00], 0x02, rfl, by decide⟩,
    by decide, by decide⟩

/-- Case of the defect: a segment without any body, but with the padding bit. -/
example : trimRecordSegment 0x01 [] [] = none := by decide

end Dlisio.Dlis
