/-
UTF-8 decoding as done by CPython (`PyUnicode_FromStringAndSize`,
`PyUnicode_FromString`), which is called by python/dlisio/ext/core.cpp:80 and
python/dlisio/ext/dlis.cpp:411.  CPython is not part of the repository; this is the
definition of well-formed UTF-8 of the Unicode standard (table 3-7), which it implements.
-/
import Verif.Basic

namespace Dlisio

/-- Continuation byte. -/
def isCont (b : Byte) : Bool := decide (0x80 ≤ b.toNat) && decide (b.toNat < 0xC0)

/-- The first code point of a non-empty byte string and the rest, `none` if it does not
begin with a well-formed sequence (ill-formed sequences, overlong forms, surrogates,
values above 10FFFF). -/
def utf8Next : Decoder Nat
  | [] => none
  | b0 :: bs =>
    if b0.toNat < 0x80 then some (b0.toNat, bs)
    else if b0.toNat < 0xC0 then none
    else if b0.toNat < 0xE0 then
      match bs with
      | b1 :: bs =>
        let c := b0.toNat % 32 * 64 + b1.toNat % 64
        if isCont b1 && decide (0x80 ≤ c) then some (c, bs) else none
      | _ => none
    else if b0.toNat < 0xF0 then
      match bs with
      | b1 :: b2 :: bs =>
        let c := b0.toNat % 16 * 4096 + b1.toNat % 64 * 64 + b2.toNat % 64
        if isCont b1 && isCont b2 && decide (0x800 ≤ c) &&
            !(decide (0xD800 ≤ c) && decide (c ≤ 0xDFFF)) then some (c, bs)
        else none
      | _ => none
    else if b0.toNat < 0xF8 then
      match bs with
      | b1 :: b2 :: b3 :: bs =>
        let c := b0.toNat % 8 * 262144 + b1.toNat % 64 * 4096 + b2.toNat % 64 * 64 + b3.toNat % 64
        if isCont b1 && isCont b2 && isCont b3 && decide (0x10000 ≤ c) &&
            decide (c ≤ 0x10FFFF) then some (c, bs)
        else none
      | _ => none
    else none

/-- The UTF-8 encoding of a scalar value: the numbers that the bytes have. -/
def Spec.utf8Char (c : Nat) : List Nat :=
  if c < 0x80 then [c]
  else if c < 0x800 then [0xC0 + c / 64, 0x80 + c % 64]
  else if c < 0x10000 then [0xE0 + c / 4096, 0x80 + c / 64 % 64, 0x80 + c % 64]
  else [0xF0 + c / 262144, 0x80 + c / 4096 % 64, 0x80 + c / 64 % 64, 0x80 + c % 64]

/-- A Unicode scalar value. -/
def Spec.Scalar (c : Nat) : Prop := c < 0xD800 ∨ 0xDFFF < c ∧ c ≤ 0x10FFFF

theorem utf8Next_iff (bs r : Bytes) (c : Nat) :
    utf8Next bs = some (c, r) ↔
      Spec.Scalar c ∧ bs.map (·.toNat) = Spec.utf8Char c ++ r.map (·.toNat) := by
  constructor
  · intro h
    unfold utf8Next at h
    split at h
    · cases h
    · rename_i b0 bs
      split at h
      · simp only [Option.some.injEq, Prod.mk.injEq] at h
        obtain ⟨rfl, rfl⟩ := h
        unfold Spec.Scalar Spec.utf8Char
        rw [if_pos (by omega)]
        exact ⟨by omega, by simp⟩
      split at h
      · cases h
      split at h
      · split at h
        · simp only at h
          split at h
          · rename_i hc
            simp only [Option.some.injEq, Prod.mk.injEq] at h
            obtain ⟨rfl, rfl⟩ := h
            simp only [isCont, Bool.and_eq_true, decide_eq_true_eq] at hc
            unfold Spec.Scalar Spec.utf8Char
            rw [if_neg (by omega), if_pos (by omega)]
            refine ⟨by omega, ?_⟩
            simp; omega
          · cases h
        · cases h
      split at h
      · split at h
        · simp only at h
          split at h
          · rename_i hc
            simp only [Option.some.injEq, Prod.mk.injEq] at h
            obtain ⟨rfl, rfl⟩ := h
            simp only [isCont, Bool.and_eq_true, Bool.not_eq_true', Bool.and_eq_false_iff,
              decide_eq_true_eq, decide_eq_false_iff_not] at hc
            unfold Spec.Scalar Spec.utf8Char
            rw [if_neg (by omega), if_neg (by omega), if_pos (by omega)]
            refine ⟨by omega, ?_⟩
            simp; omega
          · cases h
        · cases h
      split at h
      · split at h
        · simp only at h
          split at h
          · rename_i hc
            simp only [Option.some.injEq, Prod.mk.injEq] at h
            obtain ⟨rfl, rfl⟩ := h
            simp only [isCont, Bool.and_eq_true, decide_eq_true_eq] at hc
            unfold Spec.Scalar Spec.utf8Char
            rw [if_neg (by omega), if_neg (by omega), if_neg (by omega)]
            refine ⟨by omega, ?_⟩
            simp; omega
          · cases h
        · cases h
      · cases h
  · rintro ⟨hc, h⟩
    have inj : ∀ x y : Bytes, x.map (·.toNat) = y.map (·.toNat) → x = y := by
      intro x y hxy
      exact List.map_inj_right (fun _ _ => BitVec.eq_of_toNat_eq) |>.1 hxy
    unfold Spec.Scalar at hc
    unfold Spec.utf8Char at h
    split at h
    · rcases bs with _ | ⟨b, bs⟩
      · simp at h
      · simp only [List.map_cons, List.singleton_append, List.cons.injEq] at h
        unfold utf8Next
        dsimp only
        rw [if_pos (by omega), h.1, inj _ _ h.2]
    · split at h
      · rcases bs with _ | ⟨b, _ | ⟨b1, bs⟩⟩
        · simp at h
        · simp at h
        · simp only [List.map_cons, List.cons_append, List.nil_append, List.cons.injEq] at h
          obtain ⟨h1, h2, h3⟩ := h
          have e : b.toNat % 32 * 64 + b1.toNat % 64 = c := by omega
          rw [utf8Next, if_neg (by omega), if_neg (by omega), if_pos (by omega)]
          simp only [e, inj _ _ h3, isCont]
          rw [if_pos (by simp; omega)]
      · split at h
        · rcases bs with _ | ⟨b, _ | ⟨b1, _ | ⟨b2, bs⟩⟩⟩
          · simp at h
          · simp at h
          · simp at h
          · simp only [List.map_cons, List.cons_append, List.nil_append, List.cons.injEq] at h
            obtain ⟨h1, h2, h2', h3⟩ := h
            have e : b.toNat % 16 * 4096 + b1.toNat % 64 * 64 + b2.toNat % 64 = c := by omega
            rw [utf8Next, if_neg (by omega), if_neg (by omega), if_neg (by omega),
              if_pos (by omega)]
            simp only [e, inj _ _ h3, isCont]
            rw [if_pos (by simp; omega)]
        · rcases bs with _ | ⟨b, _ | ⟨b1, _ | ⟨b2, _ | ⟨b3, bs⟩⟩⟩⟩
          · simp at h
          · simp at h
          · simp at h
          · simp at h
          · simp only [List.map_cons, List.cons_append, List.nil_append, List.cons.injEq] at h
            obtain ⟨h1, h2, h2', h2'', h3⟩ := h
            have e : b.toNat % 8 * 262144 + b1.toNat % 64 * 4096 + b2.toNat % 64 * 64
                + b3.toNat % 64 = c := by omega
            rw [utf8Next, if_neg (by omega), if_neg (by omega), if_neg (by omega),
              if_neg (by omega), if_pos (by omega)]
            simp only [e, inj _ _ h3, isCont]
            rw [if_pos (by simp; omega)]

theorem utf8Next_length {bs r : Bytes} {c : Nat} (h : utf8Next bs = some (c, r)) :
    r.length < bs.length := by
  have h2 := congrArg List.length ((utf8Next_iff _ _ _).1 h).2
  simp only [List.length_map, List.length_append] at h2
  have : 0 < (Spec.utf8Char c).length := by
    unfold Spec.utf8Char
    split
    · simp
    · split
      · simp
      · split <;> simp
  omega

/-- The code points of a byte string, `none` if it is not well-formed UTF-8.  Stands for
the decoder called at ext/core.cpp:80 and ext/dlis.cpp:411. -/
def utf8Decode (bs : Bytes) : Option (List Nat) :=
  if bs = [] then some []
  else
    match _h : utf8Next bs with
    | none => none
    | some (c, r) => (utf8Decode r).map (c :: ·)
termination_by bs.length
decreasing_by exact utf8Next_length _h

/-- `bs` is the UTF-8 encoding of the text `cs`. -/
def Spec.Utf8 (cs : List Nat) (bs : Bytes) : Prop :=
  (∀ c ∈ cs, Scalar c) ∧ bs.map (·.toNat) = cs.flatMap utf8Char

/-- The decoder accepts exactly the UTF-8 encodings of texts. -/
theorem utf8Decode_iff (bs : Bytes) (cs : List Nat) :
    utf8Decode bs = some cs ↔ Spec.Utf8 cs bs := by
  unfold Spec.Utf8
  induction cs generalizing bs with
  | nil =>
    rw [utf8Decode]
    split
    · simp_all
    · rename_i hne
      constructor
      · intro h
        split at h
        · cases h
        · simp at h
      · simp; intro h; exact absurd h hne
  | cons c cs ih =>
    rw [utf8Decode]
    split
    · rename_i h; subst h
      simp only [Option.some.injEq, List.nil_eq, List.map_nil, List.flatMap_cons]
      constructor
      · intro h; cases h
      · rintro ⟨-, h⟩
        have : (Spec.utf8Char c) = [] := (List.append_eq_nil_iff.1 h).1
        exfalso; unfold Spec.utf8Char at this
        split at this
        · simp at this
        · split at this
          · simp at this
          · split at this <;> simp at this
    · constructor
      · intro h
        split at h
        · cases h
        · rename_i c' r hn
          simp only [Option.map_eq_some_iff, List.cons.injEq] at h
          obtain ⟨cs', h, rfl, rfl⟩ := h
          obtain ⟨h1, h2⟩ := (ih r).1 h
          obtain ⟨h3, h4⟩ := (utf8Next_iff _ _ _).1 hn
          refine ⟨?_, by rw [h4, h2, List.flatMap_cons]⟩
          simp only [List.mem_cons, forall_eq_or_imp]
          exact ⟨h3, h1⟩
      · rintro ⟨h1, h2⟩
        simp only [List.mem_cons, forall_eq_or_imp] at h1
        rw [List.flatMap_cons] at h2
        have hlen : (Spec.utf8Char c).length ≤ bs.length := by
          have := congrArg List.length h2
          simp only [List.length_map, List.length_append] at this
          omega
        have hn : utf8Next bs = some (c, bs.drop (Spec.utf8Char c).length) := by
          rw [utf8Next_iff]
          refine ⟨h1.1, ?_⟩
          have := congrArg (List.drop (Spec.utf8Char c).length) h2
          rw [List.drop_left] at this
          rw [List.map_drop, this, h2]
        have hr : utf8Decode (bs.drop (Spec.utf8Char c).length) = some cs := by
          rw [ih]
          refine ⟨h1.2, ?_⟩
          rw [List.map_drop, h2, List.drop_left]
        split
        · rename_i h; rw [hn] at h; cases h
        · rename_i c' r h
          rw [hn] at h
          simp only [Option.some.injEq, Prod.mk.injEq] at h
          obtain ⟨rfl, rfl⟩ := h
          rw [hr]; rfl

/-- Case: the letter ø and a lone continuation byte. -/
example : utf8Decode [0x42, 0xc3, 0xb8] = some [0x42, 0xf8] ∧ utf8Decode [0x42, 0xb8] = none := by
  constructor
  · rw [utf8Decode_iff]; exact ⟨by simp [Spec.Scalar], by decide⟩
  · rw [Option.eq_none_iff_forall_ne_some]
    intro cs h
    rw [utf8Decode, if_neg (by simp)] at h
    simp [utf8Next, utf8Decode] at h

theorem utf8Next_append {bs r : Bytes} {c : Nat} (h : utf8Next bs = some (c, r)) (t : Bytes) :
    utf8Next (bs ++ t) = some (c, r ++ t) := by
  rw [utf8Next_iff] at h ⊢
  refine ⟨h.1, ?_⟩
  rw [List.map_append, h.2, List.map_append, List.append_assoc]

theorem isCont_ascii {q : Byte} (hq : q.toNat < 0x80) : isCont q = false := by
  unfold isCont
  simp only [Bool.and_eq_false_iff, decide_eq_false_iff_not]
  omega

theorem utf8Next_broken {bs : Bytes} (hne : bs ≠ []) (h : utf8Next bs = none) {q : Byte}
    (hq : q.toNat < 0x80) (t : Bytes) : utf8Next (bs ++ q :: t) = none := by
  have hc := isCont_ascii hq
  match bs with
  | [] => exact absurd rfl hne
  | [b0] => simp only [utf8Next] at h ⊢; grind
  | [b0, b1] => simp only [utf8Next] at h ⊢; grind
  | [b0, b1, b2] => simp only [utf8Next] at h ⊢; grind
  | b0 :: b1 :: b2 :: b3 :: bs => simp only [utf8Next] at h ⊢; grind

/-- What follows an ASCII byte does not matter for what precedes it. -/
theorem utf8Decode_split (a : Bytes) {q : Byte} (hq : q.toNat < 0x80) (b : Bytes) :
    utf8Decode (a ++ q :: b) =
      (utf8Decode a).bind fun x => (utf8Decode b).map fun y => x ++ q.toNat :: y := by
  induction hn : a.length using Nat.strongRecOn generalizing a with
  | ind n ih =>
    by_cases ha : a = []
    · subst ha
      rw [utf8Decode, utf8Decode]
      simp only [List.nil_append, reduceCtorEq, if_false, if_true, Option.bind_some]
      have : utf8Next (q :: b) = some (q.toNat, b) := by simp [utf8Next, hq]
      split
      · rename_i h; rw [this] at h; cases h
      · rename_i c r h; rw [this] at h; cases h; rfl
    · rw [utf8Decode, utf8Decode]
      rw [if_neg (by simp), if_neg ha]
      cases hx : utf8Next a with
      | none =>
        have := utf8Next_broken ha hx hq b
        split
        · simp
        · rename_i h; rw [this] at h; cases h
      | some p =>
        obtain ⟨c, r⟩ := p
        have h1 := utf8Next_append hx (q :: b)
        have h2 := ih r.length (by rw [← hn]; exact utf8Next_length hx) r rfl
        split
        · rename_i h; rw [h1] at h; cases h
        · rename_i h; rw [h1] at h; cases h
          rw [h2]
          cases utf8Decode r with
          | none => rfl
          | some x => cases utf8Decode b <;> rfl

end Dlisio
