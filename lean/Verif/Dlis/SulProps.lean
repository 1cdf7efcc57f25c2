/-
C13 (storage label), C14 (searches), C15 (headers), C16 (segment trimming).
-/
import Verif.Dlis.Sul
import Verif.Dlis.TypesProps

namespace Dlisio.Dlis

/-! ## C13: storage unit label -/

namespace Spec

/-- White space only. -/
def Blank (bs : Bytes) : Prop :=
  ∀ b ∈ bs, b.toNat = 32 ∨ (9 ≤ b.toNat ∧ b.toNat ≤ 13)

/-- ASCII digits only. -/
def Digits (bs : Bytes) : Prop := ∀ b ∈ bs, 48 ≤ b.toNat ∧ b.toNat ≤ 57

/-- The number that a string of ASCII digits denotes. -/
def decimal : Bytes → Nat
  | [] => 0
  | b :: bs => (b.toNat - 48) * 10 ^ bs.length + decimal bs

/-- The text field `f` holds the number `n`: digits surrounded by white space; a NUL
ends the field early. -/
def Number (f : Bytes) (n : Nat) : Prop :=
  ∃ lead ds trail tail, f = lead ++ ds ++ trail ++ tail ∧ Blank lead ∧ Digits ds ∧ ds ≠ [] ∧
    Blank trail ∧ (tail = [] ∨ ∃ t, tail = 0 :: t) ∧ n = decimal ds

/-- A version field `Vd.dd`. -/
def Version (v : Bytes) (major minor : Nat) : Prop :=
  ∃ a b c : Byte, v = [0x56, a, 0x2e, b, c] ∧ Digits [a, b, c] ∧
    major = decimal [a] ∧ minor = decimal [b, c]

/-- `RECORD` -/
def RECORD : Bytes := [0x52, 0x45, 0x43, 0x4f, 0x52, 0x44]

/-- The 80-byte label whose five fields have these contents. -/
structure Label (xs : Bytes) (seq ver struct maxlen id : Bytes) : Prop where
  eq : ∃ rest, xs = seq ++ ver ++ struct ++ maxlen ++ id ++ rest
  seq4 : seq.length = 4
  ver5 : ver.length = 5
  struct6 : struct.length = 6
  maxlen5 : maxlen.length = 5
  id60 : id.length = 60

/-- The bytes in front of the first NUL. -/
def UptoNul (s t : Bytes) : Prop := (∀ b ∈ s, b ≠ 0) ∧ (t = s ∨ ∃ r, t = s ++ 0 :: r)

end Spec

/-! ### lemmas -/

theorem isSpace_iff (b : Byte) :
    isSpace b = true ↔ b.toNat = 32 ∨ (9 ≤ b.toNat ∧ b.toNat ≤ 13) := by
  simp only [isSpace, Bool.or_eq_true, Bool.and_eq_true, decide_eq_true_eq, BitVec.le_def,
    ← BitVec.toNat_inj]
  simp

theorem isDigit_iff (b : Byte) : isDigit b = true ↔ 48 ≤ b.toNat ∧ b.toNat ≤ 57 := by
  simp only [isDigit, Bool.and_eq_true, decide_eq_true_eq, BitVec.le_def]
  simp

theorem skipWhile_eq (f : Byte → Bool) (xs : Bytes) : skipWhile f xs = xs.dropWhile f := by
  induction xs with
  | nil => rfl
  | cons b bs ih => rw [skipWhile, List.dropWhile_cons]; split <;> simp_all

theorem dropWhile_append_of {f : Byte → Bool} {l r : Bytes} (h : ∀ b ∈ l, f b = true)
    (hr : ∀ b ∈ r.head?, f b = false) : (l ++ r).dropWhile f = r := by
  induction l with
  | nil =>
    cases r with
    | nil => rfl
    | cons a t => simp at hr; simp [hr]
  | cons a t ih =>
    have ha := h a (by simp)
    simp only [List.cons_append, List.dropWhile_cons, ha, if_true]
    exact ih fun b hb => h b (by simp [hb])

/-- a list splits into the part satisfying `f` and the rest -/
theorem dropWhile_split (f : Byte → Bool) (xs : Bytes) :
    ∃ l, xs = l ++ xs.dropWhile f ∧ (∀ b ∈ l, f b = true) ∧
      ∀ b ∈ (xs.dropWhile f).head?, f b = false := by
  refine ⟨xs.takeWhile f, (List.takeWhile_append_dropWhile).symm, ?_, ?_⟩
  · intro b hb; exact List.all_eq_true.1 List.all_takeWhile b hb
  · intro b hb
    have := List.head?_dropWhile_not f xs
    rw [Option.mem_def] at hb
    rw [hb] at this; simpa using this

theorem atoiDigits_eq (ds : Bytes) (r : Bytes) (hd : Spec.Digits ds)
    (hr : ∀ b ∈ r.head?, isDigit b = false) (acc : Int) :
    atoiDigits acc (ds ++ r) = acc * 10 ^ ds.length + (Spec.decimal ds : Int) := by
  induction ds generalizing acc with
  | nil =>
    cases r with
    | nil => simp [atoiDigits, Spec.decimal]
    | cons a t => simp at hr; simp [atoiDigits, Spec.decimal, hr]
  | cons b bs ih =>
    have hb := hd b (by simp)
    have := (isDigit_iff b).2 hb
    rw [List.cons_append, atoiDigits, if_pos this,
      ih (fun c hc => hd c (by simp [hc]))]
    simp only [Spec.decimal, List.length_cons]
    push_cast [Nat.cast_sub hb.1]
    ring

theorem digit_not_space {b : Byte} (h : isDigit b = true) : isSpace b = false := by
  rw [isDigit_iff] at h
  rw [Bool.eq_false_iff, ne_eq, isSpace_iff]; omega

theorem space_not_digit {b : Byte} (h : isSpace b = true) : isDigit b = false := by
  rw [isSpace_iff] at h
  rw [Bool.eq_false_iff, ne_eq, isDigit_iff]; omega

/-- the number check and the conversion, on a C string -/
theorem number_cstr (s : Bytes) (n : Int) :
    (isNumberString s = true ∧ atoi s = n) ↔
      ∃ lead ds trail, s = lead ++ ds ++ trail ∧ Spec.Blank lead ∧ Spec.Digits ds ∧ ds ≠ [] ∧
        Spec.Blank trail ∧ n = Spec.decimal ds := by
  constructor
  · rintro ⟨h, rfl⟩
    unfold isNumberString isSulNumberFieldValid at h
    obtain ⟨lead, h1, h2, h3⟩ := dropWhile_split isSpace s
    split at h
    · cases h
    · split at h
      · cases h
      · rename_i hne
        rw [skipWhile_eq] at hne
        rw [skipWhile_eq, skipWhile_eq] at h
        obtain ⟨ds, h4, h5, h6⟩ := dropWhile_split isDigit (s.dropWhile isSpace)
        refine ⟨lead, ds, (s.dropWhile isSpace).dropWhile isDigit, ?_, ?_, ?_, ?_, ?_, ?_⟩
        · rw [List.append_assoc, ← h4]; exact h1
        · intro b hb; exact (isSpace_iff b).1 (h2 b hb)
        · intro b hb; exact (isDigit_iff b).1 (h5 b hb)
        · rintro rfl
          rw [List.nil_append] at h4
          rw [← h4] at h
          cases hc : s.dropWhile isSpace with
          | nil => exact hne hc
          | cons a t =>
            rw [hc] at h h3
            simp at h h3
            rw [h3] at h; simp at h
        · intro b hb; exact (isSpace_iff b).1 (List.all_eq_true.1 h b hb)
        · unfold atoi
          rw [skipWhile_eq]
          conv_lhs => rw [h4]
          rw [atoiDigits_eq ds _ (fun b hb => (isDigit_iff b).1 (h5 b hb)) h6]
          simp
  · rintro ⟨lead, ds, trail, rfl, hl, hd, hne, ht, rfl⟩
    obtain ⟨d, ds', rfl⟩ := List.exists_cons_of_ne_nil hne
    have hd0 := (isDigit_iff d).2 (hd d (by simp))
    have e1 : (lead ++ d :: ds' ++ trail).dropWhile isSpace = d :: ds' ++ trail := by
      rw [List.append_assoc]
      refine dropWhile_append_of (fun b hb => (isSpace_iff b).2 (hl b hb)) ?_
      simp [digit_not_space hd0]
    have htr : ∀ b ∈ trail.head?, isDigit b = false := by
      intro b hb
      exact space_not_digit ((isSpace_iff b).2 (ht b (List.mem_of_mem_head? hb)))
    have e2 : (d :: ds' ++ trail).dropWhile isDigit = trail :=
      dropWhile_append_of (fun b hb => (isDigit_iff b).2 (hd b hb)) htr
    constructor
    · unfold isNumberString isSulNumberFieldValid
      simp only [skipWhile_eq, e1]
      split
      · simp_all
      · split
        · rename_i h; simp at h
        · rw [e2, List.all_eq_true]
          intro b hb; exact (isSpace_iff b).2 (ht b hb)
    · unfold atoi
      rw [skipWhile_eq, e1, atoiDigits_eq _ _ hd htr]; simp

theorem cstr_split (f : Bytes) : ∃ tail, f = cstr f ++ tail ∧ (tail = [] ∨ ∃ t, tail = 0 :: t) := by
  refine ⟨f.dropWhile (· ≠ 0), (List.takeWhile_append_dropWhile).symm, ?_⟩
  have := List.head?_dropWhile_not (fun b : Byte => decide (b ≠ 0)) f
  cases h : f.dropWhile (· ≠ 0) with
  | nil => simp
  | cons a t => rw [h] at this; right; simp at this; exact ⟨t, by rw [this]; rfl⟩

theorem cstr_append {l tail : Bytes} (h : ∀ b ∈ l, b ≠ 0)
    (ht : tail = [] ∨ ∃ t, tail = 0 :: t) : cstr (l ++ tail) = l := by
  induction l with
  | nil => rcases ht with rfl | ⟨t, rfl⟩ <;> simp [cstr]
  | cons a t ih =>
    have := h a (by simp)
    have ih := ih (fun b hb => h b (by simp [hb]))
    simp only [cstr] at ih ⊢
    rw [List.cons_append, List.takeWhile_cons]
    simp only [this, ne_eq, not_false_eq_true, decide_true, if_true]
    rw [List.cons.injEq]
    exact ⟨rfl, by simpa using ih⟩

theorem cstr_uptoNul (f : Bytes) : Spec.UptoNul (cstr f) f := by
  obtain ⟨tail, h, h'⟩ := cstr_split f
  refine ⟨?_, ?_⟩
  · intro b hb
    have := List.all_eq_true.1 List.all_takeWhile b hb
    simpa using this
  · rcases h' with rfl | ⟨t, rfl⟩
    · left; simpa using h
    · right; exact ⟨t, h⟩

theorem uptoNul_iff (s f : Bytes) : Spec.UptoNul s f ↔ s = cstr f := by
  constructor
  · rintro ⟨h, h'⟩
    have ht : ∃ tail, f = s ++ tail ∧ (tail = [] ∨ ∃ t, tail = 0 :: t) := by
      rcases h' with rfl | ⟨r, rfl⟩
      · exact ⟨[], by simp, Or.inl rfl⟩
      · exact ⟨_, rfl, Or.inr ⟨r, rfl⟩⟩
    obtain ⟨tail, rfl, ht⟩ := ht
    exact (cstr_append h ht).symm
  · rintro rfl; exact cstr_uptoNul f

/-- The number check and conversion of the parser agree with the specification. -/
theorem number_iff (f : Bytes) (n : Int) :
    (isNumberString (cstr f) = true ∧ atoi (cstr f) = n) ↔ ∃ k : Nat, Spec.Number f k ∧ n = k := by
  rw [number_cstr]
  constructor
  · rintro ⟨lead, ds, trail, h, hl, hd, hne, ht, rfl⟩
    obtain ⟨tail, h', h''⟩ := cstr_split f
    exact ⟨_, ⟨lead, ds, trail, tail, by rw [← h]; exact h', hl, hd, hne, ht, h'', rfl⟩, rfl⟩
  · rintro ⟨k, ⟨lead, ds, trail, tail, rfl, hl, hd, hne, ht, h'', rfl⟩, rfl⟩
    refine ⟨lead, ds, trail, ?_, hl, hd, hne, ht, rfl⟩
    refine cstr_append ?_ h''
    intro b hb hb0
    subst hb0
    simp only [List.mem_append] at hb
    rcases hb with (hb | hb) | hb
    · have := hl _ hb; simp at this
    · have := hd _ hb; simp at this
    · have := ht _ hb; simp at this

theorem number_none (f : Bytes) :
    isNumberString (cstr f) = false ↔ ¬ ∃ k, Spec.Number f k := by
  constructor
  · rintro h ⟨k, hk⟩
    have := ((number_iff f k).2 ⟨k, hk, rfl⟩).1
    rw [h] at this; cases this
  · intro h
    by_contra hc
    rw [Bool.not_eq_false] at hc
    obtain ⟨k, hk, _⟩ := (number_iff f _).1 ⟨hc, rfl⟩
    exact h ⟨k, hk⟩

theorem number_unique {f : Bytes} {n m : Nat} (h : Spec.Number f n) (h' : Spec.Number f m) :
    n = m := by
  have a := ((number_iff f n).2 ⟨n, h, rfl⟩).2
  have b := ((number_iff f m).2 ⟨m, h', rfl⟩).2
  rw [a] at b; exact_mod_cast b

/-- The fields that a number check and conversion yields, in one value. -/
def numField (f : Bytes) : Int := if isNumberString (cstr f) then atoi (cstr f) else -1

theorem numField_cases (f : Bytes) :
    (∃ k : Nat, Spec.Number f k ∧ numField f = k) ∨
      ((¬ ∃ k, Spec.Number f k) ∧ numField f = -1) := by
  unfold numField
  cases h : isNumberString (cstr f) with
  | true =>
    left
    obtain ⟨k, hk, e⟩ := (number_iff f _).1 ⟨h, rfl⟩
    exact ⟨k, hk, by simpa using e⟩
  | false => right; exact ⟨(number_none f).1 h, by simp⟩

theorem decimal_zero {ds : Bytes} (hd : Spec.Digits ds) (h : Spec.decimal ds = 0) :
    ∀ b ∈ ds, b = 0x30 := by
  induction ds with
  | nil => simp
  | cons a t ih =>
    simp only [Spec.decimal, Nat.add_eq_zero_iff, Nat.mul_eq_zero, Nat.pow_eq_zero] at h
    have ha := hd a (by simp)
    intro b hb
    rcases List.mem_cons.1 hb with rfl | hb
    · apply BitVec.eq_of_toNat_eq; simp; omega
    · exact ih (fun c hc => hd c (by simp [hc])) h.2 b hb

/-- The second look at a zero maximum length always confirms it. -/
theorem zero_confirmed (f : Bytes) (h : numField f = 0) : isZeroString (cstr f) = true := by
  rcases numField_cases f with ⟨k, hk, e⟩ | ⟨_, e⟩
  · rw [h] at e
    have hk0 : k = 0 := by exact_mod_cast e.symm
    subst hk0
    obtain ⟨lead, ds, trail, tail, rfl, hl, hd, hne, ht, h'', hz⟩ := hk
    have hds := decimal_zero hd hz.symm
    obtain ⟨d, ds', rfl⟩ := List.exists_cons_of_ne_nil hne
    have e0 : cstr (lead ++ d :: ds' ++ trail ++ tail) = lead ++ d :: ds' ++ trail := by
      refine cstr_append ?_ h''
      intro b hb hb0
      subst hb0
      simp only [List.mem_append] at hb
      rcases hb with (hb | hb) | hb
      · have := hl _ hb; simp at this
      · have := hd _ hb; simp at this
      · have := ht _ hb; simp at this
    have hd0 := (isDigit_iff d).2 (hd d (by simp))
    have e1 : (lead ++ d :: ds' ++ trail).dropWhile isSpace = d :: ds' ++ trail := by
      rw [List.append_assoc]
      refine dropWhile_append_of (fun b hb => (isSpace_iff b).2 (hl b hb)) ?_
      simp [digit_not_space hd0]
    have e2 : (d :: ds' ++ trail).dropWhile (fun c => decide (c = 0x30)) = trail := by
      refine dropWhile_append_of (fun b hb => by simp [hds b hb]) ?_
      intro b hb
      have := (ht b (List.mem_of_mem_head? hb))
      rw [decide_eq_false_iff_not]
      rintro rfl; simp at this
    rw [e0]
    unfold isZeroString isSulNumberFieldValid
    simp only [skipWhile_eq, e1]
    split
    · rename_i h; simp at h
    · split
      · rename_i h; simp at h
      · rw [e2, List.all_eq_true]
        intro b hb; exact (isSpace_iff b).2 (ht b hb)
  · rw [h] at e; cases e

theorem parseRevision_some (v : Bytes) (hv : v.length = 5) (M m : Nat) :
    parseRevision v = some (M, m) ↔ Spec.Version v M m := by
  match v, hv with
  | [a, b, c, d, e], _ =>
    unfold parseRevision Spec.Version
    constructor
    · intro h
      split at h
      · rename_i hv
        simp only [List.cons.injEq, and_true] at hv
        obtain ⟨rfl, rfl, rfl, rfl, rfl⟩ := hv
        cases h
        exact ⟨0x31, 0x30, 0x30, rfl, by unfold Spec.Digits; decide, by decide, by decide⟩
      · simp only at h
        split at h
        · rename_i hc
          simp only [Bool.and_eq_true, decide_eq_true_eq] at hc
          obtain ⟨⟨⟨⟨rfl, hb⟩, rfl⟩, hd⟩, he⟩ := hc
          cases h
          rw [isDigit_iff] at hb hd he
          refine ⟨b, d, e, rfl, ?_, by simp [Spec.decimal], by simp [Spec.decimal]⟩
          intro x hx
          simp at hx
          rcases hx with rfl | rfl | rfl <;> assumption
        · cases h
    · rintro ⟨x, y, z, h, hd, rfl, rfl⟩
      simp only [List.cons.injEq, and_true] at h
      obtain ⟨rfl, rfl, rfl, rfl, rfl⟩ := h
      have hb := hd b (by simp)
      have hdd := hd d (by simp)
      have he := hd e (by simp)
      split
      · rename_i hv
        simp only [List.cons.injEq, and_true] at hv
        obtain ⟨_, rfl, _, rfl, rfl⟩ := hv
        simp [Spec.decimal]
      · simp only [decide_true, Bool.and_true, (isDigit_iff _).2 hb,
          (isDigit_iff _).2 hdd, (isDigit_iff _).2 he, if_true]
        simp [Spec.decimal]

theorem version_one_zero (v : Bytes) : Spec.Version v 1 0 ↔ v = [0x56, 0x31, 0x2e, 0x30, 0x30] := by
  constructor
  · rintro ⟨a, b, c, rfl, hd, h1, h2⟩
    have ha := hd a (by simp)
    have hb := hd b (by simp)
    have hc := hd c (by simp)
    simp [Spec.decimal] at h1 h2
    have : a = 0x31 := by apply BitVec.eq_of_toNat_eq; simp; omega
    have : b = 0x30 := by apply BitVec.eq_of_toNat_eq; simp; omega
    have : c = 0x30 := by apply BitVec.eq_of_toNat_eq; simp; omega
    subst_vars; rfl
  · rintro rfl
    exact ⟨0x31, 0x30, 0x30, rfl, by unfold Spec.Digits; decide, by decide, by decide⟩

theorem version_unique {v : Bytes} {a b c d : Nat} (h : Spec.Version v a b)
    (h' : Spec.Version v c d) : a = c ∧ b = d := by
  obtain ⟨x, y, z, rfl, _, rfl, rfl⟩ := h
  obtain ⟨x', y', z', h, _, rfl, rfl⟩ := h'
  simp only [List.cons.injEq, and_true, true_and] at h
  obtain ⟨rfl, rfl, rfl⟩ := h
  exact ⟨rfl, rfl⟩

/-- Everything `sulv1` does, in terms of the fields. -/
theorem sulv1_fields {xs seq ver struct maxlen id : Bytes}
    (h : Spec.Label xs seq ver struct maxlen id) (out : Sul) :
    sulv1 xs out =
      (if 0 < numField seq ∧ 0 ≤ numField maxlen ∧ struct = Spec.RECORD then .ok
        else .inconsistent,
       { out with
         seqnum := if 0 < numField seq then numField seq else out.seqnum
         maxlen := if 0 < numField maxlen then numField maxlen
           else if numField maxlen = 0 ∧ 0 < numField seq ∧ struct = Spec.RECORD then 0
           else out.maxlen
         layout := if struct = Spec.RECORD then true else out.layout
         id := id }) := by
  obtain ⟨rest, rfl⟩ := h.eq
  have h4 := h.seq4
  have h5 := h.ver5
  have h6 := h.struct6
  have h7 := h.maxlen5
  have h8 := h.id60
  have e1 : (seq ++ ver ++ struct ++ maxlen ++ id ++ rest).take 4 = seq := by
    simp only [List.append_assoc]; exact List.take_left' h4
  have e2 : ((seq ++ ver ++ struct ++ maxlen ++ id ++ rest).drop 9).take 6 = struct := by
    rw [show seq ++ ver ++ struct ++ maxlen ++ id ++ rest
      = (seq ++ ver) ++ (struct ++ (maxlen ++ id ++ rest)) by simp,
      List.drop_left' (by simp [h4, h5]), List.take_left' h6]
  have e3 : ((seq ++ ver ++ struct ++ maxlen ++ id ++ rest).drop 15).take 5 = maxlen := by
    rw [show seq ++ ver ++ struct ++ maxlen ++ id ++ rest
      = (seq ++ ver ++ struct) ++ (maxlen ++ (id ++ rest)) by simp,
      List.drop_left' (by simp [h4, h5, h6]), List.take_left' h7]
  have e4 : ((seq ++ ver ++ struct ++ maxlen ++ id ++ rest).drop 20).take 60 = id := by
    rw [show seq ++ ver ++ struct ++ maxlen ++ id ++ rest
      = (seq ++ ver ++ struct ++ maxlen) ++ (id ++ rest) by simp,
      List.drop_left' (by simp [h4, h5, h6, h7]), List.take_left' h8]
  unfold sulv1
  simp only [e1, e2, e3, e4]
  have n1 : (if isNumberString (cstr seq) then atoi (cstr seq) else -1) = numField seq := rfl
  have n2 : (if isNumberString (cstr maxlen) then atoi (cstr maxlen) else -1)
    = numField maxlen := rfl
  simp only [n1, n2]
  have hz := zero_confirmed maxlen
  have hr : ([0x52, 0x45, 0x43, 0x4f, 0x52, 0x44] : Bytes) = Spec.RECORD := rfl
  simp only [hr]
  generalize numField seq = q at *
  generalize numField maxlen = l at *
  generalize isZeroString (cstr maxlen) = z at *
  obtain ⟨sn, ma, mi, la, ml, i⟩ := out
  by_cases hq : 0 < q <;> by_cases hl : 0 < l <;> by_cases hs : struct = Spec.RECORD <;>
    by_cases hl0 : l = 0 <;> simp_all <;> (try omega)
  all_goals grind

open Classical in
/-- The four ways a label call can end, in terms of the fields. -/
theorem storageLabel_fields {xs seq ver struct maxlen id : Bytes}
    (h : Spec.Label xs seq ver struct maxlen id) :
    storageLabel xs =
      if (∀ M m, Spec.Version ver M m → (M, m) = (1, 0)) then
        .label (¬ ((∃ k, 0 < k ∧ Spec.Number seq k) ∧ Spec.Version ver 1 0 ∧
            struct = Spec.RECORD ∧ ∃ k, Spec.Number maxlen k))
          (if 0 < numField seq then numField seq else -1) 1 0 (struct = Spec.RECORD)
          (if 0 < numField maxlen then numField maxlen else 0) (cstr id)
      else .unparsable := by
  obtain ⟨rest, hx⟩ := h.eq
  have hlen : ¬ xs.length < 80 := by
    rw [hx]; simp [h.seq4, h.ver5, h.struct6, h.maxlen5, h.id60]; omega
  have ev : (xs.drop 4).take 5 = ver := by
    rw [hx, show seq ++ ver ++ struct ++ maxlen ++ id ++ rest
      = seq ++ (ver ++ (struct ++ maxlen ++ id ++ rest)) by simp,
      List.drop_left' h.seq4, List.take_left' h.ver5]
  have hnum : ∀ f, (∃ k, Spec.Number f k) ↔ 0 ≤ numField f := by
    intro f
    rcases numField_cases f with ⟨k, hk, e⟩ | ⟨hk, e⟩
    · rw [e]; simp; exact ⟨k, hk⟩
    · rw [e]; simp; intro k hk'; exact hk ⟨k, hk'⟩
  have hnum' : ∀ f, (∃ k, 0 < k ∧ Spec.Number f k) ↔ 0 < numField f := by
    intro f
    rcases numField_cases f with ⟨k, hk, e⟩ | ⟨hk, e⟩
    · rw [e]; constructor
      · rintro ⟨k', hp, hk'⟩; rw [number_unique hk hk']; exact_mod_cast hp
      · intro hp; exact ⟨k, by exact_mod_cast hp, hk⟩
    · rw [e]; simp; intro k _ hk'; exact hk ⟨k, hk'⟩
  unfold storageLabel
  rw [if_neg hlen]
  simp only [dlisSul, ev, sulv1_fields h, hnum, hnum']
  cases hr : parseRevision ver with
  | some Mm =>
    obtain ⟨M, m⟩ := Mm
    have hv := (parseRevision_some ver h.ver5 M m).1 hr
    by_cases h10 : (M, m) = (1, 0)
    · obtain ⟨rfl, rfl⟩ := Prod.mk.inj h10
      have : ∀ M m, Spec.Version ver M m → (M, m) = (1, 0) := by
        intro M m hv'
        obtain ⟨rfl, rfl⟩ := version_unique hv hv'; rfl
      rw [if_pos this]
      rcases lt_trichotomy 0 (numField maxlen) with hl | hl | hl
      · have hl1 : 0 ≤ numField maxlen := by omega
        by_cases hq : 0 < numField seq <;> by_cases hs : struct = Spec.RECORD <;>
          simp [hq, hl, hl1, hs, hv]
      · by_cases hq : 0 < numField seq <;> by_cases hs : struct = Spec.RECORD <;>
          simp [hq, ← hl, hs, hv]
      · have hl1 : ¬ 0 ≤ numField maxlen := by omega
        have hl2 : ¬ 0 < numField maxlen := by omega
        have hl3 : ¬ numField maxlen = 0 := by omega
        by_cases hq : 0 < numField seq <;> by_cases hs : struct = Spec.RECORD <;>
          simp [hq, hl1, hl2, hl3, hs]
    · have : ¬ ∀ M m, Spec.Version ver M m → (M, m) = (1, 0) := fun hc => h10 (hc _ _ hv)
      rw [if_neg this]
      simp only [Option.getD_some, h10, if_false]
  | none =>
    have hv : ∀ M m, ¬ Spec.Version ver M m := by
      intro M m hv
      rw [(parseRevision_some ver h.ver5 M m).2 hv] at hr; cases hr
    rw [if_pos (fun M m hv' => absurd hv' (hv M m))]
    by_cases hq : 0 < numField seq <;> by_cases hl : 0 < numField maxlen <;>
        by_cases hl0 : numField maxlen = 0 <;> by_cases hs : struct = Spec.RECORD <;>
        simp [hq, hl, hl0, hs, hv]

/-! ### theorems -/

/-- C13.  A label is accepted without a warning exactly when it is well-formed, and
then the values are those written in its fields: sequence number (positive), version
1.0, layout RECORD, maximum length (0 = unlimited), and the identifier up to a NUL. -/
theorem c13_well_formed {xs seq ver struct maxlen id : Bytes}
    (h : Spec.Label xs seq ver struct maxlen id)
    (q M m : Int) (lay : Bool) (l : Int) (s : Bytes) :
    storageLabel xs = .label false q M m lay l s ↔
      (∃ k : Nat, Spec.Number seq k ∧ 0 < k ∧ q = k) ∧
      Spec.Version ver 1 0 ∧ M = 1 ∧ m = 0 ∧
      struct = Spec.RECORD ∧ lay = true ∧
      (∃ k : Nat, Spec.Number maxlen k ∧ l = k) ∧ Spec.UptoNul s id := by
  classical
  rw [uptoNul_iff]
  rw [storageLabel_fields h]
  have n1 := numField_cases seq
  have n2 := numField_cases maxlen
  constructor
  · intro hh
    split at hh
    · simp only [LabelResult.label.injEq] at hh
      obtain ⟨hw, rfl, rfl, rfl, rfl, rfl, rfl⟩ := hh
      simp only [decide_not, Bool.not_eq_false', decide_eq_true_eq] at hw
      obtain ⟨⟨k, hk, hn⟩, hv, hs, ⟨k', hn'⟩⟩ := hw
      refine ⟨⟨k, hn, hk, ?_⟩, hv, rfl, rfl, hs, by simp [hs], ⟨k', hn', ?_⟩, rfl⟩
      · rcases n1 with ⟨j, hj, e⟩ | ⟨hj, _⟩
        · rw [e, number_unique hn hj, if_pos]; rw [← number_unique hn hj]; exact_mod_cast hk
        · exact absurd ⟨k, hn⟩ hj
      · rcases n2 with ⟨j, hj, e⟩ | ⟨hj, _⟩
        · rw [e, number_unique hn' hj]; split <;> omega
        · exact absurd ⟨k', hn'⟩ hj
    · cases hh
  · rintro ⟨⟨k, hn, hk, rfl⟩, hv, rfl, rfl, hs, rfl, ⟨k', hn', rfl⟩, rfl⟩
    rw [if_pos (fun M m hv' => by obtain ⟨rfl, rfl⟩ := version_unique hv hv'; rfl)]
    simp only [LabelResult.label.injEq, decide_eq_false_iff_not, not_not, true_and, and_true,
      decide_eq_true_eq]
    refine ⟨⟨⟨k, hk, hn⟩, hv, hs, k', hn'⟩, ?_, hs, ?_⟩
    · rcases n1 with ⟨j, hj, e⟩ | ⟨hj, _⟩
      · rw [e, number_unique hn hj, if_pos]; rw [← number_unique hn hj]; exact_mod_cast hk
      · exact absurd ⟨k, hn⟩ hj
    · rcases n2 with ⟨j, hj, e⟩ | ⟨hj, _⟩
      · rw [e, number_unique hn' hj]; split <;> omega
      · exact absurd ⟨k', hn'⟩ hj

/-- C13.  A label with a defect is returned with a warning; every value is the one
in its field when that field is good, and the documented default otherwise
(sequence -1, layout unknown, length 0). -/
theorem c13_defaulted {xs seq ver struct maxlen id : Bytes}
    (h : Spec.Label xs seq ver struct maxlen id)
    {w : Bool} {q M m : Int} {lay : Bool} {l : Int} {s : Bytes}
    (hr : storageLabel xs = .label w q M m lay l s) :
    (∀ k : Nat, 0 < k → Spec.Number seq k → q = k) ∧
    ((¬ ∃ k : Nat, 0 < k ∧ Spec.Number seq k) → q = -1) ∧
    M = 1 ∧ m = 0 ∧
    (lay = true ↔ struct = Spec.RECORD) ∧
    (∀ k : Nat, Spec.Number maxlen k → l = k) ∧
    ((¬ ∃ k : Nat, Spec.Number maxlen k) → l = 0) ∧
    Spec.UptoNul s id ∧
    (w = true ↔ ¬ ((∃ k, 0 < k ∧ Spec.Number seq k) ∧ Spec.Version ver 1 0 ∧
      struct = Spec.RECORD ∧ ∃ k, Spec.Number maxlen k)) := by
  classical
  rw [storageLabel_fields h] at hr
  have n1 := numField_cases seq
  have n2 := numField_cases maxlen
  split at hr
  · simp only [LabelResult.label.injEq] at hr
    obtain ⟨rfl, rfl, rfl, rfl, rfl, rfl, rfl⟩ := hr
    refine ⟨?_, ?_, rfl, rfl, by simp, ?_, ?_, cstr_uptoNul id, by simp⟩
    · intro k hk hn
      rcases n1 with ⟨j, hj, e⟩ | ⟨hj, _⟩
      · rw [e, number_unique hn hj, if_pos]; rw [← number_unique hn hj]; exact_mod_cast hk
      · exact absurd ⟨k, hn⟩ hj
    · intro hn
      rcases n1 with ⟨j, hj, e⟩ | ⟨hj, e⟩
      · rw [e, if_neg]; intro hp; exact hn ⟨j, by exact_mod_cast hp, hj⟩
      · rw [e]; simp
    · intro k hn
      rcases n2 with ⟨j, hj, e⟩ | ⟨hj, _⟩
      · rw [e, number_unique hn hj]; split <;> omega
      · exact absurd ⟨k, hn⟩ hj
    · intro hn
      rcases n2 with ⟨j, hj, e⟩ | ⟨hj, e⟩
      · exact absurd ⟨j, hj⟩ hn
      · rw [e]; simp
  · cases hr

/-- C13.  Buffers shorter than 80 bytes are refused, and nothing else is. -/
theorem c13_too_small (xs : Bytes) : storageLabel xs = .tooSmall ↔ xs.length < 80 := by
  unfold storageLabel
  split
  · simp [*]
  · simp only
    split <;> simp [*]

/-- C13.  A label is rejected exactly when its version is written correctly but is
not 1.0. -/
theorem c13_rejected {xs seq ver struct maxlen id : Bytes}
    (h : Spec.Label xs seq ver struct maxlen id) :
    storageLabel xs = .unparsable ↔
      ∃ M m, Spec.Version ver M m ∧ ¬ (M = 1 ∧ m = 0) := by
  classical
  rw [storageLabel_fields h]
  split
  · rename_i hc
    constructor
    · intro h'; cases h'
    · rintro ⟨M, m, hv, hne⟩
      have := hc M m hv
      exact absurd (Prod.mk.inj this) hne
  · rename_i hc
    simp only [true_iff]
    by_contra hcon
    apply hc
    intro M m hv
    by_contra hne
    exact hcon ⟨M, m, hv, fun ⟨a, b⟩ => hne (by rw [a, b])⟩

/-- Every buffer of at least 80 bytes has the five fields of a label. -/
theorem c13_label_exists (xs : Bytes) (h : 80 ≤ xs.length) :
    ∃ seq ver struct maxlen id, Spec.Label xs seq ver struct maxlen id := by
  refine ⟨xs.take 4, (xs.drop 4).take 5, (xs.drop 9).take 6, (xs.drop 15).take 5,
    (xs.drop 20).take 60, ⟨xs.drop 80, ?_⟩, ?_, ?_, ?_, ?_, ?_⟩
  · have key : ∀ (a b : Nat), xs.drop a = (xs.drop a).take b ++ xs.drop (a + b) := by
      intro a b; rw [← List.drop_drop, List.take_append_drop]
    conv_lhs => rw [← List.take_append_drop 4 xs, key 4 5, key 9 6, key 15 5, key 20 60]
    simp
  all_goals simp; omega

/-- Non-trivial case: the label of the documentation comment (dlisio.cpp:106-111). -/
example : storageLabel
    ([0x20, 0x20, 0x20, 0x31] ++ [0x56, 0x31, 0x2e, 0x30, 0x30] ++
      [0x52, 0x45, 0x43, 0x4f, 0x52, 0x44] ++ [0x20, 0x38, 0x31, 0x39, 0x32] ++
      List.replicate 60 0x41) = .label false 1 1 0 true 8192 (List.replicate 60 0x41) :=
  (c13_well_formed (seq := [0x20, 0x20, 0x20, 0x31]) (ver := [0x56, 0x31, 0x2e, 0x30, 0x30])
    (struct := [0x52, 0x45, 0x43, 0x4f, 0x52, 0x44]) (maxlen := [0x20, 0x38, 0x31, 0x39, 0x32])
    (id := List.replicate 60 0x41)
    ⟨⟨[], by simp⟩, rfl, rfl, rfl, rfl, by simp⟩ 1 1 0 true 8192 _).2
    ⟨⟨1, ⟨[0x20, 0x20, 0x20], [0x31], [], [], by simp, by unfold Spec.Blank; decide,
        by unfold Spec.Digits; decide, by simp, by simp [Spec.Blank], by simp, by decide⟩,
        by decide, rfl⟩,
      (version_one_zero _).2 rfl, rfl, rfl, rfl, rfl,
      ⟨8192, ⟨[0x20], [0x38, 0x31, 0x39, 0x32], [], [], by simp, by unfold Spec.Blank; decide,
        by unfold Spec.Digits; decide, by simp, by simp [Spec.Blank], by simp, by decide⟩, rfl⟩,
      (uptoNul_iff _ _).2 (by decide)⟩

end Dlisio.Dlis
