/-
C22: fingerprints identify objects.
-/
import Verif.Dlis.Fingerprint
import Verif.Dlis.SulProps

namespace Dlisio.Dlis

namespace Spec

/-- The documented text of a fingerprint: `T.<type>-I.<id>-O.<origin>-C.<copy>`, with
the numbers written in decimal without leading zeros. -/
def Fingerprint (type id : Bytes) (origin copy : Nat) (fp : Bytes) : Prop :=
  ∃ o c : Bytes, Canonical o origin ∧ Canonical c copy ∧
    fp = ascii "T." ++ type ++ ascii "-I." ++ id ++ ascii "-O." ++ o ++ ascii "-C." ++ c
where
  /-- decimal digits without superfluous zeros -/
  Canonical (ds : Bytes) (n : Nat) : Prop :=
    Digits ds ∧ ds ≠ [] ∧ decimal ds = n ∧ (ds.head? = some 0x30 → ds.length = 1)
  /-- text as bytes -/
  ascii (s : String) : Bytes := s.toList.map fun c => BitVec.ofNat 8 c.toNat

end Spec

theorem decimal_append (a b : Bytes) :
    Spec.decimal (a ++ b) = Spec.decimal a * 10 ^ b.length + Spec.decimal b := by
  induction a with
  | nil => simp [Spec.decimal]
  | cons x t ih =>
    simp only [List.cons_append, Spec.decimal, ih, List.length_append, pow_add]; ring

theorem digit_toNat (d : Nat) (h : d < 10) : (BitVec.ofNat 8 (48 + d) : Byte).toNat = 48 + d := by
  simp; omega

theorem toDecimal_spec (n : Nat) : Spec.Digits (toDecimal n) ∧ toDecimal n ≠ [] ∧
    Spec.decimal (toDecimal n) = n ∧ ((toDecimal n).head? = some 0x30 → n = 0) := by
  induction n using Nat.strongRecOn with
  | _ n ih =>
    rw [toDecimal]
    split
    · rename_i h
      have := digit_toNat n h
      refine ⟨?_, by simp, ?_, ?_⟩
      · intro b hb
        rw [List.mem_singleton] at hb; subst hb; rw [this]; omega
      · simp only [Spec.decimal, this]; simp
      · simp only [List.head?_cons, Option.some.injEq]
        intro h; have h2 := congrArg BitVec.toNat h
        rw [this] at h2; simp at h2; exact h2
    · rename_i h
      obtain ⟨h1, h2, h3, h4⟩ := ih (n / 10) (by omega)
      have := digit_toNat (n % 10) (by omega)
      refine ⟨?_, by simp, ?_, ?_⟩
      · intro b hb
        rcases List.mem_append.1 hb with hb | hb
        · exact h1 b hb
        · rw [List.mem_singleton] at hb; subst hb; rw [this]; omega
      · rw [decimal_append, h3]; simp only [Spec.decimal, this]; simp; omega
      · rw [List.head?_append_of_ne_nil _ h2]
        intro h'; have := h4 h'; omega

theorem toDecimal_injective {a b : Nat} (h : toDecimal a = toDecimal b) : a = b := by
  rw [← (toDecimal_spec a).2.2.1, h, (toDecimal_spec b).2.2.1]

theorem toDecimal_canonical (n : Nat) : Spec.Fingerprint.Canonical (toDecimal n) n := by
  obtain ⟨h1, h2, h3, h4⟩ := toDecimal_spec n
  refine ⟨h1, h2, h3, fun h => ?_⟩
  have := h4 h; subst this; rw [toDecimal]; simp

theorem decimal_pos {d : Byte} {ds : Bytes} (hd : 48 ≤ d.toNat) (h0 : d ≠ 0x30) :
    10 ^ ds.length ≤ Spec.decimal (d :: ds) := by
  have : 1 ≤ d.toNat - 48 := by
    have : d.toNat ≠ 48 := fun e => h0 (BitVec.eq_of_toNat_eq (by simpa using e))
    omega
  rw [Spec.decimal]
  calc 10 ^ ds.length = 1 * 10 ^ ds.length := by ring
    _ ≤ (d.toNat - 48) * 10 ^ ds.length := Nat.mul_le_mul_right _ this
    _ ≤ _ := Nat.le_add_right _ _

theorem decimal_lt {ds : Bytes} (h : Spec.Digits ds) : Spec.decimal ds < 10 ^ ds.length := by
  induction ds with
  | nil => simp [Spec.decimal]
  | cons d t ih =>
    have hd := h d (by simp)
    have := ih (fun b hb => h b (by simp [hb]))
    rw [Spec.decimal, List.length_cons, pow_succ]
    have : (d.toNat - 48) * 10 ^ t.length ≤ 9 * 10 ^ t.length :=
      Nat.mul_le_mul_right _ (by omega)
    omega

theorem digits_injective {a b : Bytes} (ha : Spec.Digits a) (hb : Spec.Digits b)
    (hl : a.length = b.length) (h : Spec.decimal a = Spec.decimal b) : a = b := by
  induction a generalizing b with
  | nil => cases b with
    | nil => rfl
    | cons => simp at hl
  | cons x t ih =>
    cases b with
    | nil => simp at hl
    | cons y u =>
      simp only [List.length_cons, Nat.add_right_cancel_iff] at hl
      have hx := ha x (by simp)
      have hy := hb y (by simp)
      have ht : Spec.Digits t := fun b hb => ha b (by simp [hb])
      have hu : Spec.Digits u := fun b h => hb b (by simp [h])
      have h1 := decimal_lt ht
      have h2 := decimal_lt hu
      simp only [Spec.decimal, hl] at h h1
      have key : x.toNat - 48 = y.toNat - 48 ∧ Spec.decimal t = Spec.decimal u := by
        have hp : 0 < 10 ^ u.length := by positivity
        constructor
        · have e1 := congrArg (· / 10 ^ u.length) h
          rwa [Nat.mul_comm, Nat.mul_add_div hp, Nat.mul_comm, Nat.mul_add_div hp,
            Nat.div_eq_of_lt h1, Nat.div_eq_of_lt h2, Nat.add_zero, Nat.add_zero] at e1
        · have e1 := congrArg (· % 10 ^ u.length) h
          rwa [Nat.mul_comm, Nat.mul_add_mod, Nat.mul_comm, Nat.mul_add_mod,
            Nat.mod_eq_of_lt h1, Nat.mod_eq_of_lt h2] at e1
      have hxy : x = y := BitVec.eq_of_toNat_eq (by omega)
      rw [hxy, ih ht hu hl key.2]

theorem canonical_unique {a b : Bytes} {n : Nat} (ha : Spec.Fingerprint.Canonical a n)
    (hb : Spec.Fingerprint.Canonical b n) : a = b := by
  obtain ⟨a1, a2, a3, a4⟩ := ha
  obtain ⟨b1, b2, b3, b4⟩ := hb
  refine digits_injective a1 b1 ?_ (by rw [a3, b3])
  obtain ⟨x, t, rfl⟩ := List.exists_cons_of_ne_nil a2
  obtain ⟨y, u, rfl⟩ := List.exists_cons_of_ne_nil b2
  have hx := a1 x (by simp)
  have hy := b1 y (by simp)
  have la := decimal_lt a1
  have lb := decimal_lt b1
  simp only [List.head?_cons, Option.some.injEq] at a4 b4
  have mono : ∀ i j : Nat, 10 ^ i < 10 ^ (j + 1) → i ≤ j := fun i j h =>
    Nat.lt_succ_iff.1 ((Nat.pow_lt_pow_iff_right (by omega)).1 h)
  simp only [List.length_cons] at *
  by_cases hx0 : x = 0x30
  · have := a4 hx0
    by_cases hy0 : y = 0x30
    · have := b4 hy0; omega
    · have p := decimal_pos (ds := u) hy.1 hy0
      have := mono u.length t.length (by omega)
      omega
  · have p := decimal_pos (ds := t) hx.1 hx0
    have h1 := mono t.length u.length (by omega)
    by_cases hy0 : y = 0x30
    · have := b4 hy0; omega
    · have p := decimal_pos (ds := u) hy.1 hy0
      have := mono u.length t.length (by omega)
      omega

theorem fingerprint_eq (type id : Bytes) (origin copy : Nat) (ht : type ≠ []) :
    fingerprint type id origin copy = some (
      Spec.Fingerprint.ascii "T." ++ type ++ Spec.Fingerprint.ascii "-I." ++ id ++
        Spec.Fingerprint.ascii "-O." ++ toDecimal origin ++ Spec.Fingerprint.ascii "-C." ++
        toDecimal copy) := by
  have h0 : type.length ≠ 0 := by simpa using ht
  have hi : toDecimalInt (origin : Int) = toDecimal origin := by simp [toDecimalInt]
  have hneg : ¬ (origin : Int) < 0 := by omega
  have a1 : Spec.Fingerprint.ascii "T." = [0x54, 0x2e] := by decide
  have a2 : Spec.Fingerprint.ascii "-I." = [0x2d, 0x49, 0x2e] := by decide
  have a3 : Spec.Fingerprint.ascii "-O." = [0x2d, 0x4f, 0x2e] := by decide
  have a4 : Spec.Fingerprint.ascii "-C." = [0x2d, 0x43, 0x2e] := by decide
  simp only [fingerprint, fingerprintSize, hneg, h0, if_false, hi, fingerprintBytes, a1, a2, a3, a4]
  rw [List.take_append_of_le_length (by simp; omega), List.take_of_length_le (by simp; omega)]
  simp

/-- C22.  The fingerprint of an object of a (non-empty) type is the documented text. -/
theorem c22_text (type id : Bytes) (origin copy : Nat) (ht : type ≠ []) (fp : Bytes) :
    fingerprint type id origin copy = some fp ↔ Spec.Fingerprint type id origin copy fp := by
  rw [fingerprint_eq _ _ _ _ ht, Option.some.injEq]
  constructor
  · rintro rfl
    exact ⟨_, _, toDecimal_canonical origin, toDecimal_canonical copy, rfl⟩
  · rintro ⟨o, c, ho, hc, rfl⟩
    rw [canonical_unique ho (toDecimal_canonical origin),
      canonical_unique hc (toDecimal_canonical copy)]

/-- C22.  The announced size is exactly the number of bytes written. -/
theorem c22_size (type id : Bytes) (origin : Int) (copy n : Nat)
    (h : fingerprintSize type id origin copy = some n) :
    ∃ bs, fingerprintBytes type id origin copy = some bs ∧ bs.length = n := by
  unfold fingerprintSize at h
  split at h
  · cases h
  · split at h
    · cases h
    · rename_i h0
      cases h
      exact ⟨_, by rw [fingerprintBytes, if_neg h0], by simp; omega⟩

/-- C22.  Exactly the calls with an empty type, a negative origin or a copy number
outside 0..255 are refused. -/
theorem c22_refused (type id : Bytes) (origin copy : Int) :
    pyFingerprint type id origin copy = none ↔
      type = [] ∨ origin < 0 ∨ copy < 0 ∨ 255 < copy := by
  unfold pyFingerprint
  split
  · simp; omega
  · split
    · simp; omega
    · rename_i h1 h2
      by_cases ht : type = []
      · simp [ht, fingerprint, fingerprintSize]
      · by_cases ho : origin < 0
        · simp [ho, fingerprint, fingerprintSize]
        · obtain ⟨o, rfl⟩ := Int.eq_ofNat_of_zero_le (by omega : 0 ≤ origin)
          rw [fingerprint_eq _ _ _ _ ht]
          simp; exact ⟨ht, by omega, by omega⟩

/-- Trailing digits after a non-digit are determined. -/
theorem append_digits_inj {x y a b : Bytes} {c : Byte} (hc : ¬ (48 ≤ c.toNat ∧ c.toNat ≤ 57))
    (ha : Spec.Digits a) (hb : Spec.Digits b) (h : x ++ [c] ++ a = y ++ [c] ++ b) :
    x = y ∧ a = b := by
  have h' := congrArg List.reverse h
  simp only [List.reverse_append, List.reverse_cons, List.reverse_nil, List.nil_append,
    List.singleton_append] at h'
  have ha' : ∀ d ∈ a.reverse, isDigit d = true := fun d hd =>
    (isDigit_iff d).2 (ha d (by simpa using hd))
  have hb' : ∀ d ∈ b.reverse, isDigit d = true := fun d hd =>
    (isDigit_iff d).2 (hb d (by simpa using hd))
  have hc' : isDigit c = false := by rw [Bool.eq_false_iff, ne_eq, isDigit_iff]; exact hc
  have e1 := dropWhile_append_of (r := c :: x.reverse) ha' (by simp [hc'])
  have e2 := dropWhile_append_of (r := c :: y.reverse) hb' (by simp [hc'])
  rw [h', e2] at e1
  simp only [List.cons.injEq, true_and] at e1
  have hxy : x = y := by
    have := congrArg List.reverse e1
    simpa using this.symm
  subst hxy
  exact ⟨rfl, List.append_cancel_left h⟩

theorem fingerprint_split {t i t' i' : Bytes} {o c o' c' : Nat} (ht : t ≠ []) (ht' : t' ≠ [])
    (h : fingerprint t i o c = fingerprint t' i' o' c') :
    t ++ Spec.Fingerprint.ascii "-I." ++ i = t' ++ Spec.Fingerprint.ascii "-I." ++ i' ∧
      o = o' ∧ c = c' := by
  rw [fingerprint_eq _ _ _ _ ht, fingerprint_eq _ _ _ _ ht', Option.some.injEq] at h
  have a3 : Spec.Fingerprint.ascii "-O." = [0x2d, 0x4f] ++ [0x2e] := by decide
  have a4 : Spec.Fingerprint.ascii "-C." = [0x2d, 0x43] ++ [0x2e] := by decide
  rw [a3, a4] at h
  have e1 := append_digits_inj (c := 0x2e) (by decide)
    (x := Spec.Fingerprint.ascii "T." ++ t ++ Spec.Fingerprint.ascii "-I." ++ i ++
      ([0x2d, 0x4f] ++ [0x2e]) ++ toDecimal o ++ [0x2d, 0x43])
    (y := Spec.Fingerprint.ascii "T." ++ t' ++ Spec.Fingerprint.ascii "-I." ++ i' ++
      ([0x2d, 0x4f] ++ [0x2e]) ++ toDecimal o' ++ [0x2d, 0x43])
    (toDecimal_spec c).1 (toDecimal_spec c').1 (by simpa using h)
  have e2 := List.append_cancel_right e1.1
  have e3 := append_digits_inj (c := 0x2e) (by decide)
    (x := Spec.Fingerprint.ascii "T." ++ t ++ Spec.Fingerprint.ascii "-I." ++ i ++ [0x2d, 0x4f])
    (y := Spec.Fingerprint.ascii "T." ++ t' ++ Spec.Fingerprint.ascii "-I." ++ i' ++ [0x2d, 0x4f])
    (toDecimal_spec o).1 (toDecimal_spec o').1 (by simpa using e2)
  have e4 := List.append_cancel_right e3.1
  refine ⟨?_, toDecimal_injective e3.2, toDecimal_injective e1.2⟩
  simp only [List.append_assoc] at e4 ⊢
  exact List.append_cancel_left e4

/-- C22.  Objects of the same type have the same fingerprint exactly when origin, copy
number and identifier are equal. -/
theorem c22_same_type (type i i' : Bytes) (o c o' c' : Nat) (ht : type ≠ []) :
    fingerprint type i o c = fingerprint type i' o' c' ↔ i = i' ∧ o = o' ∧ c = c' := by
  constructor
  · intro h
    obtain ⟨h1, h2, h3⟩ := fingerprint_split ht ht h
    exact ⟨List.append_cancel_left h1, h2, h3⟩
  · rintro ⟨rfl, rfl, rfl⟩; rfl

/-- a marker without a border: text before its first occurrence is determined -/
theorem before_marker_inj {a b c : Byte} (hab : a ≠ b) (hac : a ≠ c)
    {t t' i i' : Bytes}
    (ht : ¬ ∃ p q, t = p ++ [a, b, c] ++ q) (ht' : ¬ ∃ p q, t' = p ++ [a, b, c] ++ q)
    (h : t ++ [a, b, c] ++ i = t' ++ [a, b, c] ++ i') : t = t' ∧ i = i' := by
  induction t generalizing t' with
  | nil =>
    match t' with
    | [] => simpa using h
    | [x] =>
      simp only [List.nil_append, List.cons_append, List.cons.injEq] at h
      exact absurd h.2.1 (Ne.symm hab)
    | [x, y] =>
      simp only [List.nil_append, List.cons_append, List.cons.injEq] at h
      exact absurd h.2.2.1 (Ne.symm hac)
    | x :: y :: z :: r =>
      simp only [List.nil_append, List.cons_append, List.cons.injEq] at h
      obtain ⟨rfl, rfl, rfl, _⟩ := h
      exact absurd ⟨[], r, by simp⟩ ht'
  | cons x u ih =>
    match t' with
    | [] =>
      exfalso
      match u with
      | [] =>
        simp only [List.nil_append, List.cons_append, List.cons.injEq] at h
        exact absurd h.2.1 hab
      | [y] =>
        simp only [List.nil_append, List.cons_append, List.cons.injEq] at h
        exact absurd h.2.2.1 hac
      | y :: z :: r =>
        simp only [List.nil_append, List.cons_append, List.cons.injEq] at h
        obtain ⟨rfl, rfl, rfl, _⟩ := h
        exact ht ⟨[], r, by simp⟩
    | y :: r =>
      simp only [List.cons_append, List.cons.injEq] at h
      obtain ⟨rfl, h⟩ := h
      have := ih (t' := r)
        (fun ⟨p, q, e⟩ => ht ⟨x :: p, q, by simp [e]⟩)
        (fun ⟨p, q, e⟩ => ht' ⟨x :: p, q, by simp [e]⟩) h
      exact ⟨by rw [this.1], this.2⟩

/-- C22 across types: for types that do not contain the text `-I.`, equal fingerprints
mean equal type, identifier, origin and copy number. Missing for the full statement:
types that contain `-I.`, for which it is false (`c22_types_defect`). -/
theorem c22_types_partial (t t' i i' : Bytes) (o c o' c' : Nat) (ht : t ≠ []) (ht' : t' ≠ [])
    (hm : ¬ ∃ p q, t = p ++ Spec.Fingerprint.ascii "-I." ++ q)
    (hm' : ¬ ∃ p q, t' = p ++ Spec.Fingerprint.ascii "-I." ++ q)
    (h : fingerprint t i o c = fingerprint t' i' o' c') :
    t = t' ∧ i = i' ∧ o = o' ∧ c = c' := by
  obtain ⟨h1, h2, h3⟩ := fingerprint_split ht ht' h
  have a2 : Spec.Fingerprint.ascii "-I." = [0x2d, 0x49, 0x2e] := by decide
  rw [a2] at h1 hm hm'
  obtain ⟨h4, h5⟩ := before_marker_inj (by decide) (by decide) hm hm' h1
  exact ⟨h4, h5, h2, h3⟩

/-- C22, defect: for every pair of non-empty texts `a` and text `b`, `c` the object `c`
of type `a-I.b` has the fingerprint of the object `b-I.c` of type `a`. -/
theorem c22_types_defect (a b i : Bytes) (o c : Nat) (ha : a ≠ []) :
    fingerprint (a ++ Spec.Fingerprint.ascii "-I." ++ b) i o c =
      fingerprint a (b ++ Spec.Fingerprint.ascii "-I." ++ i) o c := by
  rw [fingerprint_eq _ _ _ _ (by simp [ha]), fingerprint_eq _ _ _ _ ha]
  simp

/-- Case: the fingerprint of the unit test, `T.CHANNEL-I.IDENT-O.0-C.3`. -/
example : fingerprint (Spec.Fingerprint.ascii "CHANNEL") (Spec.Fingerprint.ascii "IDENT") 0 3 =
    some (Spec.Fingerprint.ascii "T.CHANNEL-I.IDENT-O.0-C.3") :=
  (c22_text _ _ _ _ (by decide) _).2 ⟨[0x30], [0x33],
    ⟨by unfold Spec.Digits; decide, by decide, by decide, by decide⟩,
    ⟨by unfold Spec.Digits; decide, by decide, by decide, by decide⟩, by decide⟩

example : ¬ ∃ p q, Spec.Fingerprint.ascii "FRAME" = p ++ Spec.Fingerprint.ascii "-I." ++ q := by
  rintro ⟨p, q, h⟩
  have : (0x2d : Byte) ∈ Spec.Fingerprint.ascii "FRAME" := by
    rw [h]
    have : (0x2d : Byte) ∈ Spec.Fingerprint.ascii "-I." := by decide
    exact List.mem_append_left _ (List.mem_append_right _ this)
  revert this; decide

end Dlisio.Dlis
