/-
C23, C25, C26, C28: object sets of arbitrary, possibly damaged, records, and pools.
-/
import Verif.Dlis.EflrProps

namespace Dlisio.Dlis

/-! ### Every parser leaves a suffix of its input -/

theorem need_ok {α : Type} {o : Option α} {a : α} (h : need o = .ok a) : o = some a := by
  cases o with
  | none => cases h
  | some b => cases h; rfl

theorem uvari_suffix {xs r : Bytes} {v : Nat} (h : uvari xs = some (v, r)) : r <:+ xs := by
  obtain ⟨e, _, rfl⟩ := (c01_uvari_decodes _ _ _).1 h
  exact List.suffix_append ..

theorem ident_suffix {xs r v : Bytes} (h : ident xs = some (v, r)) : r <:+ xs := by
  obtain ⟨e, _, rfl⟩ := (c03_ident_decodes _ _ _).1 h
  exact List.suffix_append ..

theorem units_suffix {xs r v : Bytes} (h : units xs = some (v, r)) : r <:+ xs :=
  ident_suffix h

theorem ushort_suffix {xs r : Bytes} {v : Nat} (h : ushort xs = some (v, r)) : r <:+ xs := by
  cases xs with
  | nil => cases h
  | cons b xs =>
    simp only [ushort, Option.some.injEq, Prod.mk.injEq] at h
    rw [← h.2]
    exact List.suffix_cons ..

theorem obname_suffix {xs r : Bytes} {v : Obname} (h : obname xs = some (v, r)) : r <:+ xs := by
  obtain ⟨e, _, rfl⟩ := (c05_obname_decodes _ _ _).1 h
  exact List.suffix_append ..

theorem extractVals_suffix {c : Reprc} {n : Nat} {xs r : Bytes} {vs : List Val}
    (h : extractVals c n xs = some (vs, r)) : r <:+ xs ∧ vs.length = n := by
  induction n generalizing xs vs with
  | zero =>
    simp only [extractVals, Option.some.injEq, Prod.mk.injEq] at h
    obtain ⟨rfl, rfl⟩ := h
    exact ⟨List.suffix_rfl, rfl⟩
  | succ n ih =>
    unfold extractVals at h
    split at h
    · cases h
    · rename_i v xs' hv
      split at h
      · cases h
      · rename_i vs' xs'' hvs
        simp only [Option.some.injEq, Prod.mk.injEq] at h
        obtain ⟨rfl, rfl⟩ := h
        obtain ⟨e, _, rfl⟩ := (c09_decodeVal _ _ _ _).1 hv
        have := ih hvs
        exact ⟨this.1.trans (List.suffix_append ..), by simp [this.2]⟩

/-! ### What reading the characteristics does to an attribute -/

theorem readCount_ok {f : Bool} {a b : ObjAttr} {xs r : Bytes}
    (h : readCount f a xs = .ok (b, r)) :
    r <:+ xs ∧ b = { a with count := b.count } ∧ (f = false → b.count = a.count) := by
  unfold readCount at h
  split at h
  · rename_i hf
    split at h
    · cases h
    · rename_i n xs' hn
      simp only [Except.ok.injEq, Prod.mk.injEq] at h
      obtain ⟨rfl, rfl⟩ := h
      exact ⟨uvari_suffix (need_ok hn), rfl, by simp [hf]⟩
  · simp only [Except.ok.injEq, Prod.mk.injEq] at h
    obtain ⟨rfl, rfl⟩ := h
    exact ⟨List.suffix_rfl, rfl, fun _ => rfl⟩

theorem readReprc_ok {f : Bool} {a b : ObjAttr} {xs r : Bytes}
    (h : readReprc f a xs = .ok (b, r)) :
    r <:+ xs ∧ b = { a with reprc := b.reprc, log := b.log } ∧
      (∃ l, b.log = a.log ++ l) ∧ (f = false → b.reprc = a.reprc ∧ b.log = a.log) := by
  unfold readReprc at h
  split at h
  · rename_i hf
    unfold repcode at h
    split at h
    · cases h
    · rename_i n xs' hn
      split at h <;>
      · simp only [Except.ok.injEq, Prod.mk.injEq] at h
        obtain ⟨rfl, rfl⟩ := h
        refine ⟨ushort_suffix (need_ok hn), rfl, ?_, by simp [hf]⟩
        first | exact ⟨_, rfl⟩ | exact ⟨[], by simp⟩
  · simp only [Except.ok.injEq, Prod.mk.injEq] at h
    obtain ⟨rfl, rfl⟩ := h
    exact ⟨List.suffix_rfl, rfl, ⟨[], by simp⟩, fun _ => ⟨rfl, rfl⟩⟩

theorem readUnits_ok {f : Bool} {a b : ObjAttr} {xs r : Bytes}
    (h : readUnits f a xs = .ok (b, r)) :
    r <:+ xs ∧ b = { a with units := b.units } ∧ (f = false → b.units = a.units) := by
  unfold readUnits at h
  split at h
  · rename_i hf
    split at h
    · cases h
    · rename_i n xs' hn
      simp only [Except.ok.injEq, Prod.mk.injEq] at h
      obtain ⟨rfl, rfl⟩ := h
      exact ⟨units_suffix (need_ok hn), rfl, by simp [hf]⟩
  · simp only [Except.ok.injEq, Prod.mk.injEq] at h
    obtain ⟨rfl, rfl⟩ := h
    exact ⟨List.suffix_rfl, rfl, fun _ => rfl⟩

/-- An attribute that has as many values as its count says, of the code that it
states, or no values. -/
def Spec.Consistent (a : ObjAttr) : Prop :=
  a.value = none ∨ ∃ c vs, a.reprc = some c ∧ a.value = some (c, vs) ∧ vs.length = a.count

theorem readValue_ok {f : Bool} {a b : ObjAttr} {xs r : Bytes}
    (h : readValue f a xs = .ok (b, r)) :
    r <:+ xs ∧ b = { a with value := b.value } ∧ (f = false → b.value = a.value) ∧
      (f = true → Spec.Consistent b ∧ (b.count ≠ 0 → b.value ≠ none)) := by
  unfold readValue at h
  split at h
  · rename_i hf
    unfold elements at h
    split at h
    · rename_i h0
      simp only [Except.ok.injEq, Prod.mk.injEq] at h
      obtain ⟨rfl, rfl⟩ := h
      exact ⟨List.suffix_rfl, rfl, by simp [hf], fun _ => ⟨Or.inl rfl, fun hn => absurd h0 hn⟩⟩
    · split at h
      · cases h
      · rename_i c hc
        split at h
        · cases h
        · rename_i vs xs' hvs
          simp only [Except.ok.injEq, Prod.mk.injEq] at h
          obtain ⟨rfl, rfl⟩ := h
          have := extractVals_suffix (need_ok hvs)
          exact ⟨this.1, rfl, by simp [hf], fun _ => ⟨Or.inr ⟨c, vs, hc, rfl, this.2⟩, by simp⟩⟩
  · rename_i hf
    simp only [Except.ok.injEq, Prod.mk.injEq] at h
    obtain ⟨rfl, rfl⟩ := h
    exact ⟨List.suffix_rfl, rfl, fun _ => rfl, fun h => absurd h hf⟩

theorem characteristics_ok {f : AttribFlags} {a b : ObjAttr} {xs r : Bytes}
    (h : characteristics f a xs = .ok (b, r)) :
    r <:+ xs ∧ b.label = a.label ∧ b.invariant = a.invariant ∧
      (f.count = false → b.count = a.count) ∧ (f.reprc = false → b.reprc = a.reprc) ∧
      (f.units = false → b.units = a.units) ∧ (f.value = false → b.value = a.value) ∧
      (f.value = true → Spec.Consistent b ∧ (b.count ≠ 0 → b.value ≠ none)) ∧
      (∃ l, b.log = a.log ++ l) := by
  unfold characteristics at h
  simp only [bind, Except.bind] at h
  split at h
  · cases h
  rename_i p1 h1
  split at h
  · cases h
  rename_i p2 h2
  split at h
  · cases h
  rename_i p3 h3
  obtain ⟨s1, e1, k1⟩ := readCount_ok h1
  obtain ⟨s2, e2, l2, k2⟩ := readReprc_ok h2
  obtain ⟨s3, e3, k3⟩ := readUnits_ok h3
  obtain ⟨s4, e4, k4, v4⟩ := readValue_ok h
  obtain ⟨p1, x1⟩ := p1
  obtain ⟨p2, x2⟩ := p2
  obtain ⟨p3, x3⟩ := p3
  simp only at *
  refine ⟨((s4.trans s3).trans s2).trans s1, ?_, ?_, ?_, ?_, ?_, ?_, v4, ?_⟩
  · rw [e4, e3, e2, e1]
  · rw [e4, e3, e2, e1]
  · intro hf; rw [e4, e3, e2]; exact k1 hf
  · intro hf; rw [e4, e3]; simp only; rw [(k2 hf).1, e1]
  · intro hf; rw [e4]; simp only; rw [k3 hf, e2, e1]
  · intro hf; rw [k4 hf, e3, e2, e1]
  · obtain ⟨l, hl⟩ := l2
    exact ⟨l, by rw [e4, e3]; simp only; rw [hl, e1]⟩

theorem templateAttr_ok {inv : Bool} {f : AttribFlags} {a : ObjAttr} {xs r : Bytes}
    (h : templateAttr inv f xs = .ok (a, r)) :
    r <:+ xs ∧ a.invariant = inv ∧ Spec.Consistent a := by
  unfold templateAttr at h
  split at h
  · cases h
  rename_i l xs' hl
  split at h
  · cases h
  rename_i b xs'' hb
  simp only [Except.ok.injEq, Prod.mk.injEq] at h
  obtain ⟨rfl, rfl⟩ := h
  obtain ⟨s, _, _, _, _, _, k, v, _⟩ := characteristics_ok hb
  refine ⟨s.trans (ident_suffix (need_ok hl)), rfl, ?_⟩
  cases hf : f.value with
  | true => exact (v hf).1
  | false => exact Or.inl (k hf)

/-! ### Rounds -/

theorem templateLoop_fuel {n m : Nat} {xs : Bytes} {tmpl : List ObjAttr} {log : List Severity}
    (hn : xs.length < n) (hm : xs.length < m) :
    templateLoop n xs tmpl log = templateLoop m xs tmpl log := by
  induction n generalizing m xs tmpl log with
  | zero => omega
  | succ n ih =>
    obtain ⟨m, rfl⟩ : ∃ k, m = k + 1 := ⟨m - 1, by omega⟩
    cases xs with
    | nil => rfl
    | cons d xs =>
      simp only [List.length_cons] at hn hm
      unfold templateLoop
      split
      · rfl
      · rfl
      · exact ih (by omega) (by omega)
      · rename_i inv f _
        generalize (if f.label = true then log else log ++ [.major]) = log'
        simp only
        split
        · rfl
        · rename_i a xs' ha
          have := (templateAttr_ok ha).1.length_le
          split
          · rfl
          · exact ih (by omega) (by omega)

/-- Whatever the record is, the template has consistent attributes. -/
theorem templateLoop_consistent {n : Nat} {xs : Bytes} {tmpl : List ObjAttr}
    {log : List Severity} (h : ∀ a ∈ tmpl, Spec.Consistent a) :
    ∀ a ∈ (templateLoop n xs tmpl log).tmpl, Spec.Consistent a := by
  induction n generalizing xs tmpl log with
  | zero => exact h
  | succ n ih =>
    cases xs with
    | nil => exact h
    | cons d xs =>
      unfold templateLoop
      split
      · exact h
      · exact h
      · exact ih h
      · rename_i inv f _
        generalize (if f.label = true then log else log ++ [.major]) = log'
        simp only
        split
        · exact h
        · rename_i a xs' ha
          have hc := (templateAttr_ok ha).2.2
          have h' : ∀ b ∈ tmpl ++ [a], Spec.Consistent b := by
            intro b hb
            simp only [List.mem_append, List.mem_singleton] at hb
            rcases hb with hb | rfl
            · exact h b hb
            · exact hc
          split
          · exact h'
          · exact ih h'

/-! ### C26: values that are not written -/

/-- The value of an attribute whose count or code the object changes without giving a
value: the first `n` values of the template if there are as many, else `n` times zero. -/
def Spec.filled (n : Nat) (c : Reprc) (v : Option (List Val)) : List Val :=
  match v with
  | some vs => if n ≤ vs.length then vs.take n else List.replicate n (Spec.zero c)
  | none => List.replicate n (Spec.zero c)

theorem patch_ok (a : ObjAttr) (h : Spec.Consistent a ∨ ∃ c vs, a.reprc = some c ∧ a.value = some (c, vs)) :
    (patchMissingValue a).label = a.label ∧ (patchMissingValue a).count = a.count ∧
    (patchMissingValue a).reprc = a.reprc ∧ (patchMissingValue a).units = a.units ∧
    (patchMissingValue a).invariant = a.invariant ∧
    (∃ l, (patchMissingValue a).log = a.log ++ l) ∧
    (∀ c, a.reprc = some c → (patchMissingValue a).value =
      some (c, Spec.filled a.count c (a.value.map (·.2)))) ∧
    (a.reprc = none → (patchMissingValue a).value = a.value ∧
      .critical ∈ (patchMissingValue a).log) ∧
    (∀ c vs, a.value = some (c, vs) → (vs.length = a.count → patchMissingValue a = a) ∧
      (vs.length > a.count → .major ∈ (patchMissingValue a).log) ∧
      (vs.length < a.count → .critical ∈ (patchMissingValue a).log)) := by
  unfold patchMissingValue
  cases hv : a.value with
  | none =>
    cases hr : a.reprc with
    | none => simp [resetValue, hr, hv]
    | some c => simp [resetValue, hr, Spec.filled, defaultVal_zero]
  | some p =>
    obtain ⟨c, vs⟩ := p
    have hc : a.reprc = some c := by
      rcases h with (h | ⟨c', vs', h1, h2, h3⟩) | ⟨c', vs', h1, h2⟩
      · rw [hv] at h; cases h
      · rw [hv] at h2; cases h2; exact h1
      · rw [hv] at h2; cases h2; exact h1
    simp only
    by_cases h1 : vs.length = a.count
    · have h3 : a.count ≤ vs.length := by omega
      have h4 : vs.take a.count = vs := List.take_of_length_le (by omega)
      simp only [h1, if_true, hc, Spec.filled, hv]
      refine ⟨trivial, trivial, trivial, trivial, trivial, ⟨[], by simp⟩, ?_, by simp, ?_⟩
      · intro c' hc'
        cases hc'
        simp [h4, h3]
      · intro c' vs' he
        cases he
        exact ⟨fun _ => trivial, fun h => by omega, fun h => by omega⟩
    · by_cases h2 : vs.length > a.count
      · simp only [h1, h2, if_false, if_true, hc]
        refine ⟨trivial, trivial, trivial, trivial, trivial, ⟨_, rfl⟩, ?_, by simp, ?_⟩
        · intro c' hc'
          cases hc'
          simp [Spec.filled, Nat.le_of_lt h2]
        · intro c' vs' he
          cases he
          exact ⟨fun h => absurd h h1, by simp, fun h => by omega⟩
      · simp only [h1, h2, if_false, resetValue, hc]
        refine ⟨trivial, trivial, trivial, trivial, trivial, ⟨_, rfl⟩, ?_, by simp, ?_⟩
        · intro c' hc'
          cases hc'
          have : ¬ a.count ≤ vs.length := by omega
          simp [Spec.filled, this, defaultVal_zero]
        · intro c' vs' he
          cases he
          exact ⟨fun h => absurd h h1, fun h => absurd h h2, by simp⟩

theorem not_clear {s : Severity} {l : List Severity} (h : s ∈ l) (hs : s ≠ .info) :
    isLogClear l = false := by
  simp only [isLogClear, Bool.not_eq_false', List.any_eq_true]
  exact ⟨s, h, by simpa using hs⟩

/-- C23, C26.  An attribute component of an object, for arbitrary bytes: label and
invariance are those of the template; what the descriptor does not announce is
inherited.  With a count of zero there is no value; else there are as many values as
the count says, of the code of the attribute, or the code is invalid and a critical
error is recorded. A value that is not written follows the documented rule: it is the
value of the template, cut off or replaced by zeros when the count changes, replaced by
zeros when the code changes; each such change is recorded. -/
theorem c26_attribute (t a : ObjAttr) (inv : Bool) (f : AttribFlags) (xs r : Bytes)
    (ht : Spec.Consistent t) (h : objectAttr t inv f xs = .ok (a, r)) :
    r <:+ xs ∧ a.label = t.label ∧ a.invariant = t.invariant ∧
    (f.count = false → a.count = t.count) ∧ (f.reprc = false → a.reprc = t.reprc) ∧
    (f.units = false → a.units = t.units) ∧
    (a.count = 0 → a.value = none) ∧
    (a.count ≠ 0 → (∃ c vs, a.reprc = some c ∧ a.value = some (c, vs) ∧ vs.length = a.count) ∨
      (a.reprc = none ∧ .critical ∈ a.log)) ∧
    (f.value = false → a.count ≠ 0 → ∀ c, a.reprc = some c → a.value = some (c,
      Spec.filled a.count c (if a.reprc = t.reprc then t.value.map (·.2) else none))) ∧
    (f.value = false → a.count ≠ 0 → a.reprc ≠ t.reprc → .major ∈ a.log) ∧
    (f.value = false → a.count ≠ 0 → a.reprc = t.reprc → t.value ≠ none →
      a.count ≠ t.count → .major ∈ a.log ∨ .critical ∈ a.log) ∧
    (∃ l, a.log = t.log ++ l) := by
  unfold objectAttr at h
  simp only at h
  generalize ha' : (if f.label = true then
    { (if inv = true then { t with log := t.log ++ [.major] } else t) with
      log := (if inv = true then { t with log := t.log ++ [.major] } else t).log ++ [.major] }
    else (if inv = true then { t with log := t.log ++ [.major] } else t)) = a' at h
  have h0 : a' = { t with log := a'.log } ∧ ∃ l, a'.log = t.log ++ l := by
    subst ha'
    cases f.label <;> cases inv <;> simp
  obtain ⟨h0, l0, hl0⟩ := h0
  clear ha'
  split at h
  · cases h
  rename_i b xs' hb
  obtain ⟨hs, hlab, hinv, hcnt, hrep, huni, hval, hcons, l1, hl1⟩ := characteristics_ok hb
  have k1 : b.label = t.label := by rw [hlab, h0]
  have k2 : b.invariant = t.invariant := by rw [hinv, h0]
  have k3 : f.count = false → b.count = t.count := fun hf => by rw [hcnt hf, h0]
  have k4 : f.reprc = false → b.reprc = t.reprc := fun hf => by rw [hrep hf, h0]
  have k5 : f.units = false → b.units = t.units := fun hf => by rw [huni hf, h0]
  have k6 : f.value = false → b.value = t.value := fun hf => by rw [hval hf, h0]
  have k7 : b.log = t.log ++ (l0 ++ l1) := by rw [hl1, hl0, List.append_assoc]
  split at h
  · rename_i hz
    simp only [Except.ok.injEq, Prod.mk.injEq] at h
    obtain ⟨rfl, rfl⟩ := h
    exact ⟨hs, k1, k2, k3, k4, k5, fun _ => rfl, fun hn => absurd hz hn,
      fun _ hn => absurd hz hn, fun _ hn => absurd hz hn, fun _ hn => absurd hz hn, _, k7⟩
  rename_i hz
  split at h
  · rename_i hf
    simp only [Except.ok.injEq, Prod.mk.injEq] at h
    obtain ⟨rfl, rfl⟩ := h
    have hff : ¬ f.value = false := by simp [hf]
    refine ⟨hs, k1, k2, k3, k4, k5, fun hn => absurd hn hz, fun _ => ?_,
      fun h => absurd h hff, fun h => absurd h hff, fun h => absurd h hff, _, k7⟩
    obtain ⟨hc, hv⟩ := hcons hf
    rcases hc with hc | hc
    · exact absurd hc (hv hz)
    · exact Or.inl hc
  rename_i hf
  have hf : f.value = false := by simpa using hf
  simp only [Except.ok.injEq, Prod.mk.injEq] at h
  obtain ⟨h, rfl⟩ := h
  by_cases hch : f.reprc = true ∧ b.reprc ≠ t.reprc
  · have hcond : (f.reprc && decide (b.reprc ≠ t.reprc)) = true := by simp [hch.1, hch.2]
    rw [if_pos hcond] at h
    have hp := patch_ok { b with value := none, log := b.log ++ [.major] } (Or.inl (Or.inl rfl))
    rw [h] at hp
    obtain ⟨p1, p2, p3, p4, p5, ⟨l, p6⟩, p7, p8, p9⟩ := hp
    simp only at p1 p2 p3 p4 p5 p6 p7 p8 p9
    have hmaj : .major ∈ a.log := by rw [p6]; simp
    have hne : a.reprc ≠ t.reprc := by rw [p3]; exact hch.2
    refine ⟨hs, p1.trans k1, p5.trans k2, fun x => p2.trans (k3 x), fun x => p3.trans (k4 x),
      fun x => p4.trans (k5 x), fun x => absurd (p2 ▸ x) hz, fun _ => ?_, fun _ _ c hc => ?_,
      fun _ _ _ => hmaj, fun _ _ _ _ _ => Or.inl hmaj, (l0 ++ l1) ++ [.major] ++ l, ?_⟩
    · cases hr : b.reprc with
      | none => exact Or.inr ⟨p3.trans hr, (p8 hr).2⟩
      | some c =>
        refine Or.inl ⟨c, _, p3.trans hr, p7 c hr, ?_⟩
        simp [Spec.filled, p2]
    · rw [if_neg hne, p7 c (p3 ▸ hc), p2]
      simp
    · rw [p6, k7]; simp
  · have hcond : ¬ (f.reprc && decide (b.reprc ≠ t.reprc)) = true := by
      simp only [Bool.and_eq_true, decide_eq_true_eq]; exact hch
    rw [if_neg hcond] at h
    have hreq : b.reprc = t.reprc := by
      by_cases hx : f.reprc = true
      · by_contra hcon; exact hch ⟨hx, hcon⟩
      · exact k4 (by simpa using hx)
    have hbc : Spec.Consistent b ∨ ∃ c vs, b.reprc = some c ∧ b.value = some (c, vs) := by
      rcases ht with ht | ⟨c, vs, h1, h2, _⟩
      · exact Or.inl (Or.inl ((k6 hf).trans ht))
      · exact Or.inr ⟨c, vs, hreq.trans h1, (k6 hf).trans h2⟩
    have hp := patch_ok b hbc
    rw [h] at hp
    obtain ⟨p1, p2, p3, p4, p5, ⟨l, p6⟩, p7, p8, p9⟩ := hp
    have heq : a.reprc = t.reprc := by rw [p3]; exact hreq
    refine ⟨hs, p1.trans k1, p5.trans k2, fun x => p2.trans (k3 x), fun x => p3.trans (k4 x),
      fun x => p4.trans (k5 x), fun x => absurd (p2 ▸ x) hz, fun _ => ?_, fun _ _ c hc => ?_,
      fun _ _ hn => absurd heq hn, fun _ _ _ htv hcn => ?_, (l0 ++ l1) ++ l, ?_⟩
    · cases hr : b.reprc with
      | none => exact Or.inr ⟨p3.trans hr, (p8 hr).2⟩
      | some c =>
        refine Or.inl ⟨c, _, p3.trans hr, p7 c hr, ?_⟩
        rw [p2]
        unfold Spec.filled
        split
        · split
          · rename_i h1; simp [h1]
          · simp
        · simp
    · rw [if_pos heq, p7 c (p3 ▸ hc), p2, k6 hf]
    · rcases ht with ht | ⟨c, vs, h1, h2, h3⟩
      · exact absurd ht htv
      · obtain ⟨q1, q2, q3⟩ := p9 c vs ((k6 hf).trans h2)
        have : vs.length ≠ b.count := by rw [h3, ← p2]; exact fun e => hcn e.symm
        rcases Nat.lt_or_gt_of_ne this with hlt | hgt
        · exact Or.inr (q3 hlt)
        · exact Or.inl (q2 hgt)
    · rw [p6, k7]; simp

/-- The message for a count larger than that of the template says that the value "is left
as in template" (records.cpp:805-811); in fact it is replaced by zeros. -/
theorem c26_left_as_in_template_defect :
    ∃ (t a : ObjAttr) (f : AttribFlags) (xs : Bytes), Spec.Consistent t ∧
      objectAttr t false f xs = .ok (a, []) ∧ t.value = some (.ushort, [.int 1 5, .int 1 6]) ∧
      a.value = some (.ushort, [.int 1 0, .int 1 0, .int 1 0]) ∧ a.log = [.critical] :=
  ⟨{ label := [0x41], count := 2, reprc := some .ushort,
     value := some (.ushort, [.int 1 5, .int 1 6]) },
   { label := [0x41], count := 3, reprc := some .ushort,
     value := some (.ushort, [.int 1 0, .int 1 0, .int 1 0]), log := [.critical] },
   ⟨false, true, false, false, false⟩, [0x03],
   Or.inr ⟨.ushort, _, rfl, rfl, rfl⟩, by decide +kernel, rfl, rfl, rfl⟩

/-- A smaller count cuts the value of the template. -/
example : objectAttr
      { label := [0x41], count := 2, reprc := some .ushort,
        value := some (.ushort, [.int 1 5, .int 1 6]) } false ⟨false, true, false, false, false⟩ [0x01] =
    .ok ({ label := [0x41], count := 1, reprc := some .ushort,
           value := some (.ushort, [.int 1 5]), log := [.major] }, []) := by decide +kernel

/-! ### C23: inheritance in arbitrary records -/

/-- What an attribute `a` of an object has to do with the attribute `t` of the template
that it overrides by a component with descriptor `d`. -/
def Spec.Overrides (d : Byte) (t a : ObjAttr) : Prop :=
  a.label = t.label ∧ a.invariant = t.invariant ∧
  (d.toNat / 8 % 2 = 0 → a.count = t.count) ∧
  (d.toNat / 4 % 2 = 0 → a.reprc = t.reprc) ∧
  (d.toNat / 2 % 2 = 0 → a.units = t.units) ∧
  (d.toNat % 2 = 0 → a.count ≠ 0 → a.count = t.count → a.reprc = t.reprc → t.value ≠ none →
    a.value = t.value)

/-- The attributes of an object in relation to its template: in the order of the
template, each one copied, overridden or gone; attributes that are invariant are
copied.  The flag tells whether the overriding attributes are free of errors. -/
inductive Spec.Inherits : List ObjAttr → List ObjAttr → Bool → Prop
  | nil : Inherits [] [] true
  | copied {ts as b} (t) : Inherits ts as b → Inherits (t :: ts) (t :: as) b
  | absent {ts as b} (t : ObjAttr) : t.invariant = false → Inherits ts as b →
      Inherits (t :: ts) as b
  | own {ts as b} (t a : ObjAttr) (d : Byte) : t.invariant = false → Spec.Overrides d t a →
      (a.count ≠ 0 → a.value ≠ none ∨ .critical ∈ a.log) → Spec.Consistent a ∨ .critical ∈ a.log →
      Inherits ts as b → Inherits (t :: ts) (a :: as) (isLogClear a.log && b)

theorem inherits_refl (ts : List ObjAttr) : Spec.Inherits ts ts true := by
  induction ts with
  | nil => exact .nil
  | cons t ts ih => exact .copied t ih

theorem attribute_descriptor_flags {d : Byte} {inv : Bool} {f : AttribFlags}
    (h : parseAttributeDescriptor d = .ok (.attr inv f)) :
    (f.count = true ↔ d.toNat / 8 % 2 = 1) ∧ (f.reprc = true ↔ d.toNat / 4 % 2 = 1) ∧
    (f.units = true ↔ d.toNat / 2 % 2 = 1) ∧ (f.value = true ↔ d.toNat % 2 = 1) := by
  unfold parseAttributeDescriptor at h
  simp only at h
  split at h
  · cases h
  · split at h
    · cases h
    · split at h
      · rename_i f' hf
        cases h
        have := (c15_component_flags d (component d)).2.1 _ hf
        simpa using this.2
      · cases h

theorem override_of {t a : ObjAttr} {inv : Bool} {f : AttribFlags} {d : Byte} {xs r : Bytes}
    (ht : Spec.Consistent t) (hd : parseAttributeDescriptor d = .ok (.attr inv f))
    (h : objectAttr t inv f xs = .ok (a, r)) :
    Spec.Overrides d t a ∧ (a.count ≠ 0 → a.value ≠ none ∨ .critical ∈ a.log) ∧
      (Spec.Consistent a ∨ .critical ∈ a.log) := by
  obtain ⟨_, h1, h2, h3, h4, h5, h6, h7, h8, _⟩ := c26_attribute t a inv f xs r ht h
  obtain ⟨f1, f2, f3, f4⟩ := attribute_descriptor_flags hd
  have key : ∀ {b : Bool} {n : Nat}, (b = true ↔ n % 2 = 1) → n % 2 = 0 → b = false := by
    intro b n hb hn
    rw [Bool.eq_false_iff, ne_eq, hb]
    omega
  refine ⟨⟨h1, h2, fun h => h3 (key f1 h), fun h => h4 (key f2 h), fun h => h5 (key f3 h), ?_⟩, ?_, ?_⟩
  · intro hv hz hc hr htv
    rcases ht with ht | ⟨c, vs, e1, e2, e3⟩
    · exact absurd ht htv
    · rw [h8 (key f4 hv) hz c (hr.trans e1), if_pos hr, e2]
      have : a.count = vs.length := by rw [hc, e3]
      simp [Spec.filled, this]
  · intro hz
    rcases h7 hz with ⟨c, vs, _, e, _⟩ | ⟨_, hl⟩
    · exact Or.inl (by rw [e]; simp)
    · exact Or.inr hl
  · by_cases hz : a.count = 0
    · exact Or.inl (Or.inl (h6 hz))
    · rcases h7 hz with h | ⟨_, hl⟩
      · exact Or.inl (Or.inr h)
      · exact Or.inr hl

theorem attrLoop_inherits {ts : List ObjAttr} (hc : ∀ t ∈ ts, Spec.Consistent t)
    (hnd : (ts.map (·.label)).Nodup) {xs r : Bytes} {done attrs : List ObjAttr}
    {clear clear' : Bool} (hdone : ∀ x ∈ done, ∀ t ∈ ts, x.label ≠ t.label)
    (h : attrLoop ts xs (done ++ ts) clear = .ok (attrs, clear', r)) :
    ∃ own b, attrs = done ++ own ∧ Spec.Inherits ts own b ∧ clear' = (clear && b) := by
  induction ts generalizing xs done clear with
  | nil =>
    simp only [attrLoop, Except.ok.injEq, Prod.mk.injEq] at h
    exact ⟨[], true, h.1.symm, .nil, by simp [h.2.1]⟩
  | cons t ts ih =>
    simp only [List.map_cons, List.nodup_cons] at hnd
    have hc' : ∀ t ∈ ts, Spec.Consistent t := fun x hx => hc x (by simp [hx])
    have hts : ∀ x ∈ ts, x.label ≠ t.label := fun x hx e =>
      hnd.1 (List.mem_map.2 ⟨x, hx, e⟩)
    have hd1 : ∀ x ∈ done, x.label ≠ t.label := fun x hx => hdone x hx t (by simp)
    have hd2 : ∀ x ∈ done, ∀ t ∈ ts, x.label ≠ t.label :=
      fun x hx y hy => hdone x hx y (by simp [hy])
    have hsnoc : ∀ a : ObjAttr, a.label = t.label →
        ∀ x ∈ done ++ [a], ∀ t ∈ ts, x.label ≠ t.label := by
      intro a ha x hx y hy
      simp only [List.mem_append, List.mem_singleton] at hx
      rcases hx with hx | rfl
      · exact hd2 x hx y hy
      · rw [ha]; exact fun e => hts y hy e.symm
    unfold attrLoop at h
    split at h
    · rw [List.append_cons] at h
      obtain ⟨own, b, e1, e2, e3⟩ := ih hc' hnd.2 (hsnoc t rfl) h
      exact ⟨t :: own, b, by simp [e1], .copied t e2, e3⟩
    · rename_i hinv
      have hinv : t.invariant = false := by simpa using hinv
      split at h
      · simp only [Except.ok.injEq, Prod.mk.injEq] at h
        exact ⟨t :: ts, true, h.1.symm, inherits_refl _, by simp [h.2.1]⟩
      · rename_i d rest
        split at h
        · cases h
        · simp only [Except.ok.injEq, Prod.mk.injEq] at h
          exact ⟨t :: ts, true, h.1.symm, inherits_refl _, by simp [h.2.1]⟩
        · have hrem : removeAttr t (done ++ t :: ts) = done ++ ts := by
            rw [removeAttr_append hd1]
            congr 1
            have := removeAttr_append (ys := []) hts
            simp only [List.append_nil] at this
            simp only [removeAttr, List.filter_cons, decide_true, Bool.not_true,
              Bool.false_eq_true, if_false] at this ⊢
            simpa using this
          rw [hrem] at h
          obtain ⟨own, b, e1, e2, e3⟩ := ih hc' hnd.2 hd2 h
          exact ⟨own, b, e1, .absent t hinv e2, e3⟩
        · rename_i inv f hd
          split at h
          · cases h
          · rename_i a rest' ha
            have hlab := (c26_attribute t a inv f rest rest' (hc t (by simp)) ha).2.1
            have hset : setAttr a (done ++ t :: ts) = (done ++ [a]) ++ ts := by
              rw [setAttr_append (by rw [hlab]; exact hd1)]
              simp [setAttr, hlab]
            rw [hset] at h
            obtain ⟨own, b, e1, e2, e3⟩ := ih hc' hnd.2 (hsnoc a hlab) h
            obtain ⟨o1, o2, o3⟩ := override_of (hc t (by simp)) hd ha
            exact ⟨a :: own, _, by simp [e1], .own t a d hinv o1 o2 o3 e2,
              by rw [e3, Bool.and_assoc]⟩

theorem parseObject_inherits {type : Bytes} {ts : List ObjAttr}
    (hc : ∀ t ∈ ts, Spec.Consistent t) (hnd : (ts.map (·.label)).Nodup)
    {d : Byte} {xs r : Bytes} {o : BasicObject} (h : parseObject type ts d xs = .ok (o, r)) :
    o.type = type ∧ ∃ b, Spec.Inherits ts o.attributes b ∧ (b = false → .minor ∈ o.log) := by
  unfold parseObject at h
  split at h
  · cases h
  split at h
  · cases h
  split at h
  · cases h
  rename_i attrs clear xs' ha
  simp only [Except.ok.injEq, Prod.mk.injEq] at h
  obtain ⟨rfl, rfl⟩ := h
  rw [defaultedObject_eq hnd] at ha
  obtain ⟨own, b, rfl, h2, h3⟩ := attrLoop_inherits (done := []) hc hnd (by simp) ha
  refine ⟨rfl, b, h2, ?_⟩
  rintro rfl
  simp only [Bool.and_false] at h3
  simp [h3]

theorem objectsLoop_all {type : Bytes} {ts : List ObjAttr} {n : Nat} {xs : Bytes}
    {P : BasicObject → Prop}
    (hP : ∀ d xs o r, parseObject type ts d xs = .ok (o, r) → P o) :
    ∀ o ∈ (objectsLoop type ts n xs).1, P o := by
  induction n generalizing xs with
  | zero => cases xs <;> simp [objectsLoop]
  | succ n ih =>
    cases xs with
    | nil => simp [objectsLoop]
    | cons d xs =>
      unfold objectsLoop
      split
      · simp
      · rename_i o xs' ho
        intro x hx
        simp only [List.mem_cons] at hx
        rcases hx with rfl | hx
        · exact hP _ _ _ _ ho
        · exact ih x hx

theorem finish_objs (s : ObjectSet) (r : Except ParseErr Unit) :
    (s.finish r).objs = s.objs ∧ (s.finish r).tmpl = s.tmpl ∧ (s.finish r).type = s.type ∧
    (s.finish r).name = s.name ∧ (s.finish r).role = s.role ∧ (s.finish r).parsed = true := by
  rcases r with (_ | _) | _ <;> exact ⟨rfl, rfl, rfl, rfl, rfl, rfl⟩

/-- How a set that was just made is parsed: the result of each stage. -/
theorem parse_stages {bs : Bytes} {s : ObjectSet} (h : ObjectSet.new bs = .ok s) :
    ∃ log xs, parseSetComponent bs = (log, .ok (s.role, s.type, s.name, xs)) ∧
      s.parse.tmpl = (parseTemplate xs log).tmpl ∧
      ((∃ e, (parseTemplate xs log).res = .error e ∧ s.parse.objs = [] ∧
          (e = .threw → s.parse.log = (parseTemplate xs log).log ++ [.critical]) ∧
          (s.parse.undefined = true ↔ e = .outOfBounds)) ∨
       (∃ ys, (parseTemplate xs log).res = .ok ys ∧
          s.parse.objs = (parseObjects s.type s.parse.tmpl ys).1 ∧
          ((parseObjects s.type s.parse.tmpl ys).2 = .error .threw →
            s.parse.log = (parseTemplate xs log).log ++ [.critical]) ∧
          (s.parse.undefined = true ↔
            (parseObjects s.type s.parse.tmpl ys).2 = .error .outOfBounds))) ∧
      s.parse.type = s.type ∧ s.parse.name = s.name ∧ s.parse.role = s.role ∧
      s.parse.parsed = true := by
  unfold ObjectSet.new at h
  split at h
  · cases h
  rename_i log role type name xs hsc
  cases h
  refine ⟨log, xs, hsc, ?_⟩
  simp only [ObjectSet.parse, Bool.false_eq_true, if_false, hsc, List.nil_append]
  cases hres : (parseTemplate xs log).res with
  | error e =>
    simp only [finish_objs, and_self, and_true, true_and]
    refine Or.inl ⟨e, rfl, ?_, ?_⟩
    · rintro rfl; rfl
    · cases e <;> simp [ObjectSet.finish]
  | ok ys =>
    simp only [finish_objs, and_self, and_true, true_and]
    refine Or.inr ⟨ys, rfl, rfl, ?_, ?_⟩
    · intro hx; rw [hx]; rfl
    · generalize (parseObjects type (parseTemplate xs log).tmpl ys).2 = res
      rcases res with (_ | _) | _ <;> simp [ObjectSet.finish]

/-- C26.  In every object set that is read from a file, every attribute of the template
is consistent. -/
theorem c26_template (bs : Bytes) (s : ObjectSet) (h : ObjectSet.new bs = .ok s) :
    ∀ t ∈ s.parse.tmpl, Spec.Consistent t := by
  obtain ⟨log, xs, _, ht, _⟩ := parse_stages h
  rw [ht]
  exact templateLoop_consistent (by simp)

/-- C23.  In every object set that is read from a record, however damaged, whose template
has distinct labels, the attributes of every object are those of the template in
order: copied, or overridden where the descriptor says so, or absent.  Errors in
overriding attributes are noted on the object. -/
theorem c23_inherits (bs : Bytes) (s : ObjectSet) (h : ObjectSet.new bs = .ok s)
    (hnd : (s.parse.tmpl.map (·.label)).Nodup) :
    ∀ o ∈ s.parse.objs, o.type = s.type ∧
      ∃ b, Spec.Inherits s.parse.tmpl o.attributes b ∧ (b = false → .minor ∈ o.log) := by
  have hc := c26_template bs s h
  obtain ⟨log, xs, _, _, hst, _⟩ := parse_stages h
  rcases hst with ⟨e, _, ho, _⟩ | ⟨ys, _, ho, _⟩
  · simp [ho]
  · rw [ho]
    exact objectsLoop_all fun d xs o r h => parseObject_inherits hc hnd h

theorem inherits_consistent {ts as : List ObjAttr} {b : Bool} (h : Spec.Inherits ts as b)
    (hc : ∀ t ∈ ts, Spec.Consistent t) : ∀ a ∈ as, Spec.Consistent a ∨ .critical ∈ a.log := by
  induction h with
  | nil => simp
  | copied t _ ih =>
    intro a ha
    simp only [List.mem_cons] at ha
    rcases ha with rfl | ha
    · exact Or.inl (hc _ (by simp))
    · exact ih (fun x hx => hc x (by simp [hx])) a ha
  | absent t _ _ ih => exact ih (fun x hx => hc x (by simp [hx]))
  | own t a d _ _ _ hcons _ ih =>
    intro x hx
    simp only [List.mem_cons] at hx
    rcases hx with rfl | hx
    · exact hcons
    · exact ih (fun x hx => hc x (by simp [hx])) x hx

/-- C26.  In every object set that is read from a record with distinct template labels,
each attribute of each object has as many values as its count says, of its own code, or
no values, or a critical error is recorded on it. -/
theorem c26_consistent (bs : Bytes) (s : ObjectSet) (h : ObjectSet.new bs = .ok s)
    (hnd : (s.parse.tmpl.map (·.label)).Nodup) :
    ∀ o ∈ s.parse.objs, ∀ a ∈ o.attributes, Spec.Consistent a ∨ .critical ∈ a.log := by
  intro o ho
  obtain ⟨_, b, hi, _⟩ := c23_inherits bs s h hnd o ho
  exact inherits_consistent hi (c26_template bs s h)

/-! ### Violations that are reported but do not stop the parser -/

theorem attributeDescriptor_label : ∀ d : Byte, d &&& 0x10#8 = 0#8 → ∀ inv f,
    parseAttributeDescriptor d = .ok (.attr inv f) →
    f.label = false ∧ parseAttributeDescriptor (d ||| 0x10#8) = .ok (.attr inv { f with label := true }) := by
  intro d hd inv f h
  have key : ∀ d : Byte, d &&& 0x10#8 = 0#8 →
      (match parseAttributeDescriptor d with
        | .ok (.attr inv f) => decide (f.label = false ∧
          parseAttributeDescriptor (d ||| 0x10#8) = .ok (.attr inv { f with label := true }))
        | _ => true) = true := by decide +kernel
  have := key d hd
  rw [h] at this
  exact of_decide_eq_true this

/-- C59: an attribute in the template whose descriptor says that it has no label is read as if
it said so, and one major problem is recorded on the set. -/
theorem c59_unlabelled (d : Byte) (hd : d &&& 0x10#8 = 0#8) (inv : Bool) (f : AttribFlags)
    (h : parseAttributeDescriptor d = .ok (.attr inv f)) (n : Nat) (xs : Bytes)
    (tmpl : List ObjAttr) (log : List Severity) :
    templateLoop (n + 1) (d :: xs) tmpl log =
      templateLoop (n + 1) ((d ||| 0x10#8) :: xs) tmpl (log ++ [.major]) := by
  obtain ⟨h1, h2⟩ := attributeDescriptor_label d hd inv f h
  have h3 : ∀ xs, templateAttr inv { f with label := true } xs = templateAttr inv f xs := by
    intro xs; rfl
  simp only [templateLoop, h, h2, h1, h3, Bool.false_eq_true, if_false, if_true]

/-- C59: an absent attribute in the template is left out, and one major problem is recorded. -/
theorem c59_absent (d : Byte) (hd : parseAttributeDescriptor d = .ok .absent) (n : Nat)
    (xs : Bytes) (tmpl : List ObjAttr) (log : List Severity) :
    templateLoop (n + 1) (d :: xs) tmpl log = templateLoop n xs tmpl (log ++ [.major]) := by
  simp only [templateLoop, hd]

/-- C59: an object whose descriptor says that it has no name is read as if it said so, and one
major problem is recorded on the object. -/
theorem c59_unnamed (type : Bytes) (tmpl : List ObjAttr) (d : Byte) (hd : d &&& 0x10#8 = 0#8)
    (xs r : Bytes) (o : BasicObject)
    (h : parseObject type tmpl (d ||| 0x10#8) xs = .ok (o, r)) :
    parseObject type tmpl d xs = .ok ({ o with log := .major :: o.log }, r) ∧
      .major ∉ o.log := by
  have key : ∀ d : Byte, d &&& 0x10#8 = 0#8 → ∀ b, parseObjectDescriptor (d ||| 0x10#8) = .ok b →
      b = true ∧ parseObjectDescriptor d = .ok false := by
    have : ∀ d : Byte, d &&& 0x10#8 = 0#8 →
      (match parseObjectDescriptor (d ||| 0x10#8) with
        | .ok b => decide (b = true ∧ parseObjectDescriptor d = .ok false)
        | _ => true) = true := by decide +kernel
    intro d hd b hb
    have := this d hd
    rw [hb] at this
    exact of_decide_eq_true this
  unfold parseObject at h ⊢
  match hp : parseObjectDescriptor (d ||| 0x10#8) with
  | .error e => rw [hp] at h; cases h
  | .ok b =>
    obtain ⟨rfl, h2⟩ := key d hd b hp
    rw [hp] at h
    rw [h2]
    dsimp only at h ⊢
    match hn : need (obname xs) with
    | .error e => rw [hn] at h; cases h
    | .ok (name, ys) =>
      rw [hn] at h
      dsimp only at h ⊢
      match ha : attrLoop tmpl ys (defaultedObject tmpl) true with
      | .error e => rw [ha] at h; cases h
      | .ok (attrs, clear, zs) =>
        rw [ha] at h
        simp only [Except.ok.injEq, Prod.mk.injEq] at h
        obtain ⟨rfl, rfl⟩ := h
        cases clear <;> simp

/-- Case: attribute `A` with a value, without the label flag, in front of an object; the
descriptor is `001 00001` instead of `001 10001`. -/
example : templateLoop 9 [0x21, 0x01, 0x41, 0x01, 0x42, 0x70, 0x00, 0x00, 0x01, 0x4f] [] [] =
    ⟨[{ label := [0x41], value := some (.ident, [.str [0x42]]) }], [.major],
      .ok [0x70, 0x00, 0x00, 0x01, 0x4f]⟩ := by rfl

/-- Case: object `O` without the name flag. -/
example : parseObject [0x54] [{ label := [0x41] }] 0x60 [0x00, 0x00, 0x01, 0x4f] =
    .ok (⟨⟨0, 0, [0x4f]⟩, [0x54], [{ label := [0x41] }], [.major]⟩, []) := by decide +kernel

end Dlisio.Dlis
