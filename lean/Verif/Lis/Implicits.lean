import Verif.Lis.IndexFiles
/-
C46: the data records of a data format specification (`record_index::implicits_of`).
-/
namespace Dlisio.Lis

/-- `std::upper_bound` over records with the comparison of io.cpp:82-84: the rest of the
range from the first record behind `tell` on (that is what the binary search gives on a
range in the order of the file). -/
def upperBound (tell : Nat) (l : List RecordInfo) : List RecordInfo :=
  l.dropWhile fun cur => !decide (tell < cur.ltell)

/-- `record_index::implicits_of`, io.cpp:61-101; `none` is the exception of io.cpp:70-73. -/
def implicitsOf (ix : Index) (tell : Nat) : Option (List RecordInfo) :=
  match ix.explicits.dropWhile (fun cur => cur.ltell ≠ tell) with
  | [] => none
  | curr :: rest =>
    let begin := upperBound curr.ltell ix.implicits
    match rest.find? (fun cur => cur.type = 64) with
    | some next => some (begin.take (begin.length - (upperBound next.ltell begin).length))
    | none => some begin

/-! ### Specification -/

namespace Spec

/-- Data record `r` belongs to the specification `d`: it is behind it, and no other
specification of the index is between them. -/
def Belongs (explicits : List RecordInfo) (d r : RecordInfo) : Prop :=
  d.ltell < r.ltell ∧ ∀ e ∈ explicits, e.type = 64 → d.ltell < e.ltell → r.ltell < e.ltell

/-- Records in the order of the file, explicit and implicit ones at different places. -/
structure Ordered (ix : Index) : Prop where
  explicits : ix.explicits.Pairwise (fun a b => a.ltell < b.ltell)
  implicits : ix.implicits.Pairwise (fun a b => a.ltell < b.ltell)
  apart : ∀ a ∈ ix.explicits, ∀ b ∈ ix.implicits, a.ltell ≠ b.ltell

end Spec

open Spec

instance (ex : List RecordInfo) (d r : RecordInfo) : Decidable (Belongs ex d r) := by
  unfold Belongs; infer_instance

/-- **C46** (order).  The index of any stream is in the order of the file. -/
theorem c46_ordered (dev : Device) (pos : Nat) : Ordered (indexRecords dev pos) := by
  obtain ⟨h1, h2, h3, h4⟩ := c44_positions dev pos
  have hs : ∀ a ∈ (indexRecords dev pos).explicits ++ (indexRecords dev pos).implicits,
      4 ≤ a.size := fun a ha => (h4 a ha).2.1
  refine ⟨?_, ?_, ?_⟩
  · refine h1.imp_of_mem fun {a b} ha _ hab => ?_
    have := hs a (List.mem_append_left _ ha)
    unfold Before at hab
    omega
  · refine h2.imp_of_mem fun {a b} ha _ hab => ?_
    have := hs a (List.mem_append_right _ ha)
    unfold Before at hab
    omega
  · intro a ha b hb
    have := hs a (List.mem_append_left _ ha)
    have := hs b (List.mem_append_right _ hb)
    have := h3 a ha b hb
    unfold Before at this
    omega

/-- On records in order, the records from the first one behind `tell` on are those behind
`tell`. -/
theorem upperBound_filter (tell : Nat) (l : List RecordInfo)
    (h : l.Pairwise (fun a b => a.ltell < b.ltell)) :
    upperBound tell l = l.filter (fun r => decide (tell < r.ltell)) := by
  unfold upperBound
  induction l with
  | nil => rfl
  | cons a l ih =>
    rw [List.pairwise_cons] at h
    by_cases ha : tell < a.ltell
    · rw [List.dropWhile_cons_of_neg (by simp [ha]), List.filter_cons_of_pos (by simp [ha])]
      rw [List.filter_eq_self.mpr]
      intro b hb
      have := h.1 b hb
      simp only [decide_eq_true_eq]
      omega
    · rw [List.dropWhile_cons_of_pos (by simp; omega), List.filter_cons_of_neg (by simp [ha])]
      exact ih h.2

theorem take_filter (tell : Nat) (l : List RecordInfo)
    (h : l.Pairwise (fun a b => a.ltell < b.ltell)) :
    l.take (l.length - (upperBound tell l).length) =
      l.filter (fun r => decide (r.ltell ≤ tell)) := by
  rw [upperBound_filter tell l h]
  induction l with
  | nil => rfl
  | cons a l ih =>
    rw [List.pairwise_cons] at h
    by_cases ha : tell < a.ltell
    · have hall : ∀ b ∈ a :: l, tell < b.ltell := by
        intro b hb
        rcases List.mem_cons.mp hb with rfl | hb
        · exact ha
        · have := h.1 b hb; omega
      rw [List.filter_eq_self.mpr fun b hb => by simpa using hall b hb]
      rw [List.filter_eq_nil_iff.mpr fun b hb => by have := hall b hb; simp; omega]
      simp
    · rw [List.filter_cons_of_neg (by simp [ha]), List.filter_cons_of_pos (by simp; omega)]
      have hle := List.length_filter_le (fun r : RecordInfo => decide (tell < r.ltell)) l
      rw [List.length_cons, show l.length + 1 -
        (l.filter (fun r : RecordInfo => decide (tell < r.ltell))).length =
        (l.length - (l.filter (fun r : RecordInfo => decide (tell < r.ltell))).length) + 1 by omega]
      rw [List.take_succ_cons, ih h.2]

theorem dropWhile_split (tell : Nat) (l : List RecordInfo) (d : RecordInfo)
    (h : l.Pairwise (fun a b => a.ltell < b.ltell)) (hd : d ∈ l) (ht : d.ltell = tell) :
    ∃ before after, l = before ++ d :: after ∧
      l.dropWhile (fun cur => cur.ltell ≠ tell) = d :: after := by
  induction l with
  | nil => cases hd
  | cons a l ih =>
    rw [List.pairwise_cons] at h
    rcases List.mem_cons.mp hd with rfl | hd
    · exact ⟨[], l, rfl, by rw [List.dropWhile_cons_of_neg (by simp [ht])]⟩
    · obtain ⟨b, af, h1, h2⟩ := ih h.2 hd
      have := h.1 d hd
      refine ⟨a :: b, af, by rw [h1]; rfl, ?_⟩
      rw [List.dropWhile_cons_of_pos (by simp; omega), h2]

/-- `find?` gives the first: all before it do not satisfy the condition. -/
theorem find_split {p : RecordInfo → Bool} {l : List RecordInfo} {n : RecordInfo}
    (h : l.find? p = some n) : p n = true ∧ ∃ a b, l = a ++ n :: b ∧ ∀ x ∈ a, p x = false := by
  induction l with
  | nil => cases h
  | cons x l ih =>
    rw [List.find?_cons] at h
    cases hp : p x with
    | true => rw [hp] at h; cases h; exact ⟨hp, [], l, rfl, fun y hy => by cases hy⟩
    | false =>
      rw [hp] at h
      obtain ⟨h1, a, b, h2, h3⟩ := ih h
      refine ⟨h1, x :: a, b, by rw [h2]; rfl, ?_⟩
      intro y hy
      rcases List.mem_cons.mp hy with rfl | hy
      · exact hp
      · exact h3 y hy

/-- **C46.**  The data records of a record of the index are exactly those that belong to
it: behind it with no other specification between, all of them and in their order. -/
theorem c46_implicits (ix : Index) (ho : Ordered ix) (d : RecordInfo) (hd : d ∈ ix.explicits) :
    implicitsOf ix d.ltell =
      some (ix.implicits.filter (fun r => decide (Belongs ix.explicits d r))) := by
  obtain ⟨before, after, hsplit, hdrop⟩ := dropWhile_split d.ltell _ d ho.explicits hd rfl
  have hex := ho.explicits
  rw [hsplit, List.pairwise_append, List.pairwise_cons] at hex
  obtain ⟨-, ⟨hda, haft⟩, hbd⟩ := hex
  unfold implicitsOf
  rw [hdrop]
  simp only
  rw [upperBound_filter _ _ ho.implicits]
  have hfil : (ix.implicits.filter (fun r => decide (d.ltell < r.ltell))).Pairwise
      (fun a b => a.ltell < b.ltell) := ho.implicits.filter _
  -- the records that count as later specifications
  have hlater : ∀ e ∈ ix.explicits, d.ltell < e.ltell → e ∈ after := by
    intro e he hlt
    rw [hsplit] at he
    rcases List.mem_append.mp he with he | he
    · have := hbd e he d List.mem_cons_self; omega
    · rcases List.mem_cons.mp he with rfl | he
      · omega
      · exact he
  have hmem : ∀ e ∈ after, e ∈ ix.explicits := by
    intro e he; rw [hsplit]; exact List.mem_append_right _ (List.mem_cons_of_mem _ he)
  split
  · rename_i next hf
    rw [take_filter _ _ hfil, List.filter_filter]
    congr 1
    apply List.filter_congr
    intro r hr
    obtain ⟨hn, a, b, hab, ha⟩ := find_split hf
    have hnmem : next ∈ after := by rw [hab]; exact List.mem_append_right _ List.mem_cons_self
    have hne : next.ltell ≠ r.ltell := ho.apart next (hmem _ hnmem) r hr
    rw [Bool.eq_iff_iff]
    rw [Bool.and_eq_true, decide_eq_true_iff, decide_eq_true_iff, decide_eq_true_iff]
    unfold Belongs
    constructor
    · rintro ⟨h1, h2⟩
      refine ⟨h2, fun e he h64 hlt => ?_⟩
      have hea := hlater e he hlt
      rw [hab] at hea haft
      rw [List.pairwise_append, List.pairwise_cons] at haft
      rcases List.mem_append.mp hea with hea | hea
      · have := ha e hea; simp [h64] at this
      · rcases List.mem_cons.mp hea with rfl | hea
        · omega
        · have := haft.2.1.1 e hea; omega
    · rintro ⟨h1, h2⟩
      refine ⟨?_, h1⟩
      have := h2 next (hmem _ hnmem) (by simpa using hn) (hda next hnmem)
      omega
  · rename_i hf
    congr 1
    apply List.filter_congr
    intro r _
    rw [decide_eq_decide]
    unfold Belongs
    constructor
    · intro h1
      refine ⟨h1, fun e he h64 hlt => ?_⟩
      have := List.find?_eq_none.mp hf e (hlater e he hlt)
      simp [h64] at this
    · exact fun h => h.1

/-- **C46** (unknown position).  For a position at which the index has no explicit record
there is an exception. -/
theorem c46_unknown (ix : Index) (tell : Nat) (h : ∀ d ∈ ix.explicits, d.ltell ≠ tell) :
    implicitsOf ix tell = none := by
  unfold implicitsOf
  have hnil : ∀ l : List RecordInfo, (∀ d ∈ l, d.ltell ≠ tell) →
      l.dropWhile (fun cur => cur.ltell ≠ tell) = [] := by
    intro l
    induction l with
    | nil => intro _; rfl
    | cons a l ih =>
      intro h
      rw [List.dropWhile_cons_of_pos (by simpa using h a List.mem_cons_self)]
      exact ih fun d hd => h d (List.mem_cons_of_mem _ hd)
  rw [hnil _ h]

/-- **C46** (one specification each).  Every data record behind the first specification
belongs to exactly one specification; one before it belongs to none. -/
theorem c46_partition (ix : Index) (ho : Ordered ix) (r : RecordInfo) (hr : r ∈ ix.implicits) :
    ((∃ d ∈ ix.explicits, d.type = 64 ∧ d.ltell < r.ltell) →
      ∃ d ∈ ix.explicits, (d.type = 64 ∧ Belongs ix.explicits d r) ∧
        ∀ d' ∈ ix.explicits, d'.type = 64 → Belongs ix.explicits d' r → d' = d) ∧
    ((¬ ∃ d ∈ ix.explicits, d.type = 64 ∧ d.ltell < r.ltell) →
      ∀ d ∈ ix.explicits, d.type = 64 → ¬ Belongs ix.explicits d r) := by
  constructor
  · rintro ⟨d0, hd0, h64, hlt⟩
    -- the last one before `r`
    have hlast : ∀ (l : List RecordInfo), l.Pairwise (fun a b => a.ltell < b.ltell) →
        (∃ d ∈ l, d.type = 64 ∧ d.ltell < r.ltell) →
        ∃ d ∈ l, d.type = 64 ∧ d.ltell < r.ltell ∧
          ∀ e ∈ l, e.type = 64 → e.ltell < r.ltell → e.ltell ≤ d.ltell := by
      intro l
      induction l with
      | nil => rintro _ ⟨d, hd, -⟩; cases hd
      | cons a l ih =>
        intro hp hex
        rw [List.pairwise_cons] at hp
        by_cases hl : ∃ d ∈ l, d.type = 64 ∧ d.ltell < r.ltell
        · obtain ⟨d, hd, h1, h2, h3⟩ := ih hp.2 hl
          refine ⟨d, List.mem_cons_of_mem _ hd, h1, h2, fun e he h64 hlt => ?_⟩
          rcases List.mem_cons.mp he with rfl | he
          · have := hp.1 d hd; omega
          · exact h3 e he h64 hlt
        · obtain ⟨d, hd, h1, h2⟩ := hex
          rcases List.mem_cons.mp hd with rfl | hd
          · refine ⟨d, List.mem_cons_self, h1, h2, fun e he h64 hlt => ?_⟩
            rcases List.mem_cons.mp he with rfl | he
            · exact Nat.le_refl _
            · exact absurd ⟨e, he, h64, hlt⟩ hl
          · exact absurd ⟨d, hd, h1, h2⟩ hl
    obtain ⟨d, hd, h1, h2, h3⟩ := hlast _ ho.explicits ⟨d0, hd0, h64, hlt⟩
    refine ⟨d, hd, ⟨h1, h2, fun e he h64 hlt => ?_⟩, fun d' hd' h64' hb => ?_⟩
    · have hne := ho.apart e he r hr
      by_cases her : e.ltell < r.ltell
      · have := h3 e he h64 her; omega
      · omega
    · have hle := h3 d' hd' h64' hb.1
      have heq : d'.ltell = d.ltell := by
        by_cases hlt : d'.ltell < d.ltell
        · have := hb.2 d hd h1 hlt; omega
        · omega
      -- two records at one place are the same
      have huniq : ∀ (l : List RecordInfo), l.Pairwise (fun a b => a.ltell < b.ltell) →
          ∀ a ∈ l, ∀ b ∈ l, a.ltell = b.ltell → a = b := by
        intro l
        induction l with
        | nil => intro _ a ha; cases ha
        | cons x l ih =>
          intro hp a ha b hb he
          rw [List.pairwise_cons] at hp
          rcases List.mem_cons.mp ha with h1 | h1 <;> rcases List.mem_cons.mp hb with h2 | h2
          · rw [h1, h2]
          · have := hp.1 b h2; rw [h1] at he; omega
          · have := hp.1 a h1; rw [h2] at he; omega
          · exact ih hp.2 a h1 b h2 he
      exact huniq _ ho.explicits d' hd' d hd heq
  · intro hno d hd h64 hb
    exact hno ⟨d, hd, h64, hb.1⟩

/-- Two specifications, the first with two data records, one data record before both and
one behind an information record. -/
example :
    let ix : Index := ⟨[⟨128, 62, 0⟩, ⟨64, 20, 80⟩, ⟨64, 20, 200⟩, ⟨34, 9, 240⟩],
      [⟨0, 10, 62⟩, ⟨0, 10, 100⟩, ⟨1, 10, 110⟩, ⟨0, 10, 220⟩, ⟨0, 10, 249⟩], false, 300⟩
    implicitsOf ix 80 = some [⟨0, 10, 100⟩, ⟨1, 10, 110⟩] ∧
    implicitsOf ix 200 = some [⟨0, 10, 220⟩, ⟨0, 10, 249⟩] ∧
    implicitsOf ix 100 = none := by decide

end Dlisio.Lis
