/-
C27: the attributes of an object form a map with insertion order.
-/
import Verif.Dlis.Eflr

namespace Dlisio.Dlis

/-- An operation on the attributes of an object. -/
inductive Spec.ObjOp where
  | set (a : ObjAttr)
  | remove (a : ObjAttr)

/-- The label that the operation is about. -/
def Spec.ObjOp.label : Spec.ObjOp → Bytes
  | .set a => a.label
  | .remove a => a.label

/-- The attribute under the label `k` after the history `ops` (oldest first): the one
that was set by the last operation about `k`, if that was not a removal. -/
def Spec.last (k : Bytes) : List Spec.ObjOp → Option ObjAttr
  | [] => none
  | .set a :: ops =>
    match Spec.last k ops with
    | some b => some b
    | none => if a.label = k ∧ ∀ o ∈ ops, o.label ≠ k then some a else none
  | .remove _ :: ops => Spec.last k ops

/-- One operation of the code on an attribute list. -/
def applyOp (xs : List ObjAttr) : Spec.ObjOp → List ObjAttr
  | .set a => setAttr a xs
  | .remove a => removeAttr a xs

/-- C27.  After `set`, looking the label up gives the attribute; every other lookup is
as before. -/
theorem c27_at_set (a : ObjAttr) (xs : List ObjAttr) (k : Bytes) :
    attrAt k (setAttr a xs) = if k = a.label then some a else attrAt k xs := by
  induction xs with
  | nil => by_cases h : a.label = k <;> simp [setAttr, attrAt, h, eq_comm]
  | cons x xs ih =>
    unfold setAttr
    split
    · rename_i h
      by_cases hk : k = a.label
      · simp [attrAt, hk]
      · have h1 : ¬ a.label = k := fun e => hk e.symm
        have h2 : ¬ x.label = k := by rw [← h]; exact h1
        simp [attrAt, hk, h1, h2]
    · rename_i h
      by_cases hx : x.label = k
      · have : ¬ k = a.label := by rw [← hx]; exact fun e => h e.symm
        simp [attrAt, hx, this]
      · simp only [attrAt, List.find?_cons, hx, decide_false] at ih ⊢
        exact ih

/-- C27.  After `remove`, looking the label up fails; every other lookup is as
before. -/
theorem c27_at_remove (a : ObjAttr) (xs : List ObjAttr) (k : Bytes) :
    attrAt k (removeAttr a xs) = if k = a.label then none else attrAt k xs := by
  induction xs with
  | nil => simp [removeAttr, attrAt]
  | cons x xs ih =>
    unfold removeAttr at ih ⊢
    rw [List.filter_cons]
    by_cases h : a.label = x.label
    · simp only [h, decide_true, Bool.not_true, Bool.false_eq_true, if_false]
      rw [← h, ih]
      by_cases hk : k = a.label
      · simp [hk]
      · have : ¬ x.label = k := by rw [← h]; exact fun e => hk e.symm
        simp [attrAt, hk, this]
    · simp only [h, decide_false, Bool.not_false, if_true]
      by_cases hx : x.label = k
      · have : ¬ k = a.label := by rw [← hx]; exact fun e => h e.symm
        simp [attrAt, hx, this]
      · simp only [attrAt, List.find?_cons, hx, decide_false] at ih ⊢
        exact ih

/-- C27.  `set` keeps the place of a label that is there and appends one that is not;
`remove` takes out the label.  The order of the others does not change. -/
theorem c27_labels (a : ObjAttr) (xs : List ObjAttr) :
    (setAttr a xs).map (·.label) =
      (if a.label ∈ xs.map (·.label) then xs.map (·.label) else xs.map (·.label) ++ [a.label]) ∧
    (removeAttr a xs).map (·.label) = (xs.map (·.label)).filter (· ≠ a.label) := by
  constructor
  · induction xs with
    | nil => simp [setAttr]
    | cons x xs ih =>
      unfold setAttr
      split
      · rename_i h
        simp [h]
      · rename_i h
        simp only [List.map_cons, ih, List.mem_cons, h, false_or]
        split <;> simp
  · induction xs with
    | nil => simp [removeAttr]
    | cons x xs ih =>
      unfold removeAttr at ih ⊢
      rw [List.filter_cons]
      by_cases h : a.label = x.label
      · simp only [h, decide_true, Bool.not_true, Bool.false_eq_true, if_false, List.map_cons,
          List.filter_cons, ne_eq, not_true_eq_false, decide_false]
        rw [h] at ih
        exact ih
      · have h' : ¬ x.label = a.label := fun e => h e.symm
        simp only [h, decide_false, Bool.not_false, if_true, List.map_cons, List.filter_cons,
          ne_eq, h', not_false_eq_true, decide_true, ih]

/-- C27.  At most one attribute per label, whatever is done to an object. -/
theorem c27_distinct (ops : List Spec.ObjOp) (xs : List ObjAttr) (h : (xs.map (·.label)).Nodup) :
    ((ops.foldl applyOp xs).map (·.label)).Nodup := by
  induction ops generalizing xs with
  | nil => exact h
  | cons o ops ih =>
    apply ih
    cases o with
    | set a =>
      simp only [applyOp, (c27_labels a xs).1]
      split
      · exact h
      · rename_i hn
        simp only [List.nodup_append, h, List.nodup_cons, List.not_mem_nil, not_false_eq_true,
          List.nodup_nil, and_self, List.mem_singleton, ne_eq, true_and]
        rintro x hx y rfl rfl
        exact hn hx
    | remove a =>
      simp only [applyOp, (c27_labels a xs).2]
      exact h.filter _

theorem last_append (k : Bytes) (ops : List Spec.ObjOp) (o : Spec.ObjOp) :
    Spec.last k (ops ++ [o]) =
      if o.label = k then (match o with | .set a => some a | .remove _ => none)
      else Spec.last k ops := by
  induction ops with
  | nil =>
    cases o with
    | set a => by_cases h : a.label = k <;> simp [Spec.last, Spec.ObjOp.label, h]
    | remove a => simp [Spec.last]
  | cons p ops ih =>
    cases p with
    | set a =>
      simp only [List.cons_append, Spec.last, ih]
      by_cases ho : o.label = k
      · simp only [ho, if_true]
        cases o with
        | set b => rfl
        | remove b =>
          simp only
          rw [if_neg]
          rintro ⟨_, hall⟩
          exact hall _ (by simp) ho
      · simp only [ho, if_false]
        cases Spec.last k ops with
        | some b => rfl
        | none =>
          have : (a.label = k ∧ ∀ o' ∈ ops ++ [o], o'.label ≠ k) ↔
              (a.label = k ∧ ∀ o' ∈ ops, o'.label ≠ k) := by
            simp [List.mem_append, or_imp, forall_and, ho]
          by_cases hx : a.label = k ∧ ∀ o' ∈ ops, o'.label ≠ k
          · simp only [if_pos hx, if_pos (this.2 hx)]
          · simp only [if_neg hx, if_neg (fun h => hx (this.1 h))]
    | remove a => simp only [List.cons_append, Spec.last, ih]

/-- C27.  After every history of operations on an empty object, a lookup gives what
the last operation about that label left. -/
theorem c27_history (ops : List Spec.ObjOp) (k : Bytes) :
    attrAt k (ops.foldl applyOp []) = Spec.last k ops := by
  induction ops using List.reverseRecOn with
  | nil => rfl
  | append_singleton ops o ih =>
    rw [List.foldl_append, last_append]
    simp only [List.foldl_cons, List.foldl_nil]
    cases o with
    | set a =>
      by_cases h : a.label = k
      · simp [applyOp, c27_at_set, Spec.ObjOp.label, h]
      · have h' : ¬ k = a.label := fun e => h e.symm
        simp [applyOp, c27_at_set, ih, Spec.ObjOp.label, h, h']
    | remove a =>
      by_cases h : a.label = k
      · simp [applyOp, c27_at_remove, Spec.ObjOp.label, h]
      · have h' : ¬ k = a.label := fun e => h e.symm
        simp [applyOp, c27_at_remove, ih, Spec.ObjOp.label, h, h']

/-- Two labels, the first is set twice, the second removed and set again. -/
example :
    let a : ObjAttr := { label := [0x41] }
    let b : ObjAttr := { label := [0x42] }
    let ops := [Spec.ObjOp.set a, .set b, .remove a, .set { b with count := 7 }, .set a]
    ops.foldl applyOp [] = [{ b with count := 7 }, a] ∧
    Spec.last [0x42] ops = some { b with count := 7 } ∧
    Spec.last [0x43] ops = none := by decide

end Dlisio.Dlis
