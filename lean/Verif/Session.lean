/-
The file handles of loaded files while they are used and closed: C73.

`load` gives a `PhysicalFile`, a tuple of logical files, each of which owns a handle
(python/dlisio/dlis/file.py, python/dlisio/lis/file.py).  Closing passes the handle to
`lfp_close`, which frees it (lfp is not in the repository; this is the documented behaviour of
its function), and `stream::close` keeps the pointer (lib/src/file.cpp:62-64).  So what is done
with a handle after it was closed, including closing it again, is undefined behaviour.  A handle
that is never closed remains open: `stream` has no destructor (lib/include/dlisio/file.hpp:21-71).
-/
import Verif.Dlis.LoadFiles
import Verif.Lis.LoadFiles

namespace Dlisio

/-! ## Model -/

/-- What a user does with the logical files of a `PhysicalFile`, by their number.
`closeFile`: `LogicalFile.close`, and leaving a `with` block of a logical file
(dlis/file.py:363-375, lis/file.py:124-136); `closeAll`: `PhysicalFile.close`, and leaving its `with`
block (dlis/file.py:85-94, lis/file.py:356-364); `metadata`: access to objects of a DLIS file,
which were read while loading (dlis/load.py:152-192); `data`: reading frame data of a DLIS file,
if there is any (dlis/utils/fdata.py:23, 41), or any record of a LIS file (lis/file.py:165, 191, 294). -/
inductive Use where
  | closeFile (i : Nat)
  | closeAll
  | metadata (i : Nat)
  | data (i : Nat)
deriving DecidableEq

/-- The handles that are open, those that were closed, in order, and whether a handle was used
after it was closed. -/
structure Handles where
  live : List Nat
  closed : List Nat
  undefined : Bool
deriving DecidableEq

/-- `stream::close`, lib/src/file.cpp:62-64, on a handle. -/
def Handles.close (s : Handles) (h : Nat) : Handles :=
  if h ∈ s.live then { s with live := s.live.erase h, closed := s.closed ++ [h] }
  else { s with closed := s.closed ++ [h], undefined := true }

/-- `stream::seek`, `stream::read` and so on, lib/src/file.cpp:17-56, on a handle. -/
def Handles.read (s : Handles) (h : Nat) : Handles :=
  if h ∈ s.live then s else { s with undefined := true }

/-- One step, with the handles of the logical files.  For a number that is too large Python raises
an exception and nothing is done. -/
def useStep (hs : List Nat) (s : Handles) : Use → Handles
  | .closeFile i => match hs[i]? with
    | some h => s.close h
    | none => s
  | .closeAll => hs.foldl Handles.close s
  | .metadata _ => s
  | .data i => match hs[i]? with
    | some h => s.read h
    | none => s

/-- All steps, beginning after `load` has returned. -/
def useAll (hs : List Nat) (us : List Use) : Handles :=
  us.foldl (useStep hs) ⟨hs, [], false⟩

/-! ## Specification -/

/-- The step closes the file of this number. -/
def Spec.Closes (i : Nat) (u : Use) : Prop := u = .closeFile i ∨ u = .closeAll

/-- The step needs the handle of the file. -/
def Spec.Needs (i : Nat) (u : Use) : Prop := Spec.Closes i u ∨ u = .data i

instance (i : Nat) (u : Use) : Decidable (Spec.Closes i u) := inferInstanceAs (Decidable (_ ∨ _))
instance (i : Nat) (u : Use) : Decidable (Spec.Needs i u) := inferInstanceAs (Decidable (_ ∨ _))

/-- After a file is closed it is neither closed again nor read. -/
def Spec.Proper (n : Nat) (us : List Use) : Prop :=
  us.Pairwise fun u w => ∀ i < n, Spec.Closes i u → ¬ Spec.Needs i w

/-! ## Proofs -/

theorem closeAll_fold (hs : List Nat) (s : Handles) (hn : hs.Nodup) (hsub : ∀ h ∈ hs, h ∈ s.live)
    (hl : s.live.Nodup) :
    (hs.foldl Handles.close s) =
      { s with live := s.live.filter (fun x => decide (x ∉ hs)), closed := s.closed ++ hs } := by
  induction hs generalizing s with
  | nil => cases s; simp
  | cons h hs ih =>
    rw [List.nodup_cons] at hn
    have h1 : s.close h = { s with live := s.live.erase h, closed := s.closed ++ [h] } := by
      rw [Handles.close, if_pos (hsub h (by simp))]
    rw [List.foldl_cons, h1, ih _ hn.2]
    · simp only [Handles.mk.injEq, List.append_assoc, List.singleton_append, and_true]
      rw [hl.erase_eq_filter, List.filter_filter]
      apply List.filter_congr
      intro x _
      by_cases hx : x = h <;> simp [hx]
    · intro x hx
      have : x ≠ h := fun he => hn.1 (he ▸ hx)
      exact (List.mem_erase_of_ne this).2 (hsub x (by simp [hx]))
    · exact hl.erase h

/-- Once undefined, always undefined. -/
theorem close_undefined (s : Handles) (h : Nat) (hu : s.undefined = true) :
    (s.close h).undefined = true := by
  unfold Handles.close; split
  · exact hu
  · rfl

theorem closes_undefined (hs : List Nat) (s : Handles) (hu : s.undefined = true) :
    (hs.foldl Handles.close s).undefined = true := by
  induction hs generalizing s with
  | nil => exact hu
  | cons h hs ih => exact ih _ (close_undefined s h hu)

theorem useStep_undefined (hs : List Nat) (s : Handles) (u : Use) (hu : s.undefined = true) :
    (useStep hs s u).undefined = true := by
  cases u with
  | closeFile i =>
    simp only [useStep]
    split
    · exact close_undefined _ _ hu
    · exact hu
  | closeAll => exact closes_undefined _ _ hu
  | metadata i => exact hu
  | data i =>
    simp only [useStep]
    split
    · unfold Handles.read; split
      · exact hu
      · rfl
    · exact hu

theorem steps_undefined (hs : List Nat) (us : List Use) (s : Handles) (hu : s.undefined = true) :
    (us.foldl (useStep hs) s).undefined = true := by
  induction us generalizing s with
  | nil => exact hu
  | cons u us ih => exact ih _ (useStep_undefined hs s u hu)

/-- A handle that is closed although it is not open. -/
theorem closes_missing (hs : List Nat) (s : Handles) (h : Nat) (hm : h ∈ hs) (hl : h ∉ s.live) :
    (hs.foldl Handles.close s).undefined = true := by
  induction hs generalizing s with
  | nil => cases hm
  | cons x hs ih =>
    rw [List.foldl_cons]
    rcases List.mem_cons.1 hm with rfl | hm
    · apply closes_undefined
      rw [Handles.close, if_neg hl]
    · apply ih _ hm
      unfold Handles.close
      split
      · exact fun h' => hl (List.mem_of_mem_erase h')
      · exact hl

/-- What is known after a number of steps, as long as nothing undefined has happened: the handle of
a file is open exactly if no step has closed the file. -/
structure Tracks (hs : List Nat) (done : List Use) (s : Handles) : Prop where
  defined : s.undefined = false
  nodup : s.live.Nodup
  live : ∀ i h, hs[i]? = some h → (h ∈ s.live ↔ ∀ u ∈ done, ¬ Spec.Closes i u)
  perm : (s.closed ++ s.live).Perm hs

theorem get_inj {hs : List Nat} (hn : hs.Nodup) {i j h : Nat} (hi : hs[i]? = some h)
    (hj : hs[j]? = some h) : i = j :=
  (List.nodup_iff_getElem?_ne_getElem?.1 hn |> fun hne => by
    by_contra hij
    rcases Nat.lt_or_gt_of_ne hij with hlt | hlt
    · exact hne i j hlt (List.getElem?_eq_some_iff.1 hj).1 (hi.trans hj.symm)
    · exact hne j i hlt (List.getElem?_eq_some_iff.1 hi).1 (hj.trans hi.symm))

theorem step_tracks {hs : List Nat} (hn : hs.Nodup) {done : List Use} {s : Handles}
    (ht : Tracks hs done s) (u : Use) :
    ((∀ w ∈ done, ∀ i < hs.length, Spec.Closes i w → ¬ Spec.Needs i u) →
      Tracks hs (done ++ [u]) (useStep hs s u)) ∧
    (¬ (∀ w ∈ done, ∀ i < hs.length, Spec.Closes i w → ¬ Spec.Needs i u) →
      (useStep hs s u).undefined = true) := by
  -- a file that the step needs, and that has been closed
  have hneed : ∀ i h, hs[i]? = some h → Spec.Needs i u →
      (∀ w ∈ done, ∀ i < hs.length, Spec.Closes i w → ¬ Spec.Needs i u) → h ∈ s.live := by
    intro i h hi hu hp
    rw [ht.live i h hi]
    intro w hw hc
    exact hp w hw i (List.getElem?_eq_some_iff.1 hi).1 hc hu
  have hbad : ¬ (∀ w ∈ done, ∀ i < hs.length, Spec.Closes i w → ¬ Spec.Needs i u) →
      ∃ i h, hs[i]? = some h ∧ Spec.Needs i u ∧ h ∉ s.live := by
    intro hp
    push Not at hp
    obtain ⟨w, hw, i, hi, hc, hu⟩ := hp
    refine ⟨i, hs[i], List.getElem?_eq_getElem hi, hu, ?_⟩
    rw [ht.live i _ (List.getElem?_eq_getElem hi)]
    exact fun h => h w hw hc
  constructor
  · intro hp
    cases u with
    | metadata j =>
      refine ⟨ht.defined, ht.nodup, fun i h hi => ?_, ht.perm⟩
      have : ¬ Spec.Closes i (.metadata j) := by simp [Spec.Closes]
      simp only [useStep, ht.live i h hi, List.mem_append, List.mem_singleton, or_imp, forall_and,
        forall_eq, this, not_false_eq_true, and_true]
    | data j =>
      have hstep : useStep hs s (.data j) = s := by
        simp only [useStep]
        split
        · rename_i h hj
          rw [Handles.read, if_pos (hneed j h hj (Or.inr rfl) hp)]
        · rfl
      rw [hstep]
      refine ⟨ht.defined, ht.nodup, fun i h hi => ?_, ht.perm⟩
      have : ¬ Spec.Closes i (.data j) := by simp [Spec.Closes]
      simp only [ht.live i h hi, List.mem_append, List.mem_singleton, or_imp, forall_and,
        forall_eq, this, not_false_eq_true, and_true]
    | closeFile j =>
      cases hj : hs[j]? with
      | none =>
        have hstep : useStep hs s (.closeFile j) = s := by simp only [useStep, hj]
        rw [hstep]
        refine ⟨ht.defined, ht.nodup, fun i h hi => ?_, ht.perm⟩
        have : ¬ Spec.Closes i (.closeFile j) := by
          simp only [Spec.Closes, Use.closeFile.injEq, reduceCtorEq, or_false]
          rintro rfl
          rw [hj] at hi; cases hi
        simp only [ht.live i h hi, List.mem_append, List.mem_singleton, or_imp, forall_and,
          forall_eq, this, not_false_eq_true, and_true]
      | some x =>
        have hx : x ∈ s.live := hneed j x hj (Or.inl (Or.inl rfl)) hp
        have hstep : useStep hs s (.closeFile j) =
            { s with live := s.live.erase x, closed := s.closed ++ [x] } := by
          simp only [useStep, hj]
          rw [Handles.close, if_pos hx]
        rw [hstep]
        refine ⟨ht.defined, ht.nodup.erase x, fun i h hi => ?_, ?_⟩
        · have hc : Spec.Closes i (.closeFile j) ↔ h = x := by
            simp only [Spec.Closes, Use.closeFile.injEq, reduceCtorEq, or_false]
            constructor
            · rintro rfl
              rw [hj] at hi; cases hi; rfl
            · rintro rfl
              exact get_inj hn hj hi
          rw [ht.nodup.mem_erase_iff, ht.live i h hi]
          simp only [List.mem_append, List.mem_singleton, or_imp, forall_and, forall_eq, hc, ne_eq]
          exact and_comm
        · refine List.Perm.trans ?_ ht.perm
          rw [List.append_assoc]
          exact (List.perm_cons_erase hx).symm.append_left _
    | closeAll =>
      have hlive : ∀ h ∈ hs, h ∈ s.live := by
        intro h hh
        obtain ⟨i, hi, rfl⟩ := List.getElem_of_mem hh
        exact hneed i _ (List.getElem?_eq_getElem hi) (Or.inl (Or.inr rfl)) hp
      have hin : ∀ h ∈ s.live, h ∈ hs := fun h hh => ht.perm.subset (by simp [hh])
      have hclosed : s.closed = [] := by
        have h1 := ht.perm.length_eq
        have h2 : s.live.length = hs.length :=
          ((List.perm_ext_iff_of_nodup ht.nodup hn).2 fun x => ⟨hin x, hlive x⟩).length_eq
        rw [List.length_append] at h1
        exact List.length_eq_zero_iff.1 (by omega)
      have hstep : useStep hs s .closeAll = { s with live := [], closed := hs } := by
        simp only [useStep]
        rw [closeAll_fold hs s hn hlive ht.nodup, hclosed]
        simp only [List.nil_append, Handles.mk.injEq, and_true, List.filter_eq_nil_iff,
          decide_eq_true_eq, not_not]
        exact hin
      rw [hstep]
      refine ⟨ht.defined, List.nodup_nil, fun i h hi => ?_, by simp⟩
      simp only [List.not_mem_nil, false_iff]
      intro hall
      exact hall .closeAll (by simp) (Or.inr rfl)
  · intro hp
    obtain ⟨i, h, hi, hu, hl⟩ := hbad hp
    cases u with
    | metadata j => simp [Spec.Needs, Spec.Closes] at hu
    | data j =>
      simp only [Spec.Needs, Spec.Closes, reduceCtorEq, or_self, Use.data.injEq, false_or] at hu
      subst hu
      simp only [useStep, hi]
      rw [Handles.read, if_neg hl]
    | closeFile j =>
      simp only [Spec.Needs, Spec.Closes, reduceCtorEq, or_false, Use.closeFile.injEq] at hu
      subst hu
      simp only [useStep, hi]
      rw [Handles.close, if_neg hl]
    | closeAll =>
      exact closes_missing hs s h (List.mem_of_getElem? hi) hl

theorem proper_snoc {n : Nat} {us : List Use} {u : Use} :
    Spec.Proper n (us ++ [u]) ↔
      Spec.Proper n us ∧ ∀ w ∈ us, ∀ i < n, Spec.Closes i w → ¬ Spec.Needs i u := by
  unfold Spec.Proper
  rw [List.pairwise_append]
  simp

theorem useAll_tracks {hs : List Nat} (hn : hs.Nodup) (us : List Use) :
    (Spec.Proper hs.length us → Tracks hs us (useAll hs us)) ∧
    (¬ Spec.Proper hs.length us → (useAll hs us).undefined = true) := by
  induction us using List.reverseRecOn with
  | nil =>
    refine ⟨fun _ => ⟨rfl, hn, fun i h hi => ?_, by simp [useAll]⟩, fun h => absurd ?_ h⟩
    · simp only [useAll, List.foldl_nil, List.not_mem_nil, false_imp_iff, implies_true, iff_true]
      exact List.mem_of_getElem? hi
    · exact List.Pairwise.nil
  | append_singleton us u ih =>
    have hstep : useAll hs (us ++ [u]) = useStep hs (useAll hs us) u := by
      simp [useAll, List.foldl_append]
    rw [hstep, proper_snoc]
    by_cases hp : Spec.Proper hs.length us
    · have := step_tracks hn (ih.1 hp) u
      simp only [hp, true_and]
      exact this
    · refine ⟨fun h => absurd h.1 hp, fun _ => useStep_undefined hs _ u (ih.2 hp)⟩

/-! ## C73 -/

/-- C73.  Whatever is done with the logical files of a file, in whatever order: a handle is used
after it was closed, which is undefined behaviour, exactly if a logical file is closed again or
read after it was closed.  Access to metadata needs no handle. -/
theorem c73_proper_partial (hs : List Nat) (hn : hs.Nodup) (us : List Use) :
    (useAll hs us).undefined = false ↔ Spec.Proper hs.length us := by
  constructor
  · intro h
    by_contra hp
    rw [(useAll_tracks hn us).2 hp] at h
    cases h
  · exact fun hp => ((useAll_tracks hn us).1 hp).defined

/-- C73.  As long as no handle is used after it was closed, every handle is open or was closed, but
not both, none was closed twice, and open are those of the logical files that were not closed. -/
theorem c73_handles (hs : List Nat) (hn : hs.Nodup) (us : List Use)
    (hp : Spec.Proper hs.length us) :
    ((useAll hs us).closed ++ (useAll hs us).live).Perm hs ∧
    ∀ i h, hs[i]? = some h →
      (h ∈ (useAll hs us).closed ↔ ∃ u ∈ us, Spec.Closes i u) := by
  have ht := (useAll_tracks hn us).1 hp
  refine ⟨ht.perm, fun i h hi => ?_⟩
  have hnd := ht.perm.nodup_iff.2 hn
  have hmem : h ∈ (useAll hs us).closed ++ (useAll hs us).live :=
    ht.perm.symm.subset (List.mem_of_getElem? hi)
  have hlive := ht.live i h hi
  have hdis := List.nodup_append.1 hnd
  constructor
  · intro hc
    by_contra hno
    push Not at hno
    exact hdis.2.2 h hc h (hlive.2 hno) rfl
  · rintro ⟨u, hu, hc⟩
    rcases List.mem_append.1 hmem with h1 | h1
    · exact h1
    · exact absurd hc (hlive.1 h1 u hu)

theorem with_proper {n : Nat} {us : List Use} (hu : ∀ u ∈ us, ∀ i, ¬ Spec.Closes i u) :
    Spec.Proper n (us ++ [.closeAll]) := by
  rw [proper_snoc]
  refine ⟨?_, fun w hw i _ hc => absurd hc (hu w hw i)⟩
  rw [Spec.Proper]
  refine List.Pairwise.imp_of_mem (R := fun _ _ => True) ?_ (List.pairwise_of_forall fun _ _ => trivial)
  intro a b ha _ _ i _ hc
  exact absurd hc (hu a ha i)

/-- C73.  `with dlis.load(path) as files:` — for every file, whatever goes on in the block as long as
nothing is closed there: no handle is used after it was closed, and at the end every handle that
was opened, also by `load`, was closed exactly once.  The conditions are those of
`c40_handles_partial`. -/
theorem c73_dlis_with_partial (d : Dlis.Disk) (policy : Dlis.Policy) (stale : Nat → Bytes) (n : Nat)
    (tm : Tapemark) (hm : d.mark = .ok tm) (hopen : ∀ k, d.opens k = true) (x : Dlis.Indexer)
    (hload : Dlis.load d policy stale n = (x, .files)) (us : List Use)
    (hu : ∀ u ∈ us, ∀ i, ¬ Spec.Closes i u) :
    let s := useAll (x.files.map (·.handle)) (us ++ [.closeAll])
    s.undefined = false ∧ s.live = [] ∧ (x.closed ++ s.closed).Perm (List.range x.opened) := by
  have hacc := (Dlis.c40_handles_partial d policy stale n tm hm hopen).2 (by rw [hload])
  rw [hload] at hacc
  have hnd : (x.files.map (·.handle)).Nodup :=
    (List.nodup_append.1 (hacc.nodup_iff.2 List.nodup_range)).2.1
  have ht := (useAll_tracks hnd (us ++ [.closeAll])).1 (with_proper hu)
  have hlive : (useAll (x.files.map (·.handle)) (us ++ [.closeAll])).live = [] := by
    rw [List.eq_nil_iff_forall_not_mem]
    intro h hh
    have hin : h ∈ x.files.map (·.handle) := ht.perm.subset (by simp [hh])
    obtain ⟨i, hi, rfl⟩ := List.getElem_of_mem hin
    exact (ht.live i _ (List.getElem?_eq_getElem hi)).1 hh .closeAll (by simp) (Or.inr rfl)
  refine ⟨ht.defined, hlive, ?_⟩
  have hp := ht.perm
  rw [hlive, List.append_nil] at hp
  exact (hp.append_left _).trans hacc

/-- C73.  The same for LIS. -/
theorem c73_lis_with_partial (d : Lis.Disk) (raises : Bool) (n : Nat) (x : Lis.Indexer)
    (hload : Lis.load d raises n = some (false, x)) (us : List Use)
    (hu : ∀ u ∈ us, ∀ i, ¬ Spec.Closes i u) :
    let s := useAll (x.files.map (·.handle)) (us ++ [.closeAll])
    s.undefined = false ∧ s.live = [] ∧ (x.closed ++ s.closed).Perm (List.range x.opened) := by
  have hacc := (Lis.c54_streams_partial d raises n false x hload).1 rfl
  have hnd : (x.files.map (·.handle)).Nodup :=
    (List.nodup_append.1 (hacc.nodup_iff.2 List.nodup_range)).2.1
  have ht := (useAll_tracks hnd (us ++ [.closeAll])).1 (with_proper hu)
  have hlive : (useAll (x.files.map (·.handle)) (us ++ [.closeAll])).live = [] := by
    rw [List.eq_nil_iff_forall_not_mem]
    intro h hh
    have hin : h ∈ x.files.map (·.handle) := ht.perm.subset (by simp [hh])
    obtain ⟨i, hi, rfl⟩ := List.getElem_of_mem hin
    exact (ht.live i _ (List.getElem?_eq_getElem hi)).1 hh .closeAll (by simp) (Or.inr rfl)
  refine ⟨ht.defined, hlive, ?_⟩
  have hp := ht.perm
  rw [hlive, List.append_nil] at hp
  exact (hp.append_left _).trans hacc

/-- C73 is violated by closing a logical file within the `with` block of the physical file: for every
file and everything else that is done, leaving the block closes its handle again. -/
theorem c73_close_twice_defect (hs : List Nat) (hn : hs.Nodup) (i : Nat) (hi : i < hs.length)
    (before after : List Use) :
    (useAll hs (before ++ .closeFile i :: after ++ [.closeAll])).undefined = true := by
  rw [← Bool.not_eq_false, c73_proper_partial hs hn, proper_snoc]
  rintro ⟨_, h⟩
  exact h (.closeFile i) (by simp) i hi (Or.inl rfl) (Or.inl (Or.inr rfl))

/-- C73 is violated by reading curves after the file was closed: that is no exception but undefined
behaviour. -/
theorem c73_read_closed_defect (hs : List Nat) (hn : hs.Nodup) (i : Nat) (hi : i < hs.length)
    (before between : List Use) :
    (useAll hs (before ++ .closeAll :: between ++ [.data i])).undefined = true := by
  rw [← Bool.not_eq_false, c73_proper_partial hs hn, proper_snoc]
  rintro ⟨_, h⟩
  exact h .closeAll (by simp) i hi (Or.inr rfl) (Or.inr rfl)

/-! ## Cases -/

/-- Three logical files: two are closed one by one, metadata is read afterwards, the third one is
read and left open. -/
example : useAll [1, 3, 4] [.data 0, .closeFile 2, .metadata 2, .closeFile 0, .data 1] =
    ⟨[3], [4, 1], false⟩ := by decide

/-- The same, and the `with` block is left. -/
example : useAll [1, 3, 4] [.data 0, .closeFile 2, .metadata 2, .closeFile 0, .data 1, .closeAll] =
    ⟨[], [4, 1, 1, 3, 4], true⟩ := by decide

/-- A proper use, and one that is not. -/
example : Spec.Proper 3 [.data 0, .closeFile 2, .metadata 2, .closeFile 0, .data 1] ∧
    ¬ Spec.Proper 3 [.closeFile 2, .data 2] := by
  unfold Spec.Proper; decide

/-- From the file on disk: two logical files of a DLIS file, and the end of the block. -/
example :
    let r := Dlis.load (Dlis.rawDisk (Dlis.exLabel ++ Dlis.exFile2.bytes ++ Dlis.exFile1.bytes))
      Dlis.exPolicy Dlis.exStale 9
    let s := useAll (r.1.files.map (·.handle)) [.metadata 0, .data 1, .closeAll]
    r.2 = .files ∧ r.1.closed = [0, 3] ∧ s.closed = [1, 2] ∧ r.1.opened = 4 ∧
      s.undefined = false := by
  decide +kernel

end Dlisio
