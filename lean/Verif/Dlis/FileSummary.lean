/-
The summaries of logical files and of all logical files of a file: `LogicalFile.__repr__`,
`LogicalFile.describe` and `PhysicalFile.describe` (python/dlisio/dlis/file.py:99-118, 377-382 and
614-656).  C71.  As in Describe.lean, a summary is what is shown, without its layout.
-/
import Verif.Dlis.Accessors
import Verif.Dlis.Classes

namespace Dlisio.Dlis

open _root_.Dlisio.Dlis.Spec

/-! ## Model -/

/-- What the summary of a logical file shows.  The description is the one of the file header,
or 'Unknown' (`none`). -/
structure FileSummary where
  description : Option PyResult
  frames : Nat
  channels : Nat
  known : List (PyStr × Nat)
  unknown : List (PyStr × Nat)
deriving DecidableEq

/-- Can `str` be taken of a value?  The names in a reference have to be UTF-8, ext/dlis.cpp:801-807,
826-829 and 855-862. -/
def PyVal.writes : PyVal → Bool
  | .raw _ v => v.reprOk
  | _ => true

/-- The same for a result; `str` of a list takes `repr` of its elements. -/
def PyResult.writes : PyResult → Bool
  | .list l => l.all PyVal.writes
  | .elem v => v.writes
  | _ => true

/-- `LogicalFile.__repr__`, file.py:377-382: the `id` of the file header, or `none` for 'Unknown';
`none` outside if something else is raised. -/
def Store.fileRepr (e : Env) (s : Store) : Store × Option (Option PyResult) :=
  match s.fileheader e with
  | (s, none) => (s, none)
  | (s, some (none, _)) => (s, some none)
  | (s, some (some h, _)) =>
    match s.property e h.attic "id" with
    | (s, .ok r) => (s, if r.writes then some (some r) else none)
    | (s, .error .attribute) => (s, some none)
    | (s, .error _) => (s, none)

/-- `len(self.find(t, matcher=exact))`, file.py:637, 638 and 644-646. -/
def Store.count (e : Env) (s : Store) (t : PyStr) : Store × Option Nat :=
  match s.all e t with
  | (s, none) => (s, none)
  | (s, some os) => (s, some os.length)

/-- The loop over the types, file.py:642-646. -/
def countLoop (e : Env) : List PyStr → Store → List (PyStr × Nat) → List (PyStr × Nat) →
    Store × Option (List (PyStr × Nat) × List (PyStr × Nat))
  | [], s, known, unknown => (s, some (known, unknown))
  | t :: ts, s, known, unknown =>
    match s.count e t with
    | (s, none) => (s, none)
    | (s, some n) =>
      if e.known t then countLoop e ts s (dictSet t n known) unknown
      else countLoop e ts s known (dictSet t n unknown)

/-- `describe_dict` joins the keys with texts, utils/describe.py:235, which raises for `bytes`. -/
def textKeys (d : List (PyStr × Nat)) : Bool :=
  d.all fun x => match x.1 with
    | .str _ => true
    | .bytes _ => false

/-- The first rows of the summary, file.py:113-115 and 636-638. -/
def Store.brief (e : Env) (s : Store) : Store × Option (Option PyResult × Nat × Nat) :=
  match s.fileRepr e with
  | (s, none) => (s, none)
  | (s, some desc) =>
    match s.count e (.str (text "FRAME")) with
    | (s, none) => (s, none)
    | (s, some frames) =>
      match s.count e (.str (text "CHANNEL")) with
      | (s, none) => (s, none)
      | (s, some channels) => (s, some (desc, frames, channels))

/-- `LogicalFile.describe`, file.py:614-656; `none` if something is raised. -/
def Store.fileSummary (e : Env) (s : Store) : Store × Option FileSummary :=
  match s.brief e with
  | (s, none) => (s, none)
  | (s, some (desc, frames, channels)) =>
    match countLoop e (s.types e) s [] [] with
    | (s, none) => (s, none)
    | (s, some (known, unknown)) =>
      if textKeys known ∧ textKeys unknown then (s, some ⟨desc, frames, channels, known, unknown⟩)
      else (s, none)

/-- The loop of `PhysicalFile.describe`, file.py:111-116, over the logical files. -/
def briefLoop (e : Env) : List Store → Option (List (Option PyResult × Nat × Nat))
  | [] => some []
  | s :: ss =>
    match (s.brief e).2, briefLoop e ss with
    | some x, some xs => some (x :: xs)
    | _, _ => none

/-- `PhysicalFile.describe`, file.py:99-118: the number of logical files, and each of them. -/
def physicalSummary (e : Env) (ss : List Store) :
    Option (Nat × List (Option PyResult × Nat × Nat)) :=
  (briefLoop e ss).map fun xs => (ss.length, xs)

/-! ## Specification -/

/-- The values in a result. -/
def Spec.valuesIn : PyResult → List PyVal
  | .list l => l
  | .elem v => [v]
  | _ => []

/-- The references in a result can be written down. -/
def Spec.ResultWritable (r : PyResult) : Prop :=
  ∀ c v, PyVal.raw c v ∈ Spec.valuesIn r → Spec.Writable v

/-- How many objects of the type there are. -/
def Spec.numberOf (e : Env) (p : List ObjectSet) (t : PyStr) : Nat := (Spec.objectsOf e p t).length

/-- There is a set of the type. -/
def Spec.HasType (e : Env) (p : List ObjectSet) (t : PyStr) : Prop := ∃ x ∈ p, e.dec x.type = t

/-- The description of a logical file is that of its only file header. -/
def Spec.Described (e : Env) (p : List ObjectSet) (desc : Option PyResult) : Prop :=
  (∀ o, Spec.objectsOf e p (.str (text "FILE-HEADER")) = [o] →
    ∃ r, desc = some r ∧ ∀ s : Store, (s.property e o.attic "id").2 = .ok r) ∧
  (Spec.numberOf e p (.str (text "FILE-HEADER")) ≠ 1 → desc = none)

/-- The file header, if there is one only, can be read, and its identification can be written down. -/
def Spec.HeaderReadable (e : Env) (p : List ObjectSet) : Prop :=
  ∀ o, Spec.objectsOf e p (.str (text "FILE-HEADER")) = [o] →
    ∃ r, (∀ s : Store, s.property e o.attic "id" = (s, .ok r)) ∧ Spec.ResultWritable r

/-- The types that are asked for by name. -/
def Spec.BriefTypes (e : Env) : Prop :=
  Spec.Stable e (.str (text "FILE-HEADER")) ∧ Spec.Stable e (.str (text "FRAME")) ∧
  Spec.Stable e (.str (text "CHANNEL"))

/-! ## Lemmas -/

variable {e : Env} {p : List ObjectSet}

theorem val_writes (w : PyVal) : w.writes = true ↔ ∀ c v, w = .raw c v → Spec.Writable v := by
  cases w with
  | raw c v =>
    refine (reprOk_iff v).trans ⟨?_, fun h => h c v rfl⟩
    rintro h c' v' e
    cases e
    exact h
  | _ => simp [PyVal.writes]

theorem vals_write (l : List PyVal) :
    l.all PyVal.writes = true ↔ ∀ c v, PyVal.raw c v ∈ l → Spec.Writable v := by
  simp only [List.all_eq_true, val_writes]
  exact ⟨fun h c v hm => h _ hm c v rfl, fun h w hw c v e => h c v (e ▸ hw)⟩

theorem result_writes (r : PyResult) : r.writes = true ↔ Spec.ResultWritable r := by
  unfold Spec.ResultWritable
  cases r with
  | list l => exact vals_write l
  | elem w => exact (by simp [PyResult.writes] : (PyResult.elem w).writes = true ↔ [w].all PyVal.writes = true).trans (vals_write [w])
  | _ => simp [PyResult.writes, Spec.valuesIn]

theorem count_ok (hu : Spec.Usable e p) (hq : Spec.SetsQuiet e p) {s : Store} (hok : StoreOk e p s)
    {t : PyStr} (ht : Spec.Stable e t) :
    StoreOk e p (s.count e t).1 ∧ (s.count e t).2 = some (Spec.numberOf e p t) := by
  have h := all_ok hu hok t ht
  rw [quiet_raises hq] at h
  simp only [Bool.false_eq_true, if_false] at h
  obtain ⟨os, h1, h2⟩ := h
  have h3 := all_store hu.fresh hok t
  unfold Store.count
  rcases hs : s.all e t with ⟨s', r⟩
  rw [hs] at h1 h3
  simp only at h1
  subst h1
  refine ⟨h3, ?_⟩
  simp only [Spec.numberOf, h2.length_eq]

theorem fileRepr_ok (hu : Spec.Usable e p) (hq : Spec.SetsQuiet e p) (hh : Spec.HeaderReadable e p)
    {s : Store} (hok : StoreOk e p s) (ht : Spec.Stable e (.str (text "FILE-HEADER"))) :
    StoreOk e p (s.fileRepr e).1 ∧ ∃ desc, (s.fileRepr e).2 = some desc ∧
      Spec.Described e p desc := by
  have h := all_ok hu hok _ ht
  rw [quiet_raises hq] at h
  simp only [Bool.false_eq_true, if_false] at h
  obtain ⟨os, h1, h2⟩ := h
  have h3 := all_store hu.fresh hok (.str (text "FILE-HEADER"))
  unfold Store.fileRepr Store.fileheader
  rcases hs : s.all e (.str (text "FILE-HEADER")) with ⟨s', r⟩
  rw [hs] at h1 h3
  simp only at h1 h3
  subst h1
  by_cases hl : os.length = 1
  · obtain ⟨o, rfl⟩ := List.length_eq_one_iff.1 hl
    have ho : Spec.objectsOf e p (.str (text "FILE-HEADER")) = [o] := (List.singleton_perm.1 h2).symm
    obtain ⟨r, hr, hrw⟩ := hh o ho
    simp only [hr, (result_writes r).2 hrw, if_true]
    refine ⟨h3, some r, rfl, ?_, ?_⟩
    · intro o' ho'
      rw [ho] at ho'
      cases ho'
      exact ⟨r, rfl, fun s => by rw [hr]⟩
    · intro hn
      rw [Spec.numberOf, ho] at hn
      exact absurd rfl hn
  · have : ∀ a, os ≠ [a] := by rintro a rfl; exact hl rfl
    simp only
    refine ⟨h3, none, rfl, ?_, fun _ => rfl⟩
    intro o ho
    rw [ho] at h2
    exact absurd h2.length_eq hl

theorem brief_ok (hu : Spec.Usable e p) (hq : Spec.SetsQuiet e p) (hh : Spec.HeaderReadable e p)
    (hb : Spec.BriefTypes e) {s : Store} (hok : StoreOk e p s) :
    StoreOk e p (s.brief e).1 ∧ ∃ desc, (s.brief e).2 = some (desc,
      Spec.numberOf e p (.str (text "FRAME")), Spec.numberOf e p (.str (text "CHANNEL"))) ∧
      Spec.Described e p desc := by
  obtain ⟨g1, desc, g2, g3⟩ := fileRepr_ok hu hq hh hok hb.1
  unfold Store.brief
  rcases h1 : s.fileRepr e with ⟨s1, r1⟩
  rw [h1] at g1 g2
  simp only at g1 g2
  subst g2
  obtain ⟨k1, k2⟩ := count_ok hu hq g1 hb.2.1
  rcases h2 : s1.count e (.str (text "FRAME")) with ⟨s2, r2⟩
  rw [h2] at k1 k2
  simp only at k1 k2
  subst k2
  obtain ⟨l1, l2⟩ := count_ok hu hq k1 hb.2.2
  simp only [h2]
  rcases h3 : s2.count e (.str (text "CHANNEL")) with ⟨s3, r3⟩
  rw [h3] at l1 l2
  simp only at l1 l2
  subst l2
  exact ⟨l1, desc, rfl, g3⟩

theorem dictSet_new {β : Type} (t : PyStr) (n : β) : ∀ (d : List (PyStr × β)),
    t ∉ d.map Prod.fst → dictSet t n d = d ++ [(t, n)]
  | [], _ => rfl
  | (a, b) :: d, h => by
    simp only [List.map_cons, List.mem_cons, not_or] at h
    unfold dictSet
    rw [if_neg (fun hc => h.1 hc.symm), dictSet_new t n d h.2]
    rfl

theorem countLoop_ok (hu : Spec.Usable e p) (hq : Spec.SetsQuiet e p) : ∀ (ts : List PyStr)
    (s : Store) (known unknown : List (PyStr × Nat)), StoreOk e p s → (∀ t ∈ ts, Spec.Stable e t) →
    ts.Nodup → (∀ t ∈ ts, t ∉ known.map Prod.fst ∧ t ∉ unknown.map Prod.fst) →
    StoreOk e p (countLoop e ts s known unknown).1 ∧
    (countLoop e ts s known unknown).2 = some
      (known ++ (ts.filter (fun t => e.known t)).map (fun t => (t, Spec.numberOf e p t)),
       unknown ++ (ts.filter (fun t => !e.known t)).map (fun t => (t, Spec.numberOf e p t)))
  | [], s, known, unknown, hok, _, _, _ => ⟨hok, by simp [countLoop]⟩
  | t :: ts, s, known, unknown, hok, hst, hnd, hnew => by
    rw [List.nodup_cons] at hnd
    obtain ⟨g1, g2⟩ := count_ok hu hq hok (hst t (by simp))
    unfold countLoop
    rcases h1 : s.count e t with ⟨s1, r1⟩
    rw [h1] at g1 g2
    simp only at g1 g2
    subst g2
    have hn := hnew t (by simp)
    have hrest : ∀ u ∈ ts, u ≠ t ∧ u ∉ known.map Prod.fst ∧ u ∉ unknown.map Prod.fst := by
      intro u hu
      exact ⟨by rintro rfl; exact hnd.1 hu, hnew u (by simp [hu])⟩
    simp only
    split
    · rename_i hk
      rw [dictSet_new _ _ _ hn.1]
      obtain ⟨k1, k2⟩ := countLoop_ok hu hq ts s1 (known ++ [(t, Spec.numberOf e p t)]) unknown g1
        (fun u hu => hst u (by simp [hu])) hnd.2 (fun u hu => by
          obtain ⟨a, b, c⟩ := hrest u hu
          simpa [a, c] using b)
      refine ⟨k1, ?_⟩
      rw [k2]
      simp [hk]
    · rename_i hk
      rw [dictSet_new _ _ _ hn.2]
      obtain ⟨k1, k2⟩ := countLoop_ok hu hq ts s1 known (unknown ++ [(t, Spec.numberOf e p t)]) g1
        (fun u hu => hst u (by simp [hu])) hnd.2 (fun u hu => by
          obtain ⟨a, b, c⟩ := hrest u hu
          simpa [a, b] using c)
      refine ⟨k1, ?_⟩
      rw [k2]
      simp [hk]

/-! ## C71 -/

/-- C71.  The summary of a logical file shows the description of its file header, the numbers of
its frames and channels, and each type of the file once with the number of its objects, among the
known ones if and only if the type is in the table.  Together these are all objects.  What was done
before has no influence. -/
theorem c71_summary_partial (e : Env) (p : List ObjectSet) (hu : Spec.Usable e p)
    (hq : Spec.SetsQuiet e p) (hh : Spec.HeaderReadable e p) (hb : Spec.BriefTypes e)
    (hstr : ∀ x ∈ p, ∃ t, e.dec x.type = .str t) (hist : List Spec.StoreOp) :
    ∃ sm, ((Spec.after e p hist).fileSummary e).2 = some sm ∧
      Spec.Described e p sm.description ∧
      sm.frames = Spec.numberOf e p (.str (text "FRAME")) ∧
      sm.channels = Spec.numberOf e p (.str (text "CHANNEL")) ∧
      ((sm.known ++ sm.unknown).map Prod.fst).Nodup ∧
      (∀ t n, (t, n) ∈ sm.known ↔
        e.known t = true ∧ Spec.HasType e p t ∧ n = Spec.numberOf e p t) ∧
      (∀ t n, (t, n) ∈ sm.unknown ↔
        e.known t = false ∧ Spec.HasType e p t ∧ n = Spec.numberOf e p t) ∧
      ((sm.known ++ sm.unknown).map Prod.snd).sum = (Spec.allObjects e p).length := by
  obtain ⟨g1, desc, g2, g3⟩ := brief_ok hu hq hh hb (after_ok hu.fresh hist)
  unfold Store.fileSummary
  rcases h1 : (Spec.after e p hist).brief e with ⟨s1, r1⟩
  rw [h1] at g1 g2
  simp only at g1 g2
  subst g2
  have hmem := fun t => (mem_types hu g1 t).2
  have hnd := (mem_types hu g1 (.str [])).1
  obtain ⟨-, k2⟩ := countLoop_ok hu hq (s1.types e) s1 [] [] g1 (fun t ht => by
    obtain ⟨x, hx, rfl⟩ := (hmem t).1 ht
    exact hu.types x hx) hnd (by simp)
  simp only
  rcases h2 : countLoop e (s1.types e) s1 [] [] with ⟨s2, r2⟩
  rw [h2] at k2
  simp only [List.nil_append] at k2
  subst k2
  have htext : ∀ f : PyStr → Bool, textKeys (((s1.types e).filter f).map
      fun t => (t, Spec.numberOf e p t)) = true := by
    intro f
    unfold textKeys
    rw [List.all_eq_true]
    intro y hy
    obtain ⟨t, ht, rfl⟩ := List.mem_map.1 hy
    obtain ⟨x, hx, hxt⟩ := (hmem t).1 (List.mem_filter.1 ht).1
    obtain ⟨u, hu⟩ := hstr x hx
    rw [hxt] at hu
    simp only [hu]
  simp only [htext, and_self, if_true]
  have hfst : ∀ f : PyStr → Bool, (((s1.types e).filter f).map
      fun t => (t, Spec.numberOf e p t)).map Prod.fst = (s1.types e).filter f := by
    intro f
    rw [List.map_map]
    exact List.map_id _
  have hnd' : ((s1.types e).filter (fun t => e.known t) ++
      (s1.types e).filter (fun t => !e.known t)).Nodup := by
    refine (hnd.filter _).append (hnd.filter _) ?_
    intro t h1 h2
    have h1 := (List.mem_filter.1 h1).2
    have h2 := (List.mem_filter.1 h2).2
    rw [h1] at h2
    cases h2
  refine ⟨_, rfl, g3, rfl, rfl, ?_, ?_, ?_, ?_⟩
  · rw [List.map_append, hfst, hfst]
    exact hnd'
  · intro t n
    simp only [List.mem_map, List.mem_filter, Prod.mk.injEq, Spec.HasType, ← hmem]
    constructor
    · rintro ⟨u, ⟨h1, h2⟩, rfl, rfl⟩
      exact ⟨h2, h1, rfl⟩
    · rintro ⟨h1, h2, rfl⟩
      exact ⟨t, ⟨h2, h1⟩, rfl, rfl⟩
  · intro t n
    simp only [List.mem_map, List.mem_filter, Prod.mk.injEq, Spec.HasType, ← hmem,
      Bool.not_eq_true']
    constructor
    · rintro ⟨u, ⟨h1, h2⟩, rfl, rfl⟩
      exact ⟨h2, h1, rfl⟩
    · rintro ⟨h1, h2, rfl⟩
      exact ⟨t, ⟨h2, h1⟩, rfl, rfl⟩
  · have hperm := perm_group (fun o : PyObj => o.type) _ hnd' (Spec.allObjects e p) (by
      intro o ho
      obtain ⟨x, hx, hxt⟩ := allObjects_type hu.fresh ho
      have : o.type ∈ s1.types e := (hmem _).2 ⟨x, hx, hxt.symm⟩
      simp only [List.mem_append, List.mem_filter, this, true_and]
      cases e.known o.type <;> simp)
    rw [← hperm.length_eq, List.length_flatMap, ← List.map_append, List.map_map]
    rfl

/-- C71.  The summary of a file shows the number of its logical files and, in order, of each the
description and the numbers of frames and channels. -/
theorem c71_physical (e : Env) (hb : Spec.BriefTypes e)
    (files : List (List ObjectSet × List Spec.StoreOp))
    (hf : ∀ f ∈ files, Spec.Usable e f.1 ∧ Spec.SetsQuiet e f.1 ∧ Spec.HeaderReadable e f.1) :
    ∃ xs, physicalSummary e (files.map fun f => Spec.after e f.1 f.2) = some (files.length, xs) ∧
      List.Forall₂ (fun f x => Spec.Described e f.1 x.1 ∧
        x.2.1 = Spec.numberOf e f.1 (.str (text "FRAME")) ∧
        x.2.2 = Spec.numberOf e f.1 (.str (text "CHANNEL"))) files xs := by
  have key : ∃ xs, briefLoop e (files.map fun f => Spec.after e f.1 f.2) = some xs ∧
      List.Forall₂ (fun (f : List ObjectSet × List Spec.StoreOp) (x : Option PyResult × Nat × Nat) =>
        Spec.Described e f.1 x.1 ∧ x.2.1 = Spec.numberOf e f.1 (.str (text "FRAME")) ∧
        x.2.2 = Spec.numberOf e f.1 (.str (text "CHANNEL"))) files xs := by
    induction files with
    | nil => exact ⟨[], rfl, .nil⟩
    | cons f files ih =>
      obtain ⟨xs, h1, h2⟩ := ih fun f hf' => hf f (by simp [hf'])
      obtain ⟨hu, hq, hh⟩ := hf f (by simp)
      obtain ⟨-, desc, g2, g3⟩ := brief_ok hu hq hh hb (after_ok hu.fresh f.2)
      refine ⟨(desc, Spec.numberOf e f.1 (.str (text "FRAME")),
        Spec.numberOf e f.1 (.str (text "CHANNEL"))) :: xs, ?_, .cons ⟨g3, rfl, rfl⟩ h2⟩
      simp only [List.map_cons, briefLoop, g2, h1]
  obtain ⟨xs, h1, h2⟩ := key
  refine ⟨xs, ?_, h2⟩
  unfold physicalSummary
  rw [h1]
  simp

theorem none_writable : Spec.ResultWritable .none := fun _ _ h => nomatch h

theorem shown_writable {c c' : Reprc} {v v' : Val} {w : PyVal} (h : Spec.Shown e c v w)
    (hv : Spec.Writable v) (hw : w = .raw c' v') : Spec.Writable v' := by
  subst hw
  unfold Spec.Shown at h
  split at h
  · split at h
    · cases h
    · obtain ⟨_, h, -⟩ := h; cases h
  · cases h; exact hv

/-- The header of a logical file that has only one is as it should be. -/
def Spec.HeaderOk (e : Env) (p : List ObjectSet) : Prop :=
  ∀ o, Spec.objectsOf e p (.str (text "FILE-HEADER")) = [o] →
    Spec.LabelsOk e o.attic ∧ Spec.Quiet e o.attic o.attic.log ∧
    ∀ a ∈ o.attic.attributes, a.label = Fingerprint.ascii "ID" →
      Spec.Quiet e o.attic a.log ∧ ∀ c vs, a.value = some (c, vs) → Spec.DatesOk vs ∧
        ∀ v ∈ vs.head?, Spec.Writable v

/-- C71.  Such a header can be read, and the description of the file is the value of the attribute
ID, without white space around texts, or `None` if there is no such value. -/
theorem c71_header (e : Env) (hd : Spec.ReadsUtf8 e.dec) (p : List ObjectSet) (hf : Spec.Fresh p)
    (hh : Spec.HeaderOk e p) :
    Spec.HeaderReadable e p ∧
    ∀ o, Spec.objectsOf e p (.str (text "FILE-HEADER")) = [o] → ∀ desc, Spec.Described e p desc →
      ((∀ a ∈ o.attic.attributes, a.label ≠ Fingerprint.ascii "ID") → desc = some .none) ∧
      ∀ a ∈ o.attic.attributes, a.label = Fingerprint.ascii "ID" →
        ((a.value = none ∨ ∃ c, a.value = some (c, [])) → desc = some .none) ∧
        ∀ c v rest, a.value = some (c, v :: rest) →
          ∃ w, Spec.Shown e c v w ∧ desc = some (.elem w) := by
  have hprop : ∀ o, Spec.objectsOf e p (.str (text "FILE-HEADER")) = [o] →
      Spec.PropertyIs e p o.attic ⟨"FILE-HEADER", "id", "ID", .scalar, none⟩ := by
    intro o ho
    obtain ⟨h1, h2, -⟩ := hh o ho
    have hmem : o ∈ Spec.objectsOf e p (.str (text "FILE-HEADER")) := by rw [ho]; simp
    obtain ⟨hall, hty⟩ := List.mem_filter.1 hmem
    obtain ⟨x, hx, ho'⟩ := List.mem_flatMap.1 hall
    obtain ⟨a, ha, rfl⟩ := List.mem_map.1 ho'
    exact c69_property_partial e hd p hf _ (by simp [Spec.documented]) _
      (of_decide_eq_true hty) h1 h2
  have hone : ∀ (o : PyObj) (r : PyResult),
      Spec.objectsOf e p (.str (text "FILE-HEADER")) = [o] →
      (∀ s : Store, s.property e o.attic "id" = (s, .ok r)) → ∀ desc, Spec.Described e p desc →
      desc = some r := by
    intro o r ho hr desc hdesc
    obtain ⟨r', h1, h2⟩ := hdesc.1 o ho
    have h3 := h2 (Spec.after e p [])
    rw [hr] at h3
    rw [h1, Except.ok.inj h3]
  constructor
  · intro o ho
    by_cases ha : ∃ a ∈ o.attic.attributes, a.label = Fingerprint.ascii "ID"
    · obtain ⟨a, ha, hlab⟩ := ha
      obtain ⟨g1, g2⟩ := (hh o ho).2.2 a ha hlab
      rcases hv : a.value with _ | ⟨c, _ | ⟨v, vs⟩⟩
      · obtain ⟨r, rfl, h⟩ := (hprop o ho).empty a ha hlab g1 (.inl hv)
        exact ⟨_, h, none_writable⟩
      · obtain ⟨r, rfl, h⟩ := (hprop o ho).empty a ha hlab g1 (.inr ⟨c, hv⟩)
        exact ⟨_, h, none_writable⟩
      · obtain ⟨ws, r, h1, ⟨w, hw, rfl⟩, h⟩ := (hprop o ho).plain a ha hlab g1 c _ hv (by simp) (g2 c _ hv).1
          (.inl rfl)
        refine ⟨_, h, ?_⟩
        rcases h1 with _ | ⟨hs, h1⟩
        cases hw
        intro c' v' hm
        exact shown_writable hs ((g2 c _ hv).2 v rfl) (List.mem_singleton.1 hm).symm
    · obtain ⟨r, rfl, h⟩ := (hprop o ho).absent fun a h1 h2 => ha ⟨a, h1, h2⟩
      exact ⟨_, h, none_writable⟩
  · intro o ho desc hdesc
    refine ⟨fun ha => ?_, fun a ha hlab => ⟨fun hv => ?_, fun c v rest hv => ?_⟩⟩
    · obtain ⟨r, rfl, h⟩ := (hprop o ho).absent ha
      exact hone o _ ho h desc hdesc
    · obtain ⟨r, rfl, h⟩ := (hprop o ho).empty a ha hlab ((hh o ho).2.2 a ha hlab).1 hv
      exact hone o _ ho h desc hdesc
    · obtain ⟨g1, g2⟩ := (hh o ho).2.2 a ha hlab
      obtain ⟨ws, r, h1, ⟨w, hw, rfl⟩, h3⟩ := (hprop o ho).plain a ha hlab g1 c _ hv (by simp)
        (g2 c _ hv).1 (.inl rfl)
      rcases h1 with _ | ⟨h, h1⟩
      cases hw
      exact ⟨_, h, hone o _ ho h3 desc hdesc⟩

/-- C71 is violated: a logical file whose header is identified by a reference with a name that is not
UTF-8 has no summary (`UnicodeDecodeError` from `format`), nor has the physical file it is in. -/
theorem c71_reference_defect (e : Env) (p : List ObjectSet) (hu : Spec.Usable e p)
    (hq : Spec.SetsQuiet e p) (ht : Spec.Stable e (.str (text "FILE-HEADER")))
    (o : PyObj) (ho : Spec.objectsOf e p (.str (text "FILE-HEADER")) = [o]) (c : Reprc) (v : Val)
    (hr : ∀ s : Store, (s.property e o.attic "id").2 = .ok (.elem (.raw c v))) (hv : ¬ Spec.Writable v)
    (hist : List Spec.StoreOp) :
    ((Spec.after e p hist).fileSummary e).2 = none ∧
    ∀ ss, Spec.after e p hist ∈ ss → physicalSummary e ss = none := by
  have hok := after_ok hu.fresh hist (e := e)
  have h := all_ok hu hok _ ht
  rw [quiet_raises hq] at h
  simp only [Bool.false_eq_true, if_false] at h
  obtain ⟨os, h1, h2⟩ := h
  have hos : os = [o] := by rw [ho] at h2; exact List.perm_singleton.1 h2
  subst hos
  have hw : PyResult.writes (.elem (.raw c v)) = false := by
    rw [Bool.eq_false_iff, ne_eq, result_writes]
    exact fun h => hv (h c v (by simp [Spec.valuesIn]))
  have hrepr : ((Spec.after e p hist).fileRepr e).2 = none := by
    unfold Store.fileRepr Store.fileheader
    rcases hs : (Spec.after e p hist).all e (.str (text "FILE-HEADER")) with ⟨s', r⟩
    rw [hs] at h1
    simp only at h1
    subst h1
    have h3 := hr s'
    rcases hg : s'.property e o.attic "id" with ⟨s'', r⟩
    rw [hg] at h3
    simp only at h3
    subst h3
    simp [hg, hw]
  have hbrief : ((Spec.after e p hist).brief e).2 = none := by
    unfold Store.brief
    rcases hf : (Spec.after e p hist).fileRepr e with ⟨s', r⟩
    rw [hf] at hrepr
    simp only at hrepr
    subst hrepr
    rfl
  refine ⟨?_, fun ss hm => ?_⟩
  · unfold Store.fileSummary
    rcases hf : (Spec.after e p hist).brief e with ⟨s', r⟩
    rw [hf] at hbrief
    simp only at hbrief
    subst hbrief
    rfl
  · have : briefLoop e ss = none := by
      induction ss with
      | nil => cases hm
      | cons s ss ih =>
        unfold briefLoop
        rcases List.mem_cons.1 hm with rfl | hm
        · rw [hbrief]
        · rw [ih hm]
          cases (s.brief e).2 <;> rfl
    unfold physicalSummary
    rw [this]
    rfl

/-- C71 is violated: a logical file with a type that is not UTF-8 has no summary (`TypeError`). -/
theorem c71_type_defect (e : Env) (p : List ObjectSet) (hu : Spec.Usable e p)
    (x : ObjectSet) (hx : x ∈ p) (b : Bytes) (ht : e.dec x.type = .bytes b)
    (hist : List Spec.StoreOp) (hq : Spec.SetsQuiet e p) (hh : Spec.HeaderReadable e p)
    (hb : Spec.BriefTypes e) : ((Spec.after e p hist).fileSummary e).2 = none := by
  obtain ⟨g1, desc, g2, g3⟩ := brief_ok hu hq hh hb (after_ok hu.fresh hist)
  unfold Store.fileSummary
  rcases h1 : (Spec.after e p hist).brief e with ⟨s1, r1⟩
  rw [h1] at g1 g2
  simp only at g1 g2
  subst g2
  have hmem := fun t => (mem_types hu g1 t).2
  have hnd := (mem_types hu g1 (.str [])).1
  obtain ⟨-, k2⟩ := countLoop_ok hu hq (s1.types e) s1 [] [] g1 (fun t ht => by
    obtain ⟨x, hx, rfl⟩ := (hmem t).1 ht
    exact hu.types x hx) hnd (by simp)
  simp only
  rcases h2 : countLoop e (s1.types e) s1 [] [] with ⟨s2, r2⟩
  rw [h2] at k2
  simp only [List.nil_append] at k2
  subst k2
  have hin : PyStr.bytes b ∈ s1.types e := (hmem _).2 ⟨x, hx, ht⟩
  have hbad : ∀ f : PyStr → Bool, f (.bytes b) = true → textKeys (((s1.types e).filter f).map
      fun t => (t, Spec.numberOf e p t)) = false := by
    intro f hf
    rw [Bool.eq_false_iff]
    intro hall
    unfold textKeys at hall
    have := List.all_eq_true.1 hall (PyStr.bytes b, Spec.numberOf e p (.bytes b))
      (List.mem_map.2 ⟨_, List.mem_filter.2 ⟨hin, hf⟩, rfl⟩)
    cases this
  simp only
  rw [if_neg]
  rintro ⟨k1, k2⟩
  cases hk : e.known (.bytes b) with
  | true => rw [hbad _ hk] at k1; cases k1
  | false => rw [hbad _ (by simp [hk])] at k2; cases k2

/-! ## Cases -/

namespace FileSummaryCase

open StoreCase

/-- A file header with the identification "T", in the attribute ID. -/
def header : Bytes := [0xf0, 11] ++ Spec.Fingerprint.ascii "FILE-HEADER" ++ [0x34, 2, 0x49, 0x44, 20] ++
  [0x70, 1, 0, 1, 0x4e, 0x21, 2, 0x54, 0x20]

/-- A file header that is identified by a reference, to an object with a name of one byte. -/
def headerRef (b : Byte) : Bytes :=
  [0xf0, 11] ++ Spec.Fingerprint.ascii "FILE-HEADER" ++ [0x34, 2, 0x49, 0x44, 23] ++
    [0x70, 1, 0, 1, 0x4e, 0x21, 1, 0, 1, b]

def sets : List ObjectSet :=
  file [header, AccessorsCase.set "CHANNEL" ["A", "B"], AccessorsCase.set "440-X" ["O", "P"],
    AccessorsCase.set "CHANNEL" ["C"], AccessorsCase.set "UPDATE" []]

/-- C71: what is in the summary. -/
example : ((Spec.after AccessorsCase.env sets []).fileSummary AccessorsCase.env).2 =
    some ⟨some (.elem (.str (.str (text "T")))), 0, 3,
      [(.str (text "FILE-HEADER"), 1), (.str (text "CHANNEL"), 3)],
      [(.str (text "440-X"), 2), (.str (text "UPDATE"), 0)]⟩ := by
  decide +kernel

/-- C71: a file without file header. -/
example : ((Spec.after AccessorsCase.env AccessorsCase.twice []).fileSummary AccessorsCase.env).2 =
    some ⟨none, 0, 0, [], [(U, 2)]⟩ := by decide +kernel

/-- C71: two files. -/
example : physicalSummary AccessorsCase.env
    [Spec.after AccessorsCase.env sets [], Spec.after AccessorsCase.env AccessorsCase.twice []] =
    some (2, [(some (.elem (.str (.str (text "T")))), 0, 3), (none, 0, 0)]) := by decide +kernel

/-- C71: hypotheses hold for this file. -/
example : Spec.Usable AccessorsCase.env sets ∧ Spec.SetsQuiet AccessorsCase.env sets ∧
    Spec.BriefTypes AccessorsCase.env ∧
    (∀ x ∈ sets, ∃ t, AccessorsCase.env.dec x.type = .str t) ∧
    Spec.numberOf AccessorsCase.env sets (.str (text "FILE-HEADER")) = 1 ∧
    Spec.HeaderReadable AccessorsCase.env sets := by
  refine ⟨⟨file_fresh _, order_set [], by unfold Spec.Stable; decide +kernel⟩,
    by unfold Spec.SetsQuiet Spec.SetQuiet; decide +kernel, by unfold Spec.BriefTypes Spec.Stable; decide +kernel,
    ?_, by decide +kernel, (c71_header _ (c65_decoding []) _ (file_fresh _) ?_).1⟩
  · have : ∀ x ∈ sets, (match AccessorsCase.env.dec x.type with
      | .str _ => true
      | .bytes _ => false) = true := by decide +kernel
    intro x hx
    have h := this x hx
    split at h
    · exact ⟨_, by assumption⟩
    · cases h
  · intro o ho
    change Spec.objectsOf AccessorsCase.env sets _ = _ at ho
    have h : ∀ o ∈ Spec.objectsOf AccessorsCase.env sets (.str (text "FILE-HEADER")),
        Spec.LabelsOk AccessorsCase.env o.attic ∧ Spec.Quiet AccessorsCase.env o.attic o.attic.log ∧
        ∀ a ∈ o.attic.attributes, Spec.Quiet AccessorsCase.env o.attic a.log ∧
          a.value = some (.ascii, [.str [0x54, 0x20]]) := by
      unfold Spec.LabelsOk Spec.Quiet; decide +kernel
    obtain ⟨h1, h2, h3⟩ := h o (by rw [ho]; simp)
    refine ⟨h1, h2, fun a ha _ => ⟨(h3 a ha).1, fun c vs hv => ?_⟩⟩
    rw [(h3 a ha).2] at hv
    cases hv
    refine ⟨fun t ht => by simp at ht, fun v hv => ?_⟩
    obtain rfl : v = .str [0x54, 0x20] := by simpa using hv.symm
    simp [Spec.Writable]

/-- Case for `c71_reference_defect`: the identification is a reference. -/
example : ((Spec.after AccessorsCase.env (file [headerRef 0xc5]) []).fileSummary AccessorsCase.env).2 = none ∧
    ((Spec.after AccessorsCase.env (file [headerRef 0x41]) []).fileSummary AccessorsCase.env).2.isSome = true := by
  decide +kernel

/-- C71: a type that is not UTF-8. -/
example : ((Spec.after AccessorsCase.env
    (file [[0xf0, 1, 0xff, 0x30, 1, 0x41, 0x70, 1, 0, 1, 0x4f]]) []).fileSummary AccessorsCase.env).2 =
      none ∧
    ((Spec.after AccessorsCase.env
    (file [[0xf0, 1, 0xff, 0x30, 1, 0x41, 0x70, 1, 0, 1, 0x4f]]) []).brief AccessorsCase.env).2 =
      some (none, 0, 0) := by
  decide +kernel

end FileSummaryCase

end Dlisio.Dlis
