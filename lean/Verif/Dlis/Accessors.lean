/-
The attributes of a logical file: the descriptors that give all objects of a type, the file
header, the objects of unknown types, and `load` (python/dlisio/dlis/file.py:308-478 and
658-660).  C64.
-/
import Mathlib.Data.List.Perm.Lattice
import Verif.Dlis.LookupProps
import Verif.Dlis.FingerprintProps
import Verif.Dlis.StoreCase

namespace Dlisio.Dlis

open _root_.Dlisio.Dlis.Spec

/-! ## Model -/

/-- The keys of `LogicalFile.types`, file.py:308-331. -/
def typeTable : List String :=
  ["AXIS", "FILE-HEADER", "ORIGIN", "LONG-NAME", "FRAME", "CHANNEL", "ZONE", "TOOL", "PARAMETER",
   "EQUIPMENT", "CALIBRATION-MEASUREMENT", "CALIBRATION-COEFFICIENT", "CALIBRATION",
   "COMPUTATION", "SPLICE", "WELL-REFERENCE", "GROUP", "PROCESS", "PATH", "MESSAGE", "COMMENT",
   "NO-FORMAT"]

/-- `t in self.types`, file.py:474 and 645: keys of type `bytes` are in no table. -/
def tableKnown (t : PyStr) : Bool := typeTable.any fun s => decide (t = .str (text s))

/-- The attributes that are an `IndexedObjectDescriptor`, file.py:428-448, with the type that
they are for. -/
def descriptors : List (String × String) :=
  [("axes", "AXIS"), ("calibrations", "CALIBRATION"), ("channels", "CHANNEL"),
   ("coefficients", "CALIBRATION-COEFFICIENT"), ("comments", "COMMENT"),
   ("computations", "COMPUTATION"), ("equipments", "EQUIPMENT"), ("frames", "FRAME"),
   ("groups", "GROUP"), ("longnames", "LONG-NAME"), ("measurements", "CALIBRATION-MEASUREMENT"),
   ("messages", "MESSAGE"), ("origins", "ORIGIN"), ("parameters", "PARAMETER"),
   ("paths", "PATH"), ("processes", "PROCESS"), ("splices", "SPLICE"), ("tools", "TOOL"),
   ("wellrefs", "WELL-REFERENCE"), ("zones", "ZONE"), ("noformats", "NO-FORMAT")]

/-- `self.find(t, matcher=exact)`, file.py:407, 418, 475 and 660. -/
def Store.all (e : Env) (s : Store) (t : PyStr) : Store × Option (List PyObj) :=
  s.find e .exact t none

/-- An attribute of the logical file, `IndexedObjectDescriptor.__get__`, file.py:400-407.
`none` if the error handler raises; for an attribute that is no descriptor nothing is
modelled. -/
def Store.attribute (e : Env) (s : Store) (a : String) : Store × Option (List PyObj) :=
  match descriptors.find? (fun d => d.1 == a) with
  | none => (s, none)
  | some d => s.all e (.str (text d.2))

/-- `fileheader`, file.py:409-426: the value (`None` for several headers because the function
ends without `return`) and whether a warning is logged; `none` if the error handler raises. -/
def Store.fileheader (e : Env) (s : Store) : Store × Option (Option PyObj × Bool) :=
  match s.all e (.str (text "FILE-HEADER")) with
  | (s, none) => (s, none)
  | (s, some values) =>
    match values with
    | [o] => (s, some (some o, false))
    | _ => (s, some (none, true))

/-- `BasicObject.fingerprint`, basicobject.py:239-255, with the conversions of the arguments
and of the result; `none` if `core.fingerprint` throws. -/
def PyObj.fingerprint (e : Env) (o : PyObj) : Option PyStr :=
  (pyFingerprint (e.dec o.attic.type).toStd (e.dec o.attic.name.id).toStd o.attic.name.origin
    o.attic.name.copy).map e.dec

/-- `{x.fingerprint : x for x in objects}`, file.py:476. -/
def byFingerprint (e : Env) : List PyObj → List (PyStr × PyObj) → Option (List (PyStr × PyObj))
  | [], d => some d
  | o :: os, d =>
    match o.fingerprint e with
    | none => none
    | some k => byFingerprint e os (dictSet k o d)

/-- The loop of `unknowns`, file.py:472-476. -/
def unknownsLoop (e : Env) : List PyStr → Store → List (PyStr × List (PyStr × PyObj)) →
    Store × Option (List (PyStr × List (PyStr × PyObj)))
  | [], s, d => (s, some d)
  | t :: ts, s, d =>
    if e.known t then unknownsLoop e ts s d
    else
      match s.all e t with
      | (s, none) => (s, none)
      | (s, some os) =>
        match byFingerprint e os [] with
        | none => (s, none)
        | some x => unknownsLoop e ts s (dictSet t x d)

/-- `unknowns`, file.py:451-478; `none` if the error handler or `fingerprint` raises. -/
def Store.unknowns (e : Env) (s : Store) :
    Store × Option (List (PyStr × List (PyStr × PyObj))) :=
  unknownsLoop e (s.types e) s []

/-- `'UPDATE' in self.store.types()`, file.py:356. -/
def Store.hasUpdate (e : Env) (s : Store) : Bool :=
  (s.types e).any fun t => decide (t = .str (text "UPDATE"))

/-! ## Specification -/

/-- The objects of a file that have the type. -/
def Spec.objectsOf (e : Env) (p : List ObjectSet) (t : PyStr) : List PyObj :=
  (Spec.allObjects e p).filter fun o => decide (o.type = t)

/-- The attributes of a logical file as the documentation has them, and the types of the standard
(chapters 5 and 6) that they stand for. -/
def Spec.accessors : List (String × String) :=
  [("origins", "ORIGIN"), ("channels", "CHANNEL"), ("frames", "FRAME"), ("axes", "AXIS"),
   ("longnames", "LONG-NAME"), ("zones", "ZONE"), ("tools", "TOOL"), ("parameters", "PARAMETER"),
   ("equipments", "EQUIPMENT"), ("computations", "COMPUTATION"), ("processes", "PROCESS"),
   ("calibrations", "CALIBRATION"), ("measurements", "CALIBRATION-MEASUREMENT"),
   ("coefficients", "CALIBRATION-COEFFICIENT"), ("groups", "GROUP"), ("splices", "SPLICE"),
   ("paths", "PATH"), ("wellrefs", "WELL-REFERENCE"), ("messages", "MESSAGE"),
   ("comments", "COMMENT"), ("noformats", "NO-FORMAT")]

/-- What must be true of a file and its environment: the sets are as they were read, their
types can be given back to C++, sets of types are iterated completely. -/
structure Spec.Usable (e : Env) (p : List ObjectSet) : Prop where
  fresh : Spec.Fresh p
  order : Spec.IsSetOrder e.order
  types : ∀ x ∈ p, Spec.Stable e (e.dec x.type)

/-- The logs of all sets can be reported without an exception. -/
def Spec.SetsQuiet (e : Env) (p : List ObjectSet) : Prop :=
  ∀ x ∈ p, Spec.SetQuiet e x

/-! ## Lemmas -/

theorem answer_all (e : Env) (p : List ObjectSet) (hf : Spec.Fresh p) (t : PyStr) :
    p.flatMap (Spec.wanted e .exact t none) = Spec.objectsOf e p t := by
  unfold Spec.objectsOf Spec.allObjects
  rw [List.filter_flatMap]
  apply List.flatMap_congr
  intro x hx
  have ht := fresh_obj_type (hf x hx)
  unfold Spec.wanted
  simp only [PyMatcher.run, decide_eq_true_eq]
  split
  · rename_i h
    apply List.filter_congr
    intro o ho
    obtain ⟨a, ha, rfl⟩ := List.mem_map.1 ho
    have : (e.promote a).type = t := by rw [h, ← ht a ha]; rfl
    simp [Spec.nameWanted, this]
  · rename_i h
    symm
    rw [List.filter_eq_nil_iff]
    intro o ho hc
    obtain ⟨a, ha, rfl⟩ := List.mem_map.1 ho
    simp only [decide_eq_true_eq] at hc
    have : (e.promote a).type = e.dec a.type := rfl
    rw [this, ht a ha] at hc
    exact h hc.symm

theorem quiet_raises {e : Env} {p : List ObjectSet} (h : Spec.SetsQuiet e p) (m : PyMatcher)
    (t : PyStr) : Spec.raises e m t p = false := raises_quiet fun x hx _ => h x hx

/-- All objects of a type, from a store that is in order. -/
theorem all_ok {e : Env} {p : List ObjectSet} (hu : Spec.Usable e p) {s : Store}
    (hok : StoreOk e p s) (t : PyStr) (ht : Spec.Stable e t) :
    if Spec.raises e .exact t p then (s.all e t).2 = none
    else ∃ os, (s.all e t).2 = some os ∧ os.Perm (Spec.objectsOf e p t) := by
  have h := find_same hu.fresh hu.order hu.types hok .exact t none ht (by simp)
  unfold Spec.answer at h
  unfold Store.all
  rw [answer_all e p hu.fresh] at h
  split
  · rename_i hr
    rw [if_pos hr] at h
    cases hx : (s.find e .exact t none).2 with
    | none => rfl
    | some l => rw [hx] at h; exact h.elim
  · rename_i hr
    rw [if_neg hr] at h
    cases hx : (s.find e .exact t none).2 with
    | none => rw [hx] at h; exact h.elim
    | some l => rw [hx] at h; exact ⟨l, rfl, h⟩

theorem promote_of_mem {e : Env} {p : List ObjectSet} {o : PyObj}
    (h : o ∈ Spec.allObjects e p) : o.type = e.dec o.attic.type ∧ ∃ x ∈ p, o.attic ∈ x.parse.objs := by
  obtain ⟨x, hx, ho⟩ := List.mem_flatMap.1 h
  obtain ⟨a, ha, rfl⟩ := List.mem_map.1 ho
  exact ⟨rfl, x, hx, ha⟩

theorem allObjects_type {e : Env} {p : List ObjectSet} (hf : Spec.Fresh p) {o : PyObj}
    (h : o ∈ Spec.allObjects e p) : ∃ x ∈ p, o.type = e.dec x.type := by
  obtain ⟨x, hx, ho⟩ := List.mem_flatMap.1 h
  obtain ⟨a, ha, rfl⟩ := List.mem_map.1 ho
  exact ⟨x, hx, by show e.dec a.type = _; rw [fresh_obj_type (hf x hx) a ha]⟩

/-- What the dictionary by fingerprint holds. -/
theorem byFingerprint_spec (e : Env) (os : List PyObj) (d0 d : List (PyStr × PyObj))
    (h0 : (d0.map Prod.fst).Nodup) (h : byFingerprint e os d0 = some d) :
    (d.map Prod.fst).Nodup ∧
    (∀ o ∈ os, ∃ k, o.fingerprint e = some k ∧ k ∈ d.map Prod.fst) ∧
    (∀ k ∈ d0.map Prod.fst, k ∈ d.map Prod.fst) ∧
    (∀ k o, (k, o) ∈ d → (k, o) ∈ d0 ∨ (o ∈ os ∧ o.fingerprint e = some k)) := by
  induction os generalizing d0 with
  | nil =>
    cases h
    exact ⟨h0, by simp, fun _ h => h, fun _ _ h => Or.inl h⟩
  | cons o os ih =>
    rw [byFingerprint] at h
    split at h
    · cases h
    rename_i k hk
    have hkeys := dictSet_keys k o d0
    have hmem : ∀ k' o', (k', o') ∈ dictSet k o d0 → (k', o') = (k, o) ∨ (k', o') ∈ d0 := by
      intro k' o'
      clear ih h hkeys h0
      induction d0 with
      | nil => simp [dictSet]
      | cons x d0 ih =>
        obtain ⟨a, b⟩ := x
        unfold dictSet
        split
        · simp only [List.mem_cons]; tauto
        · simp only [List.mem_cons]
          rintro (h | h)
          · exact Or.inr (Or.inl h)
          · rcases ih h with h | h
            · exact Or.inl h
            · exact Or.inr (Or.inr h)
    have hn : ((dictSet k o d0).map Prod.fst).Nodup := by
      rw [hkeys]
      split
      · exact h0
      · rename_i hk'
        exact List.Nodup.append h0 (by simp) (by simpa using hk')
    have hsub : ∀ k' ∈ d0.map Prod.fst, k' ∈ (dictSet k o d0).map Prod.fst := by
      intro k' hk'
      rw [hkeys]
      split
      · exact hk'
      · exact List.mem_append_left _ hk'
    have hself : k ∈ (dictSet k o d0).map Prod.fst := by
      rw [hkeys]
      split
      · assumption
      · simp
    obtain ⟨h1, h2, h3, h4⟩ := ih _ hn h
    refine ⟨h1, ?_, fun k' hk' => h3 k' (hsub k' hk'), ?_⟩
    · intro x hx
      rcases List.mem_cons.1 hx with rfl | hx
      · exact ⟨k, hk, h3 k hself⟩
      · exact h2 x hx
    · intro k' o' hx
      rcases h4 k' o' hx with h | ⟨h, h'⟩
      · rcases hmem k' o' h with h | h
        · cases h
          exact Or.inr ⟨by simp, hk⟩
        · exact Or.inl h
      · exact Or.inr ⟨List.mem_cons_of_mem _ h, h'⟩

theorem byFingerprint_some (e : Env) (os : List PyObj) (d0 : List (PyStr × PyObj))
    (h : ∀ o ∈ os, (o.fingerprint e).isSome) : ∃ d, byFingerprint e os d0 = some d := by
  induction os generalizing d0 with
  | nil => exact ⟨_, rfl⟩
  | cons o os ih =>
    rw [byFingerprint]
    obtain ⟨k, hk⟩ := Option.isSome_iff_exists.1 (h o (by simp))
    rw [hk]
    exact ih _ fun x hx => h x (List.mem_cons_of_mem _ hx)

/-- The copy numbers of objects that were read are bytes. -/
theorem fresh_obj_copy {s : ObjectSet} (h : ∃ bs, ObjectSet.new bs = .ok s) :
    ∀ o ∈ s.parse.objs, o.name.copy < 256 := by
  obtain ⟨bs, h⟩ := h
  obtain ⟨log, xs, _, _, hst, _⟩ := parse_stages h
  rcases hst with ⟨e, _, ho, _⟩ | ⟨ys, _, ho, _⟩
  · rw [ho]; simp
  · rw [ho]
    refine objectsLoop_all ?_
    intro d xs o r hp
    unfold parseObject at hp
    split at hp
    · cases hp
    split at hp
    · cases hp
    rename_i name ys hn
    split at hp
    · cases hp
    cases hp
    have h1 : obname xs = some (name, ys) := by
      unfold need at hn
      split at hn
      · rename_i ho
        cases hn
        exact ho
      · cases hn
    have h2 : decodeVal .obname xs = some (.obname name, ys) := by
      simp [decodeVal, h1]
    obtain ⟨e, ⟨n, hv, hn⟩, -⟩ := (c09_decodeVal .obname xs _ _).1 h2
    cases hv
    obtain ⟨o, i, c, -, h5, -⟩ := hn
    rw [← h5]
    exact c.isLt

theorem fingerprint_isSome {e : Env} {p : List ObjectSet} (hf : Spec.Fresh p) {o : PyObj}
    (h : o ∈ Spec.allObjects e p) (ht : (e.dec o.attic.type).toStd ≠ []) :
    (o.fingerprint e).isSome := by
  obtain ⟨-, x, hx, ha⟩ := promote_of_mem h
  have hc := fresh_obj_copy (hf x hx) _ ha
  unfold PyObj.fingerprint pyFingerprint
  rw [if_neg (by omega), if_neg (by omega), Int.toNat_natCast, fingerprint_eq _ _ _ _ ht]
  rfl

theorem all_store {e : Env} {p : List ObjectSet} (hf : Spec.Fresh p) {s : Store}
    (h : StoreOk e p s) (t : PyStr) : StoreOk e p (s.all e t).1 := find_ok hf h .exact t none

theorem mem_types {e : Env} {p : List ObjectSet} (hu : Spec.Usable e p) {s : Store}
    (hok : StoreOk e p s) (t : PyStr) :
    (s.types e).Nodup ∧ (t ∈ s.types e ↔ ∃ x ∈ p, e.dec x.type = t) := by
  unfold Store.types
  rw [poolTypes_ok hu.fresh hok.pool]
  obtain ⟨h1, h2⟩ := hu.order ((poolTypes p).map e.dec)
  refine ⟨h1, ?_⟩
  rw [h2]
  simp [poolTypes]

/-- The objects of the type are there by their fingerprints. -/
def Spec.ByFingerprint (e : Env) (os : List PyObj) (d : List (PyStr × PyObj)) : Prop :=
  (d.map Prod.fst).Nodup ∧
  (∀ o ∈ os, ∃ k, o.fingerprint e = some k ∧ k ∈ d.map Prod.fst) ∧
  ∀ k o, (k, o) ∈ d → o ∈ os ∧ o.fingerprint e = some k

theorem unknownsLoop_spec {e : Env} {p : List ObjectSet} (hu : Spec.Usable e p)
    (hq : Spec.SetsQuiet e p)
    (hne : ∀ o ∈ Spec.allObjects e p, e.known o.type = false → o.type.toStd ≠ [])
    (ts : List PyStr) (hts : ∀ t ∈ ts, Spec.Stable e t) (hnd : ts.Nodup) (s : Store)
    (hok : StoreOk e p s) (d0 : List (PyStr × List (PyStr × PyObj)))
    (h0 : ∀ t ∈ ts, t ∉ d0.map Prod.fst) :
    StoreOk e p (unknownsLoop e ts s d0).1 ∧
    ∃ xs, (unknownsLoop e ts s d0).2 = some (d0 ++ xs) ∧
      xs.map Prod.fst = ts.filter (fun t => !e.known t) ∧
      ∀ x ∈ xs, Spec.ByFingerprint e (Spec.objectsOf e p x.1) x.2 := by
  induction ts generalizing s d0 with
  | nil => exact ⟨hok, [], by simp [unknownsLoop], rfl, by simp⟩
  | cons t ts ih =>
    rw [List.nodup_cons] at hnd
    rw [unknownsLoop]
    split
    · rename_i hk
      have := ih (fun t ht => hts t (List.mem_cons_of_mem _ ht)) hnd.2 s hok d0
        (fun t ht => h0 t (List.mem_cons_of_mem _ ht))
      simpa [List.filter_cons, hk] using this
    · rename_i hk
      have hall := all_ok hu hok t (hts t (by simp))
      rw [quiet_raises hq] at hall
      simp only [Bool.false_eq_true, if_false] at hall
      obtain ⟨os, h1, h2⟩ := hall
      have hst := all_store hu.fresh hok t
      rcases hr : s.all e t with ⟨s', r⟩
      rw [hr] at h1 hst
      simp only at h1 hst
      subst h1
      simp only
      have hmem : ∀ o ∈ os, o ∈ Spec.allObjects e p ∧ o.type = t := by
        intro o ho
        have := h2.mem_iff.1 ho
        simpa [Spec.objectsOf] using this
      obtain ⟨x, hx⟩ := byFingerprint_some e os [] (by
        intro o ho
        obtain ⟨ho1, ho2⟩ := hmem o ho
        refine fingerprint_isSome hu.fresh ho1 ?_
        rw [← (promote_of_mem ho1).1]
        exact hne o ho1 (by rw [ho2]; simpa using hk))
      rw [hx]
      simp only
      have hset : dictSet t x d0 = d0 ++ [(t, x)] := by
        have := h0 t (by simp)
        clear h0 hx hr ih
        induction d0 with
        | nil => rfl
        | cons y d0 ih =>
          obtain ⟨a, b⟩ := y
          simp only [List.map_cons, List.mem_cons, not_or] at this
          rw [dictSet, if_neg (Ne.symm this.1), ih this.2]
          rfl
      rw [hset]
      obtain ⟨g1, xs, g2, g3, g4⟩ := ih (fun t ht => hts t (List.mem_cons_of_mem _ ht)) hnd.2 s' hst
        (d0 ++ [(t, x)]) (by
          intro t' ht'
          simp only [List.map_append, List.mem_append, not_or]
          refine ⟨h0 t' (List.mem_cons_of_mem _ ht'), ?_⟩
          simp only [List.map_cons, List.map_nil, List.mem_singleton]
          rintro rfl
          exact hnd.1 ht')
      refine ⟨g1, (t, x) :: xs, by rw [g2]; simp, by simp [hk, g3], ?_⟩
      intro y hy
      rcases List.mem_cons.1 hy with rfl | hy
      · obtain ⟨f1, f2, -, f4⟩ := byFingerprint_spec e os [] x (by simp) hx
        refine ⟨f1, fun o ho => f2 o (h2.mem_iff.2 ho), fun k o hko => ?_⟩
        rcases f4 k o hko with h | ⟨h, h'⟩
        · cases h
        · exact ⟨h2.mem_iff.1 h, h'⟩
      · exact g4 y hy

/-- With different fingerprints nothing is lost. -/
theorem byFingerprint_perm {e : Env} {os : List PyObj} {d : List (PyStr × PyObj)}
    (h : Spec.ByFingerprint e os d)
    (hd : os.Pairwise fun a b => a.fingerprint e ≠ b.fingerprint e) : (d.map Prod.snd).Perm os := by
  obtain ⟨h1, h2, h3⟩ := h
  have hos : os.Nodup := hd.imp fun h => by rintro rfl; exact h rfl
  have hinj : ∀ a ∈ os, ∀ b ∈ os, a.fingerprint e = b.fingerprint e → a = b := by
    have hm : (os.map fun o => o.fingerprint e).Nodup := List.pairwise_map.2 hd
    exact fun a ha b hb => List.inj_on_of_nodup_map hm ha hb
  refine (List.perm_ext_iff_of_nodup ?_ hos).2 fun o => ?_
  · refine List.Nodup.map_on ?_ (List.Nodup.of_map _ h1)
    rintro ⟨k, o⟩ hx ⟨k', o'⟩ hy hxy
    simp only at hxy
    subst hxy
    have e1 := (h3 _ _ hx).2
    have e2 := (h3 _ _ hy).2
    rw [e1] at e2
    cases e2
    rfl
  · constructor
    · intro ho
      obtain ⟨⟨k, o'⟩, hx, rfl⟩ := List.mem_map.1 ho
      exact (h3 _ _ hx).1
    · intro ho
      obtain ⟨k, hk, hk'⟩ := h2 o ho
      obtain ⟨⟨k', o'⟩, hx, rfl⟩ := List.mem_map.1 hk'
      obtain ⟨g1, g2⟩ := h3 _ _ hx
      have := hinj o ho o' g1 (by rw [hk, g2])
      subst this
      exact List.mem_map.2 ⟨_, hx, rfl⟩

/-! ## C64 -/

/-- C64.  The attributes are the documented ones. -/
theorem c64_names : ∀ x, x ∈ descriptors ↔ x ∈ Spec.accessors := by
  have h1 : ∀ x ∈ descriptors, x ∈ Spec.accessors := by decide +kernel
  have h2 : ∀ x ∈ Spec.accessors, x ∈ descriptors := by decide +kernel
  exact fun x => ⟨h1 x, h2 x⟩

/-- C64.  After any history, an attribute of the logical file gives the objects of its type, or
raises if and only if the error handler raises for a set of the type. -/
theorem c64_attribute (e : Env) (p : List ObjectSet) (hu : Spec.Usable e p)
    (hist : List Spec.StoreOp) (a t : String) (ha : (a, t) ∈ Spec.accessors)
    (ht : Spec.Stable e (.str (text t))) :
    if Spec.raises e .exact (.str (text t)) p then ((Spec.after e p hist).attribute e a).2 = none
    else ∃ os, ((Spec.after e p hist).attribute e a).2 = some os ∧
      os.Perm (Spec.objectsOf e p (.str (text t))) := by
  have h : ∀ x ∈ descriptors, descriptors.find? (fun d => d.1 == x.1) = some x := by
    decide +kernel
  unfold Store.attribute
  rw [h _ ((c64_names _).2 ha)]
  exact all_ok hu (after_ok hu.fresh hist) _ ht

/-- C64.  The file header is the only object of type FILE-HEADER.  If there is none, or if there
are several, it is `None`, with a warning. -/
theorem c64_fileheader (e : Env) (p : List ObjectSet) (hu : Spec.Usable e p)
    (hist : List Spec.StoreOp) (ht : Spec.Stable e (.str (text "FILE-HEADER")))
    (hr : Spec.raises e .exact (.str (text "FILE-HEADER")) p = false) :
    (∀ o, Spec.objectsOf e p (.str (text "FILE-HEADER")) = [o] →
      ((Spec.after e p hist).fileheader e).2 = some (some o, false)) ∧
    ((Spec.objectsOf e p (.str (text "FILE-HEADER"))).length ≠ 1 →
      ((Spec.after e p hist).fileheader e).2 = some (none, true)) := by
  have h := all_ok hu (after_ok hu.fresh hist) _ ht
  rw [hr] at h
  simp only [Bool.false_eq_true, if_false] at h
  obtain ⟨os, h1, h2⟩ := h
  unfold Store.fileheader
  rcases hs : (Spec.after e p hist).all e (.str (text "FILE-HEADER")) with ⟨s, r⟩
  rw [hs] at h1
  simp only at h1
  subst h1
  simp only
  constructor
  · intro o ho
    rw [ho] at h2
    rw [List.perm_singleton.1 h2]
  · intro hl
    rw [← h2.length_eq] at hl
    split
    · simp at hl
    · rfl

/-- C64.  The objects of unknown types: every type of the file that is not in the table is there
once, with objects of this type only, and every object of the type is represented by its
fingerprint. -/
theorem c64_unknowns (e : Env) (p : List ObjectSet) (hu : Spec.Usable e p) (hq : Spec.SetsQuiet e p)
    (hne : ∀ o ∈ Spec.allObjects e p, e.known o.type = false → o.type.toStd ≠ [])
    (hist : List Spec.StoreOp) :
    ∃ d, ((Spec.after e p hist).unknowns e).2 = some d ∧ (d.map Prod.fst).Nodup ∧
      (∀ t, t ∈ d.map Prod.fst ↔ e.known t = false ∧ ∃ x ∈ p, e.dec x.type = t) ∧
      ∀ t x, (t, x) ∈ d → Spec.ByFingerprint e (Spec.objectsOf e p t) x := by
  have hok := after_ok (e := e) hu.fresh hist
  generalize Spec.after e p hist = s at hok
  obtain ⟨-, xs, h1, h2, h3⟩ := unknownsLoop_spec hu hq hne (s.types e) (by
      intro t ht
      obtain ⟨x, hx, rfl⟩ := ((mem_types hu hok t).2).1 ht
      exact hu.types x hx) (mem_types hu hok (.str [])).1 s hok [] (by simp)
  refine ⟨xs, by simpa [Store.unknowns] using h1, ?_, ?_, fun t x hx => h3 _ hx⟩
  · rw [h2]
    exact (mem_types hu hok (.str [])).1.filter _
  · intro t
    rw [h2, List.mem_filter, (mem_types hu hok t).2]
    simp [and_comm]

/-- C64.  Every object of the file is in exactly one place: in the attribute for its type, with
the file headers, or among the unknown ones, as often as it is in the file.  Every attribute may
be used after a different history.  Objects of the same unknown type must not have the same
fingerprint. -/
theorem c64_everything_partial (e : Env) (hk : e.known = tableKnown) (p : List ObjectSet)
    (hu : Spec.Usable e p) (hq : Spec.SetsQuiet e p)
    (hstable : ∀ t ∈ typeTable, Spec.Stable e (.str (text t)))
    (hne : ∀ o ∈ Spec.allObjects e p, e.known o.type = false → o.type.toStd ≠ [] ∧
      (Spec.objectsOf e p o.type).Pairwise fun a b => a.fingerprint e ≠ b.fingerprint e)
    (hist : String → List Spec.StoreOp) (hist' hist'' : List Spec.StoreOp) :
    ∃ (known : String → List PyObj) (headers : List PyObj)
      (unknown : List (PyStr × List (PyStr × PyObj))),
      (∀ d ∈ Spec.accessors, ((Spec.after e p (hist d.1)).attribute e d.1).2 = some (known d.1)) ∧
      ((Spec.after e p hist').all e (.str (text "FILE-HEADER"))).2 = some headers ∧
      ((Spec.after e p hist'').unknowns e).2 = some unknown ∧
      (Spec.accessors.flatMap (fun d => known d.1) ++ headers ++
        unknown.flatMap (fun x => x.2.map Prod.snd)).Perm (Spec.allObjects e p) := by
  obtain ⟨d, hd1, hd2, hd3, hd4⟩ := c64_unknowns e p hu hq (fun o h1 h2 => (hne o h1 h2).1) hist''
  have hhead := all_ok hu (after_ok hu.fresh hist') _ (hstable "FILE-HEADER" (by decide))
  rw [quiet_raises hq] at hhead
  simp only [Bool.false_eq_true, if_false] at hhead
  obtain ⟨headers, hh1, hh2⟩ := hhead
  have hattr : ∀ x ∈ descriptors, ∃ os, ((Spec.after e p (hist x.1)).attribute e x.1).2 = some os ∧
      os.Perm (Spec.objectsOf e p (.str (text x.2))) := by
    rintro ⟨a, t⟩ hx
    have htab : ∀ x ∈ descriptors, x.2 ∈ typeTable := by decide +kernel
    have := c64_attribute e p hu (hist a) a t ((c64_names _).1 hx) (hstable t (htab _ hx))
    rw [quiet_raises hq] at this
    simpa using this
  refine ⟨fun a => (((Spec.after e p (hist a)).attribute e a).2).getD [], headers, d, ?_, hh1, hd1, ?_⟩
  · intro x hx
    obtain ⟨os, h1, -⟩ := hattr x ((c64_names x).2 hx)
    simp only [h1, Option.getD_some]
  have h1 : (descriptors.flatMap fun x => (((Spec.after e p (hist x.1)).attribute e x.1).2).getD []).Perm
      (descriptors.flatMap fun x => Spec.objectsOf e p (.str (text x.2))) := by
    refine List.Perm.flatMap_left _ fun x hx => ?_
    obtain ⟨os, h1, h2⟩ := hattr x hx
    rw [h1]
    exact h2
  have h2 : (d.flatMap fun x => x.2.map Prod.snd).Perm
      (d.flatMap fun x => Spec.objectsOf e p x.1) := by
    refine List.Perm.flatMap_left _ fun x hx => ?_
    refine byFingerprint_perm (hd4 x.1 x.2 hx) ?_
    rcases hos : Spec.objectsOf e p x.1 with _ | ⟨o, os⟩
    · simp
    · have ho : o ∈ Spec.objectsOf e p x.1 := by rw [hos]; simp
      simp only [Spec.objectsOf, List.mem_filter, decide_eq_true_eq] at ho
      have hkn := ((hd3 x.1).1 (List.mem_map.2 ⟨x, hx, rfl⟩)).1
      have := (hne o ho.1 (by rw [ho.2]; exact hkn)).2
      rw [ho.2, hos] at this
      exact this
  have h0 : Spec.accessors.Perm descriptors := by decide +kernel
  refine ((((h0.flatMap_right _).trans h1).append hh2).append h2).trans ?_
  have h3 : (descriptors.flatMap fun x => Spec.objectsOf e p (.str (text x.2))) ++
      Spec.objectsOf e p (.str (text "FILE-HEADER")) ++ (d.flatMap fun x => Spec.objectsOf e p x.1) =
      ((descriptors.map fun x => PyStr.str (text x.2)) ++ [PyStr.str (text "FILE-HEADER")] ++
        d.map Prod.fst).flatMap fun t => (Spec.allObjects e p).filter fun o => decide (o.type = t) := by
    rw [List.flatMap_append, List.flatMap_append, List.flatMap_map, List.flatMap_map]
    simp [Spec.objectsOf]
  rw [h3]
  have hno : ((descriptors.map fun x => PyStr.str (text x.2)) ++
      [PyStr.str (text "FILE-HEADER")]).Nodup := by decide +kernel
  have hkt : ∀ t, tableKnown t = true ↔ t ∈ (descriptors.map fun x => PyStr.str (text x.2)) ++
      [PyStr.str (text "FILE-HEADER")] := by
    intro t
    have hp : typeTable.Perm (descriptors.map Prod.snd ++ ["FILE-HEADER"]) := by decide +kernel
    unfold tableKnown
    rw [List.any_eq_true]
    simp only [hp.mem_iff, List.mem_append, List.mem_map, List.mem_singleton, decide_eq_true_eq]
    constructor
    · rintro ⟨s, ⟨x, hx, rfl⟩ | rfl, rfl⟩
      · exact Or.inl ⟨x, hx, rfl⟩
      · exact Or.inr rfl
    · rintro (⟨x, hx, rfl⟩ | rfl)
      · exact ⟨x.2, Or.inl ⟨x, hx, rfl⟩, rfl⟩
      · exact ⟨_, Or.inr rfl, rfl⟩
  refine perm_group (fun o : PyObj => o.type) _ (List.Nodup.append hno hd2 ?_) _ ?_
  · intro t ht ht'
    have := ((hd3 t).1 ht').1
    rw [hk, (hkt t).2 ht] at this
    cases this
  · intro o ho
    obtain ⟨x, hx, hxt⟩ := allObjects_type hu.fresh ho
    rw [List.mem_append, ← hkt, hd3]
    by_cases hkn : tableKnown o.type = true
    · exact Or.inl hkn
    · exact Or.inr ⟨by rw [hk]; simpa using hkn, x, hx, hxt.symm⟩

/-- C64.  The warning about updates is given if and only if there is a set of the type UPDATE. -/
theorem c64_update (e : Env) (p : List ObjectSet) (hu : Spec.Usable e p)
    (hist : List Spec.StoreOp) :
    (Spec.after e p hist).hasUpdate e = true ↔ ∃ x ∈ p, e.dec x.type = .str (text "UPDATE") := by
  unfold Store.hasUpdate
  rw [List.any_eq_true]
  simp only [decide_eq_true_eq, exists_eq_right]
  exact (mem_types hu (after_ok hu.fresh hist) _).2

/-! ## Cases -/

namespace AccessorsCase

open StoreCase

/-- Strings are UTF-8, the table of types is that of the code, the error handler raises for
critical errors. -/
def env : Env := { StoreCase.env with known := tableKnown }

/-- A set of the type with the objects (1, 0) that have the names, and no attributes. -/
def set (type : String) (names : List String) : Bytes :=
  0xf0 :: BitVec.ofNat 8 type.length :: Spec.Fingerprint.ascii type ++ [0x30, 1, 0x41] ++
    names.flatMap fun n => [0x70, 1, 0, BitVec.ofNat 8 n.length] ++ Spec.Fingerprint.ascii n

/-- Two sets of channels, one of an unknown type, and a file header. -/
def sets : List ObjectSet :=
  file [set "FILE-HEADER" ["N"], set "CHANNEL" ["A", "B"], set "440-X" ["O", "P"],
    set "CHANNEL" ["C"], set "UPDATE" []]

theorem usable : Spec.Usable env sets :=
  ⟨file_fresh _, order_set [], by unfold Spec.Stable; decide +kernel⟩

theorem quiet : Spec.SetsQuiet env sets := by unfold Spec.SetsQuiet Spec.SetQuiet; decide +kernel

/-- The hypotheses of C64 hold. -/
example : env.known = tableKnown ∧ (∀ t ∈ typeTable, Spec.Stable env (.str (text t))) ∧
    (∀ o ∈ Spec.allObjects env sets, env.known o.type = false → o.type.toStd ≠ [] ∧
      (Spec.objectsOf env sets o.type).Pairwise fun a b => a.fingerprint env ≠ b.fingerprint env) ∧
    (Spec.allObjects env sets).length = 6 := by
  refine ⟨rfl, ?_⟩
  unfold Spec.Stable
  decide +kernel

/-- The attributes after a history; the objects of the unknown type by their fingerprints. -/
example :
    let s := Spec.after env sets [.object (.str (text "CHANNEL")) (.str (text "B")) none none,
      .caching false, .find any T none]
    ((s.attribute env "channels").2.map (·.map (·.name))) =
      some [.str (text "A"), .str (text "B"), .str (text "C")] ∧
    ((s.attribute env "frames").2) = some [] ∧
    ((s.fileheader env).2.map fun r => (r.1.map (·.name), r.2)) = some (some (.str (text "N")), false) ∧
    ((s.unknowns env).2.map (·.map fun x => (x.1, x.2.map Prod.fst))) =
      some [(.str (text "440-X"), [.str (text "T.440-X-I.O-O.1-C.0"),
          .str (text "T.440-X-I.P-O.1-C.0")]), (.str (text "UPDATE"), [])] ∧
    s.hasUpdate env = true := by
  decide +kernel

/-- Two headers are none. -/
example :
    let s := Spec.after env (file [set "FILE-HEADER" ["N", "M"]]) []
    (s.fileheader env).2 = some (none, true) := by
  decide +kernel

/-- Two objects with the name "O" (1, 0) in a set of type "U", whose attributes "A" are 7
and 8. -/
def twice : List ObjectSet :=
  file [[0xf0, 1, 0x55, 0x34, 1, 0x41, 15] ++ [0x70, 1, 0, 1, 0x4f, 0x21, 7] ++
    [0x70, 1, 0, 1, 0x4f, 0x21, 8]]

/-- C64 is violated by objects of an unknown type that have the same fingerprint: `find` gives
both of them, `unknowns` only one. -/
theorem c64_same_fingerprint_defect : ∃ p, Spec.Usable env p ∧ Spec.SetsQuiet env p ∧
    (Spec.allObjects env p).Nodup ∧
    ((Spec.after env p []).all env U).2 = some (Spec.allObjects env p) ∧
    (Spec.allObjects env p).length = 2 ∧
    ((Spec.after env p []).unknowns env).2.map (·.map fun x => x.2.length) = some [1] :=
  ⟨twice, ⟨file_fresh _, order_set [], by unfold Spec.Stable; decide +kernel⟩,
    by unfold Spec.SetsQuiet Spec.SetQuiet; decide +kernel, by decide +kernel, by decide +kernel, by decide +kernel,
    by decide +kernel⟩

/-- C64 is violated by an object of a set whose type is empty: the object is in the file and is
found, but `unknowns` raises, whatever the error handler does. -/
theorem c64_empty_type_defect : ∃ p, Spec.Usable env p ∧ Spec.SetsQuiet env p ∧
    ((Spec.after env p []).all env empty).2 = some (Spec.allObjects env p) ∧
    (Spec.allObjects env p).length = 1 ∧ ((Spec.after env p []).unknowns env).2 = none :=
  ⟨file [set "" ["O"]], ⟨file_fresh _, order_set [], by unfold Spec.Stable; decide +kernel⟩,
    by unfold Spec.SetsQuiet Spec.SetQuiet; decide +kernel, by decide +kernel, by decide +kernel, by decide +kernel⟩

end AccessorsCase

end Dlisio.Dlis
