/-
The constructor of logical files, python/dlisio/dlis/file.py:347-361, which `load` calls for each
logical file it finds (python/dlisio/dlis/load.py:191).  It gives a warning if there are objects of
the type UPDATE, and the text of the warning contains the description of the logical file, which is
read from its file header.  C79.
-/
import Verif.Dlis.FromDisk
import Verif.Dlis.FileSummary
import Verif.Dlis.DescribeProps

namespace Dlisio.Dlis

open _root_.Dlisio.Dlis.Spec

/-! ## Model -/

/-- `LogicalFile.__init__`, file.py:347-361, with `ObjectStore.__init__`, file.py:153-160: the store
afterwards and whether the warning is logged; `none` if the text of the warning,
`msg.format(self)`, raises. -/
def LogFile.init (e : Env) (g : LogFile) : Option (Store × Bool) :=
  let s : Store := { pool := g.sets, caching := true, cache := [] }
  if s.hasUpdate e then
    match s.fileRepr e with
    | (_, none) => none
    | (s, some _) => some (s, true)
  else some (s, false)

/-- `load` with the constructors of the logical files, load.py:79-103 and 191.  A logical file is
appended to the list only after its constructor has returned (load.py:192), and a constructor that
raises ends `load`, whatever would have come after it; so `load` raises if one of the constructors
of the files that are found does.  What the index is then is not modelled. -/
def loadPy (e : Env) (d : Disk) (stale : Nat → Bytes) (n : Nat) : Indexer × Loaded :=
  match load d e.policy stale n with
  | (y, r) => if y.files.all fun g => (g.init e).isSome then (y, r) else (y, .raised)

/-! ## Specification -/

/-- One of the sets is of the type UPDATE. -/
def Spec.HasUpdates (e : Env) (p : List ObjectSet) : Prop :=
  ∃ x ∈ p, e.dec x.type = .str (text "UPDATE")

/-- What is recorded as ID in file headers, if it is a date, is one of the calendar, and if it is a
reference, it can be written down. -/
def Spec.HeaderPlain (ss : List Spec.ObjSet) : Prop :=
  ∀ o ∈ Spec.recorded ss, o.type = Fingerprint.ascii "FILE-HEADER" →
    ∀ c vs, Spec.ValuesAre o "ID" c vs → Spec.DatesOk vs ∧ ∀ v ∈ vs.head?, Spec.Writable v

/-! ## Lemmas -/

variable {e : Env} {p : List ObjectSet}

theorem fileRepr_reach {s : Store} (h : Reach e p s) : Reach e p (s.fileRepr e).1 := by
  have hall : Reach e p (s.all e (.str (text "FILE-HEADER"))).1 := by
    obtain ⟨hist, rfl⟩ := h
    refine ⟨hist ++ [.find .exact (.str (text "FILE-HEADER")) none], ?_⟩
    simp [Spec.after, Spec.StoreOp.run, Store.all]
  unfold Store.fileRepr Store.fileheader
  generalize s.all e (.str (text "FILE-HEADER")) = x at hall ⊢
  rcases x with ⟨s', _ | values⟩
  · exact hall
  · rcases values with _ | ⟨o, _ | ⟨_, _⟩⟩
    · exact hall
    · have := property_reach (o := o.attic) (name := "id") hall
      rcases hp : s'.property e o.attic "id" with ⟨s'', _ | r⟩
      · rename_i err
        rw [hp] at this
        simp only [hp]
        cases err <;> exact this
      · rw [hp] at this
        simp only [hp]
        exact this
    · exact hall

theorem hasUpdate_iff (horder : Spec.IsSetOrder e.order) (p : List ObjectSet) :
    (Spec.after e p []).hasUpdate e = true ↔ Spec.HasUpdates e p := by
  unfold Store.hasUpdate Store.types Spec.HasUpdates
  rw [List.any_eq_true]
  simp only [decide_eq_true_eq, exists_eq_right]
  rw [(horder _).2]
  simp [poolTypes, Spec.after]

/-! ## C79 -/

/-- C79.  Without objects of the type UPDATE the constructor does not look at the sets.  If there are
some the warning is given, and the sets have been used like any user of the logical file can use
them, so that all that is said for any history (C33, C34, C64, C69, C77, …) is true from then on. -/
theorem c79_init (e : Env) (horder : Spec.IsSetOrder e.order) (g : LogFile) :
    (¬ Spec.HasUpdates e g.sets → g.init e = some (Spec.after e g.sets [], false)) ∧
    ∀ s w, g.init e = some (s, w) → (∃ hist, s = Spec.after e g.sets hist) ∧
      (w = true ↔ Spec.HasUpdates e g.sets) := by
  have hiff := hasUpdate_iff horder g.sets
  unfold LogFile.init
  change _ ∧ ∀ s w, (if (Spec.after e g.sets []).hasUpdate e = true then
    match (Spec.after e g.sets []).fileRepr e with
    | (_, none) => none
    | (s, some _) => some (s, true) else some (Spec.after e g.sets [], false)) = some (s, w) → _
  constructor
  · intro h
    rw [← hiff] at h
    exact if_neg h
  · intro s w h
    split_ifs at h with hu
    · have hr := fileRepr_reach (e := e) (p := g.sets) ⟨[], rfl⟩
      rcases hf : (Spec.after e g.sets []).fileRepr e with ⟨s', _ | x⟩
      · rw [hf] at h; cases h
      · rw [hf] at h hr
        cases h
        exact ⟨hr, by simpa using hiff.1 hu⟩
    · cases h
      exact ⟨⟨[], rfl⟩, by simpa using fun h => hu (hiff.2 h)⟩

/-- C79.  If the header can be read the constructor returns. -/
theorem c79_returns (e : Env) (g : LogFile) (hu : Spec.Usable e g.sets)
    (hq : Spec.SetsQuiet e g.sets) (hh : Spec.HeaderReadable e g.sets)
    (ht : Spec.Stable e (.str (text "FILE-HEADER"))) : (g.init e).isSome = true := by
  obtain ⟨-, desc, h, -⟩ := fileRepr_ok hu hq hh (after_ok hu.fresh []) ht
  unfold LogFile.init
  change (if (Spec.after e g.sets []).hasUpdate e = true then
    match (Spec.after e g.sets []).fileRepr e with
    | (_, none) => none
    | (s, some _) => some (s, true) else some (Spec.after e g.sets [], false)).isSome = true
  split_ifs
  · rcases hf : (Spec.after e g.sets []).fileRepr e with ⟨s', r⟩
    rw [hf] at h
    simp only at h
    subst h
    rfl
  · rfl

theorem holds_header (hd : Spec.ReadsUtf8 e.dec) {f : Stored} {ss : List Spec.ObjSet}
    (hs : Spec.HoldsSets f ss) (hl : Spec.Legible e.policy ss) (hid : Spec.HeaderPlain ss) :
    Spec.HeaderOk e (setsOf f.recs) := by
  intro o ho
  have hmem : o ∈ Spec.objectsOf e (setsOf f.recs) (.str (text "FILE-HEADER")) := by rw [ho]; simp
  obtain ⟨hall, hty⟩ := List.mem_filter.1 hmem
  rw [holds_objects e hs] at hall
  obtain ⟨b, hb, rfl⟩ := List.mem_map.1 hall
  have hlab : PlainLabel "FILE-HEADER" := by unfold PlainLabel; decide +kernel
  have hbt : b.type = Fingerprint.ascii "FILE-HEADER" := by
    have : e.dec b.type = .str (text "FILE-HEADER") := of_decide_eq_true hty
    rw [← (label_dec hd hlab).1] at this
    exact readsUtf8_inj hd (legible_type hl hb) (plain_ascii hlab.1) this
  have hq := recorded_quiet (e := e) hb
  exact ⟨recorded_labels hd hs hl hb, hq.1, fun a ha hla =>
    ⟨hq.2 a ha, fun c vs hv => hid b hb hbt c vs ⟨a, ha, hla, hv⟩⟩⟩

/-- C79.  All logical files of a medium are loaded if, for each of them, there are no objects of the
type UPDATE, or the sets are laid out as the standard says. -/
theorem c79_load_partial (e : Env) (hd : Spec.ReadsUtf8 e.dec) (horder : Spec.IsSetOrder e.order)
    (stale : Nat → Bytes) (hst : ∀ t, 262 ≤ (stale t).length) (hm : e.policy .minor = false)
    (disk : Disk) (fs : List (Option Bytes × Stored)) (hmed : Spec.Medium e.policy disk fs)
    (hfs : ∀ x ∈ fs, ¬ Spec.HasUpdates e (setsOf x.2.recs) ∨
      ∃ ss, Spec.HoldsSets x.2 ss ∧ Spec.Legible e.policy ss ∧ Spec.HeaderPlain ss) :
    ∃ n₀, ∀ n, n₀ ≤ n → ∃ y, loadPy e disk stale n = (y, .files) ∧
      List.Forall₂ (fun x g => Faithful e.policy x.1 x.2 g ∧
        ∃ hist w, g.init e = some (Spec.after e g.sets hist, w) ∧
          (w = true ↔ Spec.HasUpdates e (setsOf x.2.recs))) fs y.files := by
  obtain ⟨n₀, hload⟩ := c77_load_partial e.policy stale hst hm disk fs hmed
  refine ⟨n₀, fun n hn => ?_⟩
  obtain ⟨y, h1, h2⟩ := hload n hn
  have key : List.Forall₂ (fun x g => Faithful e.policy x.1 x.2 g ∧
        ∃ hist w, g.init e = some (Spec.after e g.sets hist, w) ∧
          (w = true ↔ Spec.HasUpdates e (setsOf x.2.recs))) fs y.files := by
    clear hmed hload h1
    generalize y.files = gs at h2 ⊢
    induction h2 with
    | nil => exact .nil
    | @cons x g fs gs hg _ ih =>
      refine .cons ⟨hg, ?_⟩ (ih fun x hx => hfs x (by simp [hx]))
      have hi := c79_init e horder g
      rw [hg.sets] at hi
      rcases hfs x (by simp) with h | ⟨ss, k1, k2, k3⟩
      · refine ⟨[], false, by rw [hg.sets]; exact hi.1 h, by simpa using h⟩
      · have hu := holds_usable hd horder k1 k2
        have hsome := c79_returns e g (by rw [hg.sets]; exact hu)
          (by rw [hg.sets]; exact fun x hx => holds_quiet k1 k2 hx)
          (by rw [hg.sets]; exact (c71_header e hd _ hu.fresh (holds_header hd k1 k2 k3)).1)
          (by
            have hlab : PlainLabel "FILE-HEADER" := by unfold PlainLabel; decide +kernel
            rw [← (label_dec hd hlab).1]
            exact plain_stable hd (plain_ascii hlab.1))
        obtain ⟨⟨s, w⟩, hsw⟩ := Option.isSome_iff_exists.1 hsome
        obtain ⟨⟨hist, rfl⟩, hw⟩ := hi.2 s w hsw
        exact ⟨hist, w, by rw [hsw, hg.sets], hw⟩
  refine ⟨y, ?_, key⟩
  unfold loadPy
  rw [h1]
  simp only
  rw [if_pos]
  rw [List.all_eq_true]
  intro g hg
  obtain ⟨i, hi, rfl⟩ := List.mem_iff_getElem.1 hg
  have := List.Forall₂.get key (by rw [key.length_eq]; exact hi) hi
  obtain ⟨-, hist, w, h, -⟩ := this
  simp only [List.get_eq_getElem] at h
  rw [h]; rfl

/-- C79 is violated: if there are objects of the type UPDATE, and the error handler raises for a set
of file headers, then the constructor raises, and with it `load`, although nobody has asked for the
file header. -/
theorem c79_update_defect (e : Env) (horder : Spec.IsSetOrder e.order) (g : LogFile)
    (hf : Spec.Fresh g.sets) (ht : Spec.Stable e (.str (text "FILE-HEADER")))
    (hu : Spec.HasUpdates e g.sets) (hp : ∀ x ∈ g.sets, Spec.Stable e (e.dec x.type))
    (hr : Spec.raises e .exact (.str (text "FILE-HEADER")) g.sets = true) :
    g.init e = none ∧ ∀ disk stale n y r, load disk e.policy stale n = (y, r) → g ∈ y.files →
      loadPy e disk stale n = (y, .raised) := by
  have hnone : g.init e = none := by
    have h := all_ok ⟨hf, horder, hp⟩ (after_ok hf []) _ ht
    rw [if_pos hr] at h
    unfold LogFile.init
    change (if (Spec.after e g.sets []).hasUpdate e = true then
      match (Spec.after e g.sets []).fileRepr e with
      | (_, none) => none
      | (s, some _) => some (s, true) else some (Spec.after e g.sets [], false)) = none
    rw [if_pos ((hasUpdate_iff horder g.sets).2 hu)]
    unfold Store.fileRepr Store.fileheader
    rcases hs : (Spec.after e g.sets []).all e (.str (text "FILE-HEADER")) with ⟨s', r⟩
    rw [hs] at h
    simp only at h
    subst h
    rfl
  refine ⟨hnone, fun disk stale n y r h hg => ?_⟩
  unfold loadPy
  rw [h]
  simp only
  rw [if_neg]
  intro hall
  have := List.all_eq_true.1 hall g hg
  rw [hnone] at this
  cases this

/-! ## Cases -/

namespace ConstructCase

open StoreCase EndToEndCase FromDiskCase

/-- A set of objects of the type UPDATE, and a set of file headers with a set component in the
place of the ID. -/
def updateSet : Bytes := AccessorsCase.set "UPDATE" ["U"]

def headerCut : Bytes :=
  [0xf0] ++ EndToEndCase.ident (Fingerprint.ascii "FILE-HEADER") ++ ([0x34] ++
    EndToEndCase.ident (Fingerprint.ascii "ID") ++ [20] ++ ([0x70] ++ nameOf [0x48] ++ [0xf0]))

/-- A logical file with a set of file headers and other sets. -/
def fileOf (header : Bytes) (sets : List Bytes) : Stored :=
  let recs := (true, [exSeg 0x80 0 header]) :: sets.map fun s => (true, [exSeg 0x80 5 s])
  ⟨recs, recs.map fun r => recordBytes r.2⟩

theorem loadable_of (header : Bytes) (sets : List Bytes)
    (hx : ∀ s ∈ header :: sets, s.length < 2 ^ 15 ∧ ∃ x, ObjectSet.new s = .ok x)
    (hb : ∀ b ∈ (fileOf header sets).bodies, b ≠ [] ∧ b.length ≤ 16380)
    (h15 : 15 ≤ (fileOf header sets).bytes.length)
    (hn : ¬ Spec.OccursAt recordText ((fileOf header sets).bytes.take 15) 9) :
    Spec.Loadable env.policy (fileOf header sets) := by
  have hdata : ∀ a t d, recordData [exSeg a t d] = d := by simp [recordData, exSeg]
  have hr : ∀ r ∈ (fileOf header sets).recs, ∃ t, ∃ s ∈ header :: sets, r = (true, [exSeg 0x80 t s]) := by
    intro r hr
    rcases List.mem_cons.1 hr with rfl | hr
    · exact ⟨0, header, by simp, rfl⟩
    · obtain ⟨s, hs, rfl⟩ := List.mem_map.1 hr
      exact ⟨5, s, by simp [hs], rfl⟩
  refine ⟨⟨⟨?_, ?_⟩, hb, by simp [fileOf, fileBytes, List.flatMap],
    ⟨_, [], _, rfl, by simp [Spec.Seg.FileHeader, exSeg, Spec.Seg.Explicit, Spec.Seg.Continuation]⟩, h15, hn⟩,
    ?_, Or.inr ⟨?_, ?_⟩⟩
  · intro r h
    obtain ⟨t, s, hs, rfl⟩ := hr r h
    refine ⟨.last _ (exSeg_wf _ _ _ (by decide) (hx s hs).1) (by simp [exSeg, Seg.Continued]), ?_, by simp⟩
    intro s hs
    rw [List.mem_singleton] at hs
    subst hs
    simp [exSeg, Seg.Explicit]
  · intro r h s hs
    simp only [fileOf, List.tail_cons, List.mem_map] at h
    obtain ⟨x, -, rfl⟩ := h
    cases hs
    simp [Spec.Seg.FileHeader, exSeg]
  · intro r h _ _
    obtain ⟨t, s, hs, rfl⟩ := hr r h
    obtain ⟨x, hx⟩ := (hx s hs).2
    rw [hdata, hx]; simp
  · intro r h _ _
    obtain ⟨t, s, hs, rfl⟩ := hr r h
    rw [hdata]
    exact (hx s hs).2
  · intro r h hf
    obtain ⟨t, s, hs, rfl⟩ := hr r h
    cases hf

def updateOn : Spec.ObjSet :=
  { role := .set, type := Fingerprint.ascii "UPDATE", name := none,
    template := [{ label := [0x41], chars := {} }], objects := [⟨⟨1, 0, [0x55]⟩, []⟩] }

theorem update_enc : Spec.ObjSetEnc updateOn updateSet := by
  refine ⟨0xf0 :: (EndToEndCase.ident (Fingerprint.ascii "UPDATE") ++ []), [0x30, 1, 0x41] ++ [],
    ([0x70] ++ nameOf [0x55]) ++ [], by decide +kernel,
    ⟨0xf0, _, [], 7, rfl, rfl, by decide, ident_case _ (by decide +kernel), rfl⟩,
    .cons ⟨0x30, EndToEndCase.ident [0x41], [], rfl, rfl, ident_case _ (by decide), [], [], [], [], rfl, rfl,
      rfl, rfl, rfl⟩ .nil,
    .cons ⟨0x70, nameOf [0x55], [], rfl, by decide, name_case _ (by decide), rfl⟩ .nil,
    Or.inl (by simp [updateOn]), by decide +kernel⟩

theorem sets_of (header : Bytes) (sets : List Bytes) (hne : ∀ s ∈ header :: sets, s ≠ []) :
    (fileOf header sets).recs.filter (fun r => decide (r.1 = true ∧ Plain r.2)) =
      (fileOf header sets).recs := by
  rw [List.filter_eq_self]
  intro r hr
  rcases List.mem_cons.1 hr with rfl | hr
  · have := hne header (by simp)
    simp [Plain, exSeg, recordData, this]
  · obtain ⟨s, hs, rfl⟩ := List.mem_map.1 hr
    have := hne s (by simp [hs])
    simp [Plain, exSeg, recordData, this]

theorem setsOf_of (header : Bytes) (sets : List Bytes) (hne : ∀ s ∈ header :: sets, s ≠ []) :
    setsOf (fileOf header sets).recs = (header :: sets).filterMap fun s => (ObjectSet.new s).toOption := by
  have hp : ∀ t, ∀ s ∈ header :: sets, Plain [exSeg 0x80 t s] := by
    intro t s hs
    have := hne s hs
    simp [Plain, exSeg, recordData, this]
  have hdata : ∀ a t d, recordData [exSeg a t d] = d := by simp [recordData, exSeg]
  unfold setsOf fileOf
  simp only [List.filterMap_cons, hp 0 header (by simp), and_self, if_true, hdata, List.filterMap_map]
  have : ∀ s ∈ sets, ((fun r : Bool × List Seg => if r.1 = true ∧ Plain r.2 then
      (ObjectSet.new (recordData r.2)).toOption else none) ∘ fun s => (true, [exSeg 0x80 5 s])) s =
      (ObjectSet.new s).toOption := by
    intro s hs
    simp only [Function.comp_apply, hp 5 s (by simp [hs]), and_self, if_true, hdata]
  rw [List.filterMap_congr this]

/-- Case for `c79_init`, `c79_returns` and `c79_load_partial`: a logical file with a header and an
object of the type UPDATE is loaded, and there is a warning. -/
example : ∃ n₀, ∀ n, n₀ ≤ n → ∃ y g, loadPy env
      (rawDisk (exLabel ++ [fileOf headerBytes [updateSet]].flatMap Stored.bytes)) exStale n = (y, .files) ∧
      y.files = [g] ∧ ∃ hist, g.init env = some (Spec.after env g.sets hist, true) := by
  have hload := loadable_of headerBytes [updateSet] (by
      intro s hs
      simp only [List.mem_cons, List.not_mem_nil, or_false] at hs
      rcases hs with rfl | rfl
      · obtain ⟨x, h, -⟩ := c24_parse _ _ header_enc
        exact ⟨by decide +kernel, x, h⟩
      · obtain ⟨x, h, -⟩ := c24_parse _ _ update_enc
        exact ⟨by decide +kernel, x, h⟩) (by decide +kernel) (by decide +kernel)
      (by rw [occurs_bytes]; decide +kernel)
  have hholds : Spec.HoldsSets (fileOf headerBytes [updateSet]) [headerOn, updateOn] := by
    unfold Spec.HoldsSets
    rw [sets_of _ _ (by simp [headerBytes, updateSet, AccessorsCase.set])]
    exact .cons (by simpa [recordData, exSeg] using header_enc)
      (.cons (by simpa [recordData, exSeg] using update_enc) .nil)
  have hlegible : Spec.Legible env.policy [headerOn, updateOn] := by
    have key : ∀ b : Bytes, b.all (fun b => decide (0 < b.toNat ∧ b.toNat < 128)) = true →
        Spec.PlainText b := fun b h => plain_ascii (by simpa using h)
    refine ⟨fun s hs => key _ ?_, fun s hs o ho => key _ ?_, fun s hs t ht => key _ ?_, fun s hs => ?_,
      fun s hs he => ?_, fun s hs he => ?_⟩
    all_goals
      simp only [List.mem_cons, List.not_mem_nil, or_false] at hs
      rcases hs with rfl | rfl
    · decide +kernel
    · decide +kernel
    · revert o; decide +kernel
    · revert o; decide +kernel
    · revert t; decide +kernel
    · revert t; decide +kernel
    · decide +kernel
    · decide +kernel
    · cases he
    · cases he
    · exact absurd he (by simp [headerOn])
    · exact absurd he (by simp [updateOn])
  obtain ⟨n₀, h0⟩ := c79_load_partial env (c65_decoding []) (order_set []) exStale
    (fun _ => by rw [exStale, List.length_replicate]) (by decide) _ _
    (.labelled exLabel_label (fs := [fileOf headerBytes [updateSet]]) (by simpa using hload)
      (by decide +kernel))
    (by
      intro x hx
      rw [List.map_singleton, List.mem_singleton] at hx
      subst hx
      refine Or.inr ⟨_, hholds, hlegible, ?_⟩
      intro o ho ht c vs hv
      rw [show Spec.recorded [headerOn, updateOn] =
        [headerObj, ⟨⟨1, 0, [0x55]⟩, Fingerprint.ascii "UPDATE", [{ label := [0x41] }], []⟩] by
          decide +kernel] at ho
      simp only [List.mem_cons, List.not_mem_nil, or_false] at ho
      rcases ho with rfl | rfl
      · obtain ⟨a, h1, -, h3⟩ := hv
        rw [headerObj, List.mem_singleton] at h1
        subst h1
        cases h3
        simp [Spec.DatesOk, Spec.Writable]
      · exact absurd ht (by decide +kernel))
  refine ⟨n₀, fun n hn => ?_⟩
  obtain ⟨y, h1, h2⟩ := h0 n hn
  cases hy : y.files with
  | nil => rw [hy] at h2; cases h2
  | cons g gs =>
    rw [hy] at h2
    cases h2 with
    | cons hg h2 =>
      cases h2
      obtain ⟨-, hist, w, h3, h4⟩ := hg
      have : w = true := h4.2 (by
        obtain ⟨x, k1, k2⟩ : ∃ x ∈ setsOf (fileOf headerBytes [updateSet]).recs, x.type = updateOn.type := by
          have := holds_sets hholds
          generalize setsOf (fileOf headerBytes [updateSet]).recs = xs at this
          cases this with
          | cons _ h =>
            cases h with
            | cons h _ => exact ⟨_, by simp, h.1⟩
        exact ⟨x, k1, by rw [k2]; decide +kernel⟩)
      exact ⟨y, g, h1, hy, hist, by rw [h3, this]⟩

/-- Case for `c79_update_defect`: with a damaged header `load` raises if there is an object of the
type UPDATE, and returns the logical file if there is none. -/
example : (∃ n₀, ∀ n, n₀ ≤ n → ∃ y, loadPy env
      (rawDisk (exLabel ++ [fileOf headerCut [updateSet]].flatMap Stored.bytes)) exStale n = (y, .raised)) ∧
    ∃ n₀, ∀ n, n₀ ≤ n → ∃ y g, loadPy env
      (rawDisk (exLabel ++ [fileOf headerCut []].flatMap Stored.bytes)) exStale n = (y, .files) ∧
      y.files = [g] := by
  have hok : ∀ s ∈ [headerCut, updateSet], s.length < 2 ^ 15 ∧ ∃ x, ObjectSet.new s = .ok x := by
    have : ∀ s ∈ [headerCut, updateSet], s.length < 2 ^ 15 ∧ (ObjectSet.new s).isOk = true := by
      decide +kernel
    intro s hs
    refine ⟨(this s hs).1, ?_⟩
    have := (this s hs).2
    rcases h : ObjectSet.new s with x | x
    · rw [h] at this; cases this
    · exact ⟨x, rfl⟩
  constructor
  · have hl := loadable_of headerCut [updateSet] hok (by decide +kernel) (by decide +kernel)
      (by rw [occurs_bytes]; decide +kernel)
    obtain ⟨n₀, h0⟩ := c77_load_partial env.policy exStale
      (fun _ => by rw [exStale, List.length_replicate]) (by decide) _ _
      (.labelled exLabel_label (fs := [fileOf headerCut [updateSet]]) (by simpa using hl)
        (by decide +kernel))
    refine ⟨n₀, fun n hn => ?_⟩
    obtain ⟨y, h1, h2⟩ := h0 n hn
    cases hy : y.files with
    | nil => rw [hy] at h2; cases h2
    | cons g gs =>
      rw [hy] at h2
      cases h2 with
      | cons hg h2 =>
        have hs : g.sets = [headerCut, updateSet].filterMap fun s => (ObjectSet.new s).toOption := by
          rw [hg.sets, setsOf_of _ _ (by simp [headerCut, updateSet, AccessorsCase.set])]
        refine ⟨y, (c79_update_defect env (order_set []) g (by rw [hg.sets]; exact sets_fresh _)
          (by unfold Spec.Stable; decide +kernel) ?_ ?_ ?_).2 _ _ n y _ h1 (by rw [hy]; simp)⟩
        · rw [hs]; unfold Spec.HasUpdates; decide +kernel
        · rw [hs]; unfold Spec.Stable; decide +kernel
        · rw [hs]; decide +kernel
  · have hl := loadable_of headerCut [] (fun s hs => hok s (by simp_all)) (by decide +kernel)
      (by decide +kernel) (by rw [occurs_bytes]; decide +kernel)
    obtain ⟨n₀, h0⟩ := c79_load_partial env (c65_decoding []) (order_set []) exStale
      (fun _ => by rw [exStale, List.length_replicate]) (by decide) _ _
      (.labelled exLabel_label (fs := [fileOf headerCut []]) (by simpa using hl) (by decide +kernel))
      (by
        intro x hx
        rw [List.map_singleton, List.mem_singleton] at hx
        subst hx
        left
        rw [setsOf_of _ _ (by simp [headerCut])]
        unfold Spec.HasUpdates
        decide +kernel)
    refine ⟨n₀, fun n hn => ?_⟩
    obtain ⟨y, h1, h2⟩ := h0 n hn
    cases hy : y.files with
    | nil => rw [hy] at h2; cases h2
    | cons g gs =>
      rw [hy] at h2
      cases h2 with
      | cons _ h2 =>
        cases h2
        exact ⟨y, g, h1, hy⟩

end ConstructCase

end Dlisio.Dlis
