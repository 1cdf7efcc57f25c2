import Verif.Dlis.LookupLog
import Verif.Dlis.ChannelFrame
import Verif.Dlis.FrameProps
import Verif.Dlis.Dimension
/-
What is said about channels, frames and samples: `Channel.frame` (python/dlisio/dlis/channel.py:106-136),
`Channel.fmtstr` (channel.py:197-199), `Channel.curves` (channel.py:261-266), `Frame.index`
(frame.py:160-168), `Frame.dtype` (frame.py:220-276), `validshape` and `sampling`
(utils/dimensional.py:54-69 and 138-142).  C95.

What is logged while attributes are accessed is in LookupLog.lean, and left out here.
-/
namespace Dlisio.Dlis

open _root_.Dlisio.Dlis.Spec
open _root_.Dlisio.Lis (literalChars)

/-! ## Model -/

/-- The end of `Channel.frame`, channel.py:125-136. -/
def explainOwner (pr : Printer) (ch : PyObj) : List PyObj → List Note × Option PyObj
  | [fr] => ([], some fr)
  | [] => ([(.info, pyFormat (text "{} does not belong to any Frame") [pr.object ch])], none)
  | frs => ([(.info, pyFormat (text "{} belongs to multiple frames. Candidates are {}")
      [pr.object ch, pr.objects frs])], none)

/-- `Channel.frame`, channel.py:105-136; `none` is an exception. -/
def Store.explainFrame (e : Env) (pr : Printer) (s : Store) (ch : BasicObject) :
    Store × List Note × Option (Option PyObj) :=
  match s.attribute e "frames" with
  | (s, none) => (s, [], none)
  | (s, some frs) =>
    match s.framesWith e ch.name frs [] with
    | (s, none) => (s, [], none)
    | (s, some frs) => (s, (explainOwner pr (e.promote ch) frs).1, some (explainOwner pr (e.promote ch) frs).2)

/-- `Channel.frame`, channel.py:107-110, of a channel that has no logical file. -/
def explainOrphan (pr : Printer) (ch : PyObj) : List Note × Option PyObj :=
  ([(.info, pyFormat (text "Unable to lookup frame, {} has no logical file") [pr.object ch])], none)

/-- The beginning and the end of `Channel.curves`, channel.py:261-266: what is said, and whether
`None` is returned; if not, the frame is looked up once more, and its curves are read. -/
def Store.explainCurves (e : Env) (pr : Printer) (s : Store) (ch : BasicObject) : List Note × Bool :=
  match s.explainFrame e pr ch with
  | (_, ns, none) => (ns, false)
  | (_, ns, some none) =>
    (ns ++ [(.info, pyFormat (text "There is no recorded curve-data for {}") [pr.object (e.promote ch)])], true)
  | (s, ns, some (some _)) => (ns ++ (s.explainFrame e pr ch).2.1, false)

/-- `Frame.index`, frame.py:149-168: what is said; the result is in `frameIndex`. -/
def Store.indexNotes (e : Env) (s : Store) (frame : BasicObject) : List Note :=
  match (s.frameChannels e frame).2 with
  | some [] => [(.info, text "Frame has no channels")]
  | _ => []

/-- `str` of a list of numbers. -/
def numbersText (ns : List Nat) : Text :=
  text "[" ++ (List.intersperse (text ", ") (ns.map Text.ofNat)).flatten ++ text "]"

/-- The text of the exception of `Channel.fmtstr`, channel.py:197-199; `none` if it is not raised. -/
def Chan.dimensionFault (pr : Printer) (o : PyObj) (ch : Chan) : Option Text :=
  if ch.dimension = [] then
    some (pyFormat (text "channel.dimension is invalid for {} (was: {})") [pr.object o, numbersText ch.dimension])
  else none

/-- What `self.dtype_fmt.format(…)` gives, frame.py:227: a label, `IndexError` or `ValueError`, or
another exception. -/
inductive Labelled where
  | label (t : Text)
  | refused
  | other
deriving DecidableEq

/-- Without the kind of the exception. -/
def Labelled.toOption : Labelled → Option Text
  | .label t => some t
  | _ => none

/-- The exceptions of `Frame.dtype`: `ValueError` for a channel that is not found, that of the type of a
channel, that of the format, that of `np.dtype`, and that of the text. -/
inductive DtypeErr where
  | missing (t : Text)
  | type
  | label
  | duplicates
  | unwritable
deriving DecidableEq

/-- What is logged if the label of `x` cannot be made while `ch` is looked at, frame.py:243-244 and
258-259. -/
def labelNotes (frame : Text) (ch x : Chan) : List Note :=
  [(.error, pyFormat (text "rich label for channel '{}' cannot be formatted in frame '{}'") [ch.name, frame]),
   (.debug, pyFormat (text "name = {}, origin = {}, copynumber = {}")
     [x.name, Text.ofNat x.origin, Text.ofNat x.copy])]

/-- The loop of `Frame.dtype`, frame.py:228-265.  `refs` are the texts of the references to the channels,
`none` if `str` raises. -/
def explainTypes (frame : Text) (refs : Nat → Option Text) (fmt : Text → Nat → Nat → Labelled) :
    List (Option Chan) → Nat → Seen → List Field → List Note × Except DtypeErr (List Field)
  | [], _, _, types => ([], .ok types)
  | none :: _, i, _, _ =>
    match refs (i - 1) with
    | none => ([], .error .unwritable)
    | some r => ([], .error (.missing (pyFormat (text "Channel {} not found") [r])))
  | some ch :: chs, i, seen, types =>
    match ch.dtype with
    | none => ([], .error .type)
    | some t =>
      match seen ch.name with
      | none =>
        explainTypes frame refs fmt chs (i + 1)
          (fun n => if n = ch.name then some (some (i, ch)) else seen n)
          (types ++ [⟨some ch.fingerprint, ch.name, t⟩])
      | some none =>
        match fmt ch.name ch.origin ch.copy with
        | .refused => (labelNotes frame ch ch, .error .label)
        | .other => ([], .error .label)
        | .label label =>
          explainTypes frame refs fmt chs (i + 1) seen (types ++ [⟨some ch.fingerprint, label, t⟩])
      | some (some (prevIndex, prev)) =>
        match fmt ch.name ch.origin ch.copy with
        | .refused => (labelNotes frame ch ch, .error .label)
        | .other => ([], .error .label)
        | .label label =>
          match fmt prev.name prev.origin prev.copy with
          | .refused => (labelNotes frame ch prev, .error .label)
          | .other => ([], .error .label)
          | .label plabel =>
            match prev.dtype with
            | none => ([], .error .type)
            | some pt =>
              explainTypes frame refs fmt chs (i + 1) (fun n => if n = ch.name then some none else seen n)
                ((types ++ [(⟨some ch.fingerprint, label, t⟩ : Field)]).set prevIndex
                  ⟨some prev.fingerprint, plabel, pt⟩)

/-- `Frame.dtype`, frame.py:220-276.  `exc` is the text of the exception of `np.dtype`. -/
def explainDtype (frame : Text) (refs : Nat → Option Text) (fmt : Text → Nat → Nat → Labelled)
    (exc : List Field → Text) (channels : List (Option Chan)) (strict : Bool) :
    List Note × Except DtypeErr (List Field) :=
  match explainTypes frame refs fmt channels 1 (fun _ => none) [framenoField] with
  | (ns, .error x) => (ns, .error x)
  | (ns, .ok types) =>
    match npDtype types with
    | some dt => (ns, .ok dt)
    | none =>
      let ns := ns ++ [(.error, pyFormat (text "duplicated mnemonics in frame '{}': {}") [frame, exc types])]
      if strict then (ns, .error .duplicates)
      else
        match npDtype (mkunique types) with
        | some dt => (ns, .ok dt)
        | none => (ns, .error .duplicates)

/-- The text of the `k`-th reference to a channel, `self.attic['CHANNELS'].value[k]`, frame.py:231;
`none` is an exception. -/
def channelRef (e : Env) (other : PyVal → Text) (frame : BasicObject) (k : Nat) : Option Text :=
  match attrAt (PyStr.str (text "CHANNELS")).toStd frame.attributes with
  | none => none
  | some a =>
    match a.value with
    | none => none
    | some (c, vs) => vs[k]?.bind fun v => v.reprText e other c

/-- `Frame.dtype`, frame.py:220-276, of an object; `none` is an exception when the channels are looked
up or when their attributes are accessed, here before any column is made. -/
def Store.explainColumns (e : Env) (other : PyVal → Text) (fmt : Text → Nat → Nat → Labelled)
    (exc : List Field → Text) (strict : Bool) (s : Store) (frame : BasicObject) :
    Option (List Note × Except DtypeErr (List Field)) :=
  match s.frameChannels e frame with
  | (_, none) => none
  | (s, some os) => (chansOf e s os).map fun cs =>
    explainDtype (e.dec frame.name.id).shown (channelRef e other frame) fmt exc cs strict

/-- `validshape`, utils/dimensional.py:14-69, with the text of the exception. -/
def explainShape {α : Type} (data : Option (List α)) (shape : List Nat) (samplecount : Option Nat) :
    Except Text (List Nat) :=
  let error (size : Nat) : Except Text (List Nat) :=
    .error (pyFormat (text "cannot reshape array of size {} into shape {}") [Text.ofNat size, numbersText shape])
  match data with
  | none => .ok [1]
  | some [] => .ok shape
  | some data =>
    if shape = [] then
      if samplecount = some data.length then .ok [1]
      else if data.length = 1 then .ok [1]
      else error data.length
    else if npMod data.length (npProd shape) = 0 then .ok shape
    else error data.length

/-- What `sampling` with `single=True` logs, utils/dimensional.py:138-141. -/
def singleNotes {α : Type} (itemsize : Nat) (data : Option (List α)) (shape : List Nat) : List Note :=
  match data with
  | none => []
  | some [] => []
  | some data =>
    match sampling itemsize (some data) shape with
    | none => []
    | some s =>
      if s.count ≠ 1 then
        [(.warning, pyFormat (text "found {} samples, should be 1") [Text.ofNat s.count])]
      else []

/-! ## Specification -/

/-- An object as it is named. -/
def Spec.named (pr : Printer) (o : PyObj) : Text :=
  (pr.capitalized o.type).1 ++ text "(" ++ pr.str o.name ++ text ")"

/-- Several things, one after the other. -/
def Spec.listed (ts : List Text) : Text := text "[" ++ (List.intersperse (text ", ") ts).flatten ++ text "]"

/-- What there is to say about the frames of a channel, and which of them are listed: one for each that
is different. -/
inductive Spec.OwnersText (e : Env) (pr : Printer) (ch : BasicObject) (owners : List BasicObject) :
    Text → Prop
  | nobody : owners = [] →
      OwnersText e pr ch owners (Spec.named pr (e.promote ch) ++ text " does not belong to any Frame")
  | several (frs : List BasicObject) : 2 ≤ frs.length → frs.Subperm owners →
      frs.Pairwise (fun a b => ¬ Spec.SameObject a b) →
      (∀ x ∈ owners, ∃ fr ∈ frs, fr = x ∨ Spec.SameObject fr x) →
      OwnersText e pr ch owners (Spec.named pr (e.promote ch) ++
        text " belongs to multiple frames. Candidates are " ++
        Spec.listed (frs.map fun fr => Spec.named pr (e.promote fr)))

/-- A channel of a frame that shares its name with another one. -/
def Spec.Shares (channels : List (Option Chan)) (ch : Chan) : Prop :=
  some ch ∈ channels ∧ 2 ≤ (channels.filterMap (·.map Chan.name)).count ch.name

/-- The first channel that is not there. -/
def Spec.FirstMissing (channels : List (Option Chan)) (k : Nat) : Prop :=
  channels[k]? = some none ∧ ∀ j < k, channels[j]? ≠ some none

/-- No two columns have a name or title in common. -/
def Spec.Distinct (dt : List Field) : Prop := dt.Pairwise fun f g => ∀ t ∈ f.keys, t ∉ g.keys

/-- The columns that are asked for. -/
def Spec.Columns (fmt : Text → Nat → Nat → Labelled) (channels : List (Option Chan)) (fs : List Field) : Prop :=
  ∃ chs : List Chan, channels = chs.map some ∧
    chs.map (Spec.column (fun n o c => (fmt n o c).toOption) chs) = fs.map some

/-- What is said about the columns of a frame, and what comes of it. -/
inductive Spec.DtypeSays (frame : Text) (refs : Nat → Option Text) (fmt : Text → Nat → Nat → Labelled)
    (exc : List Field → Text) (channels : List (Option Chan)) (strict : Bool) :
    List Note → Except DtypeErr (List Field) → Prop
  | missing (k : Nat) (r : Text) : Spec.FirstMissing channels k → refs k = some r →
      DtypeSays frame refs fmt exc channels strict []
        (.error (.missing (text "Channel " ++ r ++ text " not found")))
  | unwritable (k : Nat) : Spec.FirstMissing channels k → refs k = none →
      DtypeSays frame refs fmt exc channels strict [] (.error .unwritable)
  | type (ch : Chan) : some ch ∈ channels → ch.dtype = none →
      DtypeSays frame refs fmt exc channels strict [] (.error .type)
  | label (ch : Chan) : Spec.Shares channels ch → fmt ch.name ch.origin ch.copy = .refused →
      DtypeSays frame refs fmt exc channels strict
        [(.error, text "rich label for channel '" ++ ch.name ++ text "' cannot be formatted in frame '" ++
            frame ++ text "'"),
         (.debug, text "name = " ++ ch.name ++ text ", origin = " ++ Text.ofNat ch.origin ++
            text ", copynumber = " ++ Text.ofNat ch.copy)]
        (.error .label)
  | other (ch : Chan) : Spec.Shares channels ch → fmt ch.name ch.origin ch.copy = .other →
      DtypeSays frame refs fmt exc channels strict [] (.error .label)
  | columns (fs : List Field) : Spec.Columns fmt channels fs →
      Spec.Distinct ((framenoField :: fs).mapIdx fun k f => f.resolved k) →
      DtypeSays frame refs fmt exc channels strict []
        (.ok ((framenoField :: fs).mapIdx fun k f => f.resolved k))
  | duplicates (fs : List Field) (r : Except DtypeErr (List Field)) : Spec.Columns fmt channels fs →
      ¬ Spec.Distinct ((framenoField :: fs).mapIdx fun k f => f.resolved k) →
      (∀ dt, r = .ok dt → strict = false ∧ npDtype (mkunique (framenoField :: fs)) = some dt) →
      (∀ x, r = .error x → x = .duplicates) →
      DtypeSays frame refs fmt exc channels strict
        [(.error, text "duplicated mnemonics in frame '" ++ frame ++ text "': " ++ exc (framenoField :: fs))] r

/-! ## Lemmas -/

theorem object_named (pr : Printer) (o : PyObj) : pr.object o = Spec.named pr o := by
  unfold Printer.object Spec.named
  generalize (pr.capitalized o.type).1 = a
  generalize pr.str o.name = b
  formatted

theorem collect_distinct : ∀ (frs acc : List BasicObject), acc.Pairwise (fun a b => ¬ Spec.SameObject a b) →
    (collect frs acc).Pairwise (fun a b => ¬ Spec.SameObject a b) := by
  intro frs
  induction frs with
  | nil => intro acc h; exact h
  | cons fr frs ih =>
    intro acc h
    rw [collect]
    split
    · exact ih _ h
    · rename_i ha
      apply ih
      rw [List.pairwise_append]
      refine ⟨h, by simp, ?_⟩
      intro a haa b hb hs
      rw [List.mem_singleton.1 hb] at hs
      exact ha (List.any_eq_true.2 ⟨a, haa, (objectEq_iff _ _).2 hs⟩)

theorem collect_covers : ∀ (frs acc : List BasicObject), ∀ x ∈ frs,
    ∃ fr ∈ collect frs acc, fr = x ∨ Spec.SameObject fr x := by
  intro frs
  induction frs with
  | nil => intro _ x hx; cases hx
  | cons fr frs ih =>
    intro acc x hx
    rw [collect]
    rcases List.mem_cons.1 hx with rfl | hx
    · split
      · rename_i ha
        obtain ⟨y, hy, he⟩ := List.any_eq_true.1 ha
        obtain ⟨m, h1, -⟩ := collect_prefix frs acc
        exact ⟨y, by rw [h1]; simp [hy], .inr ((objectEq_iff _ _).1 he)⟩
      · obtain ⟨m, h1, -⟩ := collect_prefix frs (acc ++ [x])
        exact ⟨x, by rw [h1]; simp, .inl rfl⟩
    · exact ih _ x hx

theorem collect_sublist : ∀ (frs acc : List BasicObject), ∃ more, collect frs acc = acc ++ more ∧
    more.Sublist frs := by
  intro frs
  induction frs with
  | nil => intro acc; exact ⟨[], by simp [collect], .slnil⟩
  | cons fr frs ih =>
    intro acc
    rw [collect]
    split
    · obtain ⟨m, h1, h2⟩ := ih acc
      exact ⟨m, h1, h2.cons fr⟩
    · obtain ⟨m, h1, h2⟩ := ih (acc ++ [fr])
      exact ⟨fr :: m, by rw [h1]; simp, h2.cons_cons fr⟩

/-! ## Theorems -/

/-- C95.  The functions with texts do what those without them do. -/
theorem c95_frame_plain (e : Env) (pr : Printer) (s : Store) (ch : BasicObject) :
    ((s.explainFrame e pr ch).1, (s.explainFrame e pr ch).2.2) = s.channelFrame e ch := by
  unfold Store.explainFrame Store.channelFrame
  cases h : s.attribute e "frames" with
  | mk s1 r =>
    cases r with
    | none => rfl
    | some frs =>
      dsimp only
      cases h2 : s1.framesWith e ch.name frs [] with
      | mk s2 r2 =>
        cases r2 with
        | none => rfl
        | some frs2 =>
          match frs2 with
          | [] => rfl
          | [_] => rfl
          | _ :: _ :: _ => rfl

theorem explainTypes_plain (frame : Text) (refs : Nat → Option Text) (fmt : Text → Nat → Nat → Labelled) :
    ∀ (chs : List (Option Chan)) (i : Nat) (seen : Seen) (types : List Field),
    (explainTypes frame refs fmt chs i seen types).2.toOption =
      dtypeLoop (fun n o c => (fmt n o c).toOption) chs i seen types := by
  intro chs
  induction chs with
  | nil => intro i seen types; rfl
  | cons ch chs ih =>
    intro i seen types
    cases ch with
    | none =>
      rw [explainTypes, dtypeLoop]
      cases refs (i - 1) <;> rfl
    | some ch =>
      rw [explainTypes, dtypeLoop]
      cases ch.dtype with
      | none => rfl
      | some t =>
        dsimp only
        cases seen ch.name with
        | none => exact ih _ _ _
        | some x =>
          cases x with
          | none =>
            dsimp only
            cases fmt ch.name ch.origin ch.copy with
            | label l => exact ih _ _ _
            | refused => rfl
            | other => rfl
          | some x =>
            obtain ⟨j, prev⟩ := x
            dsimp only
            cases fmt ch.name ch.origin ch.copy with
            | refused => rfl
            | other => rfl
            | label l =>
              cases fmt prev.name prev.origin prev.copy with
              | refused => rfl
              | other => rfl
              | label pl =>
                cases prev.dtype with
                | none => rfl
                | some pt => exact ih _ _ _

/-- C95.  The same for the type of a frame. -/
theorem c95_dtype_plain (frame : Text) (refs : Nat → Option Text) (fmt : Text → Nat → Nat → Labelled)
    (exc : List Field → Text) (channels : List (Option Chan)) (strict : Bool) :
    (explainDtype frame refs fmt exc channels strict).2.toOption =
      frameDtype (fun n o c => (fmt n o c).toOption) channels strict := by
  unfold explainDtype frameDtype
  rw [← explainTypes_plain frame refs fmt]
  rcases explainTypes frame refs fmt channels 1 (fun _ => none) [framenoField] with ⟨ns, x | types⟩
  · rfl
  · simp only [Except.toOption]
    cases npDtype types with
    | some dt => rfl
    | none =>
      dsimp only
      cases strict with
      | true => rfl
      | false => 
        simp only [Bool.false_eq_true, if_false]
        cases npDtype (mkunique types) <;> rfl

/-- C95.  The same for the shape of values. -/
theorem c95_shape_plain {α : Type} (data : Option (List α)) (shape : List Nat) (samplecount : Option Nat) :
    (explainShape data shape samplecount).toOption = validshape data shape samplecount := by
  match data with
  | none => rfl
  | some [] => rfl
  | some (x :: xs) =>
    unfold explainShape validshape
    dsimp only
    split
    · split
      · rfl
      · split <;> rfl
    · split <;> rfl

/-- C95.  What is said about the frame of a channel.  Nothing is said if the frames that refer to it are
there and equal; else exactly one thing is said, and it is true.  Partial: all frames of the file refer
to channels that are there, once; else there is an exception. -/
theorem c95_frame_partial (e : Env) (pr : Printer) (hd : Spec.ReadsUtf8 e.dec) (p : List ObjectSet)
    (hu : Spec.Usable e p) (frs : List (BasicObject × List BasicObject))
    (hfr : Spec.FramesOf e p frs) (ch : BasicObject) (hist : List Spec.StoreOp) :
    ∃ more ns r, (Spec.after e p hist).explainFrame e pr ch =
        (Spec.after e p (hist ++ more), ns, some r) ∧
      ((ns = [] ∧ r ≠ none ∧ Spec.owners frs ch.name ≠ [] ∧
          (Spec.owners frs ch.name).Pairwise Spec.SameObject) ∨
        ∃ t, ns = [(.info, t)] ∧ r = none ∧ Spec.OwnersText e pr ch (Spec.owners frs ch.name) t) := by
  obtain ⟨ps, m1, hps, h1⟩ := attribute_frames hu hd hfr hist
  obtain ⟨m2, h2⟩ := framesWith_run hd hu.fresh ch.name ps
    (fun x hx => hfr.channels x (hps.mem_iff.1 hx)) [] (hist ++ m1)
  have hperm : (Spec.owners ps ch.name).Perm (Spec.owners frs ch.name) := (hps.filter _).map _
  obtain ⟨h3, h4⟩ := collect_spec (Spec.owners ps ch.name)
  have hdis := collect_distinct (Spec.owners ps ch.name) [] (by simp)
  have hcov := collect_covers (Spec.owners ps ch.name) []
  obtain ⟨m, hm1, hm2⟩ := collect_sublist (Spec.owners ps ch.name) []
  rw [List.nil_append] at hm1
  rw [List.map_nil] at h2
  refine ⟨m1 ++ m2, _, _, by
    unfold Store.explainFrame
    rw [h1]
    dsimp only
    rw [h2, List.append_assoc], ?_⟩
  rw [← hm1] at hm2
  match hc : collect (Spec.owners ps ch.name) [] with
  | [] =>
    rw [hc] at hcov
    refine .inr ⟨_, rfl, rfl, ?_⟩
    rw [object_named]
    generalize hg : Spec.named pr (e.promote ch) = a
    rw [show pyFormat (text "{} does not belong to any Frame") [a] = a ++ text " does not belong to any Frame" by
      formatted, ← hg]
    apply Spec.OwnersText.nobody
    apply List.eq_nil_iff_forall_not_mem.2
    intro x hx
    obtain ⟨_, h, _⟩ := hcov x (hperm.mem_iff.2 hx)
    cases h
  | [o] =>
    have := h4.1 ⟨o, hc⟩
    refine .inl ⟨rfl, by simp [explainOwner], ?_, ?_⟩
    · intro h; rw [h] at hperm; exact this.1 hperm.eq_nil
    · exact (List.Perm.pairwise_iff (fun h => sameObject_symm _ _ h) hperm).1 this.2
  | x :: y :: l =>
    refine .inr ⟨_, rfl, rfl, ?_⟩
    rw [show e.promote x :: List.map e.promote (y :: l) = (x :: y :: l).map e.promote from rfl, ← hc]
    rw [hc] at hcov
    have ht := Spec.OwnersText.several (e := e) (pr := pr) (ch := ch) (owners := Spec.owners frs ch.name)
      (x :: y :: l) (by simp) (by rw [← hc]; exact hm2.subperm.trans hperm.subperm)
      (by rw [hc] at hdis; exact hdis) (fun z hz => hcov z (hperm.mem_iff.2 hz))
    rw [← hc] at ht
    unfold Printer.objects
    rw [object_named]
    have hl : ((collect (Spec.owners ps ch.name) []).map e.promote).map pr.object =
        (collect (Spec.owners ps ch.name) []).map fun fr => Spec.named pr (e.promote fr) := by
      rw [List.map_map]; exact List.map_congr_left fun o _ => object_named pr _
    rw [hl]
    unfold Spec.listed at ht
    generalize text "[" ++ (List.intersperse (text ", ") _).flatten ++ text "]" = b at ht ⊢
    generalize Spec.named pr (e.promote ch) = a at ht ⊢
    have h : pyFormat (text "{} belongs to multiple frames. Candidates are {}") [a, b] =
      a ++ text " belongs to multiple frames. Candidates are " ++ (b ++ []) := by formatted
    rw [h, List.append_nil]
    exact ht

/-- C95.  That a channel does not belong to a logical file is said if it is so. -/
theorem c95_orphan (pr : Printer) (ch : PyObj) : explainOrphan pr ch =
    ([(.info, text "Unable to lookup frame, " ++ Spec.named pr ch ++ text " has no logical file")], none) := by
  unfold explainOrphan
  rw [object_named]
  generalize Spec.named pr ch = a
  rw [show pyFormat (text "Unable to lookup frame, {} has no logical file") [a] =
    text "Unable to lookup frame, " ++ a ++ text " has no logical file" by formatted]

/-- C95.  What is said when the curve of a channel is asked for.  If there is no frame, that is said
first; then, that there is no data, and nothing is returned.  That is true of a channel without frames.
Partial: it is said of a channel in several frames too, see `c95_curves_defect`; the frames are as in
`c95_frame_partial`. -/
theorem c95_curves_partial (e : Env) (pr : Printer) (hd : Spec.ReadsUtf8 e.dec) (p : List ObjectSet)
    (hu : Spec.Usable e p) (frs : List (BasicObject × List BasicObject))
    (hfr : Spec.FramesOf e p frs) (ch : BasicObject) (hist : List Spec.StoreOp) :
    ((Spec.after e p hist).explainCurves e pr ch = ([], false) ∧ Spec.owners frs ch.name ≠ [] ∧
        (Spec.owners frs ch.name).Pairwise Spec.SameObject) ∨
      ∃ t, Spec.OwnersText e pr ch (Spec.owners frs ch.name) t ∧
        (Spec.after e p hist).explainCurves e pr ch = ([(.info, t),
          (.info, text "There is no recorded curve-data for " ++ Spec.named pr (e.promote ch))], true) := by
  have hrun : ∀ a : Text, pyFormat (text "There is no recorded curve-data for {}") [a] =
      text "There is no recorded curve-data for " ++ a := by
    intro a
    have h : pyFormat (text "There is no recorded curve-data for {}") [a] =
      text "There is no recorded curve-data for " ++ (a ++ []) := by formatted
    rw [h, List.append_nil]
  obtain ⟨more, ns, r, h1, h2⟩ := c95_frame_partial e pr hd p hu frs hfr ch hist
  unfold Store.explainCurves
  rw [h1, hrun, object_named]
  rcases h2 with ⟨rfl, hr, h3⟩ | ⟨t, rfl, rfl, h3⟩
  · obtain ⟨o, rfl⟩ := Option.ne_none_iff_exists'.1 hr
    obtain ⟨more2, ns2, r2, h4, h5⟩ := c95_frame_partial e pr hd p hu frs hfr ch (hist ++ more)
    refine .inl ⟨?_, h3⟩
    dsimp only
    rw [h4]
    rcases h5 with ⟨rfl, _⟩ | ⟨t, -, rfl, h6⟩
    · rfl
    · exfalso
      cases h6 with
      | nobody h => exact h3.1 h
      | several l hl hm hp _ =>
        match l, hl with
        | x :: y :: l, _ =>
          have hn : ¬ Spec.SameObject x y := (List.pairwise_cons.1 hp).1 y (by simp)
          obtain ⟨l2, h7, h8⟩ := hm
          have h9 := h3.2.sublist h8
          have h10 := (List.Perm.pairwise_iff (fun h => sameObject_symm _ _ h) h7).1 h9
          exact hn ((List.pairwise_cons.1 h10).1 y (by simp))
  · exact .inr ⟨t, h3, rfl⟩

/-- C95.  That a frame has no channels is said exactly if it has none. -/
theorem c95_index_partial (e : Env) (hd : Spec.ReadsUtf8 e.dec) (p : List ObjectSet) (hf : Spec.Fresh p)
    (fr : BasicObject) (chans : List BasicObject) (h : Spec.ChannelsOf e p fr chans) (hist : List Spec.StoreOp) :
    (chans = [] ∧ (Spec.after e p hist).indexNotes e fr = [(.info, text "Frame has no channels")]) ∨
    (chans ≠ [] ∧ (Spec.after e p hist).indexNotes e fr = []) := by
  obtain ⟨more, h1⟩ := channelsOf_run hd hf h hist
  unfold Store.indexNotes
  rw [h1]
  cases chans with
  | nil => exact .inl ⟨rfl, rfl⟩
  | cons c cs => exact .inr ⟨by simp, rfl⟩

/-- C95.  That the dimension of a channel is invalid is said exactly if it has none. -/
theorem c95_dimension (pr : Printer) (o : PyObj) (ch : Chan) (t : Text) :
    ch.dimensionFault pr o = some t ↔ ch.dimension = [] ∧
      t = text "channel.dimension is invalid for " ++ Spec.named pr o ++ text " (was: [])" := by
  unfold Chan.dimensionFault
  by_cases h : ch.dimension = []
  · rw [if_pos h, h, object_named]
    generalize Spec.named pr o = a
    have hn : numbersText [] = text "[]" := by decide +kernel
    rw [hn]
    have hf : pyFormat (text "channel.dimension is invalid for {} (was: {})") [a, text "[]"] =
      text "channel.dimension is invalid for " ++ a ++ text " (was: [])" := by formatted
    rw [hf]
    simp [eq_comm]
  · rw [if_neg h]; simp [h]

/-- What is known of the channels that have been seen. -/
def SeenAmong (done : List Chan) (seen : Seen) : Prop :=
  ∀ n x, seen n = some x → n ∈ done.map Chan.name ∧ ∀ i c, x = some (i, c) → c ∈ done ∧ c.name = n

theorem shares_done {done : List Chan} {ch c : Chan} {rest : List (Option Chan)} (hn : ch.name ∈ done.map Chan.name)
    (hc : c = ch ∨ (c ∈ done ∧ c.name = ch.name)) : Spec.Shares (done.map some ++ some ch :: rest) c := by
  have hname : c.name = ch.name := by rcases hc with rfl | h; exacts [rfl, h.2]
  constructor
  · rcases hc with rfl | h
    · simp
    · simp [h.1]
  · have h1 : 1 ≤ (done.map Chan.name).count ch.name := List.count_pos_iff.2 hn
    have h2 : (done.map some ++ some ch :: rest).filterMap (·.map Chan.name) =
        done.map Chan.name ++ ch.name :: rest.filterMap (·.map Chan.name) := by
      rw [List.filterMap_append, List.filterMap_cons]
      simp [List.filterMap_map, List.filterMap_eq_map']
    rw [h2, hname, List.count_append, List.count_cons_self]
    omega

theorem labelNotes_eq (frame : Text) (ch x : Chan) (h : ch.name = x.name) : labelNotes frame ch x =
    [(.error, text "rich label for channel '" ++ x.name ++ text "' cannot be formatted in frame '" ++
        frame ++ text "'"),
     (.debug, text "name = " ++ x.name ++ text ", origin = " ++ Text.ofNat x.origin ++
        text ", copynumber = " ++ Text.ofNat x.copy)] := by
  unfold labelNotes
  rw [h]
  generalize x.name = a
  generalize Text.ofNat x.origin = b
  generalize Text.ofNat x.copy = c
  have h1 : pyFormat (text "rich label for channel '{}' cannot be formatted in frame '{}'") [a, frame] =
      text "rich label for channel '" ++ a ++ text "' cannot be formatted in frame '" ++ frame ++ text "'" := by
    formatted
  have h2 : pyFormat (text "name = {}, origin = {}, copynumber = {}") [a, b, c] =
      text "name = " ++ a ++ text ", origin = " ++ b ++ text ", copynumber = " ++ (c ++ []) := by
    formatted
  rw [h1, h2, List.append_nil]

theorem explainTypes_spec (frame : Text) (refs : Nat → Option Text) (fmt : Text → Nat → Nat → Labelled)
    (exc : List Field → Text) (strict : Bool) :
    ∀ (rest : List (Option Chan)) (done : List Chan) (seen : Seen) (types : List Field), SeenAmong done seen →
    ∀ ns r, explainTypes frame refs fmt rest (done.length + 1) seen types = (ns, r) →
      (∀ x, r = .error x →
        Spec.DtypeSays frame refs fmt exc (done.map some ++ rest) strict ns (.error x)) ∧
      (∀ dt, r = .ok dt → ns = []) := by
  intro rest
  induction rest with
  | nil =>
    intro done seen types _ ns r h
    cases h
    exact ⟨(by intro x hx; cases hx), fun _ _ => rfl⟩
  | cons o rest ih =>
    intro done seen types hs ns r h
    cases o with
    | none =>
      have hfirst : Spec.FirstMissing (done.map some ++ none :: rest) done.length := by
        constructor
        · simp
        · intro j hj
          rw [List.getElem?_append_left (by simpa using hj)]
          simp [hj]
      rw [explainTypes, Nat.add_sub_cancel] at h
      cases hr : refs done.length with
      | none =>
        rw [hr] at h
        cases h
        refine ⟨?_, by intro _ hx; cases hx⟩
        intro x hx; cases hx
        exact .unwritable _ hfirst hr
      | some t =>
        rw [hr] at h
        cases h
        refine ⟨?_, by intro _ hx; cases hx⟩
        intro x hx; cases hx
        rw [show pyFormat (text "Channel {} not found") [t] = text "Channel " ++ t ++ text " not found" by formatted]
        exact .missing _ _ hfirst hr
    | some ch =>
      have happ : done.map some ++ some ch :: rest = (done ++ [ch]).map some ++ rest := by simp
      have hlen : done.length + 1 + 1 = (done ++ [ch]).length + 1 := by simp
      have hgrow : ∀ seen', (∀ n x, seen' n = some x → (n = ch.name ∧ ∀ i c, x = some (i, c) → c = ch) ∨
          seen n = some x) → SeenAmong (done ++ [ch]) seen' := by
        intro seen' hs' n x hx
        rcases hs' n x hx with ⟨rfl, h2⟩ | h2
        · refine ⟨by simp, fun i c hc => ?_⟩
          rw [h2 i c hc]; simp
        · obtain ⟨h3, h4⟩ := hs n x h2
          refine ⟨by simp at h3 ⊢; exact .inl h3, fun i c hc => ?_⟩
          have := h4 i c hc
          exact ⟨by simp [this.1], this.2⟩
      rw [explainTypes] at h
      cases hd : ch.dtype with
      | none =>
        rw [hd] at h; cases h
        refine ⟨?_, by intro _ hx; cases hx⟩
        intro x hx; cases hx
        exact .type ch (by simp) hd
      | some t =>
        rw [hd] at h
        dsimp only at h
        cases hseen : seen ch.name with
        | none =>
          rw [hseen] at h
          dsimp only at h
          rw [hlen] at h
          rw [happ]
          refine ih _ _ _ (hgrow _ ?_) ns r h
          intro n x hx
          by_cases hn : n = ch.name
          · rw [if_pos hn] at hx; cases hx
            exact .inl ⟨hn, by intro i c hc; cases hc; rfl⟩
          · rw [if_neg hn] at hx; exact .inr hx
        | some y =>
          obtain ⟨hname, hprev⟩ := hs _ _ hseen
          rw [hseen] at h
          have hself := shares_done (rest := rest) hname (.inl (rfl : ch = ch))
          cases y with
          | none =>
            dsimp only at h
            cases hf : fmt ch.name ch.origin ch.copy with
            | refused =>
              rw [hf] at h; cases h
              refine ⟨?_, by intro _ hx; cases hx⟩
              intro x hx; cases hx
              rw [labelNotes_eq _ _ _ rfl]
              exact .label ch hself hf
            | other =>
              rw [hf] at h; cases h
              refine ⟨?_, by intro _ hx; cases hx⟩
              intro x hx; cases hx
              exact .other ch hself hf
            | label l =>
              rw [hf] at h
              dsimp only at h
              rw [hlen] at h
              rw [happ]
              exact ih _ _ _ (hgrow _ fun n x hx => .inr hx) ns r h
          | some y =>
            obtain ⟨j, prev⟩ := y
            obtain ⟨hmem, hpn⟩ := hprev j prev rfl
            have hother := shares_done (rest := rest) hname (.inr ⟨hmem, hpn⟩)
            dsimp only at h
            cases hf : fmt ch.name ch.origin ch.copy with
            | refused =>
              rw [hf] at h; cases h
              refine ⟨?_, by intro _ hx; cases hx⟩
              intro x hx; cases hx
              rw [labelNotes_eq _ _ _ rfl]
              exact .label ch hself hf
            | other =>
              rw [hf] at h; cases h
              refine ⟨?_, by intro _ hx; cases hx⟩
              intro x hx; cases hx
              exact .other ch hself hf
            | label l =>
              rw [hf] at h
              dsimp only at h
              cases hf2 : fmt prev.name prev.origin prev.copy with
              | refused =>
                rw [hf2] at h; cases h
                refine ⟨?_, by intro _ hx; cases hx⟩
                intro x hx; cases hx
                rw [labelNotes_eq _ _ _ hpn.symm]
                exact .label prev hother hf2
              | other =>
                rw [hf2] at h; cases h
                refine ⟨?_, by intro _ hx; cases hx⟩
                intro x hx; cases hx
                exact .other prev hother hf2
              | label l2 =>
                rw [hf2] at h
                dsimp only at h
                cases hd2 : prev.dtype with
                | none =>
                  rw [hd2] at h; cases h
                  refine ⟨?_, by intro _ hx; cases hx⟩
                  intro x hx; cases hx
                  exact .type prev (by simp [hmem]) hd2
                | some pt =>
                  rw [hd2] at h
                  dsimp only at h
                  rw [hlen] at h
                  rw [happ]
                  refine ih _ _ _ (hgrow _ ?_) ns r h
                  intro n x hx
                  by_cases hn : n = ch.name
                  · rw [if_pos hn] at hx; cases hx
                    exact .inl ⟨hn, by intro i c hc; cases hc⟩
                  · rw [if_neg hn] at hx; exact .inr hx

/-- C95.  What is said about the columns of a frame: the first channel that is not there; a channel that
shares its name, and for which there is no label; that columns share a name or title.  In these cases
it is said, once, and it is true of the channels that are named. -/
theorem c95_dtype (frame : Text) (refs : Nat → Option Text) (fmt : Text → Nat → Nat → Labelled)
    (exc : List Field → Text) (channels : List (Option Chan)) (strict : Bool) :
    Spec.DtypeSays frame refs fmt exc channels strict
      (explainDtype frame refs fmt exc channels strict).1 (explainDtype frame refs fmt exc channels strict).2 := by
  have hplain := explainTypes_plain frame refs fmt channels 1 (fun _ => none) [framenoField]
  unfold explainDtype
  rcases h : explainTypes frame refs fmt channels 1 (fun _ => none) [framenoField] with ⟨ns, r⟩
  obtain ⟨h1, h2⟩ := explainTypes_spec frame refs fmt exc strict channels [] (fun _ => none) [framenoField]
    (by intro n x hx; cases hx) ns r h
  rw [h] at hplain
  cases r with
  | error x => exact h1 x rfl
  | ok types =>
    obtain rfl := h2 _ rfl
    dsimp only at hplain ⊢
    obtain ⟨chs, fs, h3, h4, rfl⟩ := (c38_labels _ _ _).1 hplain.symm
    have hcol : Spec.Columns fmt channels fs := ⟨chs, h3, h4⟩
    cases hnp : npDtype (framenoField :: fs) with
    | some dt =>
      obtain ⟨rfl, h5⟩ := (npDtype_spec _ _).1 hnp
      exact .columns fs hcol h5
    | none =>
      have hnd : ¬ Spec.Distinct ((framenoField :: fs).mapIdx fun k f => f.resolved k) := by
        intro hd
        have := (npDtype_spec (framenoField :: fs) _).2 ⟨rfl, hd⟩
        rw [hnp] at this; cases this
      have htext : pyFormat (text "duplicated mnemonics in frame '{}': {}") [frame, exc (framenoField :: fs)] =
          text "duplicated mnemonics in frame '" ++ frame ++ text "': " ++ exc (framenoField :: fs) := by
        generalize exc (framenoField :: fs) = a
        have h : pyFormat (text "duplicated mnemonics in frame '{}': {}") [frame, a] =
          text "duplicated mnemonics in frame '" ++ frame ++ text "': " ++ (a ++ []) := by formatted
        rw [h, List.append_nil]
      dsimp only
      rw [List.nil_append, htext]
      cases strict with
      | true => exact .duplicates fs _ hcol hnd (by intro dt hx; cases hx) (by intro x hx; cases hx; rfl)
      | false =>
        simp only [Bool.false_eq_true, if_false]
        cases hm : npDtype (mkunique (framenoField :: fs)) with
        | some dt =>
          exact .duplicates fs _ hcol hnd (by intro d hx; cases hx; exact ⟨rfl, hm⟩) (by intro x hx; cases hx)
        | none => exact .duplicates fs _ hcol hnd (by intro dt hx; cases hx) (by intro x hx; cases hx; rfl)

theorem explainShape_error {α : Type} (data : Option (List α)) (shape : List Nat) (samplecount : Option Nat) (t : Text) :
    explainShape data shape samplecount = .error t ↔ validshape data shape samplecount = none ∧
      t = text "cannot reshape array of size " ++ Text.ofNat (data.elim 0 List.length) ++
        text " into shape " ++ numbersText shape := by
  have hf : ∀ a b : Text, pyFormat (text "cannot reshape array of size {} into shape {}") [a, b] =
      text "cannot reshape array of size " ++ a ++ text " into shape " ++ b := by
    intro a b
    have h : pyFormat (text "cannot reshape array of size {} into shape {}") [a, b] =
      text "cannot reshape array of size " ++ a ++ text " into shape " ++ (b ++ []) := by formatted
    rw [h, List.append_nil]
  match data with
  | none => simp [explainShape, validshape]
  | some [] => simp [explainShape, validshape]
  | some (x :: xs) =>
    unfold explainShape validshape
    dsimp only
    rw [hf]
    generalize numbersText shape = b
    have hl : (some (x :: xs)).elim 0 List.length = (x :: xs).length := rfl
    rw [hl]
    split
    · split
      · simp
      · split
        · simp
        · simp [eq_comm]
    · split
      · simp
      · simp [eq_comm]

/-- C95.  If it is said that values cannot be put into a shape, the number of values is right, and they
do not make whole samples; without a dimension, there is more than one value, and not one for each
sample.  (No list has 2^63 elements.) -/
theorem c95_shape {α : Type} (data : List α) (dimension : List Nat) (samplecount : Option Nat)
    (hlen : data.length < 2 ^ 63) (t : Text) (h : explainShape (some data) dimension samplecount = .error t) :
    t = text "cannot reshape array of size " ++ Text.ofNat data.length ++ text " into shape " ++
        Spec.listed (dimension.map Text.ofNat) ∧
      data ≠ [] ∧ ((dimension = [] ∧ data.length ≠ 1 ∧ samplecount ≠ some data.length) ∨
        (dimension ≠ [] ∧ ¬ dimension.prod ∣ data.length)) := by
  obtain ⟨h1, h2⟩ := (explainShape_error _ _ _ _).1 h
  refine ⟨h2, ?_⟩
  match data with
  | [] => cases h1
  | x :: xs =>
    refine ⟨by simp, ?_⟩
    unfold validshape at h1
    dsimp only at h1
    generalize hd : x :: xs = data at *
    have hpos : 0 < data.length := by rw [← hd]; simp
    split at h1
    · rename_i hn
      split at h1
      · cases h1
      · split at h1
        · cases h1
        · rename_i h3 h4
          exact .inl ⟨hn, h4, h3⟩
    · rename_i hn
      refine .inr ⟨hn, fun hdvd => ?_⟩
      split at h1
      · cases h1
      · rename_i h3
        have hle := Nat.le_of_dvd hpos hdvd
        have hne : dimension.prod ≠ 0 := by
          intro h0; rw [h0] at hdvd; exact absurd (Nat.zero_dvd.1 hdvd) (by omega)
        rw [npProd_eq (by omega), npMod_eq hne, Nat.mod_eq_zero_of_dvd hdvd] at h3
        exact h3 rfl

/-- C95.  It is said whenever it is so, for dimensions without zeros.  Partial: with a zero nothing is
said (`c39_zero_dimension_defect`). -/
theorem c95_shape_said_partial {α : Type} (data : List α) (dimension : List Nat) (samplecount : Option Nat)
    (hd : data ≠ []) (hz : 0 ∉ dimension) (hp : dimension.prod < 2 ^ 63)
    (h : (dimension = [] ∧ data.length ≠ 1 ∧ samplecount ≠ some data.length) ∨
        (dimension ≠ [] ∧ ¬ dimension.prod ∣ data.length)) :
    ∃ t, explainShape (some data) dimension samplecount = .error t := by
  refine ⟨_, (explainShape_error _ _ _ _).2 ⟨?_, rfl⟩⟩
  have hne : dimension.prod ≠ 0 := fun h0 => hz (List.prod_eq_zero_iff.1 h0)
  match data with
  | [] => exact absurd rfl hd
  | x :: xs =>
    unfold validshape
    dsimp only
    generalize x :: xs = data at *
    rcases h with ⟨h1, h2, h3⟩ | ⟨h1, h2⟩
    · rw [if_pos h1, if_neg h3, if_neg h2]
    · rw [if_neg h1, if_neg]
      rw [npProd_eq hp, npMod_eq hne]
      intro h3
      exact h2 (Nat.dvd_of_mod_eq_zero (by omega))

/-- C95.  How many samples there are is said exactly if there are more than one, and it is so many.
Partial: for dimensions without zeros. -/
theorem c95_samples_partial {α : Type} (itemsize : Nat) (hi : 0 < itemsize) (data : List α)
    (hd : data ≠ []) (dimension : List Nat) (hz : 0 ∉ dimension) (samplecount : Option Nat) (shape : List Nat)
    (hv : validshape (some data) dimension samplecount = some shape)
    (hs : sampling itemsize (some data) shape ≠ none) :
    (data.length = dimension.prod ∧ singleNotes itemsize (some data) shape = []) ∨
    ∃ n, 1 < n ∧ data.length = n * dimension.prod ∧ singleNotes itemsize (some data) shape =
      [(.warning, text "found " ++ Text.ofNat n ++ text " samples, should be 1")] := by
  obtain ⟨s, hs⟩ := Option.ne_none_iff_exists'.1 hs
  have hst : structured itemsize (some data) dimension samplecount = some s := by
    unfold structured; rw [hv]; exact hs
  obtain ⟨-, h2, h3, h4⟩ := c39_preserves_partial itemsize hi data hd dimension hz samplecount s hst
  have hsp : s.shape.prod = dimension.prod := by
    rcases h4 with h4 | ⟨h4, h5 | h5⟩
    · rw [h4.1]
    · rw [h4, h5]; rfl
    · rw [h4, h5.1]
  have hf : ∀ a : Text, pyFormat (text "found {} samples, should be 1") [a] =
      text "found " ++ a ++ text " samples, should be 1" := by intro a; formatted
  have hnotes : singleNotes itemsize (some data) shape = if s.count ≠ 1 then
      [(.warning, text "found " ++ Text.ofNat s.count ++ text " samples, should be 1")] else [] := by
    obtain ⟨x, xs, rfl⟩ := List.exists_cons_of_ne_nil hd
    unfold singleNotes
    dsimp only
    rw [hs]
    dsimp only
    rw [hf]
  rw [hnotes]
  by_cases h1 : s.count = 1
  · left
    rw [if_neg (by simp [h1])]
    rw [h1, hsp] at h2
    exact ⟨by omega, rfl⟩
  · right
    rw [if_pos h1]
    exact ⟨s.count, by omega, by rw [← hsp, h2], rfl⟩

/-! ## Cases -/

namespace FrameLogCase

open StoreCase EndToEndCase ChannelCase

/-- How objects are shown. -/
def printer : Printer := ⟨fun _ => text "?", capitalAscii, fun _ => .text [], fun _ => true⟩

/-- What is said about the frame of a channel. -/
def frameSays (f : Stored) (name : Bytes) : Option (List Note) :=
  withObject f "CHANNEL" name fun e g o => ((Spec.after e g.sets []).explainFrame e printer o).2.1

/-- What is said about the curve of a channel, and whether there is none. -/
def curveSays (f : Stored) (name : Bytes) : Option (List Note × Bool) :=
  withObject f "CHANNEL" name fun e g o => (Spec.after e g.sets []).explainCurves e printer o


/-- C95: what is said about a channel in two frames, in none, and in one. -/
example : frameSays (file [(A, [D]), (B, [D, I])] []) D =
      some [(.info, text "Channel(D) belongs to multiple frames. Candidates are [Frame(A), Frame(B)]")] ∧
    frameSays (file [(A, [D])] []) I = some [(.info, text "Channel(I) does not belong to any Frame")] ∧
    frameSays separate I = some [] := by
  decide +kernel

/-- Case: the conditions of `c95_frame_partial`, `c95_curves_partial` and `c95_index_partial`. -/
example : Spec.FramesOf env (setsOf separate.recs) [(frA, [chanD]), (frB, [chanI])] ∧
    Spec.Usable env (setsOf separate.recs) ∧
    Spec.ChannelsOf env (setsOf separate.recs) frA [chanD] :=
  ⟨case_frames.1, case_frames.2.1, case_frames.1.channels (frA, [chanD]) (by simp)⟩

/-- C95 is violated: the channel "D" is in two frames.  There is a record with its values, but it is
said that there is no data. -/
theorem c95_curves_defect :
    let f := file [(A, [D]), (B, [D, I])] [(A, [1, 0x3f, 0x80, 0, 1])]
    curveSays f D = some ([(.info, text "Channel(D) belongs to multiple frames. Candidates are [Frame(A), Frame(B)]"),
      (.info, text "There is no recorded curve-data for Channel(D)")], true) ∧
    withObject f "FRAME" A (fun e g o => (indices (pyFdata e.dec g.fdata) (((e.promote o).fingerprint e).getD
      (.str []))).length) = some 1 := by
  decide +kernel

/-- C95: what is said about a frame without channels. -/
example : withObject (file [(A, [])] []) "FRAME" A (fun e g o => (Spec.after e g.sets []).indexNotes e o) =
      some [(.info, text "Frame has no channels")] ∧
    withObject (file [(A, [D])] []) "FRAME" A (fun e g o => (Spec.after e g.sets []).indexNotes e o) = some [] := by
  decide +kernel

/-- C95: what is said about a channel without a dimension. -/
example : (⟨text "D", 1, 0, [], some 2, []⟩ : Chan).dimensionFault printer (env.promote chanD) =
    some (text "channel.dimension is invalid for Channel(D) (was: [])") := by
  decide +kernel

/-- The default format. -/
def plainFmt (name : Text) (origin copy : Nat) : Labelled := .label ((defaultFmt name origin copy).getD [])

/-- What is said about columns. -/
def columnsSay (fmt : Text → Nat → Nat → Labelled) (chs : List (Option Chan)) (strict : Bool) :
    List Note × Except DtypeErr (List Text) :=
  let r := explainDtype (text "F") (fun _ => some (text "X")) fmt (fun _ => text "?") chs strict
  (r.1, r.2.map fun l => l.map Field.name)

/-- C95: channels with the same name, a label that cannot be made, a channel that is not there, the same
channel twice. -/
example : columnsSay plainFmt [some (exChan "A" "1" 0), some (exChan "A" "2" 1)] true =
      ([], .ok [text "FRAMENO", text "A.0.0", text "A.0.1"]) ∧
    columnsSay (fun _ _ _ => .refused) [some (exChan "B" "0" 0), some (exChan "A" "1" 0), some (exChan "A" "2" 1)] true =
      ([(.error, text "rich label for channel 'A' cannot be formatted in frame 'F'"),
        (.debug, text "name = A, origin = 0, copynumber = 1")], .error .label) ∧
    columnsSay (fun _ _ c => if c = 1 then .label (text "L") else .refused)
        [some (exChan "A" "1" 0), some (exChan "A" "2" 1)] true =
      ([(.error, text "rich label for channel 'A' cannot be formatted in frame 'F'"),
        (.debug, text "name = A, origin = 0, copynumber = 0")], .error .label) ∧
    columnsSay plainFmt [some (exChan "A" "1" 0), none] true = ([], .error (.missing (text "Channel X not found"))) ∧
    columnsSay plainFmt [some (exChan "A" "1" 0), some (exChan "A" "1" 0)] false =
      ([(.error, text "duplicated mnemonics in frame 'F': ?")], .ok [text "FRAMENO", text "A.0.0(0)", text "A.0.0(1)"]) := by
  refine ⟨?_, ?_, ?_, ?_, ?_⟩ <;> decide +kernel

/-- C95 is violated: it is said that mnemonics are duplicated, of a frame with one channel. -/
theorem c95_frameno_defect (frame : Text) (refs : Nat → Option Text) (fmt : Text → Nat → Nat → Labelled)
    (exc : List Field → Text) : ∃ ch t, (.error, text "duplicated mnemonics in frame '" ++ frame ++ t) ∈
      (explainDtype frame refs fmt exc [some ch] true).1 := by
  refine ⟨exChan "FRAMENO" "1" 0, text "': " ++ exc [framenoField, ⟨some (text "1"), text "FRAMENO", ⟨.f4, []⟩⟩], ?_⟩
  have hl : explainTypes frame refs fmt [some (exChan "FRAMENO" "1" 0)] 1 (fun _ => none) [framenoField] =
    ([], .ok [framenoField, ⟨some (text "1"), text "FRAMENO", ⟨.f4, []⟩⟩]) := rfl
  have hn : npDtype [framenoField, ⟨some (text "1"), text "FRAMENO", ⟨.f4, []⟩⟩] = none := by decide +kernel
  unfold explainDtype
  rw [hl]
  dsimp only
  rw [hn]
  generalize exc _ = a
  have h : pyFormat (text "duplicated mnemonics in frame '{}': {}") [frame, a] =
    text "duplicated mnemonics in frame '" ++ (frame ++ (text "': " ++ (a ++ []))) := by formatted
  rw [List.append_nil] at h
  simp [h]

/-- Channels: "D" twice, with different dimensions. -/
def twice : List ObjectSet :=
  setsOf [(true, [exHeader]), (true, [exSeg 0x80 3 (channelSet ++ [0x70] ++ nameOf D ++ [0x21, 2, 0x21, 2])]),
    (true, [exSeg 0x80 4 (frames [(A, [D])])])]

/-- C95 is violated: there are two channels "D" that a frame may refer to.  It is said that there is
none. -/
theorem c95_missing_defect :
    (Spec.after env twice []).explainColumns env LookupLogCase.other plainFmt (fun _ => []) true frA =
      some ([], .error (.missing (text "Channel dlisio.core.obname(id='D', origin=1, copynum=0) not found"))) ∧
    ((Spec.objectsOf env twice (.str (text "CHANNEL"))).filter fun o => decide (o.attic.name = ⟨1, 0, D⟩)).length = 2 := by
  decide +kernel

/-- C95: shapes and samples. -/
example : explainShape (some [1, 2, 3]) [2, 1] none = .error (text "cannot reshape array of size 3 into shape [2, 1]") ∧
    explainShape (some [1, 2, 3]) [] (some 2) = .error (text "cannot reshape array of size 3 into shape []") ∧
    explainShape (some [1, 2, 3, 4]) [2] none = .ok [2] ∧
    singleNotes 8 (some [1, 2, 3, 4]) [2] = [(.warning, text "found 2 samples, should be 1")] ∧
    singleNotes 8 (some [1, 2]) [2] = [] := by
  refine ⟨?_, ?_, ?_, ?_, ?_⟩ <;> decide +kernel

/-- Case: the conditions of `c95_samples_partial` and `c95_shape_said_partial`. -/
example : validshape (some [1, 2, 3, 4]) [2] none = some [2] ∧ sampling 8 (some [1, 2, 3, 4]) [2] ≠ none ∧
    0 ∉ [2] ∧ ¬ [2, 1].prod ∣ [1, 2, 3].length := by
  decide +kernel

end FrameLogCase

end Dlisio.Dlis
