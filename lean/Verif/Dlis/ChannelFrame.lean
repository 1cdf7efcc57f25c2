/-
The frame and the curves of a single channel, the index of a frame, and the parts of the format
of a frame (python/dlisio/dlis/{channel,frame}.py).  C66.
-/
import Verif.Dlis.EndToEnd

namespace Dlisio.Dlis

open _root_.Dlisio.Dlis.Spec

/-! ## Model -/

/-- The loops of `Channel.frame`, channel.py:113-123: the frames that have a channel with the
name.  A channel that was not found (`None`) is an `AttributeError`.  A frame is not added if it
is equal to one that is already there; it is added once because it is identical to itself. -/
def Store.framesWith (e : Env) (name : Dlis.Obname) :
    List PyObj → Store → List PyObj → Store × Option (List PyObj)
  | [], s, acc => (s, some acc)
  | fr :: frs, s, acc =>
    match s.frameChannels e fr.attic with
    | (s, none) => (s, none)
    | (s, some os) =>
      if os.any Option.isNone then (s, none)
      else if os.any (·.any fun o => decide (o.attic.name = name)) &&
          !acc.any (fun x => x.attic.eq fr.attic) then
        s.framesWith e name frs (acc ++ [fr])
      else s.framesWith e name frs acc

/-- `Channel.frame`, channel.py:105-136, of a channel in a logical file; `none` is an
exception. -/
def Store.channelFrame (e : Env) (s : Store) (ch : BasicObject) : Store × Option (Option PyObj) :=
  match s.attribute e "frames" with
  | (s, none) => (s, none)
  | (s, some frs) =>
    match s.framesWith e ch.name frs [] with
    | (s, none) => (s, none)
    | (s, some [fr]) => (s, some (some fr))
    | (s, some _) => (s, some none)

/-- The type of the array that `Frame.curves` makes, frame.py:467. -/
def Store.frameType (e : Env) (fmt : Text → Nat → Nat → Option Text) (strict : Bool) (s : Store)
    (frame : BasicObject) : Option (List Field) :=
  match s.frameChannels e frame with
  | (_, none) => none
  | (s, some os) => (chansOf e s os).bind fun cs => frameDtype fmt cs strict

/-- A column of a structured array: the value in row `i` begins `offset` bytes after
`i * stride`. -/
structure Column where
  dst : Dst
  stride : Nat
  offset : Nat
  type : NpType
  logs : List Severity

/-- What `Channel.curves` gives: a column, `None`, an exception or undefined behaviour. -/
inductive ChannelResult where
  | column (c : Column)
  | nothing
  | raised
  | undefined

/-- `array[key]` of a structured array: names and titles are looked up. -/
def columnOf (dt : List Field) (key : PyStr) (d : Dst) (logs : List Severity) : ChannelResult :=
  match dt.findIdx? fun f => decide (key = .str f.name ∨ ∃ t ∈ f.title, key = .str t) with
  | none => .raised
  | some k =>
    match dt[k]? with
    | none => .raised
    | some f => .column ⟨d, itemsize dt, fieldOffset dt k, f.type, logs⟩

/-- `Channel.curves`, channel.py:261-266.  The copy has the same values as the column.  `fmt` is
the `dtype_fmt` of the frame. -/
def Store.channelCurves (e : Env) (src : Source) (fdata : List (PyStr × List Nat))
    (stale : Nat → Bytes) (fmt : Text → Nat → Nat → Option Text) (s : Store) (ch : PyObj) :
    Store × ChannelResult :=
  match s.channelFrame e ch.attic with
  | (s, none) => (s, .raised)
  | (s, some none) => (s, .nothing)
  | (s, some (some _)) =>
    match s.channelFrame e ch.attic with
    | (s, none) => (s, .raised)
    | (s, some none) => (s, .raised)
    | (s, some (some fr)) =>
      let dt := s.frameType e fmt true fr.attic
      match s.frameCurves e src fdata stale fmt true fr with
      | (s, .raised) => (s, .raised)
      | (s, .undefined) => (s, .undefined)
      | (s, .array d logs) =>
        match ch.fingerprint e with
        | none => (s, .raised)
        | some fp => (s, columnOf (dt.getD []) fp d logs)

/-- `Frame.index`, frame.py:149-168: `some none` is `None`, `none` an exception. -/
def Store.frameIndex (e : Env) (s : Store) (frame : BasicObject) : Store × Option (Option PyStr) :=
  match s.frameChannels e frame with
  | (s, none) => (s, none)
  | (s, some []) => (s, some none)
  | (s, some (_ :: _)) =>
    match getItem e frameRules s frame (.str (text "INDEX-TYPE")) with
    | (s, .error _) => (s, none)
    | (s, .ok .none) => (s, some (some (.str (text "FRAMENO"))))
    | (s, .ok _) =>
      match s.frameChannels e frame with
      | (s, some (some o :: _)) => (s, some (some o.name))
      | (s, _) => (s, none)

/-- The loop of `Frame.fmtstrchannel`, frame.py:485-496: `found` are `pre_fmt` and `ch_fmt`,
which are not bound before the channel is seen. -/
def fmtstrLoop (channel : BasicObject) :
    List (BasicObject × Chan) → List Char → Option (List Char × List Char) →
      Option (List Char × List Char × List Char)
  | [], fmt, found => found.map fun x => (x.1, x.2, fmt)
  | (o, ch) :: chs, fmt, found =>
    match ch.fmtstr with
    | none => none
    | some f =>
      if o.eq channel then fmtstrLoop channel chs [] (some (fmt, f))
      else fmtstrLoop channel chs (fmt ++ f) found

/-- `Frame.fmtstrchannel`, frame.py:472-496, for channels that were found. -/
def fmtstrchannel (channel : BasicObject) (chs : List (BasicObject × Chan)) :
    Option (List Char × List Char × List Char) :=
  fmtstrLoop channel chs [] none

/-! ## Specification -/

/-- The channels of a frame.  A frame may have none. -/
inductive Spec.ChannelsOf (e : Env) (p : List ObjectSet) (fr : BasicObject) :
    List BasicObject → Prop
  | listed {chans} : Spec.HasChannels e p fr chans → ChannelsOf e p fr chans
  | absent : Spec.Quiet e fr fr.log → (∀ a ∈ fr.attributes, a.label ≠ Fingerprint.ascii "CHANNELS") →
      ChannelsOf e p fr []
  | empty {a} : Spec.LabelsOk e fr → Spec.Quiet e fr fr.log → a ∈ fr.attributes →
      a.label = Fingerprint.ascii "CHANNELS" → Spec.Quiet e fr a.log →
      (a.value = none ∨ ∃ c, a.value = some (c, [])) → ChannelsOf e p fr []

/-- The frames of a file, each with its channels. -/
structure Spec.FramesOf (e : Env) (p : List ObjectSet)
    (frs : List (BasicObject × List BasicObject)) : Prop where
  all : (frs.map fun x => e.promote x.1).Perm (Spec.objectsOf e p (.str (text "FRAME")))
  channels : ∀ x ∈ frs, Spec.ChannelsOf e p x.1 x.2
  calm : ∀ x ∈ p, e.dec x.type = .str (text "FRAME") → Spec.SetQuiet e x

/-- The frames that have a channel with the name. -/
def Spec.owners (frs : List (BasicObject × List BasicObject)) (name : Dlis.Obname) :
    List BasicObject :=
  (frs.filter fun x => decide (name ∈ x.2.map (·.name))).map (·.1)

/-! ## Lemmas -/

theorem perm_map_exists {α β : Type} {f : α → β} {l m : List β} (h : l.Perm m) :
    ∀ as : List α, as.map f = m → ∃ bs : List α, bs.Perm as ∧ l = bs.map f := by
  induction h with
  | nil => intro as hm; exact ⟨[], by simp_all, rfl⟩
  | cons x _ ih =>
    intro as hm
    cases as with
    | nil => cases hm
    | cons a as =>
      simp only [List.map_cons, List.cons.injEq] at hm
      obtain ⟨bs, h1, rfl⟩ := ih as hm.2
      exact ⟨a :: bs, h1.cons a, by rw [List.map_cons, hm.1]⟩
  | swap x y l =>
    intro as hm
    match as, hm with
    | a :: b :: as, hm =>
      simp only [List.map_cons, List.cons.injEq] at hm
      exact ⟨b :: a :: as, .swap _ _ _, by simp [hm]⟩
  | trans _ _ ih1 ih2 =>
    intro as hm
    obtain ⟨bs, h1, h2⟩ := ih2 as hm
    obtain ⟨cs, h3, rfl⟩ := ih1 bs h2.symm
    exact ⟨cs, h3.trans h1, rfl⟩

/-- `Frame.channels` gives the channels, if there are any. -/
theorem channelsOf_run {e : Env} (hd : Spec.ReadsUtf8 e.dec) {p : List ObjectSet}
    (hf : Spec.Fresh p) {fr : BasicObject} {chans : List BasicObject}
    (h : Spec.ChannelsOf e p fr chans) (hist : List Spec.StoreOp) :
    ∃ more, (Spec.after e p hist).frameChannels e fr =
      (Spec.after e p (hist ++ more), some (chans.map fun o => some (e.promote o))) := by
  have hl : e.dec (Fingerprint.ascii "CHANNELS") = .str (text "CHANNELS") :=
    dec_ascii hd _ (by decide +kernel)
  have hrule : frameRules.attributes (.str (text "CHANNELS")) = some .vector := by decide +kernel
  have key : ∀ r, getItem e frameRules (Spec.after e p hist) fr (.str (text "CHANNELS")) =
      (Spec.after e p hist, .ok r) → Spec.Missing .vector r →
      ∃ more, (Spec.after e p hist).frameChannels e fr =
        (Spec.after e p (hist ++ more), some (([] : List BasicObject).map fun o => some (e.promote o))) := by
    intro r h1 h2
    refine ⟨[], ?_⟩
    unfold Store.frameChannels
    rw [h1, List.append_nil]
    unfold Spec.Missing at h2
    simp only at h2
    subst h2
    rfl
  cases h with
  | listed h => exact frameChannels_spec hd hf h hist
  | absent h1 h2 =>
    obtain ⟨r, h3, h4⟩ := c35_absent e frameRules (Spec.after e p hist) fr (.str (text "CHANNELS"))
      .vector hrule (by
        intro a ha
        rw [← hl, readsUtf8_toStd hd (plain_ascii (by decide +kernel))]
        exact h2 a ha) h1
    exact key r h3 h4
  | empty h1 h2 h3 h4 h5 h6 =>
    obtain ⟨r, h7, h8⟩ := c35_no_value_partial e frameRules (Spec.after e p hist) fr _ h1 h3 h2 h5 h6
    rw [h4, hl] at h7 h8
    rw [show Spec.parsing frameRules (.str (text "CHANNELS")) = .vector by decide +kernel] at h8
    exact key r h7 h8

/-- The frames that are collected: those that have the channel, except for those that are equal to
one that was collected before. -/
def collect : List BasicObject → List BasicObject → List BasicObject
  | [], acc => acc
  | fr :: frs, acc => collect frs (if acc.any (·.eq fr) then acc else acc ++ [fr])

theorem framesWith_run {e : Env} (hd : Spec.ReadsUtf8 e.dec) {p : List ObjectSet}
    (hf : Spec.Fresh p) (name : Dlis.Obname) : ∀ (frs : List (BasicObject × List BasicObject)),
    (∀ x ∈ frs, Spec.ChannelsOf e p x.1 x.2) → ∀ (acc : List BasicObject) (hist : List Spec.StoreOp),
    ∃ more, (Spec.after e p hist).framesWith e name (frs.map fun x => e.promote x.1)
        (acc.map e.promote) =
      (Spec.after e p (hist ++ more),
        some ((collect (Spec.owners frs name) acc).map e.promote)) := by
  intro frs
  induction frs with
  | nil => intro _ acc hist; exact ⟨[], by simp [Store.framesWith, Spec.owners, collect]⟩
  | cons x frs ih =>
    intro h acc hist
    obtain ⟨m1, h1⟩ := channelsOf_run hd hf (h x (by simp)) hist
    have hany : (acc.map e.promote).any (fun y => y.attic.eq x.1) = acc.any (·.eq x.1) := by
      rw [List.any_map]; rfl
    have hno : (x.2.map fun o => some (e.promote o)).any Option.isNone = false := by
      simp [List.any_eq_false]
    have hname : (x.2.map fun o => some (e.promote o)).any
        (·.any fun o => decide (o.attic.name = name)) = decide (name ∈ x.2.map (·.name)) := by
      rw [Bool.eq_iff_iff, List.any_map, List.any_eq_true, decide_eq_true_eq, List.mem_map]
      constructor
      · rintro ⟨o, ho, hn⟩
        exact ⟨o, ho, by simpa [Env.promote] using hn⟩
      · rintro ⟨o, ho, hn⟩
        exact ⟨o, ho, by simpa [Env.promote] using hn⟩
    rw [List.map_cons, Store.framesWith]
    rw [show (e.promote x.1).attic = x.1 from rfl, h1]
    dsimp only
    rw [hno, hname, hany]
    simp only [Bool.false_eq_true, if_false]
    have ho : Spec.owners (x :: frs) name =
        if name ∈ x.2.map (·.name) then x.1 :: Spec.owners frs name else Spec.owners frs name := by
      unfold Spec.owners
      rw [List.filter_cons]
      simp only [decide_eq_true_eq]
      split <;> simp
    rw [ho]
    by_cases hm : name ∈ x.2.map (·.name)
    · rw [if_pos hm, collect]
      by_cases ha : acc.any (·.eq x.1) = true
      · rw [if_pos ha]
        obtain ⟨m2, h2⟩ := ih (fun y hy => h y (by simp [hy])) acc (hist ++ m1)
        refine ⟨m1 ++ m2, ?_⟩
        rw [if_neg (by simp [ha]), h2, List.append_assoc]
      · rw [if_neg ha]
        obtain ⟨m2, h2⟩ := ih (fun y hy => h y (by simp [hy])) (acc ++ [x.1]) (hist ++ m1)
        refine ⟨m1 ++ m2, ?_⟩
        rw [if_pos (by simp [hm, ha]), ← List.append_assoc, ← h2]
        simp
    · rw [if_neg hm]
      obtain ⟨m2, h2⟩ := ih (fun y hy => h y (by simp [hy])) acc (hist ++ m1)
      refine ⟨m1 ++ m2, ?_⟩
      rw [if_neg (by simp [hm]), h2, List.append_assoc]

theorem collect_prefix : ∀ (frs acc : List BasicObject), ∃ more, collect frs acc = acc ++ more ∧
    ∀ x ∈ more, x ∈ frs := by
  intro frs
  induction frs with
  | nil => intro acc; exact ⟨[], by simp [collect], by simp⟩
  | cons fr frs ih =>
    intro acc
    rw [collect]
    split
    · obtain ⟨m, h1, h2⟩ := ih acc
      exact ⟨m, h1, fun x hx => by simp [h2 x hx]⟩
    · obtain ⟨m, h1, h2⟩ := ih (acc ++ [fr])
      refine ⟨fr :: m, by rw [h1]; simp, ?_⟩
      intro x hx
      rcases List.mem_cons.1 hx with rfl | hx
      · simp
      · simp [h2 x hx]

theorem collect_one (o : BasicObject) : ∀ (frs : List BasicObject),
    collect frs [o] = [o] ↔ ∀ x ∈ frs, Spec.SameObject o x := by
  intro frs
  induction frs with
  | nil => simp [collect]
  | cons fr frs ih =>
    rw [collect, List.forall_mem_cons]
    simp only [List.any_cons, List.any_nil, Bool.or_false, ← objectEq_iff]
    split
    · rename_i h
      rw [ih]; simp [h, objectEq_iff]
    · rename_i h
      obtain ⟨m, h1, -⟩ := collect_prefix frs ([o] ++ [fr])
      rw [h1]
      simp [h]

/-- The list that is collected has one element, if there is one and all are equal. -/
theorem collect_spec (frs : List BasicObject) :
    (∀ o, collect frs [] = [o] → o ∈ frs) ∧
    ((∃ o, collect frs [] = [o]) ↔ frs ≠ [] ∧ frs.Pairwise Spec.SameObject) := by
  cases frs with
  | nil => simp [collect]
  | cons fr frs =>
    have h0 : collect (fr :: frs) [] = collect frs [fr] := by simp [collect]
    obtain ⟨m, h1, -⟩ := collect_prefix frs [fr]
    rw [h0]
    refine ⟨fun o ho => ?_, ?_⟩
    · rw [h1] at ho; simp at ho; simp [ho.1]
    · have h2 : (∃ o, collect frs [fr] = [o]) ↔ collect frs [fr] = [fr] := by
        constructor
        · rintro ⟨o, ho⟩
          rw [h1] at ho ⊢
          simp only [List.singleton_append, List.cons.injEq] at ho
          rw [ho.2]; rfl
        · exact fun h => ⟨_, h⟩
      rw [h2, collect_one, List.pairwise_cons]
      refine ⟨fun h => ⟨by simp, h, ?_⟩, fun h => h.2.1⟩
      exact List.pairwise_of_forall_mem_list fun a ha b hb =>
        sameObject_trans _ _ _ (sameObject_symm _ _ (h a ha)) (h b hb)

theorem attribute_frames {e : Env} {p : List ObjectSet} (hu : Spec.Usable e p)
    (hd : Spec.ReadsUtf8 e.dec) {frs : List (BasicObject × List BasicObject)}
    (hfr : Spec.FramesOf e p frs) (hist : List Spec.StoreOp) :
    ∃ ps more, List.Perm ps frs ∧ (Spec.after e p hist).attribute e "frames" =
      (Spec.after e p (hist ++ more), some (ps.map fun x => e.promote x.1)) := by
  have hst : Spec.Stable e (.str (text "FRAME")) := by
    unfold Spec.Stable
    rw [← dec_ascii hd "FRAME" (by decide +kernel), readsUtf8_toStd hd plain_frame]
  have hr : Spec.raises e .exact (.str (text "FRAME")) p = false := by
    exact raises_quiet fun x hx h1 => hfr.calm x hx (by simpa [PyMatcher.run, eq_comm] using h1)
  have h := c64_attribute e p hu hist "frames" "FRAME" (by decide +kernel) hst
  rw [hr] at h
  obtain ⟨os, h1, h2⟩ := h
  obtain ⟨ps, h3, h4⟩ := perm_map_exists (h2.trans hfr.all.symm) frs rfl
  refine ⟨ps, [.find .exact (.str (text "FRAME")) none], h3, ?_⟩
  have hatt : (Spec.after e p hist).attribute e "frames" =
      (Spec.after e p hist).find e .exact (.str (text "FRAME")) none := by
    unfold Store.attribute
    rw [show descriptors.find? (fun d => d.1 == "frames") = some ("frames", "FRAME") by decide +kernel]
    rfl
  rw [hatt] at h1 ⊢
  refine Prod.ext ?_ ?_
  · show _ = Spec.after e p (hist ++ [.find .exact (.str (text "FRAME")) none])
    unfold Spec.after
    rw [List.foldl_append]
    rfl
  · rw [h1, h4]

/-! ## Theorems -/

/-- C66.  The frame of a channel is a frame of the file that refers to a channel with its name.
There is one exactly if some frame does, and all frames that do are equal.  Partial: all frames
of the file refer to channels that are there, once. -/
theorem c66_frame_partial (e : Env) (hd : Spec.ReadsUtf8 e.dec) (p : List ObjectSet)
    (hu : Spec.Usable e p) (frs : List (BasicObject × List BasicObject))
    (hfr : Spec.FramesOf e p frs) (ch : BasicObject) (hist : List Spec.StoreOp) :
    ∃ more r, (Spec.after e p hist).channelFrame e ch = (Spec.after e p (hist ++ more), some r) ∧
      (∀ o, r = some o → ∃ fr ∈ Spec.owners frs ch.name, o = e.promote fr) ∧
      (r ≠ none ↔ Spec.owners frs ch.name ≠ [] ∧
        (Spec.owners frs ch.name).Pairwise Spec.SameObject) := by
  obtain ⟨ps, m1, hps, h1⟩ := attribute_frames hu hd hfr hist
  obtain ⟨m2, h2⟩ := framesWith_run hd hu.fresh ch.name ps
    (fun x hx => hfr.channels x (hps.mem_iff.1 hx)) [] (hist ++ m1)
  have hperm : (Spec.owners ps ch.name).Perm (Spec.owners frs ch.name) := (hps.filter _).map _
  obtain ⟨h3, h4⟩ := collect_spec (Spec.owners ps ch.name)
  have h5 : (∃ o, collect (Spec.owners ps ch.name) [] = [o]) ↔ Spec.owners frs ch.name ≠ [] ∧
      (Spec.owners frs ch.name).Pairwise Spec.SameObject := by
    rw [h4, List.Perm.pairwise_iff (fun h => sameObject_symm _ _ h) hperm]
    refine and_congr_left fun _ => not_congr ⟨?_, ?_⟩
    · intro h; rw [h] at hperm; exact hperm.symm.eq_nil
    · intro h; rw [h] at hperm; exact hperm.eq_nil
  rw [← h5]
  refine ⟨m1 ++ m2, (match collect (Spec.owners ps ch.name) [] with
    | [o] => some (e.promote o) | _ => none), ?_, ?_, ?_⟩
  · unfold Store.channelFrame
    rw [List.map_nil] at h2
    rw [h1]
    dsimp only
    rw [h2, List.append_assoc]
    match collect (Spec.owners ps ch.name) [] with
    | [] => rfl
    | [o] => rfl
    | _ :: _ :: _ => rfl
  · intro o ho
    match hc : collect (Spec.owners ps ch.name) [], ho with
    | [x], ho =>
      simp only [Option.some.injEq] at ho
      exact ⟨x, hperm.mem_iff.1 (h3 x hc), ho.symm⟩
    | [], ho => cases ho
    | _ :: _ :: _, ho => cases ho
  · match hc : collect (Spec.owners ps ch.name) [] with
    | [] => simp
    | [o] => simp
    | _ :: _ :: _ => simp

/-- C66.  If one frame refers to the channel, that is its frame. -/
theorem c66_owner_partial (e : Env) (hd : Spec.ReadsUtf8 e.dec) (p : List ObjectSet)
    (hu : Spec.Usable e p) (frs : List (BasicObject × List BasicObject))
    (hfr : Spec.FramesOf e p frs) (ch fr : BasicObject) (ho : Spec.owners frs ch.name = [fr])
    (hist : List Spec.StoreOp) :
    ∃ more, (Spec.after e p hist).channelFrame e ch =
      (Spec.after e p (hist ++ more), some (some (e.promote fr))) := by
  obtain ⟨more, r, h1, h2, h3⟩ := c66_frame_partial e hd p hu frs hfr ch hist
  rw [ho] at h2 h3
  refine ⟨more, ?_⟩
  rw [h1]
  cases r with
  | none => exact absurd rfl (h3.2 ⟨by simp, by simp⟩)
  | some o =>
    obtain ⟨fr', hm, rfl⟩ := h2 o rfl
    rw [List.mem_singleton.1 hm]

/-- The column of a channel is found by its fingerprint. -/
theorem column_found {fmt : Text → Nat → Nat → Option Text} {chs : List Chan} {dt : List Field}
    (hdt : frameDtype fmt (chs.map some) true = some dt) {j : Nat} {ch : Chan}
    (hj : chs[j]? = some ch) (d : Dst) (logs : List Severity) :
    ∃ t, ch.dtype = some t ∧ columnOf dt (.str ch.fingerprint) d logs =
      .column ⟨d, itemsize dt, fieldOffset dt (j + 1), t, logs⟩ := by
  obtain ⟨chs', fs, h1, h2, h3, h4⟩ := frameDtype_types hdt
  obtain rfl : chs = chs' := List.map_injective_iff.2 (Option.some_injective _) h1
  have h4 : npDtype (framenoField :: fs) = some dt := by
    rcases h4 with h | ⟨-, h, -⟩
    · exact h
    · cases h
  obtain ⟨h5, h6⟩ := (npDtype_spec _ _).1 h4
  have h7 : (fs[j]?).map some = (chs[j]?).map (Spec.column fmt chs) := by
    rw [← List.getElem?_map, ← List.getElem?_map, h2]
  rw [hj] at h7
  cases hf : fs[j]? with
  | none => rw [hf] at h7; cases h7
  | some f =>
    rw [hf] at h7
    simp only [Option.map_some, Option.some.injEq] at h7
    unfold Spec.column at h7
    cases ht : ch.dtype with
    | none => rw [ht] at h7; cases h7
    | some t =>
      cases hl : Spec.label fmt chs ch with
      | none => rw [ht, hl] at h7; cases h7
      | some l =>
        rw [ht, hl] at h7
        simp only [Option.some.injEq] at h7
        refine ⟨t, rfl, ?_⟩
        have h8 : dt[j + 1]? = some (f.resolved (j + 1)) := by
          rw [h5, List.getElem?_mapIdx]
          simp [hf]
        have hlt : j + 1 < dt.length := (List.getElem?_eq_some_iff.1 h8).1
        have hget : dt[j + 1] = f.resolved (j + 1) := (List.getElem?_eq_some_iff.1 h8).2
        have htitle : (f.resolved (j + 1)).title = some ch.fingerprint := by
          rw [h7]; rfl
        have hfind : dt.findIdx? (fun f => decide (PyStr.str ch.fingerprint = .str f.name ∨
            ∃ t ∈ f.title, PyStr.str ch.fingerprint = .str t)) = some (j + 1) := by
          rw [List.findIdx?_eq_some_iff_getElem]
          refine ⟨hlt, ?_, ?_⟩
          · rw [hget]
            simp [htitle]
          · intro i hi
            have hp := List.pairwise_iff_getElem.1 h6 i (j + 1) (by omega) hlt hi
            rw [hget] at hp
            intro hc
            have : ch.fingerprint ∈ (dt[i]'(by omega)).keys := by
              simp only [PyStr.str.injEq, Option.mem_def, decide_eq_true_eq] at hc
              unfold Field.keys
              rcases hc with hc | ⟨t, hc, rfl⟩
              · simp [← hc]
              · simp [hc]
            exact hp _ this (by unfold Field.keys; simp [htitle])
        unfold columnOf
        rw [hfind]
        dsimp only
        rw [h8]
        dsimp only
        have : (f.resolved (j + 1)).type = t := by rw [h7]; rfl
        rw [this]

/-- C66.  The curve of a channel that one frame refers to: for each frame in the data of that
frame the values of the channel, in the order of the file.  Partial: as C65, and all frames of
the file refer to channels that are there, once. -/
theorem c66_curves_partial (e : Env) (hd : Spec.ReadsUtf8 e.dec) (dec0 : Bytes → PyStr)
    (hd0 : Spec.ReadsUtf8 dec0) (sul : Option Bytes) (f : Stored) (g : LogFile)
    (hg : Faithful e.policy sul f g) (hn : Spec.NamesPlain f)
    (stale : Nat → Bytes) (hst : ∀ t, 24 ≤ (stale t).length)
    (hu : Spec.Usable e (setsOf f.recs)) (frs : List (BasicObject × List BasicObject))
    (hframes : Spec.FramesOf e (setsOf f.recs) frs)
    (fr : BasicObject) (hfr : ∃ x ∈ setsOf f.recs, fr ∈ x.parse.objs)
    (ht : fr.type = Fingerprint.ascii "FRAME") (hname : Spec.PlainText fr.name.id)
    (os : List BasicObject) (hos : Spec.HasChannels e (setsOf f.recs) fr os)
    (chs : List (Chan × Reprc)) (hch : List.Forall₂ (fun o p => Spec.Describes e o p.1 p.2) os chs)
    (fmt : Text → Nat → Nat → Option Text) (dt : List Field)
    (hdt : frameDtype fmt (chs.map fun p => some p.1) true = some dt)
    (per : List (List (List (List Item)) × Bool))
    (hrows : List.Forall₂ (fun r p => Spec.Gives
        (Spec.columns (chs.map fun p => (p.1.dimension.prod, p.2))) (recordData r.2) p.1 p.2)
      (f.recs.filter fun r => decide (Spec.DataOf 0 fr.name r)) per)
    (hp : e.policy .critical = false ∨ ∀ p ∈ per, p.2 = false)
    (j : Nat) (o : BasicObject) (ho : os[j]? = some o) (c : Chan × Reprc) (hc : chs[j]? = some c)
    (hown : Spec.owners frs o.name = [fr]) (hist : List Spec.StoreOp) :
    ∃ col more, (Spec.after e g.sets hist).channelCurves e g.src (pyFdata dec0 g.fdata) stale fmt
        (e.promote o) = (Spec.after e g.sets (hist ++ more), .column col) ∧
      c.1.dtype = some col.type ∧
      col.dst.allocated = (per.flatMap Prod.fst).length ∧ col.dst.overrun = false ∧
      col.logs.count .critical = per.countP (·.2) ∧
      ∀ (i : Nat) (row : List (List Item)), (per.flatMap Prod.fst)[i]? = some row →
        ∃ cell, row[j + 1]? = some cell ∧
          RowAt col.dst.mem (i * col.stride + col.offset) cell := by
  have hfresh := sets_fresh f.recs
  obtain ⟨m1, h1⟩ := c66_owner_partial e hd _ hu frs hframes o fr hown hist
  obtain ⟨m2, h2⟩ := c66_owner_partial e hd _ hu frs hframes o fr hown (hist ++ m1)
  obtain ⟨d, logs, m3, h3, r1, r2, r3, -, r4⟩ := c65_curves_partial e hd dec0 hd0 sul f g hg hn
    stale hst fr hfr ht hname os hos chs hch fmt true dt hdt per hrows hp (hist ++ m1 ++ m2)
  -- the channels
  have hos' : ∀ o ∈ os, o.name.copy < 256 := by
    obtain ⟨refs, -, hrefs⟩ := hos.channels
    clear hch hos ho
    induction hrefs with
    | nil => simp
    | @cons n o _ _ q _ ih =>
      intro o' ho'
      rcases List.mem_cons.1 ho' with rfl | ho'
      · have hm : e.promote o' ∈ Spec.allObjects e (setsOf f.recs) :=
          List.mem_of_mem_filter (by rw [q.2.2]; exact List.mem_singleton.2 rfl)
        obtain ⟨-, y, hy, hoy⟩ := promote_of_mem hm
        exact fresh_obj_copy (hfresh y hy) _ hoy
      · exact ih o' ho'
  have hchan : ∀ s, chansOf e s (os.map fun o => some (e.promote o)) =
      some (chs.map fun p => some p.1) := by
    intro s
    apply chansOf_spec
    clear hos hdt hrows ho hc h3
    induction hch with
    | nil => exact .nil
    | cons a _ ih =>
      exact .cons (describes_chan hd a (hos' _ (by simp)) s) (ih fun o ho => hos' o (by simp [ho]))
  have hdesc : Spec.Describes e o c.1 c.2 := by
    obtain ⟨hl, hall⟩ := List.forall₂_iff_get.1 hch
    obtain ⟨hlt, rfl⟩ := List.getElem?_eq_some_iff.1 ho
    obtain ⟨hlt', rfl⟩ := List.getElem?_eq_some_iff.1 hc
    exact hall j hlt hlt'
  have hfp : (e.promote o).fingerprint e = some (.str c.1.fingerprint) := by
    have := describes_chan hd hdesc (hos' o (List.mem_of_getElem? ho)) (Spec.after e g.sets hist)
    obtain ⟨fp, hfp, hut⟩ := hdesc.fingerprint
    rw [hdesc.origin, hdesc.copy] at hfp
    have hpl : Spec.PlainText o.name.id := ⟨hdesc.noNul, _, hdesc.name⟩
    rw [fingerprint_dec hd hdesc.type plain_channel (by decide +kernel) hpl
      (hos' o (List.mem_of_getElem? ho)) hfp, hd fp _ hut (plain_fingerprint plain_channel hpl hfp).1]
  obtain ⟨m4, hm4⟩ := frameChannels_spec hd hfresh hos (hist ++ m1 ++ m2)
  have htype : (Spec.after e (setsOf f.recs) (hist ++ m1 ++ m2)).frameType e fmt true fr = some dt := by
    unfold Store.frameType
    rw [hm4]
    dsimp only
    rw [hchan, Option.bind_some, hdt]
  obtain ⟨t, ht1, ht2⟩ := column_found (chs := chs.map Prod.fst) (by rw [List.map_map]; exact hdt)
    (j := j) (ch := c.1) (by rw [List.getElem?_map, hc]; rfl) d logs
  rw [← hg.sets] at h1 h2 htype
  refine ⟨⟨d, itemsize dt, fieldOffset dt (j + 1), t, logs⟩, m1 ++ m2 ++ m3, ?_, ht1, r1, r2, r3, ?_⟩
  · unfold Store.channelCurves
    rw [show (e.promote o).attic = o from rfl, h1]
    dsimp only
    rw [h2]
    dsimp only
    rw [show (e.promote fr).attic = fr from rfl, htype, h3, hfp]
    dsimp only
    rw [Option.getD_some, ht2]
    simp only [List.append_assoc]
  · intro i row hrow
    obtain ⟨q1, q2⟩ := r4 i row hrow
    obtain ⟨chs', hch', hl, -⟩ := c38_columns fmt _ true dt hdt
    have hlen := congrArg List.length hch'
    simp only [List.length_map] at hlen
    have hj := (List.getElem?_eq_some_iff.1 hc).1
    have hlt : j + 1 < row.length := by omega
    exact ⟨_, List.getElem?_eq_getElem hlt, q2 _ _ (List.getElem?_eq_getElem hlt)⟩

/-- C66.  The index of a frame: the frame number if there is no index type, else the name of the
first channel; a frame without channels has none.  Partial: as for `c66_frame_partial`. -/
theorem c66_index_partial (e : Env) (hd : Spec.ReadsUtf8 e.dec) (p : List ObjectSet)
    (hf : Spec.Fresh p) (fr : BasicObject) (chans : List BasicObject)
    (hch : Spec.ChannelsOf e p fr chans) (hist : List Spec.StoreOp) :
    (chans = [] → ((Spec.after e p hist).frameIndex e fr).2 = some none) ∧
    (chans ≠ [] → Spec.Quiet e fr fr.log →
      (∀ a ∈ fr.attributes, a.label ≠ Fingerprint.ascii "INDEX-TYPE") →
      ((Spec.after e p hist).frameIndex e fr).2 = some (some (.str (text "FRAMENO")))) ∧
    (∀ ch rest, chans = ch :: rest → Spec.LabelsOk e fr → Spec.Quiet e fr fr.log → ∀ vs,
      Spec.HasValues e fr "INDEX-TYPE" vs → vs ≠ [] → Spec.DatesOk vs →
      ((Spec.after e p hist).frameIndex e fr).2 = some (some (e.dec ch.name.id))) := by
  have hl : e.dec (Fingerprint.ascii "INDEX-TYPE") = .str (text "INDEX-TYPE") :=
    dec_ascii hd _ (by decide +kernel)
  obtain ⟨m1, h1⟩ := channelsOf_run hd hf hch hist
  refine ⟨?_, ?_, ?_⟩
  · rintro rfl
    unfold Store.frameIndex
    rw [h1]
    rfl
  · intro hne hq ha
    cases chans with
    | nil => exact absurd rfl hne
    | cons ch rest =>
      obtain ⟨r, h2, h3⟩ := c35_absent e frameRules (Spec.after e p (hist ++ m1)) fr
        (.str (text "INDEX-TYPE")) .scalar (by decide +kernel) (by
          intro a h
          rw [← hl, readsUtf8_toStd hd (plain_ascii (by decide +kernel))]
          exact ha a h) hq
      unfold Spec.Missing at h3
      simp only at h3
      subst h3
      unfold Store.frameIndex
      rw [List.map_cons] at h1
      rw [h1]
      dsimp only
      rw [h2]
  · rintro ch rest rfl hlab hq vs ⟨a, ha, hal, hqa, rc, hv⟩ hne hdates
    have hlink : frameRules.linkage (.str (text "INDEX-TYPE")) = none := by
      have : (frameRules.linkage (.str (text "INDEX-TYPE"))).isNone = true := by decide +kernel
      simpa using this
    obtain ⟨ws, r, h2, -, h3⟩ := c35_value_partial e frameRules (Spec.after e p (hist ++ m1)) fr a
      hlab ha hq hqa rc vs hv hne hdates (Or.inl (by rw [hal, hl, hlink]))
    rw [hal, hl] at h2 h3
    rw [show Spec.parsing frameRules (.str (text "INDEX-TYPE")) = .scalar by decide +kernel] at h3
    obtain ⟨w, -, rfl⟩ := h3
    obtain ⟨m2, h4⟩ := channelsOf_run hd hf hch (hist ++ m1)
    unfold Store.frameIndex
    rw [List.map_cons] at h1
    rw [h1]
    dsimp only
    rw [h2]
    dsimp only
    rw [h4]
    rfl

/-! ### Formats -/

/-- The format of the channels between, without the frame number. -/
theorem fmtstrLoop_skip (channel : BasicObject) : ∀ (chs : List (BasicObject × Chan)) (fmt : List Char)
    (found : Option (List Char × List Char)) (rest : List (BasicObject × Chan)),
    (∀ x ∈ chs, ¬ Spec.SameObject x.1 channel) →
    fmtstrLoop channel (chs ++ rest) fmt found =
      (channelsFmtstr (chs.map fun x => some x.2)).bind fun f =>
        fmtstrLoop channel rest (fmt ++ f) found := by
  intro chs
  induction chs with
  | nil => intro fmt found rest _; simp [channelsFmtstr]
  | cons x chs ih =>
    intro fmt found rest h
    have h0 : x.1.eq channel = false := by
      have := h x (by simp)
      rw [← objectEq_iff] at this
      simpa using this
    rw [List.cons_append, fmtstrLoop, List.map_cons, channelsFmtstr]
    cases hx : x.2.fmtstr with
    | none => simp
    | some f =>
      dsimp only
      rw [h0]
      simp only [Bool.false_eq_true, if_false]
      rw [ih _ _ _ fun y hy => h y (by simp [hy])]
      cases channelsFmtstr (chs.map fun x => some x.2) <;> simp

theorem channelsFmtstr_append (a b : List (Option Chan)) :
    channelsFmtstr (a ++ b) = (channelsFmtstr a).bind fun f => (channelsFmtstr b).map (f ++ ·) := by
  induction a with
  | nil => cases h : channelsFmtstr b <;> simp [channelsFmtstr, h]
  | cons x a ih =>
    cases x with
    | none => rfl
    | some ch =>
      rw [List.cons_append, channelsFmtstr, channelsFmtstr, ih]
      cases ch.fmtstr <;> cases channelsFmtstr a <;> cases channelsFmtstr b <;> simp

/-- C66.  The three formats of a channel that is once among the channels of the frame: together,
after the frame number, they are the format of the frame, and the second is that of the channel.
There is an exception exactly if there is one for the whole frame. -/
theorem c66_formats (channel : BasicObject) (before after : List (BasicObject × Chan))
    (o : BasicObject) (ch : Chan) (hsame : Spec.SameObject o channel)
    (hb : ∀ x ∈ before, ¬ Spec.SameObject x.1 channel)
    (ha : ∀ x ∈ after, ¬ Spec.SameObject x.1 channel) :
    (∀ pre mid post, fmtstrchannel channel (before ++ (o, ch) :: after) = some (pre, mid, post) →
      ch.fmtstr = some mid ∧ channelsFmtstr (before.map fun x => some x.2) = some pre ∧
      frameFmtstr ((before ++ (o, ch) :: after).map fun x => some x.2) =
        some ('i' :: (pre ++ mid ++ post))) ∧
    (fmtstrchannel channel (before ++ (o, ch) :: after) = none ↔
      frameFmtstr ((before ++ (o, ch) :: after).map fun x => some x.2) = none) := by
  have h1 : o.eq channel = true := (objectEq_iff _ _).2 hsame
  have key : fmtstrchannel channel (before ++ (o, ch) :: after) =
      (channelsFmtstr (before.map fun x => some x.2)).bind fun pre => ch.fmtstr.bind fun mid =>
        (channelsFmtstr (after.map fun x => some x.2)).map fun post => (pre, mid, post) := by
    unfold fmtstrchannel
    rw [fmtstrLoop_skip channel before [] none _ hb]
    congr 1
    funext pre
    rw [fmtstrLoop]
    cases hc : ch.fmtstr with
    | none => rfl
    | some mid =>
      dsimp only
      rw [h1, if_pos rfl]
      have := fmtstrLoop_skip channel after [] (some ([] ++ pre, mid)) [] ha
      rw [List.append_nil] at this
      rw [this]
      cases channelsFmtstr (after.map fun x => some x.2) <;> simp [fmtstrLoop]
  have hframe : frameFmtstr ((before ++ (o, ch) :: after).map fun x => some x.2) =
      (channelsFmtstr (before.map fun x => some x.2)).bind fun pre => ch.fmtstr.bind fun mid =>
        (channelsFmtstr (after.map fun x => some x.2)).map fun post =>
          'i' :: (pre ++ mid ++ post) := by
    unfold frameFmtstr
    rw [List.map_append, channelsFmtstr_append, List.map_cons, channelsFmtstr]
    cases channelsFmtstr (before.map fun x => some x.2) <;> cases ch.fmtstr <;>
      cases channelsFmtstr (after.map fun x => some x.2) <;> simp
  rw [key, hframe]
  cases channelsFmtstr (before.map fun x => some x.2) <;> cases ch.fmtstr <;>
    cases channelsFmtstr (after.map fun x => some x.2) <;> simp

/-- C66.  For a channel that is not among the channels of the frame there are no formats: an
exception. -/
theorem c66_no_formats (channel : BasicObject) (chs : List (BasicObject × Chan))
    (h : ∀ x ∈ chs, ¬ Spec.SameObject x.1 channel) : fmtstrchannel channel chs = none := by
  have := fmtstrLoop_skip channel chs [] none [] h
  rw [List.append_nil] at this
  unfold fmtstrchannel
  rw [this]
  cases channelsFmtstr (chs.map fun x => some x.2) <;> simp [fmtstrLoop]

/-! ## Cases and defects -/

namespace ChannelCase

open StoreCase EndToEndCase

/-- A set with frames, each with the names of its channels. -/
def frames (frs : List (Bytes × List Bytes)) : Bytes :=
  [0xf0] ++ EndToEndCase.ident (Fingerprint.ascii "FRAME") ++
  [0x34] ++ EndToEndCase.ident (Fingerprint.ascii "CHANNELS") ++ [23] ++
  frs.flatMap fun x => [0x70] ++ nameOf x.1 ++ [0x29, BitVec.ofNat 8 x.2.length] ++ x.2.flatMap nameOf

/-- A logical file with the channels "D" and "I", these frames and data. -/
def file (frs : List (Bytes × List Bytes)) (data : List (Bytes × Bytes)) : Stored :=
  let recs := [(true, [exHeader]), (true, [exSeg 0x80 3 channelSet]), (true, [exSeg 0x80 4 (frames frs)])] ++
    data.map fun x => (false, [exSeg 0 0 (nameOf x.1 ++ x.2)])
  ⟨recs, recs.map fun r => recordBytes r.2⟩

def D : Bytes := [0x44]
def I : Bytes := [0x49]
def X : Bytes := [0x58]

/-- Do something with an object of the file, from the bytes on disk. -/
def withObject {α : Type} (f : Stored) (type : String) (name : Bytes)
    (k : Env → LogFile → BasicObject → α) : Option α :=
  match (load (rawDisk (exLabel ++ f.bytes)) exPolicy exStale 4).1.files with
  | [g] =>
    match g.sets.flatMap (fun x => x.parse.objs.filter fun o =>
        o.type = Fingerprint.ascii type ∧ o.name.id = name) with
    | [o] => some (k { envWith [] with policy := exPolicy } g o)
    | _ => none
  | _ => none

/-- The name of the frame of a channel; `none` is an exception, `some none` is `None`. -/
def frameOf (f : Stored) (name : Bytes) : Option (Option (Option PyStr)) :=
  withObject f "CHANNEL" name fun e g o =>
    ((Spec.after e g.sets []).channelFrame e o).2.map (·.map (·.name))

/-- The item at the begin of each row of the curve of a channel, and what was logged; `some none` is
an exception. -/
def curveOf (f : Stored) (name : Bytes) :
    Option (Option (List (Option Item) × List Severity)) :=
  withObject f "CHANNEL" name fun e g o =>
    match ((Spec.after e g.sets []).channelCurves e g.src (pyFdata (decWith []) g.fdata) exStale
        defaultFmt (e.promote o)).2 with
    | .column c => some ((List.range c.dst.allocated).map fun i =>
        (c.dst.mem (i * c.stride + c.offset)).map (·.1), c.logs)
    | _ => none

/-- The index of a frame. -/
def indexOf (f : Stored) (name : Bytes) : Option (Option (Option PyStr)) :=
  withObject f "FRAME" name fun e g o => ((Spec.after e g.sets []).frameIndex e o).2

/-- Frame "A" has the channel "D", frame "B" has "I". -/
def separate : Stored :=
  file [(A, [D]), (B, [I])]
    [(A, [1, 0x3f, 0x80, 0, 1]), (B, [1, 9, 2, 3, 4, 5, 6]), (B, [2, 8, 2, 3, 4, 5, 6])]

/-- C66: the frames of the channels. -/
example : frameOf separate D = some (some (some (.str (text "A")))) ∧
    frameOf separate I = some (some (some (.str (text "B")))) := by
  decide +kernel

/-- C66: the curve of "I" has the values of the frame "B". -/
example : curveOf separate I = some (some (
    [some (.host (.int 1 9)), some (.host (.int 1 8))], [])) := by
  decide +kernel

/-- C66: the index of a frame without index type. -/
example : indexOf separate A = some (some (some (.str (text "FRAMENO")))) := by decide +kernel

/-- C66: the index of a frame with an index type is its first channel. -/
example : ((Spec.after env (setsOf separate.recs) []).frameIndex env
    ⟨⟨1, 0, A⟩, Fingerprint.ascii "FRAME",
      [{ label := Fingerprint.ascii "CHANNELS", reprc := some .obname, count := 2,
         value := some (.obname, [.obname ⟨1, 0, I⟩, .obname ⟨1, 0, D⟩]) },
       { label := Fingerprint.ascii "INDEX-TYPE", reprc := some .ident, count := 1,
         value := some (.ident, [.str (Fingerprint.ascii "BOREHOLE-DEPTH")]) }], []⟩).2 =
    some (some (.str (text "I"))) := by
  decide +kernel

/-- C66: a channel of two frames that differ, and a channel of no frame, has no frame.  If the
frames are equal, or if the frame has the channel twice, it has one. -/
example : frameOf (file [(A, [D]), (B, [D, I])] []) D = some (some none) ∧
    frameOf (file [(A, [D])] []) I = some (some none) ∧
    frameOf (file [(A, [D, I]), (A, [D, I])] []) D = some (some (some (.str (text "A")))) ∧
    frameOf (file [(A, [D, I, D])] []) D = some (some (some (.str (text "A")))) := by
  decide +kernel

/-- Case: the conditions of C66 on the frames. -/
def frB : BasicObject :=
  ⟨⟨1, 0, B⟩, Fingerprint.ascii "FRAME",
    [{ label := Fingerprint.ascii "CHANNELS", reprc := some .obname, count := 1,
       value := some (.obname, [.obname ⟨1, 0, I⟩]) }], []⟩

def frA : BasicObject :=
  ⟨⟨1, 0, A⟩, Fingerprint.ascii "FRAME",
    [{ label := Fingerprint.ascii "CHANNELS", reprc := some .obname, count := 1,
       value := some (.obname, [.obname ⟨1, 0, D⟩]) }], []⟩

theorem case_frames : Spec.FramesOf env (setsOf separate.recs) [(frA, [chanD]), (frB, [chanI])] ∧
    Spec.Usable env (setsOf separate.recs) ∧
    Spec.owners [(frA, [chanD]), (frB, [chanI])] chanI.name = [frB] := by
  have hset : Spec.objectsOf env (setsOf separate.recs) (.str (text "FRAME")) =
      [env.promote frA, env.promote frB] := by decide +kernel
  refine ⟨⟨by rw [hset]; exact .refl _, ?_, by unfold Spec.SetQuiet; decide +kernel⟩,
    ⟨sets_fresh _, order_set [], by unfold Spec.Stable; decide +kernel⟩, by decide +kernel⟩
  intro x hx
  simp only [List.mem_cons, List.not_mem_nil, or_false] at hx
  rcases hx with rfl | rfl
  · exact .listed ⟨by unfold Spec.LabelsOk; decide +kernel, by unfold Spec.Quiet; decide +kernel,
      by unfold Spec.SetQuiet; decide +kernel, by simp, [⟨1, 0, D⟩],
      ⟨_, List.mem_singleton.2 rfl, rfl, by simp [Spec.Quiet], _, rfl⟩,
      .cons ⟨plain_ascii (by decide), by decide, by decide +kernel⟩ .nil⟩
  · exact .listed ⟨by unfold Spec.LabelsOk; decide +kernel, by unfold Spec.Quiet; decide +kernel,
      by unfold Spec.SetQuiet; decide +kernel, by simp, [⟨1, 0, I⟩],
      ⟨_, List.mem_singleton.2 rfl, rfl, by simp [Spec.Quiet], _, rfl⟩,
      .cons ⟨plain_ascii (by decide), by decide, by decide +kernel⟩ .nil⟩

/-- C66 is violated if some other frame refers to a channel that is not in the file: "D" is a
channel of "A" only, but looking up its frame is an exception, and so is reading its curve. -/
theorem c66_dangling_defect :
    let f := file [(A, [D]), (B, [I, X])] [(A, [1, 0x3f, 0x80, 0, 1])]
    frameOf f D = some none ∧ curveOf f D = some none ∧
    frameOf (file [(A, [D]), (B, [I])] [(A, [1, 0x3f, 0x80, 0, 1])]) D =
      some (some (some (.str (text "A")))) := by
  decide +kernel

/-- C66 is violated by a channel that is twice in a frame: it has a frame, the format of which
can be made, but the curve is an exception; and the formats for the channel leave out what is
before its first occurrence. -/
theorem c66_twice_defect :
    frameOf (file [(A, [I, D, D])] [(A, [1, 1, 2, 3, 4, 5, 6, 0x3f, 0x80, 0, 1, 0x3f, 0x80, 0, 1])]) D =
      some (some (some (.str (text "A")))) ∧
    curveOf (file [(A, [I, D, D])] [(A, [1, 1, 2, 3, 4, 5, 6, 0x3f, 0x80, 0, 1, 0x3f, 0x80, 0, 1])]) D =
      some none ∧
    ∃ chI chD : Chan, fmtstrchannel chanD [(chanI, chI), (chanD, chD), (chanD, chD)] =
        some ([], ['f'], []) ∧
      frameFmtstr [some chI, some chD, some chD] = some ['i', 'u', 'u', 'u', 'u', 'u', 'u', 'f', 'f'] := by
  refine ⟨by decide +kernel, by decide +kernel,
    ⟨text "I", 1, 0, text "T.CHANNEL-I.I-O.1-C.0", some 15, [2, 3]⟩,
    ⟨text "D", 1, 0, text "T.CHANNEL-I.D-O.1-C.0", some 2, [1]⟩, by decide +kernel, by decide +kernel⟩

/-- C66 is violated by a channel with an attribute that is NaN: it is not equal to itself, and
its formats are an exception. -/
theorem c66_nan_defect (ch : Chan) :
    ∃ o : BasicObject, o.type = Fingerprint.ascii "CHANNEL" ∧ fmtstrchannel o [(o, ch)] = none := by
  refine ⟨⟨⟨1, 0, D⟩, Fingerprint.ascii "CHANNEL",
    [{ label := Fingerprint.ascii "X", value := some (.fsingl, [.f32s [0x7FC00000#32]]) }], []⟩, rfl, ?_⟩
  apply c66_no_formats
  intro x hx
  rw [List.mem_singleton.1 hx, ← objectEq_iff]
  dsimp only
  decide +kernel

/-- Case of `c66_formats`: the channel "D" after "I". -/
example : fmtstrchannel chanD [(chanI, ⟨text "I", 1, 0, text "T.CHANNEL-I.I-O.1-C.0", some 15, [2, 3]⟩),
    (chanD, ⟨text "D", 1, 0, text "T.CHANNEL-I.D-O.1-C.0", some 2, [1]⟩)] =
    some (['u', 'u', 'u', 'u', 'u', 'u'], ['f'], []) := by
  decide +kernel

end ChannelCase

end Dlisio.Dlis
