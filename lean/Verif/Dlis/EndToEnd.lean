/-
From the bytes of a file to the curves of a frame: `Frame.curves` and `Noformat.data`
(python/dlisio/dlis/{frame,channel,noformat}.py and utils/fdata.py).  C65.
-/
import Mathlib.Data.List.Sort
import Verif.Dlis.LoadFiles
import Verif.Dlis.LayoutProps
import Verif.Dlis.Accessors
import Verif.Dlis.AttributeProps
import Verif.Dlis.StoreCase

namespace Dlisio.Dlis

open _root_.Dlisio.Dlis.Spec

/-! ## Model -/

/-- `a <= b` for `std::string`, the order of the keys of `std::map< dl::ident, ... >`
(io.cpp:537): bytes are compared as unsigned numbers. -/
def keyLe : Bytes → Bytes → Bool
  | [], _ => true
  | _ :: _, [] => false
  | a :: as, b :: bs => if a = b then keyLe as bs else decide (a.toNat < b.toNat)

/-- The conversion of what `findfdata` returns to a Python dict, ext/dlis.cpp:1055 and
pybind11's `map_caster`: the entries are set in the order of the map, with decoded keys. -/
def pyFdata (dec : Bytes → PyStr) (m : List (Bytes × List Nat)) : List (PyStr × List Nat) :=
  (m.insertionSort fun x y => keyLe x.1 y.1 = true).foldl (fun d x => dictSet (dec x.1) x.2 d) []

/-- `try: indices = dlis.fdata_index[...] except KeyError: indices = []`,
utils/fdata.py:13-16 and 36-39. -/
def indices (fdata : List (PyStr × List Nat)) (fingerprint : PyStr) : List Nat :=
  (dictGet fingerprint fdata).getD []

/-- Lookup in a dict that is written down in the source, with keys of type `str`. -/
def ruleOf {β : Type} (table : List (String × β)) (key : PyStr) : Option β :=
  (table.find? fun x => decide (key = .str (text x.1))).map (·.2)

/-- `Frame.attributes` and `Frame.linkage`, frame.py:94-107. -/
def frameRules : Rules where
  attributes := ruleOf
    [("DESCRIPTION", .scalar), ("CHANNELS", .vector), ("INDEX-TYPE", .scalar),
     ("DIRECTION", .scalar), ("SPACING", .scalar), ("ENCRYPTED", .boolean),
     ("INDEX-MIN", .scalar), ("INDEX-MAX", .scalar)]
  linkage := ruleOf [("CHANNELS", .obname (.str (text "CHANNEL")))]

/-- `Channel.attributes` and `Channel.linkage`, channel.py:85-100. -/
def channelRules : Rules where
  attributes := ruleOf
    [("LONG-NAME", .scalar), ("REPRESENTATION-CODE", .scalar), ("UNITS", .scalar),
     ("PROPERTIES", .vector), ("DIMENSION", .reverse), ("AXIS", .reverse),
     ("ELEMENT-LIMIT", .reverse), ("SOURCE", .scalar)]
  linkage := ruleOf [("LONG-NAME", .obname (.str (text "LONG-NAME"))),
    ("AXIS", .obname (.str (text "AXIS"))), ("SOURCE", .objref)]

/-- An element of `Frame.channels`: a channel or `None`.  Anything else is no channel, and the
first access to it is an `AttributeError`. -/
def asChannel : PyVal → Option (Option PyObj)
  | .obj o => some o
  | _ => none

/-- `Frame.channels`, frame.py:121-123; `none` is an exception, now or as soon as an element
is used. -/
def Store.frameChannels (e : Env) (s : Store) (frame : BasicObject) :
    Store × Option (List (Option PyObj)) :=
  match getItem e frameRules s frame (.str (text "CHANNELS")) with
  | (s, .ok (.list vs)) => (s, vs.mapM asChannel)
  | (s, _) => (s, none)

/-- A value that is a natural number. -/
def natOf : PyVal → Option Nat
  | .raw _ (.int _ v) => if 0 ≤ v then some v.toNat else none
  | _ => none

/-- `Channel.reprc`, channel.py:142-144: `some none` is `None`.  Values that are no natural
numbers are left out. -/
def channelReprc (e : Env) (s : Store) (ch : BasicObject) : Option (Option Nat) :=
  match (getItem e channelRules s ch (.str (text "REPRESENTATION-CODE"))).2 with
  | .ok .none => some none
  | .ok (.elem v) => (natOf v).map some
  | _ => none

/-- `Channel.dimension`, channel.py:154-156.  Values that are no natural numbers are left
out. -/
def channelDimension (e : Env) (s : Store) (ch : BasicObject) : Option (List Nat) :=
  match (getItem e channelRules s ch (.str (text "DIMENSION"))).2 with
  | .ok (.list vs) => vs.mapM natOf
  | _ => none

/-- What is used of a channel, frame.py:228-265 and 293.  A name of type `bytes` is refused by NumPy
and by the format. -/
def chanOf (e : Env) (s : Store) (o : PyObj) : Option Chan :=
  match o.name, o.fingerprint e with
  | .str name, some (.str fp) =>
    match channelReprc e s o.attic, channelDimension e s o.attic with
    | some r, some d => some ⟨name, o.origin, o.copynumber, fp, r, d⟩
    | _, _ => none
  | _, _ => none

/-- All channels of a frame, those that were not found are `none`. -/
def chansOf (e : Env) (s : Store) : List (Option PyObj) → Option (List (Option Chan))
  | [] => some []
  | none :: os => (chansOf e s os).map (none :: ·)
  | some o :: os =>
    match chanOf e s o, chansOf e s os with
    | some c, some cs => some (some c :: cs)
    | _, _ => none

/-- `Frame.curves`, frame.py:465-470, and `curves`, utils/fdata.py:8-28.  `fdata` is
`LogicalFile.fdata_index`; every exception is `.raised`.  The channels are looked up once for
the type and once for the format. -/
def Store.frameCurves (e : Env) (src : Source) (fdata : List (PyStr × List Nat))
    (stale : Nat → Bytes) (fmt : Text → Nat → Nat → Option Text) (strict : Bool) (s : Store)
    (frame : PyObj) : Store × FdataResult :=
  match s.frameChannels e frame.attic with
  | (s, none) => (s, .raised)
  | (s, some os) =>
    match (chansOf e s os).bind fun cs => frameDtype fmt cs strict with
    | none => (s, .raised)
    | some dt =>
      match s.frameChannels e frame.attic with
      | (s, none) => (s, .raised)
      | (s, some os) =>
        match (chansOf e s os).bind frameFmtstr with
        | none => (s, .raised)
        | some f =>
          match frame.fingerprint e with
          | none => (s, .raised)
          | some fp => (s, readFdata e.policy src stale (itemsize dt) f (indices fdata fp))

/-- `Noformat.data`, noformat.py:138, and `noformat`, utils/fdata.py:30-41. -/
def noformatData (e : Env) (src : Source) (fdata : List (PyStr × List Nat))
    (stale : Nat → Bytes) (o : PyObj) : NoformResult :=
  match o.fingerprint e with
  | none => .raised
  | some fp => readNoform e.policy src stale (indices fdata fp)

/-! ## Specification -/

/-- Texts in UTF-8 without NUL are decoded as such. -/
def Spec.ReadsUtf8 (dec : Bytes → PyStr) : Prop :=
  ∀ bs t, Dlisio.Spec.Utf8 t bs → 0 ∉ bs → dec bs = .str t

/-- A text in UTF-8 without NUL. -/
def Spec.PlainText (bs : Bytes) : Prop := 0 ∉ bs ∧ ∃ t, Dlisio.Spec.Utf8 t bs

/-- The record is data of the object with this name: it is implicit, not encrypted, has the
type (0 for frames, 1 for unformatted data), and begins with the name. -/
def Spec.DataOf (type : Nat) (name : Dlis.Obname) (r : Bool × List Seg) : Prop :=
  r.1 = false ∧ (∀ s ∈ r.2.head?, s.attrs.toNat / 2 ^ 4 % 2 = 0) ∧
  (r.2.head?.map (·.type.toNat)).getD 0 = type ∧
  ∃ e rest, Spec.Obname name.origin name.copy name.id e ∧ recordData r.2 = e ++ rest

instance (type : Nat) (name : Dlis.Obname) (r : Bool × List Seg) :
    Decidable (Spec.DataOf type name r) :=
  decidable_of_iff (r.1 = false ∧ (∀ s ∈ r.2.head?, s.attrs.toNat / 2 ^ 4 % 2 = 0) ∧
    (r.2.head?.map (·.type.toNat)).getD 0 = type ∧
    (obname (recordData r.2)).map (·.1) = some name) (by
    unfold Spec.DataOf
    refine and_congr_right fun _ => and_congr_right fun _ => and_congr_right fun _ => ?_
    rw [Option.map_eq_some_iff]
    constructor
    · rintro ⟨⟨n, rest⟩, h, rfl⟩
      obtain ⟨e, h1, h2⟩ := (c05_obname_decodes _ _ _).1 h
      exact ⟨e, rest, h1, h2⟩
    · rintro ⟨e, rest, h1, h2⟩
      exact ⟨(name, rest), (c05_obname_decodes _ _ _).2 ⟨e, h1, h2⟩, rfl⟩)

/-- All names that data begin with are plain text. -/
def Spec.NamesPlain (f : Stored) : Prop :=
  ∀ r ∈ f.recs, ∀ type < 2, ∀ name, Spec.DataOf type name r → Spec.PlainText name.id

/-- The values of one frame, column by column. -/
inductive Spec.Cells : List (List Reprc) → List (List Item) → Bytes → Prop
  | nil : Spec.Cells [] [] []
  | cons {col cell e cols cells es} : RowEnc col cell e → Spec.Cells cols cells es →
      Spec.Cells (col :: cols) (cell :: cells) (e ++ es)

/-- A sequence of frames. -/
inductive Spec.Frames (cols : List (List Reprc)) : List (List (List Item)) → Bytes → Prop
  | nil : Spec.Frames cols [] []
  | cons {row e rows es} : Spec.Cells cols row e → Spec.Frames cols rows es →
      Spec.Frames cols (row :: rows) (e ++ es)

/-- What a record has: its name and whole frames, or also something at the end that is no
frame. -/
inductive Spec.Gives (cols : List (List Reprc)) (data : Bytes) :
    List (List (List Item)) → Bool → Prop
  | whole {o c i ne rows body} : data = ne ++ body → Spec.Obname o c i ne →
      Spec.Frames cols rows body → Spec.Gives cols data rows false
  | cut {o c i ne rows good rest} : data = ne ++ (good ++ rest) → Spec.Obname o c i ne →
      Spec.Frames cols rows good → rest ≠ [] → BadFrame cols.flatten rest →
      Spec.Gives cols data rows true

/-- The object has an attribute with this label and these values. -/
def Spec.HasValues (e : Env) (o : BasicObject) (label : String) (vs : List Val) : Prop :=
  ∃ a ∈ o.attributes, a.label = Fingerprint.ascii label ∧ Spec.Quiet e o a.log ∧
    ∃ c, a.value = some (c, vs)

/-- A value is this natural number. -/
def Spec.IsNat (v : Val) (n : Nat) : Prop := ∃ size, v = .int size n

/-- What an object that describes a channel says: its name, its code, and its dimensions, which
are stored in reverse order. -/
structure Spec.Describes (e : Env) (o : BasicObject) (ch : Chan) (c : Reprc) : Prop where
  labels : Spec.LabelsOk e o
  quiet : Spec.Quiet e o o.log
  type : o.type = Fingerprint.ascii "CHANNEL"
  noNul : 0 ∉ o.name.id
  name : Dlisio.Spec.Utf8 ch.name o.name.id
  origin : ch.origin = o.name.origin
  copy : ch.copy = o.name.copy
  fingerprint : ∃ fp, Spec.Fingerprint (Fingerprint.ascii "CHANNEL") o.name.id ch.origin ch.copy fp ∧
    Dlisio.Spec.Utf8 ch.fingerprint fp
  code : ∃ v, Spec.HasValues e o "REPRESENTATION-CODE" [v] ∧ Spec.IsNat v c.code
  reprc : ch.reprc = some c.code
  dimension : ∃ vs, Spec.HasValues e o "DIMENSION" vs ∧
    List.Forall₂ Spec.IsNat vs ch.dimension.reverse
  dims : ch.dimension ≠ []

/-- The frame has these channels: it refers to them by name, and each name is that of exactly
one channel in the file. -/
structure Spec.HasChannels (e : Env) (p : List ObjectSet) (frame : BasicObject)
    (chans : List BasicObject) : Prop where
  labels : Spec.LabelsOk e frame
  quiet : Spec.Quiet e frame frame.log
  calm : ∀ x ∈ p, e.dec x.type = .str (text "CHANNEL") → Spec.SetQuiet e x
  some : chans ≠ []
  channels : ∃ refs : List Dlis.Obname, Spec.HasValues e frame "CHANNELS" (refs.map .obname) ∧
    List.Forall₂ (fun n o => Spec.PlainText n.id ∧ n.id ≠ [] ∧
      (Spec.allObjects e p).filter (fun x => decide (x.type = .str (text "CHANNEL") ∧
        x.name = e.dec n.id ∧ x.origin = n.origin ∧ x.copynumber = n.copy)) = [e.promote o])
      refs chans

/-! ## Lemmas: texts -/

theorem utf8_append {a b : Text} {x y : Bytes} (h1 : Dlisio.Spec.Utf8 a x)
    (h2 : Dlisio.Spec.Utf8 b y) : Dlisio.Spec.Utf8 (a ++ b) (x ++ y) := by
  refine ⟨fun c hc => (List.mem_append.1 hc).elim (h1.1 c) (h2.1 c), ?_⟩
  rw [List.map_append, h1.2, h2.2, List.flatMap_append]

theorem utf8_ascii {bs : Bytes} (h : ∀ b ∈ bs, b.toNat < 128) :
    Dlisio.Spec.Utf8 (bs.map (·.toNat)) bs := by
  constructor
  · intro c hc
    obtain ⟨b, hb, rfl⟩ := List.mem_map.1 hc
    exact Or.inl (by have := h b hb; omega)
  · induction bs with
    | nil => rfl
    | cons b bs ih =>
      rw [List.map_cons, List.flatMap_cons, ← ih fun x hx => h x (by simp [hx])]
      simp [Dlisio.Spec.utf8Char, h b (by simp)]

theorem plain_append {x y : Bytes} (h1 : Spec.PlainText x) (h2 : Spec.PlainText y) :
    Spec.PlainText (x ++ y) := by
  obtain ⟨h1, a, ha⟩ := h1
  obtain ⟨h2, b, hb⟩ := h2
  exact ⟨fun h => (List.mem_append.1 h).elim h1 h2, a ++ b, utf8_append ha hb⟩

theorem plain_ascii {bs : Bytes} (h : ∀ b ∈ bs, 0 < b.toNat ∧ b.toNat < 128) :
    Spec.PlainText bs := by
  refine ⟨fun h0 => ?_, _, utf8_ascii fun b hb => (h b hb).2⟩
  have := (h 0 h0).1
  simp at this

theorem plain_fingerprint {type id fp : Bytes} {o c : Nat} (ht : Spec.PlainText type)
    (hi : Spec.PlainText id) (h : Spec.Fingerprint type id o c fp) : Spec.PlainText fp := by
  obtain ⟨a, b, ha, hb, rfl⟩ := h
  have dig : ∀ {ds : Bytes} {n : Nat}, Fingerprint.Canonical ds n → Spec.PlainText ds := by
    intro ds n h
    exact plain_ascii fun b hb => by have := h.1 b hb; omega
  have m : ∀ s ∈ ["T.", "-I.", "-O.", "-C."], Spec.PlainText (Fingerprint.ascii s) := by
    intro s hs
    exact plain_ascii (by revert s; decide +kernel)
  exact plain_append (plain_append (plain_append (plain_append (plain_append (plain_append
    (plain_append (m _ (by simp)) ht) (m _ (by simp))) hi) (m _ (by simp))) (dig ha))
    (m _ (by simp))) (dig hb)

theorem readsUtf8_inj {dec : Bytes → PyStr} (hd : Spec.ReadsUtf8 dec) {x y : Bytes}
    (hx : Spec.PlainText x) (hy : Spec.PlainText y) (h : dec x = dec y) : x = y := by
  obtain ⟨h1, t, ht⟩ := hx
  obtain ⟨h2, u, hu⟩ := hy
  rw [hd x t ht h1, hd y u hu h2] at h
  rw [← toStd_utf8 t x ht, ← toStd_utf8 u y hu, h]

theorem readsUtf8_toStd {dec : Bytes → PyStr} (hd : Spec.ReadsUtf8 dec) {x : Bytes}
    (hx : Spec.PlainText x) : (dec x).toStd = x := by
  obtain ⟨h1, t, ht⟩ := hx
  rw [hd x t ht h1, toStd_utf8 t x ht]

theorem readsUtf8_same {dec dec' : Bytes → PyStr} (hd : Spec.ReadsUtf8 dec)
    (hd' : Spec.ReadsUtf8 dec') {x : Bytes} (hx : Spec.PlainText x) : dec x = dec' x := by
  obtain ⟨h1, t, ht⟩ := hx
  rw [hd x t ht h1, hd' x t ht h1]

/-! ## Lemmas: the index -/

theorem dictGet_fill {dec : Bytes → PyStr} {K : Bytes} : ∀ (l : List (Bytes × List Nat))
    (d : List (PyStr × List Nat)), (l.map Prod.fst).Nodup →
    (∀ x ∈ l, dec x.1 = dec K → x.1 = K) →
    dictGet (dec K) (l.foldl (fun d x => dictSet (dec x.1) x.2 d) d) =
      if K ∈ l.map Prod.fst then some (mapGet l K) else dictGet (dec K) d := by
  intro l
  induction l with
  | nil => intro d _ _; simp
  | cons x l ih =>
    intro d hn hk
    obtain ⟨k, v⟩ := x
    simp only [List.map_cons, List.nodup_cons] at hn
    rw [List.foldl_cons, ih _ hn.2 fun y hy => hk y (by simp [hy]), dictGet_dictSet]
    by_cases h : k = K
    · subst h
      simp [hn.1, mapGet]
    · have h' : dec K ≠ dec k := fun he => h (hk (k, v) (by simp) he.symm)
      have hm : K ∈ List.map Prod.fst ((k, v) :: l) ↔ K ∈ List.map Prod.fst l := by
        rw [List.map_cons, List.mem_cons, or_iff_right (Ne.symm h)]
      rw [mapGet, if_neg h, if_neg h', if_congr hm rfl rfl]

theorem mapGet_not_mem {K : Bytes} : ∀ {m : List (Bytes × List Nat)}, K ∉ m.map Prod.fst →
    mapGet m K = [] := by
  intro m
  induction m with
  | nil => intro _; rfl
  | cons x m ih =>
    intro h
    simp only [List.map_cons, List.mem_cons, not_or] at h
    obtain ⟨k, v⟩ := x
    rw [mapGet, if_neg (Ne.symm h.1), ih h.2]

theorem mapGet_mem {K : Bytes} {v : List Nat} : ∀ {m : List (Bytes × List Nat)},
    (m.map Prod.fst).Nodup → (K, v) ∈ m → mapGet m K = v := by
  intro m
  induction m with
  | nil => intro _ h; cases h
  | cons x m ih =>
    intro hn h
    obtain ⟨k, w⟩ := x
    simp only [List.map_cons, List.nodup_cons] at hn
    rcases List.mem_cons.1 h with h | h
    · cases h; simp [mapGet]
    · have : k ≠ K := by
        rintro rfl
        exact hn.1 (List.mem_map.2 ⟨_, h, rfl⟩)
      rw [mapGet, if_neg this, ih hn.2 h]

theorem indices_eq {dec : Bytes → PyStr} {K : Bytes} {m : List (Bytes × List Nat)}
    (hn : (m.map Prod.fst).Nodup) (hk : ∀ x ∈ m, dec x.1 = dec K → x.1 = K) :
    indices (pyFdata dec m) (dec K) = mapGet m K := by
  unfold indices pyFdata
  have hp : (m.insertionSort fun x y => keyLe x.1 y.1 = true).Perm m := List.perm_insertionSort _ _
  have hn' := (hp.map Prod.fst).nodup_iff.2 hn
  rw [dictGet_fill _ _ hn' fun x hx => hk x (hp.mem_iff.1 hx)]
  by_cases h : K ∈ m.map Prod.fst
  · rw [if_pos ((hp.map Prod.fst).mem_iff.2 h)]
    obtain ⟨⟨k, v⟩, hx, rfl⟩ := List.mem_map.1 h
    rw [Option.getD_some, mapGet_mem hn hx, mapGet_mem hn' (hp.mem_iff.2 hx)]
  · rw [if_neg (fun h' => h ((hp.map Prod.fst).mem_iff.1 h')), mapGet_not_mem h]
    rfl

theorem plain_frame : Spec.PlainText (Fingerprint.ascii "FRAME") :=
  plain_ascii (by decide +kernel)

theorem plain_noformat : Spec.PlainText (Fingerprint.ascii "NO-FORMAT") :=
  plain_ascii (by decide +kernel)

theorem fmtEnc_bit (a : Byte) :
    (fmtEncBits a).toNat / 2 ^ 4 % 2 = a.toNat / 2 ^ 4 % 2 := by
  revert a; decide +kernel

theorem recordOf_plain (segs : List Seg) :
    (recordOf segs).attributes.toNat / 2 ^ 4 % 2 = 0 ↔
      ∀ s ∈ segs.head?, s.attrs.toNat / 2 ^ 4 % 2 = 0 := by
  unfold recordOf
  dsimp only
  rw [fmtEnc_bit]
  cases segs.head? <;> simp

/-- The types of data, and the types of the objects that the data belong to. -/
def kindOf : Nat → Bytes
  | 0 => Fingerprint.ascii "FRAME"
  | _ => Fingerprint.ascii "NO-FORMAT"

theorem plain_kind (type : Nat) : Spec.PlainText (kindOf type) := by
  unfold kindOf; split <;> first | exact plain_frame | exact plain_noformat

theorem kind_ne (type : Nat) : kindOf type ≠ [] := by
  unfold kindOf; split <;> decide +kernel

theorem no_marker (b : Bytes) (hb : (b.tails.any fun t => t.take 3 = [0x2d, 0x49, 0x2e]) = false) :
    ¬ ∃ p q, b = p ++ Fingerprint.ascii "-I." ++ q := by
  rintro ⟨p, q, rfl⟩
  have a2 : Fingerprint.ascii "-I." = [0x2d, 0x49, 0x2e] := by decide
  rw [a2] at hb
  have : (p ++ [0x2d, 0x49, 0x2e] ++ q : Bytes).tails.any
      (fun t => t.take 3 = [0x2d, 0x49, 0x2e]) = true := by
    rw [List.any_eq_true]
    refine ⟨[0x2d, 0x49, 0x2e] ++ q, ?_, by simp⟩
    rw [List.mem_tails]
    exact ⟨p, by simp⟩
  rw [this] at hb
  cases hb

theorem kind_no_marker (type : Nat) : ¬ ∃ p q, kindOf type = p ++ Fingerprint.ascii "-I." ++ q := by
  apply no_marker
  unfold kindOf; split <;> decide +kernel

theorem kind_inj {a b : Nat} (ha : a < 2) (hb : b < 2) (h : kindOf a = kindOf b) : a = b := by
  have : ∀ a < 2, ∀ b < 2, kindOf a = kindOf b → a = b := by decide +kernel
  exact this a ha b hb h

theorem belongs_iff {type : Nat} (ht : type < 2) (name : Dlis.Obname) (key : Bytes)
    (hk : Spec.Fingerprint (kindOf type) name.id name.origin name.copy key)
    (r : Bool × List Seg) :
    (r.1 = false ∧ BelongsTo (recordOf r.2) key) ↔ Spec.DataOf type name r := by
  unfold Spec.DataOf BelongsTo
  rw [recordOf_plain]
  have hk' := (c22_text _ _ _ _ (kind_ne type) _).2 hk
  constructor
  · rintro ⟨h1, h2, o, c, i, enc, rest, ho, hd, hor⟩
    have key : ∀ t < 2, (recordOf r.2).type = t → Spec.Fingerprint (kindOf t) i o c key →
        t = type ∧ i = name.id ∧ o = name.origin ∧ c = name.copy := by
      intro t ht' _ hf
      have hf' := (c22_text _ _ _ _ (kind_ne t) _).2 hf
      obtain ⟨g1, g2, g3, g4⟩ := c22_types_partial _ _ _ _ _ _ _ _ (kind_ne t) (kind_ne type)
        (kind_no_marker t) (kind_no_marker type) (hf'.trans hk'.symm)
      exact ⟨kind_inj ht' ht g1, g2, g3, g4⟩
    rcases hor with ⟨h3, h4⟩ | ⟨h3, h4⟩
    · obtain ⟨rfl, rfl, rfl, rfl⟩ := key 0 (by omega) h3 h4
      exact ⟨h1, h2, h3, enc, rest, ho, hd⟩
    · obtain ⟨rfl, rfl, rfl, rfl⟩ := key 1 (by omega) h3 h4
      exact ⟨h1, h2, h3, enc, rest, ho, hd⟩
  · rintro ⟨h1, h2, h3, enc, rest, ho, hd⟩
    refine ⟨h1, h2, _, _, _, enc, rest, ho, hd, ?_⟩
    rcases (show type = 0 ∨ type = 1 by omega) with rfl | rfl
    · exact Or.inl ⟨h3, hk⟩
    · exact Or.inr ⟨h3, hk⟩

theorem located_filter (P : Bool × List Seg → Bool) : ∀ (pos : Nat) (recs : List (Bool × List Seg)),
    ((located pos recs).filter fun x => P x.2).map (·.2) = recs.filter P := by
  intro pos recs
  induction recs generalizing pos with
  | nil => rfl
  | cons r recs ih =>
    unfold located
    rw [List.filter_cons, List.filter_cons]
    by_cases h : P (r.1, r.2) = true
    · rw [if_pos h, if_pos h, List.map_cons, ih]
    · rw [if_neg h, if_neg h, ih]

/-- The offsets under a fingerprint are those of the data of the object. -/
theorem indices_data {policy : Policy} {sul : Option Bytes} {f : Stored} {g : LogFile}
    (hg : Faithful policy sul f g) (hn : Spec.NamesPlain f) {dec0 dec : Bytes → PyStr}
    (hd0 : Spec.ReadsUtf8 dec0) (hd : Spec.ReadsUtf8 dec) {type : Nat} (ht : type < 2)
    (name : Dlis.Obname) (hname : Spec.PlainText name.id) (key : Bytes)
    (hk : Spec.Fingerprint (kindOf type) name.id name.origin name.copy key) :
    indices (pyFdata dec0 g.fdata) (dec key) = ((located 0 f.recs).filter fun x =>
      decide (Spec.DataOf type name x.2)).map (·.1) := by
  have hpk := plain_fingerprint (plain_kind type) hname hk
  rw [readsUtf8_same hd hd0 hpk, indices_eq hg.keys.1, hg.fdata key]
  · congr 1
    apply List.filter_congr
    intro x _
    have := belongs_iff ht name key hk x.2
    rw [Bool.eq_iff_iff]
    simp only [Bool.and_eq_true, Bool.not_eq_true', decide_eq_true_eq]
    exact this
  · intro x hx he
    refine readsUtf8_inj hd0 ?_ hpk he
    -- every key is the fingerprint of the name of some record
    have hne := hg.keys.2 x hx
    rw [← mapGet_mem (v := x.2) hg.keys.1 hx, hg.fdata x.1] at hne
    obtain ⟨z, hz⟩ := List.exists_mem_of_ne_nil _ hne
    obtain ⟨y, hy, -⟩ := List.mem_map.1 hz
    obtain ⟨hy1, hy2⟩ := List.mem_filter.1 hy
    simp only [Bool.and_eq_true, Bool.not_eq_true', decide_eq_true_eq] at hy2
    have hyr : y.2 ∈ f.recs := by
      have h1 := located_filter (fun _ => true) 0 f.recs
      rw [List.filter_true, List.filter_true] at h1
      rw [← h1]
      exact List.mem_map.2 ⟨y, hy1, rfl⟩
    obtain ⟨hi, he, o, c, i, enc, rest, ho, hdta, hor⟩ := hy2
    rcases hor with ⟨h3, h4⟩ | ⟨h3, h4⟩
    · exact plain_fingerprint plain_frame (hn y.2 hyr 0 (by omega) ⟨o, c, i⟩
        ((belongs_iff (type := 0) (by omega) ⟨o, c, i⟩ x.1 h4 y.2).1
          ⟨hi, he, o, c, i, enc, rest, ho, hdta, Or.inl ⟨h3, h4⟩⟩)) h4
    · exact plain_fingerprint plain_noformat (hn y.2 hyr 1 (by omega) ⟨o, c, i⟩
        ((belongs_iff (type := 1) (by omega) ⟨o, c, i⟩ x.1 h4 y.2).1
          ⟨hi, he, o, c, i, enc, rest, ho, hdta, Or.inr ⟨h3, h4⟩⟩)) h4

/-! ## Lemmas: rows and columns -/

theorem rowEnc_append {cs ds : List Reprc} {r1 r2 : List Item} {e1 e2 : Bytes}
    (h1 : RowEnc cs r1 e1) (h2 : RowEnc ds r2 e2) : RowEnc (cs ++ ds) (r1 ++ r2) (e1 ++ e2) := by
  induction h1 with
  | nil => exact h2
  | cons a b _ ih => simpa using RowEnc.cons a b ih

theorem cells_row {cols : List (List Reprc)} {cells : List (List Item)} {e : Bytes}
    (h : Spec.Cells cols cells e) : RowEnc cols.flatten cells.flatten e := by
  induction h with
  | nil => exact .nil
  | cons a _ ih => exact rowEnc_append a ih

theorem frames_rows {cols : List (List Reprc)} {rows : List (List (List Item))} {e : Bytes}
    (h : Spec.Frames cols rows e) : RowsEnc cols.flatten (rows.map List.flatten) e := by
  induction h with
  | nil => exact .nil
  | cons a _ ih => exact .cons (cells_row a) ih

theorem frames_cells {cols : List (List Reprc)} {rows : List (List (List Item))} {e : Bytes}
    (h : Spec.Frames cols rows e) : ∀ row ∈ rows, ∃ e, Spec.Cells cols row e := by
  induction h with
  | nil => simp
  | cons a _ ih =>
    intro row hr
    rcases List.mem_cons.1 hr with rfl | hr
    · exact ⟨_, a⟩
    · exact ih row hr

theorem cells_at {mem : Nat → Option (Item × Nat)} {cols : List (List Reprc)}
    {cells : List (List Item)} {e : Bytes} (h : Spec.Cells cols cells e) :
    ∀ (o : Nat), RowAt mem o cells.flatten → ∀ j cell, cells[j]? = some cell →
      RowAt mem (o + rowSize (cols.take j).flatten) cell := by
  induction h with
  | nil => intro o _ j cell hc; simp at hc
  | @cons col cell e cols cells es a _ ih =>
    intro o hr j c hc
    rw [List.flatten_cons, rowAt_append, row_size a] at hr
    cases j with
    | zero =>
      simp only [List.getElem?_cons_zero, Option.some.injEq] at hc
      subst hc
      simpa [rowSize] using hr.1
    | succ j =>
      have := ih _ hr.2 j c (by simpa using hc)
      simpa [rowSize, Nat.add_assoc] using this

theorem cells_length {cols : List (List Reprc)} {cells : List (List Item)} {e : Bytes}
    (h : Spec.Cells cols cells e) : cells.length = cols.length := by
  induction h with
  | nil => rfl
  | cons _ _ ih => simp [ih]

theorem gives_contributes {policy : Policy} {src : Source} {cols : List (List Reprc)}
    {l : List (Nat × Bool × List Seg)} {per : List (List (List (List Item)) × Bool)}
    (hx : ∀ x ∈ l, (∃ n, extract policy src x.1 = .ok (recordOf x.2.2, n)) ∧
      (recordOf x.2.2).isencrypted = false)
    (h : List.Forall₂ (fun r p => Spec.Gives cols (recordData r.2) p.1 p.2) (l.map (·.2)) per) :
    ∃ per' : List (List (List Item) × List Severity),
      List.Forall₂ (fun t p => Contributes policy src cols.flatten t p.1 p.2) (l.map (·.1)) per' ∧
      per'.flatMap Prod.fst = (per.flatMap Prod.fst).map List.flatten ∧
      (per'.flatMap Prod.snd).count .critical = per.countP (·.2) ∧
      (∀ s ∈ per'.flatMap Prod.snd, s = .minor ∨ s = .critical) ∧
      ((∀ p ∈ per, p.2 = false) → ∀ p ∈ per', Severity.critical ∉ p.2) := by
  induction l generalizing per with
  | nil => cases h; exact ⟨[], .nil, rfl, rfl, by simp, by simp⟩
  | cons x l ih =>
    rw [List.map_cons] at h
    cases h with
    | @cons _ p _ per hp hps =>
    obtain ⟨per', h1, h2, h3, h4, h5⟩ := ih (fun y hy => hx y (by simp [hy])) hps
    obtain ⟨⟨n, hn⟩, henc⟩ := hx x (by simp)
    obtain ⟨rows, bad⟩ := p
    dsimp only at hp
    have hmin : ∀ n, (List.replicate n Severity.minor).count .critical = 0 := by
      intro n; simp [List.count_replicate]
    cases hp with
    | @whole o c i ne _ body hd ho hf =>
      refine ⟨(rows.map List.flatten, List.replicate n .minor) :: per',
        .cons (.intact (o := ⟨o, c, i⟩) hn henc hd ho (frames_rows hf)) h1, by simp [h2], ?_, ?_, ?_⟩
      · simp only [List.flatMap_cons, List.count_append, h3, hmin]
        simp
      · intro s hs
        rw [List.flatMap_cons] at hs
        rcases List.mem_append.1 hs with hs | hs
        · exact Or.inl (List.eq_of_mem_replicate hs)
        · exact h4 s hs
      · intro hall q hq
        rcases List.mem_cons.1 hq with rfl | hq
        · intro hm
          exact absurd (List.eq_of_mem_replicate hm) (by simp)
        · exact h5 (fun p hp => hall p (by simp [hp])) q hq
    | @cut o c i ne _ good rest hd ho hf hne hb =>
      refine ⟨(rows.map List.flatten, List.replicate n .minor ++ [.critical]) :: per',
        .cons (.damaged (o := ⟨o, c, i⟩) hn henc hd ho (frames_rows hf) hne hb) h1,
        by simp [h2], ?_, ?_, ?_⟩
      · simp only [List.flatMap_cons, List.count_append, h3, hmin]
        simp [Nat.add_comm]
      · intro s hs
        rw [List.flatMap_cons] at hs
        rcases List.mem_append.1 hs with hs | hs
        · rcases List.mem_append.1 hs with hs | hs
          · exact Or.inl (List.eq_of_mem_replicate hs)
          · exact Or.inr (List.mem_singleton.1 hs)
        · exact h4 s hs
      · intro hall
        exact absurd (hall (rows, true) (by simp)) (by simp)

theorem gives_cells {cols : List (List Reprc)} {data : Bytes} {rows : List (List (List Item))}
    {bad : Bool} (h : Spec.Gives cols data rows bad) : ∀ row ∈ rows, ∃ e, Spec.Cells cols row e := by
  cases h with
  | whole _ _ hf => exact frames_cells hf
  | cut _ _ hf => exact frames_cells hf

/-! ## Lemmas: objects -/

theorem dec_ascii {dec : Bytes → PyStr} (hd : Spec.ReadsUtf8 dec) (s : String)
    (h : (∀ b ∈ Fingerprint.ascii s, 0 < b.toNat ∧ b.toNat < 128) ∧
      (Fingerprint.ascii s).map (·.toNat) = text s) :
    dec (Fingerprint.ascii s) = .str (text s) := by
  rw [← h.2]
  exact hd _ _ (utf8_ascii fun b hb => (h.1 b hb).2) (plain_ascii h.1).1

theorem plain_channel : Spec.PlainText (Fingerprint.ascii "CHANNEL") :=
  plain_ascii (by decide +kernel)

theorem fingerprint_dec {e : Env} (hd : Spec.ReadsUtf8 e.dec) {o : BasicObject} {type : Bytes}
    (htype : o.type = type) (ht : Spec.PlainText type) (hne : type ≠ [])
    (hn : Spec.PlainText o.name.id) (hc : o.name.copy < 256) {key : Bytes}
    (hk : Spec.Fingerprint type o.name.id o.name.origin o.name.copy key) :
    (e.promote o).fingerprint e = some (e.dec key) := by
  unfold PyObj.fingerprint pyFingerprint
  show (if ((o.name.copy : Nat) : Int) > 255 then _ else _ : Option Bytes).map e.dec = _
  show Option.map e.dec (if ((o.name.copy : Nat) : Int) > 255 then none
    else if ((o.name.copy : Nat) : Int) < 0 then none
    else fingerprint (e.dec o.type).toStd (e.dec o.name.id).toStd o.name.origin
      ((o.name.copy : Nat) : Int).toNat) = _
  rw [if_neg (by omega), if_neg (by omega), Int.toNat_natCast, htype, readsUtf8_toStd hd ht,
    readsUtf8_toStd hd hn, (c22_text _ _ _ _ hne _).2 hk]
  rfl

theorem mapM_natOf {c : Reprc} : ∀ (vs : List Val) (ns : List Nat), List.Forall₂ Spec.IsNat vs ns →
    (vs.map (PyVal.raw c)).mapM natOf = some ns := by
  intro vs ns h
  induction h with
  | nil => rfl
  | cons a _ ih =>
    obtain ⟨size, rfl⟩ := a
    simp [List.mapM_cons, natOf, ih]

theorem shown_nats {e : Env} {c : Reprc} : ∀ (vs : List Val) (ns : List Nat) (ws : List PyVal),
    List.Forall₂ Spec.IsNat vs ns → List.Forall₂ (Spec.Shown e c) vs ws →
    ws = vs.map (PyVal.raw c) := by
  intro vs ns ws h
  induction h generalizing ws with
  | nil => intro h; cases h; rfl
  | cons a _ ih =>
    intro h
    cases h with
    | cons h1 h2 =>
      obtain ⟨size, rfl⟩ := a
      rw [ih _ h2]
      simp only [Spec.Shown] at h1
      simp [h1]

theorem nats_shape {vs : List Val} {ns : List Nat} (h : List.Forall₂ Spec.IsNat vs ns) :
    Spec.DatesOk vs ∧ ∀ v ∈ vs.head?, (∀ n, v ≠ .obname n) ∧ (∀ r, v ≠ .objref r) ∧
      ∀ t, v ≠ .attref t := by
  constructor
  · intro t ht
    exfalso
    induction h with
    | nil => cases ht
    | cons a _ ih =>
      obtain ⟨size, rfl⟩ := a
      rcases List.mem_cons.1 ht with h | h
      · cases h
      · exact ih h
  · cases h with
    | nil => simp
    | cons a _ => obtain ⟨size, rfl⟩ := a; simp

theorem describes_chan {e : Env} (hd : Spec.ReadsUtf8 e.dec) {o : BasicObject} {ch : Chan}
    {c : Reprc} (h : Spec.Describes e o ch c) (hcopy : o.name.copy < 256) (s : Store) :
    chanOf e s (e.promote o) = some ch := by
  have hpl : Spec.PlainText o.name.id := ⟨h.noNul, _, h.name⟩
  obtain ⟨fp, hfp, hut⟩ := h.fingerprint
  rw [h.origin, h.copy] at hfp
  have h1 : (e.promote o).fingerprint e = some (.str ch.fingerprint) := by
    rw [fingerprint_dec hd h.type plain_channel (by decide +kernel) hpl hcopy hfp,
      hd fp _ hut (plain_fingerprint plain_channel hpl hfp).1]
  have h2 : (e.promote o).name = .str ch.name := hd _ _ h.name h.noNul
  have h3 : channelReprc e s o = some (some c.code) := by
    obtain ⟨v, ⟨a, ha, hlab, hqa, rc, hv⟩, hnat⟩ := h.code
    have hns : List.Forall₂ Spec.IsNat [v] [c.code] := .cons hnat .nil
    obtain ⟨ws, r, g1, g2, g3⟩ := c35_value_partial e channelRules s o a h.labels ha h.quiet hqa
      rc [v] hv (by simp) (nats_shape hns).1 (Or.inr (nats_shape hns).2)
    have hl : e.dec a.label = .str (text "REPRESENTATION-CODE") := by
      rw [hlab]; exact dec_ascii hd _ (by decide +kernel)
    rw [hl] at g1 g3
    have hp : Spec.parsing channelRules (.str (text "REPRESENTATION-CODE")) = .scalar := by
      decide +kernel
    rw [hp, shown_nats _ _ _ hns g2] at g3
    obtain ⟨w, hw, rfl⟩ := g3
    obtain ⟨size, rfl⟩ := hnat
    simp only [List.map_cons, List.head?_cons, Option.mem_def, Option.some.injEq] at hw
    subst hw
    unfold channelReprc
    rw [g1]
    simp [natOf]
  have h4 : channelDimension e s o = some ch.dimension := by
    obtain ⟨vs, ⟨a, ha, hlab, hqa, rc, hv⟩, hns⟩ := h.dimension
    have hne : vs ≠ [] := by
      rintro rfl
      cases hh : ch.dimension.reverse with
      | nil => exact h.dims (by simpa using hh)
      | cons => rw [hh] at hns; cases hns
    obtain ⟨ws, r, g1, g2, g3⟩ := c35_value_partial e channelRules s o a h.labels ha h.quiet hqa
      rc vs hv hne (nats_shape hns).1 (Or.inr (nats_shape hns).2)
    have hl : e.dec a.label = .str (text "DIMENSION") := by
      rw [hlab]; exact dec_ascii hd _ (by decide +kernel)
    rw [hl] at g1 g3
    have hp : Spec.parsing channelRules (.str (text "DIMENSION")) = .reverse := by decide +kernel
    rw [hp, shown_nats _ _ _ hns g2] at g3
    obtain ⟨us, rfl, hlen, hus⟩ := g3
    have hrev : us = (vs.reverse).map (PyVal.raw rc) := by
      apply List.ext_getElem?
      intro i
      by_cases hi : i < vs.length
      · rw [hus i (by simpa using hi), List.map_reverse, List.getElem?_reverse (by simpa using hi)]
      · rw [List.getElem?_eq_none (by simp at hlen; omega), List.getElem?_eq_none (by simp; omega)]
    unfold channelDimension
    rw [g1]
    dsimp only
    rw [hrev]
    apply mapM_natOf
    have := List.rel_reverse hns
    simpa using this
  unfold chanOf
  rw [h1, h2]
  dsimp only
  show (match channelReprc e s o, channelDimension e s o with
    | some r, some d => some ⟨ch.name, o.name.origin, o.name.copy, ch.fingerprint, r, d⟩
    | _, _ => none : Option Chan) = _
  rw [h3, h4]
  dsimp only
  rw [← h.reprc, ← h.origin, ← h.copy]

theorem sets_fresh (recs : List (Bool × List Seg)) : Spec.Fresh (setsOf recs) := by
  intro x hx
  obtain ⟨r, -, hr⟩ := List.mem_filterMap.1 hx
  split at hr
  · rcases h : ObjectSet.new (recordData r.2) with e | y
    · rw [h] at hr; cases hr
    · rw [h] at hr; cases hr; exact ⟨_, h⟩
  · cases hr

theorem mapM_asChannel (os : List (Option PyObj)) :
    (os.map PyVal.obj).mapM asChannel = some os := by
  induction os with
  | nil => rfl
  | cons o os ih => simp [List.mapM_cons, asChannel, ih]

/-- `Frame.channels` gives the channels, whatever was done before. -/
theorem frameChannels_spec {e : Env} (hd : Spec.ReadsUtf8 e.dec) {p : List ObjectSet}
    (hf : Spec.Fresh p) {fr : BasicObject} {chans : List BasicObject}
    (h : Spec.HasChannels e p fr chans) (hist : List Spec.StoreOp) :
    ∃ more, (Spec.after e p hist).frameChannels e fr =
      (Spec.after e p (hist ++ more), some (chans.map fun o => some (e.promote o))) := by
  obtain ⟨refs, ⟨a, ha, hlab, hqa, rc, hv⟩, hrefs⟩ := h.channels
  have hl : e.dec a.label = .str (text "CHANNELS") := by
    rw [hlab]; exact dec_ascii hd _ (by decide +kernel)
  have hne : refs.map Val.obname ≠ [] := by
    intro h0
    rw [List.map_eq_nil_iff] at h0
    subst h0
    cases hrefs
    exact h.some rfl
  have hlink : frameRules.linkage (e.dec a.label) = some (.obname (.str (text "CHANNEL"))) := by
    rw [hl]; rfl
  have hch : e.dec (Fingerprint.ascii "CHANNEL") = .str (text "CHANNEL") :=
    dec_ascii hd _ (by decide +kernel)
  have hok : Spec.RefsOk e p (.obname (.str (text "CHANNEL"))) (refs.map .obname) := by
    intro v hvm
    obtain ⟨m, hm, rfl⟩ := List.mem_map.1 hvm
    refine ⟨fun t n ht => ?_, fun ht => by cases ht⟩
    simp only [Spec.target, Option.some.injEq, Prod.mk.injEq] at ht
    obtain ⟨rfl, rfl⟩ := ht
    have hm' : Spec.PlainText m.id ∧ m.id ≠ [] := by
      clear hv hne hvm h
      induction hrefs with
      | nil => cases hm
      | cons q _ ih =>
        rcases List.mem_cons.1 hm with rfl | hm
        · exact ⟨q.1, q.2.1⟩
        · exact ih hm
    have hstd := readsUtf8_toStd hd hm'.1
    refine ⟨?_, by unfold Spec.Stable; rw [hstd], ?_, ?_⟩
    · unfold Spec.Stable
      rw [← hch, readsUtf8_toStd hd plain_channel]
    · by_contra hc
      have : (e.dec m.id).toStd = [] := by
        cases hq : e.dec m.id <;> rw [hq] at hc <;> simp_all [PyStr.isEmpty, PyStr.toStd]
      exact hm'.2 (by rw [← hstd, this])
    · exact raises_quiet fun x hx h1 => h.calm x hx (by simpa [PyMatcher.run, eq_comm] using h1)
  obtain ⟨ws, r, g1, g2, g3⟩ := c35_linked_partial e frameRules p hf fr a h.labels ha h.quiet hqa
    rc _ hv hne _ hlink (by
      intro v hvm
      obtain ⟨m, -, rfl⟩ := List.mem_map.1 hvm
      exact Or.inl ⟨m, rfl⟩) hok
  have hws : ws = (chans.map fun o => some (e.promote o)).map PyVal.obj := by
    clear hv hne g2 g3 hok h
    induction hrefs generalizing ws with
    | nil => cases g1; rfl
    | cons q _ ih =>
      rw [List.map_cons] at g1
      cases g1 with
      | cons a1 a2 =>
        obtain ⟨x, rfl, hx⟩ := a1
        simp only [Spec.target] at hx
        rw [ih _ a2, hx.2.1 _ q.2.2]
        rfl
  have hp : Spec.parsing frameRules (e.dec a.label) = .vector := by rw [hl]; decide +kernel
  rw [hp] at g2
  obtain ⟨more, hm, -⟩ := c35_history e frameRules p fr (e.dec a.label) hist
  refine ⟨more, ?_⟩
  unfold Store.frameChannels
  rw [← hl]
  rcases hq : getItem e frameRules (Spec.after e p hist) fr (e.dec a.label) with ⟨s', r'⟩
  have h3 := g3 hist
  rw [hq] at h3 hm
  dsimp only at h3 hm
  subst h3 hm
  simp only [Spec.Presented] at g2
  subst g2
  dsimp only
  rw [hws, mapM_asChannel]

theorem chansOf_spec {e : Env} {s : Store} {os : List BasicObject} {chs : List (Chan × Reprc)}
    (h : List.Forall₂ (fun o p => chanOf e s (e.promote o) = some p.1) os chs) :
    chansOf e s (os.map fun o => some (e.promote o)) = some (chs.map fun p => some p.1) := by
  induction h with
  | nil => rfl
  | cons a _ ih => simp [chansOf, a, ih]

theorem code_inj {a b : Reprc} (h : a.code = b.code) : a = b := by
  revert h; revert a b; intro a b; cases a <;> cases b <;> simp [Reprc.code]

theorem fmtstr_some (chs : List (Chan × Reprc)) (h : ∀ p ∈ chs, p.1.reprc = some p.2.code ∧
    p.1.dimension ≠ []) : ∃ f, frameFmtstr (chs.map fun p => some p.1) = some f := by
  have : ∃ f, channelsFmtstr (chs.map fun p => some p.1) = some f := by
    induction chs with
    | nil => exact ⟨_, rfl⟩
    | cons p chs ih =>
      obtain ⟨f, hf⟩ := ih fun q hq => h q (by simp [hq])
      obtain ⟨h1, h2⟩ := h p (by simp)
      have h3 : ∃ c, pyFmt p.2.code = some c := by cases p.2 <;> exact ⟨_, rfl⟩
      obtain ⟨c, hc⟩ := h3
      simp [channelsFmtstr, Chan.fmtstr, h1, h2, hc, hf]
  obtain ⟨f, hf⟩ := this
  exact ⟨_, by unfold frameFmtstr; rw [hf]; rfl⟩

theorem data_unencrypted {r : Bool × List Seg} {type : Nat} {name : Dlis.Obname}
    (h : Spec.DataOf type name r) : (recordOf r.2).isencrypted = false := by
  have h1 := (recordOf_plain r.2).2 h.2.1
  generalize (recordOf r.2) = q at h1
  have : ∀ a : Byte, a.toNat / 2 ^ 4 % 2 = 0 → flag a SEGATTR_ENCRYPT = false := by
    decide +kernel
  exact this _ h1

/-! ## Theorems -/

/-- C65.  The curves of a frame of a file that was loaded: one row for each frame in the data
of this frame object, in the order of the file, with the value of each channel in its column; a
record that ends with something that is no frame gives the rows before it and one critical
message.  This holds whatever was looked up before.  Partial: names are UTF-8 without NUL, the
frame has channels, each of them is found, and has a code and dimensions. -/
theorem c65_curves_partial (e : Env) (hd : Spec.ReadsUtf8 e.dec) (dec0 : Bytes → PyStr)
    (hd0 : Spec.ReadsUtf8 dec0) (sul : Option Bytes) (f : Stored) (g : LogFile)
    (hg : Faithful e.policy sul f g) (hn : Spec.NamesPlain f)
    (stale : Nat → Bytes) (hst : ∀ t, 24 ≤ (stale t).length)
    (fr : BasicObject) (hfr : ∃ x ∈ setsOf f.recs, fr ∈ x.parse.objs)
    (ht : fr.type = Fingerprint.ascii "FRAME") (hname : Spec.PlainText fr.name.id)
    (os : List BasicObject) (hos : Spec.HasChannels e (setsOf f.recs) fr os)
    (chs : List (Chan × Reprc)) (hch : List.Forall₂ (fun o p => Spec.Describes e o p.1 p.2) os chs)
    (fmt : Text → Nat → Nat → Option Text) (strict : Bool) (dt : List Field)
    (hdt : frameDtype fmt (chs.map fun p => some p.1) strict = some dt)
    (per : List (List (List (List Item)) × Bool))
    (hrows : List.Forall₂ (fun r p => Spec.Gives
        (Spec.columns (chs.map fun p => (p.1.dimension.prod, p.2))) (recordData r.2) p.1 p.2)
      (f.recs.filter fun r => decide (Spec.DataOf 0 fr.name r)) per)
    (hp : e.policy .critical = false ∨ ∀ p ∈ per, p.2 = false) (hist : List Spec.StoreOp) :
    ∃ d logs more, (Spec.after e g.sets hist).frameCurves e g.src (pyFdata dec0 g.fdata) stale fmt
        strict (e.promote fr) = (Spec.after e g.sets (hist ++ more), .array d logs) ∧
      d.allocated = (per.flatMap Prod.fst).length ∧ d.overrun = false ∧
      logs.count .critical = per.countP (·.2) ∧ (∀ s ∈ logs, s = .minor ∨ s = .critical) ∧
      ∀ (i : Nat) (row : List (List Item)), (per.flatMap Prod.fst)[i]? = some row →
        row.length = dt.length ∧ ∀ (j : Nat) (cell : List Item), row[j]? = some cell →
          RowAt d.mem (i * itemsize dt + fieldOffset dt j) cell := by
  have hfresh := sets_fresh f.recs
  rw [hg.sets]
  obtain ⟨x, hx, hfx⟩ := hfr
  have hcopy := fresh_obj_copy (hfresh x hx) fr hfx
  -- the channels
  have hos' : ∀ o ∈ os, o.name.copy < 256 := by
    obtain ⟨refs, -, hrefs⟩ := hos.channels
    clear hch hos
    induction hrefs with
    | nil => simp
    | @cons n o _ _ q _ ih =>
      intro o' ho'
      rcases List.mem_cons.1 ho' with rfl | ho'
      · have hm : e.promote o' ∈ Spec.allObjects e (setsOf f.recs) :=
          List.mem_of_mem_filter (by rw [q.2.2]; exact List.mem_singleton.2 rfl)
        obtain ⟨-, y, hy, hoy⟩ := promote_of_mem hm
        exact fresh_obj_copy (hfresh y hy) _ hoy
      · exact ih o' ho'
  have hchan : ∀ s, chansOf e s (os.map fun o => some (e.promote o)) =
      some (chs.map fun p => some p.1) := by
    intro s
    apply chansOf_spec
    clear hos hdt hrows
    induction hch with
    | nil => exact .nil
    | cons a _ ih =>
      exact .cons (describes_chan hd a (hos' _ (by simp)) s) (ih fun o ho => hos' o (by simp [ho]))
  have hcode : ∀ p ∈ chs, p.1.reprc = some p.2.code ∧ p.1.dimension ≠ [] := by
    clear hos hdt hrows hchan hos'
    induction hch with
    | nil => simp
    | cons a _ ih =>
      intro p hp
      rcases List.mem_cons.1 hp with rfl | hp
      · exact ⟨a.reprc, a.dims⟩
      · exact ih p hp
  obtain ⟨fs, hfs⟩ := fmtstr_some chs hcode
  obtain ⟨chs', hc1, hc2, hl⟩ := c30_layout fmt _ strict dt fs hdt hfs
  have hsame : chs' = chs := by
    clear hl hfs hdt hrows hchan hch
    induction chs generalizing chs' with
    | nil => simpa using hc1.symm
    | cons p chs ih =>
      cases chs' with
      | nil => simp at hc1
      | cons q chs' =>
        simp only [List.map_cons, List.cons.injEq, Option.some.injEq] at hc1
        rw [ih (fun r hr => hcode r (by simp [hr])) chs' hc1.2 fun r hr => hc2 r (by simp [hr])]
        have h1 := (hcode p (by simp)).1
        have h2 := hc2 q (by simp)
        rw [← hc1.1, h1, Option.some.injEq] at h2
        congr 1
        exact Prod.ext hc1.1.symm (code_inj h2).symm
  subst hsame
  dsimp only at hl
  generalize hcols : Spec.columns (chs'.map (fun p => (p.1.dimension.prod, p.2))) = cols at hl hrows
  obtain ⟨rfl, hsize, hlen, hoff⟩ := hl
  have hne : cols.flatten ≠ [] := by rw [← hcols]; simp [Spec.columns]
  -- the records
  obtain ⟨key, hkey⟩ : ∃ key, Spec.Fingerprint (kindOf 0) fr.name.id fr.name.origin fr.name.copy key :=
    ⟨_, (c22_text _ _ _ _ (kind_ne 0) _).1 (fingerprint_eq _ _ _ _ (kind_ne 0))⟩
  have hfp := fingerprint_dec hd ht plain_frame (by decide +kernel) hname hcopy hkey
  have hidx := indices_data hg hn hd0 hd (type := 0) (by omega) fr.name hname key hkey
  rw [← located_filter (fun r => decide (Spec.DataOf 0 fr.name r)) 0] at hrows
  obtain ⟨per', k1, k2, k3, k4, k5⟩ := gives_contributes (policy := e.policy) (src := g.src) (by
    intro y hy
    obtain ⟨hy1, hy2⟩ := List.mem_filter.1 hy
    exact ⟨hg.records y hy1, data_unencrypted (of_decide_eq_true hy2)⟩) hrows
  obtain ⟨d, r1, r2, r3, r4⟩ := c29_rows e.policy g.src stale hst cols.flatten hne _ per'
    (hp.imp id k5) k1
  obtain ⟨m1, hm1⟩ := frameChannels_spec hd hfresh hos hist
  obtain ⟨m2, hm2⟩ := frameChannels_spec hd hfresh hos (hist ++ m1)
  refine ⟨d, per'.flatMap Prod.snd, m1 ++ m2, ?_, by rw [r2, k2, List.length_map], r3, k3, k4, ?_⟩
  · unfold Store.frameCurves
    show (match (Spec.after e (setsOf f.recs) hist).frameChannels e fr with
      | (s, none) => (s, .raised)
      | (s, some os) => _ : Store × FdataResult) = _
    simp only [hm1, hchan, Option.bind_some, hdt]
    rw [show (e.promote fr).attic = fr from rfl]
    simp only [hm2, hchan, Option.bind_some, hfs, hfp]
    rw [hidx, hsize, r1, List.append_assoc]
  · intro i row hrow
    obtain ⟨q, hq, hqr⟩ := List.mem_flatMap.1 (List.mem_of_getElem? hrow)
    have hcells : ∃ b, Spec.Cells cols row b := by
      clear k1 k2 k3 k4 k5 hrow
      generalize ((located 0 f.recs).filter fun x =>
        decide (Spec.DataOf 0 fr.name x.2)).map (·.2) = l at hrows
      induction hrows with
      | nil => cases hq
      | cons a _ ih =>
        rcases List.mem_cons.1 hq with rfl | hq
        · exact gives_cells a row hqr
        · exact ih (hp.imp id fun h p hp => h p (by simp [hp])) hq
    obtain ⟨b, hb⟩ := hcells
    refine ⟨by rw [cells_length hb, hlen], ?_⟩
    intro j cell hcell
    have hj : j < cols.length := by
      rw [← cells_length hb]; exact (List.getElem?_eq_some_iff.1 hcell).1
    have hrowAt := r4 i row.flatten (by rw [k2, List.getElem?_map, hrow]; rfl)
    have := cells_at hb _ hrowAt j cell hcell
    rw [hsize, (hoff j _ _ (List.getElem?_eq_getElem (by omega))
      (List.getElem?_eq_getElem hj)).1]
    exact this

/-- C65.  The same from the bytes on disk: a label and any number of logical files. -/
theorem c65_disk_partial (e : Env) (hd : Spec.ReadsUtf8 e.dec) (dec0 : Bytes → PyStr)
    (hd0 : Spec.ReadsUtf8 dec0) (stale : Nat → Bytes) (hst : ∀ t, 262 ≤ (stale t).length)
    (hm : e.policy .minor = false) (sul : Bytes) (hsul : Spec.StorageLabel sul)
    (fs : List Stored) (hf : ∀ f ∈ fs, Spec.Loadable e.policy f)
    (hl : (sul ++ fs.flatMap Stored.bytes).length < 2 ^ 63 - 1) (n : Nat)
    (hn : fs.length + 2 ≤ n) :
    ∃ y, load (rawDisk (sul ++ fs.flatMap Stored.bytes)) e.policy stale n = (y, .files) ∧
      y.files.length = fs.length ∧ ∀ (k : Nat) (f : Stored) (g : LogFile), fs[k]? = some f →
      y.files[k]? = some g → Spec.NamesPlain f → ∀ (fr : BasicObject),
      (∃ x ∈ setsOf f.recs, fr ∈ x.parse.objs) → fr.type = Fingerprint.ascii "FRAME" →
      Spec.PlainText fr.name.id → ∀ (os : List BasicObject) (chs : List (Chan × Reprc)),
      Spec.HasChannels e (setsOf f.recs) fr os →
      List.Forall₂ (fun o p => Spec.Describes e o p.1 p.2) os chs →
      ∀ fmt strict dt, frameDtype fmt (chs.map fun p => some p.1) strict = some dt →
      ∀ per : List (List (List (List Item)) × Bool),
      List.Forall₂ (fun r p => Spec.Gives
          (Spec.columns (chs.map fun p => (p.1.dimension.prod, p.2))) (recordData r.2) p.1 p.2)
        (f.recs.filter fun r => decide (Spec.DataOf 0 fr.name r)) per →
      (e.policy .critical = false ∨ ∀ p ∈ per, p.2 = false) → ∀ hist,
      ∃ d logs, ((Spec.after e g.sets hist).frameCurves e g.src (pyFdata dec0 g.fdata) stale fmt
          strict (e.promote fr)).2 = .array d logs ∧
        d.allocated = (per.flatMap Prod.fst).length ∧ d.overrun = false ∧
        logs.count .critical = per.countP (·.2) ∧
        ∀ (i : Nat) (row : List (List Item)), (per.flatMap Prod.fst)[i]? = some row →
          row.length = dt.length ∧ ∀ (j : Nat) (cell : List Item), row[j]? = some cell →
            RowAt d.mem (i * itemsize dt + fieldOffset dt j) cell := by
  obtain ⟨y, h1, h2⟩ := c40_split e.policy stale hst hm sul hsul fs hf hl n hn
  refine ⟨y, h1, h2.length_eq.symm, ?_⟩
  intro k f g hk hgk hnp fr hfr ht hname os chs hos hch fmt strict dt hdt per hrows hp hist
  have hg : Faithful e.policy (some sul) f g := by
    have hk1 := (List.getElem?_eq_some_iff.1 hk)
    have hk2 := (List.getElem?_eq_some_iff.1 hgk)
    have := List.Forall₂.get h2 hk1.1 hk2.1
    simpa [hk1.2, hk2.2] using this
  obtain ⟨d, logs, more, r1, r2, r3, r4, -, r5⟩ := c65_curves_partial e hd dec0 hd0 (some sul) f g hg hnp
    stale (fun t => by have := hst t; omega) fr hfr ht hname os hos chs hch fmt strict dt hdt per
    hrows hp hist
  exact ⟨d, logs, by rw [r1], r2, r3, r4, r5⟩

/-- C65.  The data of an unformatted data object are what follows the name in the records that
begin with its name, in the order of the file; nothing critical is reported.  Partial: names are
UTF-8 without NUL. -/
theorem c65_noformat_partial (e : Env) (hd : Spec.ReadsUtf8 e.dec) (dec0 : Bytes → PyStr)
    (hd0 : Spec.ReadsUtf8 dec0) (sul : Option Bytes) (f : Stored) (g : LogFile)
    (hg : Faithful e.policy sul f g) (hn : Spec.NamesPlain f) (stale : Nat → Bytes)
    (o : BasicObject) (ho : ∃ x ∈ setsOf f.recs, o ∈ x.parse.objs)
    (ht : o.type = Fingerprint.ascii "NO-FORMAT") (hname : Spec.PlainText o.name.id) :
    ∃ ps logs, noformatData e g.src (pyFdata dec0 g.fdata) stale (e.promote o) =
        .bytes ps.flatten logs ∧ Severity.critical ∉ logs ∧
      List.Forall₂ (fun r p => ∃ enc, Spec.Obname o.name.origin o.name.copy o.name.id enc ∧
        recordData r.2 = enc ++ p) (f.recs.filter fun r => decide (Spec.DataOf 1 o.name r)) ps := by
  obtain ⟨x, hx, hox⟩ := ho
  have hcopy := fresh_obj_copy (sets_fresh f.recs x hx) o hox
  obtain ⟨key, hkey⟩ : ∃ key, Spec.Fingerprint (kindOf 1) o.name.id o.name.origin o.name.copy key :=
    ⟨_, (c22_text _ _ _ _ (kind_ne 1) _).1 (fingerprint_eq _ _ _ _ (kind_ne 1))⟩
  have hfp := fingerprint_dec hd ht plain_noformat (by decide +kernel) hname hcopy hkey
  have hidx := indices_data hg hn hd0 hd (type := 1) (by omega) o.name hname key hkey
  have main : ∀ l : List (Nat × Bool × List Seg), (∀ y ∈ l, y ∈ located 0 f.recs ∧
      Spec.DataOf 1 o.name y.2) → ∃ per : List (Bytes × List Severity),
      List.Forall₂ (fun t p => Adds e.policy g.src t p.1 p.2) (l.map (·.1)) per ∧
      (∀ p ∈ per, Severity.critical ∉ p.2) ∧
      List.Forall₂ (fun r p => ∃ enc, Spec.Obname o.name.origin o.name.copy o.name.id enc ∧
        recordData r.2 = enc ++ p) (l.map (·.2)) (per.map Prod.fst) := by
    intro l
    induction l with
    | nil => intro _; exact ⟨[], .nil, by simp, .nil⟩
    | cons y l ih =>
      intro h
      obtain ⟨per, k1, k2, k3⟩ := ih fun z hz => h z (by simp [hz])
      obtain ⟨hy1, -, -, -, enc, rest, hy2, hy3⟩ := h y (by simp)
      obtain ⟨m, hm⟩ := hg.records y hy1
      refine ⟨(rest, List.replicate m .minor) :: per,
        .cons (.intact hm ⟨_, _, _, enc, hy2, hy3⟩) k1, ?_, .cons ⟨enc, hy2, hy3⟩ k3⟩
      intro p hp
      rcases List.mem_cons.1 hp with rfl | hp
      · intro hc
        exact absurd (List.eq_of_mem_replicate hc) (by simp)
      · exact k2 p hp
  obtain ⟨per, k1, k2, k3⟩ := main ((located 0 f.recs).filter fun y =>
    decide (Spec.DataOf 1 o.name y.2)) fun y hy => by
      obtain ⟨h1, h2⟩ := List.mem_filter.1 hy
      exact ⟨h1, of_decide_eq_true h2⟩
  refine ⟨per.map Prod.fst, per.flatMap Prod.snd, ?_, ?_, ?_⟩
  · unfold noformatData
    rw [hfp]
    dsimp only
    rw [hidx, c32_concat e.policy g.src stale _ per (Or.inr k2) k1, List.flatMap_def]
  · intro hc
    obtain ⟨p, hp, hc⟩ := List.mem_flatMap.1 hc
    exact k2 p hp hc
  · rw [← located_filter (fun r => decide (Spec.DataOf 1 o.name r)) 0]
    exact k3

/-- C65.  The condition on decoding holds for any encodings that are set. -/
theorem c65_decoding (encs : List Encoding) : Spec.ReadsUtf8 (StoreCase.decWith encs) := by
  intro bs t h h0
  unfold StoreCase.decWith
  rw [c56_utf8_partial encs false bs h0 t h]
  rfl

/-! ## Cases and defects -/

namespace EndToEndCase

open StoreCase

/-- An identifier. -/
def ident (s : Bytes) : Bytes := BitVec.ofNat 8 s.length :: s

/-- The name of an object with origin 1 and copy number 0. -/
def nameOf (s : Bytes) : Bytes := [1, 0] ++ ident s

/-- A set with the channels "D", a single, and "I", an array of 2 x 3 bytes. -/
def channelSet : Bytes :=
  [0xf0] ++ ident (Fingerprint.ascii "CHANNEL") ++
  [0x34] ++ ident (Fingerprint.ascii "REPRESENTATION-CODE") ++ [15] ++
  [0x34] ++ ident (Fingerprint.ascii "DIMENSION") ++ [18] ++
  [0x70] ++ nameOf [0x44] ++ [0x21, 2, 0x21, 1] ++
  [0x70] ++ nameOf [0x49] ++ [0x21, 15, 0x29, 2, 3, 2]

/-- A set with frames that have both channels. -/
def frameSet (names : List Bytes) : Bytes :=
  [0xf0] ++ ident (Fingerprint.ascii "FRAME") ++
  [0x34] ++ ident (Fingerprint.ascii "CHANNELS") ++ [23] ++
  names.flatMap fun n => [0x70] ++ nameOf n ++ [0x29, 2] ++ nameOf [0x44] ++ nameOf [0x49]

/-- A frame: its number, the value of "D" and those of "I". -/
def frame (k : Byte) : Bytes := [k, 0x3f, 0x80, 0, k, k, 2, 3, 4, 5, 6]

/-- The records of a logical file. -/
def recs (names : List Bytes) (data : List (Bytes × Bytes)) : List (Bool × List Seg) :=
  [(true, [exHeader]), (true, [exSeg 0x80 3 channelSet]), (true, [exSeg 0x80 4 (frameSet names)])] ++
  data.map fun x => (false, [exSeg 0 0 (nameOf x.1 ++ x.2)])

/-- The logical file, each record in a visible record. -/
def stored (names : List Bytes) (data : List (Bytes × Bytes)) : Stored :=
  ⟨recs names data, (recs names data).map fun r => recordBytes r.2⟩

/-- An array: its length, whether there was an overrun, the first item of each of the fields
at these offsets, and what was logged. -/
def view (offsets : List Nat) : FdataResult → Option (Nat × Bool × List (Option (Item × Nat)) × List Severity)
  | .array d logs => some (d.allocated, d.overrun, offsets.map d.mem, logs)
  | _ => none

/-- The curves of the frame with this name, from the bytes on disk.  The encodings when the
file is loaded and afterwards may differ. -/
def curvesOf (encs0 encs : List Encoding) (f : Stored) (name : Bytes) (offsets : List Nat) :
    Option (Nat × Bool × List (Option (Item × Nat)) × List Severity) :=
  match (load (rawDisk (exLabel ++ f.bytes)) exPolicy exStale 4).1.files with
  | [g] =>
    match g.sets.flatMap (fun x => x.parse.objs.filter fun o =>
        o.type = Fingerprint.ascii "FRAME" ∧ o.name.id = name) with
    | [fr] =>
      let e : Env := { envWith encs with policy := exPolicy }
      view offsets ((Spec.after e g.sets []).frameCurves e g.src (pyFdata (decWith encs0) g.fdata)
        exStale defaultFmt true (e.promote fr)).2
    | _ => none
  | _ => none

def A : Bytes := [0x41]
def B : Bytes := [0x42]

/-- The frame numbers of the curves, and what was logged. -/
def framenos (encs0 encs : List Encoding) (f : Stored) (name : Bytes) :
    Option (List (Option Item) × List Severity) :=
  match curvesOf encs0 encs f name ((List.range 4).map (· * 14)) with
  | some (n, false, its, logs) => some ((its.take n).map (·.map Prod.fst), logs)
  | _ => none

/-- A frame number. -/
def no (k : Nat) : Option Item := some (.host (.int 4 k))

/-- Two frames; the records of "A" are not adjacent. -/
def twoFrames : Stored :=
  stored [A, B] [(A, frame 1 ++ frame 2), (B, frame 9), (A, frame 3)]

/-- C65: the curves of both frames. -/
example : framenos [] [] twoFrames A = some ([no 1, no 2, no 3], []) ∧
    framenos [] [] twoFrames B = some ([no 9], []) := by
  decide +kernel

/-- The objects of the file: "D", "I", "A" and "B". -/
def chanD : BasicObject :=
  ⟨⟨1, 0, [0x44]⟩, Fingerprint.ascii "CHANNEL",
    [{ label := Fingerprint.ascii "REPRESENTATION-CODE", reprc := some .ushort,
       value := some (.ushort, [.int 1 2]) },
     { label := Fingerprint.ascii "DIMENSION", reprc := some .uvari,
       value := some (.uvari, [.int 4 1]) }], []⟩

def chanI : BasicObject :=
  ⟨⟨1, 0, [0x49]⟩, Fingerprint.ascii "CHANNEL",
    [{ label := Fingerprint.ascii "REPRESENTATION-CODE", reprc := some .ushort,
       value := some (.ushort, [.int 1 15]) },
     { label := Fingerprint.ascii "DIMENSION", reprc := some .uvari, count := 2,
       value := some (.uvari, [.int 4 3, .int 4 2]) }], []⟩

def frameA : BasicObject :=
  ⟨⟨1, 0, A⟩, Fingerprint.ascii "FRAME",
    [{ label := Fingerprint.ascii "CHANNELS", reprc := some .obname, count := 2,
       value := some (.obname, [.obname ⟨1, 0, [0x44]⟩, .obname ⟨1, 0, [0x49]⟩]) }], []⟩

example : ((setsOf twoFrames.recs).flatMap (·.parse.objs)).take 3 = [chanD, chanI, frameA] := by
  decide +kernel

/-- What the channels are. -/
def chans : List (Chan × Reprc) :=
  [(⟨text "D", 1, 0, text "T.CHANNEL-I.D-O.1-C.0", some 2, [1]⟩, .fsingl),
   (⟨text "I", 1, 0, text "T.CHANNEL-I.I-O.1-C.0", some 15, [2, 3]⟩, .ushort)]

theorem utf8_case (s : String) (h : (∀ b ∈ Fingerprint.ascii s, b.toNat < 128) ∧
    (Fingerprint.ascii s).map (·.toNat) = text s) :
    Dlisio.Spec.Utf8 (text s) (Fingerprint.ascii s) := by
  rw [← h.2]; exact utf8_ascii h.1

/-- Case: the conditions of C65 on the objects hold for this file. -/
theorem case_objects : Spec.HasChannels env (setsOf twoFrames.recs) frameA [chanD, chanI] ∧
    List.Forall₂ (fun o p => Spec.Describes env o p.1 p.2) [chanD, chanI] chans := by
  have dig : Fingerprint.Canonical [0x31] 1 ∧ Fingerprint.Canonical [0x30] 0 := by
    unfold Fingerprint.Canonical Spec.Digits; decide +kernel
  refine ⟨⟨by unfold Spec.LabelsOk; decide +kernel, by unfold Spec.Quiet; decide +kernel,
    by unfold Spec.SetQuiet; decide +kernel, by simp,
    [⟨1, 0, [0x44]⟩, ⟨1, 0, [0x49]⟩], ⟨_, List.mem_singleton.2 rfl, rfl, by simp [Spec.Quiet], _, rfl⟩,
    .cons ⟨plain_ascii (by decide), by simp, by decide +kernel⟩
      (.cons ⟨plain_ascii (by decide), by simp, by decide +kernel⟩ .nil)⟩,
    .cons ?_ (.cons ?_ .nil)⟩
  · refine ⟨by unfold Spec.LabelsOk; decide +kernel, by unfold Spec.Quiet; decide +kernel, rfl,
      by decide, utf8_case "D" (by decide +kernel), rfl, rfl,
      ⟨Fingerprint.ascii "T.CHANNEL-I.D-O.1-C.0", ⟨_, _, dig.1, dig.2, by decide +kernel⟩,
        utf8_case _ (by decide +kernel)⟩,
      ⟨_, ⟨_, List.mem_cons_self, rfl, by simp [Spec.Quiet], _, rfl⟩, 1, rfl⟩, rfl,
      ⟨_, ⟨_, List.mem_cons_of_mem _ List.mem_cons_self, rfl, by simp [Spec.Quiet], _, rfl⟩,
        .cons ⟨4, rfl⟩ .nil⟩, by simp⟩
  · refine ⟨by unfold Spec.LabelsOk; decide +kernel, by unfold Spec.Quiet; decide +kernel, rfl,
      by decide, utf8_case "I" (by decide +kernel), rfl, rfl,
      ⟨Fingerprint.ascii "T.CHANNEL-I.I-O.1-C.0", ⟨_, _, dig.1, dig.2, by decide +kernel⟩,
        utf8_case _ (by decide +kernel)⟩,
      ⟨_, ⟨_, List.mem_cons_self, rfl, by simp [Spec.Quiet], _, rfl⟩, 1, rfl⟩, rfl,
      ⟨_, ⟨_, List.mem_cons_of_mem _ List.mem_cons_self, rfl, by simp [Spec.Quiet], _, rfl⟩,
        .cons ⟨4, rfl⟩ (.cons ⟨4, rfl⟩ .nil)⟩, by simp⟩

/-- Case: the names in the data are plain, the data of "A" are the first and the third record, and
the columns have 4, 4 and 6 bytes. -/
example : Spec.NamesPlain twoFrames ∧
    (twoFrames.recs.filter fun r => decide (Spec.DataOf 0 frameA.name r)).map (fun r => recordData r.2) =
      [nameOf A ++ (frame 1 ++ frame 2), nameOf A ++ frame 3] ∧
    (frameDtype defaultFmt (chans.map fun p => some p.1) true).map
      (fun dt => (itemsize dt, (List.range 3).map (fieldOffset dt))) = some (14, [0, 4, 8]) := by
  refine ⟨?_, by decide +kernel, by decide +kernel⟩
  intro r hr type _ name hd
  have key : ∀ r ∈ twoFrames.recs, r.1 = false →
      (obname (recordData r.2)).map (·.1.id) = some A ∨
      (obname (recordData r.2)).map (·.1.id) = some B := by decide +kernel
  obtain ⟨h1, -, -, e, rest, ho, hx⟩ := hd
  have hob := (c05_obname_decodes _ name rest).2 ⟨e, ho, hx⟩
  have := key r hr h1
  rw [hob] at this
  simp only [Option.map_some, Option.some.injEq] at this
  rcases this with h | h <;> rw [h] <;> exact plain_ascii (by decide)

/-- The cells of a frame of this file. -/
def cellsOf (k : Byte) : List (List Item) :=
  [[.host (.int 4 k.toNat)], [.host (.f32 (0x3f8000#24 ++ k))],
   ([k, 2, 3, 4, 5, 6] : Bytes).map fun b => .host (.int 1 b.toNat)]

theorem frame_cells (k : Byte) (hk : k.toNat < 128) :
    Spec.Cells (Spec.columns (chans.map fun p => (p.1.dimension.prod, p.2))) (cellsOf k) (frame k) := by
  have h1 : RowEnc [.uvari] [.host (.int 4 k.toNat)] [k] := by
    have := RowEnc.cons (c := .uvari) (v := .int 4 k.toNat) (e := [k]) (cs := []) (row := [])
      (es := []) ⟨k.toNat, rfl, Or.inl ⟨rfl, by simp [beNat], by simpa using hk⟩⟩ trivial .nil
    simpa [items, isObject, Val.cells] using this
  have h2 : RowEnc [.fsingl] [.host (.f32 (0x3f8000#24 ++ k))] [0x3f, 0x80, 0, k] := by
    have := RowEnc.cons (c := .fsingl) (v := .f32s [0x3f8000#24 ++ k]) (e := [0x3f, 0x80, 0, k])
      (cs := []) (row := []) (es := []) (by
        have : ∀ k : Byte, Spec.Enc .fsingl (.f32s [0x3f8000#24 ++ k]) [0x3f, 0x80, 0, k] := by
          unfold Spec.Enc; decide +kernel
        exact this k) trivial .nil
    simpa [items, isObject, Val.cells] using this
  have h3 : ∀ bs : Bytes, RowEnc (List.replicate bs.length .ushort)
      (bs.map fun b => .host (.int 1 b.toNat)) bs := by
    intro bs
    induction bs with
    | nil => exact .nil
    | cons b bs ih =>
      have := RowEnc.cons (c := .ushort) (v := .int 1 b.toNat) (e := [b]) ⟨rfl, by simp [beNat]⟩
        trivial ih
      rw [List.length_cons, List.replicate_succ]
      simpa [items, isObject, Val.cells] using this
  exact .cons h1 (.cons h2 (.cons (h3 [k, 2, 3, 4, 5, 6]) .nil))

/-- Case: a record with two frames, and one that is cut off within the second. -/
example : Spec.Gives (Spec.columns (chans.map fun p => (p.1.dimension.prod, p.2)))
      (nameOf A ++ (frame 1 ++ (frame 2 ++ []))) [cellsOf 1, cellsOf 2] false ∧
    Spec.Gives (Spec.columns (chans.map fun p => (p.1.dimension.prod, p.2)))
      (nameOf A ++ ((frame 3 ++ []) ++ ([4] ++ [0x3f, 0x80]))) [cellsOf 3] true := by
  have hn : Spec.Obname 1 0 A (nameOf A) := by
    obtain ⟨e, h1, h2⟩ := (c05_obname_decodes (nameOf A) ⟨1, 0, A⟩ []).1 (by decide)
    rw [List.append_nil] at h2
    rw [h2]; exact h1
  refine ⟨.whole rfl hn (.cons (frame_cells 1 (by decide)) (.cons (frame_cells 2 (by decide)) .nil)),
    .cut rfl hn (.cons (frame_cells 3 (by decide)) .nil) (by simp) ?_⟩
  refine .later (v := .int 4 4) (c := .uvari) (e := [4]) ⟨4, rfl, Or.inl ⟨rfl, rfl, by decide⟩⟩ trivial
    (.short (by decide) ?_)
  rintro v e r he hx
  obtain ⟨h1, -⟩ := he
  have := congrArg List.length hx
  simp [h1] at this
  omega

/-- C65 is violated if the encodings are changed after the file was loaded: the frame "é" in
ISO 8859-1 has two rows, but its curves are empty, and nothing is logged. -/
theorem c65_encodings_defect :
    let f := stored [[0xE9]] [([0xE9], frame 1 ++ frame 2)]
    framenos [latin1] [latin1] f [0xE9] = some ([no 1, no 2], []) ∧
    framenos [] [] f [0xE9] = some ([no 1, no 2], []) ∧
    framenos [] [latin1] f [0xE9] = some ([], []) ∧
    framenos [latin1] [] f [0xE9] = some ([], []) := by
  decide +kernel

/-- C65 is violated by names with a NUL: the frame "A␀B" has a row, but its curves are empty, and
nothing is logged. -/
theorem c65_nul_defect :
    framenos [] [] (stored [[0x41, 0, 0x42]] [([0x41, 0, 0x42], frame 1)]) [0x41, 0, 0x42] =
      some ([], []) := by
  decide +kernel

/-- C65 is violated by another frame whose name has a NUL: the curves of "A" are those of the
frame "A-O.1-C.0␀B", whose own curves are empty. -/
theorem c65_stolen_defect :
    let other := Fingerprint.ascii "A-O.1-C.0" ++ [0, 0x42]
    let f := stored [A, other] [(A, frame 1 ++ frame 2), (other, frame 9)]
    framenos [] [] f A = some ([no 9], []) ∧ framenos [] [] f other = some ([], []) := by
  decide +kernel

/-- C65 is violated by two frames whose names are the same text in different encodings: the
curves of both are those of the frame in ISO 8859-1. -/
theorem c65_two_encodings_defect :
    let f := stored [[0xC3, 0xA9], [0xE9]] [([0xC3, 0xA9], frame 1 ++ frame 2), ([0xE9], frame 9)]
    framenos [latin1] [latin1] f [0xC3, 0xA9] = some ([no 9], []) ∧
    framenos [latin1] [latin1] f [0xE9] = some ([no 9], []) ∧
    framenos [] [] f [0xC3, 0xA9] = some ([no 1, no 2], []) := by
  decide +kernel

end EndToEndCase

end Dlisio.Dlis
