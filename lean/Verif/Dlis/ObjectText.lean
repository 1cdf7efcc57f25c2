/-
The text of the summaries of objects: `BasicObject.describe` (python/dlisio/dlis/basicobject.py:283-345)
with the headers and the layout, which Describe.lean leaves out.  C85.

The order of two things is simplified: the summary of an object that is the description of another
one is made after the rows of that other one.  What is given is how floating point numbers, bytes and lists
of different things are written, and `np.array2string`.
-/
import Verif.Dlis.DescribeProps
import Verif.Dlis.SummaryText

namespace Dlisio.Dlis

open _root_.Dlisio.Dlis.Spec

/-! ## Model -/

/-- The headers with level 2: measurement.py:264 and 279, wellref.py:135, describe.py:151 and 193,
frame.py:514 and 521, and basicobject.py:341. -/
inductive Heading where
  | metadata | samples | coordinates | description | invalid | indexing | channels | unknown
deriving DecidableEq

/-- Their texts. -/
def Heading.words : Heading → String
  | .metadata => "Metadata"
  | .samples => "Samples"
  | .coordinates => "Coordinates"
  | .description => "Description"
  | .invalid => "Invalid dimensions"
  | .indexing => "Channel indexing"
  | .channels => "Channels"
  | .unknown => "Unknown attributes"

/-- What a summary is made of, behind its title. -/
inductive Passage where
  /-- `describe_header` with level 2 -/
  | header (t : Heading)
  /-- `describe_text` -/
  | note (t : String)
  /-- `describe_dict`, after `remove_empties` -/
  | table (rows : List Row)
  /-- `describe_array` of the names of the channels, frame.py:522 and 523 -/
  | channels (l : List PyVal)
  /-- `describe_array` of a text, message.py:114 and comment.py:40 -/
  | lines (r : PyResult)
  /-- the summary of another object, describe.py:150-152 -/
  | object (o : PyObj)

/-- The headers of some parts of `describe_attr`: measurement.py:264 and 279, wellref.py:135. -/
def headers : List (String × Nat × Heading) :=
  [("CALIBRATION-MEASUREMENT", 0, .metadata), ("CALIBRATION-MEASUREMENT", 1, .samples),
   ("WELL-REFERENCE", 1, .coordinates)]

/-- The header of a part, if it has one. -/
def headerOf (t : PyStr) (i : Nat) : List Passage :=
  match headers.find? (fun h => decide (t = .str (text h.1) ∧ i = h.2.1)) with
  | none => []
  | some h => [.header h.2.2]

/-- `describe_sampled_attrs`, describe.py:161-194. -/
def sampledParts (e : Env) (np : List PyVal → Option Nat) (ex : Options) (o : BasicObject)
    (dim : List PyVal) (values : List (String × String × Bool)) : Except DescErr (List Passage) :=
  match sampledLoop e np o dim values with
  | .error x => .error x
  | .ok rows =>
    let valids := (rows.filter (·.1)).map (·.2)
    let invs := (rows.filter (!·.1)).map (·.2)
    .ok ((if valids = [] then [] else [.table (describeDict ex valids)]) ++
      if ex.inv ∨ invs = [] then []
      else [.header .invalid, .table (describeDict ex invs)])

/-- `Frame.describe_attr`, frame.py:498-525. -/
def frameParts (e : Env) (ex : Options) (o : BasicObject) (s : Store) :
    Store × Except DescErr (List Passage) :=
  Store.andThen (s.prop e o "channels") fun s channels =>
    match channels with
    | .list [] => (s, .ok [.note "Frame has no channels"])
    | .list (index :: rest) =>
      let all : List Passage := [.header .channels, .channels (index :: rest)]
      Store.andThen (s.prop e o "index_type") fun s indexType =>
        if indexType = .none then
          (s, .ok (.note ("There is no index channel, channels are indexed " ++
            "by samplenumber, i.e [1,2,3,..,n]") :: all))
        else
          match index with
          | .obj (some ch) =>
            Store.andThen (s.prop e ch.attic "units") fun s units =>
              Store.andThen (describeAttributes e ex o s
                [(.str (text "Description"), .ofText (.str (text "DESCRIPTION"))),
                 (.str (text "Indexed by"), .ofText (.str (text "INDEX-TYPE"))),
                 (.str (text "Index units"), .res units),
                 (.str (text "Index min"), .ofText (.str (text "INDEX-MIN"))),
                 (.str (text "Index max"), .ofText (.str (text "INDEX-MAX"))),
                 (.str (text "Direction"), .ofText (.str (text "DIRECTION"))),
                 (.str (text "Constant spacing"), .ofText (.str (text "SPACING"))),
                 (.str (text "Index channel"), .res (.elem index))]) fun s rows =>
                (s, .ok (.header .indexing :: .table rows :: all))
          | _ => (s, .error (.prop .attribute))
    | _ => (s, .error (.prop .type))

/-- What one part of `describe_attr` writes: the tables of `describe_dict` and `describe_attributes`,
describe.py:196-242, and those of the others, describe.py:144-156, 161-194 and 263-301. -/
def Section.parts (e : Env) (np : List PyVal → Option Nat) (ex : Options) (o : BasicObject)
    (s : Store) : Section → Store × Except DescErr (List Passage)
  | .sampled none values => (s, sampledParts e np ex o [.raw .ushort (.int 1 1)] values)
  | .sampled (some dim) values =>
    Store.andThen (s.prop e o dim) fun s r =>
      (s, match r with
        | .list dim => sampledParts e np ex o dim values
        | _ => .error .numpy)
  | .description name =>
    Store.andThen (s.prop e o name) fun s r =>
      (s, .ok (if falsyResult r ∧ ex.empty then []
        else match r with
          | .elem (.obj (some x)) => [.header .description, .object x]
          | r => [.table (describeDict ex [(.str (text "Description"), .res r)])]))
  | .array name =>
    Store.andThen (s.prop e o name) fun s r =>
      (s, .ok (if falsyResult r then [] else [.lines r]))
  | .frame => frameParts e ex o s
  | .dict rows => Store.andThen (Section.run e np ex o s (.dict rows)) fun s rows => (s, .ok [.table rows])
  | .attributes rows =>
    Store.andThen (Section.run e np ex o s (.attributes rows)) fun s rows => (s, .ok [.table rows])
  | .coordinates =>
    Store.andThen (Section.run e np ex o s .coordinates) fun s rows => (s, .ok [.table rows])

/-- What is written about the attributes that are not known, basicobject.py:339-343. -/
def stashParts (e : Env) (ex : Options) (o : BasicObject) (s : Store) :
    Store × Except DescErr (List Passage) :=
  match stash e (rulesOf (e.dec o.type)) o with
  | none => (s, .error (.prop .type))
  | some [] => (s, .ok [])
  | some (_ :: _) => Store.andThen (describeStash e ex o s) fun s rows =>
      (s, .ok [.header .unknown, .table rows])

/-- What `BasicObject.describe` writes behind the title, basicobject.py:334-343. -/
def Store.describeParts (e : Env) (np : List PyVal → Option Nat) (s : Store) (o : BasicObject)
    (ex : Options) : Store × Except DescErr (List Passage) :=
  Store.andThen (if ex.attr then (s, .ok []) else
      Store.each (fun s (i, sec) => Store.andThen (Section.parts e np ex o s sec) fun s parts =>
        (s, .ok (headerOf (e.dec o.type) i ++ parts))) s
        ((sectionsOf (e.dec o.type)).zipIdx.map fun x => (x.2, x.1))) fun s parts =>
    Store.andThen (if ex.stash then (s, .ok []) else stashParts e ex o s) fun s unknown =>
      (s, .ok ((if ex.head then [] else [.table (describeDict ex (headerRows e o))]) ++
        parts.flatten ++ unknown))

/-- How values are written, as far as it is given: `repr` of bytes, `str.capitalize` of texts that
are not ASCII, all values that are not texts, and whether `str` raises for samples. -/
structure Printer where
  bytes : Bytes → Text
  capital : Text → Text
  value : Row → Written
  shows : Row → Bool

/-- Can `str` be taken of what is shown in a row? describe.py:111, 250, 268 and 297 and origin.py:247-248. -/
def DVal.writes : DVal → Bool
  | .res r | .attr r _ => r.writes
  | .names l => l.all PyVal.writes
  | .chars _ => true
  | .pair a b => a.writes && b.writes
  | .number _ => true
  | .samples a _ => a.elems.all PyVal.writes
  | .single _ l _ => l.all PyVal.writes
  | .flat l _ => l.all PyVal.writes

/-- Can a row be written?  Long arrays of samples are abbreviated, describe.py:282-287, so that not all of
the elements matter. -/
def Printer.writes (p : Printer) (r : Row) : Bool :=
  r.2.writes || match r.2 with
    | .samples _ _ => p.shows r
    | .single _ _ _ => p.shows r
    | _ => false

/-- Can a part be written? -/
def Printer.writesAll (p : Printer) : Passage → Bool
  | .table rows => rows.all p.writes
  | .channels l => l.all PyVal.writes
  | .lines r => r.writes
  | _ => true

/-- `capitalize`, basicobject.py:333, of texts of ASCII and of bytes. -/
def capitalAscii : List Nat → List Nat
  | [] => []
  | c :: cs => (if 97 ≤ c ∧ c ≤ 122 then c - 32 else c) ::
      cs.map fun c => if 65 ≤ c ∧ c ≤ 90 then c + 32 else c

/-- `str(self.type.capitalize())` and its length, basicobject.py:333 and describe.py:134 and 249. -/
def Printer.capitalized (p : Printer) : PyStr → Text × Nat
  | .str t =>
    let u := if t.all (decide <| · < 128) then capitalAscii t else p.capital t
    (u, u.length)
  | .bytes b =>
    (p.bytes ((capitalAscii (b.map BitVec.toNat)).map (BitVec.ofNat 8)), b.length)

/-- `str` of a text or of bytes. -/
def Printer.str (p : Printer) : PyStr → Text
  | .str t => t
  | .bytes b => p.bytes b

/-- The text of an element of a list, as `replist` makes it, describe.py:105-112: the name of an object,
or a text.  (An array of NumPy drops NUL characters at the end of texts.) -/
def plainName : PyVal → Option Text
  | .obj (some o) => match o.name with
    | .str t => if t.getLast? = some 0 then none else some t
    | .bytes _ => none
  | .str (.str t) => if t.getLast? = some 0 then none else some t
  | _ => none

/-- `str` of a whole number. -/
def wholeText (n : Int) : Text := if n < 0 then 45 :: Text.ofNat n.natAbs else Text.ofNat n.natAbs

/-- `n` with `w` digits, as `%02d` and the like do. -/
def digits : Nat → Nat → Text
  | 0, _ => []
  | w + 1, n => digits w (n / 10) ++ [48 + n % 10]

/-- `str` of the `datetime` that ext/dlis.cpp:36-43 makes: year, month, day, hour, minute and second, and
microseconds if there are any. -/
def dateText (d : DTime) : Text :=
  digits 4 (1900 + d.Y) ++ [45] ++ digits 2 d.M ++ [45] ++ digits 2 d.D ++ [32] ++ digits 2 d.H ++ [58] ++
    digits 2 d.MN ++ [58] ++ digits 2 d.S ++ if d.MS = 0 then [] else [46] ++ digits 6 (d.MS * 1000)

/-- `str` of a single value: a text, an object (basicobject.py:167-169), a whole number or a date. -/
def Printer.single (p : Printer) : PyVal → Option Text
  | .str s => some (p.str s)
  | .obj none => some (text "None")
  | .obj (some o) => some ((p.capitalized o.type).1 ++ text "(" ++ p.str o.name ++ text ")")
  | .raw _ (.int _ n) => some (wholeText n)
  | .raw _ (.dtime d) => some (dateText d)
  | .raw _ _ => none

/-- A value in a text, by `format` or `str`. -/
def Printer.plain (p : Printer) (k : PyStr) (r : PyResult) : Option Text :=
  match r with
  | .none => some (text "None")
  | .bool b => some (text (if b then "True" else "False"))
  | .elem v => match p.single v with
    | some t => some t
    | none => match p.value (k, .res r) with
      | .text t => some t
      | _ => none
  | .list _ => match p.value (k, .res r) with
    | .text t => some t
    | _ => none

/-- A text in an array of NumPy, which drops zeros at the end of texts. -/
def textWord : PyVal → Option Text
  | .str (.str t) => if t.getLast? = some 0 then none else some t
  | _ => none

/-- A whole number in an array of NumPy. -/
def wholeWord : PyVal → Option Text
  | .raw _ (.int _ n) => some (wholeText n)
  | _ => none

/-- A date in an array of NumPy. -/
def dateWord : PyVal → Option Text
  | .raw _ (.dtime d) => some (dateText d)
  | _ => none

/-- The elements of an array of NumPy, describe.py:268 and 297, that is made of a list of texts only, of whole
numbers only, or of dates only. -/
def listWords (l : List PyVal) : Option (List Text) :=
  (l.mapM textWord).or ((l.mapM wholeWord).or (l.mapM dateWord))

/-- What is written of a row, describe.py:227-241: single values, names, lists of texts, of numbers and of
dates, two values in one text (origin.py:247-248, 256-257 and 270), and what is given otherwise. -/
def Printer.written (p : Printer) (r : Row) : Written :=
  match r.2 with
  | .res v | .attr v _ => match v with
    | .list l => match listWords l with
      | some ts => .list ts
      | none => p.value r
    | _ => match p.plain r.1 v with
      | some t => .text t
      | none => p.value r
  | .number n => .text (Text.ofNat n)
  | .names l => match l.mapM plainName with
    | some ts => .list ts
    | none => p.value r
  | .pair a b => match p.plain r.1 a, p.plain r.1 b with
    | some t, some u =>
      if r.1 = .str (text "Created by") then .text (t ++ text ", (version: " ++ u ++ text ")")
      else .text (t ++ text " / " ++ u)
    | _, _ => p.value r
  | _ => p.value r

/-- The key, what is written of the value, and the units, describe.py:227-235. -/
def Printer.row (p : Printer) (ex : Options) (r : Row) : Text × Written × Text :=
  (p.str r.1, p.written r, match r.2.units ex with
    | none => []
    | some u => p.str u)

/-- The text of one part that can be written; `nested` is the summary of another object.  There is no
text if it is not complete after `n` rounds. -/
def Wrapper.passageText (x : Wrapper) (p : Printer) (width n : Nat) (indent : Text) (ex : Options)
    (nested : Store → BasicObject → Store × Except DescErr (Option Text)) (s : Store) :
    Passage → Store × Except DescErr (Option Text)
  | .header t => (s, .ok (x.describeHeader width n indent (text t.words) 2))
  | .note t => (s, .ok (x.describeText width n indent indent (text t) []))
  | .table rows => (s, .ok (x.describeDict width n indent (rows.map (p.row ex))))
  | .channels l =>
    (s, .ok (x.describeValue width n indent indent [] (p.written (.str (text "Channels"), .names l))))
  | .lines r => (s, .ok (x.describeValue width n indent indent [] (p.written (.str [], .res r))))
  | .object o => nested s o.attic

/-- The text of one part, or the exception of `str`. -/
def Wrapper.partText (x : Wrapper) (p : Printer) (width n : Nat) (indent : Text) (ex : Options)
    (nested : Store → BasicObject → Store × Except DescErr (Option Text)) (s : Store) (b : Passage) :
    Store × Except DescErr (Option Text) :=
  if p.writesAll b then x.passageText p width n indent ex nested s b else (s, .error .numpy)

/-- The title of a summary, basicobject.py:332 and 333 and describe.py:130-142. -/
def Wrapper.titleText (x : Wrapper) (p : Printer) (width n : Nat) (indent : Text) (ex : Options)
    (type : PyStr) : Option Text :=
  if ex.head then some []
  else
    let dashes := List.replicate (p.capitalized type).2 45
    ([dashes, (p.capitalized type).1, dashes].mapM fun l =>
      x.describeText width n indent indent l []).map List.flatten

/-- The text of the summary, basicobject.py:283-345, in which objects are described by summaries of
others to a given depth, describe.py:150. -/
def Store.objectText (e : Env) (np : List PyVal → Option Nat) (x : Wrapper) (p : Printer)
    (width n : Nat) (indent : Text) : Nat → Store → BasicObject → Options →
    Store × Except DescErr (Option Text)
  | 0, s, _, _ => (s, .ok none)
  | depth + 1, s, o, ex =>
    Store.andThen (s.describeParts e np o ex) fun s parts =>
      Store.andThen (Store.each (x.partText p width n indent ex fun s o =>
          Store.objectText e np x p width n indent depth s o (parseOptions "hes")) s parts) fun s ts =>
        (s, .ok (match x.titleText p width n indent ex (e.dec o.type), ts.mapM id with
          | some a, some b => some (a ++ b.flatten)
          | _, _ => none))

/-! ## Specification -/

namespace Spec

/-- The values in a row. -/
def rowValues : DVal → List PyVal
  | .res r => valuesIn r
  | .attr r _ => valuesIn r
  | .pair a b => valuesIn a ++ valuesIn b
  | .names l => l
  | .flat l _ => l
  | .samples a _ => a.elems
  | .single _ l _ => l
  | .chars _ => []
  | .number _ => []

/-- The references in a row can be written down. -/
def RowWritable (d : DVal) : Prop := ∀ c v, PyVal.raw c v ∈ rowValues d → Writable v

/-- What is seen in a summary, from top to bottom. -/
inductive Display where
  | heading (t : String)
  | note (t : String)
  | row (r : Row)

/-- The rows among them. -/
def Display.rows (ds : List Display) : List Row :=
  ds.filterMap fun
    | .row r => some r
    | _ => none

/-- A value without a title: all lines have the same indent. -/
def Paragraph (space : Nat → Bool) (width : Nat) (indent row : Text) : Written → Prop
  | .array t => row = indent ++ t ++ [10]
  | v => ∃ bodies lines, Indented indent indent bodies lines ∧
      row = (if lines = [] then [10] else lines.flatMap (· ++ [10])) ∧
      ink space bodies.flatten = words space v ∧ ∀ l ∈ lines, l.length ≤ max width (indent.length + 1)

/-- A table: a row for each key, its value and units, in order, and an empty line.  All values begin
in the same column, and the longest key is next to it.  There is nothing if there are no rows. -/
def Grid (space : Nat → Bool) (width : Nat) (indent : Text) (rows : List (Text × Written × Text))
    (out : Text) : Prop :=
  (rows = [] ∧ out = []) ∨ ∃ column lines, (∃ r ∈ rows, column = indent.length + r.1.length + 3) ∧
    List.Forall₂ (Titled space width indent column) rows lines ∧ out = lines.flatten ++ [10]

/-- The name of an object, or a text. -/
def Named (v : PyVal) (t : Text) : Prop :=
  (∃ o, v = .obj (some o) ∧ o.name = .str t) ∨ v = .str (.str t)

/-- `n` written with `w` digits. -/
def InDigits (w n : Nat) (t : Text) : Prop :=
  t.length = w ∧ (∀ c ∈ t, 48 ≤ c ∧ c ≤ 57) ∧ t.foldl (fun v c => 10 * v + (c - 48)) 0 = n

/-- A date and a time of day, with microseconds only if there are any. -/
def Dated (d : DTime) (t : Text) : Prop :=
  ∃ y m a h n s f, InDigits 4 (1900 + d.Y) y ∧ InDigits 2 d.M m ∧ InDigits 2 d.D a ∧ InDigits 2 d.H h ∧
    InDigits 2 d.MN n ∧ InDigits 2 d.S s ∧
    t = y ++ text "-" ++ m ++ text "-" ++ a ++ text " " ++ h ++ text ":" ++ n ++ text ":" ++ s ++ f ∧
    ((d.MS = 0 ∧ f = []) ∨ (d.MS ≠ 0 ∧ ∃ u, InDigits 6 (1000 * d.MS) u ∧ f = text "." ++ u))

/-- The first letter as a capital one, and all others as small ones. -/
def capital (t : Text) : Text :=
  match t.map Char.ofNat with
  | [] => []
  | c :: cs => (c.toUpper :: cs.map Char.toLower).map Char.toNat

/-- The text of a single value: a text, a whole number, a date, or the type and the name of an object. -/
inductive Word : PyVal → Text → Prop
  | words (t : Text) : Word (.str (.str t)) t
  | nothing : Word (.obj none) (text "None")
  | object (o : PyObj) (type name : Text) : o.type = .str type → (∀ c ∈ type, c < 128) → o.name = .str name →
      Word (.obj (some o)) (capital type ++ text "(" ++ name ++ text ")")
  | whole (c : Reprc) (size n : Nat) (t : Text) : Numeral n t → Word (.raw c (.int size n)) t
  | negative (c : Reprc) (size n : Nat) (t : Text) : 0 < n → Numeral n t →
      Word (.raw c (.int size (-(n : Int)))) (text "-" ++ t)
  | date (c : Reprc) (d : DTime) (t : Text) : Dated d t → Word (.raw c (.dtime d)) t

/-- A value in a text: `None`, a truth value, or a single value. -/
def Worded (r : PyResult) (t : Text) : Prop :=
  (r = .none ∧ t = text "None") ∨ (r = .bool true ∧ t = text "True") ∨ (r = .bool false ∧ t = text "False") ∨
    ∃ v, r = .elem v ∧ Word v t

/-- All values are of one kind. -/
def OfOneKind (l : List PyVal) : Prop :=
  (∀ v ∈ l, ∃ t : Text, v = .str (.str t) ∧ t.getLast? ≠ some 0) ∨ (∀ v ∈ l, ∃ c size n, v = .raw c (.int size n)) ∨
    ∀ v ∈ l, ∃ c d, v = .raw c (.dtime d)

/-- How a row is printed: its title, value and units. -/
structure Prints (ex : Options) (r : Row) (w : Text × Written × Text) : Prop where
  title : ∀ t, r.1 = .str t → w.1 = t
  plain : ∀ v t u, (r.2 = .res v ∨ r.2 = .attr v u) → Worded v t → w.2.1 = .text t
  number : ∀ n, r.2 = .number n → ∃ t, Numeral n t ∧ w.2.1 = .text t
  list : ∀ l ts u, (r.2 = .res (.list l) ∨ r.2 = .attr (.list l) u) → OfOneKind l → List.Forall₂ Word l ts →
    w.2.1 = .list ts
  names : ∀ l ts, r.2 = .names l → List.Forall₂ Named l ts → (∀ t ∈ ts, t.getLast? ≠ some 0) →
    w.2.1 = .list ts
  pair : ∀ a b t u, r.2 = .pair a b → Worded a t → Worded b u → w.2.1 =
    .text (if r.1 = .str (text "Created by") then t ++ text ", (version: " ++ u ++ text ")"
      else t ++ text " / " ++ u)
  units : ∀ u, HasUnits r.2 (.str u) → ∃ v, UnitsShown (.str u) (.str v) ∧
    w.2.2 = if ex.units then [] else v
  noUnits : (¬ ∃ u, HasUnits r.2 u) → w.2.2 = []

/-- The rows that are lists without title: the channels of a frame, and the texts of messages and comments. -/
def Untitled (type : PyStr) (r : Row) : Prop :=
  (type ∈ [.str (text "MESSAGE"), .str (text "COMMENT")] ∧ r.1 = .str []) ∨
    (type = .str (text "FRAME") ∧ ∃ l, r = (.str (text "Channels"), .names l))

/-- The types of the objects that can have an object as description. -/
def describedTypes : List PyStr :=
  [.str (text "CHANNEL"), .str (text "PARAMETER"), .str (text "COMPUTATION"), .str (text "PROCESS")]

/-- The text of what is seen of an object.  An object in place of a description is shown by its own summary,
without its name and without empty rows and unknown attributes. -/
inductive Laid (e : Env) (x : Wrapper) (width : Nat) (indent : Text)
    (shows : BasicObject → Options → List Display → Prop) :
    BasicObject → Options → List Display → Text → Prop
  | nil {b ex} : Laid e x width indent shows b ex [] []
  | heading {b ex ds out} (t : String) : Laid e x width indent shows b ex ds out →
      Laid e x width indent shows b ex (.heading t :: ds)
        (indent ++ text t ++ [10] ++ indent ++ text "--" ++ [10] ++ out)
  | note {b ex ds out o} (t : String) : Paragraph x.space width indent o (.text (text t)) →
      Laid e x width indent shows b ex ds out → Laid e x width indent shows b ex (.note t :: ds) (o ++ out)
  | table {b ex ds out o} (rows : List Row) (ws : List (Text × Written × Text)) :
      List.Forall₂ (Prints ex) rows ws → Grid x.space width indent ws o →
      Laid e x width indent shows b ex ds out →
      Laid e x width indent shows b ex (rows.map .row ++ ds) (o ++ out)
  | list {b ex ds out o} (r : Row) (w : Text × Written × Text) : Prints ex r w →
      Untitled (e.dec b.type) r →
      Paragraph x.space width indent o w.2.1 → Laid e x width indent shows b ex ds out →
      Laid e x width indent shows b ex (.row r :: ds) (o ++ out)
  | object {b ex ds out o} (d : PyObj) (ds' : List Display) : e.dec b.type ∈ describedTypes →
      shows d.attic (parseOptions "hes") ds' →
      Laid e x width indent shows d.attic (parseOptions "hes") ds' o →
      Laid e x width indent shows b ex ds out →
      Laid e x width indent shows b ex
        (.row (.str (text "Description"), .res (.elem (.obj (some d)))) :: ds) (o ++ out)

/-- Only rows, none of which has values with invalid dimensions. -/
def Valid (rows : List Row) : Prop := ∀ r ∈ rows, ∀ vs u, r.2 ≠ .flat vs u

/-- The titles of the rows are among these. -/
def TitledBy (titles : List String) (rows : List Row) : Prop :=
  ∀ r ∈ rows, ∃ t ∈ titles, r.1 = .str (text t)

/-- Values whose number does not match the dimensions of the object, under their own heading. -/
def Mismatched (ex : Options) (ds : List Display) : Prop :=
  ds = [] ∨ ex.inv = false ∧ ∃ rows : List Row, ds = .heading "Invalid dimensions" :: rows.map .row ∧
    ∀ r ∈ rows, ∃ vs u, r.2 = .flat vs u

/-- What is shown of the attributes of an object, by its type. -/
structure Body (type : PyStr) (ex : Options) (ds : List Display) : Prop where
  measurement : type = .str (text "CALIBRATION-MEASUREMENT") → ∃ a b c inv,
    ds = .heading "Metadata" :: a.map .row ++ .heading "Samples" :: b.map .row ++ c.map .row ++ inv ∧
    TitledBy ["Type of measurement", "Calibration standard", "Phase in job sequence",
      "Start time of acquisition", "Duration time", "Data source"] a ∧
    TitledBy ["Dimensions", "Axis labels", "Number of values", "Samples used to compute std/max-dev"] b ∧
    Valid c ∧ Mismatched ex inv
  wellReference : type = .str (text "WELL-REFERENCE") → ∃ a b,
    ds = a.map .row ++ .heading "Coordinates" :: b.map .row ∧
    TitledBy ["Permanent datum", "Vertical zero", "Permanent datum elevation", "Above permanent datum",
      "Magnetic declination"] a ∧ Valid b
  frame : type = .str (text "FRAME") → ds = [.note "Frame has no channels"] ∨
    ∃ index channels, ds = index ++ [.heading "Channels", .row (.str (text "Channels"), .names channels)] ∧
      (index = [.note "There is no index channel, channels are indexed by samplenumber, i.e [1,2,3,..,n]"] ∨
        ∃ rows, index = .heading "Channel indexing" :: rows.map .row ∧
          TitledBy ["Description", "Indexed by", "Index units", "Index min", "Index max", "Direction",
            "Constant spacing", "Index channel"] rows)
  other : type ∉ [.str (text "CALIBRATION-MEASUREMENT"), .str (text "WELL-REFERENCE"), .str (text "FRAME")] →
    ∃ desc rows inv, ds = desc ++ rows.map .row ++ inv ∧ Valid rows ∧ Mismatched ex inv ∧
      (desc = [] ∨ ∃ d, desc = [.heading "Description",
        .row (.str (text "Description"), .res (.elem (.obj (some d))))])

/-- The attributes that the class of the object does not know, under their own heading. -/
structure Unknowns (e : Env) (o : BasicObject) (ex : Options) (ds : List Display) : Prop where
  excluded : ex.stash = true → ds = []
  present : ex.stash = false → (ds ≠ [] ↔
    ∃ a ∈ o.attributes, (rulesOf (e.dec o.type)).attributes (e.dec a.label) = none)
  heading : ds ≠ [] → ∃ rows : List Row, ds = .heading "Unknown attributes" :: rows.map .row ∧
    ∀ r ∈ rows, ∃ a ∈ o.attributes, r.1 = e.dec a.label ∧
      (rulesOf (e.dec o.type)).attributes (e.dec a.label) = none

/-- How the rows of a summary are arranged under headings. -/
def Outline (e : Env) (o : BasicObject) (ex : Options) (ds : List Display) : Prop :=
  ∃ (head : List Row) (body unknown : List Display), ds = head.map .row ++ body ++ unknown ∧
    (ex.head = true → head = []) ∧ TitledBy ["name", "origin", "copy"] head ∧
    (ex.attr = true → body = []) ∧ (ex.attr = false → Body (e.dec o.type) ex body) ∧
    Unknowns e o ex unknown

/-- What is seen of an object: the rows of its summary, in some state of the program, under its
headings. -/
def Summarized (e : Env) (np : List PyVal → Option Nat) (p : List ObjectSet) (o : BasicObject)
    (ex : Options) (ds : List Display) : Prop :=
  ∃ hist rows, ((after e p hist).describe e np o ex).2 = .ok rows ∧ Display.rows ds = rows ∧ Outline e o ex ds

end Spec

/-! ## Lemmas -/

/-- What is seen of a passage. -/
def Passage.displays : Passage → List Spec.Display
  | .header t => [.heading t.words]
  | .note t => [.note t]
  | .table rows => rows.map .row
  | .channels l => [.row (.str (text "Channels"), .names l)]
  | .lines r => [.row (.str [], .res r)]
  | .object o => [.row (.str (text "Description"), .res (.elem (.obj (some o))))]

/-- The rows of a passage. -/
def Passage.rows (b : Passage) : List Row := Spec.Display.rows b.displays

theorem display_rows_row (rows : List Row) : Spec.Display.rows (rows.map .row) = rows := by
  induction rows with
  | nil => rfl
  | cons r rows ih => simp [Spec.Display.rows]

theorem display_rows_append (a b : List Spec.Display) :
    Spec.Display.rows (a ++ b) = Spec.Display.rows a ++ Spec.Display.rows b :=
  List.filterMap_append ..

theorem display_rows_flatMap (ps : List Passage) :
    Spec.Display.rows (ps.flatMap Passage.displays) = ps.flatMap Passage.rows := by
  induction ps with
  | nil => rfl
  | cons b ps ih => rw [List.flatMap_cons, List.flatMap_cons, display_rows_append, ih]; rfl

@[simp] theorem passage_rows_table (rows : List Row) : (Passage.table rows).rows = rows :=
  display_rows_row rows

/-- The result of a step, changed. -/
def mapRes {α β : Type} (h : α → β) (x : Store × Except DescErr α) : Store × Except DescErr β :=
  (x.1, x.2.map h)

theorem mapRes_andThen {α β γ : Type} (h : β → γ) (x : Store × Except DescErr α)
    (f : Store → α → Store × Except DescErr β) :
    mapRes h (Store.andThen x f) = Store.andThen x fun s a => mapRes h (f s a) := by
  unfold Store.andThen mapRes
  rcases x with ⟨s, _ | a⟩ <;> rfl

theorem andThen_mapRes {α β γ : Type} (h : α → β) (x : Store × Except DescErr α)
    (f : Store → β → Store × Except DescErr γ) :
    Store.andThen (mapRes h x) f = Store.andThen x fun s a => f s (h a) := by
  unfold Store.andThen mapRes
  rcases x with ⟨s, _ | a⟩ <;> rfl

theorem andThen_assoc {α β γ : Type} (x : Store × Except DescErr α)
    (f : Store → α → Store × Except DescErr β) (g : Store → β → Store × Except DescErr γ) :
    Store.andThen (Store.andThen x f) g = Store.andThen x fun s a => Store.andThen (f s a) g := by
  unfold Store.andThen
  rcases x with ⟨s, _ | a⟩ <;> rfl

theorem andThen_id {α : Type} (x : Store × Except DescErr α) :
    Store.andThen x (fun s a => (s, .ok a)) = x := by
  unfold Store.andThen
  rcases x with ⟨s, _ | a⟩ <;> rfl

theorem each_mapRes {α β γ δ : Type} (π : α → β) (h : γ → δ) (f : Store → α → Store × Except DescErr γ)
    (g : Store → β → Store × Except DescErr δ) (hfg : ∀ s a, g s (π a) = mapRes h (f s a)) :
    ∀ (l : List α) (s : Store), Store.each g s (l.map π) = mapRes (List.map h) (Store.each f s l)
  | [], s => rfl
  | a :: l, s => by
    rw [List.map_cons, Store.each, Store.each, hfg, andThen_mapRes, mapRes_andThen]
    congr 1
    funext s c
    rw [each_mapRes π h f g hfg l s, andThen_mapRes, mapRes_andThen]
    rfl

theorem sampled_parts (e : Env) (np : List PyVal → Option Nat) (ex : Options) (o : BasicObject)
    (dim : List PyVal) (values : List (String × String × Bool)) :
    describeSampled e np ex o dim values =
      (sampledParts e np ex o dim values).map (·.flatMap Passage.rows) := by
  unfold describeSampled sampledParts
  cases sampledLoop e np o dim values with
  | error x => rfl
  | ok rows =>
    simp only [Except.map]
    congr 1
    rw [List.flatMap_append]
    congr 1
    · split_ifs with h
      · rw [h]; simp [describeDict]
      · simp
    · by_cases hi : ex.inv = true
      · simp [hi]
      · rw [if_neg hi]
        by_cases h : (rows.filter (!·.1)).map (·.2) = []
        · rw [if_pos (.inr h), h]; simp [describeDict]
        · rw [if_neg (by tauto), List.flatMap_cons, List.flatMap_cons, passage_rows_table]
          simp [Passage.rows, Passage.displays, Spec.Display.rows]

theorem frame_parts (e : Env) (ex : Options) (o : BasicObject) (s : Store) :
    describeFrame e ex o s = mapRes (·.flatMap Passage.rows) (frameParts e ex o s) := by
  unfold describeFrame frameParts
  rw [mapRes_andThen]
  congr 1
  funext s channels
  rcases channels with _ | l | v | b
  · rfl
  · rcases l with _ | ⟨index, rest⟩
    · rfl
    · simp only
      rw [mapRes_andThen]
      congr 1
      funext s it
      split_ifs with h
      · rfl
      · rcases index with t | ⟨c, v⟩ | _ | ch
        · rfl
        · rfl
        · rfl
        · simp only
          rw [mapRes_andThen]
          congr 1
          funext s u
          rw [mapRes_andThen]
          congr 1
          funext s rows
          simp only [mapRes, Except.map, List.flatMap_cons, passage_rows_table, List.flatMap_nil]
          simp [Passage.rows, Passage.displays, Spec.Display.rows]
  · rfl
  · rfl

theorem section_parts (e : Env) (np : List PyVal → Option Nat) (ex : Options) (o : BasicObject)
    (s : Store) (sec : Section) :
    sec.run e np ex o s = mapRes (·.flatMap Passage.rows) (sec.parts e np ex o s) := by
  have htab : ∀ x : Store × Except DescErr (List Row), x = mapRes (·.flatMap Passage.rows)
      (Store.andThen x fun s rows => (s, .ok [.table rows])) := by
    rintro ⟨s, _ | rows⟩
    · rfl
    · simp [Store.andThen, mapRes, Except.map]
  cases sec with
  | dict rows => exact htab _
  | attributes rows => exact htab _
  | coordinates => exact htab _
  | sampled dim values =>
    cases dim with
    | none => exact Prod.ext rfl (sampled_parts ..)
    | some d =>
      simp only [Section.run, Section.parts]
      rw [mapRes_andThen]
      congr 1
      funext s r
      cases r with
      | list dim => exact Prod.ext rfl (sampled_parts ..)
      | none => rfl
      | elem v => rfl
      | bool b => rfl
  | description name =>
    simp only [Section.run, Section.parts]
    rw [mapRes_andThen]
    congr 1
    funext s r
    simp only [mapRes, Except.map]
    split_ifs with h
    · rfl
    · congr 2
      split
      · rfl
      · simp
  | array name =>
    simp only [Section.run, Section.parts]
    rw [mapRes_andThen]
    congr 1
    funext s r
    simp only [mapRes, Except.map]
    split_ifs with h <;> rfl
  | frame => exact frame_parts e ex o s

theorem stash_parts (e : Env) (ex : Options) (o : BasicObject) (s : Store) :
    describeStash e ex o s = mapRes (·.flatMap Passage.rows) (stashParts e ex o s) := by
  unfold stashParts
  split
  · rename_i h; unfold describeStash; rw [h]; rfl
  · rename_i h
    unfold describeStash
    rw [h]
    simp only [List.map_nil, describeAttributes, Store.each, Store.andThen, mapRes, Except.map]
    simp [describeDict, written]
  · rw [mapRes_andThen]
    refine (andThen_id _).symm.trans ?_
    congr 1
    funext s rows
    simp [mapRes, Except.map, Passage.rows, Passage.displays, Spec.Display.rows]

theorem describe_parts (e : Env) (np : List PyVal → Option Nat) (s : Store) (o : BasicObject)
    (ex : Options) :
    s.describe e np o ex = mapRes (·.flatMap Passage.rows) (s.describeParts e np o ex) := by
  unfold Store.describe Store.describeParts
  rw [mapRes_andThen]
  have hfst : (if ex.attr = true then (s, Except.ok []) else
      Store.each (fun s sec => Section.run e np ex o s sec) s (sectionsOf (e.dec o.type))) =
      mapRes (List.map (·.flatMap Passage.rows)) (if ex.attr = true then (s, Except.ok []) else
        Store.each (fun s (x : Nat × Section) => Store.andThen (Section.parts e np ex o s x.2) fun s parts =>
          (s, .ok (headerOf (e.dec o.type) x.1 ++ parts))) s
          ((sectionsOf (e.dec o.type)).zipIdx.map fun x => (x.2, x.1))) := by
    split_ifs
    · rfl
    · have : sectionsOf (e.dec o.type) =
          ((sectionsOf (e.dec o.type)).zipIdx.map fun x => (x.2, x.1)).map Prod.snd := by
        rw [List.map_map]
        exact (List.zipIdx_map_fst 0 _).symm
      conv_lhs => rw [this]
      apply each_mapRes
      rintro s ⟨i, sec⟩
      rw [section_parts, mapRes_andThen]
      have hh : (headerOf (e.dec o.type) i).flatMap Passage.rows = [] := by
        unfold headerOf
        split <;> rfl
      rcases Section.parts e np ex o s sec with ⟨s, _ | parts⟩
      · rfl
      · simp [Store.andThen, mapRes, Except.map, hh]
  rw [hfst, andThen_mapRes]
  congr 1
  funext s parts
  rw [mapRes_andThen]
  have hsnd : (if ex.stash = true then (s, Except.ok []) else describeStash e ex o s) =
      mapRes (·.flatMap Passage.rows) (if ex.stash = true then (s, Except.ok []) else
        stashParts e ex o s) := by
    split_ifs
    · rfl
    · exact stash_parts ..
  rw [hsnd, andThen_mapRes]
  congr 1
  funext s unknown
  simp only [mapRes, Except.map, List.flatMap_append]
  congr 4
  · split_ifs
    · rfl
    · simp
  · induction parts with
    | nil => rfl
    | cons a l ih => simp [ih]


/-! ### Headings -/

theorem mapM_mem {α β : Type} {f : α → Option β} : ∀ {l : List α} {ls : List β}, l.mapM f = some ls →
    ∀ {b : β}, b ∈ ls → ∃ a ∈ l, f a = some b
  | [], ls, h, b, hb => by cases h; cases hb
  | a :: l, ls, h, b, hb => by
    rw [List.mapM_cons] at h
    cases ha : f a with
    | none => rw [ha] at h; cases h
    | some c =>
      cases hl : l.mapM f with
      | none => rw [ha, hl] at h; cases h
      | some cs =>
        rw [ha, hl] at h
        cases h
        rcases List.mem_cons.1 hb with rfl | hb
        · exact ⟨a, by simp, ha⟩
        · obtain ⟨a', ha', h'⟩ := mapM_mem hl hb
          exact ⟨a', by simp [ha'], h'⟩

theorem valid_describeDict {ex : Options} {rows : List Row} (h : Spec.Valid rows) :
    Spec.Valid (describeDict ex rows) := fun r hr => h r (mem_describeDict.1 hr).1

theorem titledBy_describeDict {ex : Options} {ts : List String} {rows : List Row} (h : Spec.TitledBy ts rows) :
    Spec.TitledBy ts (describeDict ex rows) := fun r hr => h r (mem_describeDict.1 hr).1

/-- A loop in which each step keeps something. -/
theorem each_all {α β : Type} {f : Store → α → Store × Except DescErr β} {P : α → β → Prop}
    (hf : ∀ s a b, (f s a).2 = .ok b → P a b) : ∀ (l : List α) (s : Store) (bs : List β),
    (Store.each f s l).2 = .ok bs → List.Forall₂ P l bs
  | [], _, bs, h => by cases h; exact .nil
  | a :: l, s, bs, h => by
    unfold Store.each at h
    obtain ⟨b, h1, h2⟩ := andThen_ok h
    obtain ⟨bs', h3, h4⟩ := andThen_ok h2
    cases h4
    exact .cons (hf _ _ _ h1) (each_all hf l _ _ h3)

theorem eval_valid {e : Env} {np : List PyVal → Option Nat} {o : BasicObject} {s : Store} {src : Source}
    {v : DVal} (h : (src.eval e np o s).2 = .ok v) : ∀ vs u, v ≠ .flat vs u := by
  cases src with
  | label l => cases h; simp [DVal.ofText]
  | prop n =>
    obtain ⟨r, -, h⟩ := andThen_ok h
    cases h; simp
  | names n =>
    obtain ⟨r, -, h⟩ := andThen_ok h
    unfold replist at h
    split at h <;> cases h <;> simp
  | objects =>
    simp only [Source.eval] at h
    split at h <;> cases h
    simp
  | pair a b =>
    obtain ⟨r, -, h⟩ := andThen_ok h
    obtain ⟨r', -, h⟩ := andThen_ok h
    cases h; simp
  | count n =>
    obtain ⟨r, -, h⟩ := andThen_ok h
    unfold lenOf at h
    split at h <;> cases h
    simp
  | samples => cases h; simp

theorem evalRows_ok {e : Env} {np : List PyVal → Option Nat} {o : BasicObject} {s : Store}
    {rows : List (String × Source)} {rs : List Row} (h : (evalRows e np o s rows).2 = .ok rs) :
    Spec.Valid rs ∧ Spec.TitledBy (rows.map Prod.fst) rs := by
  have := each_all (P := fun (a : String × Source) (b : Row) => b.1 = .str (text a.1) ∧
      ∀ vs u, b.2 ≠ .flat vs u) (fun s a b hb => by
    obtain ⟨v, h1, h2⟩ := andThen_ok hb
    cases h2
    exact ⟨rfl, eval_valid h1⟩) _ _ _ h
  constructor
  · intro r hr
    obtain ⟨a, -, ha⟩ := forall₂_mem_right this hr
    exact ha.2
  · intro r hr
    obtain ⟨a, ha, h1⟩ := forall₂_mem_right this hr
    exact ⟨a.1, List.mem_map.2 ⟨a, ha, rfl⟩, h1.1⟩

theorem describeAttribute_keeps {e : Env} {o : BasicObject} {s : Store} {x y : Row}
    (h : (describeAttribute e o s x).2 = .ok y) : y.1 = x.1 ∧
      ((∀ vs u, x.2 ≠ .flat vs u) → ∀ vs u, y.2 ≠ .flat vs u) := by
  unfold describeAttribute at h
  split at h
  · cases h; exact ⟨rfl, id⟩
  split at h
  · cases h; exact ⟨rfl, id⟩
  · simp only at h
    split at h
    · cases h
    split at h
    · cases h; exact ⟨rfl, by simp⟩
    split at h
    · cases h
    · cases h; exact ⟨rfl, by simp⟩

theorem describeAttributes_keeps {e : Env} {ex : Options} {o : BasicObject} {s : Store}
    {rows rs : List Row} (h : (describeAttributes e ex o s rows).2 = .ok rs) :
    (∀ r ∈ rs, ∃ r' ∈ rows, r.1 = r'.1) ∧ (Spec.Valid rows → Spec.Valid rs) := by
  unfold describeAttributes at h
  obtain ⟨rows', h1, h2⟩ := andThen_ok h
  have := each_all (P := fun (x y : Row) => y.1 = x.1 ∧
      ((∀ vs u, x.2 ≠ .flat vs u) → ∀ vs u, y.2 ≠ .flat vs u))
    (fun s a b hb => describeAttribute_keeps hb) _ _ _ h1
  obtain rfl := written_ok h2
  constructor
  · intro r hr
    obtain ⟨a, ha, hk⟩ := forall₂_mem_right this (mem_describeDict.1 hr).1
    exact ⟨a, ha, hk.1⟩
  · intro hv r hr
    obtain ⟨a, ha, hk⟩ := forall₂_mem_right this (mem_describeDict.1 hr).1
    exact hk.2 (hv a ha)

/-- The rows of a table of attributes. -/
theorem attributes_ok {e : Env} {np : List PyVal → Option Nat} {ex : Options} {o : BasicObject} {s : Store}
    {rows : List (String × Source)} {rs : List Row}
    (h : (Section.run e np ex o s (.attributes rows)).2 = .ok rs) :
    Spec.Valid rs ∧ Spec.TitledBy (rows.map Prod.fst) rs := by
  obtain ⟨rs', h1, h2⟩ := andThen_ok h
  obtain ⟨h3, h4⟩ := evalRows_ok h1
  obtain ⟨h5, h6⟩ := describeAttributes_keeps h2
  refine ⟨h6 h3, fun r hr => ?_⟩
  obtain ⟨r', hr', he⟩ := h5 r hr
  rw [he]
  exact h4 r' hr'

theorem sampledLoop_flat {e : Env} {np : List PyVal → Option Nat} {o : BasicObject} {dim : List PyVal} :
    ∀ (values : List (String × String × Bool)) (rows : List (Bool × Row)),
    sampledLoop e np o dim values = .ok rows → ∀ x ∈ rows, x.1 = false ↔ ∃ vs u, x.2.2 = .flat vs u
  | [], rows, h, x, hx => by cases h; cases hx
  | (title, label, single) :: values, rows, h, x, hx => by
    unfold sampledLoop at h
    split at h
    · cases h
    rename_i r hr
    split at h
    · cases h
    rename_i rows' hrows
    have ih := sampledLoop_flat values rows' hrows
    split at h
    · cases h
      exact ih x hx
    · rename_i valid v
      cases h
      rcases List.mem_cons.1 hx with rfl | hx
      · simp only
        unfold sampledValue at hr
        split at hr
        · cases hr
        · cases hr
        · simp only at hr
          repeat' split at hr
          all_goals cases hr
          all_goals simp
      · exact ih x hx

theorem sampledParts_ok {e : Env} {np : List PyVal → Option Nat} {ex : Options} {o : BasicObject}
    {dim : List PyVal} {values : List (String × String × Bool)} {parts : List Passage}
    (h : sampledParts e np ex o dim values = .ok parts) :
    ∃ rows inv, parts.flatMap Passage.displays = rows.map .row ++ inv ∧ Spec.Valid rows ∧
      Spec.Mismatched ex inv := by
  unfold sampledParts at h
  split at h
  · cases h
  rename_i rows hrows
  have hflat := sampledLoop_flat values rows hrows
  simp only [Except.ok.injEq] at h
  subst h
  have hv : Spec.Valid (describeDict ex ((rows.filter (·.1)).map (·.2))) := by
    apply valid_describeDict
    intro r hr vs u he
    obtain ⟨x, hx, rfl⟩ := List.mem_map.1 hr
    rw [List.mem_filter] at hx
    have := (hflat x hx.1).2 ⟨vs, u, he⟩
    rw [hx.2] at this
    cases this
  have hf : ∀ r ∈ describeDict ex ((rows.filter (!·.1)).map (·.2)), ∃ vs u, r.2 = .flat vs u := by
    intro r hr
    obtain ⟨x, hx, rfl⟩ := List.mem_map.1 (mem_describeDict.1 hr).1
    rw [List.mem_filter] at hx
    exact (hflat x hx.1).1 (by simpa using hx.2)
  rw [List.flatMap_append]
  have hA : ∃ r, List.flatMap Passage.displays (if (rows.filter (·.1)).map (·.2) = [] then []
      else [.table (describeDict ex ((rows.filter (·.1)).map (·.2)))]) = r.map .row ∧ Spec.Valid r := by
    split_ifs
    · exact ⟨[], rfl, fun r hr => by cases hr⟩
    · exact ⟨_, by simp [Passage.displays], hv⟩
  have hB : Spec.Mismatched ex (List.flatMap Passage.displays
      (if ex.inv = true ∨ (rows.filter (!·.1)).map (·.2) = [] then []
      else [.header .invalid, .table (describeDict ex ((rows.filter (!·.1)).map (·.2)))])) := by
    split_ifs with hi
    · exact .inl rfl
    · rw [not_or] at hi
      exact .inr ⟨by simpa using hi.1, _, by simp [Passage.displays, Heading.words], hf⟩
  obtain ⟨r, h1, h2⟩ := hA
  exact ⟨r, _, by rw [h1], h2, hB⟩

/-- A part of which all is rows. -/
def plainSection : Section → Bool
  | .dict _ | .attributes _ | .array _ | .coordinates => true
  | _ => false

/-- Parts of which all is rows, and values of samples behind them. -/
def tailShape : List Section → Bool
  | [] => true
  | [.sampled _ _] => true
  | sec :: rest => plainSection sec && tailShape rest

/-- A description may come first. -/
def wholeShape : List Section → Bool
  | .description _ :: rest => tailShape rest
  | l => tailShape l

theorem plain_ok {e : Env} {np : List PyVal → Option Nat} {ex : Options} {o : BasicObject} {s : Store}
    {sec : Section} (hsec : plainSection sec = true) {parts : List Passage}
    (h : (sec.parts e np ex o s).2 = .ok parts) :
    ∃ rows, parts.flatMap Passage.displays = rows.map .row ∧ Spec.Valid rows := by
  cases sec with
  | dict rows =>
    obtain ⟨rs, h1, h2⟩ := andThen_ok h
    cases h2
    obtain ⟨rs', h3, h4⟩ := andThen_ok h1
    cases h4
    exact ⟨describeDict ex rs', by simp [Passage.displays], valid_describeDict (evalRows_ok h3).1⟩
  | attributes rows =>
    obtain ⟨rs, h1, h2⟩ := andThen_ok h
    cases h2
    exact ⟨_, by simp [Passage.displays], (attributes_ok h1).1⟩
  | array name =>
    obtain ⟨r, h1, h2⟩ := andThen_ok h
    simp only [Except.ok.injEq] at h2
    subst h2
    split_ifs
    · exact ⟨[], rfl, fun r hr => by cases hr⟩
    · exact ⟨[(.str [], .res r)], rfl, fun r hr => by
        rw [List.mem_singleton] at hr; subst hr; simp⟩
  | coordinates =>
    obtain ⟨rs, h1, h2⟩ := andThen_ok h
    cases h2
    refine ⟨rs, by simp [Passage.displays], ?_⟩
    simp only [Section.run] at h1
    split at h1
    · cases h1
    split at h1
    · cases h1
    rename_i rows hrows
    obtain rfl := written_ok h1
    intro r hr
    obtain ⟨d, -, hd⟩ := mapM_mem hrows hr
    unfold coordinateRow at hd
    split at hd
    · cases hd
      rename_i v
      cases v <;> simp [coordinateValue]
    · cases hd
  | sampled dim values => cases hsec
  | description name => cases hsec
  | frame => cases hsec

theorem tail_ok {e : Env} {np : List PyVal → Option Nat} {ex : Options} {o : BasicObject} :
    ∀ {secs : List Section} {pss : List (List Passage)}, tailShape secs = true →
    List.Forall₂ (fun sec ps => ∃ s, (Section.parts e np ex o s sec).2 = .ok ps) secs pss →
    ∃ rows inv, pss.flatten.flatMap Passage.displays = rows.map .row ++ inv ∧ Spec.Valid rows ∧
      Spec.Mismatched ex inv
  | [], _, _, h => by cases h; exact ⟨[], [], rfl, fun r hr => (List.not_mem_nil hr).elim, .inl rfl⟩
  | sec :: secs, _, hs, h => by
    cases h with
    | @cons _ ps _ pss h1 h2 =>
      obtain ⟨s, h1⟩ := h1
      have hplain : plainSection sec = true → tailShape secs = true →
          ∃ rows inv, (ps :: pss).flatten.flatMap Passage.displays = rows.map .row ++ inv ∧
            Spec.Valid rows ∧ Spec.Mismatched ex inv := by
        intro hp ht
        obtain ⟨rows, h3, h4⟩ := plain_ok hp h1
        obtain ⟨rows', inv, h5, h6, h7⟩ := tail_ok ht h2
        refine ⟨rows ++ rows', inv, ?_, fun r hr => ?_, h7⟩
        · rw [List.flatten_cons, List.flatMap_append, h3, h5, List.map_append, List.append_assoc]
        · exact (List.mem_append.1 hr).elim (h4 r) (h6 r)
      cases secs with
      | nil =>
        cases h2
        cases sec with
        | sampled dim values =>
          rw [List.flatten_cons, List.flatten_nil, List.append_nil]
          cases dim with
          | none => exact sampledParts_ok h1
          | some d =>
            obtain ⟨r, -, h3⟩ := andThen_ok h1
            simp only at h3
            split at h3
            · exact sampledParts_ok h3
            · cases h3
        | _ => exact hplain (by simpa [tailShape] using hs) rfl
      | cons sec' secs =>
        have : plainSection sec = true ∧ tailShape (sec' :: secs) = true := by
          unfold tailShape at hs
          simpa using hs
        exact hplain this.1 this.2

theorem whole_ok {e : Env} {np : List PyVal → Option Nat} {ex : Options} {o : BasicObject}
    {secs : List Section} {pss : List (List Passage)} (hs : wholeShape secs = true)
    (h : List.Forall₂ (fun sec ps => ∃ s, (Section.parts e np ex o s sec).2 = .ok ps) secs pss) :
    ∃ desc rows inv, pss.flatten.flatMap Passage.displays = desc ++ rows.map .row ++ inv ∧
      Spec.Valid rows ∧ Spec.Mismatched ex inv ∧ (desc = [] ∨ ∃ d, desc = [.heading "Description",
        .row (.str (text "Description"), .res (.elem (.obj (some d))))]) := by
  by_cases ht : tailShape secs = true
  · obtain ⟨rows, inv, h1, h2, h3⟩ := tail_ok ht h
    exact ⟨[], rows, inv, by simpa using h1, h2, h3, .inl rfl⟩
  · cases h with
    | nil => exact absurd rfl ht
    | @cons sec ps secs pss h1 h2 =>
      cases sec with
      | description name =>
        obtain ⟨s, h1⟩ := h1
        obtain ⟨rows, inv, h3, h4, h5⟩ := tail_ok hs h2
        obtain ⟨r, -, h6⟩ := andThen_ok h1
        simp only [Except.ok.injEq] at h6
        rw [List.flatten_cons, List.flatMap_append, h3]
        split_ifs at h6
        · subst h6
          exact ⟨[], rows, inv, by simp, h4, h5, .inl rfl⟩
        split at h6
        · rename_i d _
          subst h6
          exact ⟨_, rows, inv, by
            rw [List.append_assoc]
            simp [Passage.displays, Heading.words], h4, h5, .inr ⟨d, rfl⟩⟩
        · subst h6
          refine ⟨[], describeDict ex [(.str (text "Description"), .res r)] ++ rows, inv, by
            simp [Passage.displays], fun x hx => ?_, h5, .inl rfl⟩
          rcases List.mem_append.1 hx with hx | hx
          · have := (mem_describeDict.1 hx).1
            rw [List.mem_singleton] at this
            subst this
            simp
          · exact h4 x hx
      | _ => exact absurd hs ht

theorem framed_ok {e : Env} {ex : Options} {o : BasicObject} {s : Store} {parts : List Passage}
    (h : (frameParts e ex o s).2 = .ok parts) :
    parts.flatMap Passage.displays = [.note "Frame has no channels"] ∨
    ∃ index channels, parts.flatMap Passage.displays =
        index ++ [.heading "Channels", .row (.str (text "Channels"), .names channels)] ∧
      (index = [.note "There is no index channel, channels are indexed by samplenumber, i.e [1,2,3,..,n]"] ∨
        ∃ rows, index = .heading "Channel indexing" :: rows.map .row ∧
          Spec.TitledBy ["Description", "Indexed by", "Index units", "Index min", "Index max", "Direction",
            "Constant spacing", "Index channel"] rows) := by
  obtain ⟨channels, -, h⟩ := andThen_ok h
  simp only at h
  split at h
  · cases h
    exact .inl rfl
  · rename_i index rest
    right
    obtain ⟨it, -, h⟩ := andThen_ok h
    split_ifs at h
    · cases h
      exact ⟨_, _, rfl, .inl rfl⟩
    split at h
    · obtain ⟨units, -, h⟩ := andThen_ok h
      obtain ⟨rows, h1, h⟩ := andThen_ok h
      cases h
      refine ⟨.heading "Channel indexing" :: rows.map .row, _, by
        simp [Passage.displays, Heading.words]; rfl, .inr ⟨rows, rfl, fun r hr => ?_⟩⟩
      obtain ⟨r', hr', he⟩ := (describeAttributes_keeps h1).1 r hr
      rw [he]
      simp only [List.mem_cons, List.not_mem_nil, or_false] at hr'
      rcases hr' with rfl | rfl | rfl | rfl | rfl | rfl | rfl | rfl <;> simp
    · cases h
  · cases h

theorem headerOf_other {t : PyStr} (ht : t ∉ [PyStr.str (text "CALIBRATION-MEASUREMENT"),
    .str (text "WELL-REFERENCE"), .str (text "FRAME")]) (i : Nat) : headerOf t i = [] := by
  simp only [List.mem_cons, List.not_mem_nil, or_false, not_or] at ht
  unfold headerOf
  simp [headers, ht.1, ht.2.1]

theorem sectionsOf_shape {t : PyStr} (ht : t ∉ [PyStr.str (text "CALIBRATION-MEASUREMENT"),
    .str (text "WELL-REFERENCE"), .str (text "FRAME")]) : wholeShape (sectionsOf t) = true := by
  have hall : ∀ x ∈ sections, x.1 ∉ ["CALIBRATION-MEASUREMENT", "WELL-REFERENCE", "FRAME"] →
      wholeShape x.2 = true := by decide +kernel
  unfold sectionsOf
  cases hf : sections.find? (fun x => decide (t = .str (text x.1))) with
  | none => rfl
  | some x =>
    have h1 := List.mem_of_find?_eq_some hf
    have h2 : t = .str (text x.1) := by simpa using List.find?_some hf
    refine hall x h1 fun hx => ht ?_
    rw [h2]
    simp only [List.mem_cons, List.not_mem_nil, or_false] at hx
    rcases hx with hx | hx | hx <;> rw [hx] <;> simp

theorem body_ok {e : Env} {np : List PyVal → Option Nat} {ex : Options} {o : BasicObject} {s : Store}
    {pss : List (List Passage)} (h : (Store.each (fun s (i, sec) =>
        Store.andThen (Section.parts e np ex o s sec) fun s parts =>
        (s, .ok (headerOf (e.dec o.type) i ++ parts))) s
        ((sectionsOf (e.dec o.type)).zipIdx.map fun x => (x.2, x.1))).2 = .ok pss) :
    Spec.Body (e.dec o.type) ex (pss.flatten.flatMap Passage.displays) := by
  have hall := each_all (P := fun (x : Nat × Section) ps => ∃ s parts,
      (Section.parts e np ex o s x.2).2 = .ok parts ∧ ps = headerOf (e.dec o.type) x.1 ++ parts)
    (fun s a b hb => by
      obtain ⟨parts, h1, h2⟩ := andThen_ok hb
      cases h2
      exact ⟨s, parts, h1, rfl⟩) _ _ _ h
  clear h
  constructor
  · intro ht
    have hsec : ∃ a b d v, sectionsOf (e.dec o.type) = [.attributes a, .attributes b, .sampled d v] ∧
        a.map Prod.fst = ["Type of measurement", "Calibration standard", "Phase in job sequence",
          "Start time of acquisition", "Duration time", "Data source"] ∧
        b.map Prod.fst = ["Dimensions", "Axis labels", "Number of values",
          "Samples used to compute std/max-dev"] := by
      rw [ht]
      exact ⟨_, _, _, _, rfl, rfl, rfl⟩
    obtain ⟨a, b, d, v, hsec, ha, hb⟩ := hsec
    have h0 : headerOf (e.dec o.type) 0 = [.header .metadata] := by rw [ht]; rfl
    have h1 : headerOf (e.dec o.type) 1 = [.header .samples] := by rw [ht]; rfl
    have h2 : headerOf (e.dec o.type) 2 = [] := by rw [ht]; decide +kernel
    rw [hsec] at hall
    simp only [List.zipIdx_cons, List.zipIdx_nil, List.map_cons, List.map_nil, Nat.zero_add] at hall
    obtain _ | ⟨⟨s0, p0, g0, rfl⟩, _ | ⟨⟨s1, p1, g1, rfl⟩, hrest⟩⟩ := hall
    obtain _ | ⟨⟨s2, p2, g2, rfl⟩, _ | _⟩ := hrest
    obtain ⟨rs0, k0, k0'⟩ := andThen_ok g0
    obtain ⟨rs1, k1, k1'⟩ := andThen_ok g1
    cases k0'
    cases k1'
    obtain ⟨c, inv, k2, k3, k4⟩ := tail_ok (secs := [.sampled d v]) (pss := [p2]) rfl
      (.cons ⟨s2, g2⟩ .nil)
    simp only [List.flatten_cons, List.flatten_nil, List.append_nil] at k2
    refine ⟨rs0, rs1, c, inv, ?_, ha ▸ (attributes_ok k0).2, hb ▸ (attributes_ok k1).2, k3, k4⟩
    rw [h0, h1, h2]
    simp [Passage.displays, Heading.words, k2]
  · intro ht
    have hsec : ∃ a, sectionsOf (e.dec o.type) = [.attributes a, .coordinates] ∧
        a.map Prod.fst = ["Permanent datum", "Vertical zero", "Permanent datum elevation",
          "Above permanent datum", "Magnetic declination"] := by
      rw [ht]
      exact ⟨_, rfl, rfl⟩
    obtain ⟨a, hsec, ha⟩ := hsec
    have h0 : headerOf (e.dec o.type) 0 = [] := by rw [ht]; decide +kernel
    have h1 : headerOf (e.dec o.type) 1 = [.header .coordinates] := by rw [ht]; rfl
    rw [hsec] at hall
    simp only [List.zipIdx_cons, List.zipIdx_nil, List.map_cons, List.map_nil, Nat.zero_add] at hall
    obtain _ | ⟨⟨s0, p0, g0, rfl⟩, _ | ⟨⟨s1, p1, g1, rfl⟩, _ | _⟩⟩ := hall
    obtain ⟨rs0, k0, k0'⟩ := andThen_ok g0
    cases k0'
    obtain ⟨b, k1, k2⟩ := plain_ok rfl g1
    refine ⟨rs0, b, ?_, ha ▸ (attributes_ok k0).2, k2⟩
    rw [h0, h1]
    simp [Passage.displays, Heading.words, k1]
  · intro ht
    have hsec : sectionsOf (e.dec o.type) = [.frame] := by rw [ht]; rfl
    have h0 : headerOf (e.dec o.type) 0 = [] := by rw [ht]; decide +kernel
    rw [hsec] at hall
    simp only [List.zipIdx_cons, List.zipIdx_nil, List.map_cons, List.map_nil] at hall
    obtain _ | ⟨⟨s0, p0, g0, rfl⟩, _ | _⟩ := hall
    rw [h0]
    simpa using framed_ok g0
  · intro ht
    refine whole_ok (sectionsOf_shape ht) (e := e) (np := np) (o := o) ?_
    have : (sectionsOf (e.dec o.type)) =
        ((sectionsOf (e.dec o.type)).zipIdx.map fun x => (x.2, x.1)).map Prod.snd := by
      rw [List.map_map]
      exact (List.zipIdx_map_fst _ _).symm
    rw [this, List.forall₂_map_left_iff]
    refine hall.imp ?_
    rintro x ps ⟨s, parts, h1, h2⟩
    rw [headerOf_other ht] at h2
    exact ⟨s, by rw [h2]; exact h1⟩

theorem dictSet_keys' {k k' : PyStr} {v : List PyVal} : ∀ {d : List (PyStr × List PyVal)},
    k ∈ (dictSet k' v d).map Prod.fst → k = k' ∨ k ∈ d.map Prod.fst
  | [], h => by simpa [dictSet] using h
  | (a, b) :: d, h => by
    unfold dictSet at h
    split_ifs at h with hx
    · subst hx
      simpa using h
    · simp only [List.map_cons, List.mem_cons] at h ⊢
      rcases h with h | h
      · exact .inr (.inl h)
      · exact (dictSet_keys' h).imp id .inr

theorem stashLoop_only (e : Env) (o : BasicObject) : ∀ (ks : List PyStr)
    (d d' : List (PyStr × List PyVal)), stashLoop e o ks d = some d' →
    ∀ k, k ∈ d'.map Prod.fst → k ∈ ks ∨ k ∈ d.map Prod.fst
  | [], d, d', h, k, hk => by cases h; exact .inr hk
  | k' :: ks, d, d', h, k, hk => by
    unfold stashLoop at h
    split at h
    · cases h
    · rcases stashLoop_only e o ks _ d' h k hk with h1 | h1
      · exact .inl (List.mem_cons_of_mem _ h1)
      · exact (dictSet_keys' h1).imp (fun h => by simp [h]) id

theorem unknowns_ok {e : Env} {ex : Options} {o : BasicObject} {s : Store} {parts : List Passage}
    (h : (if ex.stash then (s, Except.ok []) else stashParts e ex o s).2 = .ok parts) :
    Spec.Unknowns e o ex (parts.flatMap Passage.displays) := by
  by_cases hs : ex.stash = true
  · rw [if_pos hs] at h
    cases h
    exact ⟨fun _ => rfl, fun hf => absurd (hs.symm.trans hf) (by simp), fun hne => absurd rfl hne⟩
  rw [if_neg hs] at h
  unfold stashParts at h
  cases hd : stash e (rulesOf (e.dec o.type)) o with
  | none => rw [hd] at h; cases h
  | some d =>
    rw [hd] at h
    have hkey : ∀ k, k ∈ d.map Prod.fst ↔ ∃ a ∈ o.attributes, k = e.dec a.label ∧
        (rulesOf (e.dec o.type)).attributes (e.dec a.label) = none := by
      intro k
      constructor
      · intro hk
        rcases stashLoop_only e o _ _ _ hd k hk with h1 | h1
        · rw [List.mem_filter] at h1
          obtain ⟨a, ha, rfl⟩ := List.mem_map.1 h1.1
          exact ⟨a, ha, rfl, by simpa using h1.2⟩
        · cases h1
      · rintro ⟨a, ha, rfl, hr⟩
        exact stashLoop_keys e o _ _ _ hd _ (.inl (List.mem_filter.2
          ⟨List.mem_map.2 ⟨a, ha, rfl⟩, by simp [hr]⟩))
    cases d with
    | nil =>
      cases h
      refine ⟨fun hf => absurd hf hs, fun _ => ⟨fun hne => absurd rfl hne, ?_⟩, fun hne => absurd rfl hne⟩
      rintro ⟨a, ha, hr⟩
      have := (hkey (e.dec a.label)).2 ⟨a, ha, rfl, hr⟩
      cases this
    | cons x d =>
      obtain ⟨rows, h1, h2⟩ := andThen_ok h
      cases h2
      have hds : [Passage.header .unknown, .table rows].flatMap Passage.displays =
          .heading "Unknown attributes" :: rows.map .row := by simp [Passage.displays, Heading.words]
      rw [hds]
      refine ⟨fun hf => absurd hf hs, fun _ => ⟨fun _ => ?_, fun _ => by simp⟩, fun _ => ⟨rows, rfl, ?_⟩⟩
      · obtain ⟨a, ha, -, hr⟩ := (hkey x.1).1 (by simp)
        exact ⟨a, ha, hr⟩
      · intro r hr
        unfold describeStash at h1
        rw [hd] at h1
        obtain ⟨r', hr', he⟩ := (describeAttributes_keeps h1).1 r hr
        obtain ⟨y, hy, rfl⟩ := List.mem_map.1 hr'
        obtain ⟨a, ha, h3, h4⟩ := (hkey y.1).1 (List.mem_map.2 ⟨y, hy, rfl⟩)
        exact ⟨a, ha, he.trans h3, h4⟩

theorem outline_parts {e : Env} {np : List PyVal → Option Nat} {ex : Options} {o : BasicObject} {s : Store}
    {parts : List Passage} (h : (s.describeParts e np o ex).2 = .ok parts) :
    Spec.Outline e o ex (parts.flatMap Passage.displays) := by
  obtain ⟨pss, h1, h2⟩ := andThen_ok h
  obtain ⟨unknown, h3, h4⟩ := andThen_ok h2
  cases h4
  refine ⟨if ex.head then [] else describeDict ex (headerRows e o), pss.flatten.flatMap Passage.displays,
    unknown.flatMap Passage.displays, ?_, fun hh => by rw [if_pos hh], ?_, fun ha => ?_, fun ha => ?_,
    unknowns_ok h3⟩
  · rw [List.flatMap_append, List.flatMap_append]
    split_ifs <;> simp [Passage.displays]
  · split_ifs
    · exact fun r hr => (List.not_mem_nil hr).elim
    · refine titledBy_describeDict fun r hr => ?_
      simp only [headerRows, List.mem_cons, List.not_mem_nil, or_false] at hr
      rcases hr with rfl | rfl | rfl <;> simp
  · rw [if_pos ha] at h1
    cases h1
    rfl
  · rw [if_neg (by simp [ha])] at h1
    exact body_ok h1

theorem describeText_fits {x : Wrapper} (hx : Spec.Wraps x) {width n : Nat} {indent l o : Text}
    (h : x.describeText width n indent indent l [] = some o) (ht : Spec.Tidy x.space l)
    (hw : indent.length + l.length ≤ width) : o = indent ++ l ++ [10] := by
  have hne : l ≠ [] := by obtain ⟨_, u, c, rfl, _⟩ := ht; simp
  rw [Wrapper.describeText, if_neg hne, unitsText, if_pos rfl, List.append_nil,
    Option.map_eq_some_iff] at h
  obtain ⟨lines, h1, rfl⟩ := h
  rw [wrap_fits hx h1 ht hw]
  rfl

theorem describeText_ends {x : Wrapper} (hx : Spec.Wraps x) (width : Nat) (indent l : Text)
    (hw : indent.length ≤ width) :
    ∃ n₀, ∀ n, n₀ ≤ n → ∃ o, x.describeText width n indent indent l [] = some o := by
  obtain ⟨n₀, h⟩ := (c83_ends hx width indent indent
    ((if l = [] then text "\"\"" else l) ++ unitsText [])).1.2 (.inl hw)
  refine ⟨n₀, fun n hn => ?_⟩
  obtain ⟨lines, h3⟩ := h n hn
  exact ⟨joinLines lines ++ [10], by rw [Wrapper.describeText, h3]; rfl⟩

theorem heading_tidy {x : Wrapper} (hp : Spec.Printed x) (t : Heading) :
    Spec.Tidy x.space (text t.words) ∧ (text t.words).length ≤ 18 := by
  refine ⟨tidy_printed hp _ ?_ ?_, ?_⟩
  all_goals cases t <;> decide

theorem dashes_tidy {x : Wrapper} (hx : Spec.Wraps x) (k : Nat) (hk : 0 < k) :
    Spec.Tidy x.space (List.replicate k 45) := by
  obtain ⟨k, rfl⟩ : ∃ m, k = m + 1 := ⟨k - 1, by omega⟩
  refine ⟨fun c hc => ?_, List.replicate k 45, 45, List.replicate_succ', hx.dash⟩
  rw [List.eq_of_mem_replicate hc]; decide

theorem headerText_eq {x : Wrapper} (hx : Spec.Wraps x) (hp : Spec.Printed x) {width n : Nat}
    {indent o : Text} (hw : indent.length + 18 ≤ width) (t : Heading)
    (h : x.describeHeader width n indent (text t.words) 2 = some o) :
    o = indent ++ text t.words ++ [10] ++ indent ++ text "--" ++ [10] := by
  obtain ⟨h1, h2⟩ := heading_tidy hp t
  unfold Wrapper.describeHeader at h
  simp only [if_true, List.mapM_cons, List.mapM_nil, show ¬ (2 = 1) by decide, if_false] at h
  cases ha : x.describeText width n indent indent (text t.words) [] with
  | none => rw [ha] at h; simp at h
  | some a =>
    cases hb : x.describeText width n indent indent (text "--") [] with
    | none => rw [ha, hb] at h; simp at h
    | some b =>
      rw [ha, hb] at h
      simp at h
      rw [← h, describeText_fits hx ha h1 (by omega), describeText_fits hx hb
        (dashes_tidy hx 2 (by decide)) (by rw [show (text "--").length = 2 by decide]; omega)]
      simp

theorem paragraph_text {x : Wrapper} (hx : Spec.Wraps x) {width n : Nat} {indent l o : Text}
    (h : x.describeText width n indent indent l [] = some o) :
    ∃ bodies lines, Spec.Indented indent indent bodies lines ∧
      o = (if lines = [] then [10] else lines.flatMap (· ++ [10])) ∧
      Spec.ink x.space bodies.flatten = Spec.ink x.space (if l = [] then text "\"\"" else l) ∧
      ∀ l ∈ lines, l.length ≤ max width (indent.length + 1) := by
  rw [Wrapper.describeText, Option.map_eq_some_iff, unitsText, if_pos rfl, List.append_nil] at h
  obtain ⟨lines, h1, rfl⟩ := h
  obtain ⟨bodies, k1, k2, k3⟩ := c83_wrap hx _ _ _ _ _ _ h1
  rw [Nat.max_self] at k3
  exact ⟨bodies, lines, k1, joinLines_eq lines, k2, k3⟩

theorem columns_ne (t u : Text) (l : List Text) : columns (t :: u :: l) ≠ [] := by
  unfold columns
  simp only
  generalize ((t :: u :: l).map List.length).foldl max 0 = m
  rw [List.map_cons, List.map_cons, List.intercalate_cons_cons]
  intro h0
  have := congrArg List.length h0
  rw [List.length_append, List.length_append, show (text " ").length = 1 by decide] at this
  simp at this

theorem paragraph_of {x : Wrapper} (hx : Spec.Wraps x) {width n : Nat} {indent o : Text} {v : Written}
    (h : x.describeValue width n indent indent [] v = some o) :
    Spec.Paragraph x.space width indent o v := by
  cases v with
  | text t => exact paragraph_text hx h
  | array t =>
    cases h
    simp [Spec.Paragraph, unitsText]
  | list l =>
    match l, h with
    | [], h => exact paragraph_text hx h
    | [t], h => exact paragraph_text hx h
    | t :: u :: l, h =>
      obtain ⟨bodies, lines, h1, h2, h3, h4⟩ := paragraph_text hx h
      rw [if_neg (columns_ne t u l), columns_ink (hx.space 32 (by simp))] at h3
      exact ⟨bodies, lines, h1, h2, h3, h4⟩

theorem value_ends {x : Wrapper} (hx : Spec.Wraps x) (width : Nat) (indent : Text)
    (hw : indent.length ≤ width) (v : Written) :
    ∃ n₀, ∀ n, n₀ ≤ n → ∃ o, x.describeValue width n indent indent [] v = some o := by
  cases v with
  | text t => exact describeText_ends hx width indent t hw
  | array t => exact ⟨0, fun n _ => ⟨_, rfl⟩⟩
  | list l =>
    match l with
    | [] => exact describeText_ends hx width indent _ hw
    | [t] => exact describeText_ends hx width indent t hw
    | t :: u :: l => exact describeText_ends hx width indent _ hw

theorem grid_of {x : Wrapper} (hx : Spec.Wraps x) {width n : Nat} {indent o : Text}
    {ws : List (Text × Written × Text)} (h : x.describeDict width n indent ws = some o) :
    Spec.Grid x.space width indent ws o := by
  by_cases hw : ws = []
  · subst hw
    cases h
    exact .inl ⟨rfl, rfl⟩
  · exact .inr (c83_dict hx width n indent ws hw o h)

theorem plainName_named {v : PyVal} {t : Text} (h : Spec.Named v t) (ht : t.getLast? ≠ some 0) :
    plainName v = some t := by
  rcases h with ⟨o, rfl, ho⟩ | rfl
  · simp only [plainName, ho]; rw [if_neg ht]
  · simp only [plainName]; rw [if_neg ht]

theorem names_mapM {l : List PyVal} {ts : List Text} (h : List.Forall₂ Spec.Named l ts)
    (ht : ∀ t ∈ ts, t.getLast? ≠ some 0) : l.mapM plainName = some ts := by
  induction h with
  | nil => rfl
  | cons h1 _ ih =>
    rw [List.mapM_cons, plainName_named h1 (ht _ (by simp)), ih fun t h => ht t (by simp [h])]
    rfl

theorem capital_eq (t : Text) (h : ∀ c ∈ t, c < 128) : capitalAscii t = Spec.capital t := by
  have hall : ∀ c : Nat, c < 128 → (if 97 ≤ c ∧ c ≤ 122 then c - 32 else c) = (Char.ofNat c).toUpper.toNat ∧
      (if 65 ≤ c ∧ c ≤ 90 then c + 32 else c) = (Char.ofNat c).toLower.toNat := by decide +kernel
  unfold Spec.capital
  cases t with
  | nil => rfl
  | cons c cs =>
    simp only [capitalAscii, List.map_cons, List.map_map]
    rw [(hall c (h c (by simp))).1]
    congr 1
    apply List.map_congr_left
    intro d hd
    exact (hall d (h d (by simp [hd]))).2

theorem digits_eq : ∀ {w n : Nat} {t : Text}, Spec.InDigits w n t → t = digits w n
  | 0, n, t, h => List.eq_nil_of_length_eq_zero h.1
  | w + 1, n, t, ⟨h1, h2, h3⟩ => by
    rcases t.eq_nil_or_concat' with rfl | ⟨u, c, rfl⟩
    · cases h1
    rw [List.foldl_append] at h3
    simp only [List.foldl_cons, List.foldl_nil] at h3
    have hc := h2 c (by simp)
    have hu : Spec.InDigits w (n / 10) u :=
      ⟨by simpa using h1, fun c hc => h2 c (by simp [hc]), by omega⟩
    rw [digits, ← digits_eq hu]
    congr 2
    omega

theorem dated_eq {d : DTime} {t : Text} (h : Spec.Dated d t) : dateText d = t := by
  obtain ⟨y, m, a, h, n, s, f, h1, h2, h3, h4, h5, h6, rfl, h7⟩ := h
  have e1 : text "-" = [45] := by decide +kernel
  have e2 : text " " = [32] := by decide +kernel
  have e3 : text ":" = [58] := by decide +kernel
  have e4 : text "." = [46] := by decide +kernel
  rw [e1, e2, e3, dateText, digits_eq h1, digits_eq h2, digits_eq h3, digits_eq h4, digits_eq h5,
    digits_eq h6]
  rcases h7 with ⟨h7, rfl⟩ | ⟨h7, u, h8, rfl⟩
  · rw [if_pos h7]
  · rw [if_neg h7, e4, digits_eq h8, Nat.mul_comm]

theorem whole_eq {n : Nat} {t : Text} (h : Spec.Numeral n t) : wholeText n = t := by
  rw [(numeral_iff _ _).1 h, wholeText, if_neg (by omega), Int.natAbs_natCast]

theorem negative_eq {n : Nat} {t : Text} (hn : 0 < n) (h : Spec.Numeral n t) :
    wholeText (-(n : Int)) = text "-" ++ t := by
  have e1 : text "-" = [45] := by decide +kernel
  rw [(numeral_iff _ _).1 h, wholeText, if_pos (by omega), Int.natAbs_neg, Int.natAbs_natCast, e1]
  rfl

theorem single_word (p : Printer) {v : PyVal} {t : Text} (h : Spec.Word v t) : p.single v = some t := by
  cases h with
  | words t => rfl
  | nothing => rfl
  | object o type name h1 h2 h3 =>
    have : (p.capitalized o.type).1 = Spec.capital type := by
      rw [h1]
      simp only [Printer.capitalized]
      rw [if_pos (by simpa using h2), capital_eq type h2]
    simp only [Printer.single, this, h3, Printer.str]
  | whole c size n t h => simp only [Printer.single, whole_eq h]
  | negative c size n t hn h => simp only [Printer.single, negative_eq hn h]
  | date c d t h => simp only [Printer.single, dated_eq h]

theorem plain_worded (p : Printer) (k : PyStr) {r : PyResult} {t : Text} (h : Spec.Worded r t) :
    p.plain k r = some t := by
  rcases h with ⟨rfl, rfl⟩ | ⟨rfl, rfl⟩ | ⟨rfl, rfl⟩ | ⟨v, rfl, h⟩
  · rfl
  · rfl
  · rfl
  · simp only [Printer.plain, single_word p h]

theorem mapM_words {f : PyVal → Option Text} {l : List PyVal} {ts : List Text}
    (h : List.Forall₂ Spec.Word l ts) (hf : ∀ v ∈ l, ∀ t, Spec.Word v t → f v = some t) : l.mapM f = some ts := by
  induction h with
  | nil => rfl
  | cons h1 _ ih =>
    rw [List.mapM_cons, hf _ (by simp) _ h1, ih fun v hv => hf v (by simp [hv])]
    rfl

theorem mapM_head {f : PyVal → Option Text} {v : PyVal} {l : List PyVal} (h : f v = none) :
    (v :: l).mapM f = none := by
  rw [List.mapM_cons, h]
  rfl

theorem listWords_eq {l : List PyVal} {ts : List Text} (hk : Spec.OfOneKind l)
    (h : List.Forall₂ Spec.Word l ts) : listWords l = some ts := by
  unfold listWords
  rcases hk with hk | hk | hk
  · rw [mapM_words h fun v hv t ht => ?_]
    · rfl
    · obtain ⟨u, rfl, hu⟩ := hk v hv
      cases ht
      exact if_neg hu
  · have hw : l.mapM wholeWord = some ts := mapM_words h fun v hv t ht => by
      obtain ⟨c, size, n, rfl⟩ := hk v hv
      cases ht with
      | whole _ _ n _ h => simp only [wholeWord, whole_eq h]
      | negative _ _ n _ hn h => simp only [wholeWord, negative_eq hn h]
    cases h with
    | nil => rfl
    | @cons v t l ts h1 h2 =>
      obtain ⟨c, size, n, rfl⟩ := hk v (by simp)
      rw [mapM_head rfl, Option.none_or, hw]
      rfl
  · have hw : l.mapM dateWord = some ts := mapM_words h fun v hv t ht => by
      obtain ⟨c, d, rfl⟩ := hk v hv
      cases ht with
      | date _ _ _ h => simp only [dateWord, dated_eq h]
    cases h with
    | nil => rfl
    | @cons v t l ts h1 h2 =>
      obtain ⟨c, d, rfl⟩ := hk v (by simp)
      rw [mapM_head rfl, mapM_head rfl, Option.none_or, Option.none_or, hw]

theorem prints_row (p : Printer) (ex : Options) (r : Row) : Spec.Prints ex r (p.row ex r) where
  title t h := by simp only [Printer.row, h]; rfl
  plain v t u h hv := by
    have := plain_worded p r.1 hv
    have hl : ∀ l, v ≠ .list l := by
      rintro l rfl
      rcases hv with ⟨h, -⟩ | ⟨h, -⟩ | ⟨h, -⟩ | ⟨_, h, -⟩ <;> cases h
    rcases h with h | h <;> simp only [Printer.row, Printer.written, h] <;> cases v with
    | list l => exact absurd rfl (hl l)
    | _ => simp only [this]
  list l ts u h hk hl := by
    simp only [Printer.row, Printer.written]
    rcases h with h | h <;> simp only [h, listWords_eq hk hl]
  number n h := ⟨Text.ofNat n, (numeral_iff _ _).2 rfl, by simp only [Printer.row, Printer.written, h]⟩
  names l ts h hl ht := by simp only [Printer.row, Printer.written, h, names_mapM hl ht]
  pair a b t u h ha hb := by
    simp only [Printer.row, Printer.written, h, plain_worded p _ ha, plain_worded p _ hb]
    split_ifs <;> rfl
  units u h := by
    obtain ⟨w, h1, h2, h3⟩ := c70_units ex r.2 _ h
    obtain ⟨v, rfl⟩ : ∃ v, w = .str v := by
      cases w with
      | str v => exact ⟨v, rfl⟩
      | bytes b => exact h1.elim
    refine ⟨v, h1, ?_⟩
    simp only [Printer.row]
    split_ifs with hu
    · rw [h2 (.inl hu)]
    · by_cases hv : v = []
      · rw [h2 (.inr (.inl (by rw [hv]))), hv]
      · rw [h3 (by simpa using hu) (by simpa using hv) (by simp)]
        rfl
  noUnits h := by
    have : r.2.units ex = none := by
      unfold DVal.units
      split
      · rename_i u hr; exact (h ⟨u, .inl ⟨_, hr⟩⟩).elim
      · rename_i u hr; exact (h ⟨u, .inr (.inl ⟨_, hr⟩)⟩).elim
      · rename_i u hr; exact (h ⟨u, .inr (.inr (.inl ⟨_, _, hr⟩))⟩).elim
      · rename_i u hr; exact (h ⟨u, .inr (.inr (.inr ⟨_, hr⟩))⟩).elim
      · rfl
    simp only [Printer.row, this]

theorem capital_length (t : Text) : (Spec.capital t).length = t.length := by
  unfold Spec.capital
  cases t <;> simp

theorem describeParts_reach {e : Env} {p : List ObjectSet} {np : List PyVal → Option Nat} {s : Store}
    {o : BasicObject} {ex : Options} (h : Reach e p s) : Reach e p (s.describeParts e np o ex).1 := by
  have hs : (s.describe e np o ex).1 = (s.describeParts e np o ex).1 := by rw [describe_parts]; rfl
  rw [← hs]
  unfold Store.describe
  refine andThen_reach ?_ fun s _ hs => andThen_reach ?_ fun _ _ hs => hs
  · split_ifs
    · exact h
    · exact each_reach (fun s a hs => run_reach s a hs) _ _ h
  · split_ifs
    · exact hs
    · unfold describeStash
      split
      · exact hs
      · exact describeAttributes_reach hs

theorem partText_reach {e : Env} {p : List ObjectSet} {x : Wrapper} {pr : Printer} {width n : Nat}
    {indent : Text} {ex : Options} {nested : Store → BasicObject → Store × Except DescErr (Option Text)}
    (hn : ∀ s o, Reach e p s → Reach e p (nested s o).1) {s : Store} (hs : Reach e p s) (a : Passage) :
    Reach e p (x.partText pr width n indent ex nested s a).1 := by
  unfold Wrapper.partText
  split_ifs
  · cases a with
    | object o => exact hn s o.attic hs
    | _ => exact hs
  · exact hs

/-- There is a text of parts that can be written only. -/
theorem partText_ok {x : Wrapper} {pr : Printer} {width n : Nat}
    {indent : Text} {ex : Options} {nested : Store → BasicObject → Store × Except DescErr (Option Text)}
    {s : Store} {a : Passage} {t : Option Text} (h : (x.partText pr width n indent ex nested s a).2 = .ok t) :
    pr.writesAll a = true ∧ (x.passageText pr width n indent ex nested s a).2 = .ok t := by
  unfold Wrapper.partText at h
  split_ifs at h with hw
  · exact ⟨hw, h⟩

theorem objectText_reach {e : Env} {p : List ObjectSet} {np : List PyVal → Option Nat} {x : Wrapper}
    {pr : Printer} {width n : Nat} {indent : Text} : ∀ {depth : Nat} {s : Store} {o : BasicObject}
    {ex : Options}, Reach e p s → Reach e p (s.objectText e np x pr width n indent depth o ex).1
  | 0, _, _, _, h => h
  | depth + 1, s, o, ex, h => by
    unfold Store.objectText
    refine andThen_reach (describeParts_reach h) fun s _ hs => andThen_reach ?_ fun _ _ hs => hs
    refine each_reach (fun s a hs => ?_) _ _ hs
    refine partText_reach (fun s o hs => objectText_reach hs) hs a

/-- Lists without title and objects are found in the summaries of some types only. -/
def passageOf (type : PyStr) : Passage → Bool
  | .channels _ => decide (type = .str (text "FRAME"))
  | .lines _ => decide (type ∈ [.str (text "MESSAGE"), .str (text "COMMENT")])
  | .object _ => decide (type ∈ Spec.describedTypes)
  | _ => true

def sectionOf (type : PyStr) : Section → Bool
  | .frame => decide (type = .str (text "FRAME"))
  | .array _ => decide (type ∈ [.str (text "MESSAGE"), .str (text "COMMENT")])
  | .description _ => decide (type ∈ Spec.describedTypes)
  | _ => true

theorem sections_of {t : PyStr} {sec : Section} (h : sec ∈ sectionsOf t) : sectionOf t sec = true := by
  have key : ∀ x ∈ sections, ∀ sec ∈ x.2, sectionOf (.str (text x.1)) sec = true := by decide +kernel
  unfold sectionsOf at h
  split at h
  · cases h
  · rename_i x hx
    have h1 := List.mem_of_find?_eq_some hx
    have h2 : t = .str (text x.1) := by simpa using List.find?_some hx
    rw [h2]
    exact key x h1 sec h

theorem sampledParts_of {e : Env} {np : List PyVal → Option Nat} {ex : Options} {o : BasicObject}
    {dim : List PyVal} {values : List (String × String × Bool)} {t : PyStr} {parts : List Passage}
    (h : sampledParts e np ex o dim values = .ok parts) : ∀ a ∈ parts, passageOf t a = true := by
  unfold sampledParts at h
  split at h
  · cases h
  cases h
  intro a ha
  simp only [List.mem_append] at ha
  rcases ha with ha | ha
  · split_ifs at ha
    · cases ha
    · rw [List.mem_singleton] at ha; subst ha; rfl
  · split_ifs at ha
    · cases ha
    · simp only [List.mem_cons, List.not_mem_nil, or_false] at ha
      rcases ha with rfl | rfl <;> rfl

theorem section_of {e : Env} {np : List PyVal → Option Nat} {ex : Options} {o : BasicObject} {s : Store}
    {sec : Section} {t : PyStr} (hsec : sectionOf t sec = true) {parts : List Passage}
    (h : (sec.parts e np ex o s).2 = .ok parts) : ∀ a ∈ parts, passageOf t a = true := by
  have one : ∀ {b : Passage}, passageOf t b = true → ∀ a ∈ [b], passageOf t a = true := by
    intro b hb a ha
    rw [List.mem_singleton] at ha
    rw [ha]; exact hb
  cases sec with
  | dict rows =>
    obtain ⟨rs, -, h2⟩ := andThen_ok h
    cases h2
    exact one rfl
  | attributes rows =>
    obtain ⟨rs, -, h2⟩ := andThen_ok h
    cases h2
    exact one rfl
  | coordinates =>
    obtain ⟨rs, -, h2⟩ := andThen_ok h
    cases h2
    exact one rfl
  | sampled dim values =>
    cases dim with
    | none => exact sampledParts_of h
    | some d =>
      obtain ⟨r, -, h3⟩ := andThen_ok h
      simp only at h3
      split at h3
      · exact sampledParts_of h3
      · cases h3
  | description name =>
    obtain ⟨r, -, h2⟩ := andThen_ok h
    simp only [Except.ok.injEq] at h2
    subst h2
    split_ifs
    · exact fun a ha => (List.not_mem_nil ha).elim
    split
    · intro a ha
      simp only [List.mem_cons, List.not_mem_nil, or_false] at ha
      rcases ha with rfl | rfl
      · rfl
      · exact hsec
    · exact one rfl
  | array name =>
    obtain ⟨r, -, h2⟩ := andThen_ok h
    simp only [Except.ok.injEq] at h2
    subst h2
    split_ifs
    · exact fun a ha => (List.not_mem_nil ha).elim
    · exact one hsec
  | frame =>
    simp only [Section.parts, frameParts] at h
    obtain ⟨r, -, h2⟩ := andThen_ok h
    have all : ∀ l : List PyVal, ∀ a ∈ [Passage.header .channels, .channels l], passageOf t a = true := by
      intro l a ha
      simp only [List.mem_cons, List.not_mem_nil, or_false] at ha
      rcases ha with rfl | rfl
      · rfl
      · exact hsec
    split at h2
    · cases h2; exact one rfl
    · obtain ⟨it, -, h3⟩ := andThen_ok h2
      split_ifs at h3
      · cases h3
        intro a ha
        rcases List.mem_cons.1 ha with rfl | ha
        · rfl
        · exact all _ a ha
      · split at h3
        · obtain ⟨u, -, h4⟩ := andThen_ok h3
          obtain ⟨rows, -, h5⟩ := andThen_ok h4
          cases h5
          intro a ha
          rcases List.mem_cons.1 ha with rfl | ha
          · rfl
          rcases List.mem_cons.1 ha with rfl | ha
          · rfl
          · exact all _ a ha
        · cases h3
    · cases h2

theorem parts_of {e : Env} {np : List PyVal → Option Nat} {ex : Options} {o : BasicObject} {s : Store}
    {parts : List Passage} (h : (s.describeParts e np o ex).2 = .ok parts) :
    ∀ a ∈ parts, passageOf (e.dec o.type) a = true := by
  obtain ⟨pss, h1, h2⟩ := andThen_ok h
  obtain ⟨unknown, h3, h4⟩ := andThen_ok h2
  cases h4
  intro a ha
  rcases List.mem_append.1 ha with ha | ha
  · rcases List.mem_append.1 ha with ha | ha
    · split_ifs at ha
      · cases ha
      · rw [List.mem_singleton] at ha; subst ha; rfl
    · obtain ⟨ps, hps, ha⟩ := List.mem_flatten.1 ha
      split_ifs at h1
      · cases h1; cases hps
      have hall := each_all (P := fun (x : Nat × Section) ps => ∃ s parts,
          (Section.parts e np ex o s x.2).2 = .ok parts ∧ ps = headerOf (e.dec o.type) x.1 ++ parts)
        (fun s a b hb => by
          obtain ⟨parts, h1, h2⟩ := andThen_ok hb
          cases h2
          exact ⟨s, parts, h1, rfl⟩) _ _ _ h1
      obtain ⟨⟨i, sec⟩, hsec, s', parts, h5, rfl⟩ := forall₂_mem_right hall hps
      obtain ⟨y, hy, he⟩ := List.mem_map.1 hsec
      cases he
      have hsec := sections_of (List.fst_mem_of_mem_zipIdx hy)
      rcases List.mem_append.1 ha with ha | ha
      · unfold headerOf at ha
        split at ha
        · cases ha
        · rw [List.mem_singleton] at ha; subst ha; rfl
      · exact section_of hsec h5 a ha
  · by_cases hst : ex.stash = true
    · rw [if_pos hst] at h3
      cases h3; cases ha
    rw [if_neg hst] at h3
    unfold stashParts at h3
    split at h3
    · cases h3
    · cases h3; cases ha
    · obtain ⟨rows, -, h5⟩ := andThen_ok h3
      cases h5
      simp only [List.mem_cons, List.not_mem_nil, or_false] at ha
      rcases ha with rfl | rfl <;> rfl

theorem passages_laid {e : Env} {np : List PyVal → Option Nat} {p : List ObjectSet} {x : Wrapper}
    (hx : Spec.Wraps x) (hp : Spec.Printed x) {pr : Printer} {width n : Nat} {indent : Text}
    (hw : indent.length + 18 ≤ width) {ex : Options} {o : BasicObject}
    {nested : Store → BasicObject → Store × Except DescErr (Option Text)}
    (hn : ∀ s o t, Reach e p s → (nested s o).2 = .ok (some t) → ∃ ds,
      Spec.Summarized e np p o (parseOptions "hes") ds ∧
      Spec.Laid e x width indent (Spec.Summarized e np p) o (parseOptions "hes") ds t)
    {parts : List Passage} (hparts : ∀ a ∈ parts, passageOf (e.dec o.type) a = true) {ts : List (Option Text)}
    (h : List.Forall₂ (fun a b => ∃ s, Reach e p s ∧
      (x.partText pr width n indent ex nested s a).2 = .ok b) parts ts) :
    ∀ b, ts.mapM id = some b → Spec.Laid e x width indent (Spec.Summarized e np p) o ex
      (parts.flatMap Passage.displays) b.flatten := by
  induction h with
  | nil => rintro b h; cases h; exact .nil
  | @cons a b parts ts h1 _ ih =>
    intro out ho
    rw [List.mapM_cons] at ho
    cases b with
    | none => cases ho
    | some t =>
      cases hts : ts.mapM id with
      | none => rw [hts] at ho; cases ho
      | some c =>
        rw [hts] at ho
        cases ho
        have ih := ih (fun a ha => hparts a (by simp [ha])) c hts
        have hpart := hparts a (by simp)
        rw [List.flatMap_cons, List.flatten_cons]
        obtain ⟨s, hs, h1⟩ := h1
        have h1 := (partText_ok h1).2
        cases a with
        | header t' =>
          simp only [Wrapper.passageText, Except.ok.injEq] at h1
          rw [headerText_eq hx hp hw t' h1]
          exact .heading _ ih
        | note t' =>
          simp only [Wrapper.passageText, Except.ok.injEq] at h1
          exact .note _ (paragraph_text hx h1) ih
        | table rows =>
          simp only [Wrapper.passageText, Except.ok.injEq] at h1
          exact .table rows _ (List.forall₂_map_right_iff.2 (List.forall₂_same.2 fun r _ => prints_row pr ex r))
            (grid_of hx h1) ih
        | channels l =>
          simp only [Wrapper.passageText, Except.ok.injEq] at h1
          exact .list _ _ (prints_row pr ex _) (.inr ⟨by simpa [passageOf] using hpart, l, rfl⟩) (paragraph_of hx h1) ih
        | lines r =>
          simp only [Wrapper.passageText, Except.ok.injEq] at h1
          exact .list _ _ (prints_row pr ex _) (.inl ⟨by simpa [passageOf] using hpart, rfl⟩) (paragraph_of hx h1) ih
        | object d =>
          obtain ⟨ds, k1, k2⟩ := hn s d.attic t hs h1
          exact .object d ds (by simpa [passageOf, Spec.describedTypes] using hpart) k1 k2 ih

theorem title_eq {x : Wrapper} (hx : Spec.Wraps x) {pr : Printer} {width n : Nat} {indent a t : Text}
    {ex : Options} (hh : ex.head = false) (hc : ∀ c ∈ t, c < 128)
    (ht : Spec.Tidy x.space (Spec.capital t)) (hw : indent.length + t.length ≤ width)
    (h : x.titleText pr width n indent ex (.str t) = some a) :
    a = indent ++ List.replicate t.length 45 ++ [10] ++ indent ++ Spec.capital t ++ [10] ++
      indent ++ List.replicate t.length 45 ++ [10] := by
  have hcap : pr.capitalized (.str t) = (Spec.capital t, t.length) := by
    simp only [Printer.capitalized]
    rw [if_pos (by simpa using hc), capital_eq t hc, capital_length]
  have hpos : 0 < t.length := by
    obtain ⟨-, u, c, he, -⟩ := ht
    rw [← capital_length, he]; simp
  unfold Wrapper.titleText at h
  rw [hh] at h
  simp only [Bool.false_eq_true, if_false, hcap, List.mapM_cons, List.mapM_nil] at h
  cases h1 : x.describeText width n indent indent (List.replicate t.length 45) [] with
  | none => rw [h1] at h; simp at h
  | some b =>
    cases h2 : x.describeText width n indent indent (Spec.capital t) [] with
    | none => rw [h1, h2] at h; simp at h
    | some c =>
      rw [h1, h2] at h
      simp at h
      rw [← h, describeText_fits hx h1 (dashes_tidy hx _ hpos) (by simpa using hw),
        describeText_fits hx h2 ht (by rw [capital_length]; exact hw)]
      simp

theorem objectText_laid {e : Env} {np : List PyVal → Option Nat} {p : List ObjectSet} {x : Wrapper}
    (hx : Spec.Wraps x) (hp : Spec.Printed x) {pr : Printer} {width n : Nat} {indent : Text}
    (hw : indent.length + 18 ≤ width) : ∀ {depth : Nat} {s : Store} {o : BasicObject} {ex : Options}
    {out : Text}, Reach e p s →
    (s.objectText e np x pr width n indent depth o ex).2 = .ok (some out) →
    ∃ ds rows a rest, (s.describe e np o ex).2 = .ok rows ∧ Spec.Display.rows ds = rows ∧
      Spec.Outline e o ex ds ∧ x.titleText pr width n indent ex (e.dec o.type) = some a ∧ out = a ++ rest ∧
      Spec.Laid e x width indent (Spec.Summarized e np p) o ex ds rest
  | 0, _, _, _, _, _, h => by cases h
  | depth + 1, s, o, ex, out, hs, h => by
    unfold Store.objectText at h
    obtain ⟨parts, h1, h2⟩ := andThen_ok h
    obtain ⟨ts, h3, h4⟩ := andThen_ok h2
    have hpart : ∀ s a, Reach e p s → Reach e p (x.partText pr width n indent ex (fun s o =>
        Store.objectText e np x pr width n indent depth s o (parseOptions "hes")) s a).1 := by
      exact fun s a hs => partText_reach (fun s o hs => objectText_reach hs) hs a
    have h5 := each_ok hpart _ _ _ (describeParts_reach hs) h3
    simp only [Except.ok.injEq] at h4
    split at h4
    · rename_i a b ha hb
      cases h4
      refine ⟨parts.flatMap Passage.displays, _, a, b.flatten, ?_, rfl, outline_parts h1, ha, rfl,
        passages_laid hx hp hw ?_ (parts_of h1) h5 b hb⟩
      · rw [describe_parts, mapRes, h1, Except.map, display_rows_flatMap]
      · intro s o t hs ht
        obtain ⟨ds, rows, a, rest, k1, k2, k0, k3, k4, k5⟩ := objectText_laid hx hp hw hs ht
        have : a = [] := by
          unfold Wrapper.titleText at k3
          rw [if_pos (by decide +kernel)] at k3
          cases k3; rfl
        subst this
        rw [List.nil_append] at k4
        subst k4
        obtain ⟨hist, rfl⟩ := hs
        exact ⟨ds, ⟨hist, rows, k1, k2, k0⟩, k5⟩
    · cases h4

/-! ## C85 -/

/-- C85.  The text of a summary has a title, and shows the rows of the summary one below the other,
with headings and in tables; only objects in place of descriptions are replaced by what is shown of
them.  Not shown is what the text of values is that are neither texts nor names. -/
theorem c85_text_partial (e : Env) (np : List PyVal → Option Nat) (p : List ObjectSet)
    (hist : List Spec.StoreOp) {x : Wrapper} (hx : Spec.Wraps x) (hp : Spec.Printed x) (pr : Printer)
    (width n : Nat) (indent : Text) (hw : indent.length + 18 ≤ width) (depth : Nat) (o : BasicObject)
    (ex : Options) (out : Text)
    (h : ((Spec.after e p hist).objectText e np x pr width n indent depth o ex).2 = .ok (some out)) :
    ∃ ds title rest, ((Spec.after e p hist).describe e np o ex).2 = .ok (Spec.Display.rows ds) ∧
      Spec.Outline e o ex ds ∧ out = title ++ rest ∧
      Spec.Laid e x width indent (Spec.Summarized e np p) o ex ds rest ∧
      (ex.head = true → title = []) ∧
      (ex.head = false → ∀ t, e.dec o.type = .str t → (∀ c ∈ t, c < 128) →
        Spec.Tidy x.space (Spec.capital t) → indent.length + t.length ≤ width →
        title = indent ++ List.replicate t.length 45 ++ [10] ++ indent ++ Spec.capital t ++ [10] ++
          indent ++ List.replicate t.length 45 ++ [10]) := by
  obtain ⟨ds, rows, a, rest, h1, h2, h0, h3, h4, h5⟩ := objectText_laid hx hp hw ⟨hist, rfl⟩ h
  refine ⟨ds, a, rest, by rw [h2, h1], h0, h4, h5, ?_, ?_⟩
  · intro hh
    unfold Wrapper.titleText at h3
    rw [if_pos hh] at h3
    cases h3; rfl
  · intro hh t ht hc htidy hlen
    rw [ht] at h3
    exact title_eq hx hh hc htidy hlen h3

theorem lines_end (lines : List Text) : ∀ out : Text,
    out = (if lines = [] then [10] else lines.flatMap (· ++ [10])) → out.getLast? = some 10 := by
  rintro out rfl
  split_ifs with h
  · rfl
  · obtain ⟨ls, l, rfl⟩ := List.eq_nil_or_concat lines |>.resolve_left h
    simp

theorem titled_end {space : Nat → Bool} {width column : Nat} {indent row : Text}
    {r : Text × Written × Text} (h : Spec.Titled space width indent column r row) :
    row.getLast? = some 10 := by
  obtain ⟨pad, title, -, -, h⟩ := h
  obtain ⟨k, v, u⟩ := r
  cases v with
  | array t => simp only [Spec.Continues] at h; rw [h]; simp
  | text t => obtain ⟨_, lines, -, h, -⟩ := h; exact lines_end lines _ h
  | list l => obtain ⟨_, lines, -, h, -⟩ := h; exact lines_end lines _ h

theorem paragraph_end {space : Nat → Bool} {width : Nat} {indent row : Text} {v : Written}
    (h : Spec.Paragraph space width indent row v) : row.getLast? = some 10 := by
  cases v with
  | array t => simp only [Spec.Paragraph] at h; rw [h]; simp
  | text t => obtain ⟨_, lines, -, h, -⟩ := h; exact lines_end lines _ h
  | list l => obtain ⟨_, lines, -, h, -⟩ := h; exact lines_end lines _ h

theorem forall₂_split {α β : Type} {R : α → β → Prop} {l : List α} {m : List β} (h : List.Forall₂ R l m)
    {a : α} (ha : a ∈ l) : ∃ m1 b m2, m = m1 ++ b :: m2 ∧ R a b ∧ ∀ c ∈ m1, ∃ d ∈ l, R d c := by
  induction h with
  | nil => cases ha
  | @cons a' b l m h1 _ ih =>
    rcases List.mem_cons.1 ha with rfl | ha
    · exact ⟨[], b, m, rfl, h1, by simp⟩
    · obtain ⟨m1, c, m2, rfl, h2, h3⟩ := ih ha
      refine ⟨b :: m1, c, m2, rfl, h2, fun d hd => ?_⟩
      rcases List.mem_cons.1 hd with rfl | hd
      · exact ⟨a', by simp, h1⟩
      · obtain ⟨d', hd', h4⟩ := h3 d hd
        exact ⟨d', by simp [hd'], h4⟩

theorem flatten_end (m : List Text) (h : ∀ c ∈ m, c.getLast? = some 10) :
    m.flatten = [] ∨ m.flatten.getLast? = some 10 := by
  rcases List.eq_nil_or_concat m with rfl | ⟨ls, l, rfl⟩
  · exact .inl rfl
  · have := h l (by simp)
    obtain ⟨u, rfl⟩ := List.getLast?_eq_some_iff.1 this
    exact .inr (by simp)

theorem end_append {a b : Text} (ha : a = [] ∨ a.getLast? = some 10) (hb : b = [] ∨ b.getLast? = some 10) :
    a ++ b = [] ∨ (a ++ b).getLast? = some 10 := by
  rcases hb with rfl | hb
  · simpa using ha
  · obtain ⟨u, rfl⟩ := List.getLast?_eq_some_iff.1 hb
    exact .inr (by simp)

/-- Where a row is in the text of a summary. -/
theorem laid_row {e : Env} {x : Wrapper} {width : Nat} {indent : Text}
    {shows : BasicObject → Options → List Spec.Display → Prop} {o : BasicObject} {ex : Options}
    {ds : List Spec.Display} {out : Text} (h : Spec.Laid e x width indent shows o ex ds out) :
    (out = [] ∨ out.getLast? = some 10) ∧ ∀ r, .row r ∈ ds →
    ∃ before line after, out = before ++ line ++ after ∧ (before = [] ∨ before.getLast? = some 10) ∧
      ((∃ w column, Spec.Prints ex r w ∧ Spec.Titled x.space width indent column w line) ∨
       (∃ w, Spec.Prints ex r w ∧ Spec.Untitled (e.dec o.type) r ∧
         Spec.Paragraph x.space width indent line w.2.1) ∨
       ∃ d ds', e.dec o.type ∈ Spec.describedTypes ∧ r = (.str (text "Description"), .res (.elem (.obj (some d)))) ∧
         shows d.attic (parseOptions "hes") ds' ∧
         Spec.Laid e x width indent shows d.attic (parseOptions "hes") ds' line) := by
  induction h with
  | nil => exact ⟨.inl rfl, by simp⟩
  | @heading b ex ds out t _ ih =>
    have he : (indent ++ text t ++ [10] ++ indent ++ text "--" ++ [10]) = [] ∨
        (indent ++ text t ++ [10] ++ indent ++ text "--" ++ [10]).getLast? = some 10 :=
      .inr (List.getLast?_eq_some_iff.2 ⟨_, rfl⟩)
    refine ⟨end_append he ih.1, fun r hr => ?_⟩
    obtain ⟨b, l, a, rfl, h1, h2⟩ := ih.2 r (by simpa using hr)
    exact ⟨_ ++ b, l, a, by simp only [List.append_assoc], end_append he h1, h2⟩
  | @note b ex ds out o t ho _ ih =>
    have he := Or.inr (a := o = []) (paragraph_end ho)
    refine ⟨end_append he ih.1, fun r hr => ?_⟩
    obtain ⟨b, l, a, rfl, h1, h2⟩ := ih.2 r (by simpa using hr)
    exact ⟨o ++ b, l, a, by simp only [List.append_assoc], end_append he h1, h2⟩
  | @table b ex ds out o rows ws hp hg _ ih =>
    have he : o = [] ∨ o.getLast? = some 10 := by
      rcases hg with ⟨-, rfl⟩ | ⟨_, _, -, -, rfl⟩
      · exact .inl rfl
      · exact .inr (by simp)
    refine ⟨end_append he ih.1, fun r hr => ?_⟩
    rcases List.mem_append.1 hr with hr | hr
    · obtain ⟨r', hr', hrr⟩ := List.mem_map.1 hr
      cases hrr
      obtain ⟨w1, w, w2, rfl, hw, -⟩ := forall₂_split hp hr'
      rcases hg with ⟨h0, -⟩ | ⟨column, lines, -, h2, rfl⟩
      · simp at h0
      obtain ⟨m1, l, m2, rfl, h3, h4⟩ := forall₂_split h2 (a := w) (by simp)
      refine ⟨m1.flatten, l, m2.flatten ++ [10] ++ out, by simp, flatten_end _ fun c hc => ?_,
        .inl ⟨w, column, hw, h3⟩⟩
      obtain ⟨d, -, hd⟩ := h4 c hc
      exact titled_end hd
    · obtain ⟨b, l, a, rfl, h1, h2⟩ := ih.2 r hr
      exact ⟨o ++ b, l, a, by simp only [List.append_assoc], end_append he h1, h2⟩
  | @list b ex ds out o r' w hw hr' ho _ ih =>
    have he := Or.inr (a := o = []) (paragraph_end ho)
    refine ⟨end_append he ih.1, fun r hr => ?_⟩
    rcases List.mem_cons.1 hr with hr | hr
    · cases hr
      exact ⟨[], o, out, rfl, .inl rfl, .inr (.inl ⟨w, hw, hr', ho⟩)⟩
    · obtain ⟨b, l, a, rfl, h1, h2⟩ := ih.2 r hr
      exact ⟨o ++ b, l, a, by simp only [List.append_assoc], end_append he h1, h2⟩
  | @object b ex ds out o d ds' ht hs hl _ ih1 ih =>
    refine ⟨end_append ih1.1 ih.1, fun r hr => ?_⟩
    rcases List.mem_cons.1 hr with hr | hr
    · cases hr
      exact ⟨[], o, out, rfl, .inl rfl, .inr (.inr ⟨d, ds', ht, rfl, hs, hl⟩)⟩
    · obtain ⟨b, l, a, rfl, h1, h2⟩ := ih.2 r hr
      exact ⟨o ++ b, l, a, by simp only [List.append_assoc], end_append ih1.1 h1, h2⟩

/-- C85.  Each row of a summary begins a line of the text: with its title, or without one in the list
of the channels of a frame and in texts of messages and comments.  A description that is an object is
shown by its summary. -/
theorem c85_row_partial (e : Env) (np : List PyVal → Option Nat) (p : List ObjectSet)
    (hist : List Spec.StoreOp) {x : Wrapper} (hx : Spec.Wraps x) (hp : Spec.Printed x) (pr : Printer)
    (width n : Nat) (indent : Text) (hw : indent.length + 18 ≤ width) (depth : Nat) (o : BasicObject)
    (ex : Options) (out : Text)
    (h : ((Spec.after e p hist).objectText e np x pr width n indent depth o ex).2 = .ok (some out)) :
    ∃ rows, ((Spec.after e p hist).describe e np o ex).2 = .ok rows ∧ ∀ r ∈ rows,
      ∃ before line after, out = before ++ line ++ after ∧ (before = [] ∨ before.getLast? = some 10) ∧
      ((∃ w column, Spec.Prints ex r w ∧ Spec.Titled x.space width indent column w line) ∨
       (∃ w, Spec.Prints ex r w ∧ Spec.Untitled (e.dec o.type) r ∧
         Spec.Paragraph x.space width indent line w.2.1) ∨
       ∃ d ds, e.dec o.type ∈ Spec.describedTypes ∧ r = (.str (text "Description"), .res (.elem (.obj (some d)))) ∧
         Spec.Summarized e np p d.attic (parseOptions "hes") ds ∧
         Spec.Laid e x width indent (Spec.Summarized e np p) d.attic (parseOptions "hes") ds line) := by
  obtain ⟨ds, rows, a, rest, h1, h2, -, h3, h4, h5⟩ := objectText_laid hx hp hw ⟨hist, rfl⟩ h
  refine ⟨rows, h1, fun r hr => ?_⟩
  rw [← h2] at hr
  have hr : Spec.Display.row r ∈ ds := by
    obtain ⟨d, hd, he⟩ := List.mem_filterMap.1 hr
    cases d with
    | row r' => cases he; exact hd
    | heading t => cases he
    | note t => cases he
  obtain ⟨b, l, c, rfl, k1, k2⟩ := (laid_row h5).2 r hr
  refine ⟨a ++ b, l, c, by rw [h4]; simp only [List.append_assoc], end_append ?_ k1, k2⟩
  unfold Wrapper.titleText at h3
  split_ifs at h3
  · cases h3; exact .inl rfl
  · rw [Option.map_eq_some_iff] at h3
    obtain ⟨ls, h6, rfl⟩ := h3
    refine flatten_end ls fun c hc => ?_
    obtain ⟨l', -, hl⟩ := mapM_mem h6 hc
    rw [Wrapper.describeText, Option.map_eq_some_iff] at hl
    obtain ⟨_, -, rfl⟩ := hl
    simp

/-- A row whose text fits in its line. -/
theorem titled_fits {space : Nat → Bool} {width column : Nat} {indent key t row : Text}
    (h : Spec.Titled space width indent column (key, .text t, []) row) (hne : t ≠ [])
    (ht : Spec.Tidy space t) (hw : column + t.length ≤ width) :
    indent.length + key.length + 3 ≤ column ∧
      row = indent ++ key ++ List.replicate (column - (indent.length + key.length + 3)) 32 ++
        text " : " ++ t ++ [10] := by
  obtain ⟨pad, title, rfl, h2, _, _, -, -, -, -, h3⟩ := h
  have h4 := h3 t [] rfl hne (by simp) (by simpa using ht) (by simpa using hw)
  have h5 : indent.length + key.length + pad + 3 = column := by
    rw [← h2]
    simp [show (text " : ").length = 3 by decide]
    omega
  refine ⟨by omega, ?_⟩
  rw [h4, ← h5, show indent.length + key.length + pad + 3 - (indent.length + key.length + 3) = pad by omega]
  simp

theorem numeral_tidy {x : Wrapper} (hp : Spec.Printed x) {n : Nat} {t : Text} (h : Spec.Numeral n t) :
    t ≠ [] ∧ Spec.Tidy x.space t := by
  obtain ⟨ds, ⟨h1, h2, -⟩, rfl⟩ := h
  refine ⟨by simpa using h2, fun c hc => ?_, ?_⟩
  · obtain ⟨d, hd, rfl⟩ := List.mem_map.1 hc
    have := h1 d hd
    simp only [List.mem_cons, List.not_mem_nil, or_false]
    omega
  · obtain ⟨ls, l, rfl⟩ := (List.eq_nil_or_concat ds).resolve_left h2
    have := h1 l (by simp)
    exact ⟨ls.map BitVec.toNat, l.toNat, by simp, hp _ (by omega) (by omega)⟩

theorem header_grid {x : Wrapper} {width : Nat} {indent name origin copy out : Text}
    (hn : name ≠ []) (ho : origin ≠ []) (hc : copy ≠ []) (tn : Spec.Tidy x.space name)
    (tr : Spec.Tidy x.space origin) (tc : Spec.Tidy x.space copy)
    (hw : indent.length + 9 + max name.length (max origin.length copy.length) ≤ width)
    (h : Spec.Grid x.space width indent [(text "name", .text name, []), (text "origin", .text origin, []),
      (text "copy", .text copy, [])] out) :
    out = indent ++ text "name   : " ++ name ++ [10] ++ indent ++ text "origin : " ++ origin ++ [10] ++
      indent ++ text "copy   : " ++ copy ++ [10, 10] := by
  rcases h with ⟨h, -⟩ | ⟨column, lines, ⟨r, hr, hcol⟩, h2, rfl⟩
  · cases h
  have l4 : (text "name").length = 4 := by decide
  have l6 : (text "origin").length = 6 := by decide
  have l4' : (text "copy").length = 4 := by decide
  cases h2 with
  | cons a1 h2 =>
    cases h2 with
    | cons a2 h2 =>
      cases h2 with
      | cons a3 h2 =>
        cases h2
        have hle : column ≤ indent.length + 9 := by
          simp only [List.mem_cons, List.not_mem_nil, or_false] at hr
          rcases hr with rfl | rfl | rfl <;> simp only at hcol <;> omega
        obtain ⟨-, b1⟩ := titled_fits a1 hn tn (by omega)
        obtain ⟨c2, b2⟩ := titled_fits a2 ho tr (by omega)
        obtain ⟨-, b3⟩ := titled_fits a3 hc tc (by omega)
        obtain rfl : column = indent.length + 9 := by omega
        rw [l4, show indent.length + 9 - (indent.length + 4 + 3) = 2 by omega] at b1
        rw [l6, show indent.length + 9 - (indent.length + 6 + 3) = 0 by omega] at b2
        rw [l4', show indent.length + 9 - (indent.length + 4 + 3) = 2 by omega] at b3
        subst b1 b2 b3
        have e1 : text "name   : " = text "name" ++ (List.replicate 2 32 ++ text " : ") := by decide
        have e2 : text "origin : " = text "origin" ++ text " : " := by decide
        have e3 : text "copy   : " = text "copy" ++ (List.replicate 2 32 ++ text " : ") := by decide
        rw [e1, e2, e3]
        simp

/-- C85.  A summary begins with the type of the object as title, and three lines with its name, origin
and copy number. -/
theorem c85_header (e : Env) (np : List PyVal → Option Nat) (s : Store)
    {x : Wrapper} (hx : Spec.Wraps x) (hp : Spec.Printed x) (pr : Printer)
    (width n : Nat) (indent : Text) (depth : Nat) (o : BasicObject) (ex : Options)
    (hh : ex.head = false) (type name origin copy out : Text)
    (ht : e.dec o.type = .str type) (hascii : ∀ c ∈ type, c < 128)
    (htidy : Spec.Tidy x.space (Spec.capital type)) (hlen : indent.length + type.length ≤ width)
    (hname : e.dec o.name.id = .str name) (tn : Spec.Tidy x.space name)
    (ho : Spec.Numeral o.name.origin origin) (hc : Spec.Numeral o.name.copy copy)
    (hw : indent.length + 9 + max name.length (max origin.length copy.length) ≤ width)
    (h : (s.objectText e np x pr width n indent depth o ex).2 = .ok (some out)) :
    ∃ rest, out = indent ++ List.replicate type.length 45 ++ [10] ++ indent ++ Spec.capital type ++ [10] ++
        indent ++ List.replicate type.length 45 ++ [10] ++
        indent ++ text "name   : " ++ name ++ [10] ++ indent ++ text "origin : " ++ origin ++ [10] ++
        indent ++ text "copy   : " ++ copy ++ [10, 10] ++ rest := by
  cases depth with
  | zero => cases h
  | succ depth =>
    unfold Store.objectText at h
    obtain ⟨parts, h1, h2⟩ := andThen_ok h
    obtain ⟨ts, h3, h4⟩ := andThen_ok h2
    simp only [Except.ok.injEq] at h4
    split at h4
    · rename_i a b ha hb
      cases h4
      rw [ht] at ha
      rw [title_eq hx hh hascii htidy hlen ha]
      have hne : name ≠ [] := by obtain ⟨_, u, c, rfl, _⟩ := tn; simp
      unfold Store.describeParts at h1
      obtain ⟨ps, -, h5⟩ := andThen_ok h1
      obtain ⟨unknown, -, h6⟩ := andThen_ok h5
      cases h6
      rw [hh] at h3
      simp only [Bool.false_eq_true, if_false, List.cons_append, List.nil_append] at h3
      unfold Store.each at h3
      obtain ⟨t, h7, h8⟩ := andThen_ok h3
      obtain ⟨ts', h9, h10⟩ := andThen_ok h8
      cases h10
      have h7 := (partText_ok h7).2
      simp only [Wrapper.passageText, Except.ok.injEq] at h7
      rw [List.mapM_cons] at hb
      cases t with
      | none => cases hb
      | some t =>
        cases hts : ts'.mapM id with
        | none => rw [hts] at hb; cases hb
        | some c =>
          rw [hts] at hb
          cases hb
          have hrows : (describeDict ex (headerRows e o)).map (pr.row ex) =
              [(text "name", .text name, []), (text "origin", .text origin, []),
                (text "copy", .text copy, [])] := by
            have : describeDict ex (headerRows e o) = headerRows e o := by
              unfold describeDict
              split_ifs
              · rw [headerRows, hname]
                cases name with
                | nil => exact absurd rfl hne
                | cons => rfl
              · rfl
            rw [this, headerRows, hname, (numeral_iff _ _).1 ho, (numeral_iff _ _).1 hc]
            rfl
          rw [hrows] at h7
          refine ⟨c.flatten, ?_⟩
          rw [List.flatten_cons, header_grid hne (numeral_tidy hp ho).1 (numeral_tidy hp hc).1 tn
            (numeral_tidy hp ho).2 (numeral_tidy hp hc).2 hw (grid_of hx h7)]
          simp only [List.append_assoc]
    · cases h4

/-- Two results that are the same but for the value. -/
def Alike {α : Type} (a b : Store × Except DescErr α) : Prop :=
  a.1 = b.1 ∧ a.2.map (fun _ => ()) = b.2.map (fun _ => ())

theorem alike_refl {α : Type} (a : Store × Except DescErr α) : Alike a a := ⟨rfl, rfl⟩

theorem alike_andThen {α β : Type} {a b : Store × Except DescErr α}
    {f g : Store → α → Store × Except DescErr β} (h : Alike a b)
    (hfg : ∀ s x y, Alike (f s x) (g s y)) : Alike (Store.andThen a f) (Store.andThen b g) := by
  obtain ⟨sa, a⟩ := a
  obtain ⟨sb, b⟩ := b
  obtain ⟨h1, h2⟩ := h
  simp only at h1
  subst h1
  cases a with
  | error x =>
    cases b with
    | error y => cases h2; exact ⟨rfl, rfl⟩
    | ok y => cases h2
  | ok x =>
    cases b with
    | error y => cases h2
    | ok y => exact hfg _ _ _

theorem alike_each {α β : Type} {f g : Store → α → Store × Except DescErr β}
    (hfg : ∀ s x, Alike (f s x) (g s x)) : ∀ (l : List α) (s : Store),
    Alike (Store.each f s l) (Store.each g s l)
  | [], s => ⟨rfl, rfl⟩
  | a :: l, s => by
    unfold Store.each
    exact alike_andThen (hfg s a) fun s _ _ => alike_andThen (alike_each hfg l s) fun s _ _ => ⟨rfl, rfl⟩

theorem partText_alike {x : Wrapper} {pr : Printer} {width n m : Nat} {indent : Text} {ex : Options}
    {f g : Store → BasicObject → Store × Except DescErr (Option Text)}
    (h : ∀ s o, Alike (f s o) (g s o)) (s : Store) (b : Passage) :
    Alike (x.partText pr width n indent ex f s b) (x.partText pr width m indent ex g s b) := by
  unfold Wrapper.partText
  split_ifs
  case neg => exact alike_refl _
  cases b with
  | object o => exact h s o.attic
  | header t => exact ⟨rfl, rfl⟩
  | note t => exact ⟨rfl, rfl⟩
  | table rows => exact ⟨rfl, rfl⟩
  | channels l => exact ⟨rfl, rfl⟩
  | lines r => exact ⟨rfl, rfl⟩

theorem alike_same {α β : Type} (a : Store × Except DescErr α)
    {f g : Store → α → Store × Except DescErr β} (hfg : ∀ s x, Alike (f s x) (g s x)) :
    Alike (Store.andThen a f) (Store.andThen a g) := by
  obtain ⟨s, _ | x⟩ := a
  · exact ⟨rfl, rfl⟩
  · exact hfg s x

theorem objectText_alike {e : Env} {np : List PyVal → Option Nat} {x : Wrapper} {pr : Printer}
    {width n m : Nat} {indent : Text} : ∀ (depth : Nat) (s : Store) (o : BasicObject) (ex : Options),
    Alike (s.objectText e np x pr width n indent depth o ex)
      (s.objectText e np x pr width m indent depth o ex)
  | 0, s, o, ex => ⟨rfl, rfl⟩
  | depth + 1, s, o, ex => by
    unfold Store.objectText
    refine alike_same _ fun s parts => alike_andThen (alike_each (fun s b => ?_) _ _) fun _ _ _ => ⟨rfl, rfl⟩
    exact partText_alike (fun s o => objectText_alike depth s o _) s b

theorem ok_of_alike {α : Type} {a b : Store × Except DescErr α} (h : Alike a b) {x : α}
    (hx : a.2 = .ok x) : ∃ y, b.2 = .ok y := by
  obtain ⟨-, h⟩ := h
  rw [hx] at h
  cases hb : b.2 with
  | ok y => exact ⟨y, rfl⟩
  | error y => rw [hb] at h; cases h

/-- What has to be known of a passage for its text to be complete. -/
def Passage.Done (e : Env) (p : List ObjectSet) (pr : Printer) (width : Nat) (indent : Text)
    (nested : Nat → Store → BasicObject → Store × Except DescErr (Option Text)) : Passage → Prop
  | .table rows => ∀ r ∈ rows, indent.length + (pr.str r.1).length + 3 ≤ width ∧ r.2.writes = true
  | .channels l => l.all PyVal.writes = true
  | .lines r => r.writes = true
  | .object o => ∀ s, Reach e p s → ∃ n₀, ∀ n, n₀ ≤ n → ∃ t, (nested n s o.attic).2 = .ok (some t)
  | _ => True

theorem part_ends {e : Env} {p : List ObjectSet} {x : Wrapper} (hx : Spec.Wraps x) {pr : Printer}
    {width : Nat} {indent : Text} (hw : indent.length + 18 ≤ width) {ex : Options}
    {nested : Nat → Store → BasicObject → Store × Except DescErr (Option Text)} {s : Store}
    (hs : Reach e p s) {b : Passage} (hb : b.Done e p pr width indent nested) :
    ∃ n₀, ∀ n, n₀ ≤ n → ∃ t, (x.partText pr width n indent ex (nested n) s b).2 = .ok (some t) := by
  have hwr : pr.writesAll b = true := by
    cases b with
    | table rows => exact List.all_eq_true.2 fun r hr => by rw [Printer.writes, (hb r hr).2]; rfl
    | channels l => exact hb
    | lines r => exact hb
    | _ => rfl
  unfold Wrapper.partText
  simp only [hwr, if_true]
  cases b with
  | object o => exact hb s hs
  | header t =>
    obtain ⟨n₁, h1⟩ := describeText_ends hx width indent (text t.words) (by omega)
    obtain ⟨n₂, h2⟩ := describeText_ends hx width indent (text "--") (by omega)
    refine ⟨max n₁ n₂, fun n hn => ?_⟩
    obtain ⟨a, ha⟩ := h1 n (by omega)
    obtain ⟨b, hb⟩ := h2 n (by omega)
    refine ⟨a ++ b, ?_⟩
    simp only [Wrapper.passageText, Wrapper.describeHeader]
    simp [ha, hb]
  | note t =>
    obtain ⟨n₁, h1⟩ := describeText_ends hx width indent (text t) (by omega)
    refine ⟨n₁, fun n hn => ?_⟩
    obtain ⟨a, ha⟩ := h1 n hn
    exact ⟨a, by simp only [Wrapper.passageText, ha]⟩
  | table rows =>
    obtain ⟨n₁, h1⟩ := c83_dict_ends hx width indent (rows.map (pr.row ex)) (.inl fun r hr => by
      obtain ⟨r', hr', rfl⟩ := List.mem_map.1 hr
      exact (hb r' hr').1)
    refine ⟨n₁, fun n hn => ?_⟩
    obtain ⟨a, ha⟩ := h1 n hn
    exact ⟨a, by simp only [Wrapper.passageText, ha]⟩
  | channels l =>
    obtain ⟨n₁, h1⟩ := value_ends hx width indent (by omega) (pr.written (.str (text "Channels"), .names l))
    refine ⟨n₁, fun n hn => ?_⟩
    obtain ⟨a, ha⟩ := h1 n hn
    exact ⟨a, by simp only [Wrapper.passageText, ha]⟩
  | lines r =>
    obtain ⟨n₁, h1⟩ := value_ends hx width indent (by omega) (pr.written (.str [], .res r))
    refine ⟨n₁, fun n hn => ?_⟩
    obtain ⟨a, ha⟩ := h1 n hn
    exact ⟨a, by simp only [Wrapper.passageText, ha]⟩

theorem parts_end {e : Env} {p : List ObjectSet} {x : Wrapper} (hx : Spec.Wraps x) {pr : Printer}
    {width : Nat} {indent : Text} (hw : indent.length + 18 ≤ width) {ex : Options}
    {nested : Nat → Store → BasicObject → Store × Except DescErr (Option Text)}
    (hal : ∀ n m s o, Alike (nested n s o) (nested m s o))
    (hre : ∀ n s o, Reach e p s → Reach e p (nested n s o).1) : ∀ (parts : List Passage) (s : Store),
    Reach e p s → (∀ b ∈ parts, b.Done e p pr width indent nested) →
    ∃ n₀, ∀ n, n₀ ≤ n → ∃ ts : List Text,
      (Store.each (x.partText pr width n indent ex (nested n)) s parts).2 = .ok (ts.map some)
  | [], s, _, _ => ⟨0, fun n _ => ⟨[], rfl⟩⟩
  | b :: parts, s, hs, hb => by
    obtain ⟨n₁, h1⟩ := part_ends hx hw (ex := ex) hs (hb b (by simp))
    have hreach : Reach e p (x.partText pr width 0 indent ex (nested 0) s b).1 := by
      exact partText_reach (hre 0) hs b
    obtain ⟨n₂, h2⟩ := parts_end hx hw (ex := ex) hal hre parts _ hreach fun b h => hb b (by simp [h])
    refine ⟨max n₁ n₂, fun n hn => ?_⟩
    obtain ⟨t, ht⟩ := h1 n (by omega)
    obtain ⟨ts, hts⟩ := h2 n (by omega)
    have hst := (partText_alike (x := x) (pr := pr) (width := width) (n := n) (m := 0) (indent := indent)
      (ex := ex) (hal n 0) s b).1
    refine ⟨t :: ts, ?_⟩
    unfold Store.each Store.andThen
    simp only [ht]
    rw [hst]
    simp only [hts]
    rfl

theorem mapM_id_some (ts : List Text) : (ts.map some).mapM id = some ts := by
  induction ts with
  | nil => rfl
  | cons t ts ih => rw [List.map_cons, List.mapM_cons, ih]; rfl

theorem title_ends {x : Wrapper} (hx : Spec.Wraps x) (pr : Printer) {width : Nat} {indent : Text}
    (hw : indent.length ≤ width) (ex : Options) (type : PyStr) :
    ∃ n₀, ∀ n, n₀ ≤ n → ∃ a, x.titleText pr width n indent ex type = some a := by
  unfold Wrapper.titleText
  split_ifs
  · exact ⟨0, fun _ _ => ⟨[], rfl⟩⟩
  · obtain ⟨n₁, h1⟩ := describeText_ends hx width indent (List.replicate (pr.capitalized type).2 45) hw
    obtain ⟨n₂, h2⟩ := describeText_ends hx width indent (pr.capitalized type).1 hw
    refine ⟨max n₁ n₂, fun n hn => ?_⟩
    obtain ⟨a, ha⟩ := h1 n (by omega)
    obtain ⟨b, hb⟩ := h2 n (by omega)
    exact ⟨a ++ (b ++ a), by simp [ha, hb]⟩

theorem objectText_ends {e : Env} {np : List PyVal → Option Nat} {p : List ObjectSet} {x : Wrapper}
    (hx : Spec.Wraps x) {pr : Printer} {width : Nat} {indent : Text} (hw : indent.length + 18 ≤ width)
    (depth : Nat) {s : Store} (hs : Reach e p s) {o : BasicObject} {ex : Options} {rows : List Row}
    (h : (s.describe e np o ex).2 = .ok rows)
    (hfit : ∀ r ∈ rows, indent.length + (pr.str r.1).length + 3 ≤ width ∧ r.2.writes = true)
    (hobj : ∀ d, (PyStr.str (text "Description"), DVal.res (.elem (.obj (some d)))) ∈ rows →
      ∀ s, Reach e p s → ∃ n₀, ∀ n, n₀ ≤ n → ∃ t,
        (s.objectText e np x pr width n indent depth d.attic (parseOptions "hes")).2 = .ok (some t)) :
    ∃ n₀, ∀ n, n₀ ≤ n → ∃ t,
      (s.objectText e np x pr width n indent (depth + 1) o ex).2 = .ok (some t) := by
  rw [describe_parts] at h
  obtain ⟨parts, hparts, rfl⟩ : ∃ parts, (s.describeParts e np o ex).2 = .ok parts ∧
      parts.flatMap Passage.rows = rows := by
    unfold mapRes at h
    cases hp : (s.describeParts e np o ex).2 with
    | error y => rw [hp] at h; cases h
    | ok parts => rw [hp] at h; cases h; exact ⟨parts, rfl, rfl⟩
  have hdone : ∀ b ∈ parts, b.Done e p pr width indent fun n s o =>
      s.objectText e np x pr width n indent depth o (parseOptions "hes") := by
    intro b hb
    cases b with
    | table rows =>
      intro r hr
      exact hfit r (List.mem_flatMap.2 ⟨_, hb, by simpa using hr⟩)
    | object d => exact hobj d (List.mem_flatMap.2 ⟨_, hb, by
        simp [Passage.rows, Passage.displays, Spec.Display.rows]⟩)
    | channels l => exact (hfit (.str (text "Channels"), .names l) (List.mem_flatMap.2 ⟨_, hb, by
        simp [Passage.rows, Passage.displays, Spec.Display.rows]⟩)).2
    | lines r => exact (hfit (.str [], .res r) (List.mem_flatMap.2 ⟨_, hb, by
        simp [Passage.rows, Passage.displays, Spec.Display.rows]⟩)).2
    | _ => trivial
  obtain ⟨n₁, h1⟩ := parts_end hx hw (ex := ex) (fun n m s o => objectText_alike depth s o _)
    (fun n s o hs => objectText_reach hs) parts _
    (describeParts_reach (np := np) (o := o) (ex := ex) hs) hdone
  obtain ⟨n₂, h2⟩ := title_ends hx pr (width := width) (indent := indent) (by omega) ex (e.dec o.type)
  refine ⟨max n₁ n₂, fun n hn => ?_⟩
  obtain ⟨ts, hts⟩ := h1 n (by omega)
  obtain ⟨a, ha⟩ := h2 n (by omega)
  refine ⟨a ++ ts.flatten, ?_⟩
  unfold Store.objectText Store.andThen
  simp only [hparts, hts, ha, mapM_id_some]

/-- The test of the model is the one of the specification. -/
theorem row_writes (d : DVal) : d.writes = true ↔ Spec.RowWritable d := by
  unfold Spec.RowWritable
  cases d with
  | res r => exact result_writes r
  | attr r _ => exact result_writes r
  | names l => exact vals_write l
  | flat l _ => exact vals_write l
  | samples a _ => exact vals_write a.elems
  | single _ l _ => exact vals_write l
  | chars _ => simp [DVal.writes, Spec.rowValues]
  | number _ => simp [DVal.writes, Spec.rowValues]
  | pair a b =>
    simp only [DVal.writes, Bool.and_eq_true, result_writes, Spec.rowValues, List.mem_append]
    exact ⟨fun h c v hm => hm.elim (h.1 c v) (h.2 c v), fun h => ⟨fun c v hm => h c v (.inl hm), fun c v hm => h c v (.inr hm)⟩⟩

/-- C85.  If there is a summary, then its text comes to an end, provided that the titles fit in the
lines, the references in the rows can be written down, and what describes the object has a summary of
this kind, too, without another object as description. -/
theorem c85_ends (e : Env) (np : List PyVal → Option Nat) (p : List ObjectSet)
    (hist : List Spec.StoreOp) {x : Wrapper} (hx : Spec.Wraps x) (pr : Printer)
    (width : Nat) (indent : Text) (hw : indent.length + 18 ≤ width) (depth : Nat) (hdep : 2 ≤ depth)
    (o : BasicObject) (ex : Options) (rows : List Row)
    (h : ((Spec.after e p hist).describe e np o ex).2 = .ok rows)
    (hfit : ∀ r ∈ rows, ∃ t, r.1 = .str t ∧ indent.length + t.length + 3 ≤ width ∧ Spec.RowWritable r.2)
    (hobj : ∀ d, (PyStr.str (text "Description"), DVal.res (.elem (.obj (some d)))) ∈ rows →
      ∀ hist, ∃ rows, ((Spec.after e p hist).describe e np d.attic (parseOptions "hes")).2 = .ok rows ∧
        (∀ r ∈ rows, ∃ t, r.1 = .str t ∧ indent.length + t.length + 3 ≤ width ∧ Spec.RowWritable r.2) ∧
        ∀ d, (PyStr.str (text "Description"), DVal.res (.elem (.obj (some d)))) ∉ rows) :
    ∃ n₀, ∀ n, n₀ ≤ n → ∃ out,
      ((Spec.after e p hist).objectText e np x pr width n indent depth o ex).2 = .ok (some out) := by
  have hstr : ∀ rows : List Row, (∀ r ∈ rows, ∃ t, r.1 = .str t ∧ indent.length + t.length + 3 ≤ width ∧ Spec.RowWritable r.2) →
      ∀ r ∈ rows, indent.length + (pr.str r.1).length + 3 ≤ width ∧ r.2.writes = true := by
    intro rows h r hr
    obtain ⟨t, ht, hl, hwr⟩ := h r hr
    rw [ht]
    exact ⟨hl, (row_writes r.2).2 hwr⟩
  obtain ⟨depth, rfl⟩ : ∃ k, depth = k + 2 := ⟨depth - 2, by omega⟩
  refine objectText_ends hx hw (depth + 1) ⟨hist, rfl⟩ h (hstr _ hfit) fun d hd s hs => ?_
  obtain ⟨hist', rfl⟩ := hs
  obtain ⟨rows', h1, h2, h3⟩ := hobj d hd hist'
  exact objectText_ends hx hw depth ⟨hist', rfl⟩ h1 (hstr _ h2) fun d' hd' => absurd hd' (h3 d')

/-- C85.  All references that are shown in a summary can be written down, except for those in samples,
which may be abbreviated. -/
theorem c85_writable (e : Env) (np : List PyVal → Option Nat) (p : List ObjectSet)
    (hist : List Spec.StoreOp) (x : Wrapper) (pr : Printer)
    (width n : Nat) (indent : Text) (depth : Nat) (o : BasicObject) (ex : Options) (out : Text)
    (h : ((Spec.after e p hist).objectText e np x pr width n indent depth o ex).2 = .ok (some out)) :
    ∃ rows, ((Spec.after e p hist).describe e np o ex).2 = .ok rows ∧
      ∀ r ∈ rows, (∀ a u, r.2 ≠ .samples a u) → (∀ sh l u, r.2 ≠ .single sh l u) → Spec.RowWritable r.2 := by
  cases depth with
  | zero => cases h
  | succ depth =>
    unfold Store.objectText at h
    obtain ⟨parts, h1, h2⟩ := andThen_ok h
    obtain ⟨ts, h3, -⟩ := andThen_ok h2
    have h5 := each_ok (p := p) (fun s a hs => partText_reach (fun s o hs => objectText_reach hs) hs a) _ _ _
      (describeParts_reach ⟨hist, rfl⟩) h3
    refine ⟨parts.flatMap Passage.rows, ?_, fun r hr k1 k2 => (row_writes _).1 ?_⟩
    · rw [describe_parts, mapRes, h1]; rfl
    · obtain ⟨b, hb, hr⟩ := List.mem_flatMap.1 hr
      obtain ⟨t, -, s, -, ht⟩ := forall₂_mem_right h5.flip hb
      have hw := (partText_ok ht).1
      cases b with
      | table rows =>
        have := List.all_eq_true.1 hw r (by simpa using hr)
        unfold Printer.writes at this
        rw [Bool.or_eq_true] at this
        rcases this with h | h
        · exact h
        · split at h
          · exact absurd ‹_› (k1 _ _)
          · exact absurd ‹_› (k2 _ _ _)
          · cases h
      | header t => simp [Passage.rows, Passage.displays, Spec.Display.rows] at hr
      | note t => simp [Passage.rows, Passage.displays, Spec.Display.rows] at hr
      | channels l =>
        simp only [Passage.rows, Passage.displays, Spec.Display.rows, List.filterMap_cons, List.filterMap_nil,
          List.mem_singleton] at hr
        subst hr
        exact hw
      | lines v =>
        simp only [Passage.rows, Passage.displays, Spec.Display.rows, List.filterMap_cons, List.filterMap_nil,
          List.mem_singleton] at hr
        subst hr
        exact hw
      | object d =>
        simp only [Passage.rows, Passage.displays, Spec.Display.rows, List.filterMap_cons, List.filterMap_nil,
          List.mem_singleton] at hr
        subst hr
        rfl

namespace ObjectTextCase

open StoreCase AttributeCase SampledCase ClassCase DescribeCase

/-- Bytes of ASCII as they are, and samples of one byte. -/
def printer : Printer where
  bytes b := b.map BitVec.toNat
  capital t := t
  value r := match r.2 with
    | .flat l _ => .list (l.map fun v => match v with
      | .raw .ushort (.int _ n) => Text.ofNat n.toNat
      | _ => text "?")
    | _ => .text (text "?")
  shows _ := false

def recN : Bytes := [0xf0, 9] ++ bytesOf "LONG-NAME" ++ [0x30, 8] ++ bytesOf "QUANTITY" ++
  [0x70, 1, 0, 1, 0x4c, 0x21, 1, 0x71]

/-- A channel with a description in an object of its own. -/
def longNamed : BasicObject := withType "CHANNEL"
  [("LONG-NAME", some (.obname, [channel "L"])), ("UNITS", some (.ident, [.str (bytesOf "m")]))]

/-- The text of a summary. -/
def textOf (r : Store × Except DescErr (Option Text)) : Option Text := r.2.toOption.bind id

/-- Case for `c85_text_partial` and `c85_row_partial`: a zone with an attribute that zones do not have. -/
example : textOf (start.objectText env np LayoutCase.plain printer 80 40 (text " ") 2 zoneMore all) =
    some (text " ----\n Zone\n ----\n name   : X\n origin : 1\n copy   : 0\n\n" ++
      text " Description : None\n Domain      : None\n Minimum     : 7 [m]\n Maximum     : None\n\n" ++
      text " Unknown attributes\n --\n MORE : u [s]\n\n") := by
  decide +kernel

/-- Case for `c85_text_partial` and `c85_row_partial`: an object in place of a description. -/
example : textOf ((Spec.after env (file [recN]) []).objectText env np LayoutCase.plain printer 80 40
      (text " ") 2 longNamed (parseOptions "e")) =
    some (text " -------\n Channel\n -------\n name   : X\n origin : 1\n copy   : 0\n\n" ++
      text " Description\n --\n Quantity : q\n\n Physical unit of sample : m\n\n") := by
  decide +kernel

/-- Case for `c85_text_partial`: a frame without index. -/
example : textOf ((Spec.after env channels []).objectText env np LayoutCase.plain printer 80 40 (text " ") 2
      (withType "FRAME" [("CHANNELS", some (.obname, [channel "C", channel "D"]))]) (parseOptions "h")) =
    some (text " There is no index channel, channels are indexed by samplenumber, i.e\n [1,2,3,..,n]\n" ++
      text " Channels\n --\n C D\n") := by
  decide +kernel

/-- Case for `c85_text_partial`: values that do not go with the dimension. -/
example : textOf (start.objectText env np LayoutCase.plain printer 80 40 (text " ") 2
      (withType "CALIBRATION-MEASUREMENT" [("MEASUREMENT", some (.ushort, ints [5, 6, 7])),
        ("TYPE", some (.ident, [.str (bytesOf "Zero")])), ("DIMENSION", some (.ushort, ints [2]))])
      (parseOptions "eh")) =
    some (text " Metadata\n --\n Type of measurement : Zero\n\n Samples\n --\n" ++
      text " Dimensions       : 2\n Number of values : 0\n\n" ++
      text " Invalid dimensions\n --\n Value(s) : 5 6 7\n\n") := by
  decide +kernel

/-- Half past two on 3 May 1990, and a quarter of a second. -/
def afternoon : DTime := ⟨90, 0, 5, 3, 14, 30, 0, 250⟩

/-- Case for `c85_row_partial`: dates, whole numbers below zero, and lists. -/
example : textOf (start.objectText env np LayoutCase.plain printer 80 40 (text " ") 2
      (withType "MESSAGE" [("TIME", some (.dtime, [.dtime afternoon])), ("TYPE", some (.ident, [.str (bytesOf "C")])),
        ("ODD", some (.slong, [.int 4 (-12), .int 4 7]))]) (parseOptions "eh")) =
    some (text " Message type      : C\n Time of recording : 1990-05-03 14:30:00.250000\n\n" ++
      text " Unknown attributes\n --\n ODD : -12 7\n\n") := by
  decide +kernel

/-- Case for `Spec.Word`: the date, a whole number, and an object. -/
example : Spec.Word (.raw .dtime (.dtime afternoon)) (text "1990-05-03 14:30:00.250000") ∧
    Spec.Word (.raw .slong (.int 4 (-12))) (text "-12") := by
  refine ⟨.date _ _ _ ⟨text "1990", text "05", text "03", text "14", text "30", text "00", text ".250000",
    ?_, ?_, ?_, ?_, ?_, ?_, by decide +kernel, .inr ⟨by decide +kernel, text "250000", ?_, by decide +kernel⟩⟩,
    ?_⟩
  · unfold Spec.InDigits; decide +kernel
  · unfold Spec.InDigits; decide +kernel
  · unfold Spec.InDigits; decide +kernel
  · unfold Spec.InDigits; decide +kernel
  · unfold Spec.InDigits; decide +kernel
  · unfold Spec.InDigits; decide +kernel
  · unfold Spec.InDigits; decide +kernel
  · exact .negative .slong 4 12 (text "12") (by omega) ((numeral_iff _ _).2 (by decide +kernel))

/-- Case for `c85_text_partial`: coordinates of a well. -/
example : textOf (start.objectText env np LayoutCase.plain printer 80 40 (text " ") 2 well
      (parseOptions "eh")) =
    some (text " Coordinates\n --\n Latitude  : 60\n Longitude : 5\n\n") := by
  decide +kernel

/-- Case for `c85_header`: its hypotheses hold for the zone. -/
example : env.dec zoneMore.type = .str (text "ZONE") ∧ (∀ c ∈ text "ZONE", c < 128) ∧
    Spec.Tidy LayoutCase.plain.space (Spec.capital (text "ZONE")) ∧
    env.dec zoneMore.name.id = .str (text "X") ∧ Spec.Tidy LayoutCase.plain.space (text "X") ∧
    Spec.Numeral zoneMore.name.origin (text "1") ∧ Spec.Numeral zoneMore.name.copy (text "0") := by
  refine ⟨by decide +kernel, by decide +kernel, ⟨by decide +kernel, text "Zon", 101, by decide +kernel,
    by decide +kernel⟩, by decide +kernel, ⟨by decide +kernel, [], 88, by decide +kernel,
    by decide +kernel⟩, (numeral_iff _ _).2 (by decide +kernel), (numeral_iff _ _).2 (by decide +kernel)⟩

/-- A zone with an attribute that zones do not have, which refers to "Å" in Latin-1. -/
def zoneRef : BasicObject := withType "ZONE" [("MINIMUM", some (.ushort, ints [7])),
  ("MORE", some (.obname, [.obname ⟨1, 0, [0xc5]⟩]))]

/-- The text of the summary of an object is not printed, however it is laid out, although all of its
attributes can be read: one that is not known holds a name that is not UTF-8, and `str` of a name takes
no account of the encodings that are set. -/
theorem c85_reference_defect (x : Wrapper) (pr : Printer) (width n : Nat) (indent : Text) (depth : Nat) :
    ((Spec.after env [] []).describe env np zoneRef all).2.toOption.isSome = true ∧
    ∀ out, ((Spec.after env [] []).objectText env np x pr width n indent depth zoneRef all).2 ≠
      .ok (some out) := by
  refine ⟨by decide +kernel, fun out h => ?_⟩
  obtain ⟨rows, h1, h2⟩ := c85_writable env np [] [] x pr width n indent depth zoneRef all out h
  have : ((Spec.after env [] []).describe env np zoneRef all).2.toOption.any (fun rows =>
      rows.any fun r => decide (r.2 = .attr (.list [.raw .obname (.obname ⟨1, 0, [0xc5]⟩)]) (.str []))) = true := by
    decide +kernel
  rw [h1] at this
  simp only [Except.toOption, Option.any_some, List.any_eq_true, decide_eq_true_eq] at this
  obtain ⟨r, hr, he⟩ := this
  have hw := h2 r hr (by rw [he]; simp) (by rw [he]; simp)
  rw [he] at hw
  obtain ⟨t, ht⟩ := hw .obname (.obname ⟨1, 0, [0xc5]⟩) (by simp [Spec.rowValues, Spec.valuesIn])
  have : utf8Decode [0xc5] = none := by decide +kernel
  rw [this] at ht
  cases ht

/-- Case for `c85_writable`: the name is UTF-8. -/
example : textOf (start.objectText env np LayoutCase.plain printer 80 40 (text " ") 2
      (withType "ZONE" [("MORE", some (.obname, [.obname ⟨1, 0, bytesOf "A"⟩]))]) (parseOptions "eh")) =
    some (text " Unknown attributes\n --\n MORE : ?\n\n") := by
  decide +kernel

/-- Case for `c85_ends`. -/
example : ∃ n₀, ∀ n, n₀ ≤ n → ∃ out, ((Spec.after env [] []).objectText env np LayoutCase.plain printer 80 n
    (text " ") 2 zoneMore all).2 = .ok (some out) := by
  have h : ∃ rows, ((Spec.after env [] []).describe env np zoneMore all).2 = .ok rows ∧
      rows.all (fun r => match r.1 with
        | .str t => decide (t.length ≤ 11)
        | .bytes _ => false) = true ∧
      rows.all (fun r => match r.2 with
        | .res (.elem (.obj (some _))) => false
        | _ => true) = true ∧ rows.all (fun r => r.2.writes) = true := by
    cases h : ((Spec.after env [] []).describe env np zoneMore all).2 with
    | error x =>
      have : ((Spec.after env [] []).describe env np zoneMore all).2.toOption.isSome = true := by
        decide +kernel
      rw [h] at this
      cases this
    | ok rows =>
      refine ⟨rows, rfl, ?_, ?_, ?_⟩
      · have : ((Spec.after env [] []).describe env np zoneMore all).2.toOption.any (fun rows =>
            rows.all (fun r => match r.1 with
              | .str t => decide (t.length ≤ 11)
              | .bytes _ => false)) = true := by decide +kernel
        rw [h] at this
        exact this
      · have : ((Spec.after env [] []).describe env np zoneMore all).2.toOption.any (fun rows =>
            rows.all (fun r => match r.2 with
              | .res (.elem (.obj (some _))) => false
              | _ => true)) = true := by decide +kernel
        rw [h] at this
        exact this
      · have : ((Spec.after env [] []).describe env np zoneMore all).2.toOption.any (fun rows =>
            rows.all (fun r => r.2.writes)) = true := by decide +kernel
        rw [h] at this
        exact this
  obtain ⟨rows, h, h1, h2, h3⟩ := h
  rw [List.all_eq_true] at h1 h2 h3
  refine c85_ends env np [] [] LayoutCase.wraps_plain printer 80 (text " ") (by decide +kernel) 2
    (Nat.le_refl _) zoneMore all rows h (fun r hr => ?_) fun d hd => ?_
  · have := h1 r hr
    split at this
    · rename_i t ht
      refine ⟨t, ht, ?_, (row_writes _).1 (h3 r hr)⟩
      have hl : (text " ").length = 1 := by decide +kernel
      rw [decide_eq_true_eq] at this
      omega
    · cases this
  · cases h2 _ hd

end ObjectTextCase

end Dlisio.Dlis
