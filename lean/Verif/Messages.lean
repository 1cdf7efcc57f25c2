/-
The text of what is reported: `ErrorHandler.log` with its arguments (python/dlisio/common/
errorhandler.py), and the callers that say which set (records.cpp), object or attribute
(basicobject.py) the entries of a log are about.

The models of these callers elsewhere keep of an entry only its severity; here the texts of an entry
(problem, specification, action) are arbitrary.
-/
import Verif.ErrorHandler
import Verif.Dlis.Search

namespace Dlisio

/-- What is passed as severity: one of the four of `core.error_severity`, or another object, given
by what `str.format` makes of it. -/
inductive Grade where
  | known (s : Dlis.Severity)
  | other (t : Text)
deriving DecidableEq

/-- The arguments of `ErrorHandler.log`, errorhandler.py:168. -/
structure Report where
  grade : Grade
  context : Text := []
  problem : Text := []
  spec : Text := []
  action : Text := []
  debug : Text := []
deriving DecidableEq

/-- `ErrorHandler.format_severity`, errorhandler.py:184-190. -/
def formatSeverity : Grade → Text
  | .known .info => text "info"
  | .known .minor => text "minor"
  | .known .major => text "major"
  | .known .critical => text "critical"
  | .other t => t

/-- `format.format(label, value, align=13)` with `format = '\n{:<{align}} {}'`,
errorhandler.py:195. -/
def messageLine (label : String) (value : Text) : Text :=
  10 :: (text label ++ List.replicate (13 - (text label).length) 32) ++ 32 :: value

/-- `ErrorHandler.format_error`, errorhandler.py:193-213. -/
def formatError (r : Report) : Text :=
  let severity := formatSeverity r.grade
  let problem := messageLine "Problem:" r.problem
  let context := messageLine "Where:" r.context
  let severity := messageLine "Severity:" severity
  let spec := if r.spec ≠ [] then messageLine "RP66V1 ref:" r.spec else r.spec
  let action := if r.action ≠ [] then messageLine "Action taken:" r.action else r.action
  let debug := if r.debug ≠ [] then messageLine "Debug info:" r.debug else r.debug
  problem ++ context ++ severity ++ spec ++ action ++ debug

/-- An exception: `RuntimeError` with a text, `UnicodeDecodeError` of a conversion, that of
`core.fingerprint`, or whatever a function of the user raises. -/
inductive Raised where
  | runtime (t : Text)
  | unicode
  | fingerprint
  | user
deriving DecidableEq

/-- What comes of calling the action, errorhandler.py:11-22 and 148-154. -/
def Action.raised (a : Action) (msg : Text) : Option Raised :=
  match a with
  | .raise => some (.runtime msg)
  | .custom _ true => some .user
  | _ => none

/-- `ErrorHandler.log`, errorhandler.py:168-182: the call of an action with its argument, if any,
and the exception, if any. -/
def Handler.logText (h : Handler) (r : Report) : Option (Action × Text) × Option Raised :=
  let msg := formatError r
  if r.grade = .known .info then (some (h.info, msg), h.info.raised msg)
  else if r.grade = .known .minor then (some (h.minor, msg), h.minor.raised msg)
  else if r.grade = .known .major then (some (h.major, msg), h.major.raised msg)
  else if r.grade = .known .critical then (some (h.critical, msg), h.critical.raised msg)
  else (none, some (.runtime (text "Unknown error severity. Original msg was: " ++ msg)))

/-- A loop that reports one after the other, records.cpp:887-890 and basicobject.py:202-205 and
217-220: the calls, and the exception that it was left by. -/
def Handler.logTexts (h : Handler) : List Report → List (Action × Text) × Option Raised
  | [] => ([], none)
  | r :: rs =>
    match h.logText r with
    | (c, some x) => (c.toList, some x)
    | (c, none) =>
      let (cs, x) := h.logTexts rs
      (c.toList ++ cs, x)

/-- An entry of a log, `dlis_error`, records.hpp:85-90.  Its texts are made of literals in
UTF-8 and numbers. -/
structure LogEntry where
  severity : Dlis.Severity
  problem : Text
  spec : Text
  action : Text
deriving DecidableEq

/-- The report of an entry, records.cpp:888-889 and basicobject.py:203-205 and 218-220. -/
def LogEntry.report (context : Text) (x : LogEntry) : Report :=
  { grade := .known x.severity, context, problem := x.problem, spec := x.spec, action := x.action }

/-- `report_set_errors`, records.cpp:881-892, for a set with these entries. -/
def reportSetText (h : Handler) (s : Dlis.ObjectSet) (log : List LogEntry) :
    List (Action × Text) × Option Raised :=
  if log = [] then ([], none)
  else
    match utf8Decode s.context with
    | none => ([], some .unicode)
    | some context => h.logTexts (log.map (·.report context))

/-- `self.fingerprint` in a format, basicobject.py:201 and 216, and 252-255. -/
def objectContext (e : Dlis.Env) (o : Dlis.BasicObject) : Option Text :=
  (Dlis.pyFingerprint (e.dec o.type).toStd (e.dec o.name.id).toStd o.name.origin o.name.copy).map
    fun b => (e.dec b).shown

/-- The entries of an object, basicobject.py:197-205. -/
def reportObjectText (h : Handler) (e : Dlis.Env) (o : Dlis.BasicObject) (log : List LogEntry) :
    List (Action × Text) × Option Raised :=
  if log = [] then ([], none)
  else
    match objectContext e o with
    | none => ([], some .fingerprint)
    | some context => h.logTexts (log.map (·.report context))

/-- The entries of an attribute, basicobject.py:214-220. -/
def reportAttrText (h : Handler) (e : Dlis.Env) (o : Dlis.BasicObject) (key : PyStr)
    (log : List LogEntry) : List (Action × Text) × Option Raised :=
  if log = [] then ([], none)
  else
    match objectContext e o with
    | none => ([], some .fingerprint)
    | some context => h.logTexts (log.map (·.report (context ++ text "-A." ++ key.shown)))

namespace Spec

/-- The name of a severity. -/
def SeverityName : Dlis.Severity → String
  | .info => "info"
  | .minor => "minor"
  | .major => "major"
  | .critical => "critical"

/-- What a message has to say, in this order: what is wrong, where, and how bad it is; then the part
of the standard, what was done about it and details, if given. -/
def told (r : Report) (severity : Text) : List (String × Text) :=
  [("Problem:", r.problem), ("Where:", r.context), ("Severity:", severity)] ++
  [("RP66V1 ref:", r.spec), ("Action taken:", r.action), ("Debug info:", r.debug)].filter (·.2 ≠ [])

/-- The line has this label, and the value from the 15th character on. -/
def LabelledLine (line : Text) (x : String × Text) : Prop :=
  ∃ pad, line = text x.1 ++ List.replicate pad 32 ++ x.2 ∧ (text x.1).length + pad = 14

/-- The text is made of these lines, each after a line break. -/
def MadeOfLines (t : Text) (lines : List Text) : Prop := t = lines.flatMap (10 :: ·)

/-- None of the parts has a line break. -/
def OneLiners (r : Report) : Prop :=
  10 ∉ r.context ∧ 10 ∉ r.problem ∧ 10 ∉ r.spec ∧ 10 ∉ r.action ∧ 10 ∉ r.debug

end Spec

theorem messageLine_labelled (label : String) (value : Text) (h : (text label).length ≤ 13) :
    ∃ line, messageLine label value = 10 :: line ∧ Spec.LabelledLine line (label, value) := by
  refine ⟨_, rfl, 14 - (text label).length, ?_, by dsimp only; omega⟩
  have : 14 - (text label).length = (13 - (text label).length) + 1 := by omega
  rw [this, List.replicate_succ']
  simp

/-- C87.  Whatever is reported, the message says exactly what it has to, one thing per line, with
the values in one column. -/
theorem c87_message (r : Report) (severity : Text)
    (hs : (∃ s, r.grade = .known s ∧ severity = text (Spec.SeverityName s)) ∨ r.grade = .other severity) :
    ∃ lines, Spec.MadeOfLines (formatError r) lines ∧
      List.Forall₂ Spec.LabelledLine lines (Spec.told r severity) := by
  have hsev : formatSeverity r.grade = severity := by
    rcases hs with ⟨s, h, rfl⟩ | h
    · rw [h]; cases s <;> rfl
    · rw [h]; rfl
  have opt : ∀ (label : String) (value : Text), (text label).length ≤ 13 →
      ∃ lines, (if value ≠ [] then messageLine label value else value) = lines.flatMap (10 :: ·) ∧
        List.Forall₂ Spec.LabelledLine lines ([(label, value)].filter (·.2 ≠ [])) := by
    intro label value hl
    by_cases hv : value = []
    · subst hv; exact ⟨[], by simp, by simp⟩
    · obtain ⟨line, h1, h2⟩ := messageLine_labelled label value hl
      refine ⟨[line], by simp [hv, h1], ?_⟩
      rw [List.filter_cons_of_pos (by simp [hv])]
      exact .cons h2 .nil
  obtain ⟨l1, a1, b1⟩ := messageLine_labelled "Problem:" r.problem (by decide)
  obtain ⟨l2, a2, b2⟩ := messageLine_labelled "Where:" r.context (by decide)
  obtain ⟨l3, a3, b3⟩ := messageLine_labelled "Severity:" severity (by decide)
  obtain ⟨l4, a4, b4⟩ := opt "RP66V1 ref:" r.spec (by decide)
  obtain ⟨l5, a5, b5⟩ := opt "Action taken:" r.action (by decide)
  obtain ⟨l6, a6, b6⟩ := opt "Debug info:" r.debug (by decide)
  refine ⟨[l1, l2, l3] ++ (l4 ++ (l5 ++ l6)), ?_, ?_⟩
  · unfold Spec.MadeOfLines formatError
    simp only [hsev, a1, a2, a3, a4, a5, a6, List.flatMap_append, List.flatMap_cons, List.flatMap_nil,
      List.append_nil, List.append_assoc]
  · unfold Spec.told
    refine List.rel_append (.cons b1 (.cons b2 (.cons b3 .nil))) ?_
    have : ([("RP66V1 ref:", r.spec), ("Action taken:", r.action), ("Debug info:", r.debug)] :
        List (String × Text)).filter (·.2 ≠ []) = [("RP66V1 ref:", r.spec)].filter (·.2 ≠ []) ++
        ([("Action taken:", r.action)].filter (·.2 ≠ []) ++ [("Debug info:", r.debug)].filter (·.2 ≠ [])) := by
      rw [← List.filter_append, ← List.filter_append]; rfl
    rw [this]
    exact List.rel_append b4 (List.rel_append b5 b6)

theorem break_lines : ∀ {ls ms : List Text}, (∀ l ∈ ls, 10 ∉ l) → (∀ l ∈ ms, 10 ∉ l) →
    ls.flatMap (10 :: ·) = ms.flatMap (10 :: ·) → ls = ms
  | [], [], _, _, _ => rfl
  | [], _ :: _, _, _, h => by simp at h
  | _ :: _, [], _, _, h => by simp at h
  | l :: ls, m :: ms, hl, hm, h => by
    have key : ∀ (x y : List Text) (a b : Text), 10 ∉ a → 10 ∉ b →
        a ++ x.flatMap (10 :: ·) = b ++ y.flatMap (10 :: ·) → a = b := by
      intro x y a
      induction a with
      | nil =>
        intro b _ hb h
        cases b with
        | nil => rfl
        | cons c b =>
          cases x with
          | nil => simp at h
          | cons x xs =>
            simp only [List.flatMap_cons, List.nil_append, List.cons_append, List.cons.injEq] at h
            exact absurd (by simp [h.1]) hb
      | cons c a ih =>
        intro b ha hb h
        cases b with
        | nil =>
          cases y with
          | nil => simp at h
          | cons y ys =>
            simp only [List.flatMap_cons, List.nil_append, List.cons_append, List.cons.injEq] at h
            exact absurd (by simp [h.1]) ha
        | cons d b =>
          simp only [List.cons_append, List.cons.injEq] at h
          rw [h.1, ih b (fun q => ha (by simp [q])) (fun q => hb (by simp [q])) h.2]
    simp only [List.flatMap_cons, List.cons_append, List.cons.injEq, true_and] at h
    have h1 := key _ _ _ _ (hl l (by simp)) (hm m (by simp)) h
    subst h1
    rw [List.append_cancel_left_eq] at h
    rw [break_lines (fun x hx => hl x (by simp [hx])) (fun x hx => hm x (by simp [hx])) h]

/-- The labels that are used. -/
def messageLabels : List String :=
  ["Problem:", "Where:", "Severity:", "RP66V1 ref:", "Action taken:", "Debug info:"]

theorem labelled_same {line : Text} {x y : String × Text} (hx : x.1 ∈ messageLabels)
    (hy : y.1 ∈ messageLabels) (h1 : Spec.LabelledLine line x) (h2 : Spec.LabelledLine line y) :
    x = y := by
  obtain ⟨a, v⟩ := x
  obtain ⟨b, w⟩ := y
  obtain ⟨p, h1, p1⟩ := h1
  obtain ⟨q, h2, q1⟩ := h2
  dsimp only at *
  have e : text a ++ List.replicate p 32 ++ v = text b ++ List.replicate q 32 ++ w := h1.symm.trans h2
  have hl : (text a ++ List.replicate p 32).length = (text b ++ List.replicate q 32).length := by
    simp only [List.length_append, List.length_replicate]; omega
  obtain ⟨e1, rfl⟩ := List.append_inj e hl
  have hab : a = b := by
    have hp : p = 14 - (text a).length := by omega
    have hq : q = 14 - (text b).length := by omega
    subst hp hq
    revert e1
    have : ∀ a ∈ messageLabels, ∀ b ∈ messageLabels, text a ++ List.replicate (14 - (text a).length) 32 =
        text b ++ List.replicate (14 - (text b).length) 32 → a = b := by decide
    exact this a hx b hy
  rw [hab]

theorem told_labels (r : Report) (severity : Text) : ∀ x ∈ Spec.told r severity, x.1 ∈ messageLabels := by
  intro x hx
  unfold Spec.told at hx
  rcases List.mem_append.1 hx with h | h
  · simp only [List.mem_cons, List.not_mem_nil, or_false] at h
    rcases h with rfl | rfl | rfl <;> simp [messageLabels]
  · have := List.mem_of_mem_filter h
    simp only [List.mem_cons, List.not_mem_nil, or_false] at this
    rcases this with rfl | rfl | rfl <;> simp [messageLabels]

theorem told_line {r : Report} {severity : Text} (h : Spec.OneLiners r) (hs : 10 ∉ severity) :
    ∀ x ∈ Spec.told r severity, 10 ∉ x.2 := by
  intro x hx
  obtain ⟨h1, h2, h3, h4, h5⟩ := h
  unfold Spec.told at hx
  rcases List.mem_append.1 hx with h | h
  · simp only [List.mem_cons, List.not_mem_nil, or_false] at h
    rcases h with rfl | rfl | rfl <;> assumption
  · have := List.mem_of_mem_filter h
    simp only [List.mem_cons, List.not_mem_nil, or_false] at this
    rcases this with rfl | rfl | rfl <;> assumption

theorem labelled_free {line : Text} {x : String × Text} (hx : x.1 ∈ messageLabels) (h : 10 ∉ x.2)
    (hl : Spec.LabelledLine line x) : 10 ∉ line := by
  obtain ⟨p, rfl, -⟩ := hl
  have : ∀ a ∈ messageLabels, 10 ∉ text a := by decide
  simp [this _ hx, h]

theorem lines_same : ∀ {ls : List Text} {xs ys : List (String × Text)},
    (∀ x ∈ xs, x.1 ∈ messageLabels) → (∀ x ∈ ys, x.1 ∈ messageLabels) →
    List.Forall₂ Spec.LabelledLine ls xs → List.Forall₂ Spec.LabelledLine ls ys → xs = ys
  | _, _, _, _, _, .nil, .nil => rfl
  | _, _, _, hx, hy, .cons a as, .cons b bs => by
    rw [labelled_same (hx _ (by simp)) (hy _ (by simp)) a b,
      lines_same (fun x h => hx x (by simp [h])) (fun x h => hy x (by simp [h])) as bs]

theorem told_inj {r q : Report} {s t : Text} (h : Spec.told r s = Spec.told q t) :
    s = t ∧ r.context = q.context ∧ r.problem = q.problem ∧ r.spec = q.spec ∧ r.action = q.action ∧
      r.debug = q.debug := by
  unfold Spec.told at h
  simp only [List.cons_append, List.nil_append, List.cons.injEq, Prod.mk.injEq, true_and] at h
  obtain ⟨h1, h2, h3, h⟩ := h
  refine ⟨h3, h2, h1, ?_⟩
  have look : ∀ (r : Report) (l : String), l ∈ ["RP66V1 ref:", "Action taken:", "Debug info:"] →
      (((([("RP66V1 ref:", r.spec), ("Action taken:", r.action), ("Debug info:", r.debug)] :
        List (String × Text)).filter (·.2 ≠ [])).find? (·.1 == l)).map (·.2)).getD [] =
      if l = "RP66V1 ref:" then r.spec else if l = "Action taken:" then r.action else r.debug := by
    intro r l hl
    simp only [List.mem_cons, List.not_mem_nil, or_false] at hl
    rcases hl with rfl | rfl | rfl <;> by_cases c1 : r.spec = [] <;> by_cases c2 : r.action = [] <;>
      by_cases c3 : r.debug = [] <;> simp [c1, c2, c3]
  have k := fun l hl => (look r l hl).symm.trans ((by rw [h]) : _ = _) |>.trans (look q l hl)
  refine ⟨?_, ?_, ?_⟩
  · simpa using k "RP66V1 ref:" (by simp)
  · simpa using k "Action taken:" (by simp)
  · simpa using k "Debug info:" (by simp)

/-- C87.  A message whose parts have no line breaks can be read: no two reports with different
parts have the same message. -/
theorem c87_read_partial (r q : Report) (hr : Spec.OneLiners r) (hq : Spec.OneLiners q)
    {s t : Dlis.Severity} (hs : r.grade = .known s) (ht : q.grade = .known t)
    (h : formatError r = formatError q) : r = q := by
  obtain ⟨ls, h1, h2⟩ := c87_message r _ (Or.inl ⟨s, hs, rfl⟩)
  obtain ⟨ms, h3, h4⟩ := c87_message q _ (Or.inl ⟨t, ht, rfl⟩)
  have free : ∀ {r : Report} {s : Dlis.Severity} {ls : List Text}, Spec.OneLiners r →
      List.Forall₂ Spec.LabelledLine ls (Spec.told r (text (Spec.SeverityName s))) →
      ∀ l ∈ ls, 10 ∉ l := by
    intro r s ls hr h l hl
    obtain ⟨i, hi, rfl⟩ := List.getElem_of_mem hl
    have hlen := h.length_eq
    have := (List.forall₂_iff_get.1 h).2 i hi (by omega)
    refine labelled_free (told_labels r _ _ (List.get_mem _ _)) (told_line hr ?_ _ (List.get_mem _ _)) this
    cases s <;> decide
  have e := break_lines (free hr h2) (free hq h4) (by rw [← h1, ← h3, h])
  subst e
  obtain ⟨e0, e1, e2, e3, e4, e5⟩ := told_inj (lines_same (told_labels r _) (told_labels q _) h2 h4)
  have est : s = t := by revert e0; cases s <;> cases t <;> decide
  cases r; cases q
  simp_all

/-- C87.  What has a line break can be mistaken for something else: here for another place. -/
theorem c87_read_defect : ∃ r q : Report, r.grade = .known .minor ∧ q.grade = .known .minor ∧
    r ≠ q ∧ formatError r = formatError q :=
  ⟨{ grade := .known .minor, problem := text "a\nWhere:        b\nSeverity:     minor\nDebug info:   c",
      context := text "d" },
    { grade := .known .minor, problem := text "a", context := text "b",
      debug := text "c\nWhere:        d\nSeverity:     minor" }, rfl, rfl, by decide, by decide +kernel⟩

namespace Spec

/-- What the handler is told about an entry: everything in it, and where it comes from. -/
def about (place : Text) (x : LogEntry) : Report where
  grade := .known x.severity
  context := place
  problem := x.problem
  spec := x.spec
  action := x.action
  debug := []

/-- Does the action that is configured for the entry raise? -/
def stopsAt (h : Handler) (x : LogEntry) : Bool := (configured h x.severity).raises

/-- The entries are reported from this place: each goes to the action that is configured for its
severity, in order, with its message, up to and including the first that raises; that is the one
that the exception comes from. -/
def Reported (h : Handler) (place : Text) (log : List LogEntry)
    (res : List (Action × Text) × Option Raised) : Prop :=
  (∃ done rest, log = done ++ rest ∧
    res.1 = done.map (fun x => (configured h x.severity, formatError (about place x))) ∧
    ((res.2 = none ∧ rest = [] ∧ ∀ x ∈ done, stopsAt h x = false) ∨
      ∃ before last, done = before ++ [last] ∧ (∀ x ∈ before, stopsAt h x = false) ∧
        ((configured h last.severity = .raise ∧
            res.2 = some (.runtime (formatError (about place last)))) ∨
          ∃ id, configured h last.severity = .custom id true ∧ res.2 = some .user)))

end Spec

/-- C87.  The action that is configured for the severity is called once, with the message; if it is
`RAISE`, then the exception has the message.  An unknown severity gives an exception that has the
message, too. -/
theorem c87_handed (h : Handler) (r : Report) :
    (∀ s, r.grade = .known s → h.logText r =
      (some (Spec.configured h s, formatError r), (Spec.configured h s).raised (formatError r))) ∧
    (∀ t, r.grade = .other t → h.logText r =
      (none, some (.runtime (text "Unknown error severity. Original msg was: " ++ formatError r)))) := by
  constructor
  · intro s hs
    unfold Handler.logText
    rw [hs]
    cases s <;> rfl
  · intro t ht
    unfold Handler.logText
    rw [ht]
    rfl

theorem raised_iff (a : Action) (m : Text) : (a.raised m).isSome = a.raises := by
  cases a with
  | custom _ r => cases r <;> rfl
  | _ => rfl

theorem logTexts_reported (h : Handler) (place : Text) : ∀ log : List LogEntry,
    Spec.Reported h place log (h.logTexts (log.map (·.report place)))
  | [] => ⟨[], [], rfl, rfl, Or.inl ⟨rfl, rfl, by simp⟩⟩
  | x :: log => by
    have h1 := (c87_handed h (x.report place)).1 x.severity rfl
    have hr : x.report place = Spec.about place x := rfl
    simp only [List.map_cons, Handler.logTexts, h1]
    cases hx : (Spec.configured h x.severity).raised (formatError (x.report place)) with
    | some e =>
      refine ⟨[x], log, rfl, by simp [hr], Or.inr ⟨[], x, rfl, by simp, ?_⟩⟩
      cases ha : Spec.configured h x.severity with
      | raise => rw [ha] at hx; exact Or.inl ⟨rfl, by rw [← hr]; exact hx.symm⟩
      | custom id r =>
        rw [ha] at hx
        cases r with
        | false => cases hx
        | true => exact Or.inr ⟨id, rfl, hx.symm⟩
      | _ => rw [ha] at hx; cases hx
    | none =>
      have hs : Spec.stopsAt h x = false := by
        unfold Spec.stopsAt
        rw [← raised_iff _ (formatError (x.report place)), hx]; rfl
      obtain ⟨done, rest, e1, e2, e3⟩ := logTexts_reported h place log
      refine ⟨x :: done, rest, by rw [e1]; rfl, ?_, ?_⟩
      · simp only [e2, hr, Option.toList_some, List.singleton_append, List.map_cons]
      · rcases e3 with ⟨a, b, c⟩ | ⟨before, last, a, b, c⟩
        · exact Or.inl ⟨a, b, by simpa [hs] using c⟩
        · exact Or.inr ⟨x :: before, last, by rw [a]; rfl, by simpa [hs] using b, c⟩

theorem reported_nil (h : Handler) (place : Text) : Spec.Reported h place [] ([], none) :=
  ⟨[], [], rfl, rfl, Or.inl ⟨rfl, rfl, by simp⟩⟩

/-- C87.  The entries of a set are reported with its type and its name, if these are in UTF-8. -/
theorem c87_set_partial (h : Handler) (s : Dlis.ObjectSet) (log : List LogEntry) {t n : Text}
    (ht : Spec.Utf8 t s.type) (hn : Spec.Utf8 n s.name) :
    Spec.Reported h (text "object set of type '" ++ t ++ text "' named '" ++ n ++ text "'") log
      (reportSetText h s log) := by
  unfold reportSetText
  split
  · rename_i hl; subst hl; exact reported_nil _ _
  · have : utf8Decode s.context =
        some (text "object set of type '" ++ t ++ text "' named '" ++ n ++ text "'") := by
      rw [Dlis.context_decode, (utf8Decode_iff _ _).2 ht, (utf8Decode_iff _ _).2 hn]
      rfl
    rw [this]
    exact logTexts_reported h _ log

/-- C87.  This is what a query of the pool does with the log of a set: it goes on if and only if
reporting raises no exception. -/
theorem c87_set_query (h : Handler) (s : Dlis.ObjectSet) (log : List LogEntry)
    (hl : log.map (·.severity) = s.log) :
    Dlis.reportSetErrors h.policy s = (reportSetText h s log).2.isSome := by
  unfold reportSetText
  by_cases h0 : log = []
  · subst h0
    rw [if_pos rfl]
    have : s.log = [] := hl.symm
    simp [Dlis.reportSetErrors, this]
  · rw [if_neg h0]
    by_cases ht : Dlis.Spec.Tellable s
    · rw [c37_set_partial h s ht, ← hl]
      obtain ⟨c, hc⟩ := Option.isSome_iff_exists.1 ((Dlis.tellable_iff s).2 ht)
      rw [hc]
      clear hl hc ht h0
      induction log with
      | nil => rfl
      | cons x log ih =>
        have h1 := (c87_handed h (x.report c)).1 x.severity rfl
        simp only [List.map_cons, Handler.report, Handler.logTexts, h1, (c37_dispatch h x.severity).1]
        rw [← raised_iff _ (formatError (x.report c))]
        cases (Spec.configured h x.severity).raised (formatError (x.report c)) with
        | none => simpa using ih
        | some e => rfl
    · rw [c37_set_untold h s ht (by rw [← hl]; simpa using h0)]
      have : utf8Decode s.context = none := by
        cases hu : utf8Decode s.context with
        | none => rfl
        | some c => exact absurd ((Dlis.tellable_iff s).1 (by simp [Dlis.ObjectSet.tellable, hu])) ht
      rw [this]
      rfl

/-- C87 is violated: the set of `c37_set_defect` is not reported to any action, and the exception
does not have the message. -/
theorem c87_set_defect (h : Handler) (s : Dlis.ObjectSet) (log : List LogEntry) (hl : log ≠ [])
    (hs : ¬ Dlis.Spec.Tellable s) : reportSetText h s log = ([], some .unicode) := by
  unfold reportSetText
  rw [if_neg hl]
  have : utf8Decode s.context = none := by
    cases hu : utf8Decode s.context with
    | none => rfl
    | some c => exact absurd ((Dlis.tellable_iff s).1 (by simp [Dlis.ObjectSet.tellable, hu])) hs
  rw [this]

theorem object_place {e : Dlis.Env} (hd : Dlis.Spec.ReadsUtf8 e.dec) {o : Dlis.BasicObject}
    (ht : Dlis.Spec.PlainText o.type) (hne : o.type ≠ []) (hn : Dlis.Spec.PlainText o.name.id)
    (hc : o.name.copy < 256) {fp : Bytes} {place : Text}
    (hf : Dlis.Spec.Fingerprint o.type o.name.id o.name.origin o.name.copy fp)
    (hp : Spec.Utf8 place fp) : objectContext e o = some place := by
  have h := Dlis.fingerprint_dec (e := e) (o := o) hd rfl ht hne hn hc hf
  have h0 := Dlis.plain_fingerprint ht hn hf
  unfold objectContext
  unfold Dlis.PyObj.fingerprint at h
  obtain ⟨b, h1, h2⟩ := Option.map_eq_some_iff.1 h
  change Dlis.pyFingerprint (e.dec o.type).toStd (e.dec o.name.id).toStd o.name.origin o.name.copy =
    some b at h1
  rw [h1, Option.map_some, h2, hd fp place hp h0.1]
  rfl

/-- C87.  The entries of an object, and those of one of its attributes, are reported with the
fingerprint, and with the fingerprint and the label. -/
theorem c87_object_partial (h : Handler) {e : Dlis.Env} (hd : Dlis.Spec.ReadsUtf8 e.dec)
    (o : Dlis.BasicObject) (ht : Dlis.Spec.PlainText o.type) (hne : o.type ≠ [])
    (hn : Dlis.Spec.PlainText o.name.id) (hc : o.name.copy < 256) {fp : Bytes} {place : Text}
    (hf : Dlis.Spec.Fingerprint o.type o.name.id o.name.origin o.name.copy fp)
    (hp : Spec.Utf8 place fp) (log : List LogEntry) (label : Text) :
    Spec.Reported h place log (reportObjectText h e o log) ∧
    Spec.Reported h (place ++ text "-A." ++ label) log (reportAttrText h e o (.str label) log) := by
  have hpl := object_place hd ht hne hn hc hf hp
  refine ⟨?_, ?_⟩
  · unfold reportObjectText
    split
    · rename_i hl; subst hl; exact reported_nil _ _
    · rw [hpl]; exact logTexts_reported h _ log
  · unfold reportAttrText
    split
    · rename_i hl; subst hl; exact reported_nil _ _
    · rw [hpl]; exact logTexts_reported h _ log

theorem logTexts_any (h : Handler) (place : Text) (log : List LogEntry) :
    (h.logTexts (log.map (·.report place))).2.isSome = log.any fun x => h.policy x.severity := by
  induction log with
  | nil => rfl
  | cons x log ih =>
    have h1 := (c87_handed h (x.report place)).1 x.severity rfl
    have hp : h.policy x.severity =
        ((Spec.configured h x.severity).raised (formatError (x.report place))).isSome := by
      rw [raised_iff]
      cases x.severity <;> rfl
    simp only [List.map_cons, Handler.logTexts, h1, List.any_cons, hp]
    cases (Spec.configured h x.severity).raised (formatError (x.report place)) with
    | none => simpa using ih
    | some e => rfl

/-- C87.  Looking up an attribute that the class knows or the object has fails, whatever the
attribute, if and only if reporting the entries of the object raises an exception; otherwise it fails
for the entries of the attribute if and only if reporting these does. -/
theorem c87_access (h : Handler) (e : Dlis.Env) (he : e.policy = h.policy) (rules : Dlis.Rules)
    (st : Dlis.Store) (o : Dlis.BasicObject) (key : PyStr) (log : List LogEntry)
    (hl : log.map (·.severity) = o.log)
    (hk : rules.attributes key ≠ none ∨ key ∈ Dlis.pyKeys e o) :
    ((reportObjectText h e o log).2.isSome = true →
      Dlis.getItem e rules st o key = (st, .error .handler)) ∧
    ((reportObjectText h e o log).2 = none → ∀ a, Dlis.attrAt key.toStd o.attributes = some a →
      ∀ alog : List LogEntry, alog.map (·.severity) = a.log →
      (Dlis.pyValues e.dec a).isSome →
      (reportAttrText h e o key alog).2.isSome = true →
        Dlis.getItem e rules st o key = (st, .error .handler)) ∧
    ((reportObjectText h e o log).2 = none → ∀ a, Dlis.attrAt key.toStd o.attributes = some a →
      ∀ v vs, Dlis.pyValues e.dec a = some (v :: vs) →
      ∀ alog : List LogEntry, alog.map (·.severity) = a.log →
      (reportAttrText h e o key alog).2 = none →
        Dlis.getItem e rules st o key =
          Dlis.finishValue e rules st key ((rules.attributes key).getD .vector) v vs) := by
  have hk' : ¬ (rules.attributes key = none ∧ key ∉ Dlis.pyKeys e o) := by
    rintro ⟨h1, h2⟩
    rcases hk with hk | hk
    · exact hk h1
    · exact h2 hk
  have gen : ∀ (f : Text → Text) (log : List LogEntry),
      ((if log = [] then ([], none) else
        match objectContext e o with
        | none => ([], some .fingerprint)
        | some c => h.logTexts (log.map (·.report (f c))) : List (Action × Text) × Option Raised)).2.isSome
      = (log.map (·.severity)).any fun sev => !Dlis.tellObject e o || e.policy sev := by
    intro f log
    by_cases h0 : log = []
    · subst h0; rfl
    · rw [if_neg h0, he]
      have ht : Dlis.tellObject e o = (objectContext e o).isSome := by
        unfold Dlis.tellObject objectContext
        simp
      rw [ht]
      cases objectContext e o with
      | none =>
        obtain ⟨x, log, rfl⟩ := List.exists_cons_of_ne_nil h0
        simp
      | some c =>
        simp only [Option.isSome_some, Bool.not_true, Bool.false_or, List.any_map]
        exact logTexts_any h (f c) log
  have ho : (reportObjectText h e o log).2.isSome =
      o.log.any fun sev => !Dlis.tellObject e o || e.policy sev := by
    rw [← hl]; exact gen id log
  have ha : ∀ alog : List LogEntry, (reportAttrText h e o key alog).2.isSome =
      (alog.map (·.severity)).any fun sev => !Dlis.tellObject e o || e.policy sev :=
    fun alog => gen (fun c => c ++ text "-A." ++ key.shown) alog
  unfold Dlis.getItem
  rw [if_neg hk']
  refine ⟨fun h1 => ?_, fun h1 a h2 alog h3 h4 h5 => ?_, fun h1 a h2 v vs h3 alog h4 h5 => ?_⟩
  · dsimp only
    rw [if_pos (by rw [← ho, h1])]
  · obtain ⟨vs, h4⟩ := Option.isSome_iff_exists.1 h4
    dsimp only
    rw [if_neg (by rw [← ho, h1]; simp), h2]
    dsimp only
    rw [h4]
    dsimp only
    rw [if_pos (by rw [← h3, ← ha, h5])]
  · dsimp only
    rw [if_neg (by rw [← ho, h1]; simp), h2]
    dsimp only
    rw [h3]
    dsimp only
    rw [if_neg (by rw [← h4, ← ha, h5]; simp)]

/-- Cases: two messages. -/
example : formatError
      { grade := .known .major, context := text "object set of type 'FRAME' named ''",
        problem := text "Label not set in template", spec := text "3.2.2.2 Component Usage" } =
    text "\nProblem:      Label not set in template\nWhere:        object set of type 'FRAME' named ''\nSeverity:     major\nRP66V1 ref:   3.2.2.2 Component Usage" := by
  decide +kernel

example : ({} : Handler).logText { grade := .other (text "7"), problem := text "x" } =
    (none, some (.runtime (text "Unknown error severity. Original msg was: \nProblem:      x\nWhere:        \nSeverity:     7"))) := by
  decide +kernel

/-- A set with two entries, of type `FRAME` and with a name in UTF-8 that is not ASCII. -/
def messageSet : Dlis.ObjectSet :=
  { role := .set, type := [0x46, 0x52, 0x41, 0x4d, 0x45], name := [0xc3, 0xa6], log := [.info, .critical],
    data := [], objs := [], tmpl := [], parsed := true, undefined := false }

/-- Case: the first entry is logged, the second raises. -/
example : reportSetText {} messageSet
      [⟨.info, text "a", [], []⟩, ⟨.critical, text "b", [], text "c"⟩, ⟨.minor, [], [], []⟩] =
    ([(.logDebug, text "\nProblem:      a\nWhere:        object set of type 'FRAME' named 'æ'\nSeverity:     info"),
      (.raise, text "\nProblem:      b\nWhere:        object set of type 'FRAME' named 'æ'\nSeverity:     critical\nAction taken: c")],
     some (.runtime (text "\nProblem:      b\nWhere:        object set of type 'FRAME' named 'æ'\nSeverity:     critical\nAction taken: c"))) := by
  decide +kernel

/-- Case: the object `O` of the set `[0xf0, 1, 0x54, …]` has an entry, as its name is said not
to be there; say that its attribute has one, too. -/
example : ∃ x o, Dlis.ObjectSet.new [0xf0, 1, 0x54, 0x30, 1, 0x41, 0x60, 1, 0, 1, 0x4f] = .ok x ∧
    x.parse.objs = [o] ∧ o.log = [.major] ∧
    reportObjectText {} Dlis.StoreCase.env o [⟨.major, text "p", [], []⟩] =
      ([(.logWarning, text "\nProblem:      p\nWhere:        T.T-I.O-O.1-C.0\nSeverity:     major")], none) ∧
    reportAttrText { minor := .raise } Dlis.StoreCase.env o (.str (text "A"))
        [⟨.minor, text "q", [], []⟩] =
      ([(.raise, text "\nProblem:      q\nWhere:        T.T-I.O-O.1-C.0-A.A\nSeverity:     minor")],
        some (.runtime (text "\nProblem:      q\nWhere:        T.T-I.O-O.1-C.0-A.A\nSeverity:     minor"))) :=
  ⟨_, _, rfl, rfl, by decide +kernel, by decide +kernel, by decide +kernel⟩

end Dlisio
