import Verif.Reprs
import Verif.Dlis.LoadLog
/-
The messages about DLIS files that are loaded or read: each kind of report of Dlis/IoLog.lean, Dlis/ReadLog.lean and
Dlis/LoadLog.lean with the whole text that `ErrorHandler.format_error` (errorhandler.py:193-213) makes of it.  C99.
And how often `extract` notes something if the error handler raises (C89), and the entries of
sets and objects and the texts about descriptors (C88).
-/
namespace Dlisio.Dlis

open _root_.Dlisio.Lis (literalChars)

/-! ## Specification -/

namespace Spec

/-- What may be said while a DLIS file is loaded or its records are read. -/
inductive LoadNote where
  | suspended (problem : Text) (ptell record segment : Nat)
  | trimmed
  | implicit (ptell : Nat) (what : Text)
  | raw (ptell : Nat) (what : Text)
  | noform (ptell : Nat) (what : Text)
  | curves (ptell frames : Nat) (what : Text)
  | set (what : Text)
  | lateLabel (found expected : Nat)
  | lateVr (found expected : Nat)
  | eof (ptell : Nat) (what : Text)
  | moreLabel
  | noLabel (what : Text)
  | shortLabel (n : Nat)

/-- A message (errorhandler.py:193-213): the problem, the place and the severity, and then further lines. -/
def written (problem : Text) (place severity : String) (rest : Text) : Text :=
  text "\nProblem:      " ++ problem ++ text "\nWhere:        " ++ text place ++ text "\nSeverity:     " ++
    text severity ++ rest

/-- The message about each of them; the texts are those of the places cited at `noteReport`. -/
def LoadNote.message : LoadNote → Text
  | .suspended problem p r s => written problem "dlis::findoffsets (indexing logical file)" "critical"
      (text "\nAction taken: Indexing is suspended at last valid Logical Record\nDebug info:   Physical tell: " ++
        Text.ofNat p ++ text " (dec), Logical Record tell: " ++ Text.ofNat r ++
        text " (dec), Logical Record Segment tell: " ++ Text.ofNat s ++ text " (dec)")
  | .trimmed => written
      (text "trim size (padbytes + checksum + trailing length) = logical record segment length")
      "extract (trim_segment)" "minor"
      (text ("\nRP66V1 ref:   [from 2.2.2.1 Logical Record Segment Header (LRSH) and 2.2.2.4 Logical Record " ++
        "Segment Trailer (LRST) situation should be impossible]\nAction taken: Segment is skipped"))
  | .implicit p what => written what "dlis::findfdata: Indexing implicit records" "critical"
      (text "\nAction taken: Record is skipped\nDebug info:   Physical tell (end of the record): " ++
        Text.ofNat p ++ text " (dec)")
  | .raw p what => written what "dlis::extract: Reading raw bytes from record" "critical"
      (text "\nAction taken: Record is skipped\nDebug info:   Physical tell (end of the record): " ++
        Text.ofNat p ++ text " (dec)")
  | .noform p what => written what "dlis::read_noform: Reading raw bytes from record" "critical"
      (text "\nAction taken: Data part is skipped\nDebug info:   Physical tell (end of the record): " ++
        Text.ofNat p ++ text " (dec)")
  | .curves p n what => written what "dlis::read_fdata: reading curves" "critical"
      (text "\nAction taken: Record is skipped\nDebug info:   Physical tell (end of the record): " ++
        Text.ofNat p ++ text " (dec), Processed number of frames: " ++ Text.ofNat n)
  | .set what => written what "core.parse_objects: Construct object sets" "critical"
      (text "\nAction taken: Set is skipped")
  | .lateLabel f e => written (text "Unexpected bytes found before SUL") "dlis::findsul: Searching for SUL" "minor"
      (text ("\nRP66V1 ref:   2.3.2 Storage Unit Label (SUL): The first 80 bytes of the Visible Envelope ... " ++
        "constitute a Storage Unit Label.\nAction taken: Unexpected bytes are ignored\n" ++
        "Debug info:   SUL found at ptell ") ++ Text.ofNat f ++ text " (dec), but expected at " ++ Text.ofNat e)
  | .lateVr f e => written (text "Unexpected bytes found before VR") "dlis::findvrl: Searching for VR" "minor"
      (text "\nAction taken: Unexpected bytes ignored\nDebug info:   VR found at ptell " ++ Text.ofNat f ++
        text " (dec), but expected at " ++ Text.ofNat e)
  | .eof p what => written what "dlis::load: Testing logical eof" "critical"
      (text "\nAction taken: Load is suspended\nDebug info:   Physical tell: " ++ Text.ofNat p ++ text " (dec)")
  | .moreLabel => written (text "SUL is expected only at the start of the file") "dlis::load: Looking for SUL" "minor"
      (text ("\nRP66V1 ref:   2.3.3 Storage Unit Requirements: A Storage Unit must have exactly one Storage Unit " ++
        "Label that must appear before any Logical Format data.\nAction taken: New SUL will be read"))
  | .noLabel what => written
      (text "Exactly one SUL is expected at the start of the file, but found none: " ++ what)
      "dlis::load: Looking for SUL" "minor"
      (text ("\nRP66V1 ref:   2.3.3 Storage Unit Requirements: A Storage Unit must have exactly one Storage Unit " ++
        "Label that must appear before any Logical Format data.\nAction taken: No SUL will be read"))
  | .shortLabel n => written (text "SUL is expected to be 80 bytes, but was " ++ Text.ofNat n)
      "dlis::load: Reading SUL" "major"
      (text ("\nRP66V1 ref:   2.3.2 Storage Unit Label (SUL): The first 80 bytes of the Visible Envelope ... " ++
        "constitute a Storage Unit Label.\nAction taken: Bytes are stored as SUL"))

end Spec

open _root_.Dlisio.Dlis.Spec (LoadNote)

/-- What is handed to the error handler, as in Dlis/IoLog.lean, Dlis/ReadLog.lean and Dlis/LoadLog.lean: io.cpp:394-405,
262-271 and 546-552, ext/dlis.cpp:1019-1024, 709-714, 643-652 and 1043-1046, io.cpp:168-176 and 202-209, load.py:228-234,
263-271, 276-285 and 298-305. -/
def noteReport : LoadNote → Report
  | .suspended t p r s => Suspended.report ⟨t, r, s⟩ p
  | .trimmed => trimNote
  | .implicit p t => fdataReport p t
  | .raw p t => rawReport p t
  | .noform p t => noformReport p t
  | .curves p n t => curveReport p n t
  | .set t => setReport t
  | .lateLabel f e => lateSul f e
  | .lateVr f e => lateVr f e
  | .eof p t => eofReport t p
  | .moreLabel => moreSul
  | .noLabel t => noSul t
  | .shortLabel n => shortSul n

/-! ## Proofs -/

/-- The optional lines of a message (errorhandler.py:193-213, as in Messages.lean); for the proofs. -/
def furtherLine (label : String) (t : Text) : Text := if t = [] then [] else text label ++ t

theorem formatError_lines (r : Report) : formatError r = text "\nProblem:      " ++ r.problem ++
    text "\nWhere:        " ++ r.context ++ text "\nSeverity:     " ++ formatSeverity r.grade ++
    (furtherLine "\nRP66V1 ref:   " r.spec ++ furtherLine "\nAction taken: " r.action ++
      furtherLine "\nDebug info:   " r.debug) := by
  have h : ∀ (l m : String) (t : Text), (10 :: (text l ++ List.replicate (13 - (text l).length) 32) ++ [32]) = text m →
      (if t ≠ [] then messageLine l t else t) = furtherLine m t := by
    intro l m t e
    unfold furtherLine messageLine
    by_cases ht : t = []
    · simp [ht]
    · rw [if_pos ht, if_neg ht, ← e]; simp
  have k : ∀ (l m : String) (t : Text), (10 :: (text l ++ List.replicate (13 - (text l).length) 32) ++ [32]) = text m →
      messageLine l t = text m ++ t := by
    intro l m t e
    unfold messageLine
    rw [← e]; simp
  unfold formatError
  dsimp only
  rw [h _ "\nRP66V1 ref:   " _ (by decide +kernel), h _ "\nAction taken: " _ (by decide +kernel),
    h _ "\nDebug info:   " _ (by decide +kernel), k _ "\nProblem:      " _ (by decide +kernel),
    k _ "\nWhere:        " _ (by decide +kernel), k _ "\nSeverity:     " _ (by decide +kernel)]
  simp only [List.append_assoc]

/-- C99: the whole text that the error handler gets for each kind of report. -/
theorem c99_message (t : LoadNote) : formatError (noteReport t) = t.message := by
  rw [formatError_lines]
  cases t <;>
    simp only [noteReport, LoadNote.message, Spec.written, Suspended.report, trimNote, fdataReport, rawReport,
      noformReport, curveReport, setReport, lateSul, Dlis.lateVr, eofReport, moreSul, noSul, shortSul, saysOneSul, saysEnd,
      furtherLine, formatSeverity, text, String.toList_append, List.map_append, List.append_assoc, literalChars, if_true] <;>
    rfl

theorem no_break_append {a b : Text} (ha : 10 ∉ a) (hb : 10 ∉ b) : 10 ∉ a ++ b :=
  fun h => (List.mem_append.1 h).elim ha hb

/-- All but the problem are without line breaks. -/
def Spec.LinesButProblem (r : Report) : Prop := 10 ∉ r.context ∧ 10 ∉ r.spec ∧ 10 ∉ r.action ∧ 10 ∉ r.debug

theorem lines_back {c : Nat} : ∀ (R S : List Text) (x y a b : Text),
    (∀ l ∈ R, 10 ∉ l ∧ l.head? ≠ some c) → (∀ l ∈ S, 10 ∉ l ∧ l.head? ≠ some c) → 10 ∉ x → 10 ∉ y →
    x.head? = some c → y.head? = some c →
    a ++ 10 :: x ++ R.reverse.flatMap (10 :: ·) = b ++ 10 :: y ++ S.reverse.flatMap (10 :: ·) → a = b
  | [], [], x, y, a, b, _, _, hx, hy, _, _, h => by
    simp only [List.reverse_nil, List.flatMap_nil, List.append_nil] at h
    exact (last_split hx hy h).1
  | [], m :: S, x, y, a, b, _, hS, hx, hy, h1, h2, h => by
    simp only [List.reverse_nil, List.flatMap_nil, List.append_nil, List.reverse_cons, List.flatMap_append,
      List.flatMap_cons, ← List.append_assoc] at h
    have := (last_split hx (hS m List.mem_cons_self).1 h).2
    exact absurd (this ▸ h1) (hS m List.mem_cons_self).2
  | l :: R, [], x, y, a, b, hR, _, hx, hy, h1, h2, h => by
    simp only [List.reverse_nil, List.flatMap_nil, List.append_nil, List.reverse_cons, List.flatMap_append,
      List.flatMap_cons, ← List.append_assoc] at h
    have := (last_split (hR l List.mem_cons_self).1 hy h).2
    exact absurd (this ▸ h2) (hR l List.mem_cons_self).2
  | l :: R, m :: S, x, y, a, b, hR, hS, hx, hy, h1, h2, h => by
    simp only [List.flatMap_nil, List.append_nil, List.reverse_cons, List.flatMap_append,
      List.flatMap_cons, ← List.append_assoc] at h
    have := (last_split (hR l List.mem_cons_self).1 (hS m List.mem_cons_self).1 h).1
    exact lines_back R S x y a b (fun l hl => hR l (List.mem_cons_of_mem _ hl))
      (fun l hl => hS l (List.mem_cons_of_mem _ hl)) hx hy h1 h2 this

/-- C99: a message can be read if the problem is the only part with line breaks; that may have any. -/
theorem c99_read (r q : Report) (hr : Spec.LinesButProblem r) (hq : Spec.LinesButProblem q)
    {s t : Severity} (hs : r.grade = .known s) (ht : q.grade = .known t)
    (h : formatError r = formatError q) : r = q := by
  have opt : ∀ (l m : String) (v : Text), text m = 10 :: text l → 10 ∉ text l → (text l).head? ≠ some 87 →
      text l ≠ [] → 10 ∉ v →
      ∃ R : List Text, furtherLine m v = R.flatMap (10 :: ·) ∧ ∀ l ∈ R, 10 ∉ l ∧ l.head? ≠ some 87 := by
    intro l m v e h1 h2 h3 h4
    unfold furtherLine
    by_cases hv : v = []
    · exact ⟨[], by simp [hv], by simp⟩
    · refine ⟨[text l ++ v], by simp [hv, e], ?_⟩
      intro x hx
      rw [List.mem_singleton.1 hx]
      refine ⟨no_break_append h1 h4, ?_⟩
      rw [List.head?_append_of_ne_nil _ h3]
      exact h2
  have parts : ∀ (r : Report) (s : Severity), Spec.LinesButProblem r → r.grade = .known s →
      ∃ (x : Text) (R : List Text), formatError r = (text "\nProblem:      " ++ r.problem) ++ 10 :: x ++
        R.reverse.flatMap (10 :: ·) ∧ 10 ∉ x ∧ x.head? = some 87 ∧ ∀ l ∈ R, 10 ∉ l ∧ l.head? ≠ some 87 := by
    intro r s hr hs
    obtain ⟨A, a1, a2⟩ := opt "RP66V1 ref:   " "\nRP66V1 ref:   " r.spec (by decide +kernel) (by decide +kernel)
      (by decide +kernel) (by decide +kernel) hr.2.1
    obtain ⟨B, b1, b2⟩ := opt "Action taken: " "\nAction taken: " r.action (by decide +kernel) (by decide +kernel)
      (by decide +kernel) (by decide +kernel) hr.2.2.1
    obtain ⟨C, c1, c2⟩ := opt "Debug info:   " "\nDebug info:   " r.debug (by decide +kernel) (by decide +kernel)
      (by decide +kernel) (by decide +kernel) hr.2.2.2
    refine ⟨text "Where:        " ++ r.context,
      ([text "Severity:     " ++ formatSeverity r.grade] ++ A ++ B ++ C).reverse, ?_,
      no_break_append (by decide +kernel) hr.1, ?_, ?_⟩
    · rw [formatError_lines, a1, b1, c1, List.reverse_reverse]
      have e1 : text "\nWhere:        " = 10 :: text "Where:        " := by decide +kernel
      have e2 : text "\nSeverity:     " = 10 :: text "Severity:     " := by decide +kernel
      rw [e1, e2]
      simp [List.flatMap_append]
    · rw [List.head?_append_of_ne_nil _ (by decide +kernel)]
      decide +kernel
    · intro l hl
      simp only [List.mem_reverse, List.mem_append, List.mem_singleton] at hl
      rcases hl with ((rfl | hl) | hl) | hl
      · rw [List.head?_append_of_ne_nil _ (by decide +kernel), hs]
        refine ⟨no_break_append (by decide +kernel) ?_, by decide +kernel⟩
        cases s <;> decide +kernel
      · exact a2 l hl
      · exact b2 l hl
      · exact c2 l hl
  obtain ⟨x, R, e1, hx, wx, hR⟩ := parts r s hr hs
  obtain ⟨y, S, e2, hy, wy, hS⟩ := parts q t hq ht
  have hp : r.problem = q.problem :=
    List.append_cancel_left (lines_back R S x y _ _ hR hS hx hy wx wy (by rw [← e1, ← e2, h]))
  have hrest : formatError { r with problem := [] } = formatError { q with problem := [] } := by
    rw [formatError_lines, formatError_lines] at h ⊢
    rw [hp] at h
    simp only [List.append_assoc, List.append_cancel_left_eq] at h
    simp only [List.append_assoc, List.append_cancel_left_eq]
    exact h
  have e := c87_read_partial { r with problem := [] } { q with problem := [] }
    ⟨hr.1, List.not_mem_nil, hr.2.1, hr.2.2.1, hr.2.2.2⟩ ⟨hq.1, List.not_mem_nil, hq.2.1, hq.2.2.1, hq.2.2.2⟩ hs ht hrest
  cases r; cases q
  simp_all

theorem noteReport_lines (t : LoadNote) : Spec.LinesButProblem (noteReport t) := by
  cases t <;> refine ⟨?_, ?_, ?_, ?_⟩ <;>
    dsimp only [noteReport, Suspended.report, trimNote, fdataReport, rawReport,
      noformReport, curveReport, setReport, lateSul, Dlis.lateVr, eofReport, moreSul, noSul, shortSul, saysOneSul, saysEnd] <;>
    repeat' first
      | with_reducible exact List.not_mem_nil
      | with_reducible exact not_in_number (by decide) _
      | with_reducible refine no_break_append ?_ ?_
      | decide +kernel

theorem noteReport_grade (t : LoadNote) : ∃ s, (noteReport t).grade = .known s := by
  cases t <;> exact ⟨_, rfl⟩

/-- The kinds of reports by number; for the proofs. -/
def noteKind : LoadNote → Nat
  | .suspended .. => 0 | .trimmed => 1 | .implicit .. => 2 | .raw .. => 3 | .noform .. => 4 | .curves .. => 5
  | .set .. => 6 | .lateLabel .. => 7 | .lateVr .. => 8 | .eof .. => 9 | .moreLabel => 10 | .noLabel .. => 11
  | .shortLabel .. => 12

/-- Place and action for each kind, as in `noteReport`; for the proofs. -/
def noteKeys : List (Text × Text) :=
  [(text "dlis::findoffsets (indexing logical file)", text "Indexing is suspended at last valid Logical Record"),
    (text "extract (trim_segment)", text "Segment is skipped"),
    (text "dlis::findfdata: Indexing implicit records", text "Record is skipped"),
    (text "dlis::extract: Reading raw bytes from record", text "Record is skipped"),
    (text "dlis::read_noform: Reading raw bytes from record", text "Data part is skipped"),
    (text "dlis::read_fdata: reading curves", text "Record is skipped"),
    (text "core.parse_objects: Construct object sets", text "Set is skipped"),
    (text "dlis::findsul: Searching for SUL", text "Unexpected bytes are ignored"),
    (text "dlis::findvrl: Searching for VR", text "Unexpected bytes ignored"),
    (text "dlis::load: Testing logical eof", text "Load is suspended"),
    (text "dlis::load: Looking for SUL", text "New SUL will be read"),
    (text "dlis::load: Looking for SUL", text "No SUL will be read"),
    (text "dlis::load: Reading SUL", text "Bytes are stored as SUL")]

theorem noteKind_eq {t u : LoadNote} (h : noteReport t = noteReport u) : noteKind t = noteKind u := by
  have key : ∀ t, noteKeys[noteKind t]? = some ((noteReport t).context, (noteReport t).action) := by
    intro t; cases t <;> rfl
  have nd : noteKeys.Nodup := by decide +kernel
  have lt : ∀ t, noteKind t < noteKeys.length := by
    intro t; cases t <;> (simp only [noteKind]; decide)
  refine (List.getElem?_inj (lt t) nd).1 ?_
  rw [key, key, h]

theorem number_first {p q : Text} {n m : Nat} {x y : Text} (hp : p = q)
    (h : p ++ (Text.ofNat n ++ 32 :: x) = q ++ (Text.ofNat m ++ 32 :: y)) : n = m ∧ x = y := by
  subst hp
  obtain ⟨h1, h2⟩ := first_split (not_in_number (by decide) _) (not_in_number (by decide) _) (List.append_cancel_left h)
  exact ⟨ofNat_injective h1, h2⟩

/-- C99: two messages that are the same are about the same: kind, text of the exception, and all numbers.  The texts of exceptions
may have line breaks. -/
theorem c99_apart (t u : LoadNote) (h : t.message = u.message) : t = u := by
  rw [← c99_message, ← c99_message] at h
  obtain ⟨a, ha⟩ := noteReport_grade t
  obtain ⟨b, hb⟩ := noteReport_grade u
  have e := c99_read _ _ (noteReport_lines t) (noteReport_lines u) ha hb h
  have hk := noteKind_eq e
  have hp := congrArg Report.problem e
  have hd := congrArg Report.debug e
  have d1 : text " (dec)" = 32 :: text "(dec)" := by decide +kernel
  have d2 : text " (dec), Logical Record tell: " = 32 :: text "(dec), Logical Record tell: " := by decide +kernel
  have d3 : text " (dec), Logical Record Segment tell: " = 32 :: text "(dec), Logical Record Segment tell: " := by
    decide +kernel
  have d4 : text " (dec), but expected at " = 32 :: text "(dec), but expected at " := by decide +kernel
  cases t <;> cases u <;> first | (exfalso; simp [noteKind] at hk; done) | skip
  all_goals
    dsimp only [noteReport, Suspended.report, trimNote, fdataReport, rawReport,
      noformReport, curveReport, setReport, lateSul, Dlis.lateVr, eofReport, moreSul, noSul, shortSul, saysEnd] at hp hd
    simp only [d1, d2, d3, d4, List.append_assoc, List.cons_append] at hp hd
  case suspended =>
    obtain ⟨e1, hd⟩ := number_first rfl hd
    obtain ⟨e2, hd⟩ := number_first rfl hd
    obtain ⟨e3, hd⟩ := number_first rfl hd
    subst e1 e2 e3 hp; rfl
  case trimmed => rfl
  case implicit => obtain ⟨e1, hd⟩ := number_first rfl hd; subst e1 hp; rfl
  case raw => obtain ⟨e1, hd⟩ := number_first rfl hd; subst e1 hp; rfl
  case noform => obtain ⟨e1, hd⟩ := number_first rfl hd; subst e1 hp; rfl
  case curves =>
    obtain ⟨e1, hd⟩ := number_first rfl hd
    have e2 := ofNat_injective (List.append_cancel_left (List.append_cancel_left (List.append_cancel_left hd)))
    subst e1 e2 hp; rfl
  case set => subst hp; rfl
  case lateLabel =>
    obtain ⟨e1, hd⟩ := number_first rfl hd
    have e2 := ofNat_injective (List.append_cancel_left hd)
    subst e1 e2; rfl
  case lateVr =>
    obtain ⟨e1, hd⟩ := number_first rfl hd
    have e2 := ofNat_injective (List.append_cancel_left hd)
    subst e1 e2; rfl
  case eof => obtain ⟨e1, hd⟩ := number_first rfl hd; subst e1 hp; rfl
  case moreLabel => rfl
  case noLabel => have := List.append_cancel_left hp; subst this; rfl
  case shortLabel => have := ofNat_injective (List.append_cancel_left hp); subst this; rfl

/-! ### Loading -/

/-- All of them are of these kinds; for the proofs. -/
def AllNotes (rs : List Report) : Prop := ∀ r ∈ rs, ∃ t, r = noteReport t

theorem allNotes_nil : AllNotes [] := by intro r hr; cases hr

theorem allNotes_one (t : LoadNote) : AllNotes [noteReport t] := by
  intro r hr
  exact ⟨t, List.mem_singleton.1 hr⟩

theorem allNotes_append {a b : List Report} (ha : AllNotes a) (hb : AllNotes b) : AllNotes (a ++ b) := by
  intro r hr
  rcases List.mem_append.1 hr with hr | hr
  · exact ha r hr
  · exact hb r hr

theorem toldEof_notes (w : LoadWhats) (policy : Policy) (l : Layer) (pos : Nat) (x : Indexer) :
    AllNotes (toldEof w policy l pos x).1 := by
  unfold toldEof
  split
  · split
    · exact allNotes_one (.eof _ _)
    · exact allNotes_nil
    · exact allNotes_nil
  · exact allNotes_one (.eof _ _)

theorem toldFindsul_notes (w : LoadWhats) (policy : Policy) (e : Bool) (l : Layer) (pos : Nat) :
    AllNotes (toldFindsul w policy e l pos).1 := by
  unfold toldFindsul
  repeat' split
  all_goals first | exact allNotes_nil | exact allNotes_one (.lateLabel _ _)

theorem toldFindvrl_notes (w : LoadWhats) (policy : Policy) (l : Layer) (pos : Nat) :
    AllNotes (toldFindvrl w policy l pos).1 := by
  unfold toldFindvrl
  repeat' split
  all_goals first | exact allNotes_nil | exact allNotes_one (.lateVr _ _)

theorem toldReadSul_notes (policy : Policy) (l : Layer) (p : Nat) (x : Indexer) :
    AllNotes (toldReadSul policy l p x).1 := by
  unfold toldReadSul
  split
  · exact allNotes_nil
  · exact allNotes_one (.shortLabel _)
  · exact allNotes_nil

theorem toldNoSul_notes (policy : Policy) (e : Bool) (what : Text) (x : Indexer) :
    AllNotes (toldNoSul policy e what x).1 := by
  unfold toldNoSul
  split
  · exact allNotes_one (.noLabel _)
  · exact allNotes_nil

theorem toldSul_notes (w : LoadWhats) (policy : Policy) (l : Layer) (x : Indexer) :
    AllNotes (toldSul w policy l x).1 := by
  unfold toldSul
  dsimp only
  have h := toldFindsul_notes w policy (decide (x.sul.getD [] = []) && decide (x.files = [])) l 0
  repeat' split
  · exact allNotes_append h (by apply toldReadSul_notes)
  · exact allNotes_append h (allNotes_append (allNotes_one .moreLabel) (by apply toldNoSul_notes))
  · exact allNotes_append h (allNotes_append (allNotes_one .moreLabel) (by apply toldReadSul_notes))
  · exact allNotes_append h (by apply toldNoSul_notes)
  · exact allNotes_append h (by apply toldNoSul_notes)

theorem toldParseFile_notes (w : LoadWhats) (policy : Policy) (stale : Nat → Bytes) (isTif : Bool) (l : Layer)
    (x : Indexer) : AllNotes (toldParseFile w policy stale isTif l x).1 := by
  intro r hr
  cases toldParseFile_says w policy stale isTif l x r hr with
  | index s h => exact ⟨.suspended s.problem _ s.record s.segment, h⟩
  | note t h => exact ⟨.trimmed, h⟩
  | raw t what er h => exact ⟨.raw _ _, h⟩
  | set t n rec what h => exact ⟨.set _, h⟩
  | fdata t what h => exact ⟨.implicit _ _, h⟩

theorem toldAfter_notes (w : LoadWhats) (d : Disk) (policy : Policy) (stale : Nat → Bytes) (l : Layer) (pos : Nat)
    (x : Indexer) : AllNotes (toldAfter w d policy stale l pos x).1 := by
  have h := toldEof_notes w policy l pos x
  have hv := toldFindvrl_notes w policy l pos
  unfold toldAfter
  dsimp only
  repeat' split
  all_goals first
    | exact h
    | exact allNotes_append h hv
    | exact allNotes_append (allNotes_append h hv) (by apply toldParseFile_notes)

theorem toldRound_notes (w : LoadWhats) (d : Disk) (policy : Policy) (stale : Nat → Bytes) (x : Indexer) :
    AllNotes (toldRound w d policy stale x).1 := by
  unfold toldRound
  dsimp only
  repeat' split
  all_goals first
    | exact allNotes_nil
    | apply toldEof_notes
    | exact allNotes_append (by apply toldEof_notes) (by apply toldSul_notes)
    | exact allNotes_append (allNotes_append (by apply toldEof_notes) (by apply toldSul_notes)) (by apply toldAfter_notes)

theorem toldLoop_notes (w : LoadWhats) (d : Disk) (policy : Policy) (stale : Nat → Bytes) :
    ∀ (n : Nat) (x : Indexer), AllNotes (toldLoop w d policy stale n x).1
  | 0, _ => allNotes_nil
  | n + 1, x => by
    rw [toldLoop]
    dsimp only
    repeat' split
    all_goals first
      | exact allNotes_nil
      | apply toldRound_notes
      | exact allNotes_append (by apply toldRound_notes) (toldLoop_notes w d policy stale n _)

/-- C99: everything that is said while a file is loaded is one of these messages. -/
theorem c99_load (w : LoadWhats) (d : Disk) (policy : Policy) (stale : Nat → Bytes) (n : Nat) :
    ∀ r ∈ (toldLoad w d policy stale n).1, ∃ t : LoadNote, formatError r = t.message := by
  intro r hr
  have : AllNotes (toldLoad w d policy stale n).1 := by
    unfold toldLoad
    split
    · apply toldLoop_notes
    · exact allNotes_nil
  obtain ⟨t, rfl⟩ := this r hr
  exact ⟨t, c99_message t⟩

theorem curveLog_allNotes {w : Whats} {v : SampleWhats} {policy : Policy} {src : Dlisio.Source}
    {stale : Nat → Bytes} {ptell : Nat → Nat} {cs : List Reprc} {n m : Nat} {ts : List Nat}
    {rs : List Report} {b : Bool} (h : Spec.CurveLog w v policy src stale ptell cs n ts rs b m) : AllNotes rs := by
  induction h with
  | nil => exact allNotes_nil
  | stop => exact allNotes_nil
  | note _ _ ih => exact allNotes_append (allNotes_one .trimmed) ih
  | lost _ _ _ ih => exact allNotes_append (allNotes_one (.curves _ _ _)) ih
  | encrypted _ _ _ ih => exact allNotes_append (allNotes_one (.curves _ _ _)) ih
  | good _ _ _ _ _ _ _ ih => exact ih
  | bad => exact allNotes_append (allNotes_one (.curves _ _ _)) (by assumption)

/-- C99: everything that is said while unformatted data or curves are read is one of these messages. -/
theorem c99_data (w : Whats) (v : SampleWhats) (policy : Policy) (src : Dlisio.Source) (stale : Nat → Bytes)
    (ptell : Nat → Nat) (itemsize : Nat) (cs : List Reprc) (tells : List Nat) (d : Dst) (acc : Bytes) :
    (∀ r ∈ (toldNoform w policy src stale ptell tells acc).1, ∃ t : LoadNote, formatError r = t.message) ∧
    ∀ r ∈ (toldCurves w v policy src stale ptell itemsize (Spec.format cs) tells d).1,
      ∃ t : LoadNote, formatError r = t.message := by
  constructor
  · intro r hr
    obtain ⟨-, b, h, -⟩ := c89_noform w policy src stale ptell tells acc []
    rcases readLog_mem h r hr with ⟨rfl, -⟩ | ⟨t, -, what, er, rfl, -⟩
    · exact ⟨_, c99_message .trimmed⟩
    · exact ⟨_, c99_message (.noform _ _)⟩
  · obtain ⟨-, b, m, h, -⟩ := c89_curves w v policy src stale ptell itemsize cs tells d []
    have all := curveLog_allNotes h
    intro r hr
    obtain ⟨t, rfl⟩ := all r hr
    exact ⟨t, c99_message t⟩

/-! ### Notes that the error handler raises -/

/-- Whether it is the error handler that ends `extract`; and then with the one and only note. -/
def Spec.OneNote (policy : Policy) (notes : Nat) {α : Type} (x : Except Thrown α × Nat) : Prop :=
  (∀ e, x.1 = .error e → e.err = .escalated → policy .minor = true ∧ x.2 = notes + 1) ∧
  (policy .minor = true → (∀ e, x.1 = .error e → e.err ≠ .escalated) → x.2 = notes)

theorem toldTrim_note (w : Whats) (policy : Policy) (a : Byte) (acc seg : Bytes) :
    Spec.OneNote policy 0 (toldTrim w policy a acc seg) := by
  unfold toldTrim
  split
  · exact ⟨by rintro e h; cases h; simp, fun _ _ => rfl⟩
  · exact ⟨by rintro e h; (cases h), fun _ _ => rfl⟩
  · split
    · exact ⟨by rintro e h; cases h; simp, fun _ _ => rfl⟩
    · split
      · rename_i hp
        exact ⟨fun _ _ _ => ⟨hp, rfl⟩, fun _ h => absurd rfl (h _ rfl)⟩
      · rename_i hp
        exact ⟨by rintro e h; (cases h), fun h => absurd h hp⟩
  · exact ⟨by rintro e h; cases h; simp, fun _ _ => rfl⟩

theorem toldExtractLoop_note (w : Whats) (policy : Policy) (src : Dlisio.Source) (limit pos : Nat) :
    ∀ (acc : Bytes) (first : Option (Byte × Nat)) (notes : Nat),
      Spec.OneNote policy notes (toldExtractLoop w policy src limit pos acc first notes) := by
  refine stream_induction src (P := fun pos => ∀ (acc : Bytes) (first : Option (Byte × Nat))
    (notes : Nat), Spec.OneNote policy notes (toldExtractLoop w policy src limit pos acc first notes)) ?_ pos
  intro pos ih acc first notes
  have other : ∀ e : Thrown, e.err ≠ .escalated →
      Spec.OneNote policy notes ((.error e, notes) : Except Thrown Record × Nat) :=
    fun e he => ⟨fun x h hx => absurd hx (by cases h; exact he), fun _ _ => rfl⟩
  rw [toldExtractLoop_eq]
  cases hr : readAt src pos 4 with
  | error => exact other _ (by simp)
  | eof bs => exact other _ (by simp)
  | ok buf =>
    obtain ⟨hin, -⟩ := readAt_ok hr (by omega)
    dsimp only
    cases lrsh buf with
    | none => exact other _ (by simp)
    | some hd =>
      dsimp only
      split
      · exact other _ (by simp)
      · cases readAt src (pos + 4) (toRead hd.attrs (limit - acc.length) (hd.length - 4)) with
        | error => exact other _ (by simp)
        | eof bs => exact other _ (by simp)
        | ok seg =>
          dsimp only
          obtain ⟨t1, t2⟩ := toldTrim_note w policy hd.attrs acc seg
          rcases hn : toldTrim w policy hd.attrs acc seg with ⟨e | body, n⟩
          · rw [hn] at t1 t2
            dsimp only at t1 t2 ⊢
            refine ⟨fun x h hx => ?_, fun hp h => ?_⟩
            · obtain ⟨a, b⟩ := t1 x (by cases h; rfl) hx
              exact ⟨a, congrArg (notes + ·) b⟩
            · exact congrArg (notes + ·) (t2 hp fun x hx => h x (by cases hx; rfl))
          · rw [hn] at t1 t2
            have zero : policy .minor = true → n = 0 := fun hp => t2 hp (by rintro e h; (cases h))
            dsimp only
            split
            · obtain ⟨r1, r2⟩ := ih (pos + 4 + (hd.length - 4)) (by omega) hin (acc ++ body)
                (some (first.getD (hd.attrs, hd.type))) (notes + n)
              refine ⟨fun x h hx => ?_, fun hp h => ?_⟩
              · obtain ⟨a, b⟩ := r1 x h hx
                exact ⟨a, by rw [b, zero a]⟩
              · rw [r2 hp h, zero hp, Nat.add_zero]
            · exact ⟨by rintro e h; (cases h), fun hp _ => by rw [zero hp]; rfl⟩

/-- C89.  If it is the error handler that ends the extraction of a record, then it raises what is minor, and there has been one note,
the one that it was given.  If it raises what is minor but something else ends the extraction, then there has been none. -/
theorem c89_raised (w : Whats) (policy : Policy) (src : Dlisio.Source) (tell bytes : Nat) :
    Spec.OneNote policy 0 (toldExtractN w policy src tell bytes) := by
  unfold toldExtractN
  split
  · exact ⟨by rintro e h; cases h; simp, fun _ _ => rfl⟩
  · exact toldExtractLoop_note ..

/-- Case: a segment with a trailer as long as the segment, if what is minor is raised. -/
example (w : Whats) (policy : Policy) (hp : policy .minor = true) :
    toldExtract w policy ⟨[0, 8, 1, 0, 1, 2, 3, 8], .eof⟩ 0 = (.error ⟨.escalated, w.handler⟩, 1) := by
  unfold toldExtract toldExtractN
  rw [if_neg (by decide), toldExtractLoop_eq]
  simp only [show readAt ⟨[0, 8, 1, 0, 1, 2, 3, 8], .eof⟩ 0 4 = .ok [0, 8, 1, 0] from by decide +kernel,
    show lrsh [0, 8, 1, 0] = some ⟨8, 1, 0⟩ from by decide +kernel]
  have r1 : toRead 1 (2 ^ 63 - 1 - ([] : Bytes).length) (8 - 4) = 4 := by decide +kernel
  simp only [r1, show readAt ⟨[0, 8, 1, 0, 1, 2, 3, 8], .eof⟩ (0 + 4) 4 = .ok [1, 2, 3, 8] from
    by decide +kernel]
  have t1 : toldTrim w policy 1 [] [1, 2, 3, 8] = (.error ⟨.escalated, w.handler⟩, 1) := by
    unfold toldTrim
    rw [show trimRecordSegment 1 [] [1, 2, 3, 8] = some (.badSize, 8) from by decide +kernel]
    simp [hp]
  simp only [show ¬ (8 : Nat) < 4 from by omega, if_false, t1, Nat.zero_add]

/-! ### What is said about objects -/

/-- The entries of an object. -/
def Spec.objectEntries (unnamed attributes : Bool) : List LogEntry :=
  (if unnamed then [⟨.major, text "OBJECT:name was not set",
      text "3.2.2.1 Component Descriptor: That is, every Object has a non-null Name",
      text "Assumed object descriptor corrupted, attempt to read name anyway"⟩] else []) ++
  if attributes then [⟨.minor,
      text ("One or more attributes of this object violate specification. " ++
        "This can potentially corrupt the entire object"), [], []⟩] else []

/-- C88.  The entries of an object: one if bit 4 of its descriptor is not set, then one if entries were made for an attribute of it.
The name is what follows the descriptor in both cases. -/
theorem c88_object (data : Bytes) (o : ToldObject) (ho : o ∈ (toldParse data).objs) :
    ∃ (d : Byte) (xs r : Bytes) (attributes : Bool),
      d.toNat / 32 = 3 ∧ obname xs = some (o.obj.name, r) ∧
      o.told = Spec.objectEntries (d.toNat / 16 % 2 = 0) attributes ∧
      (attributes = true ↔ ⟨.minor, text ("One or more attributes of this object violate specification. " ++
        "This can potentially corrupt the entire object"), [], []⟩ ∈ o.told) ∧
      (attributes = true → ∃ t ∈ (toldParse data).tmpl, ∃ inv f ys a zs,
        toldObjectAttr t inv f ys = .ok (a, zs) ∧ a.told ≠ []) ∧
      (attributes = false → ∀ a ∈ o.attrs, a ∈ (toldParse data).tmpl ∨ a.told = []) := by
  obtain ⟨type, d, xs, r, hr⟩ := (parse_mem data).2 o ho
  obtain ⟨-, -, ⟨clear, h3, -, -⟩, -⟩ := object_form hr
  obtain ⟨h4, h5⟩ := (c88_objects data).2 o ho
  have bits : ∀ d : Byte, (componentObject d (component d)).isSome = true →
      d.toNat / 32 = 3 ∧ (flag d 0x10 = !decide (d.toNat / 16 % 2 = 0)) := by decide +kernel
  unfold toldObject at hr
  split at hr
  · cases hr
  · rename_i hasName hd
    have hb := bits d (by
      unfold toldObjectDescriptor at hd
      split at hd
      · rename_i h; rw [h]; rfl
      · cases hd)
    split at hr
    · cases hr
    · rename_i name ys hn
      have hname : obname xs = some (name, ys) := by
        unfold toldNeed at hn
        split at hn
        · rename_i h; cases hn; exact h
        · cases hn
      have ho' : o.obj.name = name := by
        split at hr
        · cases hr
        · cases hr; rfl
      have e1 : saysAttributes = ⟨.minor, text ("One or more attributes of this object violate specification. " ++
        "This can potentially corrupt the entire object"), [], []⟩ := by decide +kernel
      have e2 : saysUnnamed = ⟨.major, text "OBJECT:name was not set",
        text "3.2.2.1 Component Descriptor: That is, every Object has a non-null Name",
        text "Assumed object descriptor corrupted, attempt to read name anyway"⟩ := by decide +kernel
      have ne : saysAttributes ≠ saysUnnamed := fun h => absurd (congrArg LogEntry.severity h) (by decide)
      have told : o.told = Spec.objectEntries (d.toNat / 16 % 2 = 0) (!clear) := by
        rw [h3, Spec.objectEntries, ← e1, ← e2, hb.2]
        cases clear <;> cases decide (d.toNat / 16 % 2 = 0) <;> rfl
      have hs : (!clear) = true ↔ saysAttributes ∈ o.told := by
        rw [h3]
        cases clear <;> cases flag d 0x10 <;> simp [ne]
      refine ⟨d, xs, ys, !clear, hb.1, by rw [hname, ho'], told, by rw [← e1]; exact hs, fun h => h5 (hs.1 h), fun h a ha => ?_⟩
      rcases h4 a ha with h' | ⟨t, ht, inv, f, us, zs, h1, h2⟩
      · exact .inl h'
      · right
        by_contra hne
        rw [hs.2 (h2 hne)] at h
        cases h

/-- Case: an object whose descriptor says that it has no name. -/
example : (toldParse ([0xF0, 0x01, 0x54, 0x34, 0x01, 0x41, 0x0F] ++ [0x60, 0x01, 0x00, 0x01, 0x58, 0x21, 0x05])).objs.map (·.told) =
    [Spec.objectEntries true false] := by
  decide +kernel

/-! ### What is said about sets and descriptors -/

namespace Spec

/-- The entries for what is wrong with a template. -/
def templateEntries : List LogEntry :=
  [⟨.major, text "Absent Attribute in object set template",
      text ("3.2.2.2 Component Usage: A Template consists of a collection of Attribute Components and/or " ++
        "Invariant Attribute Components, mixed in any fashion."),
      text "Attribute not included in template"⟩,
    ⟨.major, text "Label not set in template",
      text "3.2.2.2 Component Usage: All Components in the Template must have distinct, non-null Labels.",
      text "Assumed attribute descriptor corrupted, attempt to read label anyway"⟩,
    ⟨.info, text "Set contains no objects", text "3.2.2.2 Component Usage: A Set consists of one or more Objects",
      text "Leave the set empty and return"⟩]

/-- The names of components by the first three bits of their descriptors. -/
def componentNamed : Nat → String
  | 0 => "absent attribute"
  | 1 => "attribute"
  | 2 => "invariant attribute"
  | 3 => "object"
  | 4 => "reserved"
  | 5 => "redundant set"
  | 6 => "replacement set"
  | _ => "set"

/-- The bits of a byte, the highest first. -/
def bits (n : Nat) : Text :=
  [48 + n / 128 % 2, 48 + n / 64 % 2, 48 + n / 32 % 2, 48 + n / 16 % 2, 48 + n / 8 % 2, 48 + n / 4 % 2,
    48 + n / 2 % 2, 48 + n % 2]

end Spec

/-- C88.  All that the log of a set may say, with the citations. -/
theorem c88_entries {data : Bytes} {s : ObjectSet} (h : ObjectSet.new data = .ok s) :
    ∃ d xs, data = d :: xs ∧ ∀ x ∈ (toldParse data).told,
      x ∈ Spec.kindEntry d ++ Spec.typeEntry d ∨ x ∈ Spec.templateEntries ∨
      ∃ w, x = ⟨.critical, w, [], text "object set parse has been interrupted"⟩ ∧ Spec.Interruption w := by
  have e : Spec.templateEntries = [saysAbsent, saysUnlabelled, saysEmpty] := by decide +kernel
  have hc := plain_setComponent data
  obtain ⟨d, xs, mid, fin, hd, ha, ht, -, hf, -⟩ := c88_set h
  unfold ObjectSet.new at h
  rw [← hc] at h
  cases hd
  refine ⟨d, xs, rfl, fun x hx => ?_⟩
  have hne : xs ≠ [] := by
    rintro rfl
    rw [show toldSetComponent [d] = ([], .error (.threw (text "unexpected end-of-record after SET descriptor"))) by
      unfold toldSetComponent; dsimp only; rw [(setDescriptor_bits d ha).1]; rfl] at h
    simp [plainRes] at h
  have key : (toldSetComponent (d :: xs)).1 = Spec.kindEntry d ++ Spec.typeEntry d := by
    unfold toldSetComponent
    dsimp only
    rw [(setDescriptor_bits d ha).1]
    dsimp only
    rw [if_neg hne]
    exact (setDescriptor_bits d ha).2.2
  cases hr : (toldSetComponent (d :: xs)).2 with
  | error e => rw [hr] at h; simp [plainRes] at h
  | ok q =>
    obtain ⟨role, type, name, ys⟩ := q
    rw [parse_rest, key, hr] at hx
    obtain ⟨mid', fin', f1, f2, f3, -⟩ := rest_form (Spec.kindEntry d ++ Spec.typeEntry d) role type name ys
    rw [f1] at hx
    rcases List.mem_append.1 hx with hx | hx
    · rcases List.mem_append.1 hx with hx | hx
      · exact .inl hx
      · refine .inr (.inl ?_)
        rw [e]
        rcases f2 x hx with rfl | rfl | ⟨rfl, -⟩ <;> simp
    · rcases f3 with rfl | ⟨w, rfl, hw, -⟩
      · cases hx
      · exact .inr (.inr ⟨w, List.mem_singleton.1 hx, hw⟩)

/-- C88.  Which descriptors are not expected, and what is said about them. -/
theorem c88_expected (d : Byte) :
    (∀ x, toldSetDescriptor d = .error x ↔ d.toNat / 32 < 5 ∧
      x = .threw (text "error parsing object set descriptor: expected SET, RSET or RDSET, was " ++
        text (Spec.componentNamed (d.toNat / 32)) ++ text " (" ++ Spec.bits d.toNat ++ text ")")) ∧
    (∀ x, toldObjectDescriptor d = .error x ↔ d.toNat / 32 ≠ 3 ∧
      x = .threw (text "error parsing object descriptor: expected OBJECT, was " ++
        text (Spec.componentNamed (d.toNat / 32)) ++ text " (" ++ Spec.bits d.toNat ++ text ")")) ∧
    ∀ x, toldAttributeDescriptor d = .error x ↔ 3 < d.toNat / 32 ∧
      x = .threw (text "error parsing attribute descriptor: expected ATTRIB, INVATR, ABSATR or OBJECT, was " ++
        text (Spec.componentNamed (d.toNat / 32)) ++ text " (" ++ Spec.bits (d.toNat / 32 * 32) ++ text ")") := by
  have key : ∀ d : Byte, (component d).str = text (Spec.componentNamed (d.toNat / 32)) ∧ bitText d = Spec.bits d.toNat ∧
      bitText (component d).bits = Spec.bits (d.toNat / 32 * 32) ∧
      ((componentSet d (component d)).isNone = decide (d.toNat / 32 < 5)) ∧
      ((componentObject d (component d)).isNone = decide (d.toNat / 32 ≠ 3)) ∧
      (decide (component d ≠ .object ∧ component d ≠ .absatr ∧ (componentAttrib d (component d)).isNone) =
        decide (3 < d.toNat / 32)) := by decide +kernel
  obtain ⟨k1, k2, k3, k4, k5, k6⟩ := key d
  have t1 : text "error parsing " ++ text "object set" ++ text " descriptor: expected " ++ text "SET, RSET or RDSET" ++
      text ", was " = text "error parsing object set descriptor: expected SET, RSET or RDSET, was " := by decide +kernel
  have t2 : text "error parsing " ++ text "object" ++ text " descriptor: expected " ++ text "OBJECT" ++
      text ", was " = text "error parsing object descriptor: expected OBJECT, was " := by decide +kernel
  have t3 : text "error parsing " ++ text "attribute" ++ text " descriptor: expected " ++
      text "ATTRIB, INVATR, ABSATR or OBJECT" ++
      text ", was " = text "error parsing attribute descriptor: expected ATTRIB, INVATR, ABSATR or OBJECT, was " := by
    decide +kernel
  refine ⟨fun x => ?_, fun x => ?_, fun x => ?_⟩
  · unfold toldSetDescriptor unexpected
    rw [k1, k2, t1]
    cases h : componentSet d (component d) with
    | none =>
      rw [h] at k4
      have := of_decide_eq_true k4.symm
      simp [this, eq_comm]
    | some q =>
      rw [h] at k4
      have := of_decide_eq_false k4.symm
      simp [this]
  · unfold toldObjectDescriptor unexpected
    rw [k1, k2, t2]
    cases h : componentObject d (component d) with
    | none =>
      rw [h] at k5
      have := of_decide_eq_true k5.symm
      simp [this, eq_comm]
    | some q =>
      rw [h] at k5
      have := of_decide_eq_false k5.symm
      simp [this]
  · unfold toldAttributeDescriptor unexpected
    dsimp only
    rw [k1, k3, t3]
    by_cases h1 : component d = .object
    · rw [if_pos h1]
      have := of_decide_eq_false (k6.symm.trans (by simp [h1]))
      simp [this]
    · rw [if_neg h1]
      by_cases h2 : component d = .absatr
      · rw [if_pos h2]
        have := of_decide_eq_false (k6.symm.trans (by simp [h2]))
        simp [this]
      · rw [if_neg h2]
        cases h : componentAttrib d (component d) with
        | none =>
          have := of_decide_eq_true (k6.symm.trans (by simp [h1, h2, h]))
          simp [this, eq_comm]
        | some q =>
          have := of_decide_eq_false (k6.symm.trans (by simp [h]))
          simp [this]

/-- Case: an attribute where a set was expected. -/
example : toldSetDescriptor 0x25 =
    .error (.threw (text "error parsing object set descriptor: expected SET, RSET or RDSET, was attribute (00100101)")) :=
  ((c88_expected 0x25).1 _).2 ⟨by decide, by decide +kernel⟩

/-- Case for `c88_entries`: a redundant set without a type and without objects. -/
example : ∃ s, ObjectSet.new [0xA0, 0x01, 0x54, 0x30, 0x01, 0x41] = .ok s ∧
    (toldParse [0xA0, 0x01, 0x54, 0x30, 0x01, 0x41]).told =
      Spec.kindEntry 0xA0 ++ Spec.typeEntry 0xA0 ++ Spec.templateEntries.drop 2 :=
  ⟨_, rfl, by decide +kernel⟩

/-! ## Cases -/

/-- Case for `c99_message`: the index is suspended. -/
example : formatError (Suspended.report ⟨text "file truncated in Logical Record Segment", 120, 140⟩ 324) =
    text ("\nProblem:      file truncated in Logical Record Segment" ++
      "\nWhere:        dlis::findoffsets (indexing logical file)" ++
      "\nSeverity:     critical" ++
      "\nAction taken: Indexing is suspended at last valid Logical Record" ++
      "\nDebug info:   Physical tell: 324 (dec), Logical Record tell: 120 (dec), Logical Record Segment tell: 140 (dec)") := by
  decide +kernel

/-- Case for `c99_apart` and `c99_read`: the text of the exception looks like the rest of a message. -/
example : (LoadNote.raw 7 (text "a\nWhere:        b\nSeverity:     info")).message ≠ (LoadNote.raw 7 (text "a")).message ∧
    Spec.LinesButProblem (rawReport 7 (text "a\nWhere:        b\nSeverity:     info")) :=
  ⟨fun h => absurd (c99_apart _ _ h) (by simp [text]), noteReport_lines (.raw _ _)⟩

/-- Case for `c99_load`: a file of three bytes. -/
example : ∃ r, r ∈ (toldReadSul (fun _ => false) ⟨⟨[1, 2, 3], .eof⟩, id, 3, true⟩ 0 Indexer.new).1 ∧
    formatError r = (LoadNote.shortLabel 3).message :=
  ⟨_, List.mem_singleton.2 rfl, c99_message (.shortLabel 3)⟩

/-- Case for `c99_data`: the second of two records of unformatted data is cut off. -/
example (w : Whats) : ∃ r ∈ (toldNoform w (fun _ => false) caseFile (fun _ => []) (fun _ => 29) [0, 28] []).1,
    formatError r = (LoadNote.noform 29 (text "extract: unable to read LRSH, file truncated")).message := by
  refine ⟨noformReport 29 (text "extract: unable to read LRSH, file truncated"), ?_, c99_message (.noform _ _)⟩
  obtain ⟨h0, -, -⟩ := caseFile_extract
  have h3 : toldExtract w (fun _ => false) caseFile 28 = (.error ⟨.header, saysNoHeader⟩, 0) := by
    unfold toldExtract toldExtractN
    rw [if_neg (by decide), toldExtractLoop_eq]
    rfl
  simp only [toldNoform, toldExtract_of h0, h3]
  exact List.mem_singleton.2 rfl

end Dlisio.Dlis
