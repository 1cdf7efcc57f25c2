import Verif.Dlis.LoadTexts
import Verif.Lis.LoadLog
/-
The messages about LIS files that are loaded: the whole text that `ErrorHandler.format_error` (errorhandler.py:193-213) makes
of what `index_logical_file` (lis/load.py:141-235) reports.  C99.
-/
namespace Dlisio.Lis

/-! ## Specification -/

namespace Spec

/-- What a report is about. -/
inductive LoadPlace where
  | file
  | record (type ltell : Nat)

/-- The records that are named are of reels and tapes, or the end of the medium. -/
def LoadPlace.Delimits : LoadPlace → Prop
  | .file => True
  | .record type _ => type ∈ [132, 133, 130, 131, 137]

/-- How it is named. -/
def LoadPlace.named : LoadPlace → Text
  | .file => []
  | .record type ltell => text ", record dlisio.core.record_info(type=lis_rectype." ++
      text ((Dlisio.Spec.typeNamed type).getD "???") ++ text ", ltell=" ++ Text.ofNat ltell ++ text ")"

/-- The message that indexing was given up. -/
def stoppedMessage (path : Text) (place : LoadPlace) (problem : Text) (tell : Nat) : Text :=
  text "\nProblem:      " ++ problem ++ text "\nWhere:        dlisio.lis.load: file " ++ path ++ place.named ++
    text "\nSeverity:     critical\nAction taken: Indexing stopped at physical tell " ++ Text.ofNat tell ++ text " (dec)"

end Spec

open _root_.Dlisio.Lis.Spec (LoadPlace stoppedMessage)

/-! ## Proofs -/

theorem stopped_message (path : Text) (place : LoadPlace) (problem : Text) (tell : Nat) :
    formatError (Spec.Stopped (text "dlisio.lis.load: file " ++ path ++ place.named) problem tell) =
      stoppedMessage path place problem tell := by
  rw [Dlis.formatError_lines]
  unfold stoppedMessage Spec.Stopped Dlis.furtherLine
  dsimp only
  have h : text "Indexing stopped at physical tell " ++ Text.ofNat tell ++ text " (dec)" ≠ [] := by
    intro h
    have := congrArg List.length h
    simp [text] at this
  have e1 : text "\nWhere:        dlisio.lis.load: file " = text "\nWhere:        " ++ text "dlisio.lis.load: file " := by
    decide +kernel
  have e2 : text "\nSeverity:     critical\nAction taken: Indexing stopped at physical tell " =
      text "\nSeverity:     " ++ text "critical" ++ text "\nAction taken: " ++ text "Indexing stopped at physical tell " := by
    decide +kernel
  have e3 : formatSeverity (.known .critical) = text "critical" := by decide +kernel
  rw [if_neg h, e1, e2, e3]
  simp only [if_true, List.append_assoc, List.nil_append, List.append_nil]

theorem place_named {w : Whats} (hw : w.rectype = rectypeText) {t : Nat} (ht : t ∈ [132, 133, 130, 131, 137]) (l : Nat) :
    text "dlisio.lis.load: file " ++ w.path ++ text ", record dlisio.core.record_info(type=" ++ w.rectype t ++
      text ", ltell=" ++ Text.ofNat l ++ text ")" =
    text "dlisio.lis.load: file " ++ w.path ++ (LoadPlace.record t l).named := by
  have h : ∀ t ∈ [132, 133, 130, 131, 137], rectypeText t = text "lis_rectype." ++
      text ((Dlisio.Spec.typeNamed t).getD "???") := by decide +kernel
  have e : text ", record dlisio.core.record_info(type=lis_rectype." =
      text ", record dlisio.core.record_info(type=" ++ text "lis_rectype." := by decide +kernel
  rw [hw, h t ht, LoadPlace.named, e]
  simp only [List.append_assoc]

/-- C99: every message that is given while a LIS file is loaded. -/
theorem c99_lis_load (w : Whats) (hw : w.rectype = rectypeText) (d : Disk) (raises : Bool) (n : Nat) (rs : List Report)
    (h : toldLoad w d raises n = .ok rs) (r : Report) (hr : r ∈ rs) :
    ∃ place tell, place.Delimits ∧ formatError r = stoppedMessage w.path place r.problem tell := by
  obtain ⟨src, isTif, off, -, -, -, hx⟩ := c91_reports w d raises n rs h
  obtain ⟨x, -, -, hs⟩ := hx r hr
  have file : ∀ problem tell, r = Spec.Stopped (text "dlisio.lis.load: file " ++ w.path) problem tell →
      ∃ (place : LoadPlace) (t : Nat), place.Delimits ∧ formatError r = stoppedMessage w.path place r.problem t := by
    intro problem tell e
    refine ⟨.file, tell, trivial, ?_⟩
    rw [← stopped_message, LoadPlace.named, List.append_nil, e]
    rfl
  have record : ∀ u ∈ [132, 133, 130, 131, 137], ∀ l problem tell,
      r = Spec.Stopped (text "dlisio.lis.load: file " ++ w.path ++ text ", record dlisio.core.record_info(type=" ++
        w.rectype u ++ text ", ltell=" ++ Text.ofNat l ++ text ")") problem tell →
      ∃ (place : LoadPlace) (t : Nat), place.Delimits ∧ formatError r = stoppedMessage w.path place r.problem t := by
    intro u hu l problem tell e
    rw [place_named hw hu] at e
    refine ⟨.record u l, tell, hu, ?_⟩
    rw [← stopped_message, e]
    rfl
  cases hs with
  | opening => exact file _ _ rfl
  | record => exact file _ _ rfl
  | size dev eof is q p n i _ _ _ ht => exact record _ ht _ _ _ rfl
  | reading dev eof q p p' n i e what _ _ ht => exact record _ ht _ _ _ rfl

/-- C99: two messages about a file that are the same are about the same record, problem and place in the file, unless the path has line
breaks. -/
theorem c99_lis_apart (path : Text) (hpath : 10 ∉ path) (a b : LoadPlace) (ha : a.Delimits) (hb : b.Delimits)
    (p q : Text) (n m : Nat) (h : stoppedMessage path a p n = stoppedMessage path b q m) : a = b ∧ p = q ∧ n = m := by
  have name : ∀ t ∈ [132, 133, 130, 131, 137], 10 ∉ text ((Dlisio.Spec.typeNamed t).getD "???") ∧
      44 ∉ text ((Dlisio.Spec.typeNamed t).getD "???") := by decide +kernel
  have distinct : ∀ t ∈ [132, 133, 130, 131, 137], ∀ u ∈ [132, 133, 130, 131, 137],
      text ((Dlisio.Spec.typeNamed t).getD "???") = text ((Dlisio.Spec.typeNamed u).getD "???") → t = u := by decide +kernel
  have lines : ∀ (a : LoadPlace), a.Delimits → 10 ∉ a.named := by
    intro a ha
    cases a with
    | file => exact List.not_mem_nil
    | record t l =>
      unfold LoadPlace.named
      exact Dlis.no_break_append (Dlis.no_break_append (Dlis.no_break_append (Dlis.no_break_append (by decide +kernel)
        (name t ha).1) (by decide +kernel)) (not_in_number (by decide) _)) (by decide +kernel)
  have clear : ∀ (a : LoadPlace) p n, a.Delimits →
      Dlis.Spec.LinesButProblem (Spec.Stopped (text "dlisio.lis.load: file " ++ path ++ a.named) p n) :=
    fun a p n ha => ⟨Dlis.no_break_append (Dlis.no_break_append (by decide +kernel) hpath) (lines a ha), List.not_mem_nil,
      Dlis.no_break_append (Dlis.no_break_append (by decide +kernel) (not_in_number (by decide) _)) (by decide +kernel),
      List.not_mem_nil⟩
  rw [← stopped_message, ← stopped_message] at h
  have e := Dlis.c99_read _ _ (clear a p n ha) (clear b q m hb) rfl rfl h
  have hc : text "dlisio.lis.load: file " ++ path ++ a.named = text "dlisio.lis.load: file " ++ path ++ b.named :=
    congrArg Report.context e
  have hp : p = q := congrArg Report.problem e
  have ht : text "Indexing stopped at physical tell " ++ Text.ofNat n ++ text " (dec)" =
    text "Indexing stopped at physical tell " ++ Text.ofNat m ++ text " (dec)" := congrArg Report.action e
  refine ⟨?_, hp, Dlis.ofNat_injective (List.append_cancel_left (List.append_cancel_right ht))⟩
  have hc := List.append_cancel_left hc
  have some' : ∀ t l, (LoadPlace.record t l).named ≠ [] := by
    intro t l h
    have := congrArg List.length h
    simp [LoadPlace.named, text] at this
  cases a with
  | file =>
    cases b with
    | file => rfl
    | record t l => exact absurd hc.symm (some' t l)
  | record t l =>
    cases b with
    | file => exact absurd hc (some' t l)
    | record u k =>
      unfold LoadPlace.named at hc
      have comma : text ", ltell=" = 44 :: text " ltell=" := by decide +kernel
      simp only [comma, List.append_assoc, List.cons_append] at hc
      obtain ⟨h1, h2⟩ := first_split (name t ha).2 (name u hb).2 (List.append_cancel_left hc)
      have h3 := Dlis.ofNat_injective (List.append_cancel_right (List.append_cancel_left h2))
      rw [distinct t ha u hb h1, h3]

/-- Case for `c99_lis_load`: a reel header that is not alone. -/
example : formatError (stopReport (recordContext ⟨[], [], [], fun _ => [], rectypeText, text "a.lis"⟩ ⟨132, 0, 0⟩)
      (text "Delimiter file size is 2 != 1") 140) =
    text ("\nProblem:      Delimiter file size is 2 != 1" ++
      "\nWhere:        dlisio.lis.load: file a.lis, record dlisio.core.record_info(type=lis_rectype.reel_header, ltell=0)" ++
      "\nSeverity:     critical" ++
      "\nAction taken: Indexing stopped at physical tell 140 (dec)") := by
  decide +kernel

/-- Case for `c99_lis_load`: a file that cannot be opened at the offset. -/
example : toldLogicalFile ⟨[], [], [], fun _ => text "x", rectypeText, text "a.lis"⟩
      ⟨none, fun _ _ => .osError⟩ false (Indexer.start 7) =
    [Spec.Stopped (text "dlisio.lis.load: file a.lis") (text "x") 7] := by
  decide +kernel

/-- Case for `c99_lis_apart`: the record is told even if the path looks like one. -/
example : stoppedMessage (text "a, record b") .file (text "x") 1 ≠ stoppedMessage (text "a, record b") (.record 132 0) (text "x") 1 :=
  fun h => by cases (c99_lis_apart _ (by decide +kernel) .file (.record 132 0) trivial (by simp [LoadPlace.Delimits]) _ _ _ _ h).1

end Dlisio.Lis
