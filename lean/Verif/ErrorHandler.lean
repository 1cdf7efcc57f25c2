/-
The error handler, python/dlisio/common/errorhandler.py, and the loops that report the
entries of a log.  The text of the messages is left out.
-/
import Verif.Dlis.Eflr

namespace Dlisio

/-- What is done about an entry: `Actions`, errorhandler.py:7-22, or a function of the
user, which may raise. -/
inductive Action where
  | logDebug | logInfo | logWarning | logError
  | raise
  | swallow
  | custom (id : Nat) (raises : Bool)
deriving DecidableEq, Repr

/-- Does the action raise?  errorhandler.py:19-21 and 148-150. -/
def Action.raises : Action → Bool
  | .raise => true
  | .custom _ r => r
  | _ => false

/-- `ErrorHandler`, errorhandler.py:156-166, with the default arguments. -/
structure Handler where
  info : Action := .logDebug
  minor : Action := .logInfo
  major : Action := .logWarning
  critical : Action := .raise
deriving DecidableEq

/-- What is passed as severity: one of the four of `core.error_severity`, or anything else. -/
inductive Sev where
  | known (s : Dlis.Severity)
  | unknown
deriving DecidableEq

/-- `ErrorHandler.log`, errorhandler.py:168-181: the action that was called, if any, and
whether an exception was raised. -/
def Handler.log (h : Handler) (sev : Sev) : Option Action × Bool :=
  if sev = .known .info then (some h.info, h.info.raises)
  else if sev = .known .minor then (some h.minor, h.minor.raises)
  else if sev = .known .major then (some h.major, h.major.raises)
  else if sev = .known .critical then (some h.critical, h.critical.raises)
  else (none, true)

/-- A loop that reports the entries of a log one after the other, `report_set_errors`,
records.cpp:881-892, and basicobject.py:202-205 and 217-220: the actions that were called,
and whether it was left by an exception. -/
def Handler.report (h : Handler) : List Sev → List Action × Bool
  | [] => ([], false)
  | s :: ss =>
    match h.log s with
    | (a, true) => (a.toList, true)
    | (a, false) =>
      let (as, r) := h.report ss
      (a.toList ++ as, r)

/-- The handler as the models of the C++ code see it. -/
def Handler.policy (h : Handler) : Dlis.Policy := fun s => (h.log (.known s)).2

/-! ### C37 -/

/-- The action that is configured for a severity. -/
def Spec.configured (h : Handler) : Dlis.Severity → Action
  | .info => h.info
  | .minor => h.minor
  | .major => h.major
  | .critical => h.critical

/-- C37.  A problem is dispatched to the action that is configured for its severity, and to
no other, and raises if and only if that action does.  An unknown severity raises. -/
theorem c37_dispatch (h : Handler) (s : Dlis.Severity) :
    h.log (.known s) = (some (Spec.configured h s), (Spec.configured h s).raises) ∧
    h.log .unknown = (none, true) := by
  refine ⟨?_, rfl⟩
  cases s <;> rfl

/-- C37.  With the default configuration exactly the critical problems raise. -/
theorem c37_default (s : Dlis.Severity) : (({} : Handler).log (.known s)).2 = true ↔ s = .critical := by
  cases s <;> decide

/-- C37.  The problems of a log are dispatched in the order in which they occurred, each
exactly once, up to and including the first one that raises. -/
theorem c37_order (h : Handler) (ss : List Dlis.Severity) :
    (h.report (ss.map .known)).1 =
      (ss.take (ss.findIdx (fun s => (Spec.configured h s).raises) + 1)).map (Spec.configured h) ∧
    ((h.report (ss.map .known)).2 = true ↔ ∃ s ∈ ss, (Spec.configured h s).raises = true) := by
  induction ss with
  | nil => exact ⟨rfl, by simp [Handler.report]⟩
  | cons s ss ih =>
    simp only [List.map_cons, Handler.report, (c37_dispatch h s).1, List.findIdx_cons]
    cases hr : (Spec.configured h s).raises with
    | true => simp [hr]
    | false =>
      simp only [cond_false, List.take_succ_cons, List.map_cons, ih.1, Option.toList_some,
        List.singleton_append, true_and, ih.2, List.mem_cons]
      constructor
      · rintro ⟨x, hx, h⟩; exact ⟨x, Or.inr hx, h⟩
      · rintro ⟨x, rfl | hx, h⟩
        · rw [hr] at h; cases h
        · exact ⟨x, hx, h⟩

/-- C37.  If nothing raises, there is exactly one call for each problem. -/
theorem c37_once (h : Handler) (ss : List Dlis.Severity)
    (hn : ∀ s ∈ ss, (Spec.configured h s).raises = false) :
    h.report (ss.map .known) = (ss.map (Spec.configured h), false) := by
  induction ss with
  | nil => rfl
  | cons s ss ih =>
    have h1 := hn s (by simp)
    simp only [List.map_cons, Handler.report, (c37_dispatch h s).1, h1,
      ih fun x hx => hn x (by simp [hx])]
    rfl

/-- C37.  A set is reported with these calls, if its type and its name are in UTF-8: the query of
the pool fails exactly if one of the entries raises. -/
theorem c37_set_partial (h : Handler) (s : Dlis.ObjectSet) (ht : Dlis.Spec.Tellable s) :
    Dlis.reportSetErrors h.policy s = (h.report (s.log.map .known)).2 := by
  rw [Bool.eq_iff_iff, (c37_order h s.log).2]
  simp only [Dlis.reportSetErrors, List.any_eq_true, Handler.policy, (c37_dispatch h _).1,
    (Dlis.tellable_iff s).2 ht, Bool.not_true, Bool.false_or]

/-- C37.  If the type or the name is not in UTF-8 and there is an entry, then the query fails,
whatever the handler does. -/
theorem c37_set_untold (h : Handler) (s : Dlis.ObjectSet) (ht : ¬ Dlis.Spec.Tellable s)
    (hl : s.log ≠ []) : Dlis.reportSetErrors h.policy s = true := by
  obtain ⟨sev, hs⟩ := List.exists_mem_of_ne_nil _ hl
  have hf : s.tellable = false := by
    rw [← Bool.not_eq_true, Dlis.tellable_iff]; exact ht
  simp only [Dlis.reportSetErrors, List.any_eq_true]
  exact ⟨sev, hs, by simp [hf]⟩

/-- C37 is violated: a redundant set of type "T" whose name is the byte ff cannot be queried, not
even if all problems are to be ignored. -/
theorem c37_set_defect : ∃ bs s, Dlis.ObjectSet.new bs = .ok s ∧
    s.parse.objs.length = 1 ∧ s.parse.log = [.minor] ∧
    ∀ h : Handler, h.minor = .swallow → (h.report (s.parse.log.map .known)).2 = false ∧
      (Dlis.poolGet (fun a b => decide (a = b)) h.policy [0x54] none [s]).2 = none := by
  have key : ∃ s, Dlis.ObjectSet.new [0xb8, 1, 0x54, 1, 0xff, 0x30, 1, 0x41, 0x70, 1, 0, 1, 0x4f] =
      .ok s ∧ s.type = [0x54] ∧ s.parse.name = [0xff] ∧ s.parse.log = [.minor] ∧
      s.parse.objs.length = 1 :=
    ⟨_, rfl, by decide +kernel, by decide +kernel, by decide +kernel, by decide +kernel⟩
  obtain ⟨s, h1, h2, h3, h4, h5⟩ := key
  refine ⟨_, s, h1, h5, h4, fun h hm => ⟨?_, ?_⟩⟩
  · rw [h4]
    simp [Handler.report, Handler.log, hm, Action.raises]
  · have : Dlis.reportSetErrors h.policy s.parse = true := by
      refine c37_set_untold h _ ?_ (by simp [h4])
      rintro ⟨-, n, hn⟩
      rw [h3, ← utf8Decode_iff, utf8Decode, if_neg (by simp)] at hn
      simp [utf8Next] at hn
    simp [Dlis.poolGet, h2, Dlis.ObjectSet.objects, this]

/-- Case: with the default configuration a log is reported up to the critical entry; if critical
errors are only logged, all of it is. -/
example :
    ({} : Handler).report ([.minor, .major, .critical, .info].map .known) =
      ([.logInfo, .logWarning, .raise], true) ∧
    ({ critical := .logError, minor := .swallow } : Handler).report
      ([.minor, .major, .critical, .info].map .known) =
      ([.swallow, .logWarning, .logError, .logDebug], false) ∧
    ({} : Handler).report [.known .info, .unknown, .known .minor] = ([.logDebug], true) := by
  decide

end Dlisio
