/-
Concrete cases for C33, C34 and C36, and where they are violated.
-/
import Mathlib.Data.List.Dedup
import Verif.Dlis.LookupProps
import Verif.Dlis.EflrCase

namespace Dlisio.Dlis.StoreCase

open _root_.Dlisio.Dlis.Spec

/-- Decoding with the given encodings, warnings are not errors. -/
def decWith (encs : List Encoding) (b : Bytes) : PyStr :=
  ((decodeStr encs false b).1).getD (.bytes b)

/-- No classes, an error handler that raises for critical errors, and sets that are
iterated in the order of first insertion (as far as `dedup` keeps it). -/
def envWith (encs : List Encoding) : Env where
  dec := decWith encs
  known := fun _ => false
  policy := fun s => decide (s = .critical)
  order := List.dedup

def env : Env := envWith []

/-- The sets of a file, those that cannot be read are left out. -/
def file (recs : List Bytes) : List ObjectSet := recs.filterMap fun r => (ObjectSet.new r).toOption

theorem file_fresh (recs : List Bytes) : Spec.Fresh (file recs) := by
  intro s hs
  obtain ⟨r, _, hr⟩ := List.mem_filterMap.1 hs
  refine ⟨r, ?_⟩
  cases h : ObjectSet.new r with
  | error e => rw [h] at hr; cases hr
  | ok s' => rw [h] at hr; cases hr; rfl

theorem order_set (encs : List Encoding) : Spec.IsSetOrder (envWith encs).order :=
  fun l => ⟨l.nodup_dedup, fun _ => List.mem_dedup⟩

/-- A set of type "U" with the objects "O" (1, 0) and "Q" (1, 1), and no attributes. -/
def recU : Bytes := [0xf0, 1, 0x55, 0x30, 1, 0x41, 0x70, 1, 0, 1, 0x4f, 0x70, 1, 1, 1, 0x51]

/-- Three sets: of type "T" with "O" (1, 0) and "P" (2, 3), of type "U" with "O" (1, 0) and
"Q" (1, 1), and of type "T" with the same contents as the first. -/
def sets : List ObjectSet := file [EflrCase.bytes, recU, EflrCase.bytes]

/-- Names of the objects that are found. -/
def found (r : Store × Option (List PyObj)) : Option (List (PyStr × PyStr × Nat)) :=
  r.2.map (·.map fun o => (o.type, o.name, o.origin))

def T : PyStr := .str (text "T")
def U : PyStr := .str (text "U")
def O : PyStr := .str (text "O")
def P : PyStr := .str (text "P")
def empty : PyStr := .str []

/-- A matcher that accepts everything. -/
def any : PyMatcher := .other fun _ _ => true

/-- The hypotheses of C33, C34 and C36 hold for this file and these strings. -/
example : (∀ x ∈ sets, Spec.Stable env (env.dec x.type)) ∧ Spec.Stable env T ∧
    Spec.Stable env O ∧ O.isEmpty = false ∧ Spec.raises env .exact T sets = false := by
  unfold Spec.Stable; decide +kernel

/-- C34: the name "O" of any type, after a history and without one. -/
example :
    found ((Spec.after env sets []).find env any T (some O)) =
      some [(U, O, 1), (U, .str (text "Q"), 1), (T, O, 1), (T, O, 1), (T, P, 2), (T, P, 2)] ∧
    found ((Spec.after env sets [.find .exact T (some P), .object U O none none,
        .caching false]).find env any T (some O)) =
      some [(T, O, 1), (T, P, 2), (U, O, 1), (U, .str (text "Q"), 1), (T, O, 1), (T, P, 2)] := by
  decide +kernel

/-- C34: the exact matcher, after a history that has made entries in the cache for a name that
does not exist. -/
example :
    found ((Spec.after env sets [.find .exact T (some U), .clear, .find .exact T (some U),
        .find any U none]).find env .exact T (some P)) = some [(T, P, 2), (T, P, 2)] := by
  decide +kernel

/-- C34 is violated for the empty name: it stands for any name if the cache is off, and for
the empty name if it is on. -/
theorem c34_empty_name_defect : ∃ p, Spec.Fresh p ∧ Spec.Stable env T ∧
    found ((Spec.after env p []).find env .exact T (some empty)) = some [] ∧
    found ((Spec.after env p [.caching false]).find env .exact T (some empty)) =
      some [(T, O, 1), (T, P, 2)] :=
  ⟨file [EflrCase.bytes], file_fresh _, by unfold Spec.Stable; decide +kernel, by decide +kernel,
    by decide +kernel⟩

/-- C34 is violated if the encodings are changed: objects that are in the cache keep the name
that they had, and are not found by the name that they have now.  The object is called "µ"
in ISO 8859-1. -/
theorem c34_encodings_defect :
    let mu : PyStr := .str [0xB5]
    let e := envWith [latin1]
    ∃ p, Spec.Fresh p ∧ Spec.Stable e T ∧ Spec.Stable e mu ∧
      found ((Spec.after e p []).find e .exact T (some mu)) = some [(T, mu, 1)] ∧
      found ((Spec.after env p [.find .exact T none]).find e .exact T (some mu)) = some [] :=
  ⟨file [[0xf0, 1, 0x54, 0x30, 1, 0x41, 0x70, 1, 0, 1, 0xB5]], file_fresh _,
    by unfold Spec.Stable; decide +kernel, by unfold Spec.Stable; decide +kernel,
    by decide +kernel, by decide +kernel⟩

/-- The name of the object that is found, or what went wrong. -/
def outcome (r : Store × Lookup) : Option (PyStr × Nat × Nat) × Bool :=
  match r.2 with
  | .found o => (some (o.name, o.origin, o.copynumber), false)
  | .notFound => (none, false)
  | .ambiguous => (none, true)
  | .raised => (none, false)

/-- C33: "P" exists twice with the same contents; "O" of type "U" is found by its origin, but
not with another copy number. -/
example :
    outcome ((Spec.after env sets []).object env T P none none) = (some (P, 2, 3), false) ∧
    outcome ((Spec.after env sets []).object env U O (some 1) none) = (some (O, 1, 0), false) ∧
    outcome ((Spec.after env sets []).object env U O (some 1) (some 1)) = (none, false) := by
  decide +kernel

/-- Objects "O" (1, 0) and "O" (1, 1). -/
def twoO : List ObjectSet :=
  file [[0xf0, 1, 0x55, 0x30, 1, 0x41, 0x70, 1, 0, 1, 0x4f, 0x70, 1, 1, 1, 0x4f]]

/-- C33: two objects that differ in their copy number. -/
example :
    ((Spec.after env twoO []).object env U O none none).2 = .ambiguous ∧
    outcome ((Spec.after env twoO []).object env U O none (some 1)) = (some (O, 1, 1), false) := by
  decide +kernel

/-- A set with two identical objects "O" (1, 0), whose attribute "A" is the FSINGL NaN. -/
def recNaN : Bytes :=
  [0xf0, 1, 0x54, 0x34, 1, 0x41, 2] ++
  [0x70, 1, 0, 1, 0x4f, 0x21, 0x7f, 0xc0, 0, 0] ++ [0x70, 1, 0, 1, 0x4f, 0x21, 0x7f, 0xc0, 0, 0]

/-- C33 is violated by identical objects with a NaN: they are not equal to each other (nor to
themselves), and the lookup fails. -/
theorem c33_nan_defect : ∃ p o, Spec.Fresh p ∧ Spec.candidates env p T O none none = [o, o] ∧
    ((Spec.after env p []).object env T O none none).2 = .ambiguous := by
  refine ⟨file [recNaN], env.promote ⟨⟨1, 0, [0x4f]⟩, [0x54],
    [{ label := [0x41], reprc := some .fsingl, value := some (.fsingl, [.f32s [0x7fc00000#32]]) }],
    []⟩, file_fresh _, by decide +kernel, by decide +kernel⟩

/-- C33 is violated if the cache is off and the name is empty: an object with another name is
returned. -/
theorem c33_empty_name_defect : ∃ p o, Spec.Fresh p ∧
    ((Spec.after env p [.caching false]).object env T empty (some 1) none).2 = .found o ∧
    o.name = O := by
  refine ⟨file [EflrCase.bytes], env.promote (EflrCase.expected.headD ⟨⟨0, 0, []⟩, [], [], []⟩),
    file_fresh _, by decide +kernel, by decide +kernel⟩

/-- The name of the object that a reference is resolved to. -/
def resolved (r : Store × Resolved) : Option (PyStr × PyStr × Nat × Nat) :=
  match r.2 with
  | .object o => some (o.type, o.name, o.origin, o.copynumber)
  | _ => none

/-- C36: references to "O" (1, 0) of type "T" and of type "U", to an object that does not exist,
and a value that is not a reference. -/
example :
    resolved ((Spec.after env sets []).lookup env (.obname T) (.obname ⟨1, 0, [0x4f]⟩)) =
      some (T, O, 1, 0) ∧
    resolved ((Spec.after env sets []).lookup env .objref (.objref ⟨[0x55], 1, 0, [0x4f]⟩)) =
      some (U, O, 1, 0) ∧
    ((Spec.after env sets []).lookup env (.obname T) (.obname ⟨1, 1, [0x4f]⟩)).2 = .nothing ∧
    ((Spec.after env sets []).lookup env (.obname T) (.int 1 7)).2 = .nothing := by
  decide +kernel

/-- C36 is violated by a reference with an empty name if the cache is off: it is resolved to an
object that has a name. -/
theorem c36_empty_name_defect : ∃ p, Spec.Fresh p ∧
    resolved ((Spec.after env p [.caching false]).lookup env (.obname T) (.obname ⟨1, 0, []⟩)) =
      some (T, O, 1, 0) :=
  ⟨file [EflrCase.bytes], file_fresh _, by decide +kernel⟩

/-- C36 is violated by references that are not of the expected kind and cannot be written down: they
are not resolved to nothing, but raise.  A name that is Latin-1, where an object with its type is
expected, a type that is empty where a name is expected, and a reference to an attribute. -/
theorem c36_kind_defect (s : Store) :
    s.lookup env .objref (.obname ⟨1, 0, [0xe5]⟩) = (s, .raised) ∧
    s.lookup env (.obname T) (.objref ⟨[], ⟨1, 0, [0x4f]⟩⟩) = (s, .raised) ∧
    s.lookup env .objref (.attref ⟨[0x54], ⟨1, 0, [0xe5]⟩, [0x4c]⟩) = (s, .raised) := by
  refine ⟨?_, ?_, ?_⟩ <;> unfold Store.lookup <;> simp only [RefType.run] <;>
    rw [if_neg (by decide +kernel)]

/-- C36 is violated by a name with a NUL: a reference to "O␀Q" is resolved to "O". -/
theorem c36_nul_defect : ∃ p o, Spec.Fresh p ∧
    ((Spec.after env p []).lookup env (.obname T) (.obname ⟨1, 0, [0x4f, 0, 0x51]⟩)).2 =
      .object o ∧ o.attic.name.id = [0x4f] := by
  refine ⟨file [EflrCase.bytes], env.promote (EflrCase.expected.headD ⟨⟨0, 0, []⟩, [], [], []⟩),
    file_fresh _, by decide +kernel, by decide +kernel⟩

end Dlisio.Dlis.StoreCase
