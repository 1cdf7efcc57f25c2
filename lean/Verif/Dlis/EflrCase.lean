/-
A concrete object set for C23 to C28: it is laid out according to the standard, its
template uses defaults, an invariant attribute and an overridden one, one of its
objects has an absent attribute, and one ends early.
-/
import Verif.Dlis.PoolProps

namespace Dlisio.Dlis.EflrCase

/-- template: `A` = 2 USHORT values (5, 6); `B` invariant, IDENT "x"; `C` without
anything but its label -/
def template : List Spec.TAttr :=
  [ { label := [0x41], chars := { count := some 2, reprc := some .ushort,
                                  value := some [.int 1 5, .int 1 6] } },
    { label := [0x42], invariant := true, chars := { value := some [.str [0x78]] } },
    { label := [0x43] } ]

/-- object 1 says one value 7 for `A` and units "m" for `C`; object 2 lacks `A` and says
nothing about `C` -/
def set : Spec.ObjSet where
  role := .set
  type := [0x54]
  name := some [0x4e]
  template := template
  objects :=
    [ { name := ⟨1, 0, [0x4f]⟩,
        comps := [.given { count := some 1, value := some [.int 1 7] },
                  .given { units := some [0x6d] }] },
      { name := ⟨2, 3, [0x50]⟩, comps := [.absent] } ]

def tmplBytes : List Bytes :=
  [[0x3d, 1, 0x41, 2, 15, 5, 6], [0x51, 1, 0x42, 1, 0x78], [0x30, 1, 0x43]]

def objBytes : List Bytes :=
  [[0x70, 1, 0, 1, 0x4f, 0x29, 1, 7, 0x22, 1, 0x6d], [0x70, 2, 3, 1, 0x50, 0x00]]

def bytes : Bytes := [0xf8, 1, 0x54, 1, 0x4e] ++ (tmplBytes.flatten ++ objBytes.flatten)

theorem ident1 (b : Byte) : Spec.Ident [b] [1, b] := ⟨1, rfl, rfl⟩

theorem uvari1 (b : Byte) (h : b.toNat < 128) : Spec.Uvari b.toNat [b] :=
  Or.inl ⟨rfl, by simp [beNat], h⟩

theorem elem1 (b : Byte) : Spec.Enc .ushort (.int 1 b.toNat) [b] := ⟨rfl, by simp [beNat]⟩

theorem template_enc : Spec.Concat Spec.TAttr.Enc template tmplBytes.flatten := by
  refine .cons (e := [0x3d, 1, 0x41, 2, 15, 5, 6]) ?_
    (.cons (e := [0x51, 1, 0x42, 1, 0x78]) ?_ (.cons (e := [0x30, 1, 0x43]) (es := []) ?_ .nil))
  · exact ⟨0x3d, [1, 0x41], [2, 15, 5, 6], rfl, by decide, ident1 _, [2], [15], [], [5, 6], rfl,
      uvari1 2 (by decide), ⟨15, rfl, rfl⟩, rfl, rfl,
      .cons (e := [5]) (elem1 5) (.cons (e := [6]) (elem1 6) .nil)⟩
  · exact ⟨0x51, [1, 0x42], [1, 0x78], rfl, by decide, ident1 _, [], [], [], [1, 0x78], rfl,
      rfl, rfl, rfl, rfl, .cons (e := [1, 0x78]) (es := []) ⟨_, rfl, ident1 _⟩ .nil⟩
  · exact ⟨0x30, [1, 0x43], [], rfl, by decide, ident1 _, [], [], [], [], rfl, rfl, rfl, rfl, rfl⟩

theorem objects_enc : Spec.Concat (Spec.ObjectEnc template) set.objects objBytes.flatten := by
  refine .cons (e := [0x70, 1, 0, 1, 0x4f, 0x29, 1, 7, 0x22, 1, 0x6d]) ?_
    (.cons (e := [0x70, 2, 3, 1, 0x50, 0x00]) (es := []) ?_ .nil)
  · refine ⟨0x70, [1, 0, 1, 0x4f], [0x29, 1, 7, 0x22, 1, 0x6d], rfl, by decide, ?_, ?_⟩
    · exact ⟨[1], [1, 0x4f], 0, uvari1 1 (by decide), rfl, ident1 _, rfl⟩
    · refine ⟨0x29, [1, 7], [0x22, 1, 0x6d], rfl, by decide, ?_, (fun h => by cases h), ?_⟩
      · exact ⟨[1], [], [], [7], rfl, uvari1 1 (by decide), rfl, rfl, rfl,
          .cons (e := [7]) (es := []) (elem1 7) .nil⟩
      · refine ⟨0x22, [1, 0x6d], [], rfl, by decide, ?_, fun _ => Or.inr ⟨rfl, Or.inl rfl⟩,
          rfl, rfl⟩
        exact ⟨[], [], [1, 0x6d], [], rfl, rfl, rfl, ident1 _, rfl⟩
  · refine ⟨0x70, [2, 3, 1, 0x50], [0x00], rfl, by decide, ?_, ?_⟩
    · exact ⟨[2], [1, 0x50], 3, uvari1 2 (by decide), rfl, ident1 _, rfl⟩
    · exact ⟨0x00, [], rfl, by decide, rfl⟩

/-- The hypothesis of C24 holds for this record. -/
theorem bytes_enc : Spec.ObjSetEnc set bytes :=
  ⟨[0xf8, 1, 0x54, 1, 0x4e], tmplBytes.flatten, objBytes.flatten, rfl,
    ⟨0xf8, [1, 0x54], [1, 0x4e], 7, rfl, rfl, by decide, ident1 _, ident1 _⟩,
    template_enc, objects_enc, Or.inl (by decide), by decide⟩

/-- What the two objects are. -/
def expected : List BasicObject :=
  [ { name := ⟨1, 0, [0x4f]⟩, type := [0x54], log := [],
      attributes :=
        [ { label := [0x41], count := 1, reprc := some .ushort, value := some (.ushort, [.int 1 7]) },
          { label := [0x42], value := some (.ident, [.str [0x78]]), invariant := true },
          { label := [0x43], units := [0x6d], value := some (.ident, [.str []]) } ] },
    { name := ⟨2, 3, [0x50]⟩, type := [0x54], log := [],
      attributes :=
        [ { label := [0x42], value := some (.ident, [.str [0x78]]), invariant := true },
          { label := [0x43] } ] } ]

/-- C23, C24: the values that the specification gives to the set. -/
example : set.values = expected := by decide +kernel

/-- The record as dlisio sees it. -/
def parsed : Option ObjectSet := (ObjectSet.new bytes).toOption

/-- C24, run on the model. -/
example : parsed.map (·.parse.objs) = some expected ∧ parsed.map (·.parse.log) = some [] := by
  decide +kernel

/-- C25: a second object that breaks off in a set component; the first one is kept and a
critical error is recorded. -/
example :
    ((ObjectSet.new (bytes.take 31 ++ [0x70, 2, 3, 1, 0x50, 0xf0])).toOption.map fun s =>
      (s.parse.objs, s.parse.log, s.parse.undefined)) =
      some (expected.take 1, [.critical], false) := by decide +kernel

/-- C28: two sets, of which the first is damaged; a query for the type of the second
gives its objects, a query for both that does not raise gives all of them. -/
example :
    (do
      let a ← (ObjectSet.new [0xf0, 1, 0x55, 0x3c]).toOption
      let b ← parsed
      (poolGet (fun a b => decide (a = b)) (fun s => decide (s = .critical)) [0x54] none [a, b]).2) =
      some expected ∧
    (do
      let a ← (ObjectSet.new (bytes.take 31 ++ [0xf0])).toOption
      let b ← parsed
      (poolGet (fun a b => decide (a = b)) (fun _ => false) [0x54] (some [0x4f]) [a, b]).2) =
      some (expected.take 1 ++ expected.take 1) := by decide +kernel

/-- C57, for records that are laid out according to the standard: parsing stays inside the
record.  Missing: records that are not, where it does not (the next theorem). -/
theorem c57_in_bounds_partial (s : Spec.ObjSet) (bs : Bytes) (h : Spec.ObjSetEnc s bs) :
    ∃ set, ObjectSet.new bs = .ok set ∧ set.parse.undefined = false := by
  obtain ⟨set, h1, _, _, _, _, _, _, _, _, h2⟩ := c24_parse s bs h
  exact ⟨set, h1, h2⟩

/-- The parser does not check that values end inside the record: a set whose type is
said to be longer than the record is read past its end. -/
theorem c57_reads_past_record_defect :
    ObjectSet.new [0xf0, 5, 0x54] = .error .outOfBounds ∧
    (∃ s, ObjectSet.new (bytes.take 20 ++ [0x70, 1, 0, 9]) = .ok s ∧ s.parse.undefined = true) := by
  refine ⟨by decide +kernel, ?_⟩
  cases h : ObjectSet.new (bytes.take 20 ++ [0x70, 1, 0, 9]) with
  | error e =>
    have : ((ObjectSet.new (bytes.take 20 ++ [0x70, 1, 0, 9])).toOption).isSome = true := by
      decide +kernel
    rw [h] at this
    cases this
  | ok s =>
    refine ⟨s, rfl, ?_⟩
    have : ((ObjectSet.new (bytes.take 20 ++ [0x70, 1, 0, 9])).toOption.map
        (·.parse.undefined)) = some true := by decide +kernel
    rw [h] at this
    simpa [Except.toOption] using this

end Dlisio.Dlis.EflrCase
