/-
What an object set is and how it is laid out in a record, after RP66 V1, chapter 3.2
("Explicitly Formatted Logical Record"), independently of the parser.
-/
import Verif.Dlis.Eflr
import Verif.Dlis.ValueProps

namespace Dlisio.Dlis.Spec

/-- The characteristics that are written after the descriptor (and label) of an
attribute component; `none` is a characteristic that is left out. -/
structure Chars where
  count : Option Nat := none
  reprc : Option Reprc := none
  units : Option Bytes := none
  value : Option (List Val) := none

/-- The values one after the other, in representation code `c`. -/
inductive Elements (c : Reprc) : List Val → Bytes → Prop
  | nil : Elements c [] []
  | cons {v vs e es} : Enc c v e → Elements c vs es → Elements c (v :: vs) (e ++ es)

/-- `bs` are the bytes of the characteristics `w`, where `n` and `c` are the count and
representation code in force (written or inherited).  The order is count,
representation code, units, value. -/
def CharsEnc (w : Chars) (n : Nat) (c : Reprc) (bs : Bytes) : Prop :=
  ∃ bc br bu bv, bs = bc ++ (br ++ (bu ++ bv)) ∧
    (match w.count with | none => bc = [] | some k => Uvari k bc) ∧
    (match w.reprc with | none => br = [] | some k => ∃ b : Byte, br = [b] ∧ b.toNat = k.code) ∧
    (match w.units with | none => bu = [] | some u => Ident u bu) ∧
    (match w.value with | none => bv = [] | some vs => vs.length = n ∧ Elements c vs bv)

/-- The descriptor of an attribute component: role in the three high bits, then one
bit each for label, count, representation code, units and value. -/
def descriptor (role : Nat) (label : Bool) (w : Chars) : Nat :=
  32 * role + 16 * label.toNat + 8 * w.count.isSome.toNat + 4 * w.reprc.isSome.toNat +
    2 * w.units.isSome.toNat + w.value.isSome.toNat

/-! ### Template -/

/-- An attribute of the template. -/
structure TAttr where
  label : Bytes
  invariant : Bool := false
  chars : Chars := {}

namespace TAttr
variable (t : TAttr)

/-- the count is 1 unless it is written -/
def count : Nat := t.chars.count.getD 1
/-- the representation code is IDENT unless it is written -/
def code : Reprc := t.chars.reprc.getD .ident
/-- the units are empty unless they are written -/
def units : Bytes := t.chars.units.getD []
/-- there is no value when the count is zero or none is written -/
def value : Option (List Val) := if t.count = 0 then none else t.chars.value

/-- The attribute that an object has when it does not say anything about it. -/
def attr : ObjAttr :=
  { label := t.label, count := t.count, reprc := some t.code, units := t.units,
    value := t.value.map fun vs => (t.code, vs), invariant := t.invariant, log := [] }

/-- The count is the number of values. -/
def WF : Prop := ∀ vs, t.chars.value = some vs → vs.length = t.count

/-- The bytes of a template attribute; the roles are ATTRIB (1) and INVATR (2). -/
def Enc (bs : Bytes) : Prop :=
  ∃ (d : Byte) (bl bw : Bytes), bs = d :: (bl ++ bw) ∧
    d.toNat = descriptor (if t.invariant then 2 else 1) true t.chars ∧
    Ident t.label bl ∧ CharsEnc t.chars t.count t.code bw

end TAttr

/-! ### Objects -/

/-- An attribute component of an object. -/
inductive Comp where
  | absent
  | given (w : Chars)

/-- The zero of a representation code: the number 0 or the empty string, component by
component. -/
def zero : Reprc → Val
  | .fshort => .f32v (.num 0)
  | .fsingl => .f32s [0]
  | .fsing1 => .f32s [0, 0]
  | .fsing2 => .f32s [0, 0, 0]
  | .isingl => .f32s [0]
  | .vsingl => .f32v (.num 0)
  | .fdoubl => .f64s [0]
  | .fdoub1 => .f64s [0, 0]
  | .fdoub2 => .f64s [0, 0, 0]
  | .csingl => .f32s [0, 0]
  | .cdoubl => .f64s [0, 0]
  | .sshort => .int 1 0
  | .snorm => .int 2 0
  | .slong => .int 4 0
  | .ushort => .int 1 0
  | .unorm => .int 2 0
  | .ulong => .int 4 0
  | .uvari => .int 4 0
  | .ident => .str []
  | .ascii => .str []
  | .dtime => .dtime ⟨0, 0, 0, 0, 0, 0, 0, 0⟩
  | .origin => .int 4 0
  | .obname => .obname ⟨0, 0, []⟩
  | .objref => .objref ⟨[], ⟨0, 0, []⟩⟩
  | .attref => .attref ⟨[], ⟨0, 0, []⟩, []⟩
  | .status => .int 1 0
  | .units => .str []

section
variable (t : TAttr) (w : Chars)

/-- the count in force -/
def ownCount : Nat := w.count.getD t.count
/-- the representation code in force -/
def ownCode : Reprc := w.reprc.getD t.code
/-- the units in force -/
def ownUnits : Bytes := w.units.getD t.units
/-- The value in force: none when the count is zero, else the written one, else that
of the template; when there is none, `count` times the zero of the code. -/
def ownValue : Option (List Val) :=
  if ownCount t w = 0 then none
  else match w.value, t.value with
    | some vs, _ => some vs
    | none, some vs => some vs
    | none, none => some (List.replicate (ownCount t w) (zero (ownCode t w)))

/-- The attribute that results from a component. -/
def ownAttr : ObjAttr :=
  { label := t.label, count := ownCount t w, reprc := some (ownCode t w),
    units := ownUnits t w, value := (ownValue t w).map fun vs => (ownCode t w, vs),
    invariant := t.invariant, log := [] }

/-- A component that leaves out the value does not change the count and the code under
the value that it inherits, nor the code of the zeros. -/
def Legal : Prop :=
  w.value = none → ownCount t w = 0 ∨
    (ownCode t w = t.code ∧ (t.value = none ∨ ownCount t w = t.count))
end

/-- The attributes of an object: its components belong, in order, to the attributes
of the template that are not invariant. -/
def objAttrs : List TAttr → List Comp → List ObjAttr
  | [], _ => []
  | t :: ts, cs =>
    if t.invariant then t.attr :: objAttrs ts cs
    else match cs with
      | [] => t.attr :: objAttrs ts []
      | .absent :: cs => objAttrs ts cs
      | .given w :: cs => ownAttr t w :: objAttrs ts cs

/-- The bytes of the components of an object. -/
def CompsEnc : List TAttr → List Comp → Bytes → Prop
  | [], cs, bs => cs = [] ∧ bs = []
  | t :: ts, cs, bs =>
    if t.invariant then CompsEnc ts cs bs
    else match cs with
      | [] => bs = []
      | .absent :: cs => ∃ (d : Byte) (rest : Bytes), bs = d :: rest ∧ d.toNat / 32 = 0 ∧
          CompsEnc ts cs rest
      | .given w :: cs => ∃ (d : Byte) (bw rest : Bytes), bs = d :: (bw ++ rest) ∧
          d.toNat = descriptor 1 false w ∧ CharsEnc w (ownCount t w) (ownCode t w) bw ∧
          Legal t w ∧ CompsEnc ts cs rest

/-- An object: its name and components. -/
structure Object where
  name : Dlis.Obname
  comps : List Comp

/-- The bytes of an object: an OBJECT (3) component with the name bit, the name, the
components.  The four low bits of the descriptor are reserved. -/
def ObjectEnc (ts : List TAttr) (o : Object) (bs : Bytes) : Prop :=
  ∃ (d : Byte) (bn bc : Bytes), bs = d :: (bn ++ bc) ∧ d.toNat / 16 = 2 * 3 + 1 ∧
    Spec.Obname o.name.origin o.name.copy o.name.id bn ∧ CompsEnc ts o.comps bc

/-! ### Sets -/

/-- An object set. -/
structure ObjSet where
  role : Role
  type : Bytes
  name : Option Bytes
  template : List TAttr
  objects : List Object

/-- Number of the role in the descriptor of a set component. -/
def setRole : Role → Option Nat
  | .rdset => some 5
  | .rset => some 6
  | .set => some 7
  | _ => none

/-- The bytes of the items one after the other. -/
inductive Concat {α : Type} (enc : α → Bytes → Prop) : List α → Bytes → Prop
  | nil : Concat enc [] []
  | cons {a as e es} : enc a e → Concat enc as es → Concat enc (a :: as) (e ++ es)

/-- The bytes of the set component: role, type bit, name bit, three reserved bits;
type, name. -/
def SetEnc (s : ObjSet) (bs : Bytes) : Prop :=
  ∃ (d : Byte) (bt bn : Bytes) (r : Nat), bs = d :: (bt ++ bn) ∧
    setRole s.role = some r ∧ d.toNat / 8 = 4 * r + 2 + s.name.isSome.toNat ∧
    Ident s.type bt ∧ (match s.name with | none => bn = [] | some n => Ident n bn)

/-- The bytes of an object set: set component, template, objects.  Template and
objects are not both empty, and the labels in the template are distinct. -/
def ObjSetEnc (s : ObjSet) (bs : Bytes) : Prop :=
  ∃ b₁ b₂ b₃, bs = b₁ ++ (b₂ ++ b₃) ∧ SetEnc s b₁ ∧ Concat TAttr.Enc s.template b₂ ∧
    Concat (ObjectEnc s.template) s.objects b₃ ∧
    (s.template ≠ [] ∨ s.objects ≠ []) ∧ (s.template.map TAttr.label).Nodup

/-- An object of a set of the given type and template, as dlisio presents it. -/
def objectValue (type : Bytes) (ts : List TAttr) (o : Object) : BasicObject :=
  { name := o.name, type := type, attributes := objAttrs ts o.comps, log := [] }

/-- The objects of the set, as dlisio presents them. -/
def ObjSet.values (s : ObjSet) : List BasicObject :=
  s.objects.map (objectValue s.type s.template)

end Dlisio.Dlis.Spec
