import Verif.UserLog
import Verif.Tapemark
import Mathlib.Data.Nat.Bitwise
/-
What Python shows of references, marks, headers and records (`__repr__`, python/dlisio/ext/dlis.cpp:801-807,
826-829, 855-862 and 903-906, ext/core.cpp:188-191 and ext/lis.cpp:693-756).  C97.
-/
namespace Dlisio

open _root_.Dlisio.Lis (literalChars)
open _root_.Dlisio.Dlis (pyFormat ofNat_digits ofNat_injective)

/-! ## Model -/

/-- `basic_object.__repr__`, ext/dlis.cpp:903-906; `none` if it raises. -/
def Dlis.objectRepr (n : Dlis.Obname) : Option Text :=
  (utf8Decode n.id).map fun id => pyFormat (text "dlisio.core.basic_object(name={})")
    [pyFormat (text "dlisio.core.obname(id='{}', origin={}, copynum={})")
      [id, Text.ofNat n.origin, Text.ofNat n.copy]]

/-- `tapemark.__repr__`, ext/core.cpp:188-191 -/
def Tapemark.repr (x : Tapemark) : Text :=
  pyFormat (text "dlisio.core.tapemark(type={}, prev={}, next={})")
    [Text.ofNat x.type.toNat, Text.ofNat x.prev.toNat, Text.ofNat x.next.toNat]

/-- `str` of a `bool`. -/
def boolText (b : Bool) : Text := if b then text "True" else text "False"

/-- `prheader.__repr__`, ext/lis.cpp:704-712, with `predces` and `succses` of protocol.hpp:63-64. -/
def Lis.Prh.repr (x : Lis.Prh) : Text :=
  pyFormat (text "dlisio.core.prheader(length={}, pred={}, succ={})")
    [Text.ofNat x.length.toNat, boolText (x.attributes &&& 2 ≠ 0), boolText (x.attributes &&& 1 ≠ 0)]

/-- The names of record types, ext/lis.cpp:571-604 with the numbers of protocol.hpp:87-123. -/
def Lis.rectypeNames : List (Nat × String) :=
  [(0, "normal_data"), (1, "alternate_data"), (32, "job_identification"), (34, "wellsite_data"),
    (39, "tool_string_info"), (42, "enc_table_dump"), (47, "table_dump"), (64, "data_format_spec"),
    (65, "data_descriptor"), (95, "tu10_software_boot"), (96, "bootstrap_loader"),
    (97, "cp_kernel_loader"), (100, "prog_file_header"), (101, "prog_overlay_header"),
    (102, "prog_overlay_load"), (128, "file_header"), (129, "file_trailer"), (130, "tape_header"),
    (131, "tape_trailer"), (132, "reel_header"), (133, "reel_trailer"), (137, "logical_eof"),
    (138, "logical_bot"), (139, "logical_eot"), (141, "logical_eom"), (224, "op_command_inputs"),
    (225, "op_response_inputs"), (227, "system_outputs"), (232, "flic_comment"), (234, "blank_record"),
    (85, "picture"), (86, "image")]

/-- `str` of a record type: the `__str__` that pybind11 gives to `py::enum_`, ext/lis.cpp:571. -/
def Lis.rectypeText (t : Nat) : Text :=
  text "lis_rectype." ++
    match Lis.rectypeNames.lookup t with
    | some n => text n
    | none => text "???"

/-- `record_info.__repr__`, ext/lis.cpp:716-720 -/
def Lis.RecordInfo.repr (x : Lis.RecordInfo) : Text :=
  pyFormat (text "dlisio.core.record_info(type={}, ltell={})") [Lis.rectypeText x.type, Text.ofNat x.ltell]

/-- `record.__repr__`, ext/lis.cpp:728-732, of a record with this many bytes of data. -/
def Lis.RecordInfo.recordRepr (x : Lis.RecordInfo) (size : Nat) : Text :=
  pyFormat (text "dlisio.core.record(type={}, ltell={}, size={})")
    [Lis.rectypeText x.type, Text.ofNat x.ltell, Text.ofNat size]

/-- `record_index.__repr__`, ext/lis.cpp:752-756, of an index of this many records. -/
def Lis.indexRepr (n : Nat) : Text := pyFormat (text "dlisio.core.record_info(size={})") [Text.ofNat n]

/-! ## Specification -/

/-- A reference, and not a number, a text or a date. -/
def Spec.IsReference (v : Dlis.Val) : Prop :=
  (∃ n, v = .obname n) ∨ (∃ r, v = .objref r) ∨ ∃ r, v = .attref r

/-- References that can be told apart: types are plain text without `-I.` in references to objects, and without
quotes in references to attributes; names are plain text. -/
inductive Spec.Clear : Dlis.Val → Prop
  | obname (n : Dlis.Obname) : Clear (.obname n)
  | objref (r : Dlis.Objref) : Dlis.Spec.PlainText r.type → Dlis.Spec.PlainText r.name.id → r.type ≠ [] →
      (¬ ∃ p q, r.type = p ++ Dlis.Spec.Fingerprint.ascii "-I." ++ q) → Clear (.objref r)
  | attref (r : Dlis.Attref) : 0x27 ∉ r.type → Clear (.attref r)

/-- The same but for the label of an attribute. -/
inductive Spec.Alike : Dlis.Val → Dlis.Val → Prop
  | obname (n : Dlis.Obname) : Alike (.obname n) (.obname n)
  | objref (r : Dlis.Objref) : Alike (.objref r) (.objref r)
  | attref (t : Bytes) (n : Dlis.Obname) (l l' : Bytes) : Alike (.attref ⟨t, n, l⟩) (.attref ⟨t, n, l'⟩)

/-- The names of the types of records. -/
def Spec.typeNamed : Nat → Option String
  | 0 => some "normal_data"
  | 1 => some "alternate_data"
  | 32 => some "job_identification"
  | 34 => some "wellsite_data"
  | 39 => some "tool_string_info"
  | 42 => some "enc_table_dump"
  | 47 => some "table_dump"
  | 64 => some "data_format_spec"
  | 65 => some "data_descriptor"
  | 85 => some "picture"
  | 86 => some "image"
  | 95 => some "tu10_software_boot"
  | 96 => some "bootstrap_loader"
  | 97 => some "cp_kernel_loader"
  | 100 => some "prog_file_header"
  | 101 => some "prog_overlay_header"
  | 102 => some "prog_overlay_load"
  | 128 => some "file_header"
  | 129 => some "file_trailer"
  | 130 => some "tape_header"
  | 131 => some "tape_trailer"
  | 132 => some "reel_header"
  | 133 => some "reel_trailer"
  | 137 => some "logical_eof"
  | 138 => some "logical_bot"
  | 139 => some "logical_eot"
  | 141 => some "logical_eom"
  | 224 => some "op_command_inputs"
  | 225 => some "op_response_inputs"
  | 227 => some "system_outputs"
  | 232 => some "flic_comment"
  | 234 => some "blank_record"
  | _ => none

/-- Python's name of a truth value. -/
inductive Spec.Truth : Prop → Text → Prop
  | yes {p : Prop} : p → Truth p (text "True")
  | no {p : Prop} : ¬ p → Truth p (text "False")

/-! ## Lemmas -/

theorem first_split {α : Type} {c : α} {a b x y : List α} (ha : c ∉ a) (hb : c ∉ b)
    (h : a ++ c :: x = b ++ c :: y) : a = b ∧ x = y := by
  induction a generalizing b with
  | nil =>
    cases b with
    | nil => exact ⟨rfl, by simpa using h⟩
    | cons d b =>
      simp only [List.nil_append, List.cons_append, List.cons.injEq] at h
      exact absurd (by simp [h.1]) hb
  | cons d a ih =>
    cases b with
    | nil =>
      simp only [List.nil_append, List.cons_append, List.cons.injEq] at h
      exact absurd (by simp [h.1]) ha
    | cons d' b =>
      simp only [List.cons_append, List.cons.injEq] at h
      obtain ⟨rfl, h2⟩ := ih (fun hm => ha (by simp [hm])) (fun hm => hb (by simp [hm])) h.2
      exact ⟨by rw [h.1], h2⟩

theorem last_split {α : Type} {c : α} {a b x y : List α} (hx : c ∉ x) (hy : c ∉ y)
    (h : a ++ c :: x = b ++ c :: y) : a = b ∧ x = y := by
  have h' := congrArg List.reverse h
  simp only [List.reverse_append, List.reverse_cons, List.append_assoc, List.singleton_append] at h'
  obtain ⟨h1, h2⟩ := first_split (by simpa using hx) (by simpa using hy) h'
  exact ⟨List.reverse_injective h2, List.reverse_injective h1⟩

theorem not_in_number {c : Nat} (hc : ¬ (48 ≤ c ∧ c ≤ 57)) (n : Nat) : c ∉ Text.ofNat n :=
  fun h => hc (ofNat_digits n c h)

theorem utf8_injective {a b : Bytes} {t : Text} (ha : utf8Decode a = some t) (hb : utf8Decode b = some t) :
    a = b := by
  have h1 := ((utf8Decode_iff _ _).1 ha).2
  have h2 := ((utf8Decode_iff _ _).1 hb).2
  exact List.map_injective_iff.2 (fun x y h => BitVec.eq_of_toNat_eq h) (h1.trans h2.symm)

theorem ascii_of_text {b : Bytes} {t : Text} (h : utf8Decode b = some t) {c : Byte} (hc : c.toNat < 0x80)
    (hb : c ∉ b) : c.toNat ∉ t := by
  intro hm
  have h2 := ((utf8Decode_iff _ _).1 h).2
  have : c.toNat ∈ b.map (·.toNat) := by
    rw [h2]
    exact List.mem_flatMap.2 ⟨_, hm, by simp [Spec.utf8Char, hc]⟩
  obtain ⟨d, hd, he⟩ := List.mem_map.1 this
  exact hb (BitVec.eq_of_toNat_eq he ▸ hd)

namespace Dlis

theorem written_of {e : Env} (other : PyVal → Text) (c : Reprc) {v : Val} (hv : Dlisio.Spec.IsReference v) {t : Text}
    (h : v.reprText e other c = some t) : Spec.WrittenAs e v t := by
  have hw : Spec.Writable v := by
    rw [← reprOk_iff]
    rcases hv with ⟨n, rfl⟩ | ⟨r, rfl⟩ | ⟨r, rfl⟩
    · simp only [Val.reprText] at h
      cases hu : utf8Decode n.id with
      | none => rw [hu] at h; cases h
      | some _ => simp [Val.reprOk, hu]
    · simp only [Val.reprText] at h
      cases hu : fingerprint r.type r.name.id r.name.origin r.name.copy with
      | none => rw [hu] at h; cases h
      | some _ => simp [Val.reprOk, hu]
    · simp only [Val.reprText] at h
      cases hu : utf8Decode r.name.id with
      | none => rw [hu] at h; cases h
      | some _ =>
        cases hu' : utf8Decode r.type with
        | none => rw [hu, hu'] at h; cases h
        | some _ => simp [Val.reprOk, hu, hu']
  obtain ⟨t', h1, h2⟩ := reprText_eq (e := e) other c hv hw
  rw [h] at h1
  cases h1
  exact h2

theorem obname_split {p q i i' : Text} {o k o' k' : Nat}
    (h : p ++ i ++ text "', origin=" ++ Text.ofNat o ++ text ", copynum=" ++ Text.ofNat k ++ q =
      p ++ i' ++ text "', origin=" ++ Text.ofNat o' ++ text ", copynum=" ++ Text.ofNat k' ++ q) :
    i = i' ∧ o = o' ∧ k = k' := by
  have a1 : text "', origin=" = text "', origin" ++ [61] := by simp only [text, literalChars]; rfl
  have a2 : text ", copynum=" = text ", copynum" ++ [61] := by simp only [text, literalChars]; rfl
  have hn : ∀ n, 61 ∉ Text.ofNat n := not_in_number (by decide)
  rw [a1, a2] at h
  have h := List.append_cancel_right h
  have h : (p ++ i ++ text "', origin" ++ 61 :: Text.ofNat o) ++ text ", copynum" ++ 61 :: Text.ofNat k =
      (p ++ i' ++ text "', origin" ++ 61 :: Text.ofNat o') ++ text ", copynum" ++ 61 :: Text.ofNat k' := by
    simpa only [List.append_assoc, List.singleton_append, List.cons_append, List.nil_append] using h
  obtain ⟨h1, h2⟩ := last_split (hn _) (hn _) h
  obtain ⟨h3, h4⟩ := last_split (hn _) (hn _) (List.append_cancel_right h1)
  have h3 := List.append_cancel_left (List.append_cancel_right h3)
  exact ⟨h3, ofNat_injective h4, ofNat_injective h2⟩

theorem attref_split {p i i' ty ty' : Text} {o k o' k' : Nat} (hq : 39 ∉ ty) (hq' : 39 ∉ ty')
    (h : p ++ i ++ text "', origin=" ++ Text.ofNat o ++ text ", copynum=" ++ Text.ofNat k ++ text ", type=" ++ ty ++
        text ")" =
      p ++ i' ++ text "', origin=" ++ Text.ofNat o' ++ text ", copynum=" ++ Text.ofNat k' ++ text ", type=" ++ ty' ++
        text ")") :
    i = i' ∧ o = o' ∧ k = k' ∧ ty = ty' := by
  have a1 : text "', origin=" = 39 :: text ", origin=" := by simp only [text, literalChars]; rfl
  have a2 : text ", copynum=" = 44 :: text " copynum=" := by simp only [text, literalChars]; rfl
  have a3 : text ", type=" = 44 :: text " type=" := by simp only [text, literalChars]; rfl
  have b1 : 39 ∉ text ", origin=" := by simp only [text, literalChars]; decide
  have b2 : 39 ∉ text " copynum=" := by simp only [text, literalChars]; decide
  have b3 : 39 ∉ text " type=" := by simp only [text, literalChars]; decide
  have hn : ∀ n, 39 ∉ Text.ofNat n := not_in_number (by decide)
  have hc : ∀ n, 44 ∉ Text.ofNat n := not_in_number (by decide)
  rw [a1, a2, a3] at h
  have h := List.append_cancel_right h
  simp only [List.append_assoc, List.cons_append] at h
  have h := List.append_cancel_left h
  have hmem : ∀ o k ty, 39 ∉ ty → 39 ∉ text ", origin=" ++ (Text.ofNat o ++ 44 :: (text " copynum=" ++
      (Text.ofNat k ++ 44 :: (text " type=" ++ ty)))) := by
    intro o k ty hty
    simp [List.mem_append, b1, b2, b3, hn, hty]
  obtain ⟨h1, h2⟩ := last_split (hmem _ _ _ hq) (hmem _ _ _ hq') h
  obtain ⟨h3, h4⟩ := first_split (hc _) (hc _) (List.append_cancel_left h2)
  obtain ⟨h5, h6⟩ := first_split (hc _) (hc _) (List.append_cancel_left h4)
  exact ⟨h1, ofNat_injective h3, ofNat_injective h5, List.append_cancel_left h6⟩

/-! ## Theorems -/

/-- C97: references that are written in the same way are the same, but for labels.  Missing: objects whose
type has `-I.` in it or whose type or name is not plain text, attributes whose type has a quote in it, and the
labels of attributes; it is false then (`c97_objref_defect`, `c97_quote_defect`, `c97_label_defect`). -/
theorem c97_references_partial (e : Env) (hd : Spec.ReadsUtf8 e.dec) (other : PyVal → Text) (c c' : Reprc)
    (v v' : Val) (hv : Dlisio.Spec.Clear v) (hv' : Dlisio.Spec.Clear v') (t : Text)
    (h : v.reprText e other c = some t) (h' : v'.reprText e other c' = some t) : Dlisio.Spec.Alike v v' := by
  have hr : ∀ v, Dlisio.Spec.Clear v → Dlisio.Spec.IsReference v := by
    rintro v (n | r | r)
    · exact .inl ⟨_, rfl⟩
    · exact .inr (.inl ⟨_, rfl⟩)
    · exact .inr (.inr ⟨_, rfl⟩)
  have g := written_of other c (hr v hv) h
  have g' := written_of other c' (hr v' hv') h'
  have k1 : ∀ x y, text "dlisio.core.obname(id='" ++ x ≠ text "dlisio.core.objref(fingerprint=" ++ y := by
    intro x y; simp [text]
  have k2 : ∀ x y, text "dlisio.core.obname(id='" ++ x ≠ text "dlisio.core.attref(id='" ++ y := by
    intro x y; simp [text]
  have k3 : ∀ x y, text "dlisio.core.objref(fingerprint=" ++ x ≠ text "dlisio.core.attref(id='" ++ y := by
    intro x y; simp [text]
  cases g with
  | obname n id hid =>
    generalize hx : (text "dlisio.core.obname(id='" ++ id ++ text "', origin=" ++
        Text.ofNat n.origin ++ text ", copynum=" ++ Text.ofNat n.copy ++ text ")") = x at g'
    cases g' with
    | obname n' id' hid' =>
      obtain ⟨rfl, h2, h3⟩ := obname_split hx
      obtain ⟨o, k, i⟩ := n
      obtain ⟨o', k', i'⟩ := n'
      simp only at h2 h3 hid hid'
      subst h2 h3
      obtain rfl := utf8_injective hid hid'
      exact .obname _
    | objref r fp hfp => simp only [List.append_assoc] at hx; exact absurd hx (k1 _ _)
    | attref r id' ty h1 h2 => simp only [List.append_assoc] at hx; exact absurd hx (k2 _ _)
  | objref r fp hfp =>
    generalize hx : (text "dlisio.core.objref(fingerprint=" ++ (e.dec fp).shown ++ text ")") = x at g'
    cases g' with
    | obname n' id' hid' => simp only [List.append_assoc] at hx; exact absurd hx.symm (k1 _ _)
    | objref r' fp' hfp' =>
      cases hv with | objref _ p1 p2 p3 p4 =>
      cases hv' with | objref _ q1 q2 q3 q4 =>
      have hx := List.append_cancel_left (List.append_cancel_right hx)
      obtain ⟨z, u, hu⟩ := plain_fingerprint p1 p2 hfp
      obtain ⟨z', u', hu'⟩ := plain_fingerprint q1 q2 hfp'
      rw [hd _ _ hu z, hd _ _ hu' z'] at hx
      obtain rfl : u = u' := hx
      obtain rfl := utf8_injective ((utf8Decode_iff _ _).2 hu) ((utf8Decode_iff _ _).2 hu')
      have h1 := (c22_text _ _ _ _ p3 _).2 hfp
      have h2 := (c22_text _ _ _ _ q3 _).2 hfp'
      obtain ⟨r1, r2, r3, r4⟩ := c22_types_partial _ _ _ _ _ _ _ _ p3 q3 p4 q4 (h1.trans h2.symm)
      obtain ⟨t1, ⟨o, k, i⟩⟩ := r
      obtain ⟨t2, ⟨o', k', i'⟩⟩ := r'
      simp only at r1 r2 r3 r4
      subst r1 r2 r3 r4
      exact .objref _
    | attref r id' ty h1 h2 => simp only [List.append_assoc] at hx; exact absurd hx (k3 _ _)
  | attref r id ty hid hty =>
    generalize hx : (text "dlisio.core.attref(id='" ++ id ++ text "', origin=" ++
        Text.ofNat r.name.origin ++ text ", copynum=" ++ Text.ofNat r.name.copy ++ text ", type=" ++ ty ++
        text ")") = x at g'
    cases g' with
    | obname n' id' hid' => simp only [List.append_assoc] at hx; exact absurd hx.symm (k2 _ _)
    | objref r fp hfp => simp only [List.append_assoc] at hx; exact absurd hx.symm (k3 _ _)
    | attref r' id' ty' hid' hty' =>
      cases hv with | attref _ p1 =>
      cases hv' with | attref _ q1 =>
      obtain ⟨rfl, h2, h3, rfl⟩ := attref_split (ascii_of_text hty (by decide) p1)
        (ascii_of_text hty' (by decide) q1) hx
      obtain ⟨t1, ⟨o, k, i⟩, l⟩ := r
      obtain ⟨t2, ⟨o', k', i'⟩, l'⟩ := r'
      simp only at h2 h3 hid hid' hty hty'
      subst h2 h3
      obtain rfl := utf8_injective hid hid'
      obtain rfl := utf8_injective hty hty'
      exact .attref _ _ _ _

/-- C97: a reference can be written down exactly if its name, and its type if it is one to an attribute, are
UTF-8, or its type is not empty if it is one to an object. -/
theorem c97_written (e : Env) (other : PyVal → Text) (c : Reprc) (v : Val) (hv : Dlisio.Spec.IsReference v) :
    (∃ t, v.reprText e other c = some t) ↔ Spec.Writable v := by
  constructor
  · rintro ⟨t, h⟩
    have g := written_of other c hv h
    cases g with
    | obname n id hid => exact ⟨id, hid⟩
    | objref r fp hfp =>
      intro ht
      simp [Val.reprText, fingerprint, fingerprintSize, ht] at h
    | attref r id ty h1 h2 => exact ⟨⟨id, h1⟩, ty, h2⟩
  · intro hw
    obtain ⟨t, ht, -⟩ := reprText_eq (e := e) other c hv hw
    exact ⟨t, ht⟩

/-- C97 is violated: references to attributes of the same object are written in the same way. -/
theorem c97_label_defect (e : Env) (other : PyVal → Text) (c : Reprc) (t : Bytes) (n : Obname) (l l' : Bytes) :
    (Val.attref ⟨t, n, l⟩).reprText e other c = (Val.attref ⟨t, n, l'⟩).reprText e other c := rfl

/-- C97 is violated: an object of type `a-I.b` named `i`, and one of type `a` named `b-I.i`. -/
theorem c97_objref_defect (e : Env) (other : PyVal → Text) (c : Reprc) (a b i : Bytes) (o k : Nat) (ha : a ≠ []) :
    (Val.objref ⟨a ++ Spec.Fingerprint.ascii "-I." ++ b, ⟨o, k, i⟩⟩).reprText e other c =
      (Val.objref ⟨a, ⟨o, k, b ++ Spec.Fingerprint.ascii "-I." ++ i⟩⟩).reprText e other c := by
  simp only [Val.reprText, c22_types_defect a b i o k ha]

/-- C97 is violated: the type of an attribute is not quoted. -/
theorem c97_quote_defect (e : Env) (other : PyVal → Text) (c : Reprc) (l : Bytes) :
    let m := Spec.Fingerprint.ascii "', origin=1, copynum=0, type="
    (Val.attref ⟨[0x41], ⟨1, 0, [0x42] ++ m ++ [0x43]⟩, l⟩).reprText e other c =
      (Val.attref ⟨[0x43] ++ m ++ [0x41], ⟨1, 0, [0x42]⟩, l⟩).reprText e other c := by
  simp only [Val.reprText]
  rw [show utf8Decode [0x41] = some [65] by decide +kernel, show utf8Decode [0x42] = some [66] by decide +kernel,
    show utf8Decode ([0x42] ++ Spec.Fingerprint.ascii "', origin=1, copynum=0, type=" ++ [0x43]) =
      some (text "B', origin=1, copynum=0, type=C") by decide +kernel,
    show utf8Decode ([0x43] ++ Spec.Fingerprint.ascii "', origin=1, copynum=0, type=" ++ [0x41]) =
      some (text "C', origin=1, copynum=0, type=A") by decide +kernel]
  decide +kernel

/-- C97: what is written of an object tells its name. -/
theorem c97_object (n n' : Obname) :
    (∀ t, objectRepr n = some t → (objectRepr n' = some t ↔ n' = n)) ∧
    ((∃ t, objectRepr n = some t) ↔ ∃ id, utf8Decode n.id = some id) := by
  constructor
  · intro t ht
    refine ⟨fun ht' => ?_, fun h => h ▸ ht⟩
    unfold objectRepr at ht ht'
    obtain ⟨id, hid, rfl⟩ := Option.map_eq_some_iff.1 ht
    obtain ⟨id', hid', h⟩ := Option.map_eq_some_iff.1 ht'
    have outer : ∀ a : Text, pyFormat (text "dlisio.core.basic_object(name={})") [a] =
        text "dlisio.core.basic_object(name=" ++ (a ++ text ")") := by
      intro a; formatted
    have inner : ∀ id a b : Text, pyFormat (text "dlisio.core.obname(id='{}', origin={}, copynum={})") [id, a, b] =
        text "dlisio.core.obname(id='" ++ id ++ text "', origin=" ++ a ++ text ", copynum=" ++ b ++ text ")" := by
      intro id a b; formatted
    rw [outer, outer, inner, inner] at h
    obtain ⟨rfl, h2, h3⟩ := obname_split
      (List.append_cancel_right (List.append_cancel_left h))
    obtain ⟨o, k, i⟩ := n
    obtain ⟨o', k', i'⟩ := n'
    simp only at h2 h3 hid hid'
    subst h2 h3
    obtain rfl := utf8_injective hid hid'
    rfl
  · unfold objectRepr
    cases utf8Decode n.id <;> simp

end Dlis

/-- C97: what is written of a tape mark tells all of it. -/
theorem c97_tapemark (x y : Tapemark) : x.repr = y.repr ↔ x = y := by
  refine ⟨fun h => ?_, fun h => h ▸ rfl⟩
  have key : ∀ a b c : Text, pyFormat (text "dlisio.core.tapemark(type={}, prev={}, next={})") [a, b, c] =
      text "dlisio.core.tapemark(type=" ++ (a ++ 44 :: (text " prev=" ++ (b ++ 44 :: (text " next=" ++
        (c ++ 41 :: []))))) := by
    intro a b c; formatted
  have hc : ∀ n, 44 ∉ Text.ofNat n := not_in_number (by decide)
  have hp : ∀ n, 41 ∉ Text.ofNat n := not_in_number (by decide)
  unfold Tapemark.repr at h
  rw [key, key] at h
  obtain ⟨h1, h⟩ := first_split (hc _) (hc _) (List.append_cancel_left h)
  obtain ⟨h2, h⟩ := first_split (hc _) (hc _) (List.append_cancel_left h)
  obtain ⟨h3, -⟩ := first_split (hp _) (hp _) (List.append_cancel_left h)
  obtain ⟨a, b, c⟩ := x
  obtain ⟨a', b', c'⟩ := y
  obtain rfl := BitVec.eq_of_toNat_eq (ofNat_injective h1)
  obtain rfl := BitVec.eq_of_toNat_eq (ofNat_injective h2)
  obtain rfl := BitVec.eq_of_toNat_eq (ofNat_injective h3)
  rfl

namespace Lis

theorem boolText_inj {a b : Bool} (h : boolText a = boolText b) : a = b := by
  revert a b; decide +kernel

theorem first_bit (a : BitVec 16) : a &&& 1 ≠ 0 ↔ a.toNat % 2 = 1 := by
  rw [ne_eq, ← BitVec.toNat_inj, BitVec.toNat_and, show (1 : BitVec 16).toNat = 1 from rfl,
    show (0 : BitVec 16).toNat = 0 from rfl, Nat.and_one_is_mod]
  omega

theorem second_bit (a : BitVec 16) : a &&& 2 ≠ 0 ↔ a.toNat / 2 % 2 = 1 := by
  rw [ne_eq, ← BitVec.toNat_inj, BitVec.toNat_and, show (2 : BitVec 16).toNat = 2 ^ 1 from rfl,
    show (0 : BitVec 16).toNat = 0 from rfl, Nat.and_two_pow, Nat.testBit_eq_decide_div_mod_eq]
  by_cases h : a.toNat / 2 ^ 1 % 2 = 1
  · simp only [h, decide_true, Bool.toNat_true]; omega
  · simp only [h, decide_false, Bool.toNat_false]; omega

/-- C97: what is written of the header of a physical record tells its length and whether it has a predecessor
and a successor, the two lowest bits of its attributes, and nothing else. -/
theorem c97_prheader (x y : Prh) : x.repr = y.repr ↔
    x.length = y.length ∧ x.attributes.toNat % 4 = y.attributes.toNat % 4 := by
  have key : ∀ a b c : Text, pyFormat (text "dlisio.core.prheader(length={}, pred={}, succ={})") [a, b, c] =
      text "dlisio.core.prheader(length=" ++ (a ++ 44 :: (text " pred=" ++ (b ++ 44 :: (text " succ=" ++
        (c ++ 41 :: []))))) := by
    intro a b c; formatted
  have hc : ∀ n, 44 ∉ Text.ofNat n := not_in_number (by decide)
  have bc : ∀ b, 44 ∉ boolText b := by decide +kernel
  have bp : ∀ b, 41 ∉ boolText b := by decide +kernel
  have bits : (decide (x.attributes &&& 2 ≠ 0) = decide (y.attributes &&& 2 ≠ 0) ∧
      decide (x.attributes &&& 1 ≠ 0) = decide (y.attributes &&& 1 ≠ 0)) ↔
      x.attributes.toNat % 4 = y.attributes.toNat % 4 := by
    rw [decide_eq_decide, decide_eq_decide, second_bit, second_bit, first_bit, first_bit]
    omega
  unfold Prh.repr
  rw [key, key, ← bits]
  constructor
  · intro h
    obtain ⟨h1, h⟩ := first_split (hc _) (hc _) (List.append_cancel_left h)
    obtain ⟨h2, h⟩ := first_split (bc _) (bc _) (List.append_cancel_left h)
    obtain ⟨h3, -⟩ := first_split (bp _) (bp _) (List.append_cancel_left h)
    exact ⟨BitVec.eq_of_toNat_eq (ofNat_injective h1), boolText_inj h2, boolText_inj h3⟩
  · rintro ⟨h1, h2, h3⟩
    rw [h1, h2, h3]

/-- C97: the types of records have names, and no two of them have the same. -/
theorem c97_rectype (a b : Nat) (ha : a ∈ rectypes) : rectypeText a = rectypeText b ↔ a = b := by
  refine ⟨fun h => ?_, fun h => h ▸ rfl⟩
  have named : ∀ a ∈ rectypes, (rectypeNames.lookup a).isSome = true := by decide +kernel
  have distinct : ∀ p ∈ rectypeNames, ∀ q ∈ rectypeNames, text p.2 = text q.2 → p = q := by decide +kernel
  have known : ∀ p ∈ rectypeNames, text p.2 ≠ text "???" := by decide +kernel
  have mem : ∀ (l : List (Nat × String)) a n, l.lookup a = some n → (a, n) ∈ l := by
    intro l a n
    induction l with
    | nil => intro h; cases h
    | cons x l ih =>
      obtain ⟨k, m⟩ := x
      rw [List.lookup_cons]
      by_cases hk : a = k
      · subst hk
        simp only [beq_self_eq_true]
        rintro ⟨⟩
        simp
      · rw [show (a == k) = false by simpa using hk]
        exact fun h => List.mem_cons_of_mem _ (ih h)
  obtain ⟨n, hn⟩ := Option.isSome_iff_exists.1 (named a ha)
  unfold rectypeText at h
  rw [hn] at h
  have h := List.append_cancel_left h
  cases hb : rectypeNames.lookup b with
  | none => rw [hb] at h; exact absurd h (known _ (mem _ _ _ hn))
  | some m =>
    rw [hb] at h
    exact congrArg Prod.fst (distinct _ (mem _ _ _ hn) _ (mem _ _ _ hb) h)

/-- C97: what is written of a record tells its type, its position, and its size if it has been read. -/
theorem c97_record (x y : RecordInfo) (hx : x.type ∈ rectypes) (n m : Nat) :
    (x.repr = y.repr ↔ x.type = y.type ∧ x.ltell = y.ltell) ∧
    (x.recordRepr n = y.recordRepr m ↔ x.type = y.type ∧ x.ltell = y.ltell ∧ n = m) := by
  have k1 : ∀ a b : Text, pyFormat (text "dlisio.core.record_info(type={}, ltell={})") [a, b] =
      text "dlisio.core.record_info(type=" ++ a ++ text ", ltell" ++ 61 :: (b ++ text ")") := by
    intro a b; formatted
  have k2 : ∀ a b c : Text, pyFormat (text "dlisio.core.record(type={}, ltell={}, size={})") [a, b, c] =
      text "dlisio.core.record(type=" ++ a ++ text ", ltell" ++ 61 :: (b ++ text ", size") ++ 61 :: (c ++ text ")") := by
    intro a b c; simp only [List.append_assoc, List.cons_append, text, literalChars]; rfl
  have hn : ∀ n, 61 ∉ Text.ofNat n ++ text ")" := by
    intro n hm
    rcases List.mem_append.1 hm with hm | hm
    · exact not_in_number (by decide) n hm
    · revert hm; simp only [text, literalChars]; decide
  have hs : ∀ n, 61 ∉ Text.ofNat n ++ text ", size" := by
    intro n hm
    rcases List.mem_append.1 hm with hm | hm
    · exact not_in_number (by decide) n hm
    · revert hm; simp only [text, literalChars]; decide
  unfold RecordInfo.repr RecordInfo.recordRepr
  rw [k1, k1, k2, k2]
  constructor
  · constructor
    · intro h
      obtain ⟨h1, h2⟩ := last_split (hn _) (hn _) h
      have h1 := List.append_cancel_left (List.append_cancel_right h1)
      exact ⟨(c97_rectype _ _ hx).1 h1, ofNat_injective (List.append_cancel_right h2)⟩
    · rintro ⟨h1, h2⟩
      rw [h1, h2]
  · constructor
    · intro h
      obtain ⟨h1, h2⟩ := last_split (hn _) (hn _) h
      obtain ⟨h3, h4⟩ := last_split (hs _) (hs _) h1
      have h3 := List.append_cancel_left (List.append_cancel_right h3)
      exact ⟨(c97_rectype _ _ hx).1 h3, ofNat_injective (List.append_cancel_right h4),
        ofNat_injective (List.append_cancel_right h2)⟩
    · rintro ⟨h1, h2, rfl⟩
      rw [h1, h2]

theorem rectypeText_eq {t : Nat} (ht : t ∈ rectypes) :
    ∃ n, Dlisio.Spec.typeNamed t = some n ∧ rectypeText t = text "lis_rectype." ++ text n := by
  have h : ∀ t ∈ rectypes, (Dlisio.Spec.typeNamed t).isSome = true ∧
      ∀ n ∈ Dlisio.Spec.typeNamed t, rectypeText t = text "lis_rectype." ++ text n := by decide +kernel
  obtain ⟨h1, h2⟩ := h t ht
  obtain ⟨n, hn⟩ := Option.isSome_iff_exists.1 h1
  exact ⟨n, hn, h2 n hn⟩

/-- C97: the texts of headers and records. -/
theorem c97_shown (x : Prh) (r : RecordInfo) (hr : r.type ∈ rectypes) (size : Nat) :
    (∃ a b, Dlisio.Spec.Truth (x.attributes.toNat / 2 % 2 = 1) a ∧ Dlisio.Spec.Truth (x.attributes.toNat % 2 = 1) b ∧
      x.repr = text "dlisio.core.prheader(length=" ++ Text.ofNat x.length.toNat ++ text ", pred=" ++ a ++
        text ", succ=" ++ b ++ text ")") ∧
    ∃ n, Dlisio.Spec.typeNamed r.type = some n ∧
      r.repr = text "dlisio.core.record_info(type=" ++ (text "lis_rectype." ++ text n) ++ text ", ltell=" ++
        Text.ofNat r.ltell ++ text ")" ∧
      r.recordRepr size = text "dlisio.core.record(type=" ++ (text "lis_rectype." ++ text n) ++ text ", ltell=" ++
        Text.ofNat r.ltell ++ text ", size=" ++ Text.ofNat size ++ text ")" := by
  have truth : ∀ (p : Prop) [Decidable p], Dlisio.Spec.Truth p (boolText (decide p)) := by
    intro p _
    by_cases h : p
    · rw [decide_eq_true h]; exact .yes h
    · rw [decide_eq_false h]; exact .no h
  refine ⟨⟨_, _, truth _, truth _, ?_⟩, ?_⟩
  · unfold Prh.repr
    rw [decide_eq_decide.2 (second_bit x.attributes), decide_eq_decide.2 (first_bit x.attributes)]
    generalize Text.ofNat x.length.toNat = a
    generalize boolText _ = b
    generalize boolText _ = c
    formatted
  · obtain ⟨n, h1, h2⟩ := rectypeText_eq hr
    refine ⟨n, h1, ?_, ?_⟩
    · unfold RecordInfo.repr
      rw [h2]
      generalize text "lis_rectype." ++ text n = a
      generalize Text.ofNat r.ltell = b
      formatted
    · unfold RecordInfo.recordRepr
      rw [h2]
      generalize text "lis_rectype." ++ text n = a
      generalize Text.ofNat r.ltell = b
      generalize Text.ofNat size = c
      formatted

/-- C97: what is written of an information record tells its type and its position. -/
theorem c97_information (x y : RecordInfo) (hx : x.type ∈ rectypes) :
    infoText rectypeText x = infoText rectypeText y ↔ x.type = y.type ∧ x.ltell = y.ltell := by
  have k1 : ∀ a b : Text, pyFormat (text "InformationRecord(type={}, ltell={})") [a, b] =
      text "InformationRecord(type=" ++ a ++ text ", ltell" ++ 61 :: (b ++ text ")") := by
    intro a b; formatted
  have hn : ∀ n, 61 ∉ Text.ofNat n ++ text ")" := by
    intro n hm
    rcases List.mem_append.1 hm with hm | hm
    · exact not_in_number (by decide) n hm
    · revert hm; simp only [text, literalChars]; decide
  unfold infoText
  rw [k1, k1]
  constructor
  · intro h
    obtain ⟨h1, h2⟩ := last_split (hn _) (hn _) h
    have h1 := List.append_cancel_left (List.append_cancel_right h1)
    exact ⟨(c97_rectype _ _ hx).1 h1, ofNat_injective (List.append_cancel_right h2)⟩
  · rintro ⟨h1, h2⟩
    rw [h1, h2]

/-- C97: what is written of an index of records tells the number of records, though under the name of
another class. -/
theorem c97_index (n : Nat) :
    indexRepr n = text "dlisio.core.record_info(size=" ++ Text.ofNat n ++ text ")" ∧
    ∀ m, indexRepr m = indexRepr n ↔ m = n := by
  have key : ∀ a : Text, pyFormat (text "dlisio.core.record_info(size={})") [a] =
      text "dlisio.core.record_info(size=" ++ a ++ text ")" := by
    intro a; formatted
  unfold indexRepr
  refine ⟨key _, fun m => ?_⟩
  rw [key, key]
  exact ⟨fun h => ofNat_injective (List.append_cancel_left (List.append_cancel_right h)), fun h => h ▸ rfl⟩

/-- `LogicalFile.__repr__` of LIS files, lis/file.py:138-140, with that of the stream, ext/lis.cpp:664-666; `n` is the
number of records in the index. -/
def shownFile (path : Text) (n : Nat) : Text :=
  pyFormat (text "LogicalFile(path=\"{}\", io={}, index={})") [path, text "dlisio.core.iodevice", indexRepr n]

/-- C97: what is written of a logical file tells its path, whatever characters are in it, and the number of its records, and
nothing else. -/
theorem c97_lisfile (p q : Text) (n m : Nat) :
    shownFile p n = text "LogicalFile(path=\"" ++ p ++
      text "\", io=dlisio.core.iodevice, index=dlisio.core.record_info(size=" ++ Text.ofNat n ++ text "))" ∧
    (shownFile p n = shownFile q m ↔ p = q ∧ n = m) := by
  have k : ∀ a b c : Text, pyFormat (text "LogicalFile(path=\"{}\", io={}, index={})") [a, b, c] =
      text "LogicalFile(path=\"" ++ a ++ text "\", io=" ++ b ++ text ", index=" ++ c ++ text ")" := by
    intro a b c; formatted
  have e : ∀ (p : Text) (n : Nat), shownFile p n = text "LogicalFile(path=\"" ++ p ++
      text "\", io=dlisio.core.iodevice, index=dlisio.core.record_info(size" ++ 61 :: (Text.ofNat n ++ text "))") := by
    intro p n
    unfold shownFile
    rw [k, (c97_index n).1]
    simp only [List.append_assoc, text, literalChars]
    rfl
  have hn : ∀ n, 61 ∉ Text.ofNat n ++ text "))" := by
    intro n hm
    rcases List.mem_append.1 hm with hm | hm
    · exact not_in_number (by decide) n hm
    · revert hm; simp only [text, literalChars]; decide
  constructor
  · rw [e]
    simp only [List.append_assoc, text, literalChars]
    rfl
  · rw [e, e]
    constructor
    · intro h
      obtain ⟨h1, h2⟩ := last_split (hn _) (hn _) h
      exact ⟨List.append_cancel_left (List.append_cancel_right h1), ofNat_injective (List.append_cancel_right h2)⟩
    · rintro ⟨rfl, rfl⟩; rfl

end Lis

/-- `PhysicalFile.__repr__`, dlis/file.py:96-97 and lis/file.py:366-367. -/
def shownFiles (n : Nat) : Text := pyFormat (text "PhysicalFile(logical files: {})") [Text.ofNat n]

/-- C97: what is written of a physical file tells the number of logical files in it. -/
theorem c97_physical (n m : Nat) :
    shownFiles n = text "PhysicalFile(logical files: " ++ Text.ofNat n ++ text ")" ∧
    (shownFiles n = shownFiles m ↔ n = m) := by
  have key : ∀ a : Text, pyFormat (text "PhysicalFile(logical files: {})") [a] =
      text "PhysicalFile(logical files: " ++ a ++ text ")" := by
    intro a; formatted
  unfold shownFiles
  rw [key, key]
  exact ⟨rfl, fun h => ofNat_injective (List.append_cancel_left (List.append_cancel_right h)), fun h => h ▸ rfl⟩

/-! ## Cases -/

namespace ReprCase

open Dlis

def other : PyVal → Text := fun _ => []

def written (v : Val) : Option Text := v.reprText AccessorsCase.env other .obname

/-- Case for `c97_references_partial` and `c97_written`. -/
example : written (.obname ⟨1, 0, [0x41]⟩) = some (text "dlisio.core.obname(id='A', origin=1, copynum=0)") ∧
    written (.objref ⟨[0x54], ⟨1, 0, [0x41]⟩⟩) = some (text "dlisio.core.objref(fingerprint=T.T-I.A-O.1-C.0)") ∧
    written (.attref ⟨[0x54], ⟨1, 0, [0x41]⟩, [0x4c]⟩) =
      some (text "dlisio.core.attref(id='A', origin=1, copynum=0, type=T)") ∧
    written (.obname ⟨1, 0, [0xc5]⟩) = none ∧ written (.objref ⟨[], ⟨1, 0, [0x41]⟩⟩) = none := by
  refine ⟨?_, ?_, ?_, ?_, ?_⟩ <;> decide +kernel

/-- Case for `c97_references_partial`: its hypotheses. -/
example : Dlis.Spec.ReadsUtf8 AccessorsCase.env.dec ∧ Dlisio.Spec.Clear (.obname ⟨1, 0, [0x27, 0x41]⟩) ∧
    Dlisio.Spec.Clear (.objref ⟨[0x54], ⟨1, 0, [0x41]⟩⟩) ∧
    Dlisio.Spec.Clear (.attref ⟨[0x54], ⟨1, 0, [0x41]⟩, [0x4c]⟩) := by
  refine ⟨c65_decoding [], .obname _, .objref _ ⟨by decide, [0x54], ?_⟩ ⟨by decide, [0x41], ?_⟩ (by simp) ?_,
    .attref _ (by decide)⟩
  · exact (utf8Decode_iff _ _).1 (by decide +kernel)
  · exact (utf8Decode_iff _ _).1 (by decide +kernel)
  · rintro ⟨p, q, h⟩
    have := congrArg List.length h
    rw [show Dlis.Spec.Fingerprint.ascii "-I." = [0x2d, 0x49, 0x2e] by decide] at this
    simp at this
    omega

/-- Case for `c97_objref_defect`. -/
example : written (.objref ⟨Dlis.Spec.Fingerprint.ascii "A-I.B", ⟨1, 0, [0x43]⟩⟩) =
      some (text "dlisio.core.objref(fingerprint=T.A-I.B-I.C-O.1-C.0)") ∧
    written (.objref ⟨[0x41], ⟨1, 0, Dlis.Spec.Fingerprint.ascii "B-I.C"⟩⟩) =
      some (text "dlisio.core.objref(fingerprint=T.A-I.B-I.C-O.1-C.0)") := by
  constructor <;> decide +kernel

/-- Case for `c97_object`. -/
example : objectRepr ⟨1, 0, [0x41]⟩ =
    some (text "dlisio.core.basic_object(name=dlisio.core.obname(id='A', origin=1, copynum=0))") ∧
    objectRepr ⟨1, 0, [0xc5]⟩ = none := by
  constructor <;> decide +kernel

/-- Case for `c97_tapemark`. -/
example : (Tapemark.mk 1 0 4294967295).repr = text "dlisio.core.tapemark(type=1, prev=0, next=4294967295)" := by
  decide +kernel

/-- Case for `c97_prheader`: a predecessor and no successor; the other bits are not shown. -/
example : (Lis.Prh.mk 62 0x4002).repr = text "dlisio.core.prheader(length=62, pred=True, succ=False)" ∧
    (Lis.Prh.mk 62 0x4002).repr = (Lis.Prh.mk 62 2).repr := by
  constructor <;> decide +kernel

/-- Case for `c97_record`, `c97_shown` and `c97_rectype`. -/
example : (Lis.RecordInfo.mk 128 62 80).repr = text "dlisio.core.record_info(type=lis_rectype.file_header, ltell=80)" ∧
    (Lis.RecordInfo.mk 128 62 80).recordRepr 56 =
      text "dlisio.core.record(type=lis_rectype.file_header, ltell=80, size=56)" ∧
    128 ∈ Lis.rectypes ∧ Lis.rectypeText 3 = text "lis_rectype.???" := by
  refine ⟨?_, ?_, ?_, ?_⟩ <;> decide +kernel

/-- Case for `c97_index` and `c97_information`. -/
example : Lis.indexRepr 3 = text "dlisio.core.record_info(size=3)" ∧
    Lis.infoText Lis.rectypeText ⟨34, 62, 80⟩ =
      text "InformationRecord(type=lis_rectype.wellsite_data, ltell=80)" := by
  constructor <;> decide +kernel

/-- Case for `c97_lisfile` and `c97_physical`; the path has a quote and braces in it. -/
example : Lis.shownFile (text "a\"{}.lis") 12 =
      text "LogicalFile(path=\"a\"{}.lis\", io=dlisio.core.iodevice, index=dlisio.core.record_info(size=12))" ∧
    shownFiles 2 = text "PhysicalFile(logical files: 2)" := by
  constructor <;> decide +kernel

end ReprCase

end Dlisio
