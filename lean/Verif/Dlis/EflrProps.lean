/-
C23, C24, C26: what the parser of object sets makes of a record.
-/
import Verif.Dlis.EflrSpec
import Verif.Dlis.HeaderProps
import Verif.Dlis.ObjectProps

namespace Dlisio.Dlis

/-! ### The pieces of an attribute -/

theorem reprcOfByte_code (c : Reprc) : reprcOfByte c.code = some c := by
  cases c <;> rfl

theorem extractVals_enc {c : Reprc} {vs : List Val} {bs : Bytes} (h : Spec.Elements c vs bs)
    (r : Bytes) : extractVals c vs.length (bs ++ r) = some (vs, r) := by
  induction h with
  | nil => rfl
  | @cons v vs e es hv _ ih =>
    have := (c09_decodeVal c (e ++ (es ++ r)) v (es ++ r)).2 ⟨e, hv, rfl⟩
    simp [extractVals, List.append_assoc, this, ih]

theorem characteristics_enc {w : Spec.Chars} {f : AttribFlags} {a : ObjAttr} {n : Nat}
    {c : Reprc} {bs : Bytes} (r : Bytes)
    (hc : f.count = w.count.isSome) (hr : f.reprc = w.reprc.isSome)
    (hu : f.units = w.units.isSome) (hv : f.value = w.value.isSome)
    (hn : n = w.count.getD a.count) (hcode : (w.reprc.or a.reprc) = some c)
    (h : Spec.CharsEnc w n c bs) :
    characteristics f a (bs ++ r) = .ok ({ a with
      count := n
      reprc := some c
      units := w.units.getD a.units
      value := match w.value with
        | none => a.value
        | some vs => if n = 0 then none else some (c, vs) }, r) := by
  obtain ⟨bc, br, bu, bv, rfl, h1, h2, h3, h4⟩ := h
  obtain ⟨wc, wr, wu, wv⟩ := w
  simp only at *
  have e1 : readCount f.count a (bc ++ (br ++ (bu ++ (bv ++ r)))) =
      .ok ({ a with count := n }, br ++ (bu ++ (bv ++ r))) := by
    cases wc with
    | none =>
      subst h1
      simp only [Option.isSome_none] at hc
      simp only [Option.getD_none] at hn
      subst hn
      simp [hc, readCount]
    | some k =>
      simp only [Option.isSome_some] at hc
      simp only [Option.getD_some] at hn
      subst hn
      have := (c01_uvari_decodes (bc ++ (br ++ (bu ++ (bv ++ r)))) n _).2 ⟨bc, h1, rfl⟩
      simp [hc, readCount, this, need]
  have e2 : ∀ a : ObjAttr, wr.or a.reprc = some c →
      readReprc f.reprc a (br ++ (bu ++ (bv ++ r))) =
        .ok ({ a with reprc := some c }, bu ++ (bv ++ r)) := by
    intro a hcode
    cases wr with
    | none =>
      subst h2
      simp only [Option.isSome_none] at hr
      simp only [Option.or] at hcode
      simp [hr, readReprc, ← hcode]
    | some k =>
      simp only [Option.isSome_some] at hr
      simp only [Option.or, Option.some.injEq] at hcode
      subst hcode
      obtain ⟨b, rfl, hb⟩ := h2
      simp [hr, readReprc, repcode, ushort, need, hb, reprcOfByte_code]
  have e3 : ∀ a : ObjAttr, readUnits f.units a (bu ++ (bv ++ r)) =
      .ok ({ a with units := wu.getD a.units }, bv ++ r) := by
    intro a
    cases wu with
    | none =>
      subst h3
      simp only [Option.isSome_none] at hu
      simp [hu, readUnits]
    | some k =>
      simp only [Option.isSome_some] at hu
      have := (c03_units_decodes (bu ++ (bv ++ r)) k _).2 ⟨bu, h3, rfl⟩
      simp [hu, this, need, readUnits]
  unfold characteristics
  simp only [List.append_assoc, e1, bind, Except.bind, e2 { a with count := n } hcode, e3]
  cases wv with
  | none =>
    subst h4
    simp only [Option.isSome_none] at hv
    simp [hv, readValue]
  | some vs =>
    simp only [Option.isSome_some] at hv
    obtain ⟨hl, hel⟩ := h4
    simp only [hv, if_true, elements, readValue]
    by_cases h0 : n = 0
    · subst h0
      have : vs = [] := List.length_eq_zero_iff.1 hl
      subst this
      cases hel
      simp
    · rw [if_neg h0, ← hl, extractVals_enc hel]
      simp [need, hl, h0]

theorem descriptor_attr {d : Byte} {inv label : Bool} {w : Spec.Chars}
    (h : d.toNat = Spec.descriptor (if inv then 2 else 1) label w) :
    parseAttributeDescriptor d = .ok (.attr inv ⟨label, w.count.isSome, w.reprc.isSome,
      w.units.isSome, w.value.isSome⟩) := by
  have hd : d = BitVec.ofNat 8 d.toNat := by simp
  rw [hd, h]
  unfold Spec.descriptor
  generalize w.count.isSome = a
  generalize w.reprc.isSome = b
  generalize w.units.isSome = c
  generalize w.value.isSome = e
  clear h hd
  revert inv label a b c e
  decide +kernel

/-! ### Template -/

theorem templateAttr_enc {t : Spec.TAttr} {bl bw r : Bytes} (hl : Spec.Ident t.label bl)
    (hw : Spec.CharsEnc t.chars t.count t.code bw) :
    templateAttr t.invariant ⟨true, t.chars.count.isSome, t.chars.reprc.isSome,
      t.chars.units.isSome, t.chars.value.isSome⟩ (bl ++ (bw ++ r)) = .ok (t.attr, r) := by
  unfold templateAttr
  rw [(c03_ident_decodes (bl ++ (bw ++ r)) t.label _).2 ⟨bl, hl, rfl⟩]
  simp only [need]
  rw [characteristics_enc (w := t.chars) (n := t.count) (c := t.code) (a := { label := t.label })
    r rfl rfl rfl rfl rfl (by cases h : t.chars.reprc <;> simp [Spec.TAttr.code, h]) hw]
  simp only [Spec.TAttr.attr, Spec.TAttr.value, Spec.TAttr.units]
  cases t.chars.value <;> by_cases h0 : t.count = 0 <;> simp [h0]

/-- what follows the template: nothing, or an OBJECT component -/
def ObjectNext (r : Bytes) : Prop := r = [] ∨ ∃ d rest, r = d :: rest ∧ component d = .object

theorem concat_nil {α : Type} {enc : α → Bytes → Prop} (hne : ∀ a, ¬ enc a [])
    {as : List α} {bs : Bytes} (h : Spec.Concat enc as bs) (hb : bs = []) : as = [] := by
  cases h with
  | nil => rfl
  | cons ha _ =>
    simp only [List.append_eq_nil_iff] at hb
    rw [hb.1] at ha
    exact absurd ha (hne _)

theorem tattr_ne_nil (t : Spec.TAttr) : ¬ t.Enc [] := by
  rintro ⟨d, bl, bw, h, _⟩
  simp at h

theorem templateLoop_enc {ts : List Spec.TAttr} {bs r : Bytes}
    (h : Spec.Concat Spec.TAttr.Enc ts bs) (hr : ObjectNext r) (hne : ts ≠ [] ∨ r ≠ []) :
    ∀ (n : Nat) (tmpl : List ObjAttr) (log : List Severity), (bs ++ r).length < n →
    templateLoop n (bs ++ r) tmpl log =
      ⟨tmpl ++ ts.map Spec.TAttr.attr, log ++ (if r = [] then [.info] else []), .ok r⟩ := by
  induction h with
  | nil =>
    intro n tmpl log hn
    simp only [ne_eq, not_true_eq_false, false_or] at hne
    rcases hr with rfl | ⟨d, rest, rfl, hd⟩
    · exact absurd rfl hne
    · cases n with
      | zero => simp at hn
      | succ n =>
        simp [templateLoop, parseAttributeDescriptor, hd]
  | @cons t ts e es ht hts ih =>
    intro n tmpl log hn
    obtain ⟨d, bl, bw, rfl, hd, hl, hw⟩ := ht
    cases n with
    | zero => simp at hn
    | succ n =>
      have h1 := descriptor_attr hd
      have h2 := templateAttr_enc (r := es ++ r) hl hw
      simp only [List.cons_append, List.append_assoc, templateLoop, h1, h2, if_true]
      by_cases hx : es ++ r = []
      · rw [if_pos hx]
        simp only [List.append_eq_nil_iff] at hx
        obtain ⟨rfl, rfl⟩ := hx
        have := concat_nil tattr_ne_nil hts rfl
        subst this
        simp
      · rw [if_neg hx]
        simp only [List.append_assoc, List.cons_append, List.length_cons, List.length_append] at hn
        rw [ih _ _ _ _ (by simp only [List.length_append]; omega)]
        · simp
        · by_contra hcon
          simp only [ne_eq, not_or, not_not] at hcon
          obtain ⟨rfl, rfl⟩ := hcon
          cases hts
          exact hx rfl

/-! ### Objects -/

theorem defaultVal_zero (c : Reprc) : defaultVal c = Spec.zero c := by cases c <;> rfl

theorem setAttr_append {a : ObjAttr} {xs ys : List ObjAttr}
    (h : ∀ x ∈ xs, x.label ≠ a.label) : setAttr a (xs ++ ys) = xs ++ setAttr a ys := by
  induction xs with
  | nil => rfl
  | cons x xs ih =>
    have hx : ¬ a.label = x.label := fun e => h x (by simp) e.symm
    simp only [List.cons_append, setAttr, hx, if_false]
    rw [ih fun y hy => h y (by simp [hy])]

theorem removeAttr_append {a : ObjAttr} {xs ys : List ObjAttr}
    (h : ∀ x ∈ xs, x.label ≠ a.label) : removeAttr a (xs ++ ys) = xs ++ removeAttr a ys := by
  unfold removeAttr
  rw [List.filter_append, List.filter_eq_self.2]
  intro x hx
  simpa using fun e => h x hx e.symm

theorem foldl_setAttr {ts xs : List ObjAttr} (h : ((xs ++ ts).map (·.label)).Nodup) :
    ts.foldl (fun o a => setAttr a o) xs = xs ++ ts := by
  induction ts generalizing xs with
  | nil => simp
  | cons t ts ih =>
    have hx : ∀ x ∈ xs, x.label ≠ t.label := by
      intro x hx e
      simp only [List.map_append, List.map_cons, List.nodup_append] at h
      exact h.2.2 _ (List.mem_map_of_mem hx) _ (by simp) e
    have := setAttr_append (ys := []) hx
    simp only [List.append_nil, setAttr] at this
    simp only [List.foldl_cons, this]
    rw [ih (by simpa using h)]
    simp

theorem defaultedObject_eq {ts : List ObjAttr} (h : (ts.map (·.label)).Nodup) :
    defaultedObject ts = ts := by
  have := foldl_setAttr (xs := []) (ts := ts) (by simpa using h)
  simpa [defaultedObject] using this

/-- C23.  An attribute component of an object: count, representation code, units and
value are those that are written, and the others are those of the template. -/
theorem c23_component (t : Spec.TAttr) (w : Spec.Chars) (bw r : Bytes) (ht : t.WF)
    (hw : Spec.CharsEnc w (Spec.ownCount t w) (Spec.ownCode t w) bw) (hl : Spec.Legal t w) :
    objectAttr t.attr false ⟨false, w.count.isSome, w.reprc.isSome, w.units.isSome,
      w.value.isSome⟩ (bw ++ r) = .ok (Spec.ownAttr t w, r) := by
  unfold objectAttr
  simp only [Bool.false_eq_true, if_false]
  rw [characteristics_enc (w := w) (n := Spec.ownCount t w) (c := Spec.ownCode t w)
    (a := t.attr) r rfl rfl rfl rfl rfl
    (by cases h : w.reprc <;> simp [Spec.ownCode, h, Spec.TAttr.attr]) hw]
  simp only [Spec.ownAttr, Spec.ownUnits, Spec.ownValue]
  by_cases h0 : Spec.ownCount t w = 0
  · simp [h0, Spec.TAttr.attr]
  · simp only [h0, if_false]
    cases hv : w.value with
    | some vs => simp [Spec.TAttr.attr]
    | none =>
      rcases hl hv with h | ⟨hcode, hval⟩
      · exact absurd h h0
      · have hcode' : ¬ (some (Spec.ownCode t w) ≠ t.attr.reprc) := by
          simp [hcode, Spec.TAttr.attr]
        simp only [hcode', decide_false, Bool.and_false, Bool.false_eq_true, if_false,
          Option.isSome_none]
        cases htv : t.value with
        | none =>
          simp [patchMissingValue, Spec.TAttr.attr, htv, resetValue, defaultVal_zero]
        | some vs =>
          have hlen : vs.length = Spec.ownCount t w := by
            simp only [Spec.TAttr.value] at htv
            split at htv
            · cases htv
            · rw [ht vs htv]
              rcases hval with h | h
              · simp [Spec.TAttr.value, htv] at h
                contradiction
              · exact h.symm
          simp [patchMissingValue, Spec.TAttr.attr, htv, hlen, hcode]

theorem label_attr (t : Spec.TAttr) : t.attr.label = t.label := rfl

theorem map_label (ts : List Spec.TAttr) :
    (ts.map Spec.TAttr.attr).map (·.label) = ts.map Spec.TAttr.label := by
  simp [Function.comp_def, label_attr]

/-- The loop over the template, for an object that is laid out according to the
standard and followed by the next object or the end. -/
theorem attrLoop_enc {ts : List Spec.TAttr} {cs : List Spec.Comp} {bs r : Bytes}
    (hwf : ∀ t ∈ ts, t.WF) (hnd : (ts.map Spec.TAttr.label).Nodup)
    (h : Spec.CompsEnc ts cs bs) (hr : ObjectNext r) :
    ∀ done : List ObjAttr, (∀ x ∈ done, ∀ t ∈ ts, x.label ≠ t.label) →
      attrLoop (ts.map Spec.TAttr.attr) (bs ++ r) (done ++ ts.map Spec.TAttr.attr) true =
        .ok (done ++ Spec.objAttrs ts cs, true, r) := by
  induction ts generalizing cs bs with
  | nil =>
    intro done _
    obtain ⟨rfl, rfl⟩ := h
    simp [attrLoop, Spec.objAttrs]
  | cons t ts ih =>
    intro done hdone
    have hwf' : ∀ t ∈ ts, t.WF := fun x hx => hwf x (by simp [hx])
    simp only [List.map_cons, List.nodup_cons] at hnd
    have hts : ∀ x ∈ ts.map Spec.TAttr.attr, x.label ≠ t.attr.label := by
      intro x hx e
      obtain ⟨y, hy, rfl⟩ := List.mem_map.1 hx
      exact hnd.1 (List.mem_map.2 ⟨y, hy, e⟩)
    have hd1 : ∀ x ∈ done, x.label ≠ t.attr.label := fun x hx => hdone x hx t (by simp)
    have hd2 : ∀ x ∈ done, ∀ t ∈ ts, x.label ≠ t.label :=
      fun x hx y hy => hdone x hx y (by simp [hy])
    simp only [List.map_cons, attrLoop]
    by_cases hinv : t.invariant = true
    · have hi : t.attr.invariant = true := hinv
      simp only [Spec.CompsEnc, hinv, if_true] at h
      simp only [hi, if_true, Spec.objAttrs, hinv]
      have := ih hwf' hnd.2 h (done ++ [t.attr]) (by
        intro x hx y hy
        simp only [List.mem_append, List.mem_singleton] at hx
        rcases hx with hx | rfl
        · exact hd2 x hx y hy
        · exact fun e => hnd.1 (List.mem_map.2 ⟨y, hy, e.symm⟩))
      simpa using this
    · have hi : ¬ t.attr.invariant = true := hinv
      simp only [Spec.CompsEnc, hinv] at h
      simp only [hi, Spec.objAttrs, hinv]
      rcases cs with _ | ⟨_ | w, cs⟩
      · simp only [Bool.false_eq_true, if_false] at h
        subst h
        have hobj : ∀ ts : List Spec.TAttr, Spec.objAttrs ts [] = ts.map Spec.TAttr.attr := by
          intro ts
          induction ts with
          | nil => rfl
          | cons t ts ih => simp [Spec.objAttrs, ih]
        rcases hr with rfl | ⟨d, rest, rfl, hd⟩
        · simp [hobj]
        · simp [parseAttributeDescriptor, hd, hobj]
      · obtain ⟨d, rest, rfl, hd, h⟩ := h
        have hdesc : parseAttributeDescriptor d = .ok .absent := by
          have := c15_component_role d
          rw [hd] at this
          simp only [Spec.roles, List.getElem?_cons_zero, Option.some.injEq] at this
          simp [parseAttributeDescriptor, ← this]
        have hrem : removeAttr t.attr (done ++ t.attr :: ts.map Spec.TAttr.attr) =
            done ++ ts.map Spec.TAttr.attr := by
          rw [removeAttr_append hd1]
          congr 1
          have := removeAttr_append (ys := []) hts
          simp only [List.append_nil] at this
          simp only [removeAttr, List.filter_cons, decide_true, Bool.not_true,
            Bool.false_eq_true, if_false] at this ⊢
          simpa using this
        simp only [List.cons_append, hdesc, hrem]
        exact ih hwf' hnd.2 h done hd2
      · obtain ⟨d, bw, rest, rfl, hd, hw, hl, h⟩ := h
        have hdesc := descriptor_attr (inv := false) (d := d) (w := w) (label := false)
          (by simpa using hd)
        have hattr := c23_component t w bw (rest ++ r) (hwf t (by simp)) hw hl
        have hset : setAttr (Spec.ownAttr t w) (done ++ t.attr :: ts.map Spec.TAttr.attr) =
            (done ++ [Spec.ownAttr t w]) ++ ts.map Spec.TAttr.attr := by
          rw [setAttr_append (by exact hd1)]
          simp [setAttr, Spec.ownAttr, Spec.TAttr.attr]
        simp only [List.cons_append, List.append_assoc, hdesc, hattr]
        rw [hset]
        have := ih hwf' hnd.2 h (done ++ [Spec.ownAttr t w]) (by
          intro x hx y hy
          simp only [List.mem_append, List.mem_singleton] at hx
          rcases hx with hx | rfl
          · exact hd2 x hx y hy
          · exact fun e => hnd.1 (List.mem_map.2 ⟨y, hy, e.symm⟩))
        simpa [Spec.ownAttr, isLogClear] using this

theorem object_role {d : Byte} (hd : d.toNat / 16 = 7) :
    component d = .object ∧ parseObjectDescriptor d = .ok true := by
  have := c15_component_role d
  have h32 : d.toNat / 32 = 3 := by omega
  rw [h32] at this
  simp only [Spec.roles, List.getElem?_cons_succ, List.getElem?_cons_zero,
    Option.some.injEq] at this
  refine ⟨this.symm, ?_⟩
  have hf := flag_iff d 0x10 4 (by decide)
  have : flag d 0x10 = true := hf.2 (by omega)
  simp only [parseObjectDescriptor, ← ‹Role.object = component d›, componentObject, this]

/-- C23.  An object that is laid out according to the standard: its attributes are
those of the template, each with the characteristics that the object states, without
the absent ones. -/
theorem c23_object (type : Bytes) (ts : List Spec.TAttr) (o : Spec.Object) (bs r : Bytes)
    (hwf : ∀ t ∈ ts, t.WF) (hnd : (ts.map Spec.TAttr.label).Nodup)
    (h : Spec.ObjectEnc ts o bs) (hr : ObjectNext r) :
    ∃ d rest, bs = d :: rest ∧ component d = .object ∧
      parseObject type (ts.map Spec.TAttr.attr) d (rest ++ r) =
        .ok (Spec.objectValue type ts o, r) := by
  obtain ⟨d, bn, bc, rfl, hd, hn, hc⟩ := h
  refine ⟨d, bn ++ bc, rfl, (object_role hd).1, ?_⟩
  unfold parseObject
  rw [(object_role hd).2]
  simp only [List.append_assoc]
  rw [(c05_obname_decodes (bn ++ (bc ++ r)) o.name _).2 ⟨bn, hn, rfl⟩]
  simp only [need]
  rw [defaultedObject_eq (by rw [map_label]; exact hnd)]
  have := attrLoop_enc hwf hnd hc hr [] (by simp)
  simp only [List.nil_append] at this
  rw [this]
  simp [Spec.objectValue]

theorem objectsNext {ts : List Spec.TAttr} {os : List Spec.Object} {bs r : Bytes}
    (h : Spec.Concat (Spec.ObjectEnc ts) os bs) (hr : ObjectNext r) : ObjectNext (bs ++ r) := by
  cases h with
  | nil => exact hr
  | cons ho _ =>
    obtain ⟨d, bn, bc, rfl, hd, _⟩ := ho
    exact Or.inr ⟨d, _, by simp; rfl, (object_role hd).1⟩

theorem objectsLoop_enc (type : Bytes) {ts : List Spec.TAttr} {os : List Spec.Object}
    {bs r : Bytes} (hwf : ∀ t ∈ ts, t.WF) (hnd : (ts.map Spec.TAttr.label).Nodup)
    (h : Spec.Concat (Spec.ObjectEnc ts) os bs) (hr : ObjectNext r) :
    ∀ n, (bs ++ r).length ≤ n → ∃ m, r.length ≤ m ∧
      objectsLoop type (ts.map Spec.TAttr.attr) n (bs ++ r) =
        (os.map (Spec.objectValue type ts) ++
          (objectsLoop type (ts.map Spec.TAttr.attr) m r).1,
         (objectsLoop type (ts.map Spec.TAttr.attr) m r).2) := by
  induction h with
  | nil => intro n hn; exact ⟨n, by simpa using hn, by simp⟩
  | @cons o os e es ho hos ih =>
    intro n hn
    obtain ⟨d, rest, rfl, _, hp⟩ := c23_object type ts o e (es ++ r) hwf hnd ho (objectsNext hos hr)
    cases n with
    | zero => simp at hn
    | succ n =>
      obtain ⟨m, hm, hrec⟩ := ih n (by simp at hn ⊢; omega)
      refine ⟨m, hm, ?_⟩
      simp only [List.cons_append, List.append_assoc, objectsLoop, hp, hrec, List.map_cons]

theorem set_role {d : Byte} {role : Role} {r : Nat} {named : Bool}
    (hrole : Spec.setRole role = some r) (hd : d.toNat / 8 = 4 * r + 2 + named.toNat) :
    parseSetDescriptor d = .ok (role, true, named) := by
  have h32 : d.toNat / 32 = r := by have : named.toNat ≤ 1 := Bool.toNat_le named; omega
  have hc := c15_component_role d
  rw [h32] at hc
  have hcd : component d = role := by
    cases role <;> simp only [Spec.setRole, Option.some.injEq, reduceCtorEq] at hrole <;>
      subst hrole <;> simp only [Spec.roles, List.getElem?_cons_succ, List.getElem?_cons_zero,
        Option.some.injEq] at hc <;> exact hc.symm
  have h4 : flag d 0x10 = true := (flag_iff d 0x10 4 (by decide)).2 (by
    have : named.toNat ≤ 1 := Bool.toNat_le named; omega)
  have h3 : flag d 0x08 = named := by
    have := flag_iff d 0x08 3 (by decide)
    cases named with
    | true => exact this.2 (by simp at hd; omega)
    | false =>
      rw [Bool.eq_false_iff]
      intro hx
      have := this.1 hx
      simp at hd
      omega
  unfold parseSetDescriptor
  rw [hcd]
  cases role <;> simp only [Spec.setRole, reduceCtorEq] at hrole <;>
    simp only [componentSet, h4, h3]

/-- The entries in the log that come with the role of the set: dlisio does not support
redundant and replacement sets. -/
def Spec.roleNotes : Role → List Severity
  | .rdset => [.minor]
  | .rset => [.major]
  | _ => []

theorem setComponent_enc {s : Spec.ObjSet} {bs : Bytes} (r : Bytes) (h : Spec.SetEnc s bs) :
    parseSetComponent (bs ++ r) =
      (Spec.roleNotes s.role, .ok (s.role, s.type, s.name.getD [], r)) := by
  obtain ⟨d, bt, bn, k, rfl, hrole, hd, ht, hn⟩ := h
  have hne : bt ++ (bn ++ r) ≠ [] := by
    obtain ⟨b, _, rfl⟩ := ht
    simp
  simp only [List.cons_append, List.append_assoc, parseSetComponent, set_role hrole hd, hne,
    if_false, if_true, List.append_nil]
  rw [(c03_ident_decodes (bt ++ (bn ++ r)) s.type _).2 ⟨bt, ht, rfl⟩]
  simp only [need]
  congr 1
  cases hname : s.name with
  | none =>
    rw [hname] at hn
    simp only at hn
    subst hn
    simp
  | some nm =>
    rw [hname] at hn
    simp only at hn
    rw [(c03_ident_decodes (bn ++ r) nm _).2 ⟨bn, hn, rfl⟩]
    simp

theorem concat_wf {ts : List Spec.TAttr} {bs : Bytes} (h : Spec.Concat Spec.TAttr.Enc ts bs) :
    ∀ t ∈ ts, t.WF := by
  induction h with
  | nil => simp
  | @cons t ts e es ht _ ih =>
    intro x hx
    simp only [List.mem_cons] at hx
    rcases hx with rfl | hx
    · obtain ⟨_, _, _, _, _, _, _, _, _, _, _, _, _, _, hv⟩ := ht
      intro vs hvs
      rw [hvs] at hv
      exact hv.1
    · exact ih x hx

/-- C24.  A record that holds an object set, laid out according to the standard, parses
to this object set: type, name, role, and each object with its name and attributes.
Nothing is logged apart from the notes on unsupported roles and on empty sets. -/
theorem c24_parse (s : Spec.ObjSet) (bs : Bytes) (h : Spec.ObjSetEnc s bs) :
    ∃ set, ObjectSet.new bs = .ok set ∧
      set.type = s.type ∧ set.name = s.name.getD [] ∧ set.role = s.role ∧
      set.parse.type = s.type ∧ set.parse.name = s.name.getD [] ∧ set.parse.role = s.role ∧
      set.parse.objs = s.values ∧
      set.parse.log = Spec.roleNotes s.role ++ (if s.objects = [] then [.info] else []) ∧
      set.parse.undefined = false := by
  obtain ⟨b₁, b₂, b₃, rfl, h1, h2, h3, hne, hnd⟩ := h
  have e1 := setComponent_enc (b₂ ++ b₃) h1
  have hwf := concat_wf h2
  have hnext := objectsNext h3 (Or.inl rfl : ObjectNext [])
  simp only [List.append_nil] at hnext
  have hob : b₃ = [] ↔ s.objects = [] := by
    constructor
    · refine fun hb => concat_nil ?_ h3 hb
      rintro o ⟨d, bn, bc, hx, _⟩
      simp at hx
    · intro ho
      rw [ho] at h3
      cases h3
      rfl
  have e2 := templateLoop_enc h2 hnext (by rw [ne_eq b₃, hob]; exact hne)
    ((b₂ ++ b₃).length + 1) [] (Spec.roleNotes s.role) (by omega)
  obtain ⟨m, _, e3⟩ := objectsLoop_enc s.type hwf hnd h3 (Or.inl rfl : ObjectNext []) b₃.length
    (by simp)
  have hz : objectsLoop s.type (s.template.map Spec.TAttr.attr) m [] = ([], .ok ()) := by
    cases m <;> rfl
  simp only [hz, List.append_nil] at e3
  refine ⟨_, by simp only [ObjectSet.new, e1]; rfl, rfl, rfl, rfl, ?_⟩
  simp only [ObjectSet.parse, e1, parseTemplate, e2, List.nil_append, parseObjects, e3,
    ObjectSet.finish, Bool.false_eq_true, if_false, Spec.ObjSet.values, hob, and_self]

end Dlisio.Dlis
