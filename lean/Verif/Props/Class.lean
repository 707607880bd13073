import Verif.Proofs.Class
import Verif.Proofs.Size
import Verif.Proofs.ToDict
import Verif.Props.Field
import Verif.Spec.Samples

/-!
# Properties of class declarations

C25, C56, C57, C58.
-/

namespace Verif
open Spec

/-- The parts of a class declared with `class decl(base): ...`. -/
theorem fromClass_ok {Γ : Classes} {n : Nat} {decl : ClassDecl} {d : StructDesc} (h : fromClass Γ n decl = .ok d) :
    (decl.bases = [] ∧ fromClassWith decl [] [] [] none (some 0) = .ok d) ∨
    ∃ base b size, decl.bases = [base] ∧ Γ base = some b ∧ structGetSize Γ n b [] = .ok size ∧
      fromClassWith decl b.components b.fieldValidators b.structValidators b.metaOpts size = .ok d := by
  unfold fromClass at h
  split at h
  · rename_i hb; exact Or.inl ⟨hb, h⟩
  · rename_i base hb
    split at h
    · simp at h
    · rename_i b hΓ
      split at h
      · simp at h
      · rename_i size hs
        exact Or.inr ⟨base, b, size, hb, hΓ, hs, h⟩
  · simp at h

theorem fromClass_name {Γ : Classes} {n : Nat} {decl : ClassDecl} {d : StructDesc} (h : fromClass Γ n decl = .ok d) :
    d.name = decl.name := by
  rcases fromClass_ok h with ⟨_, h⟩ | ⟨_, _, _, _, _, _, h⟩ <;> exact (fromClassWith_ok h).1

/-! ## C58: inheritance -/

/-- **C58** The fields of a subclass are those of its base, unchanged and in the same order, followed by the ones in its body in order,
each with the name it is assigned to and otherwise unchanged (but for its place and byte order). -/
theorem C58_layout (Γ : Classes) (n : Nat) (decl : ClassDecl) (d b : StructDesc) (base : String) (hb : decl.bases = [base])
    (hΓ : Γ base = some b) (h : fromClass Γ n decl = .ok d) :
    ∃ own, d.components = b.components ++ own ∧ own.map Field.name = (ownFields decl.body).map (·.1) ∧
      (∀ (i : Nat) (p : String × Field), (ownFields decl.body)[i]? = some p → ∃ g, own[i]? = some g ∧ After g p.2 p.1) ∧
      ∀ p ∈ ownFields decl.body, p.1 ∉ names b := by
  rcases fromClass_ok h with ⟨h1, _⟩ | ⟨base', b', size, h1, h2, _, h3⟩
  · rw [hb] at h1; simp at h1
  · rw [hb] at h1
    cases h1
    rw [hΓ] at h2
    cases h2
    obtain ⟨-, -, -, -, -, own, h4, h5⟩ := fromClassWith_ok h3
    refine ⟨own, h4, h5.names, fun i p hp => ?_, fun p hp hc => ?_⟩
    · obtain ⟨g, index, offset, h6, h7⟩ := h5.get hp
      exact ⟨g, h6, (bindToContainer_after h7).1⟩
    · obtain ⟨c, hc1, hc2⟩ := List.mem_map.1 hc
      exact h5.fresh p hp c hc1 hc2

/-- **C58** The same for a class without a struct base. -/
theorem C58_layout_root (Γ : Classes) (n : Nat) (decl : ClassDecl) (d : StructDesc) (hb : decl.bases = [])
    (h : fromClass Γ n decl = .ok d) :
    d.components.map Field.name = (ownFields decl.body).map (·.1) ∧
      ∀ (i : Nat) (p : String × Field), (ownFields decl.body)[i]? = some p → ∃ g, d.components[i]? = some g ∧ After g p.2 p.1 := by
  rcases fromClass_ok h with ⟨_, h3⟩ | ⟨base', b', size, h1, _⟩
  · obtain ⟨-, -, -, -, -, own, h4, h5⟩ := fromClassWith_ok h3
    simp at h4
    rw [h4]
    refine ⟨h5.names, fun i p hp => ?_⟩
    obtain ⟨g, index, offset, h6, h7⟩ := h5.get hp
    exact ⟨g, h6, (bindToContainer_after h7).1⟩
  · rw [hb] at h1; simp at h1

/-- **C58** A body that assigns a field to the name of an inherited field is rejected. -/
theorem C58_redefinition_rejected (Γ : Classes) (n : Nat) (decl : ClassDecl) (b : StructDesc) (base : String)
    (hb : decl.bases = [base]) (hΓ : Γ base = some b) (p : String × Field) (hp : p ∈ ownFields decl.body)
    (hname : p.1 ∈ names b) : ∃ e, fromClass Γ n decl = .error e := by
  cases h : fromClass Γ n decl with
  | error e => exact ⟨e, rfl⟩
  | ok d =>
    obtain ⟨own, -, -, -, h4⟩ := C58_layout Γ n decl d b base hb hΓ h
    exact absurd hname (h4 p hp)

/-- **C58** … with `FieldRedefinedError` if nothing else is wrong with the fields before it. -/
theorem C58_redefinition_error (Γ : Classes) (n : Nat) (decl : ClassDecl) (b : StructDesc) (base name : String) (f : Field)
    (items : List (String × ClassItem)) (hb : decl.bases = [base]) (hΓ : Γ base = some b)
    (hsize : ∃ size, structGetSize Γ n b [] = .ok size) (hbody : decl.body = (name, .field f) :: items)
    (hname : name ∈ names b) : fromClass Γ n decl = .error (.fieldRedefined name) := by
  obtain ⟨size, hsize⟩ := hsize
  have hany : b.components.any (fun g => decide (g.name = name)) = true := by
    obtain ⟨c, hc1, hc2⟩ := List.mem_map.1 hname
    exact List.any_eq_true.2 ⟨c, hc1, by simp [hc2]⟩
  unfold fromClass
  simp only [hb, hΓ, hsize]
  unfold fromClassWith
  simp only [hbody, collectAssignedFields, hany, if_true]

/-- **C58** Inheriting from two or more structs is rejected. -/
theorem C58_multiple_inheritance_rejected (Γ : Classes) (n : Nat) (decl : ClassDecl) (h : 2 ≤ decl.bases.length) :
    fromClass Γ n decl = .error .multipleInheritance := by
  unfold fromClass
  split
  · rename_i hb; rw [hb] at h; simp at h
  · rename_i hb; rw [hb] at h; simp at h
  · rfl

/-- **C58** A subclass runs all inherited validators, then its own, in order: the methods for each inherited field, the methods for its
own fields, and the methods for the whole struct. -/
theorem C58_validators (Γ : Classes) (n : Nat) (decl : ClassDecl) (d b : StructDesc) (base : String)
    (hb : decl.bases = [base]) (hΓ : Γ base = some b) (h : fromClass Γ n decl = .ok d) :
    d.structValidators = b.structValidators ++ ownStructValidators decl.body ∧
    (∀ k l, b.fieldValidators.lookup k = some l → k ∉ (ownFields decl.body).map (·.1) →
      d.fieldValidators.lookup k = some (l ++ ownValidators k decl.body)) ∧
    (∀ k ∈ (ownFields decl.body).map (·.1), d.fieldValidators.lookup k = some (ownValidators k decl.body)) := by
  rcases fromClass_ok h with ⟨h1, _⟩ | ⟨base', b', size, h1, h2, _, h3⟩
  · rw [hb] at h1; simp at h1
  · rw [hb] at h1
    cases h1
    rw [hΓ] at h2
    cases h2
    obtain ⟨-, -, -, h4, h5, -⟩ := fromClassWith_ok h3
    refine ⟨h4, fun k l hk hn => ?_, fun k hk => ?_⟩
    · rw [h5 k, if_neg hn, hk]; rfl
    · rw [h5 k, if_pos hk]; simp

/-- **C58** Declaring a class does not change any class that was there before. -/
theorem C58_parent_unchanged (Γ : Classes) (n : Nat) (decl : ClassDecl) (d : StructDesc) (h : fromClass Γ n decl = .ok d)
    (c : String) (hc : c ≠ decl.name) : Γ.add d c = Γ c := by
  unfold Classes.add
  rw [fromClass_name h, if_neg hc]

/-- ```
class Point3(Point):
    z = Int16(endian="little")

    @validates("x", "z")
    def check(self, field, value): ...

    @validates_struct
    def check_all(self, struct): ...
``` -/
def Sample.point3Decl : ClassDecl :=
  { name := "Point3", bases := ["Point"]
    body := [("z", .field (Sample.i16 "z")), ("check", .validator ["x", "z"] fun _ _ => .ok ()),
      ("check_all", .structValidator fun _ => .ok ())] }

example : ∃ d, fromClass Sample.classes 3 Sample.point3Decl = .ok d ∧ names d = ["x", "y", "z"] ∧
    d.fieldValidators.map (fun p => (p.1, p.2.length)) = [("x", 1), ("y", 0), ("z", 1)] ∧ d.structValidators.length = 1 ∧
    d.components.map (·.base.offset) = [some 0, some 2, some 4] :=
  ⟨_, rfl, rfl, rfl, rfl, rfl⟩

-- `class Bad(Point): x = ...` is rejected
example : fromClass Sample.classes 3 { name := "Bad", bases := ["Point"], body := [("x", .field (Sample.i16 "x"))] } =
    .error (.fieldRedefined "x") :=
  C58_redefinition_error Sample.classes 3 _ Sample.point "Point" "x" (Sample.i16 "x") [] rfl rfl ⟨_, rfl⟩ rfl (by decide)

/-- In every program the field names of a struct are unique. -/
theorem fromClass_uniqueNames {Γ : Classes} {n : Nat} {decl : ClassDecl} {d : StructDesc}
    (hΓ : ∀ c b, Γ c = some b → UniqueNames b) (h : fromClass Γ n decl = .ok d) : UniqueNames d := by
  rcases fromClass_ok h with ⟨_, h3⟩ | ⟨base', b, size, _, h2, _, h3⟩
  · obtain ⟨-, -, -, -, -, own, h4, h5⟩ := fromClassWith_ok h3
    unfold UniqueNames names
    rw [h4]
    exact h5.nodup (by simp)
  · obtain ⟨-, -, -, -, -, own, h4, h5⟩ := fromClassWith_ok h3
    unfold UniqueNames names
    rw [h4]
    exact h5.nodup (hΓ _ _ h2)

theorem collectAnnotated_ok {Γ : Classes} {n : Nat} {defaults : List (String × Endian)} {hints : List Hint}
    {comps out : List Field} {i j : Nat} {o p : Option Int}
    (h : collectAnnotated Γ n defaults hints comps i o = .ok (out, j, p)) (hc : (comps.map Field.name).Nodup) :
    (out.map Field.name).Nodup ∧ ∃ new, out = comps ++ new := by
  induction hints generalizing comps i o with
  | nil => simp only [collectAnnotated] at h; cases h; exact ⟨hc, [], by simp⟩
  | cons x hints ih =>
    simp only [collectAnnotated] at h
    split at h
    · simp at h
    · exact ih h hc
    · split at h
      · simp at h
      · rename_i hn
        split at h
        · simp at h
        · rename_i g hg
          have hg2 := (bindToContainer_after hg).2.1
          obtain ⟨h1, new, h2⟩ := ih h (by
            rw [List.map_append, List.nodup_append]
            refine ⟨hc, by simp, ?_⟩
            intro a ha b hb
            simp at hb
            obtain ⟨c, hc1, rfl⟩ := List.mem_map.1 ha
            rw [hb, hg2]
            intro he
            exact hn (List.any_eq_true.2 ⟨c, hc1, by simp [he]⟩))
          exact ⟨h1, g :: new, by simp [h2]⟩
    · simp at h

/-- **C58** In every program — any number of classes, inheritance chains of any length, assigned or annotated fields — no struct has two
fields of the same name. -/
theorem C58_unique_names (Γ : Classes) (hΓ : Program Γ) (c : String) (d : StructDesc) (h : Γ c = some d) : UniqueNames d := by
  induction hΓ generalizing c d with
  | empty => simp at h
  | declare _ _ hd ih =>
    unfold Classes.add at h
    split at h
    · cases h; exact fromClass_uniqueNames (fun c b hb => ih c b hb) hd
    · exact ih c d h
  | annotate _ _ hd ha ih =>
    unfold Classes.add at h
    split at h
    · cases h
      have hu := fromClass_uniqueNames (fun c b hb => ih c b hb) hd
      unfold pep526Dataclass at ha
      split at ha
      · simp at ha
      · split at ha
        · simp at ha
        · rename_i comps found offset hc
          split at ha
          · simp at ha
          · cases ha
            exact (collectAnnotated_ok hc hu).1
    · exact ih c d h

/-! ## C56: byte order -/

/-- Which defaults apply to a class: its own `Meta`, else the one it inherits. -/
theorem C56_settings (Γ : Classes) (n : Nat) (decl : ClassDecl) (d : StructDesc) (h : fromClass Γ n decl = .ok d) :
    (∀ m, decl.metaOpts = some m → d.argumentDefaults = m) ∧
    (decl.metaOpts = none → decl.bases = [] → d.argumentDefaults = []) ∧
    (∀ base b, decl.metaOpts = none → decl.bases = [base] → Γ base = some b →
      d.argumentDefaults = b.metaOpts.getD [] ∧ d.metaOpts = b.metaOpts) := by
  rcases fromClass_ok h with ⟨h1, h3⟩ | ⟨base', b', size, h1, h2, _, h3⟩
  · obtain ⟨-, h4, h5, -⟩ := fromClassWith_ok h3
    refine ⟨fun m hm => ?_, fun hm _ => ?_, fun base b _ hb => ?_⟩
    · rw [h5, h4, hm]; rfl
    · rw [h5, h4, hm]; rfl
    · rw [h1] at hb; simp at hb
  · obtain ⟨-, h4, h5, -⟩ := fromClassWith_ok h3
    refine ⟨fun m hm => ?_, fun _ hb => ?_, fun base b hm hb hΓ => ?_⟩
    · rw [h5, h4, hm]; rfl
    · rw [h1] at hb; simp at hb
    · rw [h1] at hb
      cases hb
      rw [hΓ] at h2
      cases h2
      rw [h5, h4, hm]
      exact ⟨rfl, rfl⟩

/-- **C56** The byte order of an `Integer` field (or one of the sized integer classes: `fieldClass`, `size`, `signed`) of a struct: the field's
own `endian` argument, else the struct's default for that field class, else the struct's default for all fields, else
`sys.byteorder`. -/
theorem C56_byte_order (Γ : Classes) (n : Nat) (decl : ClassDecl) (d : StructDesc) (h : fromClass Γ n decl = .ok d)
    (hΓ : Program Γ) (hfresh : Γ decl.name = none) (sys : Endian) (fieldClass : String) (size : FSize) (signed : Bool)
    (endian : Option Endian) (a : FieldArgs) (f : Field) (name : String)
    (hexp : "endian" ∈ a.explicit ↔ endian.isSome) (hf : mkInteger sys fieldClass size signed endian a = .ok f)
    (hbody : (name, f) ∈ ownFields decl.body) :
    ∃ b e, d.find? name = some (.leaf b (.integer signed e)) ∧ ByteOrder sys d.argumentDefaults fieldClass endian e := by
  have hu : UniqueNames d := C58_unique_names _ (.declare hΓ hfresh h) d.name d (by simp [Classes.add])
  obtain ⟨i, hi⟩ := List.getElem?_of_mem hbody
  have hnew : ∃ comps offset new, Binds d.argumentDefaults (ownFields decl.body) comps offset new ∧ ∀ g ∈ new, g ∈ d.components := by
    rcases fromClass_ok h with ⟨_, h3⟩ | ⟨base', b', sz, _, _, _, h3⟩ <;>
    · obtain ⟨-, -, -, -, -, own, h4, h5⟩ := fromClassWith_ok h3
      exact ⟨_, _, own, h5, fun g hg => by rw [h4]; exact List.mem_append_right _ hg⟩
  obtain ⟨comps, offset, new, hb, hmem⟩ := hnew
  obtain ⟨g, index, off, hg, hbind⟩ := hb.get hi
  have hgm := hmem g (List.mem_of_getElem? hg)
  have hfind := find?_of_mem hu hgm
  rw [(bindToContainer_after hbind).2.1] at hfind
  rw [hfind]
  -- what the constructor made
  have hmk : ∃ b0, f = .leaf b0 (.integer signed (endian.getD sys)) ∧ b0.explicit = a.explicit ∧ b0.typeName = fieldClass := by
    unfold mkInteger mkLeaf at hf
    cases hin : fieldInit fieldClass (constSize (.integer signed (endian.getD sys))) { a with size := size } with
    | error e => rw [hin] at hf; simp [Except.map] at hf
    | ok b0 =>
      rw [hin] at hf
      simp only [Except.map] at hf
      cases hf
      refine ⟨b0, rfl, ?_⟩
      unfold fieldInit at hin
      split at hin
      · simp at hin
      · simp only at hin
        split at hin
        · cases hin; exact ⟨rfl, rfl⟩
        · split at hin
          · simp at hin
          · cases hin; exact ⟨rfl, rfl⟩
          · cases hin; exact ⟨rfl, rfl⟩
  obtain ⟨b0, rfl, he, ht⟩ := hmk
  obtain ⟨-, f', rfl, hcases⟩ := bindToContainer_ok hbind
  simp only [Field.withBase, Field.base, overridingDefault, he, ht,
    show fieldClass ++ "__" ++ "endian" = fieldClass ++ "__endian" by rw [String.append_assoc]; rfl] at hcases
  rcases hcases with ⟨e, h1, rfl⟩ | ⟨h1, rfl⟩
  · refine ⟨_, e, rfl, ?_⟩
    split at h1
    · simp at h1
    · rename_i hne
      have hnone : endian = none := by
        cases endian with
        | none => rfl
        | some x => exact absurd (by simpa using hexp.2 rfl) (by simpa using hne)
      subst hnone
      split at h1
      · rename_i e' hl; cases h1; exact .forClass hl
      · rename_i hl; exact .forAll hl h1
  · refine ⟨_, _, rfl, ?_⟩
    cases endian with
    | some x => exact .argument x
    | none =>
      split at h1
      · rename_i hc
        exact absurd (hexp.1 (by simpa using hc)) (by simp)
      · split at h1
        · simp at h1
        · rename_i hl; exact .machine hl h1

/-- ```
class Big(Struct):
    class Meta:
        argument_defaults = {"endian": "big", "UInt16__endian": "little"}
    a = Int32()
    b = UInt16()
    c = UInt32(endian="little")
    d = Array(UInt32(), count=1)
``` -/
def Sample.bigDecl : ClassDecl :=
  { name := "Big", metaOpts := some [("endian", .big), ("UInt16__endian", .little)]
    body := [("a", .field (.leaf { typeName := "Int32", size := .fixed 4 } (.integer true .little))),
      ("b", .field (.leaf { typeName := "UInt16", size := .fixed 2 } (.integer false .little))),
      ("c", .field (.leaf { typeName := "UInt32", size := .fixed 4, explicit := ["endian"] } (.integer false .little))),
      ("d", .field (.array { typeName := "Array", size := .fixed 4 }
        (.leaf { typeName := "UInt32", size := .fixed 4 } (.integer false .little)) (.fixed 1) none))] }

example : mkInteger .little "Int32" (.fixed 4) true none {} =
    .ok (.leaf { typeName := "Int32", size := .fixed 4 } (.integer true .little)) := rfl

/-- The byte orders of the direct integer fields, for the examples. -/
def Sample.orders (d : StructDesc) : List (Option Endian) :=
  d.components.map fun | .leaf _ (.integer _ e) => some e | _ => none

example : (fromClass Sample.noClasses 3 Sample.bigDecl).map Sample.orders =
    .ok [some .big, some .little, some .little, none] := by decide

/-! ## C57: fields inside other fields -/

/-- **C57** refuted: `argument_defaults` do not reach the component of an array.  The class above says "big", but its array of `UInt32` is dumped in
the byte order of the machine. -/
theorem C57_defaults_reach_every_field_refuted :
    ∃ (decl : ClassDecl) (d : StructDesc) (vals : Dict), fromClass Sample.noClasses 3 decl = .ok d ∧
      d.argumentDefaults.lookup "endian" = some .big ∧
      (∃ b c, d.find? "d" = some (.array b (.leaf c (.integer false .little)) (.fixed 1) none) ∧ c.explicit = [] ∧
        c.typeName = "UInt32") ∧ d.argumentDefaults.lookup "UInt32__endian" = none ∧
      (structToStream Sample.noClasses 6 d vals .none).1.drop 10 = [1, 0, 0, 0] := by
  refine ⟨Sample.bigDecl, _, [("a", .int 1), ("b", .int 1), ("c", .int 1), ("d", .list [.int 1])], rfl, rfl, ⟨_, _, rfl, rfl, rfl⟩,
    by decide, by decide⟩

/-- **C57** refuted for another kind of field: a default byte order is not applied to `Float32`. -/
theorem C57_floats_refuted :
    ∃ (decl : ClassDecl) (d : StructDesc), fromClass Sample.noClasses 3 decl = .ok d ∧
      d.argumentDefaults.lookup "endian" = some .big ∧
      (structToStream Sample.noClasses 6 d [("x", .float 0x3FF0000000000000)] .none) = ([0, 0, 0x80, 0x3F], .ok ()) :=
  ⟨{ name := "F", metaOpts := some [("endian", .big)]
     body := [("x", .field (.leaf { typeName := "Float32", size := .fixed 4 } (.float binary32 .little)))] },
   _, rfl, rfl, by decide⟩

/-- **C57**, the part that holds: every integer field in the class body that does not set `endian` itself gets the struct's default. -/
theorem C57_direct_fields_partial (Γ : Classes) (n : Nat) (decl : ClassDecl) (d : StructDesc) (h : fromClass Γ n decl = .ok d)
    (hΓ : Program Γ) (hfresh : Γ decl.name = none) (b : FieldBase) (signed : Bool) (e0 e : Endian) (name : String)
    (hexp : "endian" ∉ b.explicit) (hbody : (name, .leaf b (.integer signed e0)) ∈ ownFields decl.body)
    (hdef : d.argumentDefaults.lookup (b.typeName ++ "__endian") = some e ∨
      (d.argumentDefaults.lookup (b.typeName ++ "__endian") = none ∧ d.argumentDefaults.lookup "endian" = some e)) :
    ∃ b', d.find? name = some (.leaf b' (.integer signed e)) := by
  have hu : UniqueNames d := C58_unique_names _ (.declare hΓ hfresh h) d.name d (by simp [Classes.add])
  obtain ⟨i, hi⟩ := List.getElem?_of_mem hbody
  have hnew : ∃ comps offset new, Binds d.argumentDefaults (ownFields decl.body) comps offset new ∧ ∀ g ∈ new, g ∈ d.components := by
    rcases fromClass_ok h with ⟨_, h3⟩ | ⟨base', b', sz, _, _, _, h3⟩ <;>
    · obtain ⟨-, -, -, -, -, own, h4, h5⟩ := fromClassWith_ok h3
      exact ⟨_, _, own, h5, fun g hg => by rw [h4]; exact List.mem_append_right _ hg⟩
  obtain ⟨comps, offset, new, hb, hmem⟩ := hnew
  obtain ⟨g, index, off, hg, hbind⟩ := hb.get hi
  have hfind := find?_of_mem hu (hmem g (List.mem_of_getElem? hg))
  rw [(bindToContainer_after hbind).2.1] at hfind
  rw [hfind]
  obtain ⟨-, f', rfl, hcases⟩ := bindToContainer_ok hbind
  have hov : overridingDefault { b with name := name, index := index, offset := off } d.argumentDefaults "endian" = some e := by
    unfold overridingDefault
    have : b.explicit.contains "endian" = false := by simpa using hexp
    simp only [this, Bool.false_eq_true, if_false]
    rcases hdef with hd | ⟨hd1, hd2⟩
    · simp only [show b.typeName ++ "__" ++ "endian" = b.typeName ++ "__endian" by rw [String.append_assoc]; rfl, hd]
    · simp only [show b.typeName ++ "__" ++ "endian" = b.typeName ++ "__endian" by rw [String.append_assoc]; rfl, hd1, hd2]
  simp only [Field.withBase, Field.base] at hcases
  rw [hov] at hcases
  rcases hcases with ⟨e', h1, rfl⟩ | ⟨h1, _⟩
  · cases h1; exact ⟨_, rfl⟩
  · simp at h1

/-! ## C25: offsets -/

theorem sumSizes_total {Γ : Classes} {n : Nat} {fs : List Field} (h : ∀ f ∈ fs, SizeNotGuessed f) :
    (∃ k, total (sizes fs) = some k ∧ sumSizes (fun f => fieldExpectedSize Γ n f []) fs = .ok k) ∨
    (total (sizes fs) = none ∧ ∃ e, sumSizes (fun f => fieldExpectedSize Γ n f []) fs = .error e ∧
      ((∃ x, e = .undefinedSize x) ∨ ∃ x, e = .missingRequired x)) := by
  induction fs with
  | nil => exact Or.inl ⟨0, rfl, rfl⟩
  | cons f fs ih =>
    have hexp : ∀ r, f.base.expectedSizeWith r (.error .outOfFuel) [] = f.base.expectedSizeWith r (.error .outOfFuel) [] :=
      fun _ => rfl
    cases hs : f.base.size with
    | fixed k =>
      have h1 : fieldExpectedSize Γ n f [] = .ok k := fieldExpectedSize_declared (Or.inl hs)
      simp only [sumSizes, h1]
      rcases ih (fun g hg => h g (List.mem_cons_of_mem _ hg)) with ⟨t, h2, h3⟩ | ⟨h2, e, h3, h4⟩
      · refine Or.inl ⟨k + t, ?_, by rw [h3]⟩
        simp only [sizes, List.map_cons, hs, total]
        simp only [sizes] at h2
        rw [h2]; rfl
      · refine Or.inr ⟨?_, e, by rw [h3], h4⟩
        simp only [sizes, List.map_cons, hs, total]
        simp only [sizes] at h2
        rw [h2]; rfl
    | ref r =>
      have h1 : fieldExpectedSize Γ n f [] = .error (.missingRequired r) := by
        cases f <;>
        · simp only [Field.base] at hs
          simp [fieldExpectedSize, leafExpectedSize, containerExpectedSize, FieldBase.expectedSizeWith, Field.base, hs,
            sizeFromRef, Dict.get?]
      simp only [sumSizes, h1]
      exact Or.inr ⟨by simp [sizes, hs, total], _, rfl, Or.inr ⟨_, rfl⟩⟩
    | none =>
      have hd : f.base.default = .ok .undefined := by
        rcases h f List.mem_cons_self with h0 | h0
        · exact absurd hs h0
        · exact h0
      have h1 : fieldExpectedSize Γ n f [] = .error (.undefinedSize f.base.name) := by
        cases f <;>
        · simp only [Field.base] at hs hd
          simp [fieldExpectedSize, leafExpectedSize, containerExpectedSize, FieldBase.expectedSizeWith, Field.base, hs,
            FieldBase.sizingValue, Dict.get?, hd]
      simp only [sumSizes, h1]
      exact Or.inr ⟨by simp [sizes, hs, total], _, rfl, Or.inl ⟨_, rfl⟩⟩

theorem structGetSize_total {Γ : Classes} {n : Nat} {d : StructDesc} (h : ∀ f ∈ d.components, SizeNotGuessed f) :
    structGetSize Γ n d [] = .ok (total (sizes d.components)) := by
  unfold structGetSize
  rcases sumSizes_total (Γ := Γ) (n := n) h with ⟨k, h1, h2⟩ | ⟨h1, e, h2, ⟨x, rfl⟩ | ⟨x, rfl⟩⟩
  · rw [h1, h2]
  · rw [h1, h2]
  · rw [h1, h2]

theorem total_append (a b : List FSize) : total (a ++ b) = (total a).bind fun x => (total b).map (x + ·) := by
  induction a with
  | nil => simp [total]
  | cons s a ih =>
    cases s with
    | fixed k =>
      simp only [List.cons_append, total, ih]
      cases total a with
      | none => rfl
      | some x =>
        cases total b with
        | none => rfl
        | some y => simp; omega
    | none => simp [total]
    | ref r => simp [total]

theorem offsets_of {defaults : List (String × Endian)} {own : List (String × Field)} {comps out : List Field}
    (h : Binds defaults own comps (total (sizes comps)) out)
    (hc : ∀ pre f post, comps = pre ++ f :: post → f.base.offset = total (sizes pre)) :
    ∀ pre f post, comps ++ out = pre ++ f :: post → f.base.offset = total (sizes pre) := by
  intro pre f post he
  rcases List.append_eq_append_iff.1 he with ⟨as, h1, h2⟩ | ⟨bs, h1, h2⟩
  · -- the field is one of the new ones
    rw [(h.offsets h2).1, h1]
    unfold sizes
    rw [List.map_append, total_append]
  · cases bs with
    | nil =>
      simp at h1 h2
      subst h1
      rw [(h.offsets (pre := []) h2.symm).1]
      cases total (sizes comps) <;> simp [sizes, total]
    | cons b bs =>
      simp at h2
      obtain ⟨rfl, _⟩ := h2
      exact hc _ _ _ h1

/-- **C25** In a class without a struct base, a field's offset is the sum of the sizes of the fields before it if they all have fixed size, else
`None`. -/
theorem C25_offsets_root (Γ : Classes) (n : Nat) (decl : ClassDecl) (d : StructDesc) (hb : decl.bases = [])
    (h : fromClass Γ n decl = .ok d) : Offsets d := by
  rcases fromClass_ok h with ⟨_, h3⟩ | ⟨base', b', size, h1, _⟩
  · obtain ⟨-, -, -, -, -, own, h4, h5⟩ := fromClassWith_ok h3
    unfold Offsets
    rw [h4]
    exact offsets_of (comps := []) h5 (by simp)
  · rw [hb] at h1; simp at h1

/-- **C25** refuted in general: the offset after an inherited field that has no size but a default counts the default's length, and so is a
number although the field is not of fixed size. -/
theorem C25_offset_none_refuted :
    ∃ (Γ : Classes) (c : String) (d : StructDesc) (pre : List Field) (f : Field), Assigned Γ ∧ Γ c = some d ∧
      d.components = pre ++ [f] ∧ total (sizes pre) = none ∧ f.base.offset = some 3 ∧
      structToStream Γ 6 d [("s", .bytes [9]), ("x", .int 7)] .none = ([9, 7], .ok ()) := by
  let s : Field := .leaf { name := "s", typeName := "Bytes", dflt := .bytes [1, 2, 3], offset := some 0 } .bytes
  let x : Field := .leaf { name := "x", typeName := "UInt8", size := .fixed 1, index := 1, offset := some 3 } (.integer false .little)
  let baseDecl : ClassDecl :=
    { name := "Base", body := [("s", .field (.leaf { typeName := "Bytes", dflt := .bytes [1, 2, 3] } .bytes))] }
  let subDecl : ClassDecl :=
    { name := "Sub", bases := ["Base"]
      body := [("x", .field (.leaf { typeName := "UInt8", size := .fixed 1 } (.integer false .little)))] }
  let base : StructDesc := { name := "Base", components := [s], fieldValidators := [("s", [])], numOwnFields := 1 }
  let sub : StructDesc :=
    { name := "Sub", components := [s, x], fieldValidators := [("s", []), ("x", [])], numOwnFields := 1 }
  refine ⟨Classes.add (Classes.add (fun _ => none) base) sub, "Sub", sub, [s], x,
    .declare (n := 3) (decl := subDecl) (.declare (n := 3) (decl := baseDecl) .empty rfl ?_) ?_ ?_, by simp [Classes.add, sub], rfl, rfl,
    rfl, by decide⟩
  · rfl
  · decide
  · rfl

/-- **C25** refuted for annotated subclasses: offsets start at 0 again although there are inherited fields. -/
theorem C25_annotated_subclass_refuted :
    ∃ (Γ : Classes) (c : String) (d : StructDesc) (f g : Field), Program Γ ∧ Γ c = some d ∧ d.components = [f, g] ∧
      f.base.size = .fixed 1 ∧ g.base.offset = some 0 ∧ g.base.index = 0 := by
  let x : Field := .leaf { name := "x", typeName := "UInt8", size := .fixed 1, offset := some 0 } (.integer false .little)
  let y : Field := .leaf { name := "y", typeName := "UInt8", size := .fixed 1, offset := some 0, explicit := ["name", "default"] } (.integer false .little)
  let base : StructDesc := { name := "Base", components := [x], fieldValidators := [("x", [])], numOwnFields := 1 }
  let sub : StructDesc :=
    { name := "Sub", components := [x, y], fieldValidators := [("x", [])], numOwnFields := 1, sizeBytes := some 1 }
  let sub0 : StructDesc := { name := "Sub", components := [x], fieldValidators := [("x", [])] }
  refine ⟨Classes.add (Classes.add (fun _ => none) base) sub, "Sub", sub, x, y,
    .annotate (n := 3) (m := 3) (decl := { name := "Sub", bases := ["Base"], body := [] }) (d := sub0)
      (hints := [{ name := "y", annotations := [.fieldClass (mkInteger .little "UInt8" (.fixed 1) false none) false] }])
      (.declare (n := 3)
        (decl := { name := "Base", body := [("x", .field (.leaf { typeName := "UInt8", size := .fixed 1 } (.integer false .little)))] })
        .empty rfl rfl) (by decide) rfl rfl, by simp [Classes.add, sub], rfl, rfl, rfl, rfl⟩

/-- **C25**, the part that holds: in every program of assigned fields, inheritance chains of any length included, the offsets of a struct are right
provided none of its fields gets its size guessed from a default. -/
theorem C25_offsets_partial (Γ : Classes) (hΓ : Assigned Γ) (c : String) (d : StructDesc) (h : Γ c = some d)
    (hsz : ∀ f ∈ d.components, SizeNotGuessed f) : Offsets d := by
  induction hΓ generalizing c d with
  | empty => simp at h
  | declare _ _ hd ih =>
    unfold Classes.add at h
    split at h
    · cases h
      rcases fromClass_ok hd with ⟨h1, _⟩ | ⟨base, b, size, h1, h2, h3, h4⟩
      · exact C25_offsets_root _ _ _ _ h1 hd
      · obtain ⟨-, -, -, -, -, own, h5, h6⟩ := fromClassWith_ok h4
        have hb : ∀ f ∈ b.components, SizeNotGuessed f := fun f hf => hsz f (by rw [h5]; exact List.mem_append_left _ hf)
        rw [structGetSize_total hb] at h3
        cases h3
        unfold Offsets
        rw [h5]
        exact offsets_of h6 (ih base b h2 hb)
    · exact ih c d h hsz

/-- **C25** A field whose offset is the sum of the sizes before it is found there in every dump in which the fields before it are present, and are not
`None` or have bytes for `None` that are as long as the field. -/
theorem C25_bytes_at_offset (Γ : Classes) (n : Nat) (d : StructDesc) (vals : Dict) (ctx : Value) (bs : Bytes)
    (pre post : List Field) (f : Field) (o : Int) (hf : d.components = pre ++ f :: post) (ho : Offsets d)
    (hoff : f.base.offset = some o) (hpad : ∀ g ∈ pre, PadsExactly g)
    (hpres : ∀ all, structToDict Γ n d vals = .ok all → ∀ g ∈ pre, ¬ Skipped g all ctx ∧
      (NullFits g ∨ ∀ v w, Dumped g all ctx v → Effective g v w → w ≠ .none))
    (h : structToStream Γ (n + 1) d vals ctx = (bs, .ok ())) :
    ∃ all before p after, structToDict Γ n d vals = .ok all ∧ bs = before ++ p ++ after ∧ (before.length : Int) = o ∧
      Part Γ n ctx all f p := by
  obtain ⟨all, as, p, cs, h1, h2, h3, h4, -⟩ := structToStream_part h hf
  refine ⟨all, as.flatten, p, cs.flatten, h1, h2, ?_, h4⟩
  have hp := hpres all h1
  rw [ho pre f post hf] at hoff
  clear h2 h4 ho hf hpres
  induction h3 generalizing o with
  | nil => simp [sizes, total] at hoff; simp [hoff]
  | @cons g gs q qs hq hqs ih =>
    simp only [sizes, List.map_cons] at hoff
    cases hs : g.base.size with
    | none => simp [hs, total] at hoff
    | ref r => simp [hs, total] at hoff
    | fixed k =>
      simp only [hs, total] at hoff
      obtain ⟨t, ht, hk⟩ := Option.map_eq_some_iff.1 hoff
      have ih' := ih t ht (fun x hx => hpad x (List.mem_cons_of_mem _ hx)) (fun x hx => hp x (List.mem_cons_of_mem _ hx))
      have hlen : (q.length : Int) = k := by
        rcases hq with ⟨hskip, -⟩ | ⟨v, hv, hw⟩
        · exact absurd hskip (hp g List.mem_cons_self).1
        · rcases (hp g List.mem_cons_self).2 with hnf | hnn
          · exact fixed_dump_length hs (hpad g List.mem_cons_self) hnf hw
          · obtain ⟨w, heff⟩ : ∃ w, Effective g v w := by
              by_cases hvd : v = .dflt
              · cases n with
                | zero => cases g <;> simp [fieldToStream, W.fail] at hw
                | succ n =>
                  rw [fieldToStream_succ] at hw
                  obtain ⟨w, h5, -⟩ := toStreamWith_ok hw
                  rw [if_pos hvd] at h5
                  exact ⟨w, Or.inr ⟨hvd, h5⟩⟩
              · exact ⟨v, Or.inl ⟨hvd, rfl⟩⟩
            exact C15_declared_size_written Γ n g v w ctx all q k (Or.inl hs) heff (hnn v w hv heff)
              (hpad g List.mem_cons_self) hw
      simp only [List.flatten_cons, List.length_append]
      omega

/-- ```
class Point(Struct):
    x = Int16(endian="little")
    y = Int16(endian="little")
``` -/
def Sample.pointDecl : ClassDecl :=
  { name := "Point", body := [("x", .field (Sample.i16 "x")), ("y", .field (Sample.i16 "y"))] }

-- the second field is at offset 2, and found there
example : ∃ d, fromClass Sample.noClasses 3 Sample.pointDecl = .ok d ∧ Offsets d ∧ d.components.map (·.base.offset) = [some 0, some 2] ∧
    structToStream Sample.noClasses 3 d [("x", .int 1), ("y", .int 2)] .none = ([1, 0, 2, 0], .ok ()) :=
  ⟨_, rfl, C25_offsets_root Sample.noClasses 3 Sample.pointDecl _ rfl rfl, rfl, by decide⟩

end Verif
