import Verif.Spec.Struct
import Verif.Model.Init

/-!
# What is left of a class without the traces of its declaration

Creating a class records, for every field, its index and offset, the name of its type and which arguments were given explicitly; and for the class
how many fields are its own, its options, and its size.  `bare` forgets all of this.
-/

namespace Verif
open Spec

/-- The attributes of a field that say what it is, not where and how it was declared. -/
def FieldBase.bare (b : FieldBase) : FieldBase := { b with index := 0, offset := none, typeName := "", explicit := [] }

/-- The same field without the traces of its declaration. -/
def Field.bare (f : Field) : Field := f.withBase f.base.bare

/-- The same class without the traces of its declaration. -/
def StructDesc.bare (d : StructDesc) : StructDesc :=
  { d with components := d.components.map Field.bare, numOwnFields := 0, argumentDefaults := [], metaOpts := none, sizeBytes := none }

/-- The same classes. -/
def Classes.bare (Γ : Classes) : Classes := fun cls => (Γ cls).map StructDesc.bare

namespace Spec

/-- Two classes with the same fields in the same order, the same validators and the same name, however they came about. -/
def SameFormat (d e : StructDesc) : Prop := d.bare = e.bare

/-- The same for all classes of two programs. -/
def SameFormats (Γ Δ : Classes) : Prop := ∀ cls, (Γ cls).map StructDesc.bare = (Δ cls).map StructDesc.bare

end Spec

end Verif
