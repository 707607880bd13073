import Verif.Spec.Renaming
import Verif.Model.Class

/-!
# Renaming the fields in a class statement
-/

namespace Verif
namespace Spec

/-- An item of a class body: a field under its new name, or a method that validates the fields under their new names. -/
inductive ItemRenamed (ρ : String → String) : String × ClassItem → String × ClassItem → Prop where
  | field {x f f'} (h : FieldRenamed ρ f f') (ht : f'.base.typeName = f.base.typeName) (he : f'.base.explicit = f.base.explicit) :
      ItemRenamed ρ (x, .field f) (ρ x, .field f')
  | validator {x y names fn fn'} (h : ∀ V V' v, ViewAlike ρ V V' → SameE (fn V v) (fn' V' v)) :
      ItemRenamed ρ (x, .validator names fn) (y, .validator (names.map ρ) fn')
  | structValidator {x y fn fn'} (h : ∀ V V', ViewAlike ρ V V' → SameE (fn V) (fn' V')) :
      ItemRenamed ρ (x, .structValidator fn) (y, .structValidator fn')

/-- The fields have the same recorded offsets. -/
def SameOffsets (d e : StructDesc) : Prop := Each (fun f g => g.base.offset = f.base.offset) d.components e.components

/-- The classes are the same up to the names of fields, their options and offsets included. -/
structure ClassRenamed (ρ : String → String) (d e : StructDesc) : Prop where
  renamed : Renamed ρ d e
  offsets : SameOffsets d e
  metaOpts : e.metaOpts = d.metaOpts

/-- Class statements that are the same up to the names of fields. -/
structure DeclRenamed (ρ : String → String) (Γ : Classes) (decl decl' : ClassDecl) : Prop where
  body : Each (ItemRenamed ρ) decl.body decl'.body
  metaOpts : decl'.metaOpts = decl.metaOpts
  bases : Each (fun base base' => Both (ClassRenamed ρ) (Γ base) (Γ base')) decl.bases decl'.bases

end Spec

end Verif
