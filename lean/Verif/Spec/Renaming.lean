import Verif.Model.Struct

/-!
# Renaming the fields of a class

`Renamed ρ d e` says that the class `e` is the class `d` with every field `x` called `ρ x`, also where a size or a count refers
to it, and with callables that do with the new names what those of `d` do with the old ones.  The classes of nested structs are
not touched.  Exceptions may name other fields, but are of the same type and otherwise equal.
-/

namespace Verif

/-- The dictionary with other keys. -/
def Dict.rename (ρ : String → String) (d : Dict) : Dict := d.map fun p => (ρ p.1, p.2)

/-- An exception without the names of fields in it. -/
def Err.anon : Err → Err
  | .eof _ size offset => .eof none size offset
  | .deser _ => .deser none
  | .serialization _ => .serialization ""
  | .unserializable _ => .unserializable ""
  | .valueSize _ => .valueSize ""
  | .missingRequired _ => .missingRequired ""
  | .unexpectedValue names => .unexpectedValue (names.map fun _ => "")
  | .arraySize _ expected given => .arraySize "" expected given
  | .validation _ => .validation ""
  | .fieldReference _ => .fieldReference ""
  | .immutableField _ => .immutableField ""
  | .fieldRedefined _ => .fieldRedefined ""
  | .undefinedSize _ => .undefinedSize ""
  | .cannotDetermineNull _ => .cannotDetermineNull ""
  | .buggyField _ => .buggyField ""
  | .keyErr _ => .keyErr ""
  | e => e

namespace Spec

/-- Both return related values, or both raise the same exception up to the names of fields. -/
inductive AlikeE {α β : Type} (R : α → β → Prop) : Except Err α → Except Err β → Prop where
  | ok {a b} (h : R a b) : AlikeE R (.ok a) (.ok b)
  | error {e e'} (h : e.anon = e'.anon) : AlikeE R (.error e) (.error e')

/-- Both return the same, or both raise the same exception up to the names of fields. -/
abbrev SameE {α : Type} : Except Err α → Except Err α → Prop := AlikeE Eq

/-- The same was written, and the outcome is the same. -/
def SameW (a b : W) : Prop := a.1 = b.1 ∧ SameE a.2 b.2

/-- The streams are in the same state, and the outcomes are related. -/
def AlikeR {α β : Type} (Q : α → β → Prop) (a : R α) (b : R β) : Prop := a.2 = b.2 ∧ AlikeE Q a.1 b.1

/-- The two lists are of equal length and related element by element. -/
inductive Each {α β : Type} (R : α → β → Prop) : List α → List β → Prop where
  | nil : Each R [] []
  | cons {a b as bs} (h : R a b) (hs : Each R as bs) : Each R (a :: as) (b :: bs)

/-- What a callable sees under the old and under the new names. -/
def ViewAlike (ρ : String → String) (V V' : View) : Prop :=
  ∀ k, V'.contains (ρ k) = V.contains k ∧ SameE (V.get k) (V'.get (ρ k))

/-- The `size` argument under the new names. -/
def sizeRenamed (ρ : String → String) : FSize → FSize
  | .ref x => .ref (ρ x)
  | s => s

/-- The `count` argument under the new names. -/
def countRenamed (ρ : String → String) : Count → Count
  | .ref x => .ref (ρ x)
  | c => c

/-- The optional arguments are both missing or both given and related. -/
inductive Both {α β : Type} (R : α → β → Prop) : Option α → Option β → Prop where
  | none : Both R none none
  | some {a b} (h : R a b) : Both R (some a) (some b)

/-- The attributes of two fields are the same, except perhaps for their own names. -/
structure BaseAlike (ρ : String → String) (b b' : FieldBase) : Prop where
  const : b'.const = b.const
  dflt : b'.dflt = b.dflt
  factory : b'.factory = b.factory
  discard : b'.discard = b.discard
  nullValue : b'.nullValue = b.nullValue
  size : b'.size = sizeRenamed ρ b.size
  validators : b'.validators = b.validators
  present : ∀ V V' ctx s, ViewAlike ρ V V' → SameE (b.present V ctx s) (b'.present V' ctx s)
  notPresentValue : b'.notPresentValue = b.notPresentValue
  computeFn : Both (fun fn fn' => ∀ V V', ViewAlike ρ V V' → SameE (fn V) (fn' V')) b.computeFn b'.computeFn

/-- The attributes of a field under its new name. -/
structure BaseRenamed (ρ : String → String) (b b' : FieldBase) : Prop extends BaseAlike ρ b b' where
  name : b'.name = ρ b.name

/-- User-defined field types under the new names. -/
structure OpsRenamed (ρ : String → String) (o o' : CustomOps) : Prop where
  dump : ∀ v ctx all, SameW (o.dump v ctx all) (o'.dump v ctx (all.rename ρ))
  load : ∀ s ctx loaded, AlikeR Eq (o.load s ctx loaded) (o'.load s ctx (loaded.rename ρ))
  sizeFor : Both (fun g g' => ∀ v, SameE (g v) (g' v)) o.sizeFor o'.sizeFor
  pad : Both (fun g g' => ∀ bs n, SameE (g bs n) (g' bs n)) o.pad o'.pad

/-- Field types without components: only user-defined ones know names. -/
inductive LeafRenamed (ρ : String → String) : Leaf → Leaf → Prop where
  | same {k} (h : ∀ ops, k ≠ .custom ops) : LeafRenamed ρ k k
  | custom {o o'} (h : OpsRenamed ρ o o') : LeafRenamed ρ (.custom o) (.custom o')

/-- A choice of a union: a field, or a struct class, which stays as it is. -/
inductive ChoiceRel (R : Field → Field → Prop) : Field ⊕ String → Field ⊕ String → Prop where
  | field {g g'} (h : R g g') : ChoiceRel R (.inl g) (.inl g')
  | cls (c) : ChoiceRel R (.inr c) (.inr c)

/-- A field under its new name. -/
inductive FieldRenamed (ρ : String → String) : Field → Field → Prop where
  | leaf {b b' k k'} (hb : BaseRenamed ρ b b') (hk : LeafRenamed ρ k k') : FieldRenamed ρ (.leaf b k) (.leaf b' k')
  | array {b b' comp comp' count halt halt'} (hb : BaseRenamed ρ b b') (hc : FieldRenamed ρ comp comp')
      (hh : Both (fun h h' => ∀ s vs ctx loaded, SameE (h s vs ctx loaded) (h' s vs ctx (Dict.rename ρ loaded))) halt halt') :
      FieldRenamed ρ (.array b comp count halt) (.array b' comp' (countRenamed ρ count) halt')
  | nested {b b' cls} (hb : BaseRenamed ρ b b') : FieldRenamed ρ (.nested b cls) (.nested b' cls)
  | union {b b' cs cs' ld ld' dd dd'} (hb : BaseRenamed ρ b b') (hc : Each (ChoiceRel (FieldRenamed ρ)) cs cs')
      (hl : ∀ s ctx loaded, SameE (ld s ctx loaded) (ld' s ctx (Dict.rename ρ loaded)))
      (hd : ∀ v ctx all, SameE (dd v ctx all) (dd' v ctx (Dict.rename ρ all))) :
      FieldRenamed ρ (.union b cs ld dd) (.union b' cs' ld' dd')

/-- The class under the new names of its fields. -/
structure Renamed (ρ : String → String) (d e : StructDesc) : Prop where
  components : Each (FieldRenamed ρ) d.components e.components
  fieldValidators : Each (fun p q => q.1 = ρ p.1 ∧
    Each (fun m m' => ∀ V V' v, ViewAlike ρ V V' → SameE (m V v) (m' V' v)) p.2 q.2) d.fieldValidators e.fieldValidators
  structValidators : Each (fun m m' => ∀ V V', ViewAlike ρ V V' → SameE (m V) (m' V')) d.structValidators e.structValidators

/-- A renaming: different fields get different names (and no field becomes nameless). -/
structure Renaming (ρ : String → String) : Prop where
  inj : ∀ x y, ρ x = ρ y → x = y
  empty : ρ "" = ""

end Spec

end Verif
