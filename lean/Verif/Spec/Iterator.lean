import Verif.Model.Iterator
import Verif.Spec.Struct

/-!
# Values that hold one-shot iterators
-/

namespace Verif.Spec

/-! ### What a value looks like to someone who can see into its iterators -/

mutual
/-- The value, each iterator in it replaced by an iterable with the items it has left. -/
def fill (σ : Its) : Value → Value
  | .list l => .list (fillList σ l)
  | .iter k => .iter (σ k)
  | .dict d => .dict (fillDict σ d)
  | .struct c d => .struct c (fillDict σ d)
  | .none => .none
  | .notPresent => .notPresent
  | .undefined => .undefined
  | .dflt => .dflt
  | .int i => .int i
  | .bytes b => .bytes b
  | .str s => .str s
  | .float b => .float b
  | .uuid n => .uuid n
  | .datetime us aware => .datetime us aware
/-- `fill` for every value of a list. -/
def fillList (σ : Its) : List Value → List Value
  | [] => []
  | v :: vs => fill σ v :: fillList σ vs
/-- `fill` for every value of a dictionary. -/
def fillDict (σ : Its) : List (String × Value) → List (String × Value)
  | [] => []
  | (k, v) :: r => (k, fill σ v) :: fillDict σ r
end

mutual
/-- The iterators in a value, one entry for each occurrence. -/
def iterators : Value → List (List Value)
  | .list l => iteratorsList l
  | .iter k => [k]
  | .dict d => iteratorsDict d
  | .struct _ d => iteratorsDict d
  | _ => []
/-- The iterators in the values of a list. -/
def iteratorsList : List Value → List (List Value)
  | [] => []
  | v :: vs => iterators v ++ iteratorsList vs
/-- The iterators in the values of a dictionary. -/
def iteratorsDict : List (String × Value) → List (List Value)
  | [] => []
  | (_, v) :: r => iterators v ++ iteratorsDict r
end

mutual
/-- No dictionary in the value has a key twice (true of all dictionaries of Python's). -/
def Keyed : Value → Prop
  | .list l => KeyedList l
  | .dict d => KeyedDict d
  | .struct _ d => KeyedDict d
  | _ => True
/-- `Keyed` for every value of a list. -/
def KeyedList : List Value → Prop
  | [] => True
  | v :: vs => Keyed v ∧ KeyedList vs
/-- `Keyed` for every value of a dictionary, and for the dictionary itself. -/
def KeyedDict : List (String × Value) → Prop
  | [] => True
  | (k, v) :: r => k ∉ Dict.keys r ∧ Keyed v ∧ KeyedDict r
end

/-- There are no iterators in the value. -/
def IterFree (v : Value) : Prop := Keyed v ∧ iterators v = []

/-- No iterator occurs twice in the value. -/
def Apart (v : Value) : Prop := Keyed v ∧ (iterators v).Nodup

/-- No iterator yields iterators. -/
def Fresh (σ : Its) : Prop := ∀ k, ∀ v ∈ σ k, IterFree v

/-- From `σ` to `σ'` only the iterators in `ks` have been advanced. -/
def Advanced (ks : List (List Value)) (σ σ' : Its) : Prop := (∀ k, k ∉ ks → σ' k = σ k) ∧ ∀ k, σ' k <:+ σ k

/-! ### Callables that do not iterate over what they are given -/

/-- A view of a struct, each iterator replaced by an iterable with the items it has left. -/
def fillView (σ : Its) (V : View) : View := ⟨V.contains, fun k => (V.get k).map (fill σ)⟩

/-- The callables of the field are not interested in the items of iterators, and the field supplies no iterators itself. -/
structure BlindBase (b : FieldBase) : Prop where
  default : ∀ v, b.default = .ok v → IterFree v
  null : IterFree b.nullValue
  validators : ∀ c ∈ b.validators, ∀ σ v, c (fill σ v) = c v
  present : ∀ σ V ctx, b.present (fillView σ V) ctx none = b.present V ctx none
  compute : ∀ fn, b.computeFn = some fn → (∀ σ V, fn (fillView σ V) = fn V) ∧ ∀ V v, fn V = .ok v → IterFree v

/-- Neither is a user-defined field class. -/
def BlindLeaf (k : Leaf) : Prop :=
  ∀ ops, k = .custom ops → (∀ σ τ v ctx all, ops.dump (fill σ v) ctx (fillDict τ all) = ops.dump v ctx all) ∧
    (∀ g, ops.sizeFor = some g → ∀ σ v, g (fill σ v) = g v)

/-- The same for all that belongs to a field. -/
inductive BlindField : Field → Prop where
  | leaf {b : FieldBase} {k : Leaf} : BlindBase b → BlindLeaf k → BlindField (.leaf b k)
  | array {b : FieldBase} {comp : Field} {count : Count} {halt} : BlindBase b → BlindField comp →
      BlindField (.array b comp count halt)
  | nested {b : FieldBase} {cls : String} : BlindBase b → BlindField (.nested b cls)
  | union {b : FieldBase} {choices : List (Field ⊕ String)} {ld dd} : BlindBase b →
      (∀ σ τ v ctx all, dd (fill σ v) ctx (fillDict τ all) = dd v ctx all) → (∀ g, .inl g ∈ choices → BlindField g) →
      BlindField (.union b choices ld dd)

/-- The same for a class. -/
structure BlindClass (d : StructDesc) : Prop where
  unique : UniqueNames d
  fields : ∀ f ∈ d.components, BlindField f
  methods : ∀ p ∈ d.fieldValidators, ∀ m ∈ p.2, ∀ σ V v, m (fillView σ V) (fill σ v) = m V v
  validators : ∀ m ∈ d.structValidators, ∀ σ V, m (fillView σ V) = m V

/-- What one operation on an instance shows when values never change, as in the rest of the model. -/
def lookAlone (Γ : Classes) (n : Nat) (cls : String) (d : StructDesc) (vals : Dict) : Look → Sight
  | .dump ctx => .wrote (structToStream Γ n d vals ctx)
  | .partialDump last ctx => .wrote (structPartialDump Γ n d vals last ctx)
  | .len => .len (structLen Γ n d vals)
  | .eq other => .truth (structEq Γ n cls vals other)
  | .toDict keep => .dict (structToDict Γ n d vals keep)
  | .validate => .done (validateContents d vals)
  | .get name => .value (structGetItem d vals name)

/-- The value an instance is compared with, if any, holds no iterators. -/
def IterFreeLook : Look → Prop
  | .eq other => IterFree other
  | _ => True

end Verif.Spec
