import Verif.Model.Objects

/-!
# Vocabulary for statements about objects and references to them
-/

namespace Verif.Spec

/-- The references an object holds. -/
def refsOf : Obj → List Ref
  | .list items => items
  | .dict items => items.map (·.2)
  | .bytearray _ => []
  | .inst _ vals => vals.map (·.2)

/-- The objects that can be reached from some references, directly or through other objects. -/
inductive Reach (σ : Store) (roots : List Ref) : Nat → Prop where
  | root {l : Nat} : .obj l ∈ roots → Reach σ roots l
  | step {l l' : Nat} {o : Obj} : Reach σ roots l → σ[l]? = some o → .obj l' ∈ refsOf o → Reach σ roots l'

/-- Several parties (parts of a program, threads, …), each with its own variables, over one store. -/
structure World where
  store : Store
  vars : Nat → List Ref

/-- Nothing that one party can reach can be reached by another, and there are no dangling references. -/
structure Separate (w : World) : Prop where
  closed : ∀ i l, Reach w.store (w.vars i) l → l < w.store.length
  apart : ∀ i j l, i ≠ j → Reach w.store (w.vars i) l → ¬ Reach w.store (w.vars j) l

/-- A party executes a command, and puts the result into a new variable; a command that raises an exception has no effect. -/
def World.exec (C : ObjClasses) (n : Nat) (w : World) (p : Nat × Cmd) : World :=
  match p.2.run C n w.store (w.vars p.1) with
  | .error _ => w
  | .ok (σ, r) => { store := σ, vars := fun j => if j = p.1 then w.vars j ++ [r] else w.vars j }

/-- The `default`, `const` and `not_present_value` of every field are immutable objects. -/
def ImmutableDefaults (C : ObjClasses) : Prop :=
  ∀ cls c, C cls = some c → ∀ name, (∃ v, c.defaults name = .imm v) ∧ ∃ v, c.notPresent name = .imm v

/-- Nothing a field holds is, or is made of, a `bytearray`. -/
def NoByteArrays (σ : Store) (roots : List Ref) : Prop := ∀ l b, Reach σ roots l → σ[l]? ≠ some (.bytearray b)

/-- A value that is not made of others, as immutable objects are here. -/
def Single : Value → Prop
  | .list _ | .dict _ | .struct _ _ => False
  | _ => True

/-- The objects of a program: no dangling references, no immutable object that contains others, and the instances of the classes have each field at
most once and no others. -/
structure Tidy (C : ObjClasses) (σ : Store) : Prop where
  bounded : ∀ (l : Nat) o, σ[l]? = some o → ∀ l', .obj l' ∈ refsOf o → l' < σ.length
  single : ∀ (l : Nat) o, σ[l]? = some o → ∀ v, .imm v ∈ refsOf o → Single v
  names : ∀ (l : Nat) cls vals c, σ[l]? = some (.inst cls vals) → C cls = some c → (vals.map (·.1)).Nodup ∧ ∀ k ∈ vals.map (·.1), c.desc.has k = true

/-- The class descriptions fit the objects given as defaults; there are no computed, conditional or factory-made fields. -/
def Described (C : ObjClasses) (σ : Store) : Prop :=
  ∀ cls c, C cls = some c → (c.desc.components.map Field.name).Nodup ∧ ∀ f ∈ c.desc.components,
    f.base.computeFn = none ∧ f.base.factory = none ∧ (∀ view ctx s, f.base.present view ctx s = .ok true) ∧
    (∃ k, contents σ k (c.defaults f.name) = some f.base.dflt) ∧ (∀ v, c.defaults f.name = .imm v → Single v)

end Verif.Spec
