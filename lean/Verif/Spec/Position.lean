import Verif.Spec.Struct

/-!
# Loading the same bytes at another place
-/

namespace Verif.Spec

/-- The same bytes are ahead in the two streams; the second stands `δ` bytes further on.  What is behind may be different. -/
def Moved (δ : Int) (s t : Stream) : Prop := t.rest = s.rest ∧ (t.pos : Int) = s.pos + δ

/-- The same exception, or an `UnexpectedEOFError` of the same field and size whose offset is `δ` bytes further on. -/
inductive MovedErr (δ : Int) : Err → Err → Prop where
  | same (e : Err) : MovedErr δ e e
  | eof {field : Option String} {size : Int} {off off' : Nat} : (off' : Int) = off + δ → MovedErr δ (.eof field size off) (.eof field size off')

/-- The same result, or such exceptions. -/
def SameOutcome {α : Type} (δ : Int) (x y : Except Err α) : Prop :=
  (∃ a, x = .ok a ∧ y = .ok a) ∨ ∃ e e', x = .error e ∧ y = .error e' ∧ MovedErr δ e e'

/-- The load depends on the bytes ahead only: at any other place it has the same outcome and takes the same number of bytes. -/
def Ahead {α : Type} (load : Stream → R α) : Prop :=
  ∀ δ s t, Moved δ s t → SameOutcome δ (load s).1 (load t).1 ∧ Moved δ (load s).2 (load t).2

/-- A callable that looks neither at the position nor at the bytes behind it. -/
def NoLookback {α : Type} (g : Stream → α) : Prop := ∀ s t, s.rest = t.rest → g s = g t

/-- Nothing the user supplied for a field looks back. -/
inductive LooksAhead : Field → Prop where
  | leaf {b : FieldBase} {k : Leaf} : (∀ w ctx, NoLookback fun s => b.present w ctx (some s)) →
      (∀ ops, k = .custom ops → ∀ ctx loaded, Ahead fun s => ops.load s ctx loaded) → LooksAhead (.leaf b k)
  | array {b : FieldBase} {comp : Field} {count : Count} {halt} : (∀ w ctx, NoLookback fun s => b.present w ctx (some s)) → LooksAhead comp →
      (∀ h, halt = some h → ∀ values ctx loaded, NoLookback fun s => h s values ctx loaded) → LooksAhead (.array b comp count halt)
  | nested {b : FieldBase} {cls : String} : (∀ w ctx, NoLookback fun s => b.present w ctx (some s)) → LooksAhead (.nested b cls)
  | union {b : FieldBase} {choices : List (Field ⊕ String)} {ld dd} : (∀ w ctx, NoLookback fun s => b.present w ctx (some s)) →
      (∀ ctx loaded, NoLookback fun s => ld s ctx loaded) → (∀ g, .inl g ∈ choices → LooksAhead g) → LooksAhead (.union b choices ld dd)

end Verif.Spec
