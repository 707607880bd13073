import Verif.Model.Struct

/-!
# More fuel never changes a result

`ELe`, `WLe`, `RLe`: the first result ran out of fuel, or the two are equal.  Every fuelled function of the model is monotone
with respect to these relations.
-/

namespace Verif

def ELe {α : Type} (a b : Except Err α) : Prop := a = .error .outOfFuel ∨ a = b
def WLe (a b : W) : Prop := a.2 = .error .outOfFuel ∨ a = b
def RLe {α : Type} (a b : R α) : Prop := a.1 = .error .outOfFuel ∨ a = b

theorem ELe.refl {α : Type} (a : Except Err α) : ELe a a := Or.inr rfl
theorem WLe.refl (a : W) : WLe a a := Or.inr rfl
theorem RLe.refl {α : Type} (a : R α) : RLe a a := Or.inr rfl

theorem ELe.trans {α : Type} {a b c : Except Err α} (h : ELe a b) (h' : ELe b c) : ELe a c := by
  rcases h with h | h
  · exact Or.inl h
  · subst h; exact h'

theorem WLe.trans {a b c : W} (h : WLe a b) (h' : WLe b c) : WLe a c := by
  rcases h with h | h
  · exact Or.inl h
  · subst h; exact h'

theorem RLe.trans {α : Type} {a b c : R α} (h : RLe a b) (h' : RLe b c) : RLe a c := by
  rcases h with h | h
  · exact Or.inl h
  · subst h; exact h'

theorem ELe.of_ok {α : Type} {a b : Except Err α} (h : ELe a b) {x : α} (ha : a = .ok x) : b = .ok x := by
  rcases h with h | h
  · simp [h] at ha
  · rw [← h, ha]

theorem W.seq_le {a a' : W} {b b' : Unit → W} (ha : WLe a a') (hb : WLe (b ()) (b' ())) :
    WLe (a.seq b) (a'.seq b') := by
  rcases ha with h | h
  · left; unfold W.seq; simp [h]
  · subst h
    unfold W.seq
    cases h : a.2 with
    | error e => exact WLe.refl _
    | ok _ =>
      rcases hb with hb | hb
      · left; simp [hb]
      · right; simp [hb]

theorem W.toExcept_le {a a' : W} (ha : WLe a a') : ELe a.toExcept a'.toExcept := by
  rcases ha with h | h
  · left; simp [W.toExcept, h]
  · right; rw [h]

theorem W.ofExcept_le {a a' : Except Err Bytes} (ha : ELe a a') : WLe (W.ofExcept a) (W.ofExcept a') := by
  rcases ha with h | h
  · left; simp [W.ofExcept, W.fail, h]
  · right; rw [h]

theorem mapE_le {α β : Type} {g g' : α → Except Err β} (l : List α) (h : ∀ a, ELe (g a) (g' a)) :
    ELe (mapE g l) (mapE g' l) := by
  induction l with
  | nil => exact ELe.refl _
  | cons a r ih =>
    simp only [mapE]
    rcases h a with h | h
    · left; rw [h]
    · rw [← h]
      cases g a with
      | error e => exact ELe.refl _
      | ok b =>
        rcases ih with ih | ih
        · left; rw [ih]
        · right; rw [ih]

theorem mapDictE_le {g g' : Value → Except Err Value} (d : Dict) (h : ∀ a, ELe (g a) (g' a)) :
    ELe (mapDictE g d) (mapDictE g' d) := by
  apply mapE_le
  intro p
  rcases h p.2 with h | h
  · left; rw [h]; rfl
  · right; rw [h]

theorem ELe.map {α β : Type} {a b : Except Err α} (h : ELe a b) (g : α → β) : ELe (a.map g) (b.map g) := by
  rcases h with h | h
  · left; rw [h]; rfl
  · right; rw [h]

theorem recursiveToDicts_succ (Γ : Classes) (n : Nat) :
    ∀ v, ELe (recursiveToDicts Γ n v) (recursiveToDicts Γ (n + 1) v) := by
  induction n with
  | zero => intro v; left; rfl
  | succ n ih =>
    intro v
    cases v <;> simp only [recursiveToDicts] <;> try exact ELe.refl _
    · exact (mapE_le _ ih).map _
    · exact (mapDictE_le _ ih).map _
    · split
      · exact ELe.refl _
      · split
        · exact ELe.refl _
        · exact (mapDictE_le _ ih).map _

theorem structToDict_succ (Γ : Classes) (n : Nat) (d : StructDesc) (vals : Dict) (keep : Bool) :
    ELe (structToDict Γ n d vals keep) (structToDict Γ (n + 1) d vals keep) := by
  unfold structToDict
  split
  · exact ELe.refl _
  · exact mapDictE_le _ (recursiveToDicts_succ Γ n)

theorem eqListWith_le {g g' : Value → Value → Except Err Bool} (h : ∀ a b, ELe (g a b) (g' a b)) :
    ∀ x y, ELe (eqListWith g x y) (eqListWith g' x y)
  | [], [] => ELe.refl _
  | [], _ :: _ => ELe.refl _
  | _ :: _, [] => ELe.refl _
  | a :: as, b :: bs => by
    simp only [eqListWith]
    rcases h a b with h' | h'
    · left; rw [h']
    · rw [← h']
      split
      · exact ELe.refl _
      · exact ELe.refl _
      · exact eqListWith_le h as bs

theorem eqDictWith_go_le {g g' : Value → Value → Except Err Bool} (h : ∀ a b, ELe (g a b) (g' a b)) (y : Dict) :
    ∀ x, ELe (eqDictWith.go g y x) (eqDictWith.go g' y x)
  | [] => ELe.refl _
  | (k, v) :: r => by
    simp only [eqDictWith.go]
    split
    · exact ELe.refl _
    · rename_i w _
      rcases h v w with h' | h'
      · left; rw [h']
      · rw [← h']
        split
        · exact ELe.refl _
        · exact ELe.refl _
        · exact eqDictWith_go_le h y r

theorem eqDictWith_le {g g' : Value → Value → Except Err Bool} (h : ∀ a b, ELe (g a b) (g' a b)) (x y : Dict) :
    ELe (eqDictWith g x y) (eqDictWith g' x y) := by
  unfold eqDictWith
  split
  · exact ELe.refl _
  · exact eqDictWith_go_le h y x

end Verif
