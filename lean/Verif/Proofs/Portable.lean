import Verif.Spec.Portable
import Verif.Proofs.Class

/-!
# Class statements do not depend on the byte order of the machine

Helper lemmas for C107.
-/

namespace Verif
open Spec

mutual
theorem declaresOrder_eval (s₁ s₂ : Endian) (Γ : Classes) (n : Nat) : ∀ f : FieldExpr, f.declaresOrder → f.eval s₁ Γ n = f.eval s₂ Γ n
  | .integer cls size signed endian a, h => by
    obtain ⟨e, rfl⟩ := Option.isSome_iff_exists.1 h; rfl
  | .float cls fmt endian a, h => by
    obtain ⟨e, rfl⟩ := Option.isSome_iff_exists.1 h; rfl
  | .timestamp cls size res aware signed endian a, h => by
    obtain ⟨e, rfl⟩ := Option.isSome_iff_exists.1 h; rfl
  | .varint .., _ => rfl
  | .bytes .., _ => rfl
  | .string .., _ => rfl
  | .stringz .., _ => rfl
  | .uuid .., _ => rfl
  | .nested .., _ => rfl
  | .array component count halt a, h => by
    rw [FieldExpr.eval, FieldExpr.eval, declaresOrder_eval s₁ s₂ Γ n component h]
  | .union choices load dump a, h => by
    rw [FieldExpr.eval, FieldExpr.eval, declareOrder_eval s₁ s₂ Γ n choices h]
  | .computed f fn, h => by
    rw [FieldExpr.eval, FieldExpr.eval, declaresOrder_eval s₁ s₂ Γ n f h]

theorem declareOrder_eval (s₁ s₂ : Endian) (Γ : Classes) (n : Nat) : ∀ c : ChoiceExprs, c.declareOrder → c.eval s₁ Γ n = c.eval s₂ Γ n
  | .nil, _ => rfl
  | .field f rest, h => by
    rw [ChoiceExprs.eval, ChoiceExprs.eval, declaresOrder_eval s₁ s₂ Γ n f h.1, declareOrder_eval s₁ s₂ Γ n rest h.2]
  | .struct cls rest, h => by
    rw [ChoiceExprs.eval, ChoiceExprs.eval, declareOrder_eval s₁ s₂ Γ n rest h]
end

/-- Two results that are the same apart from a byte order that binding them to the struct replaces. -/
def SameBound (defaults : List (String × Endian)) : Except Err Field → Except Err Field → Prop
  | .error e, r => r = .error e
  | .ok f, r => ∃ g, r = .ok g ∧ (f = g ∨ (overridingDefault f.base defaults "endian").isSome ∧
      ∃ b signed e₁ e₂, f = .leaf b (.integer signed e₁) ∧ g = .leaf b (.integer signed e₂))

theorem SameBound.rfl {defaults : List (String × Endian)} (r : Except Err Field) : SameBound defaults r r := by
  cases r with
  | error e => exact Eq.refl _
  | ok f => exact ⟨f, Eq.refl _, .inl (Eq.refl _)⟩

theorem orderFromMeta_eval (s₁ s₂ : Endian) (Γ : Classes) (n : Nat) (defaults : List (String × Endian)) :
    ∀ f : FieldExpr, f.orderFromMeta defaults → SameBound defaults (f.eval s₁ Γ n) (f.eval s₂ Γ n)
  | .integer cls size signed endian a, ⟨h1, h2⟩ => by
    simp only [FieldExpr.eval, mkInteger, mkLeaf]
    have hc : ∀ e₁ e₂, constSize (.integer signed e₁) = constSize (.integer signed e₂) := fun _ _ => rfl
    rw [hc (endian.getD s₁) (endian.getD s₂)]
    cases hb : fieldInit cls (constSize (.integer signed (endian.getD s₂))) { a with size := size } with
    | error e => exact rfl
    | ok b =>
      refine ⟨_, rfl, .inr ⟨?_, b, signed, _, _, rfl, rfl⟩⟩
      have hbase : b.explicit = a.explicit ∧ b.typeName = cls := by
        unfold fieldInit at hb
        split at hb
        · cases hb
        · simp only at hb
          split at hb
          · cases hb; exact ⟨rfl, rfl⟩
          · split at hb
            · cases hb
            · cases hb; exact ⟨rfl, rfl⟩
            · cases hb; exact ⟨rfl, rfl⟩
      simp only [overridingDefault, Field.base, hbase.1, hbase.2]
      rw [if_neg (by simpa using h1)]
      rw [show cls ++ "__" ++ "endian" = cls ++ "__endian" from by rw [String.append_assoc]; rfl]
      split
      · rfl
      · rename_i hn
        rcases h2 with h2 | h2
        · rw [hn] at h2; cases h2
        · exact h2
  | .computed f fn, h => by
    have ih := orderFromMeta_eval s₁ s₂ Γ n defaults f h
    rw [FieldExpr.eval, FieldExpr.eval]
    cases h1 : f.eval s₁ Γ n with
    | error e => rw [h1] at ih; rw [show f.eval s₂ Γ n = .error e from ih]; exact rfl
    | ok g =>
      rw [h1] at ih
      obtain ⟨g', h2, h3⟩ := ih
      rw [h2]
      rcases h3 with rfl | ⟨h3, b, signed, e₁, e₂, rfl, rfl⟩
      · exact .rfl _
      · have key : ∀ e, fieldComputes (.leaf b (.integer signed e)) fn = if b.computeFn.isSome then .error .configuration
            else if b.const ≠ .undefined then .error .configuration else .ok (.leaf { b with computeFn := some fn } (.integer signed e)) :=
          fun _ => rfl
        simp only [Except.bind, key]
        by_cases c1 : b.computeFn.isSome = true
        · rw [if_pos c1, if_pos c1]; exact rfl
        · rw [if_neg c1, if_neg c1]
          by_cases c2 : b.const ≠ Value.undefined
          · rw [if_pos c2, if_pos c2]; exact rfl
          · rw [if_neg c2, if_neg c2]
            exact ⟨_, rfl, .inr ⟨h3, _, signed, e₁, e₂, rfl, rfl⟩⟩
  | .varint .., h | .float .., h | .timestamp .., h | .bytes .., h | .string .., h | .stringz .., h | .uuid .., h | .nested .., h
  | .array .., h | .union .., h => h.elim

/-- Two class bodies that make the same class. -/
inductive SameBody (defaults : List (String × Endian)) : List (String × ClassItem) → List (String × ClassItem) → Prop where
  | nil : SameBody defaults [] []
  | same {name : String} {i : ClassItem} {l₁ l₂ : List (String × ClassItem)} : SameBody defaults l₁ l₂ → SameBody defaults ((name, i) :: l₁) ((name, i) :: l₂)
  | field {name : String} {f g : Field} {l₁ l₂ : List (String × ClassItem)} : SameBody defaults l₁ l₂ → SameBound defaults (.ok f) (.ok g) →
      SameBody defaults ((name, .field f) :: l₁) ((name, .field g) :: l₂)

theorem bind_sameBound {defaults : List (String × Endian)} {f g : Field} (h : SameBound defaults (.ok f) (.ok g)) (name : String) (index : Nat)
    (offset : Option Int) : bindToContainer defaults f name index offset = bindToContainer defaults g name index offset := by
  obtain ⟨g', h1, h2⟩ := h
  cases h1
  rcases h2 with rfl | ⟨h2, b, signed, e₁, e₂, rfl, rfl⟩
  · rfl
  · obtain ⟨e, he⟩ := Option.isSome_iff_exists.1 h2
    have ho : ∀ b', b'.explicit = b.explicit → b'.typeName = b.typeName → overridingDefault b' defaults "endian" = some e := by
      intro b' h3 h4
      rw [← he]
      unfold overridingDefault
      rw [h3, h4]
      rfl
    have hm : ∀ e, maybeAssignName (.leaf b (.integer signed e)) name = if b.name = "" then .ok (.leaf { b with name := name } (.integer signed e))
        else if name ≠ b.name then .error .configuration else .ok (.leaf b (.integer signed e)) := fun _ => rfl
    have hb : ∀ b' e', b'.explicit = b.explicit → b'.typeName = b.typeName →
        maybeAssignName (.leaf b (.integer signed e')) name = .ok (.leaf b' (.integer signed e')) →
        bindToContainer defaults (.leaf b (.integer signed e')) name index offset =
          .ok (.leaf { b' with index := index, offset := offset } (.integer signed e)) := by
      intro b' e' h3 h4 h5
      unfold bindToContainer
      rw [h5]
      simp only [Field.withBase, Field.base]
      rw [ho { b' with index := index, offset := offset } h3 h4]
      rfl
    by_cases c1 : b.name = ""
    · rw [hb { b with name := name } e₁ rfl rfl (by rw [hm, if_pos c1]), hb { b with name := name } e₂ rfl rfl (by rw [hm, if_pos c1])]
    · by_cases c2 : name ≠ b.name
      · unfold bindToContainer
        rw [hm, hm, if_neg c1, if_neg c1, if_pos c2, if_pos c2]
      · rw [hb b e₁ rfl rfl (by rw [hm, if_neg c1, if_neg c2]), hb b e₂ rfl rfl (by rw [hm, if_neg c1, if_neg c2])]

theorem SameBody.collect {defaults : List (String × Endian)} {l₁ l₂ : List (String × ClassItem)} (h : SameBody defaults l₁ l₂) :
    ∀ comps offset found, collectAssignedFields defaults l₁ comps offset found = collectAssignedFields defaults l₂ comps offset found := by
  induction h with
  | nil => exact fun _ _ _ => rfl
  | @same name i l₁ l₂ _ ih =>
    intro comps offset found
    cases i with
    | field f =>
      simp only [collectAssignedFields]
      split
      · rfl
      · split
        · rfl
        · exact ih _ _ _
    | validator _ _ => simp only [collectAssignedFields]; exact ih _ _ _
    | structValidator _ => simp only [collectAssignedFields]; exact ih _ _ _
  | @field name f g l₁ l₂ _ hs ih =>
    intro comps offset found
    simp only [collectAssignedFields, bind_sameBound hs]
    split
    · rfl
    · split
      · rfl
      · exact ih _ _ _

theorem SameBody.initial {defaults : List (String × Endian)} {l₁ l₂ : List (String × ClassItem)} (h : SameBody defaults l₁ l₂) :
    ∀ fv, initialValidators fv l₁ = initialValidators fv l₂ := by
  unfold initialValidators
  induction h with
  | nil => exact fun _ => rfl
  | same _ ih => intro fv; simp only [List.foldl_cons]; exact ih _
  | field _ _ ih => intro fv; simp only [List.foldl_cons]; exact ih _

theorem SameBody.validators {defaults : List (String × Endian)} {l₁ l₂ : List (String × ClassItem)} (h : SameBody defaults l₁ l₂) :
    ∀ fv sv, bindValidators l₁ fv sv = bindValidators l₂ fv sv := by
  induction h with
  | nil => exact fun _ _ => rfl
  | @same name i l₁ l₂ _ ih =>
    intro fv sv
    cases i with
    | field f => simp only [bindValidators]; exact ih _ _
    | validator names fn =>
      simp only [bindValidators]
      split
      · rfl
      · exact ih _ _
    | structValidator _ => simp only [bindValidators]; exact ih _ _
  | field _ _ ih => intro fv sv; simp only [bindValidators]; exact ih _ _

theorem evalItems_same (s₁ s₂ : Endian) (Γ : Classes) (n : Nat) (defaults : List (String × Endian)) (l : List (String × ItemExpr))
    (h : ∀ name f, (name, ItemExpr.field f) ∈ l → f.declaresOrder ∨ f.orderFromMeta defaults) :
    (∃ e, evalItems s₁ Γ n l = .error e ∧ evalItems s₂ Γ n l = .error e) ∨
      ∃ l₁ l₂, evalItems s₁ Γ n l = .ok l₁ ∧ evalItems s₂ Γ n l = .ok l₂ ∧ SameBody defaults l₁ l₂ := by
  induction l with
  | nil => exact .inr ⟨[], [], rfl, rfl, .nil⟩
  | cons p l ih =>
    obtain ⟨name, item⟩ := p
    have ih := ih fun name f hf => h name f (by simp [hf])
    have tail : ∀ i₁ i₂, item.eval s₁ Γ n = .ok i₁ → item.eval s₂ Γ n = .ok i₂ →
        (∀ l₁ l₂, SameBody defaults l₁ l₂ → SameBody defaults ((name, i₁) :: l₁) ((name, i₂) :: l₂)) →
        (∃ e, evalItems s₁ Γ n ((name, item) :: l) = .error e ∧ evalItems s₂ Γ n ((name, item) :: l) = .error e) ∨
          ∃ l₁ l₂, evalItems s₁ Γ n ((name, item) :: l) = .ok l₁ ∧ evalItems s₂ Γ n ((name, item) :: l) = .ok l₂ ∧ SameBody defaults l₁ l₂ := by
      intro i₁ i₂ h1 h2 h3
      simp only [evalItems, h1, h2, Except.bind]
      rcases ih with ⟨e, h4, h5⟩ | ⟨l₁, l₂, h4, h5, h6⟩
      · exact .inl ⟨e, by simp [h4, Except.map], by simp [h5, Except.map]⟩
      · exact .inr ⟨_, _, by simp only [h4, Except.map], by simp only [h5, Except.map], h3 _ _ h6⟩
    cases item with
    | validator names fn => exact tail _ _ rfl rfl fun _ _ h => .same h
    | structValidator fn => exact tail _ _ rfl rfl fun _ _ h => .same h
    | field f =>
      have hs : SameBound defaults (f.eval s₁ Γ n) (f.eval s₂ Γ n) := by
        rcases h name f (by simp) with hf | hf
        · rw [declaresOrder_eval s₁ s₂ Γ n f hf]; exact .rfl _
        · exact orderFromMeta_eval s₁ s₂ Γ n defaults f hf
      cases h1 : f.eval s₁ Γ n with
      | error e =>
        rw [h1] at hs
        have h2 : f.eval s₂ Γ n = .error e := hs
        exact .inl ⟨e, by simp [evalItems, ItemExpr.eval, h1, Except.map, Except.bind], by simp [evalItems, ItemExpr.eval, h2, Except.map, Except.bind]⟩
      | ok g =>
        rw [h1] at hs
        obtain ⟨g', h2, h3⟩ := hs
        exact tail (.field g) (.field g') (by simp [ItemExpr.eval, h1, Except.map]) (by simp [ItemExpr.eval, h2, Except.map])
          fun _ _ h => .field h ⟨g', rfl, h3⟩

theorem run_same (s₁ s₂ : Endian) (Γ : Classes) (n : Nat) (c : ClassSource) (h : c.Portable Γ) : c.run s₁ Γ n = c.run s₂ Γ n := by
  unfold ClassSource.run
  rcases evalItems_same s₁ s₂ Γ n (c.defaults Γ) c.body h with ⟨e, h1, h2⟩ | ⟨l₁, l₂, h1, h2, h3⟩
  · rw [h1, h2]
  · rw [h1, h2]
    simp only [Except.bind]
    congr 1
    have key : ∀ comps fv sv inherited offset, (c.metaOpts.or inherited).getD [] = c.defaults Γ →
        fromClassWith { name := c.name, bases := c.bases, body := l₁, metaOpts := c.metaOpts } comps fv sv inherited offset =
        fromClassWith { name := c.name, bases := c.bases, body := l₂, metaOpts := c.metaOpts } comps fv sv inherited offset := by
      intro comps fv sv inherited offset hd
      simp only [fromClassWith, hd, h3.collect, h3.initial, h3.validators]
    unfold fromClass
    simp only
    split
    · rename_i hb
      refine key _ _ _ _ _ ?_
      simp only [ClassSource.defaults, hb]
    · rename_i base hb
      split
      · rfl
      · rename_i b hg
        split
        · rfl
        · refine key _ _ _ _ _ ?_
          simp only [ClassSource.defaults, hb, hg, Option.bind_some]
    · rfl

end Verif
