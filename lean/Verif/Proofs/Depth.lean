import Verif.Model.Depth
import Verif.Spec.Depth
import Verif.Proofs.FuelDump
import Verif.Proofs.ToDict

/-!
# Loading with a bounded call stack

Helper lemmas for C109.
-/

namespace Verif
open Spec

/-! ### Enough stack: the same as without a limit -/

theorem arrayLoop_upto {halt : Stream → List Value → Except Err (Bool × List Value)} {l l' : Stream → R Value}
    (hl : ∀ s, RLe (l s) (l' s)) : ∀ n m, n ≤ m → ∀ acc s, RLe (arrayLoop halt l n acc s) (arrayLoop halt l' m acc s) := by
  intro n
  induction n with
  | zero =>
    intro m _ acc s
    rw [arrayLoop.eq_def, arrayLoop.eq_def]
    simp only
    split
    · exact RLe.refl _
    · exact RLe.refl _
    · rcases hl s with h | h
      · left
        generalize l s = x at h
        obtain ⟨x, t⟩ := x
        simp only at h; subst h; rfl
      · rw [← h]
        split
        · exact RLe.refl _
        · left; rfl
  | succ n ih =>
    intro m hm acc s
    obtain ⟨m, rfl⟩ : ∃ k, m = k + 1 := ⟨m - 1, by omega⟩
    rw [arrayLoop.eq_def, arrayLoop.eq_def]
    simp only
    split
    · exact RLe.refl _
    · exact RLe.refl _
    · rcases hl s with h | h
      · left
        generalize l s = x at h
        obtain ⟨x, t⟩ := x
        simp only at h; subst h; rfl
      · rw [← h]
        split
        · exact RLe.refl _
        · exact ih _ (by omega) _ _

theorem containerLoad_upto (Γ : Classes) {n m : Nat} (hn : n ≤ m) {g g' k k' : Field → Stream → Value → Dict → R Value}
    {h h' : StructDesc → Stream → Value → R Dict} (hg : ∀ f s c a, RLe (g f s c a) (g' f s c a))
    (hk : ∀ f s c a, RLe (k f s c a) (k' f s c a)) (hh : ∀ d s c, RLe (h d s c) (h' d s c)) (f : Field) (s : Stream)
    (ctx : Value) (loaded : Dict) :
    RLe (containerLoad Γ n g k h f s ctx loaded) (containerLoad Γ m g' k' h' f s ctx loaded) := by
  unfold containerLoad
  cases f with
  | leaf b k => exact RLe.refl _
  | array b comp count halt =>
    exact R.map_le (arrayLoop_upto (fun s => hg comp s ctx loaded) n m hn [] s) _
  | nested b cls => exact loadStruct_le Γ hh _ _ _
  | union b choices ld dd =>
    simp only
    split
    · exact RLe.refl _
    · split
      · exact RLe.refl _
      · exact hk _ _ _ _
      · exact loadStruct_le Γ hh _ _ _

theorem fieldNullRepr_mono (Γ : Classes) {n m : Nat} (h : n ≤ m) (f : Field) (values : Dict) :
    ELe (fieldNullRepr Γ n f values) (fieldNullRepr Γ m f values) := by
  induction h with
  | refl => exact ELe.refl _
  | step _ ih => exact ih.trans (fieldNullRepr_succ Γ _ f values)

theorem deep_load (Γ : Classes) (fuel : Nat) : ∀ N, N ≤ fuel → ∀ n, N ≤ n →
    (∀ f s ctx loaded, RLe (fieldFromStream Γ N f s ctx loaded) (deepFromStream Γ fuel n f s ctx loaded)) ∧
    (∀ f s ctx loaded, RLe (fieldDoLoad Γ N f s ctx loaded) (deepDoLoad Γ fuel n f s ctx loaded)) ∧
    (∀ d s ctx kw, RLe (structFromStream Γ N d s ctx kw) (deepStruct Γ fuel n d s ctx kw)) := by
  intro N
  induction N with
  | zero =>
    intro _ n _
    refine ⟨fun f s ctx l => ?_, fun f s ctx l => ?_, fun d s ctx kw => ?_⟩
    · left; simp [fieldFromStream]
    · left; simp [fieldDoLoad]
    · left; simp [structFromStream]
  | succ N ih =>
    intro hN n hn
    obtain ⟨n, rfl⟩ : ∃ k, n = k + 1 := ⟨n - 1, by omega⟩
    obtain ⟨ih1, ih2, ih3⟩ := ih (by omega) n (by omega)
    refine ⟨fun f s ctx l => ?_, fun f s ctx l => ?_, fun d s ctx kw => ?_⟩
    · rw [fieldFromStream, deepFromStream]
      exact fromStreamWith_le (pyEq_mono Γ (by omega)) (fieldNullRepr_mono Γ (by omega) f l) (fun s => ih2 f s ctx l) s ctx l
    · cases f with
      | leaf b k => simp only [fieldDoLoad, deepDoLoad]; exact RLe.refl _
      | _ =>
        rw [fieldDoLoad, deepDoLoad]
        · exact containerLoad_upto Γ (by omega) ih1 ih2 (fun d s c => ih3 d s c []) _ _ _ _
        all_goals simp
    · rw [structFromStream, deepStruct]
      exact structFromStreamWith_le (fun f s l => ih1 f s ctx l) d s kw

/-! ### The depth of a field -/

/-- `_do_load` of the field nests at most this many calls. -/
inductive LoadsWithin (Γ : Classes) : Nat → Field → Prop where
  | leaf {k : Nat} {b : FieldBase} {l : Leaf} : LoadsWithin Γ (k + 1) (.leaf b l)
  | array {k : Nat} {b : FieldBase} {comp : Field} {count : Count} {halt} : LoadsWithin Γ k comp →
      LoadsWithin Γ (k + 2) (.array b comp count halt)
  | nested {k : Nat} {b : FieldBase} {cls : String} {d : StructDesc} : Γ cls = some d → (∀ f ∈ d.components, LoadsWithin Γ k f) →
      LoadsWithin Γ (k + 3) (.nested b cls)
  | union {k : Nat} {b : FieldBase} {choices : List (Field ⊕ String)} {ld dd} : (∀ g, .inl g ∈ choices → LoadsWithin Γ k g) →
      (∀ cls, .inr cls ∈ choices → LoadsWithin Γ (k + 1) (.nested b cls)) → LoadsWithin Γ (k + 1) (.union b choices ld dd)

theorem LoadsWithin.mono {Γ : Classes} {k : Nat} {f : Field} (h : LoadsWithin Γ k f) : ∀ m, k ≤ m → LoadsWithin Γ m f := by
  induction h with
  | leaf => intro m hm; obtain ⟨m, rfl⟩ : ∃ k, m = k + 1 := ⟨m - 1, by omega⟩; exact .leaf
  | array _ ih => intro m hm; obtain ⟨m, rfl⟩ : ∃ k, m = k + 2 := ⟨m - 2, by omega⟩; exact .array (ih _ (by omega))
  | nested hd _ ih =>
    intro m hm; obtain ⟨m, rfl⟩ : ∃ k, m = k + 3 := ⟨m - 3, by omega⟩
    exact .nested hd fun f hf => ih f hf _ (by omega)
  | union _ _ ih1 ih2 =>
    intro m hm; obtain ⟨m, rfl⟩ : ∃ k, m = k + 1 := ⟨m - 1, by omega⟩
    exact .union (fun g hg => ih1 g hg _ (by omega)) (fun c hc => ih2 c hc _ (by omega))

theorem LoadsWithin.extend {Γ Γ' : Classes} {k : Nat} {f : Field} (h : LoadsWithin Γ k f)
    (hΓ : ∀ cls d, Γ cls = some d → Γ' cls = some d) : LoadsWithin Γ' k f := by
  induction h with
  | leaf => exact .leaf
  | array _ ih => exact .array ih
  | nested hd _ ih => exact .nested (hΓ _ _ hd) ih
  | union _ _ ih1 ih2 => exact .union ih1 ih2

theorem LoadsWithin.withBase {Γ : Classes} {k : Nat} {f : Field} (h : LoadsWithin Γ k f) (b : FieldBase) : LoadsWithin Γ k (f.withBase b) := by
  cases h with
  | leaf => exact .leaf
  | array h => exact .array h
  | nested hd h => exact .nested hd h
  | union h1 h2 =>
    refine .union h1 fun c hc => ?_
    cases h2 c hc with
    | nested hd h => exact .nested hd h

theorem LoadsWithin.setEndian {Γ : Classes} {k : Nat} {f : Field} (h : LoadsWithin Γ k f) (e : Endian) : LoadsWithin Γ k (f.setEndian e) := by
  unfold Field.setEndian
  split
  · cases h; exact .leaf
  · exact h

theorem containerLoad_nested (Γ : Classes) (fuel : Nat) (g k : Field → Stream → Value → Dict → R Value) (h : StructDesc → Stream → Value → R Dict)
    (b : FieldBase) (cls : String) (s : Stream) (ctx : Value) (loaded : Dict) :
    containerLoad Γ fuel g k h (.nested b cls) s ctx loaded = loadStruct Γ h cls s ctx := rfl

theorem loadFields_same {g g' : Field → Stream → Dict → R Value} : ∀ l : List Field, (∀ f ∈ l, ∀ s a, g f s a = g' f s a) → ∀ r s,
    loadFields g l r s = loadFields g' l r s
  | [], _, _, _ => rfl
  | f :: fs, h, r, s => by
    simp only [loadFields]
    rw [h f (List.mem_cons_self ..)]
    split
    · rfl
    · exact loadFields_same fs (fun f hf => h f (List.mem_cons_of_mem _ hf)) _ _

theorem structFromStreamWith_same {g g' : Field → Stream → Dict → R Value} {d : StructDesc} (h : ∀ f ∈ d.components, ∀ s a, g f s a = g' f s a)
    (s : Stream) (kw : Dict) : structFromStreamWith g d s kw = structFromStreamWith g' d s kw := by
  unfold structFromStreamWith
  rw [loadFields_same d.components h]

theorem LoadsWithin.stable {Γ : Classes} {k : Nat} {f : Field} (h : LoadsWithin Γ k f) (fuel : Nat) : ∀ n m, k ≤ n → k ≤ m →
    deepDoLoad Γ fuel n f = deepDoLoad Γ fuel m f := by
  induction h with
  | leaf =>
    intro n m hn hm
    obtain ⟨n, rfl⟩ : ∃ k, n = k + 1 := ⟨n - 1, by omega⟩
    obtain ⟨m, rfl⟩ : ∃ k, m = k + 1 := ⟨m - 1, by omega⟩
    funext s ctx loaded
    simp only [deepDoLoad]
  | array _ ih =>
    intro n m hn hm
    obtain ⟨n, rfl⟩ : ∃ k, n = k + 2 := ⟨n - 2, by omega⟩
    obtain ⟨m, rfl⟩ : ∃ k, m = k + 2 := ⟨m - 2, by omega⟩
    funext s ctx loaded
    simp only [deepDoLoad, containerLoad, deepFromStream]
    rw [ih n m (by omega) (by omega)]
  | nested hd _ ih =>
    intro n m hn hm
    obtain ⟨n, rfl⟩ : ∃ k, n = k + 3 := ⟨n - 3, by omega⟩
    obtain ⟨m, rfl⟩ : ∃ k, m = k + 3 := ⟨m - 3, by omega⟩
    funext s ctx loaded
    simp only [deepDoLoad, containerLoad, loadStruct, hd, deepStruct]
    rw [structFromStreamWith_same]
    intro f hf s a
    simp only [deepFromStream]
    rw [ih f hf n m (by omega) (by omega)]
  | union _ _ ih1 ih2 =>
    intro n m hn hm
    obtain ⟨n, rfl⟩ : ∃ k, n = k + 1 := ⟨n - 1, by omega⟩
    obtain ⟨m, rfl⟩ : ∃ k, m = k + 1 := ⟨m - 1, by omega⟩
    funext s ctx loaded
    simp only [deepDoLoad, containerLoad]
    split
    · rfl
    · split
      · rfl
      · rename_i g hg
        rw [ih1 g (List.mem_of_getElem? hg) n m (by omega) (by omega)]
      · rename_i cls hc
        have := congrFun (congrFun (congrFun (ih2 cls (List.mem_of_getElem? hc) (n + 1) (m + 1) (by omega) (by omega)) s) ctx) loaded
        simpa only [deepDoLoad, containerLoad_nested] using this

/-- All classes nest at most `P` calls of `from_stream` and `_do_load`. -/
def Shallow (Γ : Classes) (P : Nat) : Prop :=
  ∀ cls d, Γ cls = some d → ∃ k, P = k + 2 ∧ ∀ f ∈ d.components, LoadsWithin Γ k f

theorem Shallow.stable {Γ : Classes} {P : Nat} (h : Shallow Γ P) {cls : String} {d : StructDesc} (hd : Γ cls = some d) (fuel : Nat) {n m : Nat}
    (hn : P ≤ n) (hm : P ≤ m) (s : Stream) (ctx : Value) (kw : Dict) : deepStruct Γ fuel n d s ctx kw = deepStruct Γ fuel m d s ctx kw := by
  obtain ⟨k, rfl, hk⟩ := h cls d hd
  obtain ⟨n, rfl⟩ : ∃ k, n = k + 2 := ⟨n - 2, by omega⟩
  obtain ⟨m, rfl⟩ : ∃ k, m = k + 2 := ⟨m - 2, by omega⟩
  simp only [deepStruct]
  apply structFromStreamWith_same
  intro f hf s a
  simp only [deepFromStream]
  rw [(hk f hf).stable fuel n m (by omega) (by omega)]

/-! ### Class statements make shallow classes -/

theorem fieldComputes_within {Γ : Classes} {k : Nat} {f g : Field} {fn : View → Except Err Value} (hf : LoadsWithin Γ k f)
    (h : fieldComputes f fn = .ok g) : LoadsWithin Γ k g := by
  unfold fieldComputes at h
  split at h
  · cases h
  · split at h
    · cases h
    · cases h; exact hf.withBase _

theorem maybeAssignName_within {Γ : Classes} {k : Nat} {f g : Field} {name : String} (hf : LoadsWithin Γ k f)
    (h : maybeAssignName f name = .ok g) : LoadsWithin Γ k g := by
  unfold maybeAssignName at h
  split at h
  · cases h; exact hf.withBase _
  · split at h
    · cases h
    · cases h; exact hf

theorem bindToContainer_within {Γ : Classes} {k : Nat} {f g : Field} {defaults : List (String × Endian)} {name : String} {index : Nat}
    {offset : Option Int} (hf : LoadsWithin Γ k f) (h : bindToContainer defaults f name index offset = .ok g) : LoadsWithin Γ k g := by
  unfold bindToContainer at h
  split at h
  · cases h
  · rename_i f' hf'
    have := (maybeAssignName_within hf hf').withBase { f'.base with index := index, offset := offset }
    simp only at h
    split at h
    · cases h; exact this.setEndian _
    · cases h; exact this

theorem mkArray_within {Γ : Classes} {k : Nat} {c f : Field} {count : Count} {halt : Option HaltCallable} {a : FieldArgs} (hc : LoadsWithin Γ k c)
    (h : mkArray c count halt a = .ok f) : LoadsWithin Γ (k + 2) f := by
  unfold mkArray at h
  split at h
  · cases h
  · split at h
    · cases h
    · rename_i c' hc'
      have := maybeAssignName_within hc hc'
      split at h <;> cases h <;> exact .array this

theorem mkNested_within {Γ : Classes} {P n : Nat} (hΓ : Shallow Γ P) {cls : String} {a : FieldArgs} {f : Field}
    (h : mkNested Γ n cls a = .ok f) : LoadsWithin Γ (P + 1) f := by
  unfold mkNested at h
  split at h
  · cases h
  · split at h
    · cases h
    · rename_i d hd
      obtain ⟨k, rfl, hk⟩ := hΓ cls d hd
      split at h <;> cases h <;> exact .nested hd hk

theorem mkLeaf_within {Γ : Classes} {k : Nat} {tn : String} {l : Leaf} {a : FieldArgs} {f : Field} (h : mkLeaf tn l a = .ok f) :
    LoadsWithin Γ (k + 1) f := by
  obtain ⟨b, -, rfl⟩ := Except.map_ok h
  exact .leaf

mutual
theorem eval_within {sys : Endian} {Γ : Classes} {P n : Nat} (hΓ : Shallow Γ P) : ∀ (e : FieldExpr) f, e.eval sys Γ n = .ok f →
    LoadsWithin Γ (e.levels + P) f
  | .integer .., f, h | .varint .., f, h | .float .., f, h | .timestamp .., f, h | .bytes .., f, h | .uuid .., f, h => by
    rw [FieldExpr.levels, Nat.add_comm]
    · exact mkLeaf_within h
    all_goals simp
  | .string codec pad a, f, h => by
    rw [FieldExpr.levels, Nat.add_comm]
    · rw [FieldExpr.eval, mkString.eq_def] at h
      split at h
      · exact mkLeaf_within h
      · exact mkLeaf_within h
      · cases h
    all_goals simp
  | .stringz codec pad a, f, h => by
    rw [FieldExpr.levels, Nat.add_comm]
    · rw [FieldExpr.eval, mkStringZ.eq_def] at h
      split at h
      · exact mkLeaf_within h
      · exact mkLeaf_within h
      · cases h
    all_goals simp
  | .array component count halt a, f, h => by
    rw [FieldExpr.eval] at h
    cases hc : component.eval sys Γ n with
    | error e => rw [hc] at h; cases h
    | ok c =>
      rw [hc] at h
      rw [FieldExpr.levels, Nat.add_right_comm]
      exact mkArray_within (eval_within hΓ component c hc) h
  | .nested cls a, f, h => by
    rw [FieldExpr.levels, Nat.add_comm]
    · exact mkNested_within hΓ h
    all_goals simp
  | .union choices load dump a, f, h => by
    rw [FieldExpr.eval] at h
    cases hc : choices.eval sys Γ n with
    | error e => rw [hc] at h; cases h
    | ok cs =>
      rw [hc] at h
      rw [FieldExpr.levels, Nat.add_right_comm]
      obtain ⟨b, -, rfl⟩ := Except.map_ok h
      have := evals_within hΓ choices cs hc
      refine .union this.1 fun cls hcls => ?_
      obtain ⟨d, hd⟩ := this.2 cls hcls
      obtain ⟨k, rfl, hk⟩ := hΓ cls d hd
      exact (LoadsWithin.nested hd hk).mono _ (by omega)
  | .computed f fn, g, h => by
    rw [FieldExpr.eval] at h
    cases hc : f.eval sys Γ n with
    | error e => rw [hc] at h; cases h
    | ok c =>
      rw [hc] at h
      exact fieldComputes_within (eval_within hΓ f c hc) h

theorem evals_within {sys : Endian} {Γ : Classes} {P n : Nat} (hΓ : Shallow Γ P) : ∀ (e : ChoiceExprs) cs, e.eval sys Γ n = .ok cs →
    (∀ g, .inl g ∈ cs → LoadsWithin Γ (e.levels + P) g) ∧ ∀ cls, .inr cls ∈ cs → ∃ d, Γ cls = some d
  | .nil, cs, h => by
    cases h; exact ⟨fun g hg => (by cases hg), fun g hg => (by cases hg)⟩
  | .field f rest, cs, h => by
    rw [ChoiceExprs.eval] at h
    cases hc : f.eval sys Γ n with
    | error e => rw [hc] at h; cases h
    | ok c =>
      rw [hc] at h
      obtain ⟨cs', h', rfl⟩ := Except.map_ok h
      have ih := evals_within hΓ rest cs' h'
      have hf := eval_within hΓ f c hc
      rw [ChoiceExprs.levels]
      refine ⟨fun g hg => ?_, fun cls hcls => ?_⟩
      · rcases List.mem_cons.1 hg with hg | hg
        · cases hg; exact hf.mono _ (by omega)
        · exact (ih.1 g hg).mono _ (by omega)
      · rcases List.mem_cons.1 hcls with hg | hg
        · cases hg
        · exact ih.2 cls hg
  | .struct cls rest, cs, h => by
    rw [ChoiceExprs.eval] at h
    split at h
    · cases h
    · rename_i hcls
      obtain ⟨cs', h', rfl⟩ := Except.map_ok h
      have ih := evals_within hΓ rest cs' h'
      rw [ChoiceExprs.levels]
      refine ⟨fun g hg => ?_, fun c hc => ?_⟩
      · rcases List.mem_cons.1 hg with hg | hg
        · cases hg
        · exact ih.1 g hg
      · rcases List.mem_cons.1 hc with hg | hg
        · cases hg
          cases hΓc : Γ cls with
          | none => rw [hΓc] at hcls; exact (hcls rfl).elim
          | some d => exact ⟨d, rfl⟩
        · exact ih.2 c hg
end

theorem evalItems_within {sys : Endian} {Γ : Classes} {P n : Nat} (hΓ : Shallow Γ P) : ∀ (body : List (String × ItemExpr)) items,
    evalItems sys Γ n body = .ok items → ∀ name f, (name, ClassItem.field f) ∈ items → LoadsWithin Γ (bodyLevels body + P) f
  | [], items, h, name, f, hf => by cases h; cases hf
  | (name', item) :: body, items, h, name, f, hf => by
    rw [evalItems] at h
    cases hi : item.eval sys Γ n with
    | error e => rw [hi] at h; cases h
    | ok i =>
      rw [hi] at h
      obtain ⟨items', h', rfl⟩ := Except.map_ok h
      rw [bodyLevels]
      rcases List.mem_cons.1 hf with hf | hf
      · cases hf
        cases item with
        | field e =>
          obtain ⟨f', h1, h2⟩ := Except.map_ok hi
          cases h2
          refine (eval_within hΓ e f h1).mono _ ?_
          show e.levels + P ≤ max e.levels _ + P
          omega
        | validator => cases hi
        | structValidator => cases hi
      · exact (evalItems_within hΓ body items' h' name f hf).mono _ (by omega)

theorem collect_within {Γ : Classes} {k : Nat} {defaults : List (String × Endian)} : ∀ (items : List (String × ClassItem)) comps offset found r,
    (∀ f ∈ comps, LoadsWithin Γ k f) → (∀ name f, (name, ClassItem.field f) ∈ items → LoadsWithin Γ k f) →
    collectAssignedFields defaults items comps offset found = .ok r → ∀ f ∈ r.1, LoadsWithin Γ k f
  | [], comps, _, _, r, hc, _, h => by cases h; exact hc
  | (name, .field f) :: items, comps, offset, found, r, hc, hi, h => by
    rw [collectAssignedFields] at h
    split at h
    · cases h
    · split at h
      · cases h
      · rename_i g hg
        refine collect_within items _ _ _ r ?_ (fun name f hf => hi name f (List.mem_cons_of_mem _ hf)) h
        intro x hx
        rcases List.mem_append.1 hx with hx | hx
        · exact hc x hx
        · rw [List.mem_singleton.1 hx]
          exact bindToContainer_within (hi name f (List.mem_cons_self ..)) hg
  | (_, .validator _ _) :: items, comps, offset, found, r, hc, hi, h =>
    collect_within items comps offset found r hc (fun name f hf => hi name f (List.mem_cons_of_mem _ hf)) h
  | (_, .structValidator _) :: items, comps, offset, found, r, hc, hi, h =>
    collect_within items comps offset found r hc (fun name f hf => hi name f (List.mem_cons_of_mem _ hf)) h

theorem fromClassWith_within {Γ : Classes} {k : Nat} {decl : ClassDecl} {comps : List Field}
    {fv : List (String × List (View → Value → Except Err Unit))} {sv : List (View → Except Err Unit)} {m : Option (List (String × Endian))}
    {offset : Option Int} {d : StructDesc} (hc : ∀ f ∈ comps, LoadsWithin Γ k f)
    (hb : ∀ name f, (name, ClassItem.field f) ∈ decl.body → LoadsWithin Γ k f) (h : fromClassWith decl comps fv sv m offset = .ok d) :
    d.name = decl.name ∧ ∀ f ∈ d.components, LoadsWithin Γ k f := by
  unfold fromClassWith at h
  simp only at h
  split at h
  · cases h
  · rename_i cs found hcol
    split at h
    · cases h
    · cases h
      exact ⟨rfl, collect_within decl.body comps _ _ _ hc hb hcol⟩

theorem fromClass_within {Γ : Classes} {P k n : Nat} (hΓ : Shallow Γ P) {decl : ClassDecl} {d : StructDesc} (hk : P ≤ k + 2)
    (hb : ∀ name f, (name, ClassItem.field f) ∈ decl.body → LoadsWithin Γ k f) (h : fromClass Γ n decl = .ok d) :
    d.name = decl.name ∧ ∀ f ∈ d.components, LoadsWithin Γ k f := by
  unfold fromClass at h
  split at h
  · exact fromClassWith_within (fun f hf => by cases hf) hb h
  · split at h
    · cases h
    · rename_i b hbase
      obtain ⟨j, rfl, hj⟩ := hΓ _ b hbase
      split at h
      · cases h
      · exact fromClassWith_within (fun f hf => (hj f hf).mono _ (by omega)) hb h
  · cases h

theorem run_shallow {sys : Endian} {Γ Γ' : Classes} {P n : Nat} (hΓ : Shallow Γ P) {c : ClassSource} (hnew : Γ c.name = none)
    (h : c.run sys Γ n = .ok Γ') : Shallow Γ' (bodyLevels c.body + 2 + P) ∧ ∀ name, name ≠ c.name → Γ' name = Γ name := by
  unfold ClassSource.run at h
  cases hi : evalItems sys Γ n c.body with
  | error e => rw [hi] at h; cases h
  | ok items =>
    rw [hi] at h
    obtain ⟨d, hd, rfl⟩ := Except.map_ok h
    obtain ⟨hname, hcomps⟩ := fromClass_within (k := bodyLevels c.body + P) hΓ (by omega) (evalItems_within hΓ c.body items hi) hd
    simp only at hname
    have ext : ∀ cls e, Γ cls = some e → (Γ.add d) cls = some e := by
      intro cls e he
      unfold Classes.add
      rw [if_neg]
      · exact he
      · rw [hname]; rintro rfl; rw [hnew] at he; cases he
    refine ⟨fun cls e he => ⟨bodyLevels c.body + P, by omega, fun f hf => ?_⟩, fun name hn => ?_⟩
    · unfold Classes.add at he
      split at he
      · cases he; exact (hcomps f hf).extend ext
      · obtain ⟨k, rfl, hk⟩ := hΓ cls e he
        exact ((hk f hf).mono _ (by omega)).extend ext
    · unfold Classes.add
      rw [if_neg (by rw [hname]; exact hn)]

theorem runProgram_shallow {sys : Endian} {n : Nat} : ∀ (program : List ClassSource) (Γ Γ' : Classes) (P : Nat), Shallow Γ P →
    (∀ c ∈ program, Γ c.name = none) → (program.map (·.name)).Nodup → runProgram sys n program Γ = .ok Γ' →
    Shallow Γ' (programDepth program + P)
  | [], Γ, Γ', P, hΓ, _, _, h => by cases h; rw [programDepth, Nat.zero_add]; exact hΓ
  | c :: cs, Γ, Γ', P, hΓ, hnew, hd, h => by
    rw [runProgram] at h
    cases hr : c.run sys Γ n with
    | error e => rw [hr] at h; cases h
    | ok Γ₁ =>
      rw [hr] at h
      obtain ⟨h1, h2⟩ := run_shallow hΓ (hnew c (List.mem_cons_self ..)) hr
      rw [List.map_cons, List.nodup_cons] at hd
      have := runProgram_shallow cs Γ₁ Γ' _ h1 (fun c' hc' => by
        rw [h2]
        · exact hnew c' (List.mem_cons_of_mem _ hc')
        · intro he; exact hd.1 (he ▸ List.mem_map_of_mem hc')) hd.2 h
      rw [programDepth]
      rw [show bodyLevels c.body + 2 + programDepth cs + P = programDepth cs + (bodyLevels c.body + 2 + P) by omega]
      exact this

end Verif
