import Verif.Proofs.Copy
import Verif.Props.Objects

/-!
# C101: a deep copy is a thing of its own
-/

namespace Verif
open Spec

/-- **C101** `copy.deepcopy(x)` and `pickle.loads(pickle.dumps(x))` have the contents of `x`, to any depth; -/
theorem C101_same_contents (σ : Store) (r : Ref) (k : Nat) : contents (objDeepCopy σ r).1 k (objDeepCopy σ r).2 = contents σ k r :=
  contents_deepCopy σ r k r

/-- … objects that occur in several places of `x` (or contain themselves) do so in the copy; -/
theorem C101_same_shape (σ : Store) (r : Ref) (p q : List Nat) :
    ((follow (objDeepCopy σ r).1 (objDeepCopy σ r).2 p).isSome = (follow σ r p).isSome) ∧
    (follow (objDeepCopy σ r).1 (objDeepCopy σ r).2 p = follow (objDeepCopy σ r).1 (objDeepCopy σ r).2 q ↔ follow σ r p = follow σ r q) := by
  have h := fun p => follow_deepCopy σ r p r
  refine ⟨?_, ?_⟩
  · show (follow (objDeepCopy σ r).1 (r.moved σ.length) p).isSome = _
    rw [h]; simp
  · show follow (objDeepCopy σ r).1 (r.moved σ.length) p = follow (objDeepCopy σ r).1 (r.moved σ.length) q ↔ _
    rw [h, h]
    exact ⟨fun h => Option.map_injective (fun _ _ => moved_inj) h, fun h => by rw [h]⟩

/-- … the old objects stay as they are, and none of them can be reached from the copy; -/
theorem C101_apart (σ : Store) (r : Ref) :
    (∀ l, l < σ.length → (objDeepCopy σ r).1[l]? = σ[l]?) ∧ ∀ l, Reach (objDeepCopy σ r).1 [(objDeepCopy σ r).2] l → σ.length ≤ l :=
  ⟨fun _ hl => deepCopy_old σ r hl, fun l h => by obtain ⟨m, rfl, _⟩ := reach_deepCopy_new h; exact Nat.le_add_right _ _⟩

/-- … it is dumped to the same bytes, has the same length, and passes or fails validation as the original does. -/
theorem C101_same_behaviour (C : ObjClasses) (n : Nat) (σ : Store) (vars vars' : List Ref) (x y : Nat) (r : Ref) (ctx : Value) (hx : vars[x]? = some r)
    (hy : vars'[y]? = some (objDeepCopy σ r).2) :
    let σ' := (objDeepCopy σ r).1
    ((Cmd.toBytes y ctx).run C n σ' vars').map (·.2) = ((Cmd.toBytes x ctx).run C n σ vars).map (·.2) ∧
    ((Cmd.len y).run C n σ' vars').map (·.2) = ((Cmd.len x).run C n σ vars).map (·.2) ∧
    ((Cmd.validate y).run C n σ' vars').map (·.2) = ((Cmd.validate x).run C n σ vars).map (·.2) := by
  have h := valuesOf_copy (C := C) (n := n) hx hy
  refine ⟨?_, ?_, ?_⟩
  all_goals
    simp only [Cmd.run, h]
    exact results_bind fun _ => results_bind fun _ => rfl

/-- **C101** Parts of a program that give each other deep copies only, and otherwise use objects of their own, never reach the same object, -/
theorem C101_separate (C : ObjClasses) (n : Nat) (hC : ImmutableDefaults C) (w : World) (hw : Separate w) (history : List Deed) :
    Separate (history.foldl (World.deed C n) w) := deeds_separate hC history hw

/-- **C101** … and what a part has, including copies it was given, is not changed by what the others do, even to the originals. -/
theorem C101_unaffected (C : ObjClasses) (n : Nat) (hC : ImmutableDefaults C) (w : World) (hw : Separate w) (before : List Deed) (i x j : Nat) (r : Ref)
    (later : List Deed) (hx : ((before.foldl (World.deed C n) w).vars i)[x]? = some r) (hj : ∀ c, .run j c ∉ later) :
    let w₁ := before.foldl (World.deed C n) w
    let w₂ := later.foldl (World.deed C n) (w₁.deed C n (.give i x j))
    (∀ k, ∀ r' ∈ w₁.vars j, contents w₂.store k r' = contents w₁.store k r') ∧
    ∃ copy, (w₂.vars j)[(w₁.vars j).length]? = some copy ∧ ∀ k, contents w₂.store k copy = contents w₁.store k r := by
  intro w₁ w₂
  have h1 : Separate w₁ := deeds_separate hC before hw
  have h2 : Separate (w₁.deed C n (.give i x j)) := deed_separate hC h1 _
  obtain ⟨h3, -, h4⟩ := deed_others hC (n := n) h1 (d := .give i x j) (j := j) (fun c h => by cases h)
  obtain ⟨⟨t, h5⟩, -, h6⟩ := deeds_others hC (n := n) later h2 hj
  have hv : (w₁.deed C n (.give i x j)).vars j = w₁.vars j ++ [(objDeepCopy w₁.store r).2] := by
    simp only [World.deed, w₁, hx, if_true]
  have hs : (w₁.deed C n (.give i x j)).store = (objDeepCopy w₁.store r).1 := by
    simp only [World.deed, w₁, hx]
  refine ⟨fun k r' hr' => (h6 k r' (h3.subset hr')).trans (h4 k r' hr'), (objDeepCopy w₁.store r).2, ?_, fun k => ?_⟩
  · show ((later.foldl (World.deed C n) (w₁.deed C n (.give i x j))).vars j)[(w₁.vars j).length]? = _
    rw [← h5, hv]
    simp
  · rw [h6 k _ (by rw [hv]; simp), hs]
    exact contents_deepCopy w₁.store r k r

/-- `copy.copy(s)` is no copy at all: setting a field of the copy sets it in the original. -/
theorem C101_shallow_refuted :
    let σ : Store := [.list [.imm (.int 1), .imm (.int 2)], .inst "Holder" [("arr", .obj 0), ("raw", .imm (.bytes [7, 8]))]]
    ∃ σ' r σ'' d, objCopy σ (.obj 1) = (σ', r) ∧
      (Cmd.set 1 "raw" 2).run Sample.holderClasses 5 σ' [.obj 1, r, .imm (.bytes [9, 9])] = .ok (σ'', d) ∧
      contents σ' 4 (.obj 1) = some (.struct "Holder" [("arr", .list [.int 1, .int 2]), ("raw", .bytes [7, 8])]) ∧
      contents σ'' 4 (.obj 1) = some (.struct "Holder" [("arr", .list [.int 1, .int 2]), ("raw", .bytes [9, 9])]) :=
  ⟨_, _, _, _, rfl, rfl, by decide +kernel, by decide +kernel⟩

-- non-vacuity: part 0 loads a struct, gives a copy to part 1, and then changes the array of the original
example :
    let before := [Deed.run 0 (.load "Holder" ⟨[1, 2, 7, 8], 0⟩ .none [])]
    let later := [Deed.run 0 (.get 0 "arr"), .run 0 (.const (.int 9)), .run 0 (.append 1 2)]
    let w₁ := before.foldl (World.deed Sample.holderClasses 6) { store := [], vars := fun _ => [] }
    let w₂ := later.foldl (World.deed Sample.holderClasses 6) (w₁.deed Sample.holderClasses 6 (.give 0 0 1))
    contents w₂.store 4 (.obj 1) = some (.struct "Holder" [("arr", .list [.int 1, .int 2, .int 9]), ("raw", .bytes [7, 8])]) ∧
    ∃ copy, (w₂.vars 1)[0]? = some copy ∧
      contents w₂.store 4 copy = some (.struct "Holder" [("arr", .list [.int 1, .int 2]), ("raw", .bytes [7, 8])]) := by
  refine ⟨by decide +kernel, ?_⟩
  obtain ⟨copy, h1, h2⟩ := (C101_unaffected Sample.holderClasses 6 Sample.holder_immutable _ Sample.empty_separate
    [Deed.run 0 (.load "Holder" ⟨[1, 2, 7, 8], 0⟩ .none [])] 0 0 1 (.obj 1)
    [.run 0 (.get 0 "arr"), .run 0 (.const (.int 9)), .run 0 (.append 1 2)] (by decide +kernel) (by simp)).2
  exact ⟨copy, h1, (h2 4).trans (by decide +kernel)⟩

-- a list that occurs twice in a struct occurs twice in its copy, and a list that contains itself is no obstacle
example : let σ : Store := [.list [.imm (.int 1), .obj 0], .inst "Holder" [("arr", .obj 0), ("raw", .obj 0)]]
    let c := objDeepCopy σ (.obj 1)
    follow c.1 c.2 [0] = follow c.1 c.2 [1, 1, 1] ∧ follow c.1 c.2 [0] = some (.obj 2) :=
  ⟨((C101_same_shape [.list [.imm (.int 1), .obj 0], .inst "Holder" [("arr", .obj 0), ("raw", .obj 0)]] (.obj 1) [0] [1, 1, 1]).2).2 rfl, rfl⟩

end Verif
