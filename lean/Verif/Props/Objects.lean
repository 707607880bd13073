import Verif.Proofs.ObjectValues
import Verif.Props.Size

/-!
# C84: `to_dict` takes a snapshot; C85: instances that are used separately stay separate
-/

namespace Verif
open Spec

/-! ## C84 -/

/-- **C84** `to_dict` changes nothing, and no list, dictionary or struct instance that existed before can be reached from its result.  A `bytearray` can. -/
theorem C84_snapshot (C : ObjClasses) (n : Nat) (σ σ' : Store) (c : ObjClass) (vals : List (String × Ref)) (keep : Bool) (r : Ref)
    (roots : List Ref) (hin : ∀ l, Reach σ roots l → l < σ.length) (hvals : ∀ p ∈ vals, p.2 ∈ roots) (hown : ∀ name, c.defaults name ∈ roots)
    (hdefaults : ∀ cls c, C cls = some c → ∀ name, c.defaults name ∈ roots) (h : objToDict C n σ c vals keep = .ok (σ', r)) :
    (∀ l, l < σ.length → σ'[l]? = σ[l]?) ∧
    (∃ l d, r = .obj l ∧ σ.length ≤ l ∧ σ'[l]? = some (.dict d)) ∧
    ∀ l, Reach σ' [r] l → σ.length ≤ l ∨ ∃ b, σ[l]? = some (.bytearray b) := by
  have hroot : ∀ r l, r ∈ roots → r = .obj l → Reach σ roots l := fun r l hr hl => .root (hl ▸ hr)
  obtain ⟨h1, l, rfl, h3, h4⟩ := objToDict_grown (Q := Reach σ roots) hin (fun l o hl ho l' hl' => .step hl ho hl')
    (fun cls c hc name l hl => hroot _ l (hdefaults cls c hc name) hl) (fun name l hl => hroot _ l (hown name) hl)
    (fun l hl => (by
      obtain ⟨p, hp, hp2⟩ := List.mem_map.1 hl
      exact hroot _ l (hvals p hp) hp2)) h
  refine ⟨fun l hl => get_of_prefix h1.pre hl, ?_, ?_⟩
  · simp only [objToDict] at h
    split at h
    · cases h
    · split at h
      · cases h
      · rename_i σ1 rs _
        simp only [Store.new, Except.ok.injEq, Prod.mk.injEq, Ref.obj.injEq] at h
        obtain ⟨rfl, rfl⟩ := h
        exact ⟨_, _, rfl, h3, List.getElem?_concat_length⟩
  · intro k hk
    have : σ.length ≤ k ∨ OldBytes σ (Reach σ roots) k := by
      induction hk with
      | root hm => simp only [List.mem_singleton, Ref.obj.injEq] at hm; subst hm; exact Or.inl h3
      | step _ ho hr ih =>
        rcases ih with ih | ⟨ih, b, hb⟩
        · rcases h1.refs _ _ ih ho _ hr _ rfl with h5 | h5
          · exact Or.inr h5
          · exact Or.inl h5.1
        · rw [get_of_prefix h1.pre (hin _ ih), hb] at ho
          cases ho
          cases hr
    rcases this with h5 | h5
    · exact Or.inl h5
    · exact Or.inr h5.2

/-- **C84** Whatever is done later to objects that existed before `to_dict` was called, the dictionary keeps its contents; and whatever is done to the
dictionary and its parts, all older objects keep theirs. -/
theorem C84_independent (C : ObjClasses) (n : Nat) (σ σ' τ : Store) (c : ObjClass) (vals : List (String × Ref)) (keep : Bool) (r : Ref)
    (roots : List Ref) (hin : ∀ l, Reach σ roots l → l < σ.length) (hvals : ∀ p ∈ vals, p.2 ∈ roots) (hown : ∀ name, c.defaults name ∈ roots)
    (hdefaults : ∀ cls c, C cls = some c → ∀ name, c.defaults name ∈ roots) (hb : ∀ (l : Nat) b, σ[l]? ≠ some (.bytearray b))
    (h : objToDict C n σ c vals keep = .ok (σ', r)) :
    ((∀ l, σ.length ≤ l → τ[l]? = σ'[l]?) → ∀ k, contents τ k r = contents σ' k r) ∧
    ((∀ l, l < σ.length → τ[l]? = σ'[l]?) → ∀ k, ∀ r ∈ roots, contents τ k r = contents σ k r) := by
  obtain ⟨h1, -, h2⟩ := C84_snapshot C n σ σ' c vals keep r roots hin hvals hown hdefaults h
  constructor
  · intro ht k
    refine contents_congr (Q := Reach σ' [r]) (fun l hl => ?_) (fun l o hl ho l' hl' => .step hl ho hl') k r
      fun l hl => .root (by simp [hl])
    rcases h2 l hl with h3 | ⟨b, h3⟩
    · exact ht l h3
    · exact absurd h3 (hb l b)
  · intro ht k r hr
    refine contents_congr (Q := Reach σ roots) (fun l hl => ?_) (fun l o hl ho l' hl' => .step hl ho hl') k r
      fun l hl => .root (hl ▸ hr)
    rw [ht l (hin l hl), h1 l (hin l hl)]

/-- **C84** What the new dictionary contains is what `to_dict` gives for the contents of the struct: this model of objects agrees with the model of
values that the other properties are about. -/
theorem C84_contents (C : ObjClasses) (n k : Nat) (σ σ' : Store) (l : Nat) (cls : String) (c : ObjClass) (refs : List (String × Ref)) (vals : Dict)
    (keep : Bool) (r : Ref) (ht : Tidy C σ) (hd : Described C σ) (hc : C cls = some c) (ho : σ[l]? = some (.inst cls refs))
    (hv : contents σ k (.obj l) = some (.struct cls vals)) (h : objToDict C n σ c refs keep = .ok (σ', r)) :
    ∃ d m, structToDict C.descs n c.desc vals keep = .ok d ∧ contents σ' m r = some (.dict d) := by
  obtain ⟨d, h1, m, h2⟩ := objToDict_val ht hd ho hc ⟨k, hv⟩ h
  exact ⟨d, m, h1, h2⟩

/-- A struct with an array (`arr`) and a byte string (`raw`). -/
def Sample.holder : StructDesc :=
  { name := "Holder", components := [.array { name := "arr" } (Sample.u8 "c") (.fixed 2) none, .leaf { name := "raw", size := .fixed 2 } .bytes] }

def Sample.holderClasses : ObjClasses := fun cls => if cls = "Holder" then some { desc := Sample.holder } else none

/-- `bytearray`s are not copied: changing the struct's byte array later changes the dictionary. -/
theorem C84_bytearray_refuted :
    let σ : Store := [.list [.imm (.int 1), .imm (.int 2)], .bytearray [7, 8], .inst "Holder" [("arr", .obj 0), ("raw", .obj 1)]]
    let vars := [Ref.obj 2, .obj 1]
    ∃ σ' r σ'', (Cmd.toDict 0 false).run Sample.holderClasses 5 σ vars = .ok (σ', r) ∧
      (Cmd.setByte 1 0 99).run Sample.holderClasses 5 σ' vars = .ok (σ'', .imm .none) ∧
      contents σ' 4 r = some (.dict [("arr", .list [.int 1, .int 2]), ("raw", .bytes [7, 8])]) ∧
      contents σ'' 4 r = some (.dict [("arr", .list [.int 1, .int 2]), ("raw", .bytes [99, 8])]) :=
  ⟨_, _, _, rfl, rfl, by decide +kernel, by decide +kernel⟩

theorem Sample.holder_reach {σ : Store} (h : σ = [.list [.imm (.int 1), .imm (.int 2)], .inst "Holder" [("arr", .obj 0), ("raw", .imm (.bytes [7, 8]))]])
    {l : Nat} (hl : Reach σ [.obj 0, .imm (.bytes [7, 8]), .imm .undefined] l) : l < σ.length := by
  have : l = 0 := by
    induction hl with
    | root hm => simpa using hm
    | step _ ho hr ih =>
      subst ih h
      simp at ho
      subst ho
      simp [refsOf] at hr
  subst this h
  decide

-- non-vacuity: the dictionary made from a `Holder` keeps the array as it was, whatever happens to the struct's own
example : let σ : Store := [.list [.imm (.int 1), .imm (.int 2)], .inst "Holder" [("arr", .obj 0), ("raw", .imm (.bytes [7, 8]))]]
    ∃ σ' r, objToDict Sample.holderClasses 5 σ { desc := Sample.holder } [("arr", .obj 0), ("raw", .imm (.bytes [7, 8]))] false = .ok (σ', r) ∧
      ∀ τ : Store, (∀ l, σ.length ≤ l → τ[l]? = σ'[l]?) → ∀ k, contents τ k r = contents σ' k r := by
  refine ⟨_, _, rfl, fun τ ht k => ?_⟩
  refine (C84_independent Sample.holderClasses 5 [.list [.imm (.int 1), .imm (.int 2)], .inst "Holder" [("arr", .obj 0), ("raw", .imm (.bytes [7, 8]))]]
    _ τ { desc := Sample.holder } [("arr", .obj 0), ("raw", .imm (.bytes [7, 8]))] false _ [.obj 0, .imm (.bytes [7, 8]), .imm .undefined]
    (fun l hl => Sample.holder_reach rfl hl) (by simp) (by simp) ?_ ?_ rfl).1 ht k
  · intro cls c hc name
    simp only [Sample.holderClasses] at hc
    split at hc
    · cases hc; simp
    · cases hc
  · intro l b
    rcases l with _ | _ | l <;> simp

example : let σ : Store := [.list [.imm (.int 1), .imm (.int 2)], .inst "Holder" [("arr", .obj 0), ("raw", .imm (.bytes [7, 8]))]]
    Tidy Sample.holderClasses σ ∧ Described Sample.holderClasses σ ∧
    contents σ 3 (.obj 1) = some (.struct "Holder" [("arr", .list [.int 1, .int 2]), ("raw", .bytes [7, 8])]) := by
  refine ⟨⟨?_, ?_, ?_⟩, ?_, by decide +kernel⟩
  · intro l o ho l' hl'
    rcases l with _ | _ | l <;> simp at ho <;> subst ho <;> simp [refsOf] at hl'
    subst hl'; decide
  · intro l o ho v hv
    rcases l with _ | _ | l <;> simp at ho <;> subst ho <;> simp [refsOf] at hv
    · rcases hv with rfl | rfl <;> trivial
    · subst hv; trivial
  · intro l cls vals c ho hc
    rcases l with _ | _ | l <;> simp at ho
    obtain ⟨rfl, rfl⟩ := ho
    simp only [Sample.holderClasses, if_true, Option.some.injEq] at hc
    subst hc
    decide
  · intro cls c hc
    simp only [Sample.holderClasses] at hc
    split at hc
    · cases hc
      refine ⟨by decide, fun f hf => ?_⟩
      simp [Sample.holder] at hf
      rcases hf with rfl | rfl <;> exact ⟨rfl, rfl, fun _ _ _ => rfl, ⟨1, rfl⟩, fun v hv => by cases hv; trivial⟩
    · cases hc

/-! ## C85 -/

/-- **C85** Several parts of a program use struct instances of their own: each creates, loads, changes, reads and converts what it has, with no objects handed from
one to another.  If the `default`, `const` and `not_present_value` objects of all fields are immutable, then for every such history no part ever reaches an
object that another can reach, and -/
theorem C85_separate (C : ObjClasses) (n : Nat) (hC : ImmutableDefaults C) (w : World) (hw : Separate w) (history : List (Nat × Cmd)) :
    Separate (history.foldl (World.exec C n) w) := execs_separate hC history hw

/-- **C85** … nothing that the others do changes the contents of what it has. -/
theorem C85_unaffected (C : ObjClasses) (n : Nat) (hC : ImmutableDefaults C) (w : World) (hw : Separate w) (before others : List (Nat × Cmd)) (j : Nat)
    (hj : ∀ p ∈ others, p.1 ≠ j) :
    let w₁ := before.foldl (World.exec C n) w
    let w₂ := others.foldl (World.exec C n) w₁
    w₂.vars j = w₁.vars j ∧ ∀ k, ∀ r ∈ w₁.vars j, contents w₂.store k r = contents w₁.store k r :=
  execs_others hC others (execs_separate hC before hw) hj

/-- The condition on defaults is needed: with `Array(UInt8(), default=[])` all instances share one list, and appending to the array of one
changes the others. -/
theorem C85_mutable_default_refuted :
    let C : ObjClasses := fun cls => if cls = "Bag" then some
      { desc := { name := "Bag", components := [.array { name := "items", dflt := .list [] } (Sample.u8 "c") .none none] }, defaults := fun _ => .obj 0 } else none
    let w : World := { store := [.list []], vars := fun _ => [] }
    let before := [(0, Cmd.construct "Bag" []), (1, .construct "Bag" []), (1, .get 0 "items")]
    let w₁ := before.foldl (World.exec C 5) w
    let w₂ := [(0, Cmd.get 0 "items"), (0, .const (.int 7)), (0, .append 1 2)].foldl (World.exec C 5) w₁
    Separate w ∧ w₁.vars 1 = [.obj 2, .obj 0] ∧ contents w₁.store 3 (.obj 0) = some (.list []) ∧ contents w₂.store 3 (.obj 0) = some (.list [.int 7]) := by
  refine ⟨⟨fun i l h => ?_, fun i j l _ h => ?_⟩, by decide +kernel, by decide +kernel, by decide +kernel⟩
  all_goals
    exfalso
    induction h with
    | root hm => simp at hm
    | step _ _ _ ih => exact ih

/-- And the one on `not_present_value`: what is loaded for a field that is not present is that object itself. -/
theorem C85_mutable_not_present_refuted :
    let C : ObjClasses := fun cls => if cls = "Opt" then some
      { desc := { name := "Opt", components := [.array { name := "items", present := fun _ _ _ => .ok false, notPresentValue := .list [] } (Sample.u8 "c") (.fixed 1) none] },
        notPresent := fun _ => .obj 0 } else none
    let w : World := { store := [.list []], vars := fun _ => [] }
    let before := [(0, Cmd.load "Opt" ⟨[], 0⟩ .none []), (1, .load "Opt" ⟨[], 0⟩ .none []), (1, .get 0 "items")]
    let w₁ := before.foldl (World.exec C 5) w
    let w₂ := [(0, Cmd.get 0 "items"), (0, .const (.int 7)), (0, .append 1 2)].foldl (World.exec C 5) w₁
    w₁.vars 1 = [.obj 2, .obj 0] ∧ contents w₁.store 3 (.obj 0) = some (.list []) ∧ contents w₂.store 3 (.obj 0) = some (.list [.int 7]) := by
  refine ⟨by decide +kernel, by decide +kernel, by decide +kernel⟩

theorem Sample.empty_separate : Separate { store := [], vars := fun _ => [] } := by
  refine ⟨fun i l h => ?_, fun i j l _ h => ?_⟩
  all_goals
    exfalso
    induction h with
    | root hm => simp at hm
    | step _ _ _ ih => exact ih

theorem Sample.holder_immutable : ImmutableDefaults Sample.holderClasses := by
  intro cls c hc name
  simp only [Sample.holderClasses] at hc
  split at hc
  · cases hc; exact ⟨⟨_, rfl⟩, _, rfl⟩
  · cases hc

-- non-vacuity: two parties load the same bytes; one changes its array, the other's stays
example : let before := [(0, Cmd.load "Holder" ⟨[1, 2, 7, 8], 0⟩ .none []), (1, .load "Holder" ⟨[1, 2, 7, 8], 0⟩ .none [])]
    let others := [(0, Cmd.get 0 "arr"), (0, .const (.int 9)), (0, .append 1 2)]
    let w₁ := before.foldl (World.exec Sample.holderClasses 6) { store := [], vars := fun _ => [] }
    let w₂ := others.foldl (World.exec Sample.holderClasses 6) w₁
    contents w₁.store 4 (.obj 1) = some (.struct "Holder" [("arr", .list [.int 1, .int 2]), ("raw", .bytes [7, 8])]) ∧
    contents w₂.store 4 (.obj 1) = some (.struct "Holder" [("arr", .list [.int 1, .int 2, .int 9]), ("raw", .bytes [7, 8])]) ∧
    w₁.vars 1 = [.obj 3] ∧
    contents w₂.store 4 (.obj 3) = some (.struct "Holder" [("arr", .list [.int 1, .int 2]), ("raw", .bytes [7, 8])]) := by
  refine ⟨by decide +kernel, by decide +kernel, by decide +kernel, ?_⟩
  refine ((C85_unaffected Sample.holderClasses 6 Sample.holder_immutable _ Sample.empty_separate
    [(0, Cmd.load "Holder" ⟨[1, 2, 7, 8], 0⟩ .none []), (1, .load "Holder" ⟨[1, 2, 7, 8], 0⟩ .none [])]
    [(0, Cmd.get 0 "arr"), (0, .const (.int 9)), (0, .append 1 2)] 1 (by decide)).2 4 (.obj 3) (by decide +kernel)).trans (by decide +kernel)

end Verif
