import Verif.Proofs.Objects
import Verif.Spec.Copy

/-!
# Lemmas about copies
-/

namespace Verif
open Spec

theorem refsOf_moved (k : Nat) (o : Obj) : refsOf (o.moved k) = (refsOf o).map (Ref.moved k) := by
  cases o <;> simp [refsOf, Obj.moved, Function.comp_def]

theorem deepCopy_old (σ : Store) (r : Ref) {l : Nat} (hl : l < σ.length) : (objDeepCopy σ r).1[l]? = σ[l]? := by
  simp only [objDeepCopy]; rw [List.getElem?_append_left hl]

theorem deepCopy_new (σ : Store) (r : Ref) (l : Nat) : (objDeepCopy σ r).1[σ.length + l]? = (σ[l]?).map (Obj.moved σ.length) := by
  simp only [objDeepCopy]
  rw [List.getElem?_append_right (Nat.le_add_right _ _), Nat.add_sub_cancel_left, List.getElem?_map]

theorem moved_imm {k : Nat} {r : Ref} {v : Value} (h : r.moved k = .imm v) : r = .imm v := by
  cases r with
  | imm _ => exact h
  | obj _ => cases h

theorem moved_obj {k l : Nat} {r : Ref} (h : r.moved k = .obj l) : ∃ m, r = .obj m ∧ l = k + m := by
  cases r with
  | imm _ => cases h
  | obj m => cases h; exact ⟨m, rfl, rfl⟩

theorem moved_inj {k : Nat} {r r' : Ref} (h : r.moved k = r'.moved k) : r = r' := by
  cases r <;> cases r' <;> simp_all [Ref.moved]

theorem mapM_moved {f g : Ref → Option Value} {k : Nat} (h : ∀ r, f (r.moved k) = g r) (rs : List Ref) : (rs.map (Ref.moved k)).mapM f = rs.mapM g := by
  induction rs with
  | nil => rfl
  | cons r rs ih => rw [List.map_cons, List.mapM_cons, List.mapM_cons, h, ih]

theorem contents_deepCopy (σ : Store) (r₀ : Ref) (n : Nat) (r : Ref) : contents (objDeepCopy σ r₀).1 n (r.moved σ.length) = contents σ n r := by
  induction n generalizing r with
  | zero => rfl
  | succ n ih =>
    cases r with
    | imm v => rfl
    | obj l =>
      simp only [Ref.moved, contents, deepCopy_new]
      cases ho : σ[l]? with
      | none => rfl
      | some o =>
        have hm := mapM_moved (k := σ.length) ih
        cases o with
        | bytearray b => rfl
        | list items => simp only [Option.map_some, Obj.moved, hm]
        | dict items =>
          simp only [Option.map_some, Obj.moved, List.map_map, Function.comp_def]
          rw [← hm (items.map (·.2)), List.map_map]; rfl
        | inst cls vals =>
          simp only [Option.map_some, Obj.moved, List.map_map, Function.comp_def]
          rw [← hm (vals.map (·.2)), List.map_map]; rfl

theorem follow_deepCopy (σ : Store) (r₀ : Ref) (path : List Nat) (r : Ref) :
    follow (objDeepCopy σ r₀).1 (r.moved σ.length) path = (follow σ r path).map (Ref.moved σ.length) := by
  induction path generalizing r with
  | nil => rfl
  | cons i path ih =>
    cases r with
    | imm v => rfl
    | obj l =>
      simp only [Ref.moved, follow, deepCopy_new]
      cases ho : σ[l]? with
      | none => rfl
      | some o =>
        simp only [Option.map_some, refsOf_moved, List.getElem?_map]
        cases hr : (refsOf o)[i]? with
        | none => rfl
        | some r' => simp only [Option.map_some, ih]

/-- What can be reached from old references is what could be reached before. -/
theorem reach_deepCopy_old {σ : Store} {r₀ : Ref} {roots : List Ref} (hin : ∀ l, Reach σ roots l → l < σ.length) {l : Nat}
    (h : Reach (objDeepCopy σ r₀).1 roots l) : Reach σ roots l := by
  induction h with
  | root hm => exact .root hm
  | step _ ho hr ih => rw [deepCopy_old σ r₀ (hin _ ih)] at ho; exact .step ih ho hr

/-- What can be reached from the copy are copies of what can be reached from the original. -/
theorem reach_deepCopy_new {σ : Store} {r : Ref} {l : Nat} (h : Reach (objDeepCopy σ r).1 [(objDeepCopy σ r).2] l) :
    ∃ m, l = σ.length + m ∧ Reach σ [r] m := by
  induction h with
  | root hm =>
    simp only [List.mem_singleton, objDeepCopy] at hm
    obtain ⟨m, rfl, rfl⟩ := moved_obj hm.symm
    exact ⟨m, rfl, .root (by simp)⟩
  | step _ ho hr ih =>
    obtain ⟨m, rfl, hm⟩ := ih
    rw [deepCopy_new] at ho
    cases hs : σ[m]? with
    | none => rw [hs] at ho; cases ho
    | some o =>
      rw [hs] at ho
      cases ho
      rw [refsOf_moved] at hr
      obtain ⟨r', hr', h'⟩ := List.mem_map.1 hr
      obtain ⟨m', rfl, rfl⟩ := moved_obj h'
      exact ⟨m', rfl, .step hm hs hr'⟩

theorem reach_append {σ : Store} {as bs : List Ref} {l : Nat} (h : Reach σ (as ++ bs) l) : Reach σ as l ∨ Reach σ bs l := by
  induction h with
  | root hm =>
    rcases List.mem_append.1 hm with h | h
    · exact .inl (.root h)
    · exact .inr (.root h)
  | step _ ho hr ih =>
    rcases ih with h | h
    · exact .inl (.step h ho hr)
    · exact .inr (.step h ho hr)

theorem reach_mono {σ : Store} {as bs : List Ref} (hs : ∀ r ∈ as, r ∈ bs) {l : Nat} (h : Reach σ as l) : Reach σ bs l := by
  induction h with
  | root hm => exact .root (hs _ hm)
  | step _ ho hr ih => exact .step ih ho hr

/-- What part `k` reaches after a deep copy was given to part `j`: what it reached before, and part `j` also the copies. -/
theorem reach_give {σ : Store} {vars : Nat → List Ref} {i j k : Nat} {r : Ref} (hin : ∀ l, Reach σ (vars k) l → l < σ.length) (hr : r ∈ vars i) {l : Nat}
    (h : Reach (objDeepCopy σ r).1 (if k = j then vars k ++ [(objDeepCopy σ r).2] else vars k) l) :
    Reach σ (vars k) l ∨ (k = j ∧ ∃ m, l = σ.length + m ∧ Reach σ (vars i) m) := by
  split at h
  · rename_i hk
    rcases reach_append h with h | h
    · exact .inl (reach_deepCopy_old hin h)
    · obtain ⟨m, hm, h⟩ := reach_deepCopy_new h
      exact .inr ⟨hk, m, hm, reach_mono (by simpa using hr) h⟩
  · exact .inl (reach_deepCopy_old hin h)

theorem deed_separate {C : ObjClasses} (hC : ImmutableDefaults C) {n : Nat} {w : World} (hw : Separate w) (d : Deed) : Separate (w.deed C n d) := by
  cases d with
  | run i c => exact (exec_separate hC hw (i, c)).1
  | give i x j =>
    simp only [World.deed]
    split
    · exact hw
    · rename_i r hx
      have hr : r ∈ w.vars i := List.mem_of_getElem? hx
      have hlen : (objDeepCopy w.store r).1.length = w.store.length + w.store.length := by simp [objDeepCopy]
      refine ⟨fun k l h => ?_, fun k k' l hne h h' => ?_⟩
      · show l < (objDeepCopy w.store r).1.length
        rcases reach_give (hw.closed k) hr h with h | ⟨-, m, rfl, hm⟩
        · have := hw.closed k l h; omega
        · have := hw.closed i m hm; omega
      · rcases reach_give (hw.closed k) hr h with h | ⟨hk, m, rfl, h⟩
        · rcases reach_give (hw.closed k') hr h' with h' | ⟨hk', m, rfl, h'⟩
          · exact hw.apart k k' l hne h h'
          · have := hw.closed k _ h; omega
        · rcases reach_give (hw.closed k') hr h' with h' | ⟨hk', m', hm, h'⟩
          · have := hw.closed k' _ h'; omega
          · exact hne (hk.trans hk'.symm)

theorem deeds_separate {C : ObjClasses} (hC : ImmutableDefaults C) {n : Nat} (ds : List Deed) {w : World} (hw : Separate w) :
    Separate (ds.foldl (World.deed C n) w) := by
  induction ds generalizing w with
  | nil => exact hw
  | cons d ds ih => exact ih (deed_separate hC hw d)

/-- A deed leaves what a part has as it is, unless it is that part's command. -/
theorem deed_others {C : ObjClasses} (hC : ImmutableDefaults C) {n : Nat} {w : World} (hw : Separate w) {d : Deed} {j : Nat}
    (hj : ∀ c, d ≠ .run j c) : w.vars j <+: (w.deed C n d).vars j ∧ (d.whose ≠ j → (w.deed C n d).vars j = w.vars j) ∧
      ∀ k, ∀ r ∈ w.vars j, contents (w.deed C n d).store k r = contents w.store k r := by
  cases d with
  | run i c =>
    have hne : j ≠ i := by rintro rfl; exact hj c rfl
    obtain ⟨h1, h2⟩ := (exec_separate hC (n := n) hw (i, c)).2 j hne
    exact ⟨by simp only [World.deed]; rw [h1]; exact List.prefix_rfl, fun _ => h1, h2⟩
  | give i x i' =>
    simp only [World.deed, Deed.whose]
    split
    · exact ⟨List.prefix_rfl, fun _ => rfl, fun _ _ _ => rfl⟩
    · rename_i r hx
      refine ⟨?_, fun h => if_neg (Ne.symm h), fun k r' hr' => ?_⟩
      · dsimp only
        split
        · exact List.prefix_append _ _
        · exact List.prefix_rfl
      · exact contents_congr (Q := Reach w.store (w.vars j)) (fun l hl => deepCopy_old _ r (hw.closed j l hl))
          (fun l o hl ho l' hl' => .step hl ho hl') k r' fun l hl => .root (hl ▸ hr')

theorem deeds_others {C : ObjClasses} (hC : ImmutableDefaults C) {n : Nat} (ds : List Deed) {w : World} (hw : Separate w) {j : Nat}
    (hj : ∀ c, .run j c ∉ ds) : w.vars j <+: (ds.foldl (World.deed C n) w).vars j ∧
      ((∀ d ∈ ds, d.whose ≠ j) → (ds.foldl (World.deed C n) w).vars j = w.vars j) ∧
      ∀ k, ∀ r ∈ w.vars j, contents (ds.foldl (World.deed C n) w).store k r = contents w.store k r := by
  induction ds generalizing w with
  | nil => exact ⟨List.prefix_rfl, fun _ => rfl, fun _ _ _ => rfl⟩
  | cons d ds ih =>
    obtain ⟨h1, h2, h3⟩ := deed_others hC (n := n) hw (d := d) (j := j) fun c h => hj c (h ▸ List.mem_cons_self)
    obtain ⟨h4, h5, h6⟩ := ih (deed_separate hC (n := n) hw d) fun c h => hj c (List.mem_cons_of_mem _ h)
    refine ⟨h1.trans h4, fun h => ?_, fun k r hr => ?_⟩
    · rw [List.foldl_cons, h5 fun d hd => h d (List.mem_cons_of_mem _ hd), h2 (h d List.mem_cons_self)]
    · rw [List.foldl_cons, h6 k r (h1.subset hr), h3 k r hr]

theorem valuesOf_copy {C : ObjClasses} {n : Nat} {σ : Store} {vars vars' : List Ref} {x y : Nat} {r : Ref} (hx : vars[x]? = some r)
    (hy : vars'[y]? = some (objDeepCopy σ r).2) : valuesOf C n (objDeepCopy σ r).1 vars' y = valuesOf C n σ vars x := by
  simp only [valuesOf, instanceOf, objectOf, hx, hy, objDeepCopy]
  cases r with
  | imm v => rfl
  | obj l =>
    have h1 := deepCopy_new σ (.obj l) l
    have h2 := contents_deepCopy σ (.obj l) n (.obj l)
    simp only [objDeepCopy, Ref.moved] at h1 h2 ⊢
    rw [h1]
    cases σ[l]? with
    | none => rfl
    | some o =>
      cases o with
      | inst cls vals =>
        simp only [Option.map_some, Obj.moved]
        cases C cls with
        | none => rfl
        | some c => simp only [h2]
      | _ => rfl

/-- Two programs that do the same first and have the same results then have the same results. -/
theorem results_bind {α : Type} {x : Except Err α} {g h : α → Except Err (Store × Ref)} (H : ∀ a, (g a).map (·.2) = (h a).map (·.2)) :
    (x >>= g).map (·.2) = (x >>= h).map (·.2) := by
  cases x with
  | error e => rfl
  | ok a => exact H a

end Verif
