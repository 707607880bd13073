import Verif.Proofs.Rename
import Verif.Spec.Schedule

/-! Helper lemmas: parts of a program that take turns. -/

namespace Verif
open Spec

theorem Sim.mono {f : Nat → Nat} {P Q : Nat → Prop} {σ τ : Store} (h : Sim f Q σ τ) (hp : ∀ l, P l → Q l)
    (hc : ∀ l o, P l → σ[l]? = some o → ∀ r ∈ refsOf o, RefOk P r) : Sim f P σ τ :=
  ⟨fun a b ha hb => h.inj a b (hp a ha) (hp b hb), fun l hl => h.bound l (hp l hl), hc, fun l hl => h.same l (hp l hl)⟩

/-- Part `j` is in the same situation in two scenes. -/
def Alike2 (j : Nat) (S T : Scene) : Prop :=
  ∃ f Q, Sim f Q S.world.store T.world.store ∧ (∀ r ∈ S.world.vars j, RefOk Q r) ∧ T.world.vars j = (S.world.vars j).map (Ref.ren f) ∧
    T.raised j = S.raised j

theorem ren_inj {f : Nat → Nat} {Q : Nat → Prop} {σ τ : Store} (h : Sim f Q σ τ) {r r' : Ref} (hr : RefOk Q r) (hr' : RefOk Q r') :
    r.ren f = r'.ren f ↔ r = r' := by
  cases r <;> cases r' <;> simp only [Ref.ren, Ref.imm.injEq, Ref.obj.injEq, reduceCtorEq]
  exact ⟨fun e => h.inj _ _ (hr _ rfl) (hr' _ rfl) e, fun e => by rw [e]⟩

theorem Alike2.outlook {j : Nat} {S T : Scene} (h : Alike2 j S T) : T.outlook j = S.outlook j := by
  obtain ⟨f, Q, h1, h2, h3, h4⟩ := h
  unfold Scene.outlook
  rw [h3, h4]
  congr 1
  · funext k
    rw [List.map_map]
    exact List.map_congr_left fun r hr => h1.contents k r (h2 r hr)
  · funext a b
    rw [List.getElem?_map, List.getElem?_map, Bool.eq_iff_iff, decide_eq_true_iff, decide_eq_true_iff]
    cases ha : (S.world.vars j)[a]? with
    | none =>
      cases hb : (S.world.vars j)[b]? <;> simp
    | some r =>
      cases hb : (S.world.vars j)[b]? with
      | none => simp
      | some r' =>
        simp only [Option.map_some, Option.some.injEq]
        exact ren_inj h1 (h2 r (List.mem_of_getElem? ha)) (h2 r' (List.mem_of_getElem? hb))

theorem turn_world (C : ObjClasses) (n : Nat) (programs : Nat → Outlook → Cmd) (S : Scene) (j : Nat) :
    (S.turn C n programs j).world = S.world.exec C n (j, programs j (S.outlook j)) := by
  unfold Scene.turn World.exec
  cases (programs j (S.outlook j)).run C n S.world.store (S.world.vars j) <;> rfl

/-- Others take their turns. -/
theorem Alike2.others {C : ObjClasses} (hC : ImmutableDefaults C) {n : Nat} {programs : Nat → Outlook → Cmd} {S T : Scene} {j : Nat} (h : Alike2 j S T)
    (hS : Separate S.world) {i : Nat} (hi : i ≠ j) : Alike2 j (S.turn C n programs i) T := by
  obtain ⟨f, Q, h1, h2, h3, h4⟩ := h
  have hreach : ∀ l, Reach S.world.store (S.world.vars j) l → Q l := by
    intro l hl
    induction hl with
    | root hm => exact h2 _ hm _ rfl
    | step _ ho hr ih => exact h1.closed _ _ ih ho _ hr _ rfl
  have h1' : Sim f (Reach S.world.store (S.world.vars j)) S.world.store T.world.store :=
    h1.mono hreach fun l o hl ho r hr l' hl' => .step hl ho (hl' ▸ hr)
  have h2' : ∀ r ∈ S.world.vars j, RefOk (Reach S.world.store (S.world.vars j)) r := fun r hr l hl => .root (hl ▸ hr)
  unfold Scene.turn
  split
  · refine ⟨f, _, h1', h2', h3, ?_⟩
    simp only
    rw [if_neg (Ne.symm hi)]
    exact h4
  · rename_i σ' r hrun
    have hp := Cmd.polite hC (hS.closed i) _ hrun
    have hframe : ∀ l, Reach S.world.store (S.world.vars j) l → σ'[l]? = S.world.store[l]? := fun l hl =>
      hp.frame l (hS.closed j l hl) (hS.apart j i l (Ne.symm hi) hl)
    refine ⟨f, Reach S.world.store (S.world.vars j), ⟨h1'.inj, ?_, ?_, ?_⟩, ?_, ?_, ?_⟩
    · intro l hl; exact Nat.lt_of_lt_of_le (h1'.bound l hl) hp.grows
    · intro l o hl ho
      rw [show _ = _ from hframe l hl] at ho
      exact h1'.closed l o hl ho
    · intro l hl
      rw [show σ'[l]? = _ from hframe l hl]
      exact h1'.same l hl
    · simp only
      rw [if_neg (Ne.symm hi)]
      exact h2'
    · simp only
      rw [if_neg (Ne.symm hi)]
      exact h3
    · simp only
      rw [if_neg (Ne.symm hi)]
      exact h4

/-- It takes its turn in both. -/
theorem Alike2.own {C : ObjClasses} (hC : ImmutableDefaults C) {n : Nat} {programs : Nat → Outlook → Cmd} {S T : Scene} {j : Nat} (h : Alike2 j S T) :
    Alike2 j (S.turn C n programs j) (T.turn C n programs j) := by
  have hv := h.outlook
  obtain ⟨f, Q, h1, h2, h3, h4⟩ := h
  have hc := Cmd.sim hC (n := n) h1 h2 (programs j (S.outlook j))
  unfold Scene.turn
  rw [hv, h3]
  generalize (programs j (S.outlook j)).run C n S.world.store (S.world.vars j) = x,
    (programs j (S.outlook j)).run C n T.world.store ((S.world.vars j).map (Ref.ren f)) = y at hc
  cases hc with
  | error e =>
    refine ⟨f, Q, h1, h2, h3, ?_⟩
    simp only [if_true]
    rw [h4]
  | @ok f' Q' σ' τ' r r' he hs hr hw =>
    refine ⟨f', Q', hs, ?_, ?_, ?_⟩
    · simp only [if_true]
      intro q hq
      rcases List.mem_append.1 hq with hq | hq
      · exact he.ok (h2 q hq)
      · rw [List.mem_singleton.1 hq]; exact hr
    · simp only [if_true]
      rw [h3, List.map_append, he.renL h2, hw]
      rfl
    · simp only [if_true]
      rw [h4]

theorem turns_alike {C : ObjClasses} (hC : ImmutableDefaults C) {n : Nat} {programs : Nat → Outlook → Cmd} {j : Nat} (schedule : List Nat) {S T : Scene}
    (h : Alike2 j S T) (hS : Separate S.world) :
    Alike2 j (schedule.foldl (Scene.turn C n programs) S) ((schedule.filter (· = j)).foldl (Scene.turn C n programs) T) := by
  induction schedule generalizing S T with
  | nil => exact h
  | cons i schedule ih =>
    have hsep : Separate (S.turn C n programs i).world := by
      rw [turn_world]
      exact (exec_separate hC hS _).1
    rw [List.foldl_cons]
    by_cases hi : i = j
    · subst hi
      rw [List.filter_cons_of_pos (by simp), List.foldl_cons]
      exact ih (h.own hC) hsep
    · rw [List.filter_cons_of_neg (by simpa using hi)]
      exact ih (h.others hC hS hi) hsep

theorem alike_refl {S : Scene} (hS : Separate S.world) (j : Nat) : Alike2 j S S := by
  have hid : ∀ r : Ref, r.ren id = r := fun r => by cases r <;> rfl
  have hids : ∀ rs : List Ref, rs.map (Ref.ren id) = rs := fun rs => by
    rw [show Ref.ren id = id from funext hid, List.map_id]
  have hidd : ∀ d : List (String × Ref), renD id d = d := fun d => by
    simp only [renD, hid]
    exact List.map_id d
  refine ⟨id, Reach S.world.store (S.world.vars j), ⟨fun _ _ _ _ h => h, hS.closed j, ?_, ?_⟩, ?_, (hids _).symm, rfl⟩
  · intro l o hl ho r hr l' hl'
    exact .step hl ho (hl' ▸ hr)
  · intro l _
    have : Obj.ren id = id := by
      funext o
      cases o <;> simp [Obj.ren, hids, hidd]
    rw [this]
    simp
  · intro r hr l hl
    exact .root (hl ▸ hr)

end Verif
