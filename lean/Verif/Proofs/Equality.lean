import Verif.Spec.Equality
import Verif.Proofs.ToDict
import Verif.Proofs.FuelDump

/-! `==` on plain data decides `Spec.Same`; struct equality compares the dicts of defined values. -/

namespace Verif
open Spec

theorem pyEq_scalar {Γ : Classes} {n : Nat} {a b : Value} (ha : NoStruct a) (hb : NoStruct b)
    (hl : ∀ x y, a = .list x → b ≠ .list y) (hd : ∀ x y, a = .dict x → b ≠ .dict y) :
    pyEq Γ (n + 1) a b = .ok (scalarEq a b) := by
  cases ha <;> cases hb <;>
    first
    | rfl
    | exact absurd rfl (hl _ _ rfl)
    | exact absurd rfl (hd _ _ rfl)

theorem Spec.Same.scalar_iff {a b : Value} (hl : ∀ x y, a = .list x → b ≠ .list y) (hd : ∀ x y, a = .dict x → b ≠ .dict y) :
    Same a b ↔ scalarEq a b = true := by
  constructor
  · intro h
    cases h with
    | scalar h => exact h
    | list _ _ => exact absurd rfl (hl _ _ rfl)
    | dict _ _ => exact absurd rfl (hd _ _ rfl)
  · exact .scalar

theorem Spec.Same.list_iff {a b : List Value} : Same (.list a) (.list b) ↔
    a.length = b.length ∧ ∀ (i : Nat) (x y : Value), a[i]? = some x → b[i]? = some y → Same x y := by
  constructor
  · intro h
    cases h with
    | scalar h => simp [scalarEq] at h
    | list h1 h2 => exact ⟨h1, h2⟩
  · rintro ⟨h1, h2⟩; exact .list h1 h2

theorem Spec.Same.dict_iff {a b : Dict} : Same (.dict a) (.dict b) ↔
    (∀ k, Dict.get? a k = none ↔ Dict.get? b k = none) ∧
    ∀ (k : String) (x y : Value), Dict.get? a k = some x → Dict.get? b k = some y → Same x y := by
  constructor
  · intro h
    cases h with
    | scalar h => simp [scalarEq] at h
    | dict h1 h2 => exact ⟨h1, h2⟩
  · rintro ⟨h1, h2⟩; exact .dict h1 h2

theorem eqListWith_iff {g : Value → Value → Except Err Bool} {S : Value → Value → Prop} {x y : List Value} {r : Bool}
    (hg : ∀ u ∈ x, ∀ v ∈ y, ∀ r, g u v = .ok r → (r = true ↔ S u v)) (hlen : x.length = y.length)
    (h : eqListWith g x y = .ok r) :
    r = true ↔ ∀ (i : Nat) (u v : Value), x[i]? = some u → y[i]? = some v → S u v := by
  induction x generalizing y with
  | nil =>
    cases y with
    | nil => simp [eqListWith] at h; subst h; simp
    | cons b y => simp at hlen
  | cons a x ih =>
    cases y with
    | nil => simp at hlen
    | cons b y =>
      simp only [eqListWith] at h
      have h0 := hg a List.mem_cons_self b List.mem_cons_self
      split at h
      · simp at h
      · rename_i hab
        have h1 := h0 _ hab
        simp at h h1; subst h
        simp only [Bool.false_eq_true, false_iff]
        intro hall
        exact h1 (hall 0 a b rfl rfl)
      · rename_i hab
        have h1 : S a b := by simpa using h0 _ hab
        rw [ih (fun u hu v hv => hg u (List.mem_cons_of_mem _ hu) v (List.mem_cons_of_mem _ hv)) (by simpa using hlen) h]
        constructor
        · intro hall i u v hu hv
          cases i with
          | zero => simp at hu hv; subst hu; subst hv; exact h1
          | succ i => exact hall i u v (by simpa using hu) (by simpa using hv)
        · intro hall i u v hu hv
          exact hall (i + 1) u v (by simpa using hu) (by simpa using hv)

theorem eqDictWith_go_iff {g : Value → Value → Except Err Bool} {S : Value → Value → Prop} {x y : Dict} {r : Bool}
    (hx : (Dict.keys x).Nodup) (hg : ∀ p ∈ x, ∀ q ∈ y, ∀ r, g p.2 q.2 = .ok r → (r = true ↔ S p.2 q.2))
    (h : eqDictWith.go g y x = .ok r) :
    r = true ↔ ∀ (k : String) (u : Value), Dict.get? x k = some u → ∃ v, Dict.get? y k = some v ∧ S u v := by
  induction x with
  | nil => simp [eqDictWith.go] at h; subst h; simp [Dict.get?_nil]
  | cons p x ih =>
    obtain ⟨k, u⟩ := p
    simp only [Dict.keys, List.map_cons, List.nodup_cons] at hx
    simp only [eqDictWith.go] at h
    split at h
    · rename_i hk
      simp at h; subst h
      simp only [Bool.false_eq_true, false_iff]
      intro hall
      obtain ⟨v, hv, -⟩ := hall k u (by rw [Dict.get?_cons]; simp)
      rw [hk] at hv; simp at hv
    · rename_i w hw
      have h0 := hg (k, u) List.mem_cons_self (k, w) (Dict.get?_some_mem hw)
      split at h
      · simp at h
      · rename_i hab
        have h1 := h0 _ hab
        simp at h h1; subst h
        simp only [Bool.false_eq_true, false_iff]
        intro hall
        obtain ⟨v, hv, hs⟩ := hall k u (by rw [Dict.get?_cons]; simp)
        rw [hw] at hv; simp at hv; subst hv; exact h1 hs
      · rename_i hab
        have h1 : S u w := by simpa using h0 _ hab
        rw [ih hx.2 (fun p hp q hq => hg p (List.mem_cons_of_mem _ hp) q hq) h]
        constructor
        · intro hall k' u' hu'
          rw [Dict.get?_cons] at hu'
          by_cases hk : k = k'
          · subst hk; simp at hu'; subst hu'; exact ⟨w, hw, h1⟩
          · simp only [hk, if_false] at hu'; exact hall k' u' hu'
        · intro hall k' u' hu'
          have hk : k ≠ k' := by
            rintro rfl; exact hx.1 (Dict.get?_some_key hu')
          exact hall k' u' (by rw [Dict.get?_cons]; simp only [hk, if_false]; exact hu')

theorem length_le_of_nodup_subset {l m : List String} (hl : l.Nodup) (h : ∀ x ∈ l, x ∈ m) : l.length ≤ m.length := by
  induction l generalizing m with
  | nil => simp
  | cons a l ih =>
    rw [List.nodup_cons] at hl
    have ha := h a List.mem_cons_self
    have := ih (m := m.erase a) hl.2 (fun x hx => by
      rw [List.mem_erase_of_ne]
      · exact h x (List.mem_cons_of_mem _ hx)
      · rintro rfl; exact hl.1 hx)
    rw [List.length_erase_of_mem ha] at this
    have hpos : 0 < m.length := List.length_pos_of_mem ha
    simp; omega

theorem subset_of_nodup_length {l m : List String} (hl : l.Nodup) (h : ∀ x ∈ l, x ∈ m) (hlen : m.length ≤ l.length) :
    ∀ x ∈ m, x ∈ l := by
  intro x hx
  refine Decidable.byContradiction fun hn => ?_
  have := length_le_of_nodup_subset (l := x :: l) (m := m) (List.nodup_cons.2 ⟨hn, hl⟩) (by
    intro y hy
    rcases List.mem_cons.1 hy with rfl | hy
    · exact hx
    · exact h y hy)
  simp at this; omega

theorem eqDictWith_iff {g : Value → Value → Except Err Bool} {S : Value → Value → Prop} {x y : Dict} {r : Bool}
    (hx : (Dict.keys x).Nodup) (hy : (Dict.keys y).Nodup)
    (hg : ∀ p ∈ x, ∀ q ∈ y, ∀ r, g p.2 q.2 = .ok r → (r = true ↔ S p.2 q.2)) (h : eqDictWith g x y = .ok r) :
    r = true ↔ (∀ k, Dict.get? x k = none ↔ Dict.get? y k = none) ∧
      ∀ (k : String) (u v : Value), Dict.get? x k = some u → Dict.get? y k = some v → S u v := by
  have hkl : ∀ d : Dict, (Dict.keys d).length = d.length := fun d => by simp [Dict.keys]
  unfold eqDictWith at h
  split at h
  · rename_i hlen
    simp at h; subst h
    simp only [Bool.false_eq_true, false_iff]
    rintro ⟨h1, -⟩
    apply hlen
    have hsub : ∀ k, k ∈ Dict.keys x ↔ k ∈ Dict.keys y := by
      intro k; have := h1 k
      rw [Dict.get?_none_iff, Dict.get?_none_iff] at this
      exact Decidable.not_iff_not.1 this
    have := length_le_of_nodup_subset hx (fun k hk => (hsub k).1 hk)
    have := length_le_of_nodup_subset hy (fun k hk => (hsub k).2 hk)
    simp only [hkl] at *; omega
  · rename_i hlen
    rw [eqDictWith_go_iff hx hg h]
    constructor
    · intro hall
      have hsub : ∀ k ∈ Dict.keys x, k ∈ Dict.keys y := by
        intro k hk
        rw [← Dict.contains_iff, Dict.contains_eq, Option.isSome_iff_exists] at hk
        obtain ⟨u, hu⟩ := hk
        obtain ⟨v, hv, -⟩ := hall k u hu
        exact Dict.get?_some_key hv
      have hsub' := subset_of_nodup_length hx hsub (by rw [hkl, hkl]; omega)
      refine ⟨?_, ?_⟩
      · intro k
        rw [Dict.get?_none_iff, Dict.get?_none_iff]
        exact ⟨fun h hk => h (hsub' k hk), fun h hk => h (hsub k hk)⟩
      · intro k u v hu hv
        obtain ⟨v', hv', hs⟩ := hall k u hu
        rw [hv] at hv'; simp at hv'; subst hv'; exact hs
    · rintro ⟨h1, h2⟩ k u hu
      cases hv : Dict.get? y k with
      | none => rw [(h1 k).2 hv] at hu; simp at hu
      | some v => exact ⟨v, rfl, h2 k u v hu hv⟩

theorem Spec.DistinctKeys.mem {l : List Value} (h : DistinctKeys (.list l)) : ∀ v ∈ l, DistinctKeys v := by
  cases h with
  | list h => exact h
  | other h _ => exact absurd rfl (h _)

theorem Spec.DistinctKeys.keys {d : Dict} (h : DistinctKeys (.dict d)) :
    (Dict.keys d).Nodup ∧ ∀ p ∈ d, DistinctKeys p.2 := by
  cases h with
  | dict h h' => exact ⟨h, h'⟩
  | other _ h => exact absurd rfl (h _)

/-- A result of `==` on plain data is the right one. -/
theorem pyEq_iff {Γ : Classes} {n : Nat} {a b : Value} {r : Bool} (ha : NoStruct a) (hb : NoStruct b)
    (ka : DistinctKeys a) (kb : DistinctKeys b) (h : pyEq Γ n a b = .ok r) : r = true ↔ Same a b := by
  induction n generalizing a b r with
  | zero => simp [pyEq] at h
  | succ n ih =>
    by_cases hl : ∃ x y, a = .list x ∧ b = .list y
    · obtain ⟨x, y, rfl, rfl⟩ := hl
      cases ha with
      | list ha =>
      cases hb with
      | list hb =>
        rw [Spec.Same.list_iff]
        simp only [pyEq] at h
        split at h
        · rename_i hlen
          simp at h; subst h
          simp; intro hx; exact absurd hx hlen
        · rename_i hlen
          have hlen' : x.length = y.length := by simpa using hlen
          rw [eqListWith_iff (S := Same) (fun u hu v hv r hr => ih (ha u hu) (hb v hv) (ka.mem u hu) (kb.mem v hv) hr) hlen' h]
          exact ⟨fun hx => ⟨hlen', hx⟩, fun hx => hx.2⟩
    by_cases hd : ∃ x y, a = .dict x ∧ b = .dict y
    · obtain ⟨x, y, rfl, rfl⟩ := hd
      cases ha with
      | dict ha =>
      cases hb with
      | dict hb =>
        rw [Spec.Same.dict_iff]
        simp only [pyEq] at h
        exact eqDictWith_iff ka.keys.1 kb.keys.1
          (fun p hp q hq r hr => ih (ha p hp) (hb q hq) (ka.keys.2 p hp) (kb.keys.2 q hq) hr) h
    have hl' : ∀ x y, a = .list x → b ≠ .list y := fun x y h1 h2 => hl ⟨x, y, h1, h2⟩
    have hd' : ∀ x y, a = .dict x → b ≠ .dict y := fun x y h1 h2 => hd ⟨x, y, h1, h2⟩
    rw [Spec.Same.scalar_iff hl' hd']
    rw [pyEq_scalar ha hb hl' hd'] at h
    simp at h; rw [h]

theorem eqListWith_total {Γ : Classes} {x y : List Value}
    (hg : ∀ u ∈ x, ∀ v ∈ y, ∃ n r, pyEq Γ n u v = .ok r) : ∃ n r, eqListWith (pyEq Γ n) x y = .ok r := by
  induction x generalizing y with
  | nil => cases y <;> exact ⟨0, _, rfl⟩
  | cons a x ih =>
    cases y with
    | nil => exact ⟨0, _, rfl⟩
    | cons b y =>
      obtain ⟨n1, r1, h1⟩ := hg a List.mem_cons_self b List.mem_cons_self
      obtain ⟨n2, r2, h2⟩ := ih (y := y) fun u hu v hv => hg u (List.mem_cons_of_mem _ hu) v (List.mem_cons_of_mem _ hv)
      have h1' := (pyEq_mono Γ (Nat.le_max_left n1 n2) a b).of_ok h1
      have h2' := (eqListWith_le (pyEq_mono Γ (Nat.le_max_right n1 n2)) x y).of_ok h2
      refine ⟨max n1 n2, ?_⟩
      simp only [eqListWith, h1', h2']
      cases r1 <;> simp

theorem eqDictWith_go_total {Γ : Classes} {x y : Dict}
    (hg : ∀ p ∈ x, ∀ q ∈ y, ∃ n r, pyEq Γ n p.2 q.2 = .ok r) : ∃ n r, eqDictWith.go (pyEq Γ n) y x = .ok r := by
  induction x with
  | nil => exact ⟨0, _, rfl⟩
  | cons p x ih =>
    obtain ⟨k, u⟩ := p
    obtain ⟨n2, r2, h2⟩ := ih fun p hp q hq => hg p (List.mem_cons_of_mem _ hp) q hq
    cases hw : Dict.get? y k with
    | none => exact ⟨0, false, by simp only [eqDictWith.go, hw]⟩
    | some w =>
      obtain ⟨n1, r1, h1⟩ := hg (k, u) List.mem_cons_self (k, w) (Dict.get?_some_mem hw)
      have h1' := (pyEq_mono Γ (Nat.le_max_left n1 n2) u w).of_ok h1
      have h2' := (eqDictWith_go_le (pyEq_mono Γ (Nat.le_max_right n1 n2)) y x).of_ok h2
      refine ⟨max n1 n2, ?_⟩
      simp only [eqDictWith.go, hw, h1', h2']
      cases r1 <;> simp

/-- `==` always returns on plain data. -/
theorem pyEq_total (Γ : Classes) {a : Value} (ha : NoStruct a) : ∀ b, NoStruct b → ∃ n r, pyEq Γ n a b = .ok r := by
  induction ha with
  | list ha ih =>
    intro b hb
    cases hb with
    | @list l' hb =>
      rename_i l
      obtain ⟨n, r, h⟩ := eqListWith_total (Γ := Γ) (x := l) (y := l') (fun u hu v hv => ih u hu v (hb v hv))
      refine ⟨n + 1, ?_⟩
      simp only [pyEq]
      split
      · exact ⟨_, rfl⟩
      · exact ⟨r, h⟩
    | _ => exact ⟨1, _, rfl⟩
  | dict ha ih =>
    intro b hb
    cases hb with
    | @dict l' hb =>
      rename_i l
      obtain ⟨n, r, h⟩ := eqDictWith_go_total (Γ := Γ) (x := l) (y := l') (fun u hu v hv => ih u hu _ (hb v hv))
      refine ⟨n + 1, ?_⟩
      simp only [pyEq, eqDictWith]
      split
      · exact ⟨_, rfl⟩
      · exact ⟨r, h⟩
    | _ => exact ⟨1, _, rfl⟩
  | _ => intro b hb; cases hb <;> exact ⟨1, _, rfl⟩

theorem floatEq_comm (a b : Nat) : floatEq a b = floatEq b a := by
  unfold floatEq
  cases binary64.decode a with
  | fin s m q =>
    cases binary64.decode b with
    | fin s' m' q' => cases m <;> cases m' <;> simp [eq_comm]
    | _ => cases m <;> simp
  | _ => 
    cases binary64.decode b with
    | fin s' m' q' => cases m' <;> simp
    | _ => simp [eq_comm]

theorem scalarEq_comm (a b : Value) : scalarEq a b = scalarEq b a := by
  cases a <;> cases b <;> simp only [scalarEq, eq_comm]
  exact floatEq_comm _ _

theorem Spec.Same.symm {a b : Value} (h : Same a b) : Same b a := by
  induction h with
  | scalar h => exact .scalar (by rw [scalarEq_comm]; exact h)
  | list h1 _ ih => exact .list h1.symm fun i x y hx hy => ih i y x hy hx
  | dict h1 _ ih => exact .dict (fun k => (h1 k).symm) fun k x y hx hy => ih k y x hy hx

theorem Spec.SelfEqual.same {a : Value} (h : SelfEqual a) : Same a a := by
  induction h with
  | scalar h => exact .scalar h
  | list _ ih =>
    refine .list rfl fun i x y hx hy => ?_
    rw [hx] at hy; simp at hy; subst hy
    exact ih x (List.mem_of_getElem? hx)
  | dict _ ih =>
    refine .dict (fun k => Iff.rfl) fun k x y hx hy => ?_
    rw [hx] at hy; simp at hy; subst hy
    exact ih (k, x) (Dict.get?_some_mem hx)

/-- Only the entries of a dict matter. -/
theorem Spec.Same.congr {a a' b b' : Dict} (ha : ∀ k, Dict.get? a k = Dict.get? a' k)
    (hb : ∀ k, Dict.get? b k = Dict.get? b' k) (h : Same (.dict a) (.dict b)) : Same (.dict a') (.dict b') := by
  rw [Spec.Same.dict_iff] at h ⊢
  refine ⟨fun k => ?_, fun k x y hx hy => h.2 k x y (by rw [ha, hx]) (by rw [hb, hy])⟩
  rw [← ha, ← hb]; exact h.1 k

/-! ### The dict of defined values -/

theorem recursiveToDicts_det {Γ : Classes} {n m : Nat} {v w w' : Value} (h : recursiveToDicts Γ n v = .ok w)
    (h' : recursiveToDicts Γ m v = .ok w') : w = w' := by
  have h1 := (recursiveToDicts_mono Γ (Nat.le_max_left n m) v).of_ok h
  have h2 := (recursiveToDicts_mono Γ (Nat.le_max_right n m) v).of_ok h'
  rw [h1] at h2; simpa using h2

theorem Spec.DefinedValues.unique {Γ : Classes} {vals a b : Dict} (ha : DefinedValues Γ vals a) (hb : DefinedValues Γ vals b) :
    ∀ k, Dict.get? a k = Dict.get? b k := by
  intro k
  rcases ha k with ⟨h1, h2⟩ | ⟨v, w, n, h1, h2, h3, h4⟩
  · rcases hb k with ⟨h3, -⟩ | ⟨v, w, n, h3, h4, -⟩
    · rw [h1, h3]
    · rcases h2 with h2 | h2
      · rw [h2] at h3; simp at h3
      · rw [h2] at h3; simp at h3; exact absurd h3.symm h4
  · rcases hb k with ⟨-, h5⟩ | ⟨v', w', n', h5, -, h7, h8⟩
    · rcases h5 with h5 | h5
      · rw [h1] at h5; simp at h5
      · rw [h1] at h5; simp at h5; exact absurd h5 h2
    · rw [h1] at h5; simp at h5; subst h5
      rw [h4, h8, recursiveToDicts_det h3 h7]

theorem definedDict_eq {d : StructDesc} {vals : Dict} (hi : Instance d vals) :
    definedDict d vals = .ok (vals.filter fun p => decide (p.2 ≠ .undefined)) := by
  unfold definedDict definedKeys Dict.keys
  have key : ∀ l : Dict, (∀ p ∈ l, Dict.get? vals p.1 = some p.2) →
      mapE (fun k => (structGetItem d vals k).map fun v => (k, v))
        ((l.filter fun p => decide (p.2 ≠ .undefined)).map Prod.fst) = .ok (l.filter fun p => decide (p.2 ≠ .undefined)) := by
    intro l hl
    induction l with
    | nil => rfl
    | cons p l ih =>
      have ih := ih fun q hq => hl q (List.mem_cons_of_mem _ hq)
      have hp := hl p List.mem_cons_self
      rw [List.filter_cons]
      split
      · have hg : structGetItem d vals p.1 = .ok p.2 :=
          structGetItem_some (hi.2 _ (Dict.get?_some_key hp)) hp
        have hg' : (structGetItem d vals p.1).map (fun v => (p.1, v)) = .ok p := by rw [hg]; rfl
        simp only [List.map_cons, mapE, hg', ih]
      · exact ih
  exact key vals fun p hp => Dict.get?_of_mem hi.1 hp

theorem get?_filter_defined {vals : Dict} (hn : (Dict.keys vals).Nodup) (k : String) :
    Dict.get? (vals.filter fun p => decide (p.2 ≠ .undefined)) k = (Dict.get? vals k).filter fun v => decide (v ≠ .undefined) := by
  induction vals with
  | nil => rfl
  | cons p vals ih =>
    simp only [Dict.keys, List.map_cons, List.nodup_cons] at hn
    have ih := ih hn.2
    rw [List.filter_cons, Dict.get?_cons]
    by_cases hk : p.1 = k
    · subst hk
      have hnone : Dict.get? vals p.1 = none := (Dict.get?_none_iff _ _).2 hn.1
      rw [hnone] at ih
      by_cases hu : p.2 = .undefined
      · simp [hu] at ih ⊢; exact ih
      · simp [hu, Dict.get?_cons, Option.filter]
    · by_cases hu : p.2 = .undefined
      · simp [hu, hk] at ih ⊢; exact ih
      · simp [hu, hk, Dict.get?_cons] at ih ⊢; exact ih

theorem comparableDict_ok {Γ : Classes} {n : Nat} {cls : String} {d : StructDesc} {vals : Dict} {w : Value}
    (hΓ : Γ cls = some d) (hi : Instance d vals) (h : comparableDict Γ n cls vals = .ok w) :
    ∃ dct, w = .dict dct ∧ DefinedValues Γ vals dct ∧ NoStruct w ∧ (Dict.keys dct).Nodup := by
  unfold comparableDict at h
  rw [hΓ] at h
  cases hl : lenHint (structLen Γ n d vals) with
  | error e => simp [hl] at h
  | ok u =>
  simp only [hl, definedDict_eq hi] at h
  have hns := (recursiveToDicts_spec h).1
  cases n with
  | zero => simp [recursiveToDicts] at h
  | succ n =>
    simp only [recursiveToDicts] at h
    obtain ⟨r, hr, rfl⟩ := Except.map_ok h
    have hkeys : (Dict.keys r).Nodup := by
      rw [(mapDictE_ok hr).1]
      exact hi.1.sublist ((List.filter_sublist).map _)
    refine ⟨r, rfl, ?_, hns, hkeys⟩
    intro k
    have hf := get?_filter_defined hi.1 k
    rcases (mapDictE_ok hr).2 k with ⟨h1, h2⟩ | ⟨v, w, h1, h2, h3⟩
    · left; refine ⟨h2, ?_⟩
      rw [h1] at hf
      cases hv : Dict.get? vals k with
      | none => exact Or.inl rfl
      | some v =>
        right
        rw [hv] at hf
        simp [Option.filter] at hf; rw [hf]
    · right
      rw [h1] at hf
      cases hv : Dict.get? vals k with
      | none => rw [hv] at hf; simp at hf
      | some v' =>
        rw [hv] at hf
        by_cases hu : v' = .undefined
        · simp [Option.filter, hu] at hf
        · simp [Option.filter, hu] at hf; subst hf
          exact ⟨v, w, n, rfl, hu, h3, h2⟩

theorem mapE_total {g : Nat → Value → Except Err Value} (hmono : ∀ n m v, n ≤ m → ELe (g n v) (g m v)) {l : Dict}
    (h : ∀ p ∈ l, ∃ n w, g n p.2 = .ok w) : ∃ n r, mapDictE (g n) l = .ok r := by
  induction l with
  | nil => exact ⟨0, [], rfl⟩
  | cons p l ih =>
    obtain ⟨n1, w, h1⟩ := h p List.mem_cons_self
    obtain ⟨n2, r, h2⟩ := ih fun q hq => h q (List.mem_cons_of_mem _ hq)
    refine ⟨max n1 n2, (p.1, w) :: r, ?_⟩
    have h1' := (hmono _ _ p.2 (Nat.le_max_left n1 n2)).of_ok h1
    have h2' := (mapDictE_le l fun v => hmono _ _ v (Nat.le_max_right n1 n2)).of_ok h2
    unfold mapDictE at h2' ⊢
    have h3 : (g (max n1 n2) p.2).map (fun v => (p.1, v)) = .ok (p.1, w) := by rw [h1']; rfl
    simp only [mapE, h3, h2']

theorem mapListE_total {g : Nat → Value → Except Err Value} (hmono : ∀ n m v, n ≤ m → ELe (g n v) (g m v)) {l : List Value}
    (h : ∀ v ∈ l, ∃ n w, g n v = .ok w) : ∃ n r, mapE (g n) l = .ok r := by
  induction l with
  | nil => exact ⟨0, [], rfl⟩
  | cons p l ih =>
    obtain ⟨n1, w, h1⟩ := h p List.mem_cons_self
    obtain ⟨n2, r, h2⟩ := ih fun q hq => h q (List.mem_cons_of_mem _ hq)
    refine ⟨max n1 n2, w :: r, ?_⟩
    have h1' := (hmono _ _ p (Nat.le_max_left n1 n2)).of_ok h1
    have h2' := (mapE_le l fun v => hmono _ _ v (Nat.le_max_right n1 n2)).of_ok h2
    simp only [mapE, h1', h2']

/-- Plain data is converted to itself. -/
theorem recursiveToDicts_total (Γ : Classes) {v : Value} (hv : NoStruct v) : ∃ n, recursiveToDicts Γ n v = .ok v := by
  have key : ∃ n w, recursiveToDicts Γ n v = .ok w := by
    induction hv with
    | list _ ih =>
      obtain ⟨n, r, h⟩ := mapListE_total (g := recursiveToDicts Γ) (fun n m v h => recursiveToDicts_mono Γ h v) ih
      exact ⟨n + 1, .list r, by simp only [recursiveToDicts, h, Except.map]⟩
    | dict _ ih =>
      obtain ⟨n, r, h⟩ := mapE_total (g := recursiveToDicts Γ) (fun n m v h => recursiveToDicts_mono Γ h v) ih
      exact ⟨n + 1, .dict r, by simp only [recursiveToDicts, h, Except.map]⟩
    | _ => exact ⟨1, _, rfl⟩
  obtain ⟨n, w, h⟩ := key
  exact ⟨n, (recursiveToDicts_spec h).2 hv ▸ h⟩

theorem listable_iff {Γ : Classes} {d : StructDesc} {vals : Dict} :
    Listable Γ d vals ↔ ∃ n, lenHint (structLen Γ n d vals) = .ok () := by
  unfold Listable
  constructor
  · rintro ⟨n, ⟨k, h, h1, h2⟩ | h⟩
    · exact ⟨n, by rw [h, lenHint, if_neg (by omega), if_neg (by omega)]⟩
    · exact ⟨n, by rw [h]; rfl⟩
  · rintro ⟨n, h⟩
    refine ⟨n, ?_⟩
    cases hl : structLen Γ n d vals with
    | ok k =>
      rw [hl] at h
      by_cases h1 : k < 0
      · simp [lenHint, h1] at h
      · by_cases h2 : 2 ^ 63 ≤ k
        · rw [lenHint, if_neg h1, if_pos h2] at h; cases h
        · exact Or.inl ⟨k, rfl, by omega, by omega⟩
    | error e =>
      rw [hl] at h
      by_cases h1 : e = .typeErr
      · exact Or.inr (by rw [h1])
      · simp [lenHint, h1] at h

theorem lenHint_mono {Γ : Classes} {n m : Nat} (h : n ≤ m) {d : StructDesc} {vals : Dict}
    (h1 : lenHint (structLen Γ n d vals) = .ok ()) : lenHint (structLen Γ m d vals) = .ok () := by
  rcases structLen_mono Γ h d vals with h2 | h2
  · rw [h2] at h1; simp [lenHint] at h1
  · rw [← h2]; exact h1

theorem comparableDict_listable {Γ : Classes} {n : Nat} {cls : String} {d : StructDesc} {vals : Dict} {w : Value}
    (hΓ : Γ cls = some d) (h : comparableDict Γ n cls vals = .ok w) : Listable Γ d vals := by
  unfold comparableDict at h
  rw [hΓ] at h
  simp only at h
  cases hl : lenHint (structLen Γ n d vals) with
  | error e => simp [hl] at h
  | ok u => exact listable_iff.2 ⟨n, hl⟩

theorem sumSizes_fixed {g : Field → Except Err Int} {fs : List Field} (h : ∀ f ∈ fs, ∃ k : Int, g f = .ok k ∧ 0 ≤ k) :
    ∃ k : Int, sumSizes g fs = .ok k ∧ 0 ≤ k := by
  induction fs with
  | nil => exact ⟨0, rfl, by omega⟩
  | cons f fs ih =>
    obtain ⟨a, h1, h2⟩ := h f (by simp)
    obtain ⟨b, h3, h4⟩ := ih fun g hg => h g (by simp [hg])
    exact ⟨a + b, by simp only [sumSizes, h1, h3], by omega⟩

/-- If the defined values can be converted at all, `__eq__` gets its dict. -/
theorem comparableDict_total {Γ : Classes} {cls : String} {d : StructDesc} {vals dct : Dict} (hΓ : Γ cls = some d)
    (hi : Instance d vals) (hl : Listable Γ d vals) (h : DefinedValues Γ vals dct) : ∃ n w, comparableDict Γ n cls vals = .ok w := by
  obtain ⟨m, hm⟩ := listable_iff.1 hl
  obtain ⟨n, r, hr⟩ := mapE_total (g := recursiveToDicts Γ) (fun n m v h => recursiveToDicts_mono Γ h v)
    (l := vals.filter fun p => decide (p.2 ≠ .undefined)) (by
      intro p hp
      rw [List.mem_filter] at hp
      have hg := Dict.get?_of_mem hi.1 hp.1
      rcases h p.1 with ⟨-, h1⟩ | ⟨v, w, n, h1, -, h3, -⟩
      · have hu : p.2 ≠ .undefined := by simpa using hp.2
        rcases h1 with h1 | h1
        · rw [hg] at h1; simp at h1
        · rw [hg] at h1; simp at h1; exact absurd h1 hu
      · rw [hg] at h1; simp at h1; subst h1; exact ⟨n, w, h3⟩)
  refine ⟨max n m + 1, .dict r, ?_⟩
  unfold comparableDict
  rw [hΓ]
  have hr' := (mapDictE_le _ fun v => recursiveToDicts_mono Γ (Nat.le_max_left n m) v).of_ok hr
  simp only [definedDict_eq hi, recursiveToDicts, hr', Except.map, lenHint_mono (show m ≤ max n m + 1 by omega) hm]

theorem comparableDict_mono (Γ : Classes) {n m : Nat} (h : n ≤ m) (cls : String) (vals : Dict) :
    ELe (comparableDict Γ n cls vals) (comparableDict Γ m cls vals) := by
  induction h with
  | refl => exact ELe.refl _
  | step _ ih => exact ih.trans (comparableDict_succ Γ _ cls vals)

theorem Spec.DefinedValues.distinct {Γ : Classes} {vals dct : Dict} (h : DefinedValues Γ vals dct) (hp : ProperValues Γ vals)
    (hn : (Dict.keys dct).Nodup) : DistinctKeys (.dict dct) := by
  refine .dict hn fun p hm => ?_
  have hg := Dict.get?_of_mem hn hm
  rcases h p.1 with ⟨h1, -⟩ | ⟨v, w, n, h1, -, h3, h4⟩
  · rw [hg] at h1; simp at h1
  · rw [hg] at h4; simp at h4; rw [h4]; exact hp _ _ _ _ h1 h3

theorem pyEq_det {Γ : Classes} {n m : Nat} {a b : Value} {r r' : Bool} (h : pyEq Γ n a b = .ok r) (h' : pyEq Γ m a b = .ok r') :
    r = r' := by
  have h1 := (pyEq_mono Γ (Nat.le_max_left n m) a b).of_ok h
  have h2 := (pyEq_mono Γ (Nat.le_max_right n m) a b).of_ok h'
  rw [h1] at h2; simpa using h2

/-- `==` on plain data returns the right answer. -/
theorem eqReturns_data {Γ : Classes} {a b : Value} {r : Bool} (ha : NoStruct a) (hb : NoStruct b) (ka : DistinctKeys a)
    (kb : DistinctKeys b) : EqReturns Γ a b r ↔ (r = true ↔ Same a b) := by
  obtain ⟨n, r0, h0⟩ := pyEq_total Γ ha b hb
  have hr0 := pyEq_iff ha hb ka kb h0
  constructor
  · rintro ⟨m, hm⟩
    rw [pyEq_det hm h0]; exact hr0
  · intro hr
    have : r = r0 := by
      cases r <;> cases r0 <;> simp_all
    exact ⟨n, this ▸ h0⟩

/-- Struct equality, given what the two sides are turned into. -/
theorem eqReturns_struct {Γ : Classes} {c : String} {a : Dict} {t o w : Value} {n m : Nat} {r : Bool} (ht : t ≠ .undefined)
    (h1 : comparableDict Γ n c a = .ok w) (h2 : comparableOther Γ m t = .ok (some o)) :
    EqReturns Γ (.struct c a) t r ↔ EqReturns Γ o w r := by
  have hmono : ∀ {n m}, n ≤ m → ELe (comparableOther Γ n t) (comparableOther Γ m t) := by
    intro n m h
    induction h with
    | refl => exact ELe.refl _
    | step _ ih => exact ih.trans (comparableOther_succ Γ _ t)
  have step : ∀ k, n ≤ k → m ≤ k → pyEq Γ (k + 1) (.struct c a) t = pyEq Γ k o w := by
    intro k hn hm
    have h1' := (comparableDict_mono Γ hn c a).of_ok h1
    have h2' := (hmono hm).of_ok h2
    simp only [pyEq, structEqWith, if_neg ht, h1', h2']
  constructor
  · rintro ⟨k, hk⟩
    refine ⟨max k (max n m), ?_⟩
    rw [← step _ (by omega) (by omega)]
    exact (pyEq_mono Γ (by omega) _ _).of_ok hk
  · rintro ⟨k, hk⟩
    refine ⟨max k (max n m) + 1, ?_⟩
    rw [step _ (by omega) (by omega)]
    exact (pyEq_mono Γ (by omega) _ _).of_ok hk

/-- A struct on the right is compared by the same method. -/
theorem pyEq_reflected {Γ : Classes} {n : Nat} {c : String} {a : Dict} {t : Value} (ht : ∀ c' b, t ≠ .struct c' b) :
    pyEq Γ n t (.struct c a) = pyEq Γ n (.struct c a) t := by
  cases n with
  | zero => rfl
  | succ n => cases t <;> first | rfl | exact absurd rfl (ht _ _)

/-- Struct equality that returns has converted both structs. -/
theorem eqReturns_struct_inv {Γ : Classes} {c c' : String} {a b : Dict} {r : Bool}
    (h : EqReturns Γ (.struct c a) (.struct c' b) r) :
    ∃ n wa wb, comparableDict Γ n c a = .ok wa ∧ comparableDict Γ n c' b = .ok wb := by
  obtain ⟨n, h⟩ := h
  cases n with
  | zero => simp [pyEq] at h
  | succ n =>
    simp only [pyEq, structEqWith, comparableOther] at h
    simp at h
    split at h
    · simp at h
    · rename_i wa hwa
      cases hwb : comparableDict Γ n c' b with
      | error e => simp [hwb, Except.map] at h
      | ok wb => exact ⟨n, wa, wb, hwa, hwb⟩

end Verif
