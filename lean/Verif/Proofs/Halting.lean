import Verif.Spec.Halting
import Verif.Proofs.FuelDump
import Verif.Proofs.ToDict

namespace Verif
open Spec

/-- The result is not `outOfFuel`. -/
abbrev NotOut {α : Type} (r : Except Err α) : Prop := r ≠ .error .outOfFuel

/-! ### What `to_dict` contains, and that it does not run out of fuel -/

theorem computeValueForDump_notOut {b : FieldBase} (hb : Honest b) {V : View} (hV : HonestView V) (ctx : Value) :
    NotOut (b.computeValueForDump V ctx) := by
  unfold FieldBase.computeValueForDump
  intro h
  simp only at h
  split at h
  · rename_i e he
    cases h
    split at he
    · exact hV _ he
    · split at he
      · exact hb.default he
      · split at he
        · rename_i fn hfn; exact hb.compute fn hfn V hV he
        · simp at he
  · split at h
    · simp at h
    · split at h
      · rename_i e he; cases h; exact hb.present V hV ctx none he
      · simp at h
      · split at h <;> simp at h

theorem computeValueForDump_src {b : FieldBase} {V : View} {ctx v : Value} {P : Value → Prop}
    (hc : ∀ v, V.contains b.name = true → V.get b.name = .ok v → P v) (hs : ∀ v, Supplies b v → P v) (hp : P .notPresent)
    (h : b.computeValueForDump V ctx = .ok v) : P v := by
  unfold FieldBase.computeValueForDump at h
  simp only at h
  split at h
  · simp at h
  · rename_i w hw
    split at h
    · cases h; exact hp
    · split at h
      · simp at h
      · cases h; exact hp
      · split at h
        · simp at h
        · rename_i hne
          cases h
          split at hw
          · rename_i hcon; exact hc _ hcon hw
          · split at hw
            · exact hs _ (.inl hw)
            · split at hw
              · rename_i fn hfn; exact hs _ (.inr (.inl ⟨fn, V, hfn, hw⟩))
              · cases hw; exact absurd rfl hne

/-- Where the value of the field `k` comes from. -/
def Origin (d : StructDesc) (vals : Dict) (k : String) (v : Value) : Prop :=
  (∃ p ∈ vals, p.2 = v) ∨ v = .notPresent ∨ ∃ f ∈ d.components, f.name = k ∧ Supplies f.base v

theorem mem_of_get? {d : Dict} {k : String} {v : Value} (h : Dict.get? d k = some v) : (k, v) ∈ d := by
  induction d with
  | nil => simp [Dict.get?_nil] at h
  | cons p d ih =>
    rw [Dict.get?_cons] at h
    split at h
    · rename_i hk; cases h; subst hk; exact List.mem_cons_self
    · exact List.mem_cons_of_mem _ (ih h)

theorem structGet_src {d : StructDesc} {vals : Dict} {n : Nat} {k : String} {v : Value} (h : structGet d vals n k = .ok v) :
    Origin d vals k v := by
  induction n generalizing k v with
  | zero => simp [structGet] at h
  | succ n ih =>
    simp only [structGet] at h
    split at h
    · simp at h
    · rename_i f hf
      obtain ⟨hm, rfl⟩ := find?_some hf
      split at h
      · rename_i w hw
        cases h
        exact .inl ⟨_, mem_of_get? hw, rfl⟩
      · exact computeValueForDump_src (P := Origin d vals f.name) (fun v _ hv => ih hv) (fun v hv => .inr (.inr ⟨f, hm, rfl, hv⟩))
          (.inr (.inl rfl)) h

theorem structGet_notOut {d : StructDesc} (hd : ∀ f ∈ d.components, Honest f.base) (vals : Dict) (n : Nat) (k : String) :
    NotOut (structGet d vals n k) := by
  induction n generalizing k with
  | zero => simp [structGet]
  | succ n ih =>
    simp only [structGet]
    split
    · simp
    · rename_i f hf
      split
      · simp
      · refine computeValueForDump_notOut (hd f (find?_some hf).1) ?_ .none
        exact fun k => ih k

theorem structView_honest {d : StructDesc} (hd : ∀ f ∈ d.components, Honest f.base) (vals : Dict) : HonestView (structView d vals) :=
  fun k => structGet_notOut hd vals _ k

theorem dictView_honest (d : Dict) : HonestView d.view := by
  intro k
  simp only [Dict.view]
  split <;> simp

theorem runAll_notOut {α : Type} {check : α → Except Err Unit} {l : List α} (h : ∀ a ∈ l, NotOut (check a)) :
    NotOut (runAll check l) := by
  induction l with
  | nil => simp [runAll]
  | cons a l ih =>
    simp only [runAll]
    intro h'
    split at h'
    · rename_i e he; cases h'; exact h a List.mem_cons_self he
    · exact ih (fun b hb => h b (List.mem_cons_of_mem _ hb)) h'

theorem runValidators_notOut {l : List (Value → Except Err Unit)} {v : Value} (h : ∀ c ∈ l, NotOut (c v)) :
    NotOut (runValidators l v) := by
  induction l with
  | nil => simp [runValidators]
  | cons a l ih =>
    simp only [runValidators]
    intro h'
    split at h'
    · rename_i e he; cases h'; exact h a List.mem_cons_self he
    · exact ih (fun b hb => h b (List.mem_cons_of_mem _ hb)) h'

theorem Spec.Orderly.honest {f : Field} (h : Orderly f) : Honest f.base := by
  cases h <;> assumption

theorem Spec.Founded.honest {rank : String → Nat} {r : Nat} {d : StructDesc} (h : Founded rank r d) :
    ∀ f ∈ d.components, Honest f.base := fun f hf => (h.fields f hf).honest

theorem validateContents_notOut {rank : String → Nat} {r : Nat} {d : StructDesc} (h : Founded rank r d) (vals : Dict) :
    NotOut (validateContents d vals) := by
  have hv := structView_honest h.honest vals
  have h1 : NotOut (runAll (validateField d vals) d.fieldValidators) := by
    refine runAll_notOut fun p hp => ?_
    unfold validateField
    intro h'
    split at h'
    · simp at h'
    · rename_i f hf
      split at h'
      · rename_i e he; cases h'; exact hv p.1 he
      · rename_i v _
        split at h'
        · rename_i e he
          cases h'
          exact runValidators_notOut (fun c hc => (h.honest f (find?_some hf).1).validators c hc v) he
        · exact runAll_notOut (fun m hm => h.methods p hp m hm _ v hv) h'
  unfold validateContents
  intro h'
  split at h'
  · rename_i e he; cases h'; exact h1 he
  · exact runAll_notOut (fun m hm => h.validators m hm _ hv) h'

theorem mem_set {d : Dict} {k : String} {v : Value} {p : String × Value} (h : p ∈ Dict.set d k v) : p ∈ d ∨ p = (k, v) := by
  induction d with
  | nil => simpa [Dict.set] using h
  | cons q d ih =>
    obtain ⟨k', v'⟩ := q
    simp only [Dict.set] at h
    split at h
    · rcases List.mem_cons.1 h with h | h
      · exact .inr h
      · exact .inl (List.mem_cons_of_mem _ h)
    · rcases List.mem_cons.1 h with h | h
      · exact .inl (h ▸ List.mem_cons_self)
      · rcases ih h with h | h
        · exact .inl (List.mem_cons_of_mem _ h)
        · exact .inr h

theorem mem_update {d e : Dict} {p : String × Value} (h : p ∈ Dict.update d e) : p ∈ d ∨ p ∈ e := by
  unfold Dict.update at h
  induction e generalizing d with
  | nil => exact .inl h
  | cons q e ih =>
    simp only [List.foldl_cons] at h
    rcases ih h with h | h
    · rcases mem_set h with h | h
      · exact .inl h
      · exact .inr (h ▸ List.mem_cons_self)
    · exact .inr (List.mem_cons_of_mem _ h)

theorem mem_eraseAll {fs : List Field} {d : Dict} {p : String × Value} (h : p ∈ fs.foldl (fun d f => Dict.erase d f.name) d) : p ∈ d := by
  induction fs generalizing d with
  | nil => exact h
  | cons f fs ih =>
    have := ih h
    simp only [Dict.erase, List.mem_filter] at this
    exact this.1

section ToDict
variable {rank : String → Nat} {r : Nat} {d : StructDesc}

theorem whateverLoop_src {vals : Dict} {fs : List Field} (hfs : ∀ f ∈ fs, f ∈ d.components) {acc dct : Dict}
    (h : whateverLoop d vals fs acc = .ok dct) : ∀ p ∈ dct, p ∈ acc ∨ Origin d vals p.1 p.2 := by
  induction fs generalizing acc with
  | nil => simp [whateverLoop] at h; subst h; exact fun p hp => .inl hp
  | cons f fs ih =>
    have hm := hfs f List.mem_cons_self
    have hfs' : ∀ g ∈ fs, g ∈ d.components := fun g hg => hfs g (List.mem_cons_of_mem _ hg)
    simp only [whateverLoop] at h
    split at h
    · rename_i v hv
      intro p hp
      rcases ih hfs' h p hp with h1 | h1
      · rcases mem_set h1 with h1 | rfl
        · exact .inl h1
        · exact .inr (computeValueForDump_src (P := Origin d vals f.name) (fun v _ hv => structGet_src hv)
            (fun v hv => .inr (.inr ⟨f, hm, rfl, hv⟩)) (.inr (.inl rfl)) hv)
      · exact .inr h1
    · split at h
      · exact ih hfs' h
      · simp at h

theorem whateverLoop_notOut (hd : ∀ f ∈ d.components, Honest f.base) (vals : Dict) {fs : List Field}
    (hfs : ∀ f ∈ fs, f ∈ d.components) (acc : Dict) : NotOut (whateverLoop d vals fs acc) := by
  induction fs generalizing acc with
  | nil => simp [whateverLoop]
  | cons f fs ih =>
    have hfs' : ∀ g ∈ fs, g ∈ d.components := fun g hg => hfs g (List.mem_cons_of_mem _ hg)
    simp only [whateverLoop]
    split
    · exact ih hfs' _
    · rename_i e he
      split
      · exact ih hfs' _
      · intro h; cases h
        exact computeValueForDump_notOut (hd f (hfs f List.mem_cons_self)) (structView_honest hd vals) .none he

theorem chainLoop_src {vals dct : Dict} {ks : List String} {res : Dict} (h : chainLoop d vals dct ks = .ok res) :
    ∀ p ∈ res, p ∈ dct ∨ Origin d vals p.1 p.2 := by
  induction ks generalizing res with
  | nil => simp [chainLoop] at h; subst h; simp
  | cons k ks ih =>
    simp only [chainLoop] at h
    split at h
    · simp at h
    · rename_i v hv
      split at h
      · simp at h
      · rename_i rest hrest
        cases h
        intro p hp
        rcases List.mem_cons.1 hp with rfl | hp
        · split at hv
          · rename_i w hw; cases hv; exact .inl (mem_of_get? hw)
          · exact .inr (structGet_src hv)
        · exact ih hrest p hp

theorem chainLoop_notOut (hd : ∀ f ∈ d.components, Honest f.base) (vals dct : Dict) (ks : List String) :
    NotOut (chainLoop d vals dct ks) := by
  induction ks with
  | nil => simp [chainLoop]
  | cons k ks ih =>
    simp only [chainLoop]
    intro h
    split at h
    · rename_i e he
      cases h
      split at he
      · simp at he
      · exact structView_honest hd vals k he
    · split at h
      · rename_i e he; cases h; exact ih he
      · simp at h

theorem whateverPossible_src {vals dct : Dict} (h : whateverPossible d vals = .ok dct) : ∀ p ∈ dct, Origin d vals p.1 p.2 := by
  unfold whateverPossible at h
  split at h
  · simp at h
  · rename_i w hw
    intro p hp
    rcases chainLoop_src h p hp with h1 | h1
    · rcases whateverLoop_src (fun f hf => hf) hw p h1 with h2 | h2
      · simp at h2
      · exact h2
    · exact h1

theorem whateverPossible_notOut (hd : ∀ f ∈ d.components, Honest f.base) (vals : Dict) : NotOut (whateverPossible d vals) := by
  unfold whateverPossible
  intro h
  split at h
  · rename_i e he; cases h; exact whateverLoop_notOut hd vals (fun f hf => hf) [] he
  · exact chainLoop_notOut hd vals _ _ h

theorem missingLoop_src {vals dct more : Dict} (hs : ∀ p ∈ dct, Origin d vals p.1 p.2) {fs : List Field}
    (hfs : ∀ f ∈ fs, f ∈ d.components) (h : missingLoop dct fs = .ok more) : ∀ p ∈ more, Origin d vals p.1 p.2 := by
  induction fs generalizing more with
  | nil => simp [missingLoop] at h; subst h; simp
  | cons f fs ih =>
    have hfs' : ∀ g ∈ fs, g ∈ d.components := fun g hg => hfs g (List.mem_cons_of_mem _ hg)
    simp only [missingLoop] at h
    split at h
    · exact ih hfs' h
    · split at h
      · simp at h
      · rename_i v hv
        split at h
        · simp at h
        · rename_i rest hrest
          cases h
          intro p hp
          rcases List.mem_cons.1 hp with rfl | hp
          · refine computeValueForDump_src (P := Origin d vals f.name) (fun v _ hv => ?_)
              (fun v hv => .inr (.inr ⟨f, hfs f List.mem_cons_self, rfl, hv⟩)) (.inr (.inl rfl)) hv
            simp only [Dict.view] at hv
            split at hv
            · rename_i w hw; cases hv; exact hs _ (mem_of_get? hw)
            · simp at hv
          · exact ih hfs' hrest p hp

theorem missingLoop_notOut (dct : Dict) {fs : List Field} (hd : ∀ f ∈ fs, Honest f.base) : NotOut (missingLoop dct fs) := by
  induction fs with
  | nil => simp [missingLoop]
  | cons f fs ih =>
    have ih' := ih fun g hg => hd g (List.mem_cons_of_mem _ hg)
    simp only [missingLoop]
    intro h
    split at h
    · exact ih' h
    · split at h
      · rename_i e he
        cases h
        exact computeValueForDump_notOut (hd f List.mem_cons_self) (dictView_honest dct) .none he
      · split at h
        · rename_i e he; cases h; exact ih' he
        · simp at h

theorem toDictShallow_src {vals dct : Dict} {keep : Bool} (h : toDictShallow d vals keep = .ok dct) :
    ∀ p ∈ dct, Origin d vals p.1 p.2 := by
  unfold toDictShallow at h
  split at h
  · simp at h
  · rename_i w hw
    split at h
    · simp at h
    · rename_i more hmore
      have h1 := whateverPossible_src hw
      have h2 := missingLoop_src h1 (fun f hf => hf) hmore
      have h3 : ∀ p ∈ Dict.update w more, Origin d vals p.1 p.2 := by
        intro p hp
        rcases mem_update hp with hp | hp
        · exact h1 p hp
        · exact h2 p hp
      simp only [Except.ok.injEq] at h
      subst h
      intro p hp
      split at hp
      · exact h3 p hp
      · exact h3 p (mem_eraseAll hp)

theorem toDictShallow_notOut (hd : ∀ f ∈ d.components, Honest f.base) (vals : Dict) (keep : Bool) :
    NotOut (toDictShallow d vals keep) := by
  unfold toDictShallow
  intro h
  split at h
  · rename_i e he; cases h; exact whateverPossible_notOut hd vals he
  · split at h
    · rename_i e he; cases h; exact missingLoop_notOut _ hd he
    · simp at h

end ToDict

/-! ### Finite values -/

/-- `k` bounds the depth of iterators within iterators, `r` the ranks of the structs outside iterators. -/
inductive Tame (rank : String → Nat) : Nat → Nat → Value → Prop where
  | atom {k r : Nat} {v : Value} : (∀ l, v ≠ .list l) → (∀ l, v ≠ .iter l) → (∀ d, v ≠ .dict d) → (∀ c d, v ≠ .struct c d) →
      Tame rank k r v
  | list {k r : Nat} {l : List Value} : (∀ v ∈ l, Tame rank k r v) → Tame rank k r (.list l)
  | dict {k r : Nat} {d : Dict} : (∀ p ∈ d, Tame rank k r p.2) → Tame rank k r (.dict d)
  | struct {k r : Nat} {c : String} {d : Dict} : rank c < r → (∀ p ∈ d, Tame rank k r p.2) → Tame rank k r (.struct c d)
  | iter {k r r' : Nat} {l : List Value} : (∀ v ∈ l, Tame rank k r' v) → Tame rank (k + 1) r (.iter l)

section Tame
variable {rank : String → Nat}

theorem Tame.mono {k r : Nat} {v : Value} (h : Tame rank k r v) {k' r' : Nat} (hk : k ≤ k') (hr : r ≤ r') : Tame rank k' r' v := by
  induction h generalizing k' r' with
  | atom h1 h2 h3 h4 => exact .atom h1 h2 h3 h4
  | list _ ih => exact .list fun v hv => ih v hv hk hr
  | dict _ ih => exact .dict fun p hp => ih p hp hk hr
  | struct hc _ ih => exact .struct (by omega) fun p hp => ih p hp hk hr
  | @iter k r s l _ ih =>
    obtain ⟨j, rfl⟩ : ∃ j, k' = j + 1 := ⟨k' - 1, by omega⟩
    exact .iter (r' := s) fun v hv => ih v hv (by omega) (Nat.le_refl _)

theorem Tame.listBound {P : Nat → Nat → Value → Prop}
    (mono : ∀ {k r v}, P k r v → ∀ {k' r'}, k ≤ k' → r ≤ r' → P k' r' v) {l : List Value} (h : ∀ v ∈ l, ∃ k r, P k r v) :
    ∃ k r, ∀ v ∈ l, P k r v := by
  induction l with
  | nil => exact ⟨0, 0, by simp⟩
  | cons a l ih =>
    obtain ⟨k1, r1, h1⟩ := h a List.mem_cons_self
    obtain ⟨k2, r2, h2⟩ := ih fun v hv => h v (List.mem_cons_of_mem _ hv)
    refine ⟨max k1 k2, max r1 r2, ?_⟩
    intro v hv
    rcases List.mem_cons.1 hv with rfl | hv
    · exact mono h1 (Nat.le_max_left ..) (Nat.le_max_left ..)
    · exact mono (h2 v hv) (Nat.le_max_right ..) (Nat.le_max_right ..)

theorem exists_tame (rank : String → Nat) : (v : Value) → ∃ k r, Tame rank k r v
  | .list l => by
    obtain ⟨k, r, h⟩ := Tame.listBound (P := Tame rank) (fun h _ _ hk hr => h.mono hk hr) (l := l) fun v _hv => exists_tame rank v
    exact ⟨k, r, .list h⟩
  | .iter l => by
    obtain ⟨k, r, h⟩ := Tame.listBound (P := Tame rank) (fun h _ _ hk hr => h.mono hk hr) (l := l) fun v _hv => exists_tame rank v
    exact ⟨k + 1, 0, .iter h⟩
  | .dict d => by
    obtain ⟨k, r, h⟩ := Tame.listBound (P := Tame rank) (fun h _ _ hk hr => h.mono hk hr) (l := d.map (·.2)) fun v _hv => exists_tame rank v
    exact ⟨k, r, .dict fun p hp => h p.2 (List.mem_map.2 ⟨p, hp, rfl⟩)⟩
  | .struct c d => by
    obtain ⟨k, r, h⟩ := Tame.listBound (P := Tame rank) (fun h _ _ hk hr => h.mono hk hr) (l := d.map (·.2)) fun v _hv => exists_tame rank v
    exact ⟨k, max r (rank c + 1), .struct (by omega) fun p hp =>
      (h p.2 (List.mem_map.2 ⟨p, hp, rfl⟩)).mono (Nat.le_refl _) (by omega)⟩
  | .none => ⟨0, 0, .atom (by simp) (by simp) (by simp) (by simp)⟩
  | .notPresent => ⟨0, 0, .atom (by simp) (by simp) (by simp) (by simp)⟩
  | .undefined => ⟨0, 0, .atom (by simp) (by simp) (by simp) (by simp)⟩
  | .dflt => ⟨0, 0, .atom (by simp) (by simp) (by simp) (by simp)⟩
  | .int _ => ⟨0, 0, .atom (by simp) (by simp) (by simp) (by simp)⟩
  | .bytes _ => ⟨0, 0, .atom (by simp) (by simp) (by simp) (by simp)⟩
  | .str _ => ⟨0, 0, .atom (by simp) (by simp) (by simp) (by simp)⟩
  | .float _ => ⟨0, 0, .atom (by simp) (by simp) (by simp) (by simp)⟩
  | .uuid _ => ⟨0, 0, .atom (by simp) (by simp) (by simp) (by simp)⟩
  | .datetime _ _ => ⟨0, 0, .atom (by simp) (by simp) (by simp) (by simp)⟩
termination_by v => sizeOf v
decreasing_by
  all_goals simp_wf
  · have := List.sizeOf_lt_of_mem _hv; omega
  · have := List.sizeOf_lt_of_mem _hv; omega
  · obtain ⟨p, hp, rfl⟩ := List.mem_map.1 _hv
    have := List.sizeOf_lt_of_mem hp
    obtain ⟨a, b⟩ := p
    simp at this ⊢
    omega
  · obtain ⟨p, hp, rfl⟩ := List.mem_map.1 _hv
    have := List.sizeOf_lt_of_mem hp
    obtain ⟨a, b⟩ := p
    simp at this ⊢
    omega

theorem Spec.Flat.tame {v : Value} (h : Flat v) : Tame rank 0 0 v := by
  induction h with
  | atom h1 h2 h3 h4 => exact .atom h1 h2 h3 h4
  | list _ ih => exact .list ih

theorem Spec.Within.tame {r : Nat} {v : Value} (h : Within rank r v) : Tame rank 0 r v := by
  induction h with
  | flat h => exact h.tame.mono (Nat.le_refl _) (Nat.zero_le _)
  | list _ ih => exact .list ih
  | dict _ ih => exact .dict ih
  | struct hc _ ih => exact .struct hc ih

end Tame


/-! ### Eventually -/

/-- `P` holds of every sufficiently large amount of fuel. -/
def Ev (P : Nat → Prop) : Prop := ∃ n, ∀ m, n ≤ m → P m

theorem Ev.of_all {P : Nat → Prop} (h : ∀ n, P n) : Ev P := ⟨0, fun m _ => h m⟩

theorem Ev.and {P Q : Nat → Prop} (hp : Ev P) (hq : Ev Q) : Ev fun n => P n ∧ Q n := by
  obtain ⟨a, ha⟩ := hp
  obtain ⟨b, hb⟩ := hq
  exact ⟨max a b, fun m hm => ⟨ha m (by omega), hb m (by omega)⟩⟩

theorem Ev.imp {P Q : Nat → Prop} (hp : Ev P) (h : ∀ n, P n → Q n) : Ev Q := by
  obtain ⟨a, ha⟩ := hp
  exact ⟨a, fun m hm => h m (ha m hm)⟩

theorem Ev.all {α : Type} {P : Nat → α → Prop} {l : List α} (h : ∀ a ∈ l, Ev fun n => P n a) : Ev fun n => ∀ a ∈ l, P n a := by
  induction l with
  | nil => exact .of_all fun n a ha => by simp at ha
  | cons a l ih =>
    refine ((h a List.mem_cons_self).and (ih fun b hb => h b (List.mem_cons_of_mem _ hb))).imp ?_
    intro n ⟨h1, h2⟩ b hb
    rcases List.mem_cons.1 hb with rfl | hb
    · exact h1
    · exact h2 b hb

theorem Ev.succ {P : Nat → Prop} (h : Ev fun n => P (n + 1)) : Ev P := by
  obtain ⟨a, ha⟩ := h
  refine ⟨a + 1, fun m hm => ?_⟩
  obtain ⟨j, rfl⟩ : ∃ j, m = j + 1 := ⟨m - 1, by omega⟩
  exact ha j (by omega)

/-! ### Leaves -/

theorem encode_notOut (c : CharCodec) : ∀ s, NotOut (c.encode s)
  | [] => by simp [CharCodec.encode]
  | a :: s => by
    simp only [CharCodec.encode]
    split
    · simp
    · have := encode_notOut c s
      split
      · rename_i e he; rw [he] at this; exact this
      · simp

theorem varint_encode_notOut (enc : VarIntEncoding) (i : Int) : NotOut (enc.encode i) := by
  cases enc <;> simp only [VarIntEncoding.encode, encodeCompact, encodeLeb128, encodeUleb128, encodeVlq] <;> (repeat' split) <;> simp

theorem writeInt_notOut (i n : Int) (sg : Bool) (e : Endian) : NotOut (writeInt i n sg e) := by
  simp only [writeInt, intToBytes]
  (repeat' split) <;> simp

theorem floatTrunc_notOut (b : Nat) : NotOut (floatTrunc b) := by
  unfold floatTrunc
  (repeat' split) <;> simp

theorem tsStored_notOut (res : Resolution) (us : Int) (aware : Bool) : NotOut (tsStored res us aware) := floatTrunc_notOut _

theorem tsDump_notOut (res : Resolution) (us : Int) (aware : Bool) : NotOut (tsDump res us aware) := by
  unfold tsDump localTime
  split
  · simp [Except.bind, NotOut]
  · exact tsStored_notOut _ _ _

theorem unserializableOnRange_notOut {name : String} {r : Except Err Bytes} (h : NotOut r) : NotOut (unserializableOnRange name r) := by
  unfold unserializableOnRange
  split
  · simp
  · split
    · simp
    · exact h

theorem Except.map_notOut {α β : Type} {r : Except Err α} {g : α → β} (h : NotOut r) : NotOut (r.map g) := by
  cases r with
  | error e => simpa [Except.map, NotOut] using h
  | ok a => simp [Except.map]

theorem W.ofExcept_notOut {r : Except Err Bytes} (h : NotOut r) : NotOut (W.ofExcept r).2 := by
  cases r with
  | error e => simpa [W.ofExcept, W.fail, NotOut] using h
  | ok a => simp [W.ofExcept, W.ok]

theorem W.toExcept_notOut {w : W} (h : NotOut w.2) : NotOut w.toExcept := by
  unfold W.toExcept
  split
  · rename_i e he; rw [he] at h; simpa [NotOut] using h
  · simp

theorem W.fail_notOut {e : Err} (h : e ≠ .outOfFuel) : NotOut (W.fail e).2 := by simpa [W.fail, NotOut] using h

theorem W.ok_notOut {b : Bytes} : NotOut (W.ok b).2 := by simp [W.ok]

theorem encodeAndResize_notOut {name : String} {c : CharCodec} {pad : Option UInt8} {s : List Nat} {e : Except Err Int} (he : NotOut e) :
    NotOut (encodeAndResize name c pad s e) := by
  unfold encodeAndResize
  have h := encode_notOut c s
  intro h'
  split at h'
  · rename_i x hx; cases h'; exact h hx
  · split at h'
    · cases h'; exact he rfl
    · simp only at h'
      repeat' split at h'
      all_goals simp at h'

theorem leafDump_notOut {b : FieldBase} {k : Leaf} (hk : HonestLeaf k) {e : Except Err Int} (he : NotOut e) (v ctx : Value) (all : Dict) :
    NotOut (leafDump b k e v ctx all).2 := by
  cases k with
  | float fmt en => simp only [leafDump]; (repeat' split) <;> simp [W.fail, W.ok]
  | integer sg en =>
    simp only [leafDump]
    split
    · split
      · exact W.ofExcept_notOut (unserializableOnRange_notOut (writeInt_notOut _ _ _ _))
      · simp [W.fail]
    · simp [W.fail]
  | varint enc mb =>
    simp only [leafDump]
    split
    · rename_i i
      have := unserializableOnRange_notOut (name := b.name) (varint_encode_notOut enc i)
      split
      · rename_i x hx
        rw [hx] at this
        simpa [W.fail, NotOut] using this
      · (repeat' split) <;> simp [W.fail, W.ok]
    · simp [W.fail]
  | timestamp res tz sg en =>
    simp only [leafDump]
    split
    · rename_i us aware
      have := tsDump_notOut res us aware
      split
      · rename_i x hx
        rw [hx] at this
        simpa [W.fail, NotOut] using this
      · split
        · simpa [W.fail, NotOut] using he
        · exact W.ofExcept_notOut (unserializableOnRange_notOut (writeInt_notOut _ _ _ _))
    · simp [W.fail]
  | bytes =>
    simp only [leafDump]
    split
    · simpa [W.fail, NotOut] using he
    · (repeat' split) <;> simp [W.fail, W.ok]
  | string c pad =>
    simp only [leafDump]
    split
    · exact W.ofExcept_notOut (encodeAndResize_notOut he)
    · simp [W.fail]
  | stringz c pad =>
    simp only [leafDump]
    split
    · exact W.ofExcept_notOut (encode_notOut _ _)
    · simp [W.fail]
  | uuid fmt => simp only [leafDump]; split <;> simp [W.fail, W.ok]
  | custom ops => exact (hk ops rfl).1 v ctx all

theorem leafSizeForValue_notOut {b : FieldBase} {k : Leaf} (hk : HonestLeaf k) (v : Value) : NotOut (leafSizeForValue b k v) := by
  unfold leafSizeForValue
  simp only
  split
  all_goals first
    | exact Except.map_notOut (varint_encode_notOut _ _)
    | exact Except.map_notOut (encode_notOut _ _)
    | skip
  all_goals first
    | (simp; done)
    | skip
  · rename_i ops
    split
    · rename_i f hf; exact (hk ops rfl).2.1 f hf v
    · split <;> simp
  · split <;> simp

theorem nullReprWith_notOut {b : FieldBase} {g : Value → W} {e : Except Err Int} (hg : NotOut (g b.nullValue).2) (he : NotOut e) :
    NotOut (b.nullReprWith g e) := by
  unfold FieldBase.nullReprWith
  split
  · simp
  · split
    · simp
    · simp
    · simpa [NotOut] using he
  · split
    · simp
    · simp
    · simpa [NotOut] using he
  · simp
  · exact W.toExcept_notOut hg

theorem sizingValue_notOut {b : FieldBase} (hb : Honest b) (values : Dict) : NotOut (b.sizingValue values) := by
  unfold FieldBase.sizingValue
  have := hb.default
  split
  · simp
  · split
    · rename_i e he; rw [he] at this; simpa [NotOut] using this
    · split <;> simp

theorem expectedSizeWith_notOut {b : FieldBase} (hb : Honest b) {g : Value → Except Err (Option Int)} {r : Except Err Bytes}
    (hg : ∀ v, NotOut (g v)) (hr : NotOut r) (values : Dict) : NotOut (b.expectedSizeWith g r values) := by
  unfold FieldBase.expectedSizeWith
  split
  · simp
  · unfold sizeFromRef; (repeat' split) <;> simp
  · have := sizingValue_notOut hb values
    split
    · rename_i e he; rw [he] at this; simpa [NotOut] using this
    · exact Except.map_notOut hr
    · rename_i v _ _
      have := hg v
      split
      · rename_i e he; rw [he] at this; simpa [NotOut] using this
      · simp
      · simp

theorem leafExpectedSize_notOut {b : FieldBase} {k : Leaf} (hb : Honest b) (hk : HonestLeaf k) (values : Dict) :
    NotOut (leafExpectedSize b k values) := by
  have hbug : NotOut (.error (.buggyField b.name) : Except Err Int) := by simp
  exact expectedSizeWith_notOut hb (leafSizeForValue_notOut hk)
    (nullReprWith_notOut (leafDump_notOut hk hbug _ _ _) hbug) values

theorem leafNullRepr_notOut {b : FieldBase} {k : Leaf} (hb : Honest b) (hk : HonestLeaf k) (values : Dict) :
    NotOut (leafNullRepr b k values) :=
  nullReprWith_notOut (leafDump_notOut hk (leafExpectedSize_notOut hb hk values) _ _ _) (leafExpectedSize_notOut hb hk values)

theorem leafAddPadding_notOut {b : FieldBase} {k : Leaf} (hk : HonestLeaf k) (bs : Bytes) (n : Int) :
    NotOut (leafAddPadding b k bs n) := by
  unfold leafAddPadding
  split
  · split <;> simp
  · split <;> simp
  · rename_i ops
    split
    · rename_i f hf; exact (hk ops rfl).2.2 f hf bs n
    · simp
  · simp

theorem finishDump_notOut {b : FieldBase} {e : Except Err Int} {p : Bytes → Int → Except Err Bytes} (he : NotOut e)
    (hp : ∀ bs n, NotOut (p bs n)) (bs : Bytes) : NotOut (finishDump b e p bs).2 := by
  unfold finishDump
  simp only
  split
  · rename_i x hx
    split at hx
    · simp at hx
    · simp at hx
    · rw [hx] at he; simpa [W.fail, NotOut] using he
  · split
    · simp [W.fail]
    · split
      · exact W.ofExcept_notOut (hp _ _)
      · simp [W.ok]

theorem toStreamWith_notOut {b : FieldBase} (hb : Honest b) {g : Value → W} {r : Except Err Bytes} {e : Except Err Int}
    {p : Bytes → Int → Except Err Bytes} {v : Value} (hg : NotOut (g v).2) (hgd : ∀ w, b.default = .ok w → NotOut (g w).2)
    (hr : NotOut r) (he : NotOut e) (hp : ∀ bs n, NotOut (p bs n)) : NotOut (toStreamWith b g r e p v).2 := by
  unfold toStreamWith
  have hdef := hb.default
  split
  · rename_i x hx
    split at hx
    · rw [hx] at hdef; simpa [W.fail, NotOut] using hdef
    · simp at hx
  · rename_i w hw
    have hgw : NotOut (g w).2 := by
      split at hw
      · exact hgd w hw
      · cases hw; exact hg
    split
    · simp [W.fail]
    · have hv := runValidators_notOut (v := w) fun c hc => hb.validators c hc w
      split
      · rename_i x hx; rw [hx] at hv; simpa [W.fail, NotOut] using hv
      · split
        · exact W.ofExcept_notOut hr
        · have := W.toExcept_notOut hgw
          split
          · rename_i x hx; rw [hx] at this; simpa [W.fail, NotOut] using this
          · exact finishDump_notOut he hp _

/-! ### Conversion to dictionaries -/

theorem mapE_notOut {α β : Type} {g : α → Except Err β} {l : List α} (h : ∀ a ∈ l, NotOut (g a)) : NotOut (mapE g l) := by
  induction l with
  | nil => simp [mapE]
  | cons a l ih =>
    have h1 := h a List.mem_cons_self
    have h2 := ih fun b hb => h b (List.mem_cons_of_mem _ hb)
    simp only [mapE]
    split
    · rename_i e he; rw [he] at h1; simpa [NotOut] using h1
    · split
      · rename_i e he; rw [he] at h2; simpa [NotOut] using h2
      · simp

theorem mapDictE_notOut {g : Value → Except Err Value} {d : Dict} (h : ∀ p ∈ d, NotOut (g p.2)) : NotOut (mapDictE g d) :=
  mapE_notOut fun p hp => Except.map_notOut (h p hp)

theorem mapE_mem {α β : Type} {g : α → Except Err β} {l : List α} {r : List β} (h : mapE g l = .ok r) :
    ∀ b ∈ r, ∃ a ∈ l, g a = .ok b := by
  intro b hb
  obtain ⟨hl, hi⟩ := mapE_ok h
  obtain ⟨i, h1, rfl⟩ := List.mem_iff_getElem.1 hb
  exact ⟨l[i]'(by omega), List.getElem_mem _, hi i (by omega) h1⟩

theorem mapDictE_mem {g : Value → Except Err Value} {d r : Dict} (h : mapDictE g d = .ok r) :
    ∀ p ∈ r, ∃ q ∈ d, q.1 = p.1 ∧ g q.2 = .ok p.2 := by
  intro p hp
  obtain ⟨q, hq, h1⟩ := mapE_mem h p hp
  refine ⟨q, hq, ?_⟩
  cases hg : g q.2 with
  | error e => simp [hg, Except.map] at h1
  | ok v => simp [hg, Except.map] at h1; subst h1; exact ⟨rfl, rfl⟩

theorem mapE_unchanged {α : Type} {g : α → Except Err α} {l r : List α} (h : mapE g l = .ok r) (hid : ∀ a ∈ l, ∀ b, g a = .ok b → b = a) :
    r = l := by
  obtain ⟨hl, hi⟩ := mapE_ok h
  refine List.ext_getElem hl fun i h1 h2 => ?_
  exact hid _ (List.getElem_mem _) _ (hi i h2 h1)

section Conversion
variable {rank : String → Nat} {Γ : Classes}

/-- Every class of the program is founded. -/
def AllFounded (rank : String → Nat) (Γ : Classes) : Prop := ∀ c d, Γ c = some d → Founded rank (rank c) d

theorem recursiveToDicts_tame (hΓ : AllFounded rank Γ) (n : Nat) {k r : Nat} {v w : Value} (hv : Tame rank k r v)
    (h : recursiveToDicts Γ n v = .ok w) : Tame rank k 0 w := by
  induction n generalizing k r v w with
  | zero => simp [recursiveToDicts] at h
  | succ n ih =>
    have hdict : ∀ (r' : Nat) (d d' : Dict), (∀ p ∈ d, ∃ r, Tame rank k r p.2) → mapDictE (recursiveToDicts Γ n) d = .ok d' →
        Tame rank k 0 (.dict d') := by
      intro r' d d' hd h
      refine .dict fun p hp => ?_
      obtain ⟨q, hq, -, h1⟩ := mapDictE_mem h p hp
      obtain ⟨s, hs⟩ := hd q hq
      exact ih hs h1
    cases hv with
    | atom h1 h2 h3 h4 =>
      have : w = v := by
        cases v <;> simp_all [recursiveToDicts]
      subst this
      exact .atom h1 h2 h3 h4
    | @list _ _ l hl =>
      simp only [recursiveToDicts] at h
      cases hm : mapE (recursiveToDicts Γ n) l with
      | error e => simp [hm, Except.map] at h
      | ok l' =>
        simp [hm, Except.map] at h; subst h
        refine .list fun b hb => ?_
        obtain ⟨a, ha, h1⟩ := mapE_mem hm b hb
        exact ih (hl a ha) h1
    | @dict _ _ d hd =>
      simp only [recursiveToDicts] at h
      cases hm : mapDictE (recursiveToDicts Γ n) d with
      | error e => simp [hm, Except.map] at h
      | ok d' =>
        simp [hm, Except.map] at h; subst h
        exact hdict r d d' (fun p hp => ⟨r, hd p hp⟩) hm
    | @struct _ _ c vals hc hd =>
      simp only [recursiveToDicts] at h
      split at h
      · simp at h
      · rename_i d hΓd
        split at h
        · simp at h
        · rename_i dct hdct
          cases hm : mapDictE (recursiveToDicts Γ n) dct with
          | error e => simp [hm, Except.map] at h
          | ok d' =>
            simp [hm, Except.map] at h; subst h
            refine hdict r dct d' (fun p hp => ?_) hm
            rcases toDictShallow_src hdct p hp with ⟨q, hq, h1⟩ | h1 | ⟨f, hf, -, h1⟩
            · exact ⟨r, h1 ▸ hd q hq⟩
            · exact ⟨0, h1 ▸ .atom (by simp) (by simp) (by simp) (by simp)⟩
            · rcases (hΓ c d hΓd).supplies f hf _ h1 with h2 | ⟨h2, -⟩
              · exact ⟨0, h2.tame.mono (Nat.zero_le _) (Nat.le_refl _)⟩
              · exact ⟨rank c, h2.tame.mono (Nat.zero_le _) (Nat.le_refl _)⟩
    | @iter k' _ r' l hl =>
      simp only [recursiveToDicts] at h
      cases h
      exact .iter hl

theorem recursiveToDicts_id (n : Nat) {k : Nat} {v w : Value} (hv : Tame rank k 0 v) (h : recursiveToDicts Γ n v = .ok w) : w = v := by
  induction n generalizing k v w with
  | zero => simp [recursiveToDicts] at h
  | succ n ih =>
    cases hv with
    | atom h1 h2 h3 h4 => cases v <;> simp_all [recursiveToDicts]
    | @list _ _ l hl =>
      simp only [recursiveToDicts] at h
      cases hm : mapE (recursiveToDicts Γ n) l with
      | error e => simp [hm, Except.map] at h
      | ok l' =>
        simp [hm, Except.map] at h; subst h
        rw [mapE_unchanged hm fun a ha b hb => ih (hl a ha) hb]
    | @dict _ _ d hd =>
      simp only [recursiveToDicts] at h
      cases hm : mapDictE (recursiveToDicts Γ n) d with
      | error e => simp [hm, Except.map] at h
      | ok d' =>
        simp [hm, Except.map] at h; subst h
        rw [mapE_unchanged hm fun a ha b hb => ?_]
        cases hg : recursiveToDicts Γ n a.2 with
        | error e => simp [hg, Except.map] at hb
        | ok x => simp [hg, Except.map] at hb; subst hb; rw [ih (hd a ha) hg]
    | struct hc _ => exact absurd hc (Nat.not_lt_zero _)
    | iter hl => simp only [recursiveToDicts] at h; cases h; rfl

theorem recursiveToDicts_halts (hΓ : AllFounded rank Γ) {r : Nat} : ∀ {k : Nat} {v : Value}, Tame rank k r v →
    Ev fun n => NotOut (recursiveToDicts Γ n v) := by
  induction r using Nat.strongRecOn with
  | ind r ihr =>
    intro k v hv
    induction hv with
    | atom h1 h2 h3 h4 =>
      refine Ev.succ (.of_all fun n => ?_)
      cases ‹Value› <;> simp_all [recursiveToDicts]
    | @list k r l hl ih =>
      refine Ev.succ ((Ev.all fun a ha => ih a ha ihr).imp fun n h => ?_)
      simp only [recursiveToDicts]
      exact Except.map_notOut (mapE_notOut h)
    | @dict k r d hd ih =>
      refine Ev.succ ((Ev.all fun a ha => ih a ha ihr).imp fun n h => ?_)
      simp only [recursiveToDicts]
      exact Except.map_notOut (mapDictE_notOut h)
    | @struct k r c vals hc hd ih =>
      cases hΓd : Γ c with
      | none => exact Ev.succ (.of_all fun n => by simp [recursiveToDicts, hΓd])
      | some d =>
        have hF := hΓ c d hΓd
        cases hdct : toDictShallow d vals false with
        | error e =>
          have := toDictShallow_notOut hF.honest vals false
          rw [hdct] at this
          refine Ev.succ (.of_all fun n => ?_)
          simp only [recursiveToDicts, hΓd, hdct]
          simpa [NotOut] using this
        | ok dct =>
          have : Ev fun n => ∀ p ∈ dct, NotOut (recursiveToDicts Γ n p.2) := by
            refine Ev.all fun p hp => ?_
            rcases toDictShallow_src hdct p hp with ⟨q, hq, h1⟩ | h1 | ⟨f, hf, -, h1⟩
            · rw [← h1]; exact ih q hq ihr
            · rw [h1]; exact Ev.succ (.of_all fun n => by simp [recursiveToDicts])
            · refine ihr (rank c) hc (k := 0) ?_
              rcases hF.supplies f hf _ h1 with h2 | ⟨h2, -⟩
              · exact h2.tame.mono (Nat.le_refl _) (Nat.zero_le _)
              · exact h2.tame
          refine Ev.succ (this.imp fun n h => ?_)
          simp only [recursiveToDicts, hΓd, hdct]
          exact Except.map_notOut (mapDictE_notOut h)
    | iter hl ih => exact Ev.succ (.of_all fun n => by simp [recursiveToDicts])

end Conversion

/-! ### Dumping -/

section Dumping
variable {rank : String → Nat} {Γ : Classes}

/-- `_do_dump` comes to an end. -/
def DumpEnds (Γ : Classes) (f : Field) (v : Value) : Prop := ∀ ctx all, Ev fun n => NotOut (fieldDoDump Γ n f v ctx all).2

/-- `to_stream` comes to an end. -/
def StreamEnds (Γ : Classes) (f : Field) (v : Value) : Prop := ∀ ctx all, Ev fun n => NotOut (fieldToStream Γ n f v ctx all).2

theorem leaf_dumpEnds {b : FieldBase} {k : Leaf} (hb : Honest b) (hk : HonestLeaf k) (v : Value) : DumpEnds Γ (.leaf b k) v :=
  fun ctx all => .of_all fun _ => leafDump_notOut hk (leafExpectedSize_notOut hb hk all) v ctx all

theorem baseSizeForValue_notOut (b : FieldBase) (v : Value) : NotOut (baseSizeForValue b v) := by
  unfold baseSizeForValue; split <;> simp

theorem Spec.Orderly.streamEnds {f : Field} (hf : Orderly f) {v : Value} (hs : ∀ w, Supplies f.base w → DumpEnds Γ f w)
    (hv : DumpEnds Γ f v) : StreamEnds Γ f v := by
  intro ctx all
  have hn := hs f.base.nullValue (.inr (.inr rfl))
  have hdef : Ev fun n => ∀ w, f.base.default = .ok w → NotOut (fieldDoDump Γ n f w ctx all).2 := by
    cases h : f.base.default with
    | error e => exact .of_all fun n w hw => by simp at hw
    | ok w => exact (hs w (.inl h) ctx all).imp fun n h1 w' hw' => by cases hw'; exact h1
  refine Ev.succ (((hv ctx all).and ((hn .none all).and hdef)).imp ?_)
  intro n ⟨h1, h2, h3⟩
  have hr : ∀ e : Except Err Int, NotOut e → NotOut (f.base.nullReprWith (fun v => fieldDoDump Γ n f v .none all) e) :=
    fun e he => nullReprWith_notOut (g := fun v => fieldDoDump Γ n f v .none all) h2 he
  have he : NotOut (containerExpectedSize f.base (fun v => fieldDoDump Γ n f v .none all) all) :=
    expectedSizeWith_notOut hf.honest (baseSizeForValue_notOut f.base) (hr _ (by simp)) all
  cases f with
  | leaf b k =>
    rw [fieldToStream]
    cases hf with
    | leaf hb hk =>
      exact toStreamWith_notOut hb h1 h3 (leafNullRepr_notOut hb hk all) (leafExpectedSize_notOut hb hk all) (leafAddPadding_notOut hk)
  | _ =>
    rw [fieldToStream]
    · exact toStreamWith_notOut hf.honest h1 h3 (hr _ he) he (by simp)
    · simp

theorem dumpAll_notOut {g : Value → W} {l : List Value} (h : ∀ v ∈ l, NotOut (g v).2) : NotOut (dumpAll g l).2 := by
  induction l with
  | nil => simp [dumpAll, W.ok]
  | cons v l ih =>
    have h1 := h v List.mem_cons_self
    have h2 := ih fun w hw => h w (List.mem_cons_of_mem _ hw)
    simp only [dumpAll, W.seq]
    split
    · exact h1
    · exact h2

theorem dumpUnsized_notOut {g : Value → W} {l : List Value} (h : ∀ v ∈ l, NotOut (g v).2) (name : String) (ne : Option Int) (k : Nat) :
    NotOut (dumpUnsized name g ne k l).2 := by
  induction l generalizing k with
  | nil =>
    simp only [dumpUnsized]
    split
    · split <;> simp [W.fail, W.ok]
    · simp [W.ok]
  | cons v l ih =>
    have h1 := h v List.mem_cons_self
    have h2 := ih (fun w hw => h w (List.mem_cons_of_mem _ hw)) (k + 1)
    simp only [dumpUnsized]
    split
    · simp [W.fail]
    · simp only [W.seq]
      split
      · exact h1
      · exact h2

theorem finalElementCount_notOut (c : Count) (values : Dict) : NotOut (finalElementCount c values) := by
  unfold finalElementCount
  (repeat' split) <;> simp

theorem arrayDump_notOut {g : Value → W} {data : Value} (h : ∀ s l, arrayElements data = some (s, l) → ∀ v ∈ l, NotOut (g v).2)
    (name : String) (c : Count) (all : Dict) : NotOut (arrayDump name g c data all).2 := by
  unfold arrayDump
  have := finalElementCount_notOut c all
  split
  · rename_i e he; rw [he] at this; simpa [W.fail, NotOut] using this
  · split
    · simp [W.fail]
    · rename_i l hl; exact dumpUnsized_notOut (h _ _ hl) _ _ _
    · rename_i l hl
      split
      · split
        · simp [W.fail]
        · exact dumpAll_notOut (h _ _ hl)
      · exact dumpAll_notOut (h _ _ hl)

theorem array_dumpEnds {b : FieldBase} {comp : Field} {count : Count} {halt} {v : Value}
    (h : ∀ s l, arrayElements v = some (s, l) → ∀ e ∈ l, StreamEnds Γ comp e) : DumpEnds Γ (.array b comp count halt) v := by
  intro ctx all
  have : Ev fun n => ∀ s l, arrayElements v = some (s, l) → ∀ e ∈ l, NotOut (fieldToStream Γ n comp e ctx all).2 := by
    cases he : arrayElements v with
    | none => exact .of_all fun n s l h => by simp at h
    | some x =>
      obtain ⟨s, l⟩ := x
      refine (Ev.all fun e hel => h s l he e hel ctx all).imp fun n h1 s' l' h2 => ?_
      cases h2
      exact h1
  refine this.imp fun n h => ?_
  simp only [fieldDoDump, containerDump]
  exact arrayDump_notOut h _ _ _

/-- Dumping this struct comes to an end. -/
def StructEnds (Γ : Classes) (d : StructDesc) (vals : Dict) : Prop := ∀ ctx, Ev fun n => NotOut (structToStream Γ n d vals ctx).2

theorem dumpNew_ends {cls : String} {kwargs : Dict} (h : ∀ d, Γ cls = some d → StructEnds Γ d kwargs) (ctx : Value) :
    Ev fun n => NotOut (dumpNew Γ (structToStream Γ n) cls kwargs ctx).2 := by
  unfold dumpNew
  cases hd : Γ cls with
  | none => exact .of_all fun n => by simp [W.fail]
  | some d =>
    simp only
    cases hi : structInit d kwargs with
    | error e =>
      refine .of_all fun n => ?_
      unfold structInit at hi
      simp only at hi
      split at hi
      · cases hi; simp [W.fail]
      · simp at hi
    | ok vals =>
      have : vals = kwargs := by
        unfold structInit at hi
        simp only at hi
        split at hi
        · simp at hi
        · simpa using hi.symm
      subst this
      exact h d hd ctx

theorem nested_dumpEnds {b : FieldBase} {cls : String} {v : Value}
    (hs : ∀ c vals d, v = .struct c vals → Γ c = some d → StructEnds Γ d vals)
    (hd : ∀ kwargs d, v = .dict kwargs → Γ cls = some d → StructEnds Γ d kwargs) : DumpEnds Γ (.nested b cls) v := by
  intro ctx all
  simp only [fieldDoDump, containerDump]
  cases v with
  | struct c vals =>
    simp only
    cases hc : Γ c with
    | none => exact .of_all fun n => by simp [W.fail]
    | some d => exact hs c vals d rfl hc ctx
  | dict kwargs => exact dumpNew_ends (fun d h => hd kwargs d rfl h) ctx
  | _ => exact .of_all fun n => by simp [W.fail]

theorem union_dumpEnds {b : FieldBase} {choices : List (Field ⊕ String)} {ld dd} {v : Value}
    (hdd : ∀ v ctx all, dd v ctx all ≠ .error .outOfFuel)
    (hf : ∀ g, .inl g ∈ choices → StreamEnds Γ g v)
    (hd : ∀ cls kwargs d, .inr cls ∈ choices → v = .dict kwargs → Γ cls = some d → StructEnds Γ d kwargs) :
    DumpEnds Γ (.union b choices ld dd) v := by
  intro ctx all
  simp only [fieldDoDump, containerDump]
  cases hi : dd v ctx all with
  | error e =>
    refine .of_all fun n => ?_
    have := hdd v ctx all
    rw [hi] at this
    simpa [W.fail, NotOut] using this
  | ok i =>
    simp only
    cases hc : choices[i]? with
    | none => exact .of_all fun n => by simp [W.fail]
    | some c =>
      have hm := List.mem_of_getElem? hc
      cases c with
      | inl g => exact hf g hm ctx all
      | inr cls =>
        simp only
        cases v with
        | dict kwargs => exact dumpNew_ends (fun d h => hd cls kwargs d hm rfl h) ctx
        | _ => exact .of_all fun n => by simp [W.fail]

theorem flat_elements {v : Value} (hv : Flat v) {s : Bool} {l : List Value} (h : arrayElements v = some (s, l)) : ∀ e ∈ l, Flat e := by
  have hatom : ∀ i, Flat (.int i) := fun i => .atom (by simp) (by simp) (by simp) (by simp)
  have hstr : ∀ i, Flat (.str i) := fun i => .atom (by simp) (by simp) (by simp) (by simp)
  cases hv with
  | list hl => simp [arrayElements] at h; obtain ⟨-, rfl⟩ := h; exact hl
  | atom h1 h2 h3 h4 =>
    cases v with
    | bytes b =>
      simp [arrayElements] at h; obtain ⟨-, rfl⟩ := h
      intro e he; obtain ⟨x, -, rfl⟩ := List.mem_map.1 he; exact hatom _
    | str b =>
      simp [arrayElements] at h; obtain ⟨-, rfl⟩ := h
      intro e he; obtain ⟨x, -, rfl⟩ := List.mem_map.1 he; exact hstr _
    | list l => exact absurd rfl (h1 l)
    | iter l => exact absurd rfl (h2 l)
    | dict l => exact absurd rfl (h3 l)
    | _ => simp [arrayElements] at h

theorem flat_dumpEnds {f : Field} (hf : Orderly f) : ∀ {v : Value}, Flat v → DumpEnds Γ f v := by
  induction hf with
  | leaf hb hk => intro v _; exact leaf_dumpEnds hb hk v
  | array hb hc hs ih =>
    intro v hv
    exact array_dumpEnds fun s l hl e he => hc.streamEnds (fun w hw => ih (hs w hw)) (ih (flat_elements hv hl e he))
  | nested hb =>
    intro v hv
    refine nested_dumpEnds (fun c vals d h => ?_) (fun kw d h => ?_)
    · subst h; cases hv with | atom _ _ _ h4 => exact absurd rfl (h4 _ _)
    · subst h; cases hv with | atom _ _ h3 _ => exact absurd rfl (h3 _)
  | union hb hdd hc hs ih =>
    intro v hv
    refine union_dumpEnds hdd (fun g hg => (hc g hg).streamEnds (fun w hw => ih g hg (hs g hg w hw)) (ih g hg hv)) ?_
    intro cls kw d _ h
    subst h; cases hv with | atom _ _ h3 _ => exact absurd rfl (h3 _)

theorem dumpFields_notOut {g : Field → Value → W} {all : Dict} {ctx : Value} {fs : List Field} (hb : ∀ f ∈ fs, Honest f.base)
    (h : ∀ f ∈ fs, ∀ v, f.base.computeValueForDump all.view ctx = .ok v → v ≠ .notPresent → NotOut (g f v).2) :
    NotOut (dumpFields g all ctx fs).2 := by
  induction fs with
  | nil => simp [dumpFields, W.ok]
  | cons f fs ih =>
    have h2 := ih (fun f' hf' => hb f' (List.mem_cons_of_mem _ hf')) fun f' hf' => h f' (List.mem_cons_of_mem _ hf')
    simp only [dumpFields]
    have hc := computeValueForDump_notOut (hb f List.mem_cons_self) (dictView_honest all) ctx
    split
    · rename_i e he; rw [he] at hc; simpa [W.fail, NotOut] using hc
    · rename_i v hv
      split
      · exact h2
      · rename_i hne
        have h1 := h f List.mem_cons_self v hv hne
        simp only [W.seq]
        split
        · exact h1
        · exact h2

/-- The value can be converted, and the field can dump what comes out. -/
structure Converts (Γ : Classes) (f : Field) (v : Value) : Prop where
  halts : Ev fun n => NotOut (recursiveToDicts Γ n v)
  ends : ∀ n w, recursiveToDicts Γ n v = .ok w → DumpEnds Γ f w

theorem founded_structEnds {r : Nat} {d : StructDesc} (hd : Founded rank r d) {vals : Dict}
    (hvals : ∀ p ∈ vals, ∀ f ∈ d.components, Converts Γ f p.2)
    (hhalt : ∀ p ∈ vals, Ev fun n => NotOut (recursiveToDicts Γ n p.2))
    (hsup : ∀ f ∈ d.components, ∀ v, Supplies f.base v → DumpEnds Γ f v ∧ Converts Γ f v) : StructEnds Γ d vals := by
  intro ctx
  have hval := validateContents_notOut hd vals
  -- the dictionary
  have hdict : Ev fun n => NotOut (structToDict Γ n d vals) := by
    unfold structToDict
    have := toDictShallow_notOut hd.honest vals false
    cases hdct : toDictShallow d vals false with
    | error e => rw [hdct] at this; exact .of_all fun n => by simpa [NotOut] using this
    | ok dct =>
      refine (Ev.all (P := fun n (p : String × Value) => NotOut (recursiveToDicts Γ n p.2)) (l := dct) fun p hp => ?_).imp
        fun n h => mapDictE_notOut h
      rcases toDictShallow_src hdct p hp with ⟨q, hq, h1⟩ | h1 | ⟨f, hf, -, h1⟩
      · rw [← h1]; exact hhalt q hq
      · rw [h1]; exact Ev.succ (.of_all fun n => by simp [recursiveToDicts])
      · exact (hsup f hf _ h1).2.halts
  obtain ⟨n0, hn0⟩ := hdict
  have hn0' : NotOut (structToDict Γ n0 d vals) := hn0 n0 (Nat.le_refl _)
  have hstable : ∀ m, n0 ≤ m → structToDict Γ m d vals = structToDict Γ n0 d vals := by
    intro m hm
    rcases structToDict_mono Γ hm d vals false with h | h
    · exact absurd h hn0'
    · exact h.symm
  cases hv : validateContents d vals with
  | error e =>
    rw [hv] at hval
    refine Ev.succ (.of_all fun n => ?_)
    simp only [structToStream, structToStreamWith, hv]
    simpa [W.fail, NotOut] using hval
  | ok _ =>
    cases hall : structToDict Γ n0 d vals with
    | error e =>
      rw [hall] at hn0'
      refine Ev.succ ⟨n0, fun n hn => ?_⟩
      simp only [structToStream, structToStreamWith, hv, hstable n hn, hall]
      simpa [W.fail, NotOut] using hn0'
    | ok all =>
      have hfs : Ev fun n => ∀ f ∈ d.components, ∀ v, f.base.computeValueForDump all.view ctx = .ok v → v ≠ .notPresent →
          NotOut (fieldToStream Γ n f v ctx all).2 := by
        refine Ev.all fun f hf => ?_
        cases hc : f.base.computeValueForDump all.view ctx with
        | error e => exact .of_all fun n v h => by simp at h
        | ok v =>
          by_cases hnp : v = .notPresent
          · subst hnp; exact .of_all fun n v h hne => absurd (by cases h; rfl) hne
          · have hends : v = .notPresent ∨ DumpEnds Γ f v := by
              refine computeValueForDump_src (P := fun v => v = .notPresent ∨ DumpEnds Γ f v) (fun w _ hw => ?_)
                (fun w hw => .inr (hsup f hf w hw).1) (.inl rfl) hc
              simp only [Dict.view] at hw
              split at hw
              · rename_i u hu
                cases hw
                unfold structToDict at hall
                split at hall
                · simp at hall
                · rename_i dct hdct
                  obtain ⟨q, hq, hk, h1⟩ := mapDictE_mem hall _ (mem_of_get? hu)
                  rcases toDictShallow_src hdct q hq with ⟨p, hp, h2⟩ | h2 | ⟨g, hg, h2, h3⟩
                  · exact .inr ((hvals p hp f hf).ends n0 _ (by rw [h2]; exact h1))
                  · left
                    rw [h2] at h1
                    cases n0 with
                    | zero => simp [recursiveToDicts] at h1
                    | succ m => simp [recursiveToDicts] at h1; exact h1.symm
                  · have hgf : g = f := by
                      have e1 := find?_of_mem hd.unique hg
                      have e2 := find?_of_mem hd.unique hf
                      rw [h2, show q.1 = f.name from hk] at e1
                      rw [e1] at e2
                      exact Option.some.inj e2
                    subst hgf
                    exact .inr ((hsup g hg _ h3).2.ends n0 _ h1)
              · simp at hw
            have hend := (hd.fields f hf).streamEnds (fun w hw => (hsup f hf w hw).1) (hends.resolve_left hnp)
            exact (hend ctx all).imp fun n h w hw _ => by cases hw; exact h
      obtain ⟨n1, hn1⟩ := hfs
      refine Ev.succ ⟨max n0 n1, fun n hn => ?_⟩
      simp only [structToStream, structToStreamWith, hv, hstable n (by omega), hall]
      exact dumpFields_notOut hd.honest (hn1 n (by omega))

/-- Fields that refer to classes of rank below `r` can dump these values. -/
def Ends (rank : String → Nat) (Γ : Classes) (k r : Nat) : Prop :=
  ∀ f, Orderly f → (∀ c, Mentions f c → rank c < r) → ∀ v, Tame rank k r v → DumpEnds Γ f v

theorem supplied_ends (hΓ : AllFounded rank Γ) {r k : Nat} {d : StructDesc} (hd : Founded rank r d) (hE : Ends rank Γ k r) :
    ∀ f ∈ d.components, ∀ v, Supplies f.base v → DumpEnds Γ f v ∧ Converts Γ f v := by
  intro f hf v hv
  have ho := hd.fields f hf
  rcases hd.supplies f hf v hv with h | ⟨h, hm⟩
  · exact ⟨flat_dumpEnds ho h, recursiveToDicts_halts hΓ h.tame, fun n w hw => by
      rw [recursiveToDicts_id (rank := rank) n h.tame hw]; exact flat_dumpEnds ho h⟩
  · have ht := h.tame.mono (Nat.zero_le k) (Nat.le_refl r)
    exact ⟨hE f ho hm v ht, recursiveToDicts_halts hΓ ht, fun n w hw =>
      hE f ho hm w ((recursiveToDicts_tame hΓ n ht hw).mono (Nat.le_refl _) (Nat.zero_le _))⟩

theorem step_dumpEnds (hΓ : AllFounded rank Γ) {k r : Nat} (ihk : ∀ k', k' < k → ∀ r', Ends rank Γ k' r')
    (ihr : ∀ r', r' < r → Ends rank Γ k r') {f : Field} (hf : Orderly f) (hm : ∀ c, Mentions f c → rank c < r) {v : Value}
    (hv : Tame rank k r v)
    (hcomp : ∀ b comp count halt, f = .array b comp count halt → ∀ l, v = .list l → ∀ e ∈ l, DumpEnds Γ comp e)
    (hun : ∀ b choices ld dd, f = .union b choices ld dd → ∀ g, .inl g ∈ choices → DumpEnds Γ g v)
    (hst : ∀ vals, (v = .dict vals ∨ ∃ c, v = .struct c vals) → ∀ p ∈ vals, ∀ n u, recursiveToDicts Γ n p.2 = .ok u →
      ∀ g, Orderly g → (∀ c, Mentions g c → rank c < r) → DumpEnds Γ g u) : DumpEnds Γ f v := by
  have hflat : ∀ l : List Nat, Flat (.str l) := fun i => .atom (by simp) (by simp) (by simp) (by simp)
  have hclass : ∀ c d vals, Γ c = some d → rank c < r → (v = .dict vals ∨ ∃ c, v = .struct c vals) → StructEnds Γ d vals := by
    intro c d vals hd hc hvals
    have hF := hΓ c d hd
    have htame : ∀ p ∈ vals, Tame rank k r p.2 := by
      rcases hvals with rfl | ⟨c', rfl⟩
      · cases hv with
        | atom _ _ h _ => exact absurd rfl (h _)
        | dict h => exact h
      · cases hv with
        | atom _ _ _ h => exact absurd rfl (h _ _)
        | struct _ h => exact h
    refine founded_structEnds hF (fun p hp g hg => ?_) (fun p hp => recursiveToDicts_halts hΓ (htame p hp))
      (supplied_ends hΓ hF (ihr _ hc))
    refine ⟨recursiveToDicts_halts hΓ (htame p hp), fun n u hu => hst vals hvals p hp n u hu g (hF.fields g hg) ?_⟩
    intro c' hc'
    exact Nat.lt_of_le_of_lt (hF.mentions g hg c' hc') hc
  cases hf with
  | leaf hb hk => exact leaf_dumpEnds hb hk v
  | @array b comp count halt hb ho hs =>
    refine array_dumpEnds fun s l hl e he => ho.streamEnds (fun w hw => flat_dumpEnds ho (hs w hw)) ?_
    cases hv with
    | atom h1 h2 h3 h4 => exact flat_dumpEnds ho (flat_elements (.atom h1 h2 h3 h4) hl e he)
    | @list _ _ l' h =>
      simp [arrayElements] at hl; obtain ⟨-, rfl⟩ := hl
      exact hcomp b comp count halt rfl l' rfl e he
    | @dict _ _ d h =>
      simp [arrayElements] at hl; obtain ⟨-, rfl⟩ := hl
      obtain ⟨x, -, rfl⟩ := List.mem_map.1 he
      exact flat_dumpEnds ho (hflat _)
    | struct _ _ => simp [arrayElements] at hl
    | @iter k' _ r' l' h =>
      simp [arrayElements] at hl; obtain ⟨-, rfl⟩ := hl
      exact ihk k' (Nat.lt_succ_self _) (max r r') comp ho (fun c hc => Nat.lt_of_lt_of_le (hm c (.array hc)) (Nat.le_max_left ..)) e
        ((h e he).mono (Nat.le_refl _) (Nat.le_max_right ..))
  | @nested b cls hb =>
    refine nested_dumpEnds (fun c vals d h hd => ?_) (fun kw d h hd => hclass cls d kw hd (hm cls .nested) (.inl h))
    refine hclass c d vals hd ?_ (.inr ⟨c, h⟩)
    subst h
    cases hv with
    | atom _ _ _ h => exact absurd rfl (h _ _)
    | struct h _ => exact h
  | @union b choices ld dd hb hdd hc hs =>
    refine union_dumpEnds hdd (fun g hg => (hc g hg).streamEnds (fun w hw => flat_dumpEnds (hc g hg) (hs g hg w hw))
      (hun b choices ld dd rfl g hg)) ?_
    intro cls kw d hm' h hd
    exact hclass cls d kw hd (hm cls (.struct hm')) (.inl h)

theorem converted_dumpEnds (hΓ : AllFounded rank Γ) {k r : Nat} (ihk : ∀ k', k' < k → ∀ r', Ends rank Γ k' r')
    (ihr : ∀ r', r' < r → Ends rank Γ k r') : ∀ (s : Nat) (v : Value), sizeOf v < s → Tame rank k 0 v →
      ∀ f, Orderly f → (∀ c, Mentions f c → rank c < r) → DumpEnds Γ f v := by
  intro s
  induction s with
  | zero => intro v hs; omega
  | succ s ihs =>
    intro v hsz hv f hf
    induction hf with
    | leaf hb hk => intro _; exact leaf_dumpEnds hb hk v
    | @array b comp count halt hb ho hs ih =>
      intro hm
      refine step_dumpEnds hΓ ihk ihr (.array hb ho hs) hm (hv.mono (Nat.le_refl _) (Nat.zero_le _)) ?_ ?_ ?_
      · intro b' comp' count' halt' heq l hl e he
        cases heq; subst hl
        refine ihs e ?_ ?_ comp ho fun c hc => hm c (.array hc)
        · have := List.sizeOf_lt_of_mem he
          simp at hsz; omega
        · cases hv with
          | atom h _ _ _ => exact absurd rfl (h _)
          | list h => exact h e he
      · intro b' ch ld dd heq; cases heq
      · intro vals hvals p hp n u hu g hg hgm
        rcases hvals with rfl | ⟨c, rfl⟩
        · cases hv with
          | atom _ _ h _ => exact absurd rfl (h _)
          | dict h =>
            rw [recursiveToDicts_id n (h p hp) hu]
            refine ihs p.2 ?_ (h p hp) g hg hgm
            have := List.sizeOf_lt_of_mem hp
            obtain ⟨a, b⟩ := p
            simp at hsz this ⊢; omega
        · cases hv with
          | atom _ _ _ h => exact absurd rfl (h _ _)
          | struct h _ => exact absurd h (Nat.not_lt_zero _)
    | @nested b cls hb =>
      intro hm
      refine step_dumpEnds hΓ ihk ihr (.nested hb) hm (hv.mono (Nat.le_refl _) (Nat.zero_le _)) ?_ ?_ ?_
      · intro b' comp' count' halt' heq; cases heq
      · intro b' ch ld dd heq; cases heq
      · intro vals hvals p hp n u hu g hg hgm
        rcases hvals with rfl | ⟨c, rfl⟩
        · cases hv with
          | atom _ _ h _ => exact absurd rfl (h _)
          | dict h =>
            rw [recursiveToDicts_id n (h p hp) hu]
            refine ihs p.2 ?_ (h p hp) g hg hgm
            have := List.sizeOf_lt_of_mem hp
            obtain ⟨a, b⟩ := p
            simp at hsz this ⊢; omega
        · cases hv with
          | atom _ _ _ h => exact absurd rfl (h _ _)
          | struct h _ => exact absurd h (Nat.not_lt_zero _)
    | @union b choices ld dd hb hdd hc hs ih =>
      intro hm
      refine step_dumpEnds hΓ ihk ihr (.union hb hdd hc hs) hm (hv.mono (Nat.le_refl _) (Nat.zero_le _)) ?_ ?_ ?_
      · intro b' comp' count' halt' heq; cases heq
      · intro b' ch ld' dd' heq g hg
        cases heq
        exact ih g hg fun c hc' => hm c (.field hg hc')
      · intro vals hvals p hp n u hu g hg hgm
        rcases hvals with rfl | ⟨c, rfl⟩
        · cases hv with
          | atom _ _ h _ => exact absurd rfl (h _)
          | dict h =>
            rw [recursiveToDicts_id n (h p hp) hu]
            refine ihs p.2 ?_ (h p hp) g hg hgm
            have := List.sizeOf_lt_of_mem hp
            obtain ⟨a, b⟩ := p
            simp at hsz this ⊢; omega
        · cases hv with
          | atom _ _ _ h => exact absurd rfl (h _ _)
          | struct h _ => exact absurd h (Nat.not_lt_zero _)

theorem general_dumpEnds (hΓ : AllFounded rank Γ) {k r : Nat} (ihk : ∀ k', k' < k → ∀ r', Ends rank Γ k' r')
    (ihr : ∀ r', r' < r → Ends rank Γ k r') : Ends rank Γ k r := by
  have hst : ∀ v, Tame rank k r v → ∀ vals, (v = .dict vals ∨ ∃ c, v = .struct c vals) → ∀ p ∈ vals, ∀ n u,
      recursiveToDicts Γ n p.2 = .ok u → ∀ g, Orderly g → (∀ c, Mentions g c → rank c < r) → DumpEnds Γ g u := by
    intro v hv vals hvals p hp n u hu g hg hgm
    have : Tame rank k r p.2 := by
      rcases hvals with rfl | ⟨c, rfl⟩
      · cases hv with
        | atom _ _ h _ => exact absurd rfl (h _)
        | dict h => exact h p hp
      · cases hv with
        | atom _ _ _ h => exact absurd rfl (h _ _)
        | struct _ h => exact h p hp
    exact converted_dumpEnds hΓ ihk ihr _ u (Nat.lt_succ_self _) (recursiveToDicts_tame hΓ n this hu) g hg hgm
  intro f hf
  induction hf with
  | leaf hb hk => intro _ v _; exact leaf_dumpEnds hb hk v
  | @array b comp count halt hb ho hs ih =>
    intro hm v hv
    refine step_dumpEnds hΓ ihk ihr (.array hb ho hs) hm hv ?_ ?_ (hst v hv)
    · intro b' comp' count' halt' heq l hl e he
      cases heq; subst hl
      refine ih (fun c hc => hm c (.array hc)) e ?_
      cases hv with
      | atom h _ _ _ => exact absurd rfl (h _)
      | list h => exact h e he
    · intro b' ch ld dd heq; cases heq
  | @nested b cls hb =>
    intro hm v hv
    refine step_dumpEnds hΓ ihk ihr (.nested hb) hm hv ?_ ?_ (hst v hv)
    · intro b' comp' count' halt' heq; cases heq
    · intro b' ch ld dd heq; cases heq
  | @union b choices ld dd hb hdd hc hs ih =>
    intro hm v hv
    refine step_dumpEnds hΓ ihk ihr (.union hb hdd hc hs) hm hv ?_ ?_ (hst v hv)
    · intro b' comp' count' halt' heq; cases heq
    · intro b' ch ld' dd' heq g hg
      cases heq
      exact ih g hg (fun c hc' => hm c (.field hg hc')) v hv

theorem ends (hΓ : AllFounded rank Γ) : ∀ k r, Ends rank Γ k r := by
  intro k
  induction k using Nat.strongRecOn with
  | ind k ihk =>
    intro r
    induction r using Nat.strongRecOn with
    | ind r ihr => exact general_dumpEnds hΓ ihk ihr

theorem struct_ends (hΓ : AllFounded rank Γ) {r : Nat} {d : StructDesc} (hd : Founded rank r d) (vals : Dict) :
    StructEnds Γ d vals ∧ ∀ keep, Ev fun n => NotOut (structToDict Γ n d vals keep) := by
  have hh : ∀ p ∈ vals, Ev fun n => NotOut (recursiveToDicts Γ n p.2) := by
    intro p _
    obtain ⟨k, r, h⟩ := exists_tame rank p.2
    exact recursiveToDicts_halts hΓ h
  refine ⟨founded_structEnds hd (fun p hp f hf => ⟨hh p hp, fun n w hw => ?_⟩) hh (supplied_ends hΓ hd (ends hΓ 0 r)), fun keep => ?_⟩
  · obtain ⟨k, s, h⟩ := exists_tame rank p.2
    exact ends hΓ k (r + 1) f (hd.fields f hf) (fun c hc => Nat.lt_succ_of_le (hd.mentions f hf c hc)) w
      ((recursiveToDicts_tame hΓ n h hw).mono (Nat.le_refl _) (Nat.zero_le _))
  · unfold structToDict
    have := toDictShallow_notOut hd.honest vals keep
    cases hdct : toDictShallow d vals keep with
    | error e => rw [hdct] at this; exact .of_all fun n => by simpa [NotOut] using this
    | ok dct =>
      refine (Ev.all (P := fun n (p : String × Value) => NotOut (recursiveToDicts Γ n p.2)) (l := dct) fun p hp => ?_).imp
        fun n h => mapDictE_notOut h
      obtain ⟨k, s, h⟩ := exists_tame rank p.2
      exact recursiveToDicts_halts hΓ h

theorem any_dumpEnds (hΓ : AllFounded rank Γ) {r : Nat} {d : StructDesc} (hd : Founded rank r d) {f : Field} (hf : f ∈ d.components)
    (v : Value) : DumpEnds Γ f v := by
  obtain ⟨k, s, h⟩ := exists_tame rank v
  exact ends hΓ k (max s (r + 1)) f (hd.fields f hf) (fun c hc => Nat.lt_of_lt_of_le (Nat.lt_succ_of_le (hd.mentions f hf c hc))
    (Nat.le_max_right ..)) v (h.mono (Nat.le_refl _) (Nat.le_max_left ..))

theorem any_streamEnds (hΓ : AllFounded rank Γ) {r : Nat} {d : StructDesc} (hd : Founded rank r d) {f : Field} (hf : f ∈ d.components)
    (v : Value) : StreamEnds Γ f v :=
  (hd.fields f hf).streamEnds (fun w _ => any_dumpEnds hΓ hd hf w) (any_dumpEnds hΓ hd hf v)

/-! ### `partial_dump`, `get_size`, `len`, `==` -/

theorem required_notOut {b : FieldBase} (hb : Honest b) : NotOut b.required := by
  unfold FieldBase.required
  have := hb.default
  split
  · simp
  · split
    · rename_i e he; rw [he] at this; simpa [NotOut] using this
    · simp

theorem partialDumpLoop_notOut {g : Field → Value → W} {vals : Dict} {last : Option String} {fs : List Field}
    (hb : ∀ f ∈ fs, Honest f.base)
    (h : ∀ f ∈ fs, ∀ dv, f.base.default = .ok dv → NotOut (g f ((vals.get? f.name).getD dv)).2) :
    NotOut (partialDumpLoop g vals last fs).2 := by
  induction fs with
  | nil => simp [partialDumpLoop, W.ok]
  | cons f fs ih =>
    have h2 := ih (fun f' hf' => hb f' (List.mem_cons_of_mem _ hf')) fun f' hf' => h f' (List.mem_cons_of_mem _ hf')
    have hf := hb f List.mem_cons_self
    simp only [partialDumpLoop]
    have hdef := hf.default
    split
    · rename_i e he; rw [he] at hdef; simpa [W.fail, NotOut] using hdef
    · rename_i dv hdv
      have h1 := h f List.mem_cons_self dv hdv
      have hgo : NotOut ((g f ((vals.get? f.name).getD dv)).seq fun _ =>
          if some f.name = last then W.ok [] else partialDumpLoop g vals last fs).2 := by
        simp only [W.seq]
        split
        · exact h1
        · split
          · simp [W.ok]
          · exact h2
      split
      · split
        · simp [W.ok]
        · have hr := required_notOut hf
          split
          · rename_i e he; rw [he] at hr; simpa [W.fail, NotOut] using hr
          · simp [W.fail]
          · exact hgo
      · exact hgo

theorem partialDump_ends (hΓ : AllFounded rank Γ) {r : Nat} {d : StructDesc} (hd : Founded rank r d) (vals : Dict)
    (last : Option String) (ctx : Value) : Ev fun n => NotOut (structPartialDump Γ n d vals last ctx).2 := by
  have : Ev fun n => ∀ f ∈ d.components, ∀ dv, f.base.default = .ok dv →
      NotOut (fieldToStream Γ n f ((vals.get? f.name).getD dv) ctx []).2 := by
    refine Ev.all fun f hf => ?_
    cases hdv : f.base.default with
    | error e => exact .of_all fun n dv h => by simp at h
    | ok dv => exact (any_streamEnds hΓ hd hf _ ctx []).imp fun n h dv' h' => by cases h'; exact h
  exact this.imp fun n h => partialDumpLoop_notOut hd.honest h

theorem fieldExpectedSize_ends (hΓ : AllFounded rank Γ) {r : Nat} {d : StructDesc} (hd : Founded rank r d) {f : Field}
    (hf : f ∈ d.components) (values : Dict) : Ev fun n => NotOut (fieldExpectedSize Γ n f values) := by
  refine (any_dumpEnds hΓ hd hf f.base.nullValue .none values).imp fun n h => ?_
  have ho := hd.fields f hf
  have hr : NotOut (f.base.nullReprWith (fun v => fieldDoDump Γ n f v .none values) (.error (.buggyField f.base.name))) :=
    nullReprWith_notOut (g := fun v => fieldDoDump Γ n f v .none values) h (by simp)
  have he : NotOut (containerExpectedSize f.base (fun v => fieldDoDump Γ n f v .none values) values) :=
    expectedSizeWith_notOut ho.honest (baseSizeForValue_notOut f.base) hr values
  cases f with
  | leaf b k => cases ho with | leaf hb hk => exact leafExpectedSize_notOut hb hk values
  | _ => exact he

theorem sumSizes_notOut {g : Field → Except Err Int} {fs : List Field} (h : ∀ f ∈ fs, NotOut (g f)) : NotOut (sumSizes g fs) := by
  induction fs with
  | nil => simp [sumSizes]
  | cons f fs ih =>
    have h1 := h f List.mem_cons_self
    have h2 := ih fun f' hf' => h f' (List.mem_cons_of_mem _ hf')
    simp only [sumSizes]
    split
    · rename_i e he; rw [he] at h1; exact h1
    · split
      · rename_i e he; rw [he] at h2; exact h2
      · simp

theorem getSize_ends (hΓ : AllFounded rank Γ) {r : Nat} {d : StructDesc} (hd : Founded rank r d) (values : Dict) :
    Ev fun n => NotOut (structGetSize Γ n d values) := by
  refine (Ev.all (P := fun n f => NotOut (fieldExpectedSize Γ n f values)) fun f hf => fieldExpectedSize_ends hΓ hd hf values).imp
    fun n h => ?_
  have := sumSizes_notOut h
  unfold structGetSize
  split
  · simp
  · simp
  · simp
  · rename_i e _ _ he; rw [he] at this; simpa [NotOut] using this

theorem len_ends (hΓ : AllFounded rank Γ) {r : Nat} {d : StructDesc} (hd : Founded rank r d) (vals : Dict) :
    Ev fun n => NotOut (structLen Γ n d vals) := by
  unfold structLen
  have hw := whateverPossible_notOut hd.honest vals
  cases hc : whateverPossible d vals with
  | error e => rw [hc] at hw; exact .of_all fun n => by simpa [NotOut] using hw
  | ok current =>
    refine (Ev.all (P := fun n f => NotOut (fieldLen Γ n current f)) fun f hf => ?_).imp fun n h => sumSizes_notOut h
    have h1 := computeValueForDump_notOut (hd.honest f hf) (dictView_honest current) .none
    have h2 : Ev fun n => ∀ v, f.base.computeValueForDump current.view .none = .ok v → NotOut (fieldToStream Γ n f v .none []).2 := by
      cases hv : f.base.computeValueForDump current.view .none with
      | error e => exact .of_all fun n v h => by simp at h
      | ok v => exact (any_streamEnds hΓ hd hf v .none []).imp fun n h v' h' => by cases h'; exact h
    refine ((fieldExpectedSize_ends hΓ hd hf current).and h2).imp ?_
    intro n ⟨h3, h4⟩
    unfold fieldLen
    split
    · simp
    · split
      · simp
      · rename_i e he
        split
        · split
          · rename_i e' he'; rw [he'] at h1; simpa [NotOut] using h1
          · rename_i v hv
            exact Except.map_notOut (W.toExcept_notOut (h4 v hv))
        · rw [he] at h3; exact h3

theorem eqListWith_notOut {g : Value → Value → Except Err Bool} : ∀ {x y : List Value}, (∀ a ∈ x, ∀ b ∈ y, NotOut (g a b)) →
    NotOut (eqListWith g x y)
  | [], [], _ => by simp [eqListWith]
  | [], _ :: _, _ => by simp [eqListWith]
  | _ :: _, [], _ => by simp [eqListWith]
  | a :: x, b :: y, h => by
    have h1 := h a List.mem_cons_self b List.mem_cons_self
    have h2 := eqListWith_notOut (g := g) (x := x) (y := y) fun a ha b hb => h a (List.mem_cons_of_mem _ ha) b (List.mem_cons_of_mem _ hb)
    simp only [eqListWith]
    split
    · rename_i e he; rw [he] at h1; exact h1
    · simp
    · exact h2

theorem eqDictWith_go_notOut {g : Value → Value → Except Err Bool} {y : Dict} : ∀ {x : Dict},
    (∀ p ∈ x, ∀ q ∈ y, NotOut (g p.2 q.2)) → NotOut (eqDictWith.go g y x)
  | [], _ => by simp [eqDictWith.go]
  | (k, v) :: x, h => by
    have h2 := eqDictWith_go_notOut (g := g) (y := y) (x := x) fun p hp => h p (List.mem_cons_of_mem _ hp)
    simp only [eqDictWith.go]
    split
    · simp
    · rename_i w hw
      have h1 := h (k, v) List.mem_cons_self (k, w) (mem_of_get? hw)
      split
      · rename_i e he; rw [he] at h1; exact h1
      · simp
      · exact h2

theorem eqDictWith_notOut {g : Value → Value → Except Err Bool} {x y : Dict} (h : ∀ p ∈ x, ∀ q ∈ y, NotOut (g p.2 q.2)) :
    NotOut (eqDictWith g x y) := by
  unfold eqDictWith
  split
  · simp
  · exact eqDictWith_go_notOut h

/-- Comparing two values comes to an end. -/
def EqEnds (Γ : Classes) (a b : Value) : Prop := Ev fun n => NotOut (pyEq Γ n a b)

theorem list_eqEnds {x y : List Value} (h : ∀ a ∈ x, ∀ b ∈ y, EqEnds Γ a b) : EqEnds Γ (.list x) (.list y) := by
  refine Ev.succ ((Ev.all fun a ha => Ev.all fun b hb => h a ha b hb).imp fun n h => ?_)
  simp only [pyEq]
  split
  · simp
  · exact eqListWith_notOut h

theorem dict_eqEnds {x y : Dict} (h : ∀ p ∈ x, ∀ q ∈ y, EqEnds Γ p.2 q.2) : EqEnds Γ (.dict x) (.dict y) := by
  refine Ev.succ ((Ev.all fun a ha => Ev.all fun b hb => h a ha b hb).imp fun n h => ?_)
  simp only [pyEq]
  exact eqDictWith_notOut h

theorem other_eqEnds {a b : Value} (ha : ∀ c d, a ≠ .struct c d) (hb : ∀ c d, b ≠ .struct c d)
    (hl : ¬((∃ x, a = .list x) ∧ ∃ y, b = .list y)) (hd : ¬((∃ x, a = .dict x) ∧ ∃ y, b = .dict y)) : EqEnds Γ a b := by
  refine Ev.succ (.of_all fun n => ?_)
  cases a <;> cases b <;> simp_all [pyEq]

theorem converted_eqEnds : ∀ (s : Nat) (a b : Value), sizeOf a < s → ∀ {k k'}, Tame rank k 0 a → Tame rank k' 0 b → EqEnds Γ a b := by
  intro s
  induction s with
  | zero => intro a b hs; omega
  | succ s ih =>
    intro a b hs k k' ha hb
    have hna : ∀ c d, a ≠ .struct c d := by
      rintro c d rfl
      cases ha with
      | atom _ _ _ h => exact h _ _ rfl
      | struct h _ => exact absurd h (Nat.not_lt_zero _)
    have hnb : ∀ c d, b ≠ .struct c d := by
      rintro c d rfl
      cases hb with
      | atom _ _ _ h => exact h _ _ rfl
      | struct h _ => exact absurd h (Nat.not_lt_zero _)
    by_cases hl : (∃ x, a = .list x) ∧ ∃ y, b = .list y
    · obtain ⟨⟨x, rfl⟩, y, rfl⟩ := hl
      cases ha with
      | atom h _ _ _ => exact absurd rfl (h _)
      | list ha =>
        cases hb with
        | atom h _ _ _ => exact absurd rfl (h _)
        | list hb =>
          refine list_eqEnds fun a h1 b h2 => ih a b ?_ (ha a h1) (hb b h2)
          have := List.sizeOf_lt_of_mem h1
          simp at hs; omega
    · by_cases hd : (∃ x, a = .dict x) ∧ ∃ y, b = .dict y
      · obtain ⟨⟨x, rfl⟩, y, rfl⟩ := hd
        cases ha with
        | atom _ _ h _ => exact absurd rfl (h _)
        | dict ha =>
          cases hb with
          | atom _ _ h _ => exact absurd rfl (h _)
          | dict hb =>
            refine dict_eqEnds fun p h1 q h2 => ih p.2 q.2 ?_ (ha p h1) (hb q h2)
            have := List.sizeOf_lt_of_mem h1
            obtain ⟨u, v⟩ := p
            simp at hs this ⊢; omega
      · exact other_eqEnds hna hnb hl hd

theorem lenHint_notOut {r : Except Err Int} (h : NotOut r) : NotOut (lenHint r) := by
  unfold lenHint
  split
  · split
    · simp
    · split <;> simp
  · split
    · simp
    · simpa [NotOut] using h

theorem comparableDict_ends (hΓ : AllFounded rank Γ) (c : String) (vals : Dict) : Ev fun n => NotOut (comparableDict Γ n c vals) := by
  unfold comparableDict
  cases hd : Γ c with
  | none => exact .of_all fun n => by simp
  | some d =>
    simp only
    have hF := hΓ c d hd
    have hdef : NotOut (definedDict d vals) := mapE_notOut fun k _ => Except.map_notOut (structGet_notOut hF.honest vals _ k)
    have hconv : Ev fun n => ∀ dct, definedDict d vals = .ok dct → NotOut (recursiveToDicts Γ n (.dict dct)) := by
      cases hdd : definedDict d vals with
      | error e => exact .of_all fun n dct h => by simp at h
      | ok dct =>
        obtain ⟨k, s, h⟩ := exists_tame rank (.dict dct)
        exact (recursiveToDicts_halts hΓ h).imp fun n h dct' h' => by cases h'; exact h
    refine ((len_ends hΓ hF vals).and hconv).imp ?_
    intro n ⟨h1, h2⟩
    have h1 := lenHint_notOut h1
    split
    · rename_i e he; rw [he] at h1; simpa [NotOut] using h1
    · split
      · rename_i e he; rw [he] at hdef; simpa [NotOut] using hdef
      · rename_i dct hdct; exact h2 dct hdct

theorem comparableDict_tame (hΓ : AllFounded rank Γ) {c : String} {vals : Dict} {n : Nat} {w : Value}
    (h : comparableDict Γ n c vals = .ok w) : ∃ k, Tame rank k 0 w := by
  unfold comparableDict at h
  split at h
  · simp at h
  · split at h
    · simp at h
    · split at h
      · simp at h
      · rename_i dct _
        obtain ⟨k, s, hk⟩ := exists_tame rank (.dict dct)
        exact ⟨k, recursiveToDicts_tame hΓ n hk h⟩

theorem comparableDict_le (Γ : Classes) {n m : Nat} (h : n ≤ m) (c : String) (vals : Dict) :
    ELe (comparableDict Γ n c vals) (comparableDict Γ m c vals) := by
  induction h with
  | refl => exact ELe.refl _
  | step _ ih => exact ih.trans (comparableDict_succ Γ _ c vals)

theorem comparableOther_le (Γ : Classes) {n m : Nat} (h : n ≤ m) (v : Value) :
    ELe (comparableOther Γ n v) (comparableOther Γ m v) := by
  induction h with
  | refl => exact ELe.refl _
  | step _ ih => exact ih.trans (comparableOther_succ Γ _ v)

theorem comparableOther_ends (hΓ : AllFounded rank Γ) (v : Value) : Ev fun n => NotOut (comparableOther Γ n v) := by
  cases v with
  | struct c vals => exact (comparableDict_ends hΓ c vals).imp fun n h => Except.map_notOut h
  | dict d =>
    obtain ⟨k, s, h⟩ := exists_tame rank (.dict d)
    exact (recursiveToDicts_halts hΓ h).imp fun n h => Except.map_notOut h
  | _ => exact .of_all fun n => by simp [comparableOther]

theorem comparableOther_tame (hΓ : AllFounded rank Γ) {v w : Value} {n : Nat} (h : comparableOther Γ n v = .ok (some w)) :
    ∃ k, Tame rank k 0 w := by
  cases v with
  | struct c vals =>
    simp only [comparableOther] at h
    cases hc : comparableDict Γ n c vals with
    | error e => simp [hc, Except.map] at h
    | ok x => simp [hc, Except.map] at h; subst h; exact comparableDict_tame hΓ hc
  | dict d =>
    simp only [comparableOther] at h
    cases hc : recursiveToDicts Γ n (.dict d) with
    | error e => simp [hc, Except.map] at h
    | ok x =>
      simp [hc, Except.map] at h; subst h
      obtain ⟨k, s, hk⟩ := exists_tame rank (.dict d)
      exact ⟨k, recursiveToDicts_tame hΓ n hk hc⟩
  | _ => simp [comparableOther] at h

theorem structEqWith_ends (hΓ : AllFounded rank Γ) (c : String) (vals : Dict) (other : Value) :
    Ev fun n => NotOut (structEqWith Γ n (pyEq Γ n) c vals other) := by
  unfold structEqWith
  by_cases hu : other = .undefined
  · simp only [hu, if_true]; exact .of_all fun n => by simp
  simp only [hu, if_false]
  obtain ⟨n0, h0⟩ := (comparableDict_ends hΓ c vals).and (comparableOther_ends hΓ other)
  have h1 : ∀ m, n0 ≤ m → comparableDict Γ m c vals = comparableDict Γ n0 c vals := by
    intro m hm
    rcases comparableDict_le Γ hm c vals with h | h
    · exact absurd h (h0 n0 (Nat.le_refl _)).1
    · exact h.symm
  have h2 : ∀ m, n0 ≤ m → comparableOther Γ m other = comparableOther Γ n0 other := by
    intro m hm
    rcases comparableOther_le Γ hm other with h | h
    · exact absurd h (h0 n0 (Nat.le_refl _)).2
    · exact h.symm
  have h3 := (h0 n0 (Nat.le_refl _)).1
  have h4 := (h0 n0 (Nat.le_refl _)).2
  cases hs : comparableDict Γ n0 c vals with
  | error e =>
    rw [hs] at h3
    exact ⟨n0, fun m hm => by beta_reduce; rw [h1 m hm, hs]; simpa [NotOut] using h3⟩
  | ok self =>
    cases ho : comparableOther Γ n0 other with
    | error e =>
      rw [ho] at h4
      exact ⟨n0, fun m hm => by beta_reduce; rw [h1 m hm, hs, h2 m hm, ho]; simpa [NotOut] using h4⟩
    | ok o =>
      cases o with
      | none => exact ⟨n0, fun m hm => by beta_reduce; rw [h1 m hm, hs, h2 m hm, ho]; simp⟩
      | some o =>
        obtain ⟨k, hk⟩ := comparableDict_tame hΓ hs
        obtain ⟨k', hk'⟩ := comparableOther_tame hΓ ho
        obtain ⟨n1, hn1⟩ := converted_eqEnds (Γ := Γ) _ o self (Nat.lt_succ_self _) hk' hk
        exact ⟨max n0 n1, fun m hm => by beta_reduce; rw [h1 m (by omega), hs, h2 m (by omega), ho]; exact hn1 m (by omega)⟩

theorem eq_ends (hΓ : AllFounded rank Γ) : (a b : Value) → EqEnds Γ a b := by
  have key : ∀ (s : Nat) (a b : Value), sizeOf a < s → EqEnds Γ a b := by
    intro s
    induction s with
    | zero => intro a b hs; omega
    | succ s ih =>
      intro a b hs
      by_cases hna : ∃ c d, a = .struct c d
      · obtain ⟨c, d, rfl⟩ := hna
        exact Ev.succ ((structEqWith_ends hΓ c d b).imp fun n h => by cases b <;> simpa only [pyEq] using h)
      by_cases hnb : ∃ c d, b = .struct c d
      · obtain ⟨c, d, rfl⟩ := hnb
        refine Ev.succ ((structEqWith_ends hΓ c d a).imp fun n h => ?_)
        cases a with
        | struct c' d' => exact absurd ⟨_, _, rfl⟩ hna
        | _ => simpa only [pyEq] using h
      by_cases hl : (∃ x, a = .list x) ∧ ∃ y, b = .list y
      · obtain ⟨⟨x, rfl⟩, y, rfl⟩ := hl
        refine list_eqEnds fun a h1 b h2 => ih a b ?_
        have := List.sizeOf_lt_of_mem h1
        simp at hs; omega
      · by_cases hd : (∃ x, a = .dict x) ∧ ∃ y, b = .dict y
        · obtain ⟨⟨x, rfl⟩, y, rfl⟩ := hd
          refine dict_eqEnds fun p h1 q h2 => ih p.2 q.2 ?_
          have := List.sizeOf_lt_of_mem h1
          obtain ⟨u, v⟩ := p
          simp at hs this ⊢; omega
        · exact other_eqEnds (fun c d h => hna ⟨c, d, h⟩) (fun c d h => hnb ⟨c, d, h⟩) hl hd
  exact fun a b => key _ a b (Nat.lt_succ_self _)

/-- From "not out of fuel eventually" to "always the same result eventually". -/
theorem Ev.settles {α : Type} {g : Nat → Except Err α} (h : Ev fun n => NotOut (g n)) (mono : ∀ n m, n ≤ m → ELe (g n) (g m)) :
    ∃ n out, out ≠ .error .outOfFuel ∧ ∀ m, n ≤ m → g m = out := by
  obtain ⟨n, hn⟩ := h
  refine ⟨n, g n, hn n (Nat.le_refl _), fun m hm => ?_⟩
  rcases mono n m hm with h | h
  · exact absurd h (hn n (Nat.le_refl _))
  · exact h.symm

theorem Ev.settlesW {g : Nat → W} (h : Ev fun n => NotOut (g n).2) (mono : ∀ n m, n ≤ m → WLe (g n) (g m)) :
    ∃ n out, out.2 ≠ .error .outOfFuel ∧ ∀ m, n ≤ m → g m = out := by
  obtain ⟨n, hn⟩ := h
  refine ⟨n, g n, hn n (Nat.le_refl _), fun m hm => ?_⟩
  rcases mono n m hm with h | h
  · exact absurd h (hn n (Nat.le_refl _))
  · exact h.symm

theorem partialDumpLoop_le {g g' : Field → Value → W} (hg : ∀ f v, WLe (g f v) (g' f v)) (vals : Dict) (last : Option String) :
    ∀ fs, WLe (partialDumpLoop g vals last fs) (partialDumpLoop g' vals last fs)
  | [] => WLe.refl _
  | f :: fs => by
    have ih := partialDumpLoop_le hg vals last fs
    simp only [partialDumpLoop]
    split
    · exact WLe.refl _
    · have hgo : ∀ v, WLe ((g f v).seq fun _ => if some f.name = last then W.ok [] else partialDumpLoop g vals last fs)
          ((g' f v).seq fun _ => if some f.name = last then W.ok [] else partialDumpLoop g' vals last fs) := by
        intro v
        refine W.seq_le (hg f v) ?_
        split
        · exact WLe.refl _
        · exact ih
      split
      · split
        · exact WLe.refl _
        · split
          · exact WLe.refl _
          · exact WLe.refl _
          · exact hgo _
      · exact hgo _

end Dumping

end Verif
