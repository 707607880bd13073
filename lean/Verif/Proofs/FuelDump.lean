import Verif.Proofs.Fuel

/-! # Fuel monotonicity of dumping and loading -/

namespace Verif

theorem WLe.fail {e : Err} {a : W} (h : WLe (W.fail e) a) (he : e ≠ .outOfFuel) : a = W.fail e := by
  rcases h with h | h
  · simp [W.fail] at h; exact absurd h he
  · exact h.symm

theorem nullReprWith_le {b : FieldBase} {g g' : Value → W} {e e' : Except Err Int}
    (hg : ∀ v, WLe (g v) (g' v)) (he : ELe e e') : ELe (b.nullReprWith g e) (b.nullReprWith g' e') := by
  unfold FieldBase.nullReprWith
  split
  · exact ELe.refl _
  · rcases he with h | h
    · left; rw [h]
    · rw [h]; exact ELe.refl _
  · rcases he with h | h
    · left; rw [h]
    · rw [h]; exact ELe.refl _
  · exact ELe.refl _
  · exact W.toExcept_le (hg _)

theorem expectedSizeWith_le {b : FieldBase} {sf : Value → Except Err (Option Int)} {r r' : Except Err Bytes}
    (h : ELe r r') (values : Dict) : ELe (b.expectedSizeWith sf r values) (b.expectedSizeWith sf r' values) := by
  unfold FieldBase.expectedSizeWith
  split
  · exact ELe.refl _
  · exact ELe.refl _
  · split
    · exact ELe.refl _
    · exact h.map _
    · exact ELe.refl _

theorem containerExpectedSize_le {b : FieldBase} {g g' : Value → W} (hg : ∀ v, WLe (g v) (g' v)) (values : Dict) :
    ELe (containerExpectedSize b g values) (containerExpectedSize b g' values) :=
  expectedSizeWith_le (nullReprWith_le hg (ELe.refl _)) values

theorem containerNullRepr_le {b : FieldBase} {g g' : Value → W} (hg : ∀ v, WLe (g v) (g' v)) (values : Dict) :
    ELe (containerNullRepr b g values) (containerNullRepr b g' values) :=
  nullReprWith_le hg (containerExpectedSize_le hg values)

theorem finishDump_le {b : FieldBase} {e e' : Except Err Int} {p : Bytes → Int → Except Err Bytes} (h : ELe e e')
    (s : Bytes) : WLe (finishDump b e p s) (finishDump b e' p s) := by
  unfold finishDump
  cases hs : b.size with
  | none => exact WLe.refl _
  | fixed n => exact WLe.refl _
  | ref name =>
    rcases h with h | h
    · left; simp [h, W.fail]
    · rw [h]; exact WLe.refl _

theorem toStreamWith_le {b : FieldBase} {g g' : Value → W} {r r' : Except Err Bytes} {e e' : Except Err Int}
    {p : Bytes → Int → Except Err Bytes} (hg : ∀ v, WLe (g v) (g' v)) (hr : ELe r r') (he : ELe e e') (data : Value) :
    WLe (toStreamWith b g r e p data) (toStreamWith b g' r' e' p data) := by
  unfold toStreamWith
  split
  · exact WLe.refl _
  · split
    · exact WLe.refl _
    · split
      · exact WLe.refl _
      · split
        · exact W.ofExcept_le hr
        · rename_i v _ _ _ _ _ _
          rcases W.toExcept_le (hg v) with h | h
          · left; simp [h, W.fail]
          · rw [← h]
            split
            · exact WLe.refl _
            · exact finishDump_le he _

theorem dumpAll_le {g g' : Value → W} (hg : ∀ v, WLe (g v) (g' v)) : ∀ l, WLe (dumpAll g l) (dumpAll g' l)
  | [] => WLe.refl _
  | v :: vs => W.seq_le (hg v) (dumpAll_le hg vs)

theorem dumpUnsized_le {g g' : Value → W} (hg : ∀ v, WLe (g v) (g' v)) (name : String) (ne : Option Int) :
    ∀ l k, WLe (dumpUnsized name g ne k l) (dumpUnsized name g' ne k l)
  | [], k => by simp only [dumpUnsized]; exact WLe.refl _
  | v :: vs, k => by
    simp only [dumpUnsized]
    split
    · exact WLe.refl _
    · exact W.seq_le (hg v) (dumpUnsized_le hg name ne vs (k + 1))

theorem arrayDump_le {g g' : Value → W} (hg : ∀ v, WLe (g v) (g' v)) (name : String) (c : Count) (data : Value)
    (all : Dict) : WLe (arrayDump name g c data all) (arrayDump name g' c data all) := by
  unfold arrayDump
  split
  · exact WLe.refl _
  · split
    · exact WLe.refl _
    · exact dumpUnsized_le hg _ _ _ _
    · split
      · split
        · exact WLe.refl _
        · exact dumpAll_le hg _
      · exact dumpAll_le hg _

theorem dumpFields_le {g g' : Field → Value → W} (hg : ∀ f v, WLe (g f v) (g' f v)) (all : Dict) (ctx : Value) :
    ∀ l, WLe (dumpFields g all ctx l) (dumpFields g' all ctx l)
  | [] => WLe.refl _
  | f :: fs => by
    simp only [dumpFields]
    split
    · exact WLe.refl _
    · split
      · exact dumpFields_le hg all ctx fs
      · exact W.seq_le (hg _ _) (dumpFields_le hg all ctx fs)

theorem structToStreamWith_le (Γ : Classes) (n : Nat) {g g' : Field → Value → Dict → W}
    (hg : ∀ f v a, WLe (g f v a) (g' f v a)) (d : StructDesc) (vals : Dict) (ctx : Value) :
    WLe (structToStreamWith Γ n g d vals ctx) (structToStreamWith Γ (n + 1) g' d vals ctx) := by
  unfold structToStreamWith
  split
  · exact WLe.refl _
  · rcases structToDict_succ Γ n d vals false with h | h
    · left; simp [h, W.fail]
    · rw [← h]
      split
      · exact WLe.refl _
      · exact dumpFields_le (fun f v => hg f v _) _ _ _

theorem dumpNew_le (Γ : Classes) {h h' : StructDesc → Dict → Value → W} (hh : ∀ d v c, WLe (h d v c) (h' d v c))
    (cls : String) (kwargs : Dict) (ctx : Value) : WLe (dumpNew Γ h cls kwargs ctx) (dumpNew Γ h' cls kwargs ctx) := by
  unfold dumpNew
  split
  · exact WLe.refl _
  · split
    · exact WLe.refl _
    · exact hh _ _ _

theorem containerDump_le (Γ : Classes) {g g' : Field → Value → Value → Dict → W} {h h' : StructDesc → Dict → Value → W}
    (hg : ∀ f v c a, WLe (g f v c a) (g' f v c a)) (hh : ∀ d v c, WLe (h d v c) (h' d v c)) (f : Field)
    (data ctx : Value) (all : Dict) :
    WLe (containerDump Γ g h f data ctx all) (containerDump Γ g' h' f data ctx all) := by
  unfold containerDump
  cases f with
  | leaf b k => exact WLe.refl _
  | array b comp count halt => exact arrayDump_le (fun v => hg _ _ _ _) _ _ _ _
  | nested b cls =>
    simp only
    split
    · split
      · exact WLe.refl _
      · exact hh _ _ _
    · exact dumpNew_le Γ hh _ _ _
    · exact WLe.refl _
  | union b choices ld dd =>
    simp only
    split
    · exact WLe.refl _
    · split
      · exact WLe.refl _
      · exact hg _ _ _ _
      · split
        · exact dumpNew_le Γ hh _ _ _
        · exact WLe.refl _

theorem dump_succ (Γ : Classes) (n : Nat) :
    (∀ f v ctx all, WLe (fieldToStream Γ n f v ctx all) (fieldToStream Γ (n + 1) f v ctx all)) ∧
    (∀ d vals ctx, WLe (structToStream Γ n d vals ctx) (structToStream Γ (n + 1) d vals ctx)) := by
  induction n with
  | zero =>
    constructor
    · intro f v ctx all; left; simp [fieldToStream, W.fail]
    · intro d vals ctx; left; simp [structToStream, W.fail]
  | succ n ih =>
    have hd : ∀ f v ctx all, WLe (containerDump Γ (fieldToStream Γ n) (structToStream Γ n) f v ctx all)
        (containerDump Γ (fieldToStream Γ (n + 1)) (structToStream Γ (n + 1)) f v ctx all) := fun f v ctx all =>
      containerDump_le Γ ih.1 ih.2 f v ctx all
    constructor
    · intro f v ctx all
      cases f with
      | leaf b k => simp only [fieldToStream]; exact WLe.refl _
      | _ =>
        rw [fieldToStream, fieldToStream]
        · exact toStreamWith_le (fun v => hd _ _ _ _) (containerNullRepr_le (fun v => hd _ _ _ _) _)
            (containerExpectedSize_le (fun v => hd _ _ _ _) _) _
        all_goals simp
    · intro d vals ctx
      simp only [structToStream]
      exact structToStreamWith_le Γ n (fun f v a => ih.1 _ _ _ _) d vals ctx

theorem fieldToStream_mono (Γ : Classes) {n m : Nat} (h : n ≤ m) (f : Field) (v ctx : Value) (all : Dict) :
    WLe (fieldToStream Γ n f v ctx all) (fieldToStream Γ m f v ctx all) := by
  induction h with
  | refl => exact WLe.refl _
  | step _ ih => exact ih.trans ((dump_succ Γ _).1 f v ctx all)

theorem structToStream_mono (Γ : Classes) {n m : Nat} (h : n ≤ m) (d : StructDesc) (vals : Dict) (ctx : Value) :
    WLe (structToStream Γ n d vals ctx) (structToStream Γ m d vals ctx) := by
  induction h with
  | refl => exact WLe.refl _
  | step _ ih => exact ih.trans ((dump_succ Γ _).2 d vals ctx)

theorem recursiveToDicts_mono (Γ : Classes) {n m : Nat} (h : n ≤ m) (v : Value) :
    ELe (recursiveToDicts Γ n v) (recursiveToDicts Γ m v) := by
  induction h with
  | refl => exact ELe.refl _
  | step _ ih => exact ih.trans (recursiveToDicts_succ Γ _ v)

theorem structToDict_mono (Γ : Classes) {n m : Nat} (h : n ≤ m) (d : StructDesc) (vals : Dict) (keep : Bool) :
    ELe (structToDict Γ n d vals keep) (structToDict Γ m d vals keep) := by
  induction h with
  | refl => exact ELe.refl _
  | step _ ih => exact ih.trans (structToDict_succ Γ _ d vals keep)

theorem fieldDoDump_succ (Γ : Classes) (n : Nat) (f : Field) (v ctx : Value) (all : Dict) :
    WLe (fieldDoDump Γ n f v ctx all) (fieldDoDump Γ (n + 1) f v ctx all) := by
  cases f with
  | leaf b k => exact WLe.refl _
  | _ => exact containerDump_le Γ (dump_succ Γ n).1 (dump_succ Γ n).2 _ _ _ _

theorem fieldNullRepr_succ (Γ : Classes) (n : Nat) (f : Field) (values : Dict) :
    ELe (fieldNullRepr Γ n f values) (fieldNullRepr Γ (n + 1) f values) := by
  cases f with
  | leaf b k => exact ELe.refl _
  | _ => exact containerNullRepr_le (fun v => fieldDoDump_succ Γ n _ v _ _) _

theorem fieldExpectedSize_succ (Γ : Classes) (n : Nat) (f : Field) (values : Dict) :
    ELe (fieldExpectedSize Γ n f values) (fieldExpectedSize Γ (n + 1) f values) := by
  cases f with
  | leaf b k => exact ELe.refl _
  | _ => exact containerExpectedSize_le (fun v => fieldDoDump_succ Γ n _ v _ _) _

/-! ### Loading -/

theorem sumSizes_le {g g' : Field → Except Err Int} {fs : List Field} (h : ∀ f, ELe (g f) (g' f)) :
    ELe (sumSizes g fs) (sumSizes g' fs) := by
  induction fs with
  | nil => exact ELe.refl _
  | cons f fs ih =>
    simp only [sumSizes]
    rcases h f with h1 | h1
    · left; rw [h1]
    · rw [← h1]
      cases g f with
      | error e => exact ELe.refl _
      | ok a =>
        rcases ih with h2 | h2
        · left; simp only [h2]
        · right; simp only [h2]

theorem fieldLen_succ (Γ : Classes) (n : Nat) (current : Dict) (f : Field) :
    ELe (fieldLen Γ n current f) (fieldLen Γ (n + 1) current f) := by
  unfold fieldLen
  split
  · exact ELe.refl _
  · rcases fieldExpectedSize_succ Γ n f current with h | h
    · left; rw [h]; rfl
    · rw [← h]
      cases fieldExpectedSize Γ n f current with
      | ok k => exact ELe.refl _
      | error e =>
        simp only
        split
        · cases f.base.computeValueForDump current.view .none with
          | error e => exact ELe.refl _
          | ok v => exact ELe.map (W.toExcept_le (fieldToStream_mono Γ (Nat.le_succ n) f v .none [])) _
        · exact ELe.refl _

theorem structLen_mono (Γ : Classes) {n m : Nat} (h : n ≤ m) (d : StructDesc) (vals : Dict) :
    ELe (structLen Γ n d vals) (structLen Γ m d vals) := by
  induction h with
  | refl => exact ELe.refl _
  | step _ ih =>
    refine ih.trans ?_
    unfold structLen
    split
    · exact ELe.refl _
    · exact sumSizes_le (fieldLen_succ Γ _ _)

theorem comparableDict_succ (Γ : Classes) (n : Nat) (cls : String) (vals : Dict) :
    ELe (comparableDict Γ n cls vals) (comparableDict Γ (n + 1) cls vals) := by
  unfold comparableDict
  split
  · exact ELe.refl _
  · rename_i d _
    have hl : ELe (lenHint (structLen Γ n d vals)) (lenHint (structLen Γ (n + 1) d vals)) := by
      rcases structLen_mono Γ (Nat.le_succ n) d vals with h | h
      · left; rw [h]; rfl
      · right; rw [h]
    rcases hl with h | h
    · left; rw [h]
    · rw [← h]
      split
      · exact ELe.refl _
      · split
        · exact ELe.refl _
        · exact recursiveToDicts_succ Γ n _

theorem comparableOther_succ (Γ : Classes) (n : Nat) (other : Value) :
    ELe (comparableOther Γ n other) (comparableOther Γ (n + 1) other) := by
  cases other <;> simp only [comparableOther] <;> try exact ELe.refl _
  · exact (recursiveToDicts_succ Γ n _).map _
  · exact (comparableDict_succ Γ n _ _).map _

theorem structEqWith_le (Γ : Classes) (n : Nat) {g g' : Value → Value → Except Err Bool}
    (h : ∀ a b, ELe (g a b) (g' a b)) (cls : String) (vals : Dict) (other : Value) :
    ELe (structEqWith Γ n g cls vals other) (structEqWith Γ (n + 1) g' cls vals other) := by
  unfold structEqWith
  split
  · exact ELe.refl _
  · rcases comparableDict_succ Γ n cls vals with h1 | h1
    · left; rw [h1]
    · rw [← h1]
      cases comparableDict Γ n cls vals with
      | error e => exact ELe.refl _
      | ok self =>
        rcases comparableOther_succ Γ n other with h2 | h2
        · left; simp only [h2]
        · simp only [← h2]
          cases comparableOther Γ n other with
          | error e => exact ELe.refl _
          | ok o =>
            cases o with
            | none => exact ELe.refl _
            | some o => exact h _ _

theorem pyEq_succ (Γ : Classes) (n : Nat) : ∀ a b, ELe (pyEq Γ n a b) (pyEq Γ (n + 1) a b) := by
  induction n with
  | zero => intro a b; left; rfl
  | succ n ih =>
    intro a b
    cases a <;> cases b <;> simp only [pyEq] <;>
      first
      | with_reducible exact ELe.refl _
      | exact structEqWith_le Γ n ih _ _ _
      | exact eqDictWith_le ih _ _
      | (split
         · exact ELe.refl _
         · exact eqListWith_le ih _ _)

theorem pyEq_mono (Γ : Classes) {n m : Nat} (h : n ≤ m) (a b : Value) : ELe (pyEq Γ n a b) (pyEq Γ m a b) := by
  induction h with
  | refl => exact ELe.refl _
  | step _ ih => exact ih.trans (pyEq_succ Γ _ a b)

theorem finishLoad_le {b : FieldBase} {g g' : Value → Value → Except Err Bool} (h : ∀ x y, ELe (g x y) (g' x y))
    (v : Value) : ELe (finishLoad b g v) (finishLoad b g' v) := by
  unfold finishLoad
  have h1 : ELe (if b.allowNull then g v b.nullValue else .ok false)
      (if b.allowNull then g' v b.nullValue else .ok false) := by
    split
    · exact h _ _
    · exact ELe.refl _
  rcases h1 with h1 | h1
  · left; rw [h1]
  · rw [← h1]
    split
    · exact ELe.refl _
    · rename_i isNull _
      have h2 : ∀ w : Value, ELe (if b.const ≠ .undefined then g w b.const else .ok true)
          (if b.const ≠ .undefined then g' w b.const else .ok true) := by
        intro w
        split
        · exact h _ _
        · exact ELe.refl _
      rcases h2 (if isNull then .none else v) with h2 | h2
      · left; simp only [h2]
      · simp only [← h2]; exact ELe.refl _

theorem loadAndFinish_le {b : FieldBase} {g g' : Value → Value → Except Err Bool} {l l' : Stream → R Value}
    (h : ∀ x y, ELe (g x y) (g' x y)) (hl : ∀ s, RLe (l s) (l' s)) (s : Stream) :
    RLe (loadAndFinish b g l s) (loadAndFinish b g' l' s) := by
  unfold loadAndFinish
  rcases hl s with h1 | h1
  · left
    generalize l s = x at h1
    obtain ⟨x, t⟩ := x
    simp only at h1; subst h1; rfl
  · rw [← h1]
    split
    · exact RLe.refl _
    · rename_i v t _
      rcases finishLoad_le (b := b) h v with h2 | h2
      · left; exact h2
      · right; rw [h2]

theorem fromStreamWith_le {b : FieldBase} {g g' : Value → Value → Except Err Bool} {r r' : Except Err Bytes}
    {l l' : Stream → R Value} (h : ∀ x y, ELe (g x y) (g' x y)) (hr : ELe r r') (hl : ∀ s, RLe (l s) (l' s))
    (s : Stream) (ctx : Value) (loaded : Dict) :
    RLe (fromStreamWith b g r l s ctx loaded) (fromStreamWith b g' r' l' s ctx loaded) := by
  unfold fromStreamWith
  split
  · exact RLe.refl _
  · exact RLe.refl _
  · split
    · rcases hr with hr | hr
      · left; simp [hr, Err.isUnserializable]
      · rw [← hr]
        split
        · split
          · split
            · exact RLe.refl _
            · exact loadAndFinish_le h hl s
          · exact RLe.refl _
        · split
          · exact RLe.refl _
          · split
            · exact RLe.refl _
            · exact loadAndFinish_le h hl _
    · exact loadAndFinish_le h hl s

theorem arrayLoop_le {halt : Stream → List Value → Except Err (Bool × List Value)} {l l' : Stream → R Value}
    (hl : ∀ s, RLe (l s) (l' s)) : ∀ n acc s, RLe (arrayLoop halt l n acc s) (arrayLoop halt l' (n + 1) acc s) := by
  intro n
  induction n with
  | zero =>
    intro acc s
    rw [arrayLoop.eq_def, arrayLoop.eq_def]
    simp only
    split
    · exact RLe.refl _
    · exact RLe.refl _
    · rcases hl s with h | h
      · left
        generalize l s = x at h
        obtain ⟨x, t⟩ := x
        simp only at h; subst h; rfl
      · rw [← h]
        split
        · exact RLe.refl _
        · left; rfl
  | succ n ih =>
    intro acc s
    rw [arrayLoop.eq_def, arrayLoop.eq_def]
    simp only
    split
    · exact RLe.refl _
    · exact RLe.refl _
    · rcases hl s with h | h
      · left
        generalize l s = x at h
        obtain ⟨x, t⟩ := x
        simp only at h; subst h; rfl
      · rw [← h]
        split
        · exact RLe.refl _
        · exact ih _ _

theorem R.map_le {α β : Type} {a b : R α} (h : RLe a b) (g : α → β) : RLe (R.map a g) (R.map b g) := by
  rcases h with h | h
  · left; simp [R.map, h, Except.map]
  · right; rw [h]

theorem loadStruct_le (Γ : Classes) {h h' : StructDesc → Stream → Value → R Dict}
    (hh : ∀ d s c, RLe (h d s c) (h' d s c)) (cls : String) (s : Stream) (ctx : Value) :
    RLe (loadStruct Γ h cls s ctx) (loadStruct Γ h' cls s ctx) := by
  unfold loadStruct
  split
  · exact RLe.refl _
  · exact R.map_le (hh _ _ _) _

theorem containerLoad_le (Γ : Classes) (n : Nat) {g g' k k' : Field → Stream → Value → Dict → R Value}
    {h h' : StructDesc → Stream → Value → R Dict} (hg : ∀ f s c a, RLe (g f s c a) (g' f s c a))
    (hk : ∀ f s c a, RLe (k f s c a) (k' f s c a)) (hh : ∀ d s c, RLe (h d s c) (h' d s c)) (f : Field) (s : Stream)
    (ctx : Value) (loaded : Dict) :
    RLe (containerLoad Γ n g k h f s ctx loaded) (containerLoad Γ (n + 1) g' k' h' f s ctx loaded) := by
  unfold containerLoad
  cases f with
  | leaf b k => exact RLe.refl _
  | array b comp count halt =>
    exact R.map_le (arrayLoop_le (fun s => hg comp s ctx loaded) n [] s) _
  | nested b cls => exact loadStruct_le Γ hh _ _ _
  | union b choices ld dd =>
    simp only
    split
    · exact RLe.refl _
    · split
      · exact RLe.refl _
      · exact hk _ _ _ _
      · exact loadStruct_le Γ hh _ _ _

theorem loadFields_le {g g' : Field → Stream → Dict → R Value} (hg : ∀ f s a, RLe (g f s a) (g' f s a)) :
    ∀ l r s, RLe (loadFields g l r s) (loadFields g' l r s)
  | [], _, _ => RLe.refl _
  | f :: fs, r, s => by
    simp only [loadFields]
    rcases hg f s r with h | h
    · left
      generalize g f s r = x at h
      obtain ⟨x, t⟩ := x
      simp only at h; subst h; rfl
    · rw [← h]
      split
      · exact RLe.refl _
      · exact loadFields_le hg fs _ _

theorem structFromStreamWith_le {g g' : Field → Stream → Dict → R Value} (hg : ∀ f s a, RLe (g f s a) (g' f s a))
    (d : StructDesc) (s : Stream) (kw : Dict) :
    RLe (structFromStreamWith g d s kw) (structFromStreamWith g' d s kw) := by
  unfold structFromStreamWith
  rcases loadFields_le hg d.components kw s with h | h
  · left
    generalize loadFields g d.components kw s = x at h
    obtain ⟨x, t⟩ := x
    simp only at h; subst h; rfl
  · rw [← h]; exact RLe.refl _

theorem load_succ (Γ : Classes) (n : Nat) :
    (∀ f s ctx loaded, RLe (fieldFromStream Γ n f s ctx loaded) (fieldFromStream Γ (n + 1) f s ctx loaded)) ∧
    (∀ f s ctx loaded, RLe (fieldDoLoad Γ n f s ctx loaded) (fieldDoLoad Γ (n + 1) f s ctx loaded)) ∧
    (∀ d s ctx kw, RLe (structFromStream Γ n d s ctx kw) (structFromStream Γ (n + 1) d s ctx kw)) := by
  induction n with
  | zero =>
    refine ⟨fun f s ctx l => ?_, fun f s ctx l => ?_, fun d s ctx kw => ?_⟩
    · left; simp [fieldFromStream]
    · left; simp [fieldDoLoad]
    · left; simp [structFromStream]
  | succ n ih =>
    obtain ⟨ih1, ih2, ih3⟩ := ih
    refine ⟨fun f s ctx l => ?_, fun f s ctx l => ?_, fun d s ctx kw => ?_⟩
    · rw [fieldFromStream, fieldFromStream]
      exact fromStreamWith_le (pyEq_succ Γ n) (fieldNullRepr_succ Γ n f l) (fun s => ih2 f s ctx l) s ctx l
    · cases f with
      | leaf b k => simp only [fieldDoLoad]; exact RLe.refl _
      | _ =>
        rw [fieldDoLoad, fieldDoLoad]
        · exact containerLoad_le Γ n ih1 ih2 (fun d s c => ih3 d s c []) _ _ _ _
        all_goals simp
    · rw [structFromStream, structFromStream]
      exact structFromStreamWith_le (fun f s l => ih1 f s ctx l) d s kw

theorem fieldFromStream_mono (Γ : Classes) {n m : Nat} (h : n ≤ m) (f : Field) (s : Stream) (ctx : Value)
    (loaded : Dict) : RLe (fieldFromStream Γ n f s ctx loaded) (fieldFromStream Γ m f s ctx loaded) := by
  induction h with
  | refl => exact RLe.refl _
  | step _ ih => exact ih.trans ((load_succ Γ _).1 f s ctx loaded)

theorem fieldDoLoad_mono (Γ : Classes) {n m : Nat} (h : n ≤ m) (f : Field) (s : Stream) (ctx : Value)
    (loaded : Dict) : RLe (fieldDoLoad Γ n f s ctx loaded) (fieldDoLoad Γ m f s ctx loaded) := by
  induction h with
  | refl => exact RLe.refl _
  | step _ ih => exact ih.trans ((load_succ Γ _).2.1 f s ctx loaded)

theorem structFromStream_mono (Γ : Classes) {n m : Nat} (h : n ≤ m) (d : StructDesc) (s : Stream) (ctx : Value)
    (kw : Dict) : RLe (structFromStream Γ n d s ctx kw) (structFromStream Γ m d s ctx kw) := by
  induction h with
  | refl => exact RLe.refl _
  | step _ ih => exact ih.trans ((load_succ Γ _).2.2 d s ctx kw)

end Verif
