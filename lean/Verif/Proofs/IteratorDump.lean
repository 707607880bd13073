import Verif.Proofs.Iterator

/-!
# One-shot iterators: the first dump writes what the main model says
-/

namespace Verif

open Spec

/-! ### Iterators in dictionaries -/

theorem keyedDict_iff {d : Dict} : KeyedDict d ↔ (Dict.keys d).Nodup ∧ ∀ p ∈ d, Keyed p.2 := by
  induction d with
  | nil => simp [KeyedDict, Dict.keys]
  | cons p d ih =>
    obtain ⟨k, v⟩ := p
    simp only [KeyedDict, ih, Dict.keys, List.map_cons, List.nodup_cons, List.mem_cons, forall_eq_or_imp]
    constructor
    · rintro ⟨h1, h2, h3, h4⟩; exact ⟨⟨h1, h3⟩, h2, h4⟩
    · rintro ⟨⟨h1, h3⟩, h2, h4⟩; exact ⟨h1, h2, h3, h4⟩

theorem keyedList_iff {l : List Value} : KeyedList l ↔ ∀ v ∈ l, Keyed v := by
  induction l with
  | nil => simp [KeyedList]
  | cons v l ih => simp [KeyedList, ih]

theorem mem_iteratorsDict {d : Dict} {j : List Value} : j ∈ iteratorsDict d ↔ ∃ p ∈ d, j ∈ iterators p.2 := by
  induction d with
  | nil => simp [iteratorsDict]
  | cons p d ih => obtain ⟨k, v⟩ := p; simp [iteratorsDict, ih]

theorem mem_iteratorsList {l : List Value} {j : List Value} : j ∈ iteratorsList l ↔ ∃ v ∈ l, j ∈ iterators v := by
  induction l with
  | nil => simp [iteratorsList]
  | cons v l ih => simp [iteratorsList, ih]

theorem iteratorsList_nil {l : List Value} (h : ∀ v ∈ l, iterators v = []) : iteratorsList l = [] := by
  rw [List.eq_nil_iff_forall_not_mem]
  intro j hj
  obtain ⟨v, hv, hj⟩ := mem_iteratorsList.1 hj
  rw [h v hv] at hj; cases hj

theorem get_apart {d : Dict} (hn : (iteratorsDict d).Nodup) {k k' : String} {v v' : Value} (h : Dict.get? d k = some v)
    (h' : Dict.get? d k' = some v') (hk : k ≠ k') {j : List Value} (hj : j ∈ iterators v) (hj' : j ∈ iterators v') : False := by
  induction d with
  | nil => cases h
  | cons p d ih =>
    obtain ⟨a, w⟩ := p
    simp only [iteratorsDict, List.nodup_append] at hn
    simp only [Dict.get?_cons] at h h'
    split at h
    · rename_i h1; cases h
      rw [if_neg (by intro hx; exact hk (h1.symm.trans hx))] at h'
      exact hn.2.2 j hj j (mem_iteratorsDict.2 ⟨(k', v'), Dict.get?_some_mem h', hj'⟩) rfl
    · split at h'
      · cases h'
        exact hn.2.2 j hj' j (mem_iteratorsDict.2 ⟨(k, v), Dict.get?_some_mem h, hj⟩) rfl
      · exact ih hn.2.1 h h'

theorem get_nodup {d : Dict} (hn : (iteratorsDict d).Nodup) {k : String} {v : Value} (h : Dict.get? d k = some v) :
    (iterators v).Nodup := by
  induction d with
  | nil => cases h
  | cons p d ih =>
    obtain ⟨a, w⟩ := p
    simp only [iteratorsDict, List.nodup_append] at hn
    simp only [Dict.get?_cons] at h
    split at h
    · cases h; exact hn.1
    · exact ih hn.2.1 h

theorem Spec.IterFree.apart {v : Value} (h : IterFree v) : Apart v := ⟨h.1, by rw [h.2]; exact List.nodup_nil⟩

/-- A dictionary entry of a keyed value without shared iterators is such a value itself. -/
theorem get_apart_value {d : Dict} (h : Apart (.dict d)) {k : String} {v : Value} (hv : Dict.get? d k = some v) : Apart v :=
  ⟨(keyedDict_iff.1 h.1).2 _ (Dict.get?_some_mem hv), get_nodup h.2 hv⟩

/-- `w` holds no iterators that `v` does not hold, and shares none if `v` does not. -/
def Keeps (v w : Value) : Prop :=
  Keyed w ∧ (∀ j ∈ iterators w, j ∈ iterators v) ∧ ((iterators v).Nodup → (iterators w).Nodup)

theorem Keeps.trans {u v w : Value} (h : Keeps u v) (h' : Keeps v w) : Keeps u w :=
  ⟨h'.1, fun j hj => h.2.1 j (h'.2.1 j hj), fun hn => h'.2.2 (h.2.2 hn)⟩

/-- A dictionary whose values come from another, under the same names. -/
theorem keeps_of_get {vals dct : Dict} (hv : KeyedDict vals) (hk : (Dict.keys dct).Nodup)
    (h : ∀ k v, Dict.get? dct k = some v → IterFree v ∨ Dict.get? vals k = some v) : Keeps (.dict vals) (.dict dct) := by
  have hval := (keyedDict_iff.1 hv).2
  refine ⟨keyedDict_iff.2 ⟨hk, ?_⟩, ?_, ?_⟩
  · intro p hp
    rcases h p.1 p.2 (Dict.get?_of_mem hk hp) with h1 | h1
    · exact h1.1
    · exact hval _ (Dict.get?_some_mem h1)
  · intro j hj
    obtain ⟨p, hp, hj⟩ := mem_iteratorsDict.1 hj
    rcases h p.1 p.2 (Dict.get?_of_mem hk hp) with h1 | h1
    · rw [h1.2] at hj; cases hj
    · exact mem_iteratorsDict.2 ⟨_, Dict.get?_some_mem h1, hj⟩
  · intro hn
    simp only [iterators] at hn ⊢
    clear hval
    induction dct with
    | nil => exact List.nodup_nil
    | cons p dct ih =>
      obtain ⟨a, w⟩ := p
      simp only [Dict.keys, List.map_cons, List.nodup_cons] at hk
      have hrest : ∀ k v, Dict.get? dct k = some v → Dict.get? ((a, w) :: dct) k = some v ∧ a ≠ k := by
        intro k v hkv
        have hne : a ≠ k := fun hx => hk.1 (hx ▸ Dict.get?_some_key hkv)
        exact ⟨by rw [Dict.get?_cons, if_neg hne]; exact hkv, hne⟩
      have hhead := h a w (by rw [Dict.get?_cons, if_pos rfl])
      simp only [iteratorsDict, List.nodup_append]
      refine ⟨?_, ih hk.2 fun k v hkv => h k v (hrest k v hkv).1, ?_⟩
      · rcases hhead with h1 | h1
        · rw [h1.2]; exact List.nodup_nil
        · exact get_nodup hn h1
      · intro j hj j' hj' hjj
        subst hjj
        obtain ⟨q, hq, hjq⟩ := mem_iteratorsDict.1 hj'
        have hq' := Dict.get?_of_mem hk.2 hq
        obtain ⟨hq1, hq2⟩ := hrest _ _ hq'
        rcases hhead with h1 | h1
        · rw [h1.2] at hj; cases hj
        · rcases h _ _ hq1 with h2 | h2
          · rw [h2.2] at hjq; cases hjq
          · exact get_apart hn h1 h2 hq2 hj hjq

theorem view_source {dct : Dict} {k : String} {v : Value} (h : (Dict.view dct).get k = .ok v) : Dict.get? dct k = some v := by
  simp only [Dict.view] at h
  split at h
  · rename_i w hw; cases h; exact hw
  · cases h

theorem structGet_source {d : StructDesc} (hd : BlindClass d) {vals : Dict} {n : Nat} {name : String} {v : Value}
    (h : structGet d vals n name = .ok v) : IterFree v ∨ Dict.get? vals name = some v := by
  induction n generalizing name v with
  | zero => cases h
  | succ n ih =>
    simp only [structGet] at h
    split at h
    · cases h
    · rename_i f hf
      split at h
      · rename_i w hw; cases h; exact Or.inr hw
      · rename_i hnone
        rcases computeValueForDump_source (hd.fields f (find?_some hf).1).base h with h1 | ⟨-, h1⟩
        · exact Or.inl h1
        · have hname : f.base.name = name := (find?_some hf).2
          rw [hname] at h1
          exact ih h1

theorem structView_source {d : StructDesc} (hd : BlindClass d) {vals : Dict} {f : Field} (hf : f ∈ d.components) {ctx v : Value}
    (h : f.base.computeValueForDump (structView d vals) ctx = .ok v) : IterFree v ∨ Dict.get? vals f.name = some v := by
  rcases computeValueForDump_source (hd.fields f hf).base h with h1 | ⟨-, h1⟩
  · exact Or.inl h1
  · exact structGet_source hd h1

theorem whateverPossible_keeps {d : StructDesc} (hd : BlindClass d) {vals dct : Dict} (hv : KeyedDict vals)
    (h : whateverPossible d vals = .ok dct) :
    (Dict.keys dct).Nodup ∧ ∀ k v, Dict.get? dct k = some v → IterFree v ∨ Dict.get? vals k = some v := by
  unfold whateverPossible at h
  split at h
  · cases h
  · rename_i raw hraw
    simp only at h
    obtain ⟨h1, h2, h3⟩ := whateverLoop_ok hd.unique hraw
    obtain ⟨h4, h5, h6⟩ := chainLoop_ok h
    have hrawn : (Dict.keys raw).Nodup := h3 (by simp [Dict.keys])
    refine ⟨?_, ?_⟩
    · rw [h4, List.nodup_append]
      refine ⟨definedKeys_nodup (keyedDict_iff.1 hv).1, hrawn.filter _, ?_⟩
      intro a ha b hb hab
      subst hab
      rw [List.mem_filter] at hb
      simp [ha] at hb
    · intro k v hkv
      have hk : k ∈ Dict.keys dct := Dict.get?_some_key hkv
      rw [h4] at hk
      obtain ⟨w, hw, h7⟩ := h6 k hk
      rw [hkv] at hw; cases hw
      rcases h7 with h7 | ⟨-, h7⟩
      · by_cases hkn : k ∈ d.components.map Field.name
        · obtain ⟨f, hf, rfl⟩ := List.mem_map.1 hkn
          rcases h2 f hf with ⟨u, hu, hg⟩ | ⟨e, -, -, hg⟩
          · rw [hg] at h7; cases h7
            exact structView_source hd hf hu
          · rw [hg, Dict.get?_nil] at h7; cases h7
        · rw [h1 k hkn, Dict.get?_nil] at h7; cases h7
      · exact structGet_source hd h7

theorem missingLoop_source {dct more : Dict} {fs : List Field} (hfs : ∀ f ∈ fs, BlindField f)
    (h : missingLoop dct fs = .ok more) {k : String} {v : Value} (hkv : Dict.get? more k = some v) :
    IterFree v ∨ Dict.get? dct k = some v := by
  induction fs generalizing more with
  | nil => simp only [missingLoop, Except.ok.injEq] at h; subst h; cases hkv
  | cons f fs ih =>
    have ih := fun {more} => @ih more fun g hg => hfs g (List.mem_cons_of_mem _ hg)
    simp only [missingLoop] at h
    split at h
    · exact ih h hkv
    · split at h
      · cases h
      · rename_i w hw
        split at h
        · cases h
        · rename_i r hr
          cases h
          rw [Dict.get?_cons] at hkv
          split at hkv
          · rename_i hk; cases hkv
            rcases computeValueForDump_source (hfs f (List.mem_cons_self ..)).base hw with h1 | ⟨-, h1⟩
            · exact Or.inl h1
            · right; rw [← hk]; exact view_source h1
          · exact ih hr hkv

theorem toDictShallow_keeps {d : StructDesc} (hd : BlindClass d) {vals dct : Dict} {keep : Bool} (hv : KeyedDict vals)
    (h : toDictShallow d vals keep = .ok dct) : Keeps (.dict vals) (.dict dct) := by
  unfold toDictShallow at h
  split at h
  · cases h
  · rename_i raw hraw
    split at h
    · cases h
    · rename_i more hmore
      obtain ⟨h1, h2⟩ := whateverPossible_keeps hd hv hraw
      have hm := (missingLoop_ok hd.unique hmore).1
      have h3 : ∀ k v, Dict.get? (raw.update more) k = some v → IterFree v ∨ Dict.get? vals k = some v := by
        intro k v hkv
        rw [Dict.get?_update _ _ _ hm] at hkv
        cases hmk : Dict.get? more k with
        | none => rw [hmk] at hkv; exact h2 k v hkv
        | some w =>
          rw [hmk] at hkv; cases hkv
          rcases missingLoop_source hd.fields hmore hmk with h4 | h4
          · exact Or.inl h4
          · exact h2 k _ h4
      cases keep with
      | true => cases h; exact keeps_of_get hv (Dict.nodup_update _ h1) h3
      | false =>
        simp only [Bool.false_eq_true, if_false, Except.ok.injEq] at h
        subst h
        refine keeps_of_get hv (Dict.nodup_foldl_erase Field.name _ (Dict.nodup_update _ h1)) ?_
        intro k v hkv
        rw [Dict.get?_foldl_erase Field.name] at hkv
        split at hkv
        · cases hkv
        · exact h3 k v hkv

theorem mapE_keeps {g : Value → Except Err Value} {l r : List Value} (hg : ∀ v w, g v = .ok w → Keyed v → Keeps v w)
    (hl : KeyedList l) (h : mapE g l = .ok r) : Keeps (.list l) (.list r) := by
  induction l generalizing r with
  | nil => cases h; exact ⟨trivial, fun _ h => h, fun h => h⟩
  | cons v l ih =>
    simp only [mapE] at h
    split at h
    · cases h
    · rename_i w hw
      split at h
      · cases h
      · rename_i r' hr
        cases h
        obtain ⟨i1, i2, i3⟩ := ih hl.2 hr
        obtain ⟨g1, g2, g3⟩ := hg v w hw hl.1
        refine ⟨⟨g1, i1⟩, ?_, ?_⟩
        · intro j hj
          simp only [iterators, iteratorsList, List.mem_append] at hj ⊢
          exact hj.imp (g2 j) (i2 j)
        · intro hn
          simp only [iterators, iteratorsList, List.nodup_append] at hn ⊢
          exact ⟨g3 hn.1, i3 hn.2.1, fun a ha b hb => hn.2.2 a (g2 a ha) b (i2 b hb)⟩

theorem mapDictE_keeps {g : Value → Except Err Value} {d r : Dict} (hg : ∀ v w, g v = .ok w → Keyed v → Keeps v w)
    (hl : KeyedDict d) (h : mapDictE g d = .ok r) : Keeps (.dict d) (.dict r) ∧ Dict.keys r = Dict.keys d := by
  unfold mapDictE at h
  induction d generalizing r with
  | nil => cases h; exact ⟨⟨trivial, fun _ h => h, fun h => h⟩, rfl⟩
  | cons p d ih =>
    obtain ⟨k, v⟩ := p
    simp only [mapE] at h
    split at h
    · cases h
    · rename_i q hq
      split at h
      · cases h
      · rename_i r' hr
        cases h
        obtain ⟨⟨i1, i2, i3⟩, i4⟩ := ih hl.2.2 hr
        cases hw : g v with
        | error e => rw [hw] at hq; cases hq
        | ok w =>
          rw [hw] at hq; cases hq
          obtain ⟨g1, g2, g3⟩ := hg v w hw hl.2.1
          refine ⟨⟨⟨by rw [i4]; exact hl.1, g1, i1⟩, ?_, ?_⟩, by simp only [Dict.keys, List.map_cons] at i4 ⊢; rw [i4]⟩
          · intro j hj
            simp only [iterators, iteratorsDict, List.mem_append] at hj ⊢
            exact hj.imp (g2 j) (i2 j)
          · intro hn
            simp only [iterators, iteratorsDict, List.nodup_append] at hn ⊢
            exact ⟨g3 hn.1, i3 hn.2.1, fun a ha b hb => hn.2.2 a (g2 a ha) b (i2 b hb)⟩

theorem recursiveToDicts_keeps {Γ : Classes} (hΓ : ∀ c d, Γ c = some d → BlindClass d) {n : Nat} {v w : Value}
    (h : recursiveToDicts Γ n v = .ok w) (hv : Keyed v) : Keeps v w := by
  induction n generalizing v w with
  | zero => cases h
  | succ n ih =>
    have hrefl : ∀ u, Keyed u → Keeps u u := fun u hu => ⟨hu, fun _ h => h, fun h => h⟩
    cases v with
    | list l =>
      simp only [recursiveToDicts] at h
      obtain ⟨r, hr, rfl⟩ := Except.map_ok h
      exact mapE_keeps (fun _ _ => ih) hv hr
    | dict d =>
      simp only [recursiveToDicts] at h
      obtain ⟨r, hr, rfl⟩ := Except.map_ok h
      exact (mapDictE_keeps (fun _ _ => ih) hv hr).1
    | struct c d =>
      simp only [recursiveToDicts] at h
      split at h
      · cases h
      · rename_i dd hc
        split at h
        · cases h
        · rename_i dct hdct
          obtain ⟨r, hr, rfl⟩ := Except.map_ok h
          have h1 := toDictShallow_keeps (hΓ c dd hc) (keep := false) hv hdct
          have h2 := (mapDictE_keeps (fun _ _ => ih) h1.1 hr).1
          exact h1.trans h2
    | _ => cases h; exact hrefl _ hv

theorem structToDict_keeps {Γ : Classes} (hΓ : ∀ c d, Γ c = some d → BlindClass d) {n : Nat} {d : StructDesc}
    (hd : BlindClass d) {vals all : Dict} {keep : Bool} (hv : KeyedDict vals) (h : structToDict Γ n d vals keep = .ok all) :
    Keeps (.dict vals) (.dict all) := by
  unfold structToDict at h
  split at h
  · cases h
  · rename_i dct hdct
    have h1 := toDictShallow_keeps hd hv hdct
    exact h1.trans (mapDictE_keeps (fun _ _ => recursiveToDicts_keeps hΓ) h1.1 h).1

/-! ### Fields without children do not look into iterators -/

theorem leafSizeForValue_fill {σ : Its} {b : FieldBase} {k : Leaf} (hk : BlindLeaf k) (v : Value) :
    leafSizeForValue b k (fill σ v) = leafSizeForValue b k v := by
  cases k with
  | custom ops =>
    have h := (hk ops rfl).2
    simp only [leafSizeForValue]
    cases ho : ops.sizeFor with
    | none => rfl
    | some g => exact h g ho σ v
  | _ => cases v <;> rfl

theorem leafDump_fill {σ τ : Its} {b : FieldBase} {k : Leaf} (hk : BlindLeaf k) (e : Except Err Int) (v ctx : Value) (all : Dict) :
    leafDump b k e (fill σ v) ctx (fillDict τ all) = leafDump b k e v ctx all := by
  cases k with
  | custom ops => exact (hk ops rfl).1 σ τ v ctx all
  | _ => cases v <;> rfl

theorem nullReprWith_eq {b : FieldBase} {g g' : Value → W} {e e' : Except Err Int} (h : g b.nullValue = g' b.nullValue)
    (he : e = e') : b.nullReprWith g e = b.nullReprWith g' e' := by
  subst he
  unfold FieldBase.nullReprWith
  split <;> first | rfl | skip
  rw [h]

theorem sizeFromRef_fill (τ : Its) (all : Dict) (name : String) : sizeFromRef (fillDict τ all) name = sizeFromRef all name := by
  unfold sizeFromRef
  rw [get?_fillDict]
  cases Dict.get? all name with
  | none => rfl
  | some v => cases v <;> rfl

theorem sizingValue_fill {τ : Its} {b : FieldBase} (hb : BlindBase b) (all : Dict) :
    b.sizingValue (fillDict τ all) = (b.sizingValue all).map (fill τ) := by
  unfold FieldBase.sizingValue
  rw [get?_fillDict]
  cases Dict.get? all b.name with
  | some v => rfl
  | none =>
    simp only [Option.map_none]
    cases hd : b.default with
    | error e => rfl
    | ok v =>
      simp only
      split
      · rfl
      · simp only [Except.map, fill_iterFree (hb.default v hd).2]

theorem expectedSizeWith_fill {τ : Its} {b : FieldBase} (hb : BlindBase b) {sf : Value → Except Err (Option Int)}
    (hs : ∀ σ v, sf (fill σ v) = sf v) {nr nr' : Except Err Bytes} (hn : nr = nr') (all : Dict) :
    b.expectedSizeWith sf nr (fillDict τ all) = b.expectedSizeWith sf nr' all := by
  subst hn
  unfold FieldBase.expectedSizeWith
  cases b.size with
  | fixed n => rfl
  | ref name => exact sizeFromRef_fill τ all name
  | none =>
    simp only [sizingValue_fill hb]
    cases b.sizingValue all with
    | error e => rfl
    | ok v =>
      have hs' := hs τ v
      cases v <;> simp only [Except.map, fill] at hs' ⊢ <;> simp only [hs']

theorem leafExpectedSize_fill {τ : Its} {b : FieldBase} {k : Leaf} (hb : BlindBase b) (hk : BlindLeaf k) (all : Dict) :
    leafExpectedSize b k (fillDict τ all) = leafExpectedSize b k all := by
  unfold leafExpectedSize
  refine expectedSizeWith_fill hb (fun σ v => leafSizeForValue_fill hk v) (nullReprWith_eq ?_ rfl) all
  have := leafDump_fill (σ := id) (τ := τ) (b := b) hk (.error (.buggyField b.name)) b.nullValue .none all
  rw [fill_id] at this
  exact this

theorem leafNullRepr_fill {τ : Its} {b : FieldBase} {k : Leaf} (hb : BlindBase b) (hk : BlindLeaf k) (all : Dict) :
    leafNullRepr b k (fillDict τ all) = leafNullRepr b k all := by
  unfold leafNullRepr
  refine nullReprWith_eq ?_ (leafExpectedSize_fill hb hk all)
  have := leafDump_fill (σ := id) (τ := τ) (b := b) hk (leafExpectedSize b k all) b.nullValue .none all
  rw [fill_id] at this
  rw [leafExpectedSize_fill hb hk]
  exact this

theorem toStreamWith_fill {σ : Its} {b : FieldBase} (hb : BlindBase b) {g g' : Value → W} (hg : ∀ σ v, g (fill σ v) = g' v)
    {nr nr' : Except Err Bytes} (hn : nr = nr') {e e' : Except Err Int} (he : e = e') (pad : Bytes → Int → Except Err Bytes)
    (v : Value) : toStreamWith b g nr e pad (fill σ v) = toStreamWith b g' nr' e' pad v := by
  subst hn he
  unfold toStreamWith
  have key : ∀ u : Value, (if fill σ u = .undefined ∨ fill σ u = .dflt then W.fail (.missingRequired b.name)
      else match runValidators b.validators (fill σ u) with
        | .error e => W.fail e
        | .ok _ =>
          if fill σ u = .none then W.ofExcept nr
          else match (g (fill σ u)).toExcept with
            | .error e => W.fail e
            | .ok serialized => finishDump b e pad serialized) =
      (if u = .undefined ∨ u = .dflt then W.fail (.missingRequired b.name)
      else match runValidators b.validators u with
        | .error e => W.fail e
        | .ok _ =>
          if u = .none then W.ofExcept nr
          else match (g' u).toExcept with
            | .error e => W.fail e
            | .ok serialized => finishDump b e pad serialized) := by
    intro u
    simp only [fill_undefined, fill_dflt, fill_none, runValidators_fill hb.validators, hg]
  by_cases hv : v = .dflt
  · subst hv
    simp only [fill, if_true]
    cases hd : b.default with
    | error e => rfl
    | ok u =>
      have := key u
      simp only [fill_iterFree (hb.default u hd).2] at this
      exact this
  · simp only [if_neg (show ¬ fill σ v = .dflt from fun h => hv (fill_dflt.1 h)), if_neg hv]
    exact key v

theorem leaf_fill {Γ : Classes} {n : Nat} {σ τ : Its} {b : FieldBase} {k : Leaf} (hb : BlindBase b) (hk : BlindLeaf k)
    (v ctx : Value) (all : Dict) :
    fieldToStream Γ (n + 1) (.leaf b k) (fill σ v) ctx (fillDict τ all) = fieldToStream Γ (n + 1) (.leaf b k) v ctx all := by
  simp only [fieldToStream]
  refine toStreamWith_fill hb (fun σ v => ?_) (leafNullRepr_fill hb hk all) (leafExpectedSize_fill hb hk all) _ v
  rw [leafExpectedSize_fill hb hk, leafDump_fill hk]

/-! ### Refinement -/

theorem Spec.Advanced.refl (ks : List (List Value)) (σ : Its) : Advanced ks σ σ := ⟨fun _ _ => rfl, fun _ => List.suffix_refl _⟩

theorem Spec.Advanced.trans {ks ks' : List (List Value)} {σ σ' σ'' : Its} (h : Advanced ks σ σ') (h' : Advanced ks' σ' σ'') :
    Advanced (ks ++ ks') σ σ'' := by
  refine ⟨fun k hk => ?_, fun k => (h'.2 k).trans (h.2 k)⟩
  rw [List.mem_append, not_or] at hk
  rw [h'.1 k hk.2, h.1 k hk.1]

theorem Spec.Advanced.mono {ks ks' : List (List Value)} {σ σ' : Its} (h : Advanced ks σ σ') (hs : ∀ k ∈ ks, k ∈ ks') :
    Advanced ks' σ σ' := ⟨fun k hk => h.1 k fun hx => hk (hs k hx), h.2⟩

theorem Spec.Advanced.nil {σ σ' : Its} (h : Advanced [] σ σ') : σ' = σ := funext fun k => h.1 k List.not_mem_nil

theorem Spec.Advanced.fresh {ks : List (List Value)} {σ σ' : Its} (h : Advanced ks σ σ') (hσ : Fresh σ) : Fresh σ' :=
  fun k v hv => hσ k v ((h.2 k).subset hv)

/-- The operation wrote what the main model says, and advanced only the iterators in `ks`. -/
def Refines (a : WS) (w : W) (ks : List (List Value)) (σ : Its) : Prop := a.1 = w ∧ Advanced ks σ a.2

theorem Refines.still (w : W) (ks : List (List Value)) (σ : Its) : Refines (w, σ) w ks σ := ⟨rfl, Advanced.refl ks σ⟩

theorem Refines.mono {a : WS} {w : W} {ks ks' : List (List Value)} {σ : Its} (h : Refines a w ks σ)
    (hs : ∀ k ∈ ks, k ∈ ks') : Refines a w ks' σ := ⟨h.1, h.2.mono hs⟩

theorem Refines.seq {a : WS} {w w' : W} {ks ks' : List (List Value)} {σ : Its} {b : Its → WS} (h : Refines a w ks σ)
    (h' : Refines (b a.2) w' ks' a.2) : Refines (a.seq b) (w.seq fun _ => w') (ks ++ ks') σ := by
  obtain ⟨rfl, h2⟩ := h
  obtain ⟨rfl, h3⟩ := h'
  unfold WS.seq W.seq
  cases hx : a.1.2 with
  | error e => exact ⟨rfl, h2.mono fun k hk => List.mem_append_left _ hk⟩
  | ok _ => exact ⟨rfl, h2.trans h3⟩

theorem dumpAllS_refines {ts : Value → Its → WS} {ts' : Value → W}
    (hts : ∀ v σ, Apart v → Fresh σ → Refines (ts v σ) (ts' (fill σ v)) (iterators v) σ) {l : List Value} {σ : Its}
    (hl : Apart (.list l)) (hσ : Fresh σ) :
    Refines (dumpAllS ts l σ) (dumpAll ts' (fillList σ l)) (iteratorsList l) σ := by
  induction l generalizing σ with
  | nil => exact Refines.still _ _ _
  | cons v l ih =>
    obtain ⟨h1, h2⟩ := hl
    simp only [iterators, iteratorsList, List.nodup_append] at h2
    have hv := hts v σ ⟨h1.1, h2.1⟩ hσ
    simp only [dumpAllS, dumpAll, fillList, iteratorsList]
    refine hv.seq ?_
    have := ih (σ := (ts v σ).2) ⟨h1.2, h2.2.1⟩ (hv.2.fresh hσ)
    rw [fillList_congr l (τ := σ)] at this
    · exact this
    · intro k hk
      exact hv.2.1 k fun hx => h2.2.2 k hx k hk rfl

theorem put_self {σ : Its} {k l : List Value} : (σ.put k l) k = l := by simp [Its.put]

theorem put_advanced {σ : Its} {k l : List Value} {v : Value} (h : σ k = v :: l) : Advanced [k] σ (σ.put k l) := by
  refine ⟨fun j hj => ?_, fun j => ?_⟩
  · rw [List.mem_singleton] at hj; simp [Its.put, hj]
  · by_cases hj : j = k
    · subst hj; rw [put_self, h]; exact List.suffix_cons v l
    · simp [Its.put, hj]

theorem drainS_refines {name : String} {ts : Value → Its → WS} {ts' : Value → W} {nElems : Option Int} {k : List Value}
    (hts : ∀ v σ, Apart v → Fresh σ → Refines (ts v σ) (ts' (fill σ v)) (iterators v) σ) {fuel nWritten : Nat} {σ : Its}
    (hf : (σ k).length < fuel) (hσ : Fresh σ) :
    Refines (drainS name ts nElems k fuel nWritten σ) (dumpUnsized name ts' nElems nWritten (σ k)) [k] σ := by
  induction fuel generalizing nWritten σ with
  | zero => omega
  | succ fuel ih =>
    simp only [drainS]
    cases hk : σ k with
    | nil =>
      simp only [dumpUnsized]
      cases nElems with
      | none => exact Refines.still _ _ _
      | some m =>
        simp only
        split <;> exact Refines.still _ _ _
    | cons v vs =>
      simp only [dumpUnsized]
      have hput := put_advanced hk
      split
      · exact ⟨rfl, hput⟩
      · have hvf : IterFree v := hσ k v (by rw [hk]; exact List.mem_cons_self ..)
        have hv := hts v (σ.put k vs) hvf.apart (hput.fresh hσ)
        rw [fill_iterFree hvf.2, hvf.2] at hv
        have hst : (ts v (σ.put k vs)).2 = σ.put k vs := hv.2.nil
        have hrest := ih (nWritten := nWritten + 1) (σ := σ.put k vs) (by rw [put_self]; rw [hk] at hf; simpa using hf)
          (hput.fresh hσ)
        rw [put_self] at hrest
        have := Refines.seq hv (b := drainS name ts nElems k fuel (nWritten + 1)) (by rw [hst]; exact hrest)
        refine ⟨this.1, ?_⟩
        have h2 := hput.trans this.2
        exact h2.mono (by simp)

theorem finalElementCount_fill (τ : Its) (count : Count) (all : Dict) :
    finalElementCount count (fillDict τ all) = finalElementCount count all := by
  unfold finalElementCount
  cases count with
  | ref name =>
    simp only [get?_fillDict]
    split
    · rfl
    · cases Dict.get? all name with
      | none => rfl
      | some v => cases v <;> rfl
  | _ => rfl

theorem length_fillList (σ : Its) (l : List Value) : (fillList σ l).length = l.length := by
  induction l with
  | nil => rfl
  | cons v l ih => simp [fillList, ih]

theorem keyedList_iterFree {l : List Value} (h : ∀ v ∈ l, IterFree v) : IterFree (.list l) :=
  ⟨keyedList_iff.2 fun v hv => (h v hv).1, iteratorsList_nil fun v hv => (h v hv).2⟩

theorem arrayElements_fill (σ : Its) {data : Value} (hi : ∀ k, data ≠ .iter k) (hd : Apart data) :
    (arrayElements data = none ∧ arrayElements (fill σ data) = none) ∨
    ∃ l, arrayElements data = some (true, l) ∧ arrayElements (fill σ data) = some (true, fillList σ l) ∧ Apart (.list l) ∧
      ∀ k ∈ iteratorsList l, k ∈ iterators data := by
  have fresh : ∀ l : List Value, (∀ v ∈ l, IterFree v) → fillList σ l = l ∧ Apart (.list l) ∧ iteratorsList l = [] := by
    intro l hl
    have h := keyedList_iterFree hl
    have h2 := fill_iterFree (σ := σ) h.2
    simp only [fill, Value.list.injEq] at h2
    exact ⟨h2, h.apart, h.2⟩
  cases data with
  | list l => exact Or.inr ⟨l, rfl, rfl, hd, fun _ h => h⟩
  | iter k => exact absurd rfl (hi k)
  | bytes b =>
    obtain ⟨h1, h2, h3⟩ := fresh (b.map fun x => .int x.toNat) (by
      intro v hv; obtain ⟨x, -, rfl⟩ := List.mem_map.1 hv; exact ⟨trivial, rfl⟩)
    exact Or.inr ⟨_, rfl, by rw [h1]; rfl, h2, by rw [h3]; simp⟩
  | str s =>
    obtain ⟨h1, h2, h3⟩ := fresh (s.map fun c => .str [c]) (by
      intro v hv; obtain ⟨x, -, rfl⟩ := List.mem_map.1 hv; exact ⟨trivial, rfl⟩)
    exact Or.inr ⟨_, rfl, by rw [h1]; rfl, h2, by rw [h3]; simp⟩
  | dict d =>
    obtain ⟨h1, h2, h3⟩ := fresh ((Dict.keys d).map fun k => .str (k.toList.map Char.toNat)) (by
      intro v hv; obtain ⟨x, -, rfl⟩ := List.mem_map.1 hv; exact ⟨trivial, rfl⟩)
    exact Or.inr ⟨_, rfl, by rw [h1]; simp only [fill, arrayElements, keys_fillDict], h2, by rw [h3]; simp⟩
  | _ => exact Or.inl ⟨rfl, rfl⟩

theorem arrayDumpS_refines {name : String} {ts : Value → Its → WS} {ts' : Value → W} {count : Count}
    (hts : ∀ v σ, Apart v → Fresh σ → Refines (ts v σ) (ts' (fill σ v)) (iterators v) σ) {data : Value} {all : Dict} {σ τ : Its}
    (hd : Apart data) (hσ : Fresh σ) :
    Refines (arrayDumpS name ts count data all σ) (arrayDump name ts' count (fill σ data) (fillDict τ all)) (iterators data) σ := by
  unfold arrayDumpS arrayDump
  rw [finalElementCount_fill]
  cases finalElementCount count all with
  | error e => exact Refines.still _ _ _
  | ok nElems =>
    by_cases hi : ∃ k, data = .iter k
    · obtain ⟨k, rfl⟩ := hi
      exact drainS_refines hts (by omega) hσ
    · have hne : ∀ k, data ≠ .iter k := fun k hk => hi ⟨k, hk⟩
      have hl : ∀ x : WS, x = (match arrayElements data with
          | none => (W.fail .typeErr, σ)
          | some (_, elems) =>
            match nElems with
            | some n =>
              if (elems.length : Int) ≠ n then (W.fail (.arraySize name n elems.length), σ) else dumpAllS ts elems σ
            | none => dumpAllS ts elems σ) →
          Refines x (match arrayElements (fill σ data) with
            | none => W.fail .typeErr
            | some (false, elems) => dumpUnsized name ts' nElems 0 elems
            | some (true, elems) =>
              match nElems with
              | some n =>
                if (elems.length : Int) ≠ n then W.fail (.arraySize name n elems.length) else dumpAll ts' elems
              | none => dumpAll ts' elems) (iterators data) σ := by
        rintro x rfl
        rcases arrayElements_fill σ hne hd with ⟨h1, h2⟩ | ⟨l, h1, h2, h3, h4⟩
        · rw [h1, h2]; exact Refines.still _ _ _
        · rw [h1, h2]
          have := (dumpAllS_refines hts h3 hσ).mono h4
          cases nElems with
          | none => exact this
          | some m =>
            simp only [length_fillList]
            split
            · exact Refines.still _ _ _
            · exact this
      cases data with
      | iter k => exact absurd rfl (hne k)
      | _ => exact hl _ rfl

theorem toStreamWithS_refines {b : FieldBase} (hb : BlindBase b) {g : Value → Its → WS} {g' : Value → W} {σ : Its}
    (hg : ∀ v, Apart v → Refines (g v σ) (g' (fill σ v)) (iterators v) σ)
    {nr nr' : Except Err Bytes} (hn : nr = nr') {e e' : Except Err Int} (he : e = e') (pad : Bytes → Int → Except Err Bytes)
    {v : Value} (hv : Apart v) :
    Refines (toStreamWithS b g nr e pad v σ) (toStreamWith b g' nr' e' pad (fill σ v)) (iterators v) σ := by
  subst hn he
  unfold toStreamWithS toStreamWith
  have key : ∀ u : Value, Apart u → Refines
      (if u = .undefined ∨ u = .dflt then (W.fail (.missingRequired b.name), σ)
      else match runValidators b.validators u with
        | .error e => (W.fail e, σ)
        | .ok _ =>
          if u = .none then (W.ofExcept nr, σ)
          else match (g u σ).1.toExcept with
            | .error e => (W.fail e, (g u σ).2)
            | .ok serialized => (finishDump b e pad serialized, (g u σ).2))
      (if fill σ u = .undefined ∨ fill σ u = .dflt then W.fail (.missingRequired b.name)
      else match runValidators b.validators (fill σ u) with
        | .error e => W.fail e
        | .ok _ =>
          if fill σ u = .none then W.ofExcept nr
          else match (g' (fill σ u)).toExcept with
            | .error e => W.fail e
            | .ok serialized => finishDump b e pad serialized) (iterators u) σ := by
    intro u hu
    simp only [fill_undefined, fill_dflt, fill_none, runValidators_fill hb.validators]
    split
    · exact Refines.still _ _ _
    · cases runValidators b.validators u with
      | error e => exact Refines.still _ _ _
      | ok _ =>
        simp only
        split
        · exact Refines.still _ _ _
        · obtain ⟨h1, h2⟩ := hg u hu
          rw [← h1]
          cases (g u σ).1.toExcept with
          | error e => exact ⟨rfl, h2⟩
          | ok s => exact ⟨rfl, h2⟩
  by_cases hv' : v = .dflt
  · subst hv'
    simp only [fill, if_true]
    cases hd : b.default with
    | error e => exact Refines.still _ _ _
    | ok u =>
      have := key u (hb.default u hd).apart
      simp only [fill_iterFree (hb.default u hd).2, (hb.default u hd).2] at this
      exact this
  · simp only [if_neg (show ¬ fill σ v = .dflt from fun h => hv' (fill_dflt.1 h)), if_neg hv']
    exact key v hv

/-- The statement for fields, with a given amount of fuel. -/
def FieldRefines (Γ : Classes) (n : Nat) : Prop :=
  ∀ (f : Field) (v ctx : Value) (all : Dict) (σ τ : Its), BlindField f → Apart v → Fresh σ →
    Refines (fieldToStreamS Γ n f v ctx all σ) (fieldToStream Γ n f (fill σ v) ctx (fillDict τ all)) (iterators v) σ

/-- The statement for structs. -/
def StructRefines (Γ : Classes) (n : Nat) : Prop :=
  ∀ (d : StructDesc) (vals : Dict) (ctx : Value) (σ : Its), BlindClass d → Apart (.dict vals) → Fresh σ →
    Refines (structToStreamS Γ n d vals ctx σ) (structToStream Γ n d (fillDict σ vals) ctx) (iteratorsDict vals) σ

theorem structInit_fill (σ : Its) (d : StructDesc) (kwargs : Dict) :
    structInit d (fillDict σ kwargs) = (structInit d kwargs).map (fillDict σ) := by
  unfold structInit
  rw [keys_fillDict]
  simp only
  split <;> rfl

theorem structInit_ok {d : StructDesc} {kwargs vals : Dict} (h : structInit d kwargs = .ok vals) : vals = kwargs := by
  unfold structInit at h
  simp only at h
  split at h
  · cases h
  · cases h; rfl

theorem dumpNewS_refines {Γ : Classes} (hΓ : ∀ c d, Γ c = some d → BlindClass d) {n : Nat} (hs : StructRefines Γ n)
    {cls : String} {kwargs : Dict} (hk : Apart (.dict kwargs)) {ctx : Value} {σ : Its} (hσ : Fresh σ) :
    Refines (dumpNewS Γ (structToStreamS Γ n) cls kwargs ctx σ) (dumpNew Γ (structToStream Γ n) cls (fillDict σ kwargs) ctx)
      (iteratorsDict kwargs) σ := by
  unfold dumpNewS dumpNew
  cases hc : Γ cls with
  | none => exact Refines.still _ _ _
  | some d =>
    simp only [structInit_fill]
    cases hi : structInit d kwargs with
    | error e => exact Refines.still _ _ _
    | ok vals =>
      cases structInit_ok hi
      exact hs d kwargs ctx σ (hΓ cls d hc) hk hσ

theorem containerDumpS_refines {Γ : Classes} (hΓ : ∀ c d, Γ c = some d → BlindClass d) {n : Nat} (hf : FieldRefines Γ n)
    (hs : StructRefines Γ n) {f : Field} (hb : BlindField f) {v ctx : Value} {all : Dict} {σ τ : Its} (hv : Apart v)
    (hσ : Fresh σ) :
    Refines (containerDumpS Γ (fieldToStreamS Γ n) (structToStreamS Γ n) f v ctx all σ)
      (containerDump Γ (fieldToStream Γ n) (structToStream Γ n) f (fill σ v) ctx (fillDict τ all)) (iterators v) σ := by
  cases hb with
  | leaf h1 h2 => exact Refines.still _ _ _
  | array h1 h2 =>
    exact arrayDumpS_refines (fun u ρ hu hρ => hf _ u ctx all ρ τ h2 hu hρ) hv hσ
  | nested h1 =>
    rename_i b cls
    cases v with
    | struct c vals =>
      simp only [containerDumpS, containerDump, fill]
      cases hc : Γ c with
      | none => exact Refines.still _ _ _
      | some d => exact hs d vals ctx σ (hΓ c d hc) hv hσ
    | dict kwargs => exact dumpNewS_refines hΓ hs hv hσ
    | _ => exact Refines.still _ _ _
  | union h1 h2 h3 =>
    rename_i b choices ld dd
    simp only [containerDumpS, containerDump, h2]
    cases dd v ctx all with
    | error e => exact Refines.still _ _ _
    | ok i =>
      simp only
      cases hc : choices[i]? with
      | none => exact Refines.still _ _ _
      | some c =>
        cases c with
        | inl g => exact hf g v ctx all σ τ (h3 g (List.mem_of_getElem? hc)) hv hσ
        | inr cls =>
          cases v with
          | dict kwargs => exact dumpNewS_refines hΓ hs hv hσ
          | _ => exact Refines.still _ _ _

/-- `_do_dump` of a value without iterators does not look into the other fields. -/
theorem containerDump_fill {Γ : Classes} (hΓ : ∀ c d, Γ c = some d → BlindClass d) {n : Nat} (hf : FieldRefines Γ n)
    (hs : StructRefines Γ n) {f : Field} (hb : BlindField f) {v ctx : Value} {all : Dict} {τ : Its} (hv : IterFree v) :
    containerDump Γ (fieldToStream Γ n) (structToStream Γ n) f v ctx (fillDict τ all) =
      containerDump Γ (fieldToStream Γ n) (structToStream Γ n) f v ctx all := by
  have hfresh : Fresh fun _ => [] := fun _ _ h => nomatch h
  have h1 := (containerDumpS_refines hΓ hf hs hb (ctx := ctx) (all := all) (τ := τ) hv.apart hfresh).1
  have h2 := (containerDumpS_refines hΓ hf hs hb (ctx := ctx) (all := all) (τ := id) hv.apart hfresh).1
  rw [fill_iterFree hv.2] at h1 h2
  rw [fillDict_id] at h2
  exact h1.symm.trans h2

theorem containerExpectedSize_fill {Γ : Classes} (hΓ : ∀ c d, Γ c = some d → BlindClass d) {n : Nat} (hf : FieldRefines Γ n)
    (hs : StructRefines Γ n) {f : Field} (hb : BlindField f) {all : Dict} {τ : Its} :
    containerExpectedSize f.base
      (fun v => containerDump Γ (fieldToStream Γ n) (structToStream Γ n) f v .none (fillDict τ all)) (fillDict τ all) =
    containerExpectedSize f.base (fun v => containerDump Γ (fieldToStream Γ n) (structToStream Γ n) f v .none all) all := by
  unfold containerExpectedSize
  refine expectedSizeWith_fill hb.base (fun _ _ => rfl) (nullReprWith_eq ?_ rfl) all
  exact containerDump_fill hΓ hf hs hb hb.base.null

theorem containerNullRepr_fill {Γ : Classes} (hΓ : ∀ c d, Γ c = some d → BlindClass d) {n : Nat} (hf : FieldRefines Γ n)
    (hs : StructRefines Γ n) {f : Field} (hb : BlindField f) {all : Dict} {τ : Its} :
    containerNullRepr f.base
      (fun v => containerDump Γ (fieldToStream Γ n) (structToStream Γ n) f v .none (fillDict τ all)) (fillDict τ all) =
    containerNullRepr f.base (fun v => containerDump Γ (fieldToStream Γ n) (structToStream Γ n) f v .none all) all := by
  unfold containerNullRepr
  refine nullReprWith_eq ?_ (containerExpectedSize_fill hΓ hf hs hb)
  exact containerDump_fill hΓ hf hs hb hb.base.null

/-- A value found in a dictionary for dumping. -/
theorem dictView_source {f : Field} (hb : BlindField f) {all : Dict} {ctx v : Value}
    (h : f.base.computeValueForDump all.view ctx = .ok v) : IterFree v ∨ Dict.get? all f.name = some v := by
  rcases computeValueForDump_source hb.base h with h1 | ⟨-, h1⟩
  · exact Or.inl h1
  · exact Or.inr (view_source h1)

theorem dumpFieldsS_refines {ts : Field → Value → Its → WS} {ts' : Field → Value → W} {all : Dict} {ctx : Value} {σ₀ : Its}
    (hall : Apart (.dict all)) {fs : List Field}
    (hts : ∀ f ∈ fs, ∀ v σ, Apart v → Fresh σ → Refines (ts f v σ) (ts' f (fill σ v)) (iterators v) σ)
    (hfs : ∀ f ∈ fs, BlindField f) (hn : (fs.map Field.name).Nodup) {σ : Its} (hσ : Fresh σ)
    (hsame : ∀ f ∈ fs, ∀ v, Dict.get? all f.name = some v → ∀ k ∈ iterators v, σ k = σ₀ k) :
    Refines (dumpFieldsS ts all ctx fs σ) (dumpFields ts' (fillDict σ₀ all) ctx fs) (iteratorsDict all) σ := by
  induction fs generalizing σ with
  | nil => exact Refines.still _ _ _
  | cons f fs ih =>
    simp only [List.map_cons, List.nodup_cons] at hn
    have ih := fun {σ} => @ih (fun g hg => hts g (List.mem_cons_of_mem _ hg)) (fun g hg => hfs g (List.mem_cons_of_mem _ hg)) hn.2 σ
    have hb := hfs f (List.mem_cons_self ..)
    simp only [dumpFieldsS, dumpFields, view_fillDict, computeValueForDump_fill hb.base]
    cases hc : f.base.computeValueForDump all.view ctx with
    | error e => exact Refines.still _ _ _
    | ok v =>
      simp only [Except.map, fill_notPresent]
      split
      · exact ih hσ fun g hg => hsame g (List.mem_cons_of_mem _ hg)
      · have hsrc := dictView_source hb hc
        have hva : Apart v := by
          rcases hsrc with h1 | h1
          · exact h1.apart
          · exact get_apart_value hall h1
        have hsub : ∀ k ∈ iterators v, k ∈ iteratorsDict all ∧ Dict.get? all f.name = some v := by
          intro k hk
          rcases hsrc with h1 | h1
          · rw [h1.2] at hk; cases hk
          · exact ⟨mem_iteratorsDict.2 ⟨_, Dict.get?_some_mem h1, hk⟩, h1⟩
        have hfill : fill σ₀ v = fill σ v := by
          refine fill_congr v fun k hk => ?_
          exact (hsame f (List.mem_cons_self ..) v (hsub k hk).2 k hk).symm
        rw [hfill]
        have hv := hts f (List.mem_cons_self ..) v σ hva hσ
        refine (hv.seq (ih (hv.2.fresh hσ) ?_)).mono ?_
        · intro g hg w hw k hk
          have hne : f.name ≠ g.name := fun hx => hn.1 (hx ▸ List.mem_map.2 ⟨g, hg, rfl⟩)
          rw [hv.2.1 k fun hx => get_apart hall.2 (hsub k hx).2 hw hne hx hk]
          exact hsame g (List.mem_cons_of_mem _ hg) w hw k hk
        · intro k hk
          rcases List.mem_append.1 hk with h1 | h1
          · exact (hsub k h1).1
          · exact h1

theorem refines_step {Γ : Classes} (hΓ : ∀ c d, Γ c = some d → BlindClass d) (n : Nat) :
    FieldRefines Γ n ∧ StructRefines Γ n := by
  induction n with
  | zero => exact ⟨fun _ _ _ _ _ _ _ _ _ => Refines.still _ _ _, fun _ _ _ _ _ _ _ => Refines.still _ _ _⟩
  | succ n ih =>
    obtain ⟨hf, hs⟩ := ih
    refine ⟨?_, ?_⟩
    · intro f v ctx all σ τ hb hv hσ
      have hcont : (∀ b k, f ≠ .leaf b k) →
          Refines (toStreamWithS f.base
            (fun v => containerDumpS Γ (fieldToStreamS Γ n) (structToStreamS Γ n) f v ctx all)
            (containerNullRepr f.base (fun v => containerDump Γ (fieldToStream Γ n) (structToStream Γ n) f v .none all) all)
            (containerExpectedSize f.base
              (fun v => containerDump Γ (fieldToStream Γ n) (structToStream Γ n) f v .none all) all)
            (fun _ _ => .error (.valueSize f.name)) v σ)
          (toStreamWith f.base
            (fun v => containerDump Γ (fieldToStream Γ n) (structToStream Γ n) f v ctx (fillDict τ all))
            (containerNullRepr f.base
              (fun v => containerDump Γ (fieldToStream Γ n) (structToStream Γ n) f v .none (fillDict τ all)) (fillDict τ all))
            (containerExpectedSize f.base
              (fun v => containerDump Γ (fieldToStream Γ n) (structToStream Γ n) f v .none (fillDict τ all)) (fillDict τ all))
            (fun _ _ => .error (.valueSize f.name)) (fill σ v)) (iterators v) σ := by
        intro _
        exact toStreamWithS_refines hb.base (fun u hu => containerDumpS_refines hΓ hf hs hb hu hσ)
          (containerNullRepr_fill hΓ hf hs hb).symm (containerExpectedSize_fill hΓ hf hs hb).symm _ hv
      cases f with
      | leaf b k =>
        cases hb with
        | leaf h1 h2 =>
          simp only [fieldToStreamS]
          rw [leaf_fill h1 h2]
          exact Refines.still _ _ _
      | array b comp count halt => exact hcont (fun _ _ h => nomatch h)
      | nested b cls => exact hcont (fun _ _ h => nomatch h)
      | union b cs ld dd => exact hcont (fun _ _ h => nomatch h)
    · intro d vals ctx σ hd hv hσ
      simp only [structToStreamS, structToStream, structToStreamWithS, structToStreamWith, validateContents_fill hd]
      cases validateContents d vals with
      | error e => exact Refines.still _ _ _
      | ok _ =>
        simp only [structToDict_fill hΓ n hd]
        cases hall : structToDict Γ n d vals with
        | error e => exact Refines.still _ _ _
        | ok all =>
          have hk := structToDict_keeps hΓ hd hv.1 hall
          have := dumpFieldsS_refines (ts := fun f v => fieldToStreamS Γ n f v ctx all)
            (ts' := fun f v => fieldToStream Γ n f v ctx (fillDict σ all)) (ctx := ctx) (σ₀ := σ)
            (all := all) ⟨hk.1, hk.2.2 hv.2⟩ (fs := d.components)
            (fun f hf' v ρ hv' hρ => hf f v ctx all ρ σ (hd.fields f hf') hv' hρ) hd.fields hd.unique hσ
            (fun _ _ _ _ _ _ => rfl)
          exact this.mono hk.2.1

end Verif
