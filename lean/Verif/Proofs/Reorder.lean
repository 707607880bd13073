import Verif.Spec.Reorder
import Verif.Proofs.ToDict
import Verif.Model.Equality

/-!
# The order in which values were given: helper lemmas
-/

namespace Verif
open Spec

theorem Spec.SameValues.symm {a b : Dict} (h : SameValues a b) : SameValues b a := fun k => (h k).symm

theorem Spec.SameValues.contains {a b : Dict} (h : SameValues a b) (k : String) : a.contains k = b.contains k := by
  rw [Dict.contains_eq, Dict.contains_eq, h k]

theorem Spec.SameValues.view {a b : Dict} (h : SameValues a b) : a.view = b.view := by
  unfold Dict.view
  congr 1
  · funext k; exact h.contains k
  · funext k; rw [h k]

theorem Spec.SameValues.mem_keys {a b : Dict} (h : SameValues a b) (k : String) : k ∈ Dict.keys a ↔ k ∈ Dict.keys b := by
  rw [← Dict.contains_iff, ← Dict.contains_iff, h.contains]

theorem Spec.SameValues.structContains {a b : Dict} (ha : (Dict.keys a).Nodup) (hb : (Dict.keys b).Nodup) (h : SameValues a b) :
    structContains a = structContains b := by
  funext k
  rw [Bool.eq_iff_iff]
  unfold Verif.structContains
  rw [List.contains_iff_mem, List.contains_iff_mem, mem_definedKeys ha, mem_definedKeys hb, h k]

theorem Spec.SameValues.structGet {d : StructDesc} {a b : Dict} (ha : (Dict.keys a).Nodup) (hb : (Dict.keys b).Nodup)
    (h : SameValues a b) (n : Nat) : structGet d a n = structGet d b n := by
  induction n with
  | zero => funext k; rfl
  | succ n ih =>
    funext k
    unfold Verif.structGet
    rw [h k, ih, SameValues.structContains ha hb h]

theorem Spec.SameValues.structView {d : StructDesc} {a b : Dict} (ha : (Dict.keys a).Nodup) (hb : (Dict.keys b).Nodup)
    (h : SameValues a b) : structView d a = structView d b := by
  unfold Verif.structView
  rw [SameValues.structContains ha hb h]
  congr 1
  funext k
  unfold structGetItem
  rw [h.structGet ha hb]

theorem Spec.SameValues.validateContents {d : StructDesc} {a b : Dict} (ha : (Dict.keys a).Nodup) (hb : (Dict.keys b).Nodup)
    (h : SameValues a b) : validateContents d a = validateContents d b := by
  have h1 : Verif.structGetItem d a = structGetItem d b := congrArg View.get (h.structView (d := d) ha hb)
  have h2 : validateField d a = validateField d b := by
    funext p
    unfold validateField
    rw [h1, h.structView ha hb]
  unfold Verif.validateContents
  rw [h2, h.structView ha hb]

theorem Spec.SameValues.whateverLoop {d : StructDesc} {a b : Dict} (ha : (Dict.keys a).Nodup) (hb : (Dict.keys b).Nodup)
    (h : SameValues a b) (fs : List Field) (acc : Dict) : whateverLoop d a fs acc = whateverLoop d b fs acc := by
  induction fs generalizing acc with
  | nil => rfl
  | cons f fs ih =>
    unfold Verif.whateverLoop
    rw [h.structView ha hb]
    simp only [ih]

/-- The two results are the same exception, or two dictionaries with the same values. -/
def SameResult (x y : Except Err Dict) : Prop :=
  (∃ e, x = .error e ∧ y = .error e) ∨ ∃ u v, x = .ok u ∧ y = .ok v ∧ SameValues u v

theorem chainLoop_returns {d : StructDesc} {vals dct : Dict} {ks : List String}
    (h : ∀ k ∈ ks, (Dict.get? dct k).isSome ∨ ∃ v, structGetItem d vals k = .ok v) : ∃ r, chainLoop d vals dct ks = .ok r := by
  induction ks with
  | nil => exact ⟨[], rfl⟩
  | cons k ks ih =>
    obtain ⟨r, hr⟩ := ih fun x hx => h x (by simp [hx])
    unfold chainLoop
    rcases h k (by simp) with hk | ⟨v, hv⟩
    · obtain ⟨v, hv⟩ := Option.isSome_iff_exists.1 hk
      simp [hv, hr]
    · cases hd : Dict.get? dct k with
      | some w => simp [hr]
      | none => simp [hv, hr]

theorem whateverPossible_chain {d : StructDesc} {vals raw : Dict} (hi : Instance d vals) (hr : whateverLoop d vals d.components [] = .ok raw) :
    ∃ dct, whateverPossible d vals = .ok dct ∧
      ∀ k, Dict.get? dct k = if k ∈ definedKeys vals ∨ k ∈ Dict.keys raw then (Dict.get? raw k).or (Dict.get? vals k) else none := by
  have hget : ∀ k ∈ definedKeys vals, ∃ v, Dict.get? vals k = some v ∧ structGetItem d vals k = .ok v := by
    intro k hk
    obtain ⟨v, hv, -⟩ := (mem_definedKeys hi.1).1 hk
    exact ⟨v, hv, structGetItem_some (hi.2 k (Dict.get?_some_key hv)) hv⟩
  have hks : ∀ k ∈ definedKeys vals ++ (Dict.keys raw).filter (fun k => !(definedKeys vals).contains k),
      (Dict.get? raw k).isSome ∨ ∃ v, structGetItem d vals k = .ok v := by
    intro k hk
    rcases List.mem_append.1 hk with hk | hk
    · obtain ⟨v, -, hv⟩ := hget k hk
      exact Or.inr ⟨v, hv⟩
    · left
      rw [← Dict.contains_eq, Dict.contains_iff]
      exact (List.mem_filter.1 hk).1
  obtain ⟨r, hr'⟩ := chainLoop_returns hks
  refine ⟨r, ?_, ?_⟩
  · unfold whateverPossible; rw [hr]; exact hr'
  · obtain ⟨-, h2, h3⟩ := chainLoop_ok hr'
    intro k
    have hmem : k ∈ definedKeys vals ++ (Dict.keys raw).filter (fun k => !(definedKeys vals).contains k) ↔
        k ∈ definedKeys vals ∨ k ∈ Dict.keys raw := by
      rw [List.mem_append, List.mem_filter]
      by_cases hk : k ∈ definedKeys vals
      · simp [hk]
      · simp [hk]
    by_cases hk : k ∈ definedKeys vals ∨ k ∈ Dict.keys raw
    · rw [if_pos hk]
      obtain ⟨v, hv, h4⟩ := h3 k (hmem.2 hk)
      rw [hv]
      rcases h4 with h4 | ⟨h4, h5⟩
      · rw [h4]; rfl
      · rw [h4]
        rcases hk with hk | hk
        · obtain ⟨w, hw, hw'⟩ := hget k hk
          rw [h5] at hw'
          cases hw'
          rw [hw]; rfl
        · exact absurd h4 (fun hx => (Dict.get?_none_iff _ _).1 hx hk)
    · rw [if_neg hk]
      exact h2 k (fun hx => hk (hmem.1 hx))

theorem Spec.SameValues.whateverPossible {d : StructDesc} {a b : Dict} (ha : Instance d a) (hb : Instance d b) (h : SameValues a b) :
    SameResult (whateverPossible d a) (whateverPossible d b) := by
  have hl := h.whateverLoop (d := d) ha.1 hb.1 d.components []
  cases hr : Verif.whateverLoop d a d.components [] with
  | error e =>
    left
    refine ⟨e, ?_, ?_⟩
    · unfold Verif.whateverPossible; rw [hr]
    · unfold Verif.whateverPossible; rw [← hl, hr]
  | ok raw =>
    right
    obtain ⟨u, hu, hu'⟩ := whateverPossible_chain ha hr
    obtain ⟨v, hv, hv'⟩ := whateverPossible_chain hb (hl ▸ hr)
    refine ⟨u, v, hu, hv, ?_⟩
    intro k
    rw [hu', hv', h k]
    have : k ∈ definedKeys a ↔ k ∈ definedKeys b := by
      rw [mem_definedKeys ha.1, mem_definedKeys hb.1, h k]
    simp only [this]

theorem Spec.SameValues.missingLoop {u v : Dict} (h : SameValues u v) (fs : List Field) : missingLoop u fs = missingLoop v fs := by
  induction fs with
  | nil => rfl
  | cons f fs ih =>
    unfold Verif.missingLoop
    rw [h.contains, h.view, ih]

theorem Spec.SameValues.foldl_erase {α : Type} {nm : α → String} (fs : List α) {u v : Dict} (h : SameValues u v) :
    SameValues (fs.foldl (fun x f => x.erase (nm f)) u) (fs.foldl (fun x f => x.erase (nm f)) v) := by
  intro k
  rw [Dict.get?_foldl_erase, Dict.get?_foldl_erase, h k]

theorem Spec.SameValues.toDictShallow {d : StructDesc} {a b : Dict} {keep : Bool} (hd : UniqueNames d) (ha : Instance d a) (hb : Instance d b)
    (h : SameValues a b) : SameResult (toDictShallow d a keep) (toDictShallow d b keep) := by
  unfold Verif.toDictShallow
  rcases h.whateverPossible ha hb with ⟨e, h1, h2⟩ | ⟨u, v, h1, h2, huv⟩
  · rw [h1, h2]; exact Or.inl ⟨e, rfl, rfl⟩
  · rw [h1, h2]
    simp only
    rw [huv.missingLoop]
    cases hm : Verif.missingLoop v d.components with
    | error e => exact Or.inl ⟨e, rfl, rfl⟩
    | ok more =>
      have hn := (missingLoop_ok hd hm).1
      have hup : SameValues (u.update more) (v.update more) := by
        intro k
        rw [Dict.get?_update _ _ _ hn, Dict.get?_update _ _ _ hn, huv k]
      right
      refine ⟨_, _, rfl, rfl, ?_⟩
      split
      · exact hup
      · exact hup.foldl_erase _

theorem mapDictE_cons (g : Value → Except Err Value) (p : String × Value) (D : Dict) :
    mapDictE g (p :: D) = (g p.2).bind fun w => (mapDictE g D).map fun r => (p.1, w) :: r := by
  simp only [mapDictE, mapE]
  cases g p.2 with
  | error e => rfl
  | ok w =>
    simp only [Except.bind, Except.map]
    split <;> rename_i h <;> simp only [h]

theorem mapDictE_sound {g : Value → Except Err Value} {D r : Dict} (h : mapDictE g D = .ok r) (k : String) :
    (Dict.get? D k = none ∧ Dict.get? r k = none) ∨
    ∃ v w, Dict.get? D k = some v ∧ g v = .ok w ∧ Dict.get? r k = some w := by
  induction D generalizing r with
  | nil => simp [mapDictE, mapE] at h; subst h; exact Or.inl ⟨rfl, rfl⟩
  | cons p D ih =>
    rw [mapDictE_cons] at h
    cases hg : g p.2 with
    | error e => rw [hg] at h; cases h
    | ok w =>
      rw [hg] at h
      cases hr : mapDictE g D with
      | error e => rw [hr] at h; cases h
      | ok rs =>
        rw [hr] at h
        cases h
        rw [Dict.get?_cons, Dict.get?_cons]
        by_cases hk : p.1 = k
        · simp only [if_pos hk]
          exact Or.inr ⟨_, _, rfl, hg, rfl⟩
        · simp only [if_neg hk]
          exact ih hr

theorem mapDictE_ok_of {g : Value → Except Err Value} {D : Dict} (h : ∀ p ∈ D, ∃ w, g p.2 = .ok w) : ∃ r, mapDictE g D = .ok r := by
  induction D with
  | nil => exact ⟨[], rfl⟩
  | cons p D ih =>
    obtain ⟨r, hr⟩ := ih fun q hq => h q (by simp [hq])
    obtain ⟨w, hw⟩ := h p (by simp)
    exact ⟨(p.1, w) :: r, by rw [mapDictE_cons, hw, hr]; rfl⟩

/-- The two results are both exceptions, or two dictionaries with the same values. -/
def SimilarResult (x y : Except Err Dict) : Prop :=
  (∃ e e', x = .error e ∧ y = .error e') ∨ ∃ u v, x = .ok u ∧ y = .ok v ∧ SameValues u v

theorem Spec.SameValues.mapDictE {g : Value → Except Err Value} {u v : Dict} (hu : (Dict.keys u).Nodup) (hv : (Dict.keys v).Nodup)
    (h : SameValues u v) : SimilarResult (mapDictE g u) (mapDictE g v) := by
  have one : ∀ {u v : Dict}, (Dict.keys v).Nodup → SameValues u v → ∀ {r}, Verif.mapDictE g u = .ok r → ∃ r', Verif.mapDictE g v = .ok r' := by
    intro u v hv h r hr
    apply mapDictE_ok_of
    intro p hp
    have hg := Dict.get?_of_mem hv (show (p.1, p.2) ∈ v from hp)
    rcases mapDictE_sound hr p.1 with ⟨h1, -⟩ | ⟨x, w, h1, h2, -⟩
    · rw [h p.1, hg] at h1; simp at h1
    · rw [h p.1, hg] at h1
      cases h1
      exact ⟨w, h2⟩
  cases h1 : Verif.mapDictE g u with
  | error e =>
    cases h2 : Verif.mapDictE g v with
    | error e' => exact Or.inl ⟨_, _, rfl, rfl⟩
    | ok r =>
      obtain ⟨r', hr'⟩ := one hu h.symm h2
      rw [h1] at hr'; simp at hr'
  | ok r =>
    obtain ⟨r', h2⟩ := one hv h h1
    right
    refine ⟨r, r', rfl, h2, ?_⟩
    intro k
    rcases mapDictE_sound h1 k with ⟨g1, g2⟩ | ⟨x, w, g1, g2, g3⟩ <;>
      rcases mapDictE_sound h2 k with ⟨f1, f2⟩ | ⟨x', w', f1, f2, f3⟩
    · rw [g2, f2]
    · rw [← h k, g1] at f1; simp at f1
    · rw [h k, f1] at g1; simp at g1
    · rw [h k, f1] at g1
      cases g1
      rw [g2] at f2
      cases f2
      rw [g3, f3]

theorem Spec.SameValues.structToDict {Γ : Classes} {n : Nat} {d : StructDesc} {a b : Dict} {keep : Bool} (hd : UniqueNames d) (ha : Instance d a)
    (hb : Instance d b) (h : SameValues a b) : SimilarResult (structToDict Γ n d a keep) (structToDict Γ n d b keep) := by
  unfold Verif.structToDict
  rcases h.toDictShallow (keep := keep) hd ha hb with ⟨e, h1, h2⟩ | ⟨u, v, h1, h2, huv⟩
  · rw [h1, h2]; exact Or.inl ⟨e, e, rfl, rfl⟩
  · rw [h1, h2]
    exact huv.mapDictE (toDictShallow_get hd ha h1).1 (toDictShallow_get hd hb h2).1

/-! ### Fields -/

theorem Spec.SameValues.expectedSizeWith {b : FieldBase} {sf : Value → Except Err (Option Int)} {x y : Except Err Bytes} {u v : Dict}
    (h : SameValues u v) (hxy : x = y) : b.expectedSizeWith sf x u = b.expectedSizeWith sf y v := by
  subst hxy
  unfold FieldBase.expectedSizeWith sizeFromRef FieldBase.sizingValue
  rw [h b.name]
  split
  · rfl
  · rename_i nm _; rw [h nm]
  · rfl

theorem Spec.SameValues.leafDump {b : FieldBase} {k : Leaf} (hk : ByName (.leaf b k)) {u v : Dict} (h : SameValues u v)
    (es : Except Err Int) (x ctx : Value) : leafDump b k es x ctx u = leafDump b k es x ctx v := by
  cases hk with
  | leaf hk =>
    cases k with
    | custom ops => exact hk ops rfl x ctx u v h
    | _ => rfl

theorem Spec.SameValues.leafExpectedSize {b : FieldBase} {k : Leaf} (hk : ByName (.leaf b k)) {u v : Dict} (h : SameValues u v) :
    leafExpectedSize b k u = leafExpectedSize b k v := by
  unfold Verif.leafExpectedSize
  apply h.expectedSizeWith
  have : (fun x => Verif.leafDump b k (.error (.buggyField b.name)) x .none u) =
      fun x => Verif.leafDump b k (.error (.buggyField b.name)) x .none v := by
    funext x; exact h.leafDump hk _ x .none
  rw [this]

theorem Spec.SameValues.leafNullRepr {b : FieldBase} {k : Leaf} (hk : ByName (.leaf b k)) {u v : Dict} (h : SameValues u v) :
    leafNullRepr b k u = leafNullRepr b k v := by
  unfold Verif.leafNullRepr
  have : (fun x => Verif.leafDump b k (Verif.leafExpectedSize b k v) x .none u) =
      fun x => Verif.leafDump b k (Verif.leafExpectedSize b k v) x .none v := by
    funext x; exact h.leafDump hk _ x .none
  rw [h.leafExpectedSize hk, this]

theorem Spec.SameValues.finalElementCount {u v : Dict} (h : SameValues u v) (c : Count) : finalElementCount c u = finalElementCount c v := by
  cases c with
  | ref nm => simp only [Verif.finalElementCount, h nm]
  | _ => rfl

theorem Spec.SameValues.containerDump {Γ : Classes} {ts : Field → Value → Value → Dict → W} {ss : StructDesc → Dict → Value → W}
    {f : Field} (hf : ByName f) {u v : Dict} (h : SameValues u v)
    (hts : ∀ g, ByName g → ∀ x ctx, ts g x ctx u = ts g x ctx v) (x ctx : Value) :
    containerDump Γ ts ss f x ctx u = containerDump Γ ts ss f x ctx v := by
  cases hf with
  | leaf _ => rfl
  | nested => rfl
  | @array b comp count halt hc =>
    simp only [Verif.containerDump, arrayDump, h.finalElementCount]
    have : (fun y => ts comp y ctx u) = fun y => ts comp y ctx v := by funext y; exact hts comp hc y ctx
    rw [this]
  | @union b choices load decider hd hc =>
    simp only [Verif.containerDump]
    rw [hd x ctx u v h]
    cases decider x ctx v with
    | error e => rfl
    | ok i =>
      simp only
      cases hi : choices[i]? with
      | none => rfl
      | some g =>
        cases g with
        | inr c => rfl
        | inl g => exact hts g (hc g (List.mem_of_getElem? hi)) x ctx

theorem Spec.SameValues.fieldToStream {Γ : Classes} {n : Nat} {f : Field} (hf : ByName f) {u v : Dict} (h : SameValues u v)
    (x ctx : Value) : fieldToStream Γ n f x ctx u = fieldToStream Γ n f x ctx v := by
  induction n generalizing f x ctx with
  | zero => unfold Verif.fieldToStream; rfl
  | succ n ih =>
    have hd : ∀ x ctx, Verif.containerDump Γ (Verif.fieldToStream Γ n) (structToStream Γ n) f x ctx u =
        Verif.containerDump Γ (Verif.fieldToStream Γ n) (structToStream Γ n) f x ctx v :=
      fun x ctx => h.containerDump hf (fun g hg x ctx => ih hg x ctx) x ctx
    have he : ∀ (b : FieldBase) (F : Value → W), containerExpectedSize b F u = containerExpectedSize b F v :=
      fun b F => h.expectedSizeWith rfl
    have hnr : ∀ (b : FieldBase) (F : Value → W), containerNullRepr b F u = containerNullRepr b F v := by
      intro b F
      unfold containerNullRepr
      rw [he b]
    cases f with
    | leaf b k =>
      unfold Verif.fieldToStream
      simp only [h.leafExpectedSize hf, h.leafNullRepr hf, h.leafDump hf]
    | array b c m hl =>
      unfold Verif.fieldToStream
      simp only [hd, hnr, he]
    | nested b c =>
      unfold Verif.fieldToStream
      simp only [hd, hnr, he]
    | union b c l dd =>
      unfold Verif.fieldToStream
      simp only [hd, hnr, he]

theorem Spec.SameValues.dumpFields {Γ : Classes} {n : Nat} {ctx : Value} {fs : List Field} (hf : ∀ f ∈ fs, ByName f) {u v : Dict}
    (h : SameValues u v) :
    dumpFields (fun f x => Verif.fieldToStream Γ n f x ctx u) u ctx fs = dumpFields (fun f x => Verif.fieldToStream Γ n f x ctx v) v ctx fs := by
  induction fs with
  | nil => rfl
  | cons f fs ih =>
    unfold Verif.dumpFields
    rw [h.view, ih fun g hg => hf g (by simp [hg])]
    simp only [h.fieldToStream (hf f (by simp))]

theorem Spec.SameValues.fieldExpectedSize {Γ : Classes} {n : Nat} {f : Field} (hf : ByName f) {u v : Dict} (h : SameValues u v) :
    fieldExpectedSize Γ n f u = fieldExpectedSize Γ n f v := by
  have hd : ∀ x, Verif.containerDump Γ (Verif.fieldToStream Γ n) (structToStream Γ n) f x .none u =
      Verif.containerDump Γ (Verif.fieldToStream Γ n) (structToStream Γ n) f x .none v :=
    fun x => h.containerDump hf (fun g hg x ctx => h.fieldToStream hg x ctx) x .none
  cases f with
  | leaf b k => exact h.leafExpectedSize hf
  | _ =>
    unfold Verif.fieldExpectedSize containerExpectedSize
    apply h.expectedSizeWith
    simp only [fieldDoDump, hd]

theorem sumSizes_congr {s t : Field → Except Err Int} {fs : List Field} (h : ∀ f ∈ fs, s f = t f) : sumSizes s fs = sumSizes t fs := by
  induction fs with
  | nil => rfl
  | cons f fs ih =>
    unfold sumSizes
    rw [h f (by simp), ih fun g hg => h g (by simp [hg])]

end Verif
