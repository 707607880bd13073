import Verif.Proofs.Reload
import Verif.Proofs.Reorder
import Verif.Proofs.Construct
import Verif.Proofs.Optional
import Verif.Props.Container

/-!
Helper lemmas: dictionaries given for structs dump as the same bytes whatever the order of the keys in them, down to the last level.
-/

namespace Verif
open Verif.Spec

theorem Spec.Typed.set {Γ : Classes} {f : Field} {w : Value} (h : Typed Γ f w) : w ≠ .undefined ∧ w ≠ .notPresent := by
  cases h with
  | @leaf b k _ hs _ => constructor <;> rintro rfl <;> cases k <;> simp [Scalar] at hs
  | _ => constructor <;> simp

/-- `to_dict()` of an instance of a plain class all of whose values are set to things that are not structs: those values. -/
theorem toDict_given {Γ : Classes} {n : Nat} {d : StructDesc} {vals all : Dict} (hd : Schema Γ d) (hi : Instance d vals)
    (hset : ∀ f ∈ d.components, ∃ w, Dict.get? vals f.name = some w ∧ w ≠ .undefined ∧ NoStruct w)
    (h : structToDict Γ n d vals = .ok all) : SameValues all vals := by
  obtain ⟨-, h2, h3⟩ := structToDict_get hd.unique hi h
  intro k
  by_cases hk : k ∈ names d
  · obtain ⟨f, hf, rfl⟩ := List.mem_map.1 hk
    obtain ⟨pre, post, hp⟩ := List.append_of_mem hf
    obtain ⟨-, ha, hdis, -⟩ := hd.fields pre f post hp
    obtain ⟨w, hw, hu, hns⟩ := hset f hf
    rcases h3 f hf with ⟨-, hx, -⟩ | ⟨-, v, w', hv, hrec, hg⟩
    · rw [hdis] at hx; simp at hx
    · have hc : f.base.computeValueForDump (structView d vals) .none = .ok w := by
        refine compute_set (ha.1 _ _ _) ?_ ?_ hu
        · exact (structContains_iff hi.1).2 ⟨w, hw, hu⟩
        · exact structGetItem_some hk hw
      have hvw : v = w := by
        rcases hv with hv | ⟨e, hv, -⟩
        · rw [hc] at hv; cases hv; rfl
        · rw [hc] at hv; cases hv
      subst hvw
      rw [hg, hw, (recursiveToDicts_spec hrec).2 hns]
  · rw [(Dict.get?_none_iff _ _).2 fun hx => hk (h2 k hx), (Dict.get?_none_iff _ _).2 fun hx => hk (hi.2 k hx)]

/-! ### Values that differ in the order of keys only -/

theorem Spec.Identical.list_inv {v : Value} {l : List Value} (h : Identical v (.list l)) : ∃ l', v = .list l' ∧ l'.length = l.length ∧
    ∀ (i : Nat) (x y : Value), l'[i]? = some x → l[i]? = some y → Identical x y := by
  cases h with
  | same => exact ⟨l, rfl, rfl, fun i x y hx hy => by rw [hx] at hy; cases hy; exact .same _⟩
  | list h1 h2 => exact ⟨_, rfl, h1, h2⟩

theorem Spec.Identical.dict_inv {v : Value} {d : Dict} (h : Identical v (.dict d)) : ∃ d', v = .dict d' ∧
    (∀ k, Dict.get? d' k = none ↔ Dict.get? d k = none) ∧
    ∀ (k : String) (x y : Value), Dict.get? d' k = some x → Dict.get? d k = some y → Identical x y := by
  cases h with
  | same => exact ⟨d, rfl, fun _ => Iff.rfl, fun k x y hx hy => by rw [hx] at hy; cases hy; exact .same _⟩
  | dict h1 h2 => exact ⟨_, rfl, h1, h2⟩

theorem Spec.Identical.atom {v w : Value} (h : Identical v w) (h1 : ∀ l, w ≠ .list l) (h2 : ∀ d, w ≠ .dict d) : v = w := by
  cases h with
  | same => rfl
  | list => exact absurd rfl (h1 _)
  | dict => exact absurd rfl (h2 _)

/-- An entry is missing in both, or the same but for the order of keys. -/
theorem Spec.Identical.lookup {a b : Dict} (h : Identical (.dict a) (.dict b)) (k : String) :
    (Dict.get? a k = none ∧ Dict.get? b k = none) ∨ ∃ v w, Dict.get? a k = some v ∧ Dict.get? b k = some w ∧ Identical v w := by
  obtain ⟨d', hd, h1, h2⟩ := h.dict_inv
  cases hd
  cases ha : Dict.get? a k with
  | none => exact Or.inl ⟨rfl, (h1 k).1 ha⟩
  | some v =>
    cases hb : Dict.get? b k with
    | none => rw [(h1 k).2 hb] at ha; cases ha
    | some w => exact Or.inr ⟨v, w, rfl, rfl, h2 k v w ha hb⟩

theorem Spec.Identical.sameValues {a b a' b' : Dict} (h : Identical (.dict a) (.dict b)) (h1 : SameValues a' a) (h2 : SameValues b' b) :
    Identical (.dict a') (.dict b') := by
  obtain ⟨d', hd, h3, h4⟩ := h.dict_inv
  cases hd
  exact .dict (fun k => by rw [h1 k, h2 k]; exact h3 k) (fun k x y hx hy => by rw [h1 k] at hx; rw [h2 k] at hy; exact h4 k x y hx hy)

theorem Spec.Identical.sizeFromRef {u v : Dict} (h : Identical (.dict u) (.dict v)) (nm : String) : sizeFromRef u nm = sizeFromRef v nm := by
  unfold Verif.sizeFromRef
  rcases h.lookup nm with ⟨h1, h2⟩ | ⟨x, y, h1, h2, h3⟩
  · rw [h1, h2]
  · rw [h1, h2]
    cases h3 <;> rfl

theorem Spec.Identical.finalElementCount {u v : Dict} (h : Identical (.dict u) (.dict v)) (c : Count) :
    finalElementCount c u = finalElementCount c v := by
  cases c with
  | ref nm =>
    simp only [Verif.finalElementCount]
    rcases h.lookup nm with ⟨h1, h2⟩ | ⟨x, y, h1, h2, h3⟩
    · rw [h1, h2]
    · rw [h1, h2]
      cases h3 <;> rfl
  | _ => rfl

theorem Spec.Identical.leafExpectedSize {b : FieldBase} {k : Leaf} (hk : ∀ ops, k ≠ .custom ops) {u v : Dict} (h : Identical (.dict u) (.dict v)) :
    leafExpectedSize b k u = leafExpectedSize b k v := by
  have hd : ∀ es x ctx, Verif.leafDump b k es x ctx u = Verif.leafDump b k es x ctx v := by
    intro es x ctx
    cases k with
    | custom ops => exact absurd rfl (hk ops)
    | _ => rfl
  unfold Verif.leafExpectedSize
  simp only [hd]
  unfold FieldBase.expectedSizeWith
  split
  · rfl
  · exact h.sizeFromRef _
  · unfold FieldBase.sizingValue
    rcases h.lookup b.name with ⟨h1, h2⟩ | ⟨x, y, h1, h2, h3⟩
    · rw [h1, h2]
    · rw [h1, h2]
      cases h3 with
      | same => rfl
      | list => cases k <;> first | rfl | exact absurd rfl (hk _)
      | dict => cases k <;> first | rfl | exact absurd rfl (hk _)

theorem Spec.Identical.leafToStream {Γ : Classes} {n : Nat} {b : FieldBase} {k : Leaf} (hk : ∀ ops, k ≠ .custom ops) {u v : Dict}
    (h : Identical (.dict u) (.dict v)) (x ctx : Value) : fieldToStream Γ n (.leaf b k) x ctx u = fieldToStream Γ n (.leaf b k) x ctx v := by
  cases n with
  | zero => unfold fieldToStream; rfl
  | succ n =>
    have hd : ∀ es x ctx, Verif.leafDump b k es x ctx u = Verif.leafDump b k es x ctx v := by
      intro es x ctx
      cases k with
      | custom ops => exact absurd rfl (hk ops)
      | _ => rfl
    have hn : leafNullRepr b k u = leafNullRepr b k v := by
      unfold leafNullRepr
      simp only [h.leafExpectedSize hk, hd]
    unfold fieldToStream
    simp only [h.leafExpectedSize hk, hd, hn]

/-! ### Dumping them -/

theorem finishDump_again {b : FieldBase} {e e' : Except Err Int} {p : Bytes → Int → Except Err Bytes} {ser bs : Bytes}
    (h : finishDump b e p ser = (bs, .ok ())) (he : ∀ nm, b.size = .ref nm → e' = e) : finishDump b e' p ser = (bs, .ok ()) := by
  unfold finishDump at h ⊢
  cases hs : b.size with
  | ref nm => rw [he nm hs]; simpa only [hs] using h
  | _ => simpa only [hs] using h

/-- A container that dumps as the same bytes is written as the same bytes. -/
theorem container_again {Γ : Classes} {n : Nat} {f : Field} {w w' ctx : Value} {all all' : Dict} {p : Bytes} (hf : ∀ b k, f ≠ .leaf b k)
    (h1 : w ≠ .none) (h2 : w ≠ .dflt) (h1' : w' ≠ .none) (h2' : w' ≠ .dflt) (h3' : w' ≠ .undefined) (hv : f.base.validators = [])
    (he : Identical (.dict all') (.dict all)) (h : fieldToStream Γ n f w ctx all = (p, .ok ()))
    (hd : ∀ k s, containerDump Γ (fieldToStream Γ k) (structToStream Γ k) f w ctx all = (s, .ok ()) →
      ∃ m, containerDump Γ (fieldToStream Γ m) (structToStream Γ m) f w' ctx all' = (s, .ok ())) :
    ∃ m, fieldToStream Γ m f w' ctx all' = (p, .ok ()) := by
  cases n with
  | zero => simp [fieldToStream, W.fail] at h
  | succ n =>
    rw [fieldToStream_succ] at h
    obtain ⟨x, hx, -, -, -, h4⟩ := toStreamWith_ok h
    rw [if_neg h2] at hx
    cases hx
    rcases h4 with ⟨h4, -⟩ | ⟨-, ser, h5, h6⟩
    · exact absurd h4 h1
    · have hdo : ∀ k v c a, fieldDoDump Γ k f v c a = containerDump Γ (fieldToStream Γ k) (structToStream Γ k) f v c a := by
        intro k v c a
        cases f with
        | leaf b k => exact absurd rfl (hf b k)
        | _ => rfl
      rw [hdo] at h5
      obtain ⟨m, h7⟩ := hd n ser h5
      refine ⟨m + 1, ?_⟩
      rw [fieldToStream_succ, toStreamWith_plain h2' h3' h1' (by simp [hv]), hdo, h7]
      simp only [W.toExcept]
      refine finishDump_again h6 fun nm hs => ?_
      have hexp : ∀ k a, fieldExpectedSize Γ k f a = sizeFromRef a nm := by
        intro k a
        cases f with
        | leaf b k => exact absurd rfl (hf b k)
        | _ => simp only [Field.base] at hs; simp only [fieldExpectedSize, containerExpectedSize, FieldBase.expectedSizeWith, Field.base, hs]
      rw [hexp, hexp]
      exact he.sizeFromRef nm

/-- The checks of a plain class accept every instance all of whose fields are set, whatever the order. -/
theorem schema_accepts {Γ : Classes} {d : StructDesc} {vals : Dict} (hd : Schema Γ d) (hi : Instance d vals)
    (hall : ∀ f ∈ d.components, ∃ w, Dict.get? vals f.name = some w) : Valid d vals := by
  let R : Dict := d.components.map fun f => (f.name, (Dict.get? vals f.name).getD .none)
  have hkR : Dict.keys R = names d := by simp [R, Dict.keys, names, Function.comp_def]
  have hRT : SameValues R vals := by
    intro k
    by_cases hk : k ∈ names d
    · obtain ⟨f, hf, rfl⟩ := List.mem_map.1 hk
      obtain ⟨w, hw⟩ := hall f hf
      rw [hw]
      refine Dict.get?_of_mem (by rw [hkR]; exact hd.unique) (List.mem_map.2 ⟨f, hf, ?_⟩)
      rw [hw]; rfl
    · rw [(Dict.get?_none_iff _ _).2 (by rw [hkR]; exact hk), (Dict.get?_none_iff _ _).2 fun hx => hk (hi.2 k hx)]
  rw [← validateContents_ok_iff, ← hRT.validateContents (by rw [hkR]; exact hd.unique) hi.1]
  exact validateContents_ok_iff.2 (hd.checks R hkR)

/-- `to_dict()` of an instance of a plain class with all fields set to things that are not structs returns. -/
theorem toDict_returns {Γ : Classes} {d : StructDesc} {vals : Dict} (hd : Schema Γ d) (hi : Instance d vals)
    (hset : ∀ f ∈ d.components, ∃ w, Dict.get? vals f.name = some w ∧ w ≠ .undefined ∧ NoStruct w) :
    ∃ n all, structToDict Γ n d vals = .ok all := by
  have hfull : Full d vals := by
    intro f hf
    obtain ⟨v, h1, h2, -⟩ := hset f hf
    obtain ⟨ha, hdis, -⟩ := hd.field hf
    exact Or.inl ⟨hdis, v, h1, Or.inr ⟨h2, ha.1 _ _ _⟩⟩
  obtain ⟨sh, h1, h2, h3, h4⟩ := toDictShallow_full hd.unique hi hfull
  obtain ⟨n, r, hr⟩ := mapE_total (g := recursiveToDicts Γ) (l := sh) (fun n m v h => recursiveToDicts_mono Γ h v) (by
    intro p hp
    obtain ⟨f, hf, hn⟩ := List.mem_map.1 (h3 p.1 (List.mem_map.2 ⟨p, hp, rfl⟩))
    obtain ⟨w, h5, -, h6⟩ := hset f hf
    have h7 := Dict.get?_of_mem h2 hp
    rw [← hn, h4 f hf, h5] at h7
    cases h7
    obtain ⟨n, hn⟩ := recursiveToDicts_total Γ h6
    exact ⟨n, _, hn⟩)
  exact ⟨n, r, by simp [structToDict, h1, hr]⟩

theorem Spec.Part.mono {Γ : Classes} {n m : Nat} (h : n ≤ m) {ctx : Value} {all : Dict} {f : Field} {p : Bytes} (hp : Part Γ n ctx all f p) :
    Part Γ m ctx all f p := by
  rcases hp with hp | ⟨v, h1, h2⟩
  · exact Or.inl hp
  · exact Or.inr ⟨v, h1, fieldToStream_of_le h h2⟩

theorem Spec.Parts.mono {Γ : Classes} {n m : Nat} (h : n ≤ m) {ctx : Value} {all : Dict} {fs : List Field} {ps : List Bytes}
    (hp : Parts Γ n ctx all fs ps) : Parts Γ m ctx all fs ps := by
  induction hp with
  | nil => exact .nil
  | cons h1 _ ih => exact .cons (h1.mono h) ih

/-- What is dumped for a field whose value is in the dictionary. -/
theorem compute_entry {b : FieldBase} {all : Dict} {ctx w : Value} (ha : Always b) (hw : Dict.get? all b.name = some w) (hu : w ≠ .undefined) :
    b.computeValueForDump all.view ctx = .ok w :=
  compute_set (ha.1 _ _ _) (by simp only [Dict.view, Dict.contains_eq, hw]; rfl) (by simp only [Dict.view, hw]) hu

/-- Structs whose values dump as the same bytes do so too. -/
theorem struct_again {Γ : Classes} {n : Nat} {d : StructDesc} {T U : Dict} {ctx : Value} {bs : Bytes} (hd : Schema Γ d)
    (hi : Instance d T) (hiU : Instance d U) (hset : ∀ f ∈ d.components, ∃ w, Dict.get? T f.name = some w ∧ w ≠ .undefined ∧ NoStruct w)
    (hsetU : ∀ f ∈ d.components, ∃ w, Dict.get? U f.name = some w ∧ w ≠ .undefined ∧ NoStruct w) (hUT : Identical (.dict U) (.dict T))
    (hnp : ∀ f ∈ d.components, Dict.get? T f.name ≠ some .notPresent)
    (ih : ∀ f ∈ d.components, ∀ w w', Dict.get? T f.name = some w → Dict.get? U f.name = some w' → ∀ all all', Identical (.dict all') (.dict all) →
      ∀ n p, fieldToStream Γ n f w ctx all = (p, .ok ()) → ∃ m, fieldToStream Γ m f w' ctx all' = (p, .ok ()))
    (h : structToStream Γ n d T ctx = (bs, .ok ())) : ∃ m, structToStream Γ m d U ctx = (bs, .ok ()) := by
  cases n with
  | zero => simp [structToStream, W.fail] at h
  | succ n =>
    obtain ⟨-, all, h1, ps, h2, rfl⟩ := structToStream_ok_iff.1 h
    have hall := toDict_given hd hi hset h1
    obtain ⟨M, all', h3⟩ := toDict_returns hd hiU hsetU
    have hall' := toDict_given hd hiU hsetU h3
    have hid : Identical (.dict all') (.dict all) := hUT.sameValues hall' hall
    have key : ∀ {fs : List Field} {ps : List Bytes}, Parts Γ n ctx all fs ps → (∀ f ∈ fs, f ∈ d.components) → ∃ M, Parts Γ M ctx all' fs ps := by
      intro fs ps hps
      induction hps with
      | nil => intro _; exact ⟨0, .nil⟩
      | @cons f fs p ps hp _ ihp =>
        intro hsub
        obtain ⟨M1, h4⟩ := ihp fun g hg => hsub g (List.mem_cons_of_mem _ hg)
        have hf := hsub f List.mem_cons_self
        obtain ⟨ha, -⟩ := hd.field hf
        obtain ⟨w, hw, hu, -⟩ := hset f hf
        obtain ⟨w', hw', hu', -⟩ := hsetU f hf
        obtain ⟨v, h5, h6⟩ := part_iff.1 hp
        rw [compute_entry ha (by rw [show f.base.name = f.name from rfl, hall, hw]) hu] at h5
        cases h5
        rcases h6 with ⟨rfl, -⟩ | ⟨h6, h7⟩
        · exact absurd hw (hnp f hf)
        · obtain ⟨M2, h8⟩ := ih f hf w w' hw hw' all all' hid n p h7
          have hne : w' ≠ .notPresent := by
            rintro rfl
            rcases hUT.lookup f.name with ⟨h9, -⟩ | ⟨x, y, h9, h10, h11⟩
            · rw [hw'] at h9; cases h9
            · rw [hw'] at h9; rw [hw] at h10; cases h9; cases h10
              cases h11
              exact h6 rfl
          refine ⟨max M1 M2, .cons (part_iff.2 ⟨w', compute_entry ha (by rw [show f.base.name = f.name from rfl, hall', hw']) hu', Or.inr ⟨hne, ?_⟩⟩)
            (h4.mono (Nat.le_max_left ..))⟩
          exact fieldToStream_of_le (Nat.le_max_right ..) h8
    obtain ⟨M', h4⟩ := key h2 fun _ hf => hf
    refine ⟨max M M' + 1, structToStream_ok_iff.2 ⟨schema_accepts hd hiU fun f hf => ?_, all', ?_, ps, h4.mono (Nat.le_max_right ..), rfl⟩⟩
    · obtain ⟨w, hw, -⟩ := hsetU f hf
      exact ⟨w, hw⟩
    · exact (structToDict_mono Γ (Nat.le_max_left M M') d U false).of_ok h3

/-- Dictionaries that differ in the order of keys only have the same keys. -/
theorem Spec.Identical.instance {d : StructDesc} {T U : Dict} (h : Identical (.dict U) (.dict T)) (hi : Instance d T) (hn : (Dict.keys U).Nodup) :
    Instance d U := by
  refine ⟨hn, fun k hk => hi.2 k ?_⟩
  rcases h.lookup k with ⟨h1, -⟩ | ⟨v, w, -, h2, -⟩
  · exact absurd hk ((Dict.get?_none_iff _ _).1 h1)
  · exact Dict.get?_some_key h2

theorem Spec.Identical.undefined {v w : Value} (h : Identical v w) (hw : w ≠ .undefined) : v ≠ .undefined := by
  rintro rfl
  cases h
  exact hw rfl

/-- **What differs in the order of keys only is written as the same bytes**, for values that match a plain field. -/
theorem identical_dump {Γ : Classes} (hΓ : ∀ c d, Γ c = some d → Schema Γ d) {f : Field} {w : Value} (ht : Typed Γ f w) :
    ∀ {earlier : List String} {w' : Value}, Layout earlier f → NoStruct w → Complete Γ f w → Identical w' w → DistinctKeys w' → NoStruct w' →
      ∀ {all all' : Dict}, Identical (.dict all') (.dict all) → ∀ n p ctx, fieldToStream Γ n f w ctx all = (p, .ok ()) →
        ∃ m, fieldToStream Γ m f w' ctx all' = (p, .ok ()) := by
  induction ht with
  | @leaf b k w h1 _ =>
    intro earlier w' hl _ _ hid _ _ all all' he n p ctx h
    have : w' = w := hid.atom (by rintro l rfl; cases k <;> simp [Scalar] at h1) (by rintro l rfl; cases k <;> simp [Scalar] at h1)
    subst this
    exact ⟨n, by rw [he.leafToStream (by rintro ops rfl; cases hl)]; exact h⟩
  | @array b comp count halt l _ ih =>
    intro earlier w' hl hns hc hid hdk hns' all all' he n p ctx h
    obtain ⟨l', rfl, hlen, hel⟩ := hid.list_inv
    cases hl with
    | array l1 l2 l3 l4 l5 =>
    cases hns with
    | list hns =>
    cases hc with
    | array hc =>
    cases hdk with
    | other hx => exact absurd rfl (hx _)
    | list hdk =>
    cases hns' with
    | list hns' =>
    refine container_again (by simp) (by simp) (by simp) (by simp) (by simp) (by simp) l2 he h fun k s hs => ?_
    simp only [containerDump, arrayDump, arrayElements, he.finalElementCount] at hs ⊢
    have hall : ∀ s, dumpAll (fun v => fieldToStream Γ k comp v ctx all) l = (s, .ok ()) →
        ∃ m, dumpAll (fun v => fieldToStream Γ m comp v ctx all') l' = (s, .ok ()) := by
      intro s hs
      obtain ⟨ps, hps, rfl, hp⟩ := dumpAll_ok hs
      obtain ⟨M, hM⟩ := common_fuel (l := List.range l.length)
        (P := fun m i => ∀ (hi : i < l'.length) (hi' : i < ps.length), fieldToStream Γ m comp l'[i] ctx all' = (ps[i], .ok ()))
        (fun hle h hi hi' => fieldToStream_of_le hle (h hi hi')) (fun i hi => by
          have hi := List.mem_range.1 hi
          obtain ⟨m, hm⟩ := ih l[i] (List.getElem_mem hi) l5 (hns _ (List.getElem_mem hi)) (hc _ (List.getElem_mem hi))
            (hel i l'[i] l[i] (List.getElem?_eq_getElem (by omega)) (List.getElem?_eq_getElem hi))
            (hdk _ (List.getElem_mem (by omega))) (hns' _ (List.getElem_mem (by omega))) he k ps[i] ctx (hp i hi (by omega))
          exact ⟨m, fun _ _ => hm⟩)
      exact ⟨M, dumpAll_of_parts (by omega) fun i hi hi' => hM i (List.mem_range.2 (by omega)) hi hi'⟩
    rw [hlen]
    cases hfe : finalElementCount count all with
    | error e => rw [hfe] at hs; simp [W.fail] at hs
    | ok o =>
      rw [hfe] at hs
      cases o with
      | none => exact hall s hs
      | some c =>
        simp only at hs ⊢
        by_cases hce : (l.length : Int) ≠ c
        · rw [if_pos hce] at hs; simp [W.fail] at hs
        · rw [if_neg hce] at hs
          simp only [if_neg hce]
          exact hall s hs
  | @dict b cls d vals h1 h2 h3 ih =>
    intro earlier w' hl hns hc hid hdk hns' all all' he n p ctx h
    obtain ⟨vals', rfl, -, -⟩ := hid.dict_inv
    have hd := hΓ _ _ h1
    cases hl with
    | nested l1 l2 =>
    cases hns with
    | dict hns =>
    cases hdk with
    | other _ hx => exact absurd rfl (hx _)
    | dict hnd hdk =>
    cases hns' with
    | dict hns' =>
    cases hc with
    | @dict _ _ d' _ c1 c2 c3 =>
    rw [h1] at c1; cases c1
    have hi' := hid.instance h2 hnd
    have hset : ∀ f ∈ d.components, ∃ w, Dict.get? vals f.name = some w ∧ w ≠ .undefined ∧ NoStruct w := by
      intro f hf
      obtain ⟨w, hw⟩ := Option.ne_none_iff_exists'.1 (c2 f hf)
      exact ⟨w, hw, (h3 f hf w hw).ne.2.2.1, hns _ (Dict.get?_some_mem hw)⟩
    have hset' : ∀ f ∈ d.components, ∃ w, Dict.get? vals' f.name = some w ∧ w ≠ .undefined ∧ NoStruct w := by
      intro f hf
      obtain ⟨w, hw, hu, -⟩ := hset f hf
      rcases hid.lookup f.name with ⟨-, h4⟩ | ⟨x, y, h4, h5, h6⟩
      · rw [hw] at h4; cases h4
      · rw [hw] at h5; cases h5
        exact ⟨x, h4, h6.undefined hu, hns' _ (Dict.get?_some_mem h4)⟩
    refine container_again (by simp) (by simp) (by simp) (by simp) (by simp) (by simp) l2 he h fun k s hs => ?_
    simp only [containerDump, dumpNew, h1] at hs ⊢
    rw [structInit_ok_iff.2 ⟨rfl, h2.2⟩] at hs
    rw [structInit_ok_iff.2 ⟨rfl, hi'.2⟩]
    refine struct_again hd h2 hi' hset hset' hid (fun f hf hx => (h3 f hf _ hx).ne.2.2.2 rfl) ?_ hs
    intro f hf w w' hw hw' all all' he n p hp
    obtain ⟨pre, post, hpre⟩ := List.append_of_mem hf
    obtain ⟨hlay, -⟩ := hd.fields pre f post hpre
    rcases hid.lookup f.name with ⟨-, h4⟩ | ⟨x, y, h4, h5, h6⟩
    · rw [hw] at h4; cases h4
    · rw [hw] at h5; rw [hw'] at h4; cases h4; cases h5
      exact ih f hf w hw hlay (hns _ (Dict.get?_some_mem hw)) (c3 f hf w hw) h6 (hdk _ (Dict.get?_some_mem hw')) (hns' _ (Dict.get?_some_mem hw')) he n p ctx hp
  | struct =>
    intro earlier w' _ hns
    cases hns

end Verif
