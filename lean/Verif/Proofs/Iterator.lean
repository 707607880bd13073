import Verif.Spec.Iterator
import Verif.Proofs.ToDict

/-!
# One-shot iterators: looking through them commutes with everything that does not iterate
-/

namespace Verif

open Spec

/-! ### `fill` -/

mutual
theorem fill_id : ∀ v : Value, fill id v = v
  | .list l => by simp only [fill, fillList_id l]
  | .iter _ => rfl
  | .dict d => by simp only [fill, fillDict_id d]
  | .struct _ d => by simp only [fill, fillDict_id d]
  | .none | .notPresent | .undefined | .dflt | .int _ | .bytes _ | .str _ | .float _ | .uuid _ | .datetime .. => rfl
theorem fillList_id : ∀ l : List Value, fillList id l = l
  | [] => rfl
  | v :: vs => by simp only [fillList, fill_id v, fillList_id vs]
theorem fillDict_id : ∀ d : List (String × Value), fillDict id d = d
  | [] => rfl
  | (k, v) :: r => by simp only [fillDict, fill_id v, fillDict_id r]
end

mutual
theorem fill_congr {σ τ : Its} : ∀ v : Value, (∀ k ∈ iterators v, σ k = τ k) → fill σ v = fill τ v
  | .list l, h => by simp only [fill, fillList_congr l h]
  | .iter k, h => by simp only [fill, h k (by simp [iterators])]
  | .dict d, h => by simp only [fill, fillDict_congr d h]
  | .struct _ d, h => by simp only [fill, fillDict_congr d h]
  | .none, _ | .notPresent, _ | .undefined, _ | .dflt, _ | .int _, _ | .bytes _, _ | .str _, _ | .float _, _ | .uuid _, _
  | .datetime .., _ => rfl
theorem fillList_congr {σ τ : Its} : ∀ l : List Value, (∀ k ∈ iteratorsList l, σ k = τ k) → fillList σ l = fillList τ l
  | [], _ => rfl
  | v :: vs, h => by
    simp only [fillList, fill_congr v fun k hk => h k (by simp [iteratorsList, hk]),
      fillList_congr vs fun k hk => h k (by simp [iteratorsList, hk])]
theorem fillDict_congr {σ τ : Its} : ∀ d : List (String × Value), (∀ k ∈ iteratorsDict d, σ k = τ k) →
    fillDict σ d = fillDict τ d
  | [], _ => rfl
  | (a, v) :: r, h => by
    simp only [fillDict, fill_congr v fun k hk => h k (by simp [iteratorsDict, hk]),
      fillDict_congr r fun k hk => h k (by simp [iteratorsDict, hk])]
end

theorem fill_iterFree {σ : Its} {v : Value} (h : iterators v = []) : fill σ v = v := by
  rw [fill_congr v (τ := id) (by simp [h]), fill_id]

theorem fillDict_iterFree {σ : Its} {d : Dict} (h : iteratorsDict d = []) : fillDict σ d = d := by
  rw [fillDict_congr d (τ := id) (by simp [h]), fillDict_id]

theorem fill_undefined {σ : Its} {v : Value} : fill σ v = .undefined ↔ v = .undefined := by cases v <;> simp [fill]
theorem fill_dflt {σ : Its} {v : Value} : fill σ v = .dflt ↔ v = .dflt := by cases v <;> simp [fill]
theorem fill_notPresent {σ : Its} {v : Value} : fill σ v = .notPresent ↔ v = .notPresent := by cases v <;> simp [fill]
theorem fill_none {σ : Its} {v : Value} : fill σ v = .none ↔ v = .none := by cases v <;> simp [fill]

/-! ### Dictionaries -/

theorem fillDict_eq_map (σ : Its) (d : Dict) : fillDict σ d = d.map fun p => (p.1, fill σ p.2) := by
  induction d with
  | nil => rfl
  | cons p d ih => simp only [fillDict, List.map_cons, ih]

theorem get?_fillDict (σ : Its) (d : Dict) (k : String) : Dict.get? (fillDict σ d) k = (Dict.get? d k).map (fill σ) := by
  induction d with
  | nil => rfl
  | cons p d ih =>
    obtain ⟨a, v⟩ := p
    simp only [fillDict, Dict.get?_cons]
    split <;> simp [ih]

theorem contains_fillDict (σ : Its) (d : Dict) (k : String) : Dict.contains (fillDict σ d) k = Dict.contains d k := by
  rw [Dict.contains_eq, Dict.contains_eq, get?_fillDict]; simp

theorem keys_fillDict (σ : Its) (d : Dict) : Dict.keys (fillDict σ d) = Dict.keys d := by
  rw [fillDict_eq_map]; simp [Dict.keys]

theorem set_fillDict (σ : Its) (d : Dict) (k : String) (v : Value) :
    Dict.set (fillDict σ d) k (fill σ v) = fillDict σ (Dict.set d k v) := by
  induction d with
  | nil => rfl
  | cons p d ih =>
    obtain ⟨a, w⟩ := p
    simp only [fillDict, Dict.set]
    split <;> simp [fillDict, ih]

theorem erase_fillDict (σ : Its) (d : Dict) (k : String) : Dict.erase (fillDict σ d) k = fillDict σ (Dict.erase d k) := by
  rw [fillDict_eq_map, fillDict_eq_map]; unfold Dict.erase; rw [List.filter_map]; rfl

theorem update_fillDict (σ : Its) (d e : Dict) : Dict.update (fillDict σ d) (fillDict σ e) = fillDict σ (Dict.update d e) := by
  unfold Dict.update
  induction e generalizing d with
  | nil => rfl
  | cons p e ih => simp only [fillDict, List.foldl_cons, set_fillDict, ih]

theorem view_fillDict (σ : Its) (d : Dict) : Dict.view (fillDict σ d) = fillView σ (Dict.view d) := by
  unfold Dict.view fillView
  simp only [contains_fillDict, get?_fillDict, View.mk.injEq, true_and]
  funext k
  cases Dict.get? d k <;> rfl

theorem definedKeys_fillDict (σ : Its) (d : Dict) : definedKeys (fillDict σ d) = definedKeys d := by
  rw [fillDict_eq_map]; unfold definedKeys Dict.keys
  rw [List.filter_map, List.map_map]
  simp only [Function.comp_def, ne_eq, fill_undefined]

theorem structContains_fillDict (σ : Its) (d : Dict) : structContains (fillDict σ d) = structContains d := by
  funext k; unfold structContains; rw [definedKeys_fillDict]

/-! ### Where a field's value comes from -/

theorem runValidators_fill {σ : Its} {cs : List (Value → Except Err Unit)} (h : ∀ c ∈ cs, ∀ σ v, c (fill σ v) = c v) (v : Value) :
    runValidators cs (fill σ v) = runValidators cs v := by
  induction cs with
  | nil => rfl
  | cons c cs ih =>
    simp only [runValidators, h c (List.mem_cons_self ..)]
    rw [ih fun c hc => h c (List.mem_cons_of_mem _ hc)]

/-- `Except.map` of a value the field supplies. -/
theorem map_fill_iterFree {σ : Its} {x : Except Err Value} (h : ∀ v, x = .ok v → IterFree v) : x.map (fill σ) = x := by
  cases x with
  | error e => rfl
  | ok v => simp only [Except.map, fill_iterFree (h v rfl).2]

theorem computeValueForDump_fill {σ : Its} {b : FieldBase} (hb : BlindBase b) (V : View) (ctx : Value) :
    b.computeValueForDump (fillView σ V) ctx = (b.computeValueForDump V ctx).map (fill σ) := by
  unfold FieldBase.computeValueForDump
  have tail : ∀ x : Except Err Value,
      (match x.map (fill σ) with
        | .error e => .error e
        | .ok v =>
          if v = .notPresent then .ok .notPresent
          else
            match b.present (fillView σ V) ctx none with
            | .error e => .error e
            | .ok false => .ok .notPresent
            | .ok true => if v = .undefined then .error (.missingRequired b.name) else .ok v : Except Err Value) =
      Except.map (fill σ) (match x with
        | .error e => .error e
        | .ok v =>
          if v = .notPresent then .ok .notPresent
          else
            match b.present V ctx none with
            | .error e => .error e
            | .ok false => .ok .notPresent
            | .ok true => if v = .undefined then .error (.missingRequired b.name) else .ok v) := by
    intro x
    cases x with
    | error e => rfl
    | ok v =>
      simp only [Except.map, fill_notPresent, fill_undefined, hb.present]
      by_cases h1 : v = .notPresent
      · simp only [if_pos h1, fill]
      · simp only [if_neg h1]
        rcases b.present V ctx none with e | _ | _
        · rfl
        · rfl
        · by_cases h2 : v = .undefined
          · simp only [if_pos h2]
          · simp only [if_neg h2]
  by_cases h1 : V.contains b.name = true
  · simp only [if_pos (show (fillView σ V).contains b.name = true from h1), if_pos h1]
    exact tail (V.get b.name)
  · simp only [if_neg (show ¬ (fillView σ V).contains b.name = true from h1), if_neg h1]
    by_cases h2 : b.dflt ≠ .undefined
    · simp only [if_pos h2]
      have := tail b.default
      rw [map_fill_iterFree hb.default] at this
      exact this
    · simp only [if_neg h2]
      cases hc : b.computeFn with
      | none => exact tail (.ok .undefined)
      | some fn =>
        have := tail (fn V)
        rw [map_fill_iterFree ((hb.compute fn hc).2 V)] at this
        simp only [(hb.compute fn hc).1]
        exact this

/-- A value found for dumping is stored, or the field's own. -/
theorem computeValueForDump_source {b : FieldBase} (hb : BlindBase b) {V : View} {ctx v : Value}
    (h : b.computeValueForDump V ctx = .ok v) : IterFree v ∨ (V.contains b.name = true ∧ V.get b.name = .ok v) := by
  unfold FieldBase.computeValueForDump at h
  simp only at h
  have hnp : IterFree .notPresent := ⟨trivial, rfl⟩
  by_cases h1 : V.contains b.name = true
  · rw [if_pos h1] at h
    split at h
    · cases h
    · rename_i w hw
      split at h
      · cases h; exact Or.inl hnp
      · split at h
        · cases h
        · cases h; exact Or.inl hnp
        · split at h
          · cases h
          · cases h; exact Or.inr ⟨h1, hw⟩
  · rw [if_neg h1] at h
    left
    split at h
    · cases h
    · rename_i w hw
      have hw' : IterFree w := by
        split at hw
        · exact hb.default w hw
        · split at hw
          · rename_i fn hfn; exact (hb.compute fn hfn).2 V w hw
          · cases hw; exact ⟨trivial, rfl⟩
      split at h
      · cases h; exact hnp
      · split at h
        · cases h
        · cases h; exact hnp
        · split at h
          · cases h
          · cases h; exact hw'

theorem Spec.BlindField.base {f : Field} (h : BlindField f) : BlindBase f.base := by cases h <;> assumption

theorem structGet_fill {σ : Its} {d : StructDesc} (hd : BlindClass d) (vals : Dict) (n : Nat) (name : String) :
    structGet d (fillDict σ vals) n name = (structGet d vals n name).map (fill σ) := by
  induction n generalizing name with
  | zero => rfl
  | succ n ih =>
    simp only [structGet, get?_fillDict]
    cases hf : d.find? name with
    | none => rfl
    | some f =>
      simp only
      cases hv : Dict.get? vals name with
      | some v => rfl
      | none =>
        simp only [Option.map_none]
        have : (⟨structContains (fillDict σ vals), structGet d (fillDict σ vals) n⟩ : View) =
            fillView σ ⟨structContains vals, structGet d vals n⟩ := by
          unfold fillView
          simp only [structContains_fillDict, View.mk.injEq, true_and]
          funext k; exact ih k
        rw [this]
        exact computeValueForDump_fill (hd.fields f (find?_some hf).1).base _ _

theorem structGetItem_fill {σ : Its} {d : StructDesc} (hd : BlindClass d) (vals : Dict) (name : String) :
    structGetItem d (fillDict σ vals) name = (structGetItem d vals name).map (fill σ) := structGet_fill hd vals _ name

theorem structView_fill {σ : Its} {d : StructDesc} (hd : BlindClass d) (vals : Dict) :
    structView d (fillDict σ vals) = fillView σ (structView d vals) := by
  unfold structView fillView
  simp only [structContains_fillDict, View.mk.injEq, true_and]
  funext k; exact structGetItem_fill hd vals k

/-! ### Validation -/

theorem runAll_congr {α : Type} {p q : α → Except Err Unit} {l : List α} (h : ∀ a ∈ l, p a = q a) : runAll p l = runAll q l := by
  induction l with
  | nil => rfl
  | cons a l ih =>
    simp only [runAll, h a (List.mem_cons_self ..)]
    rw [ih fun a ha => h a (List.mem_cons_of_mem _ ha)]

theorem validateContents_fill {σ : Its} {d : StructDesc} (hd : BlindClass d) (vals : Dict) :
    validateContents d (fillDict σ vals) = validateContents d vals := by
  unfold validateContents
  have h1 : runAll (validateField d (fillDict σ vals)) d.fieldValidators = runAll (validateField d vals) d.fieldValidators := by
    refine runAll_congr fun p hp => ?_
    unfold validateField
    cases hf : d.find? p.1 with
    | none => rfl
    | some f =>
      simp only [structGetItem_fill hd]
      cases structGetItem d vals p.1 with
      | error e => rfl
      | ok v =>
        simp only [Except.map]
        rw [runValidators_fill (hd.fields f (find?_some hf).1).base.validators]
        rw [structView_fill hd]
        rw [runAll_congr fun m hm => hd.methods p hp m hm σ _ v]
  rw [h1]
  have h2 : runAll (fun v => v (structView d (fillDict σ vals))) d.structValidators =
      runAll (fun v => v (structView d vals)) d.structValidators := by
    refine runAll_congr fun m hm => ?_
    rw [structView_fill hd, hd.validators m hm]
  rw [h2]

/-! ### `to_dict` -/

theorem whateverLoop_fill {σ : Its} {d : StructDesc} (hd : BlindClass d) (vals : Dict) {fs : List Field}
    (hfs : ∀ f ∈ fs, f ∈ d.components) (acc : Dict) :
    whateverLoop d (fillDict σ vals) fs (fillDict σ acc) = (whateverLoop d vals fs acc).map (fillDict σ) := by
  induction fs generalizing acc with
  | nil => rfl
  | cons f fs ih =>
    have ih := ih fun g hg => hfs g (List.mem_cons_of_mem _ hg)
    simp only [whateverLoop, structView_fill hd, computeValueForDump_fill (hd.fields f (hfs f (List.mem_cons_self ..))).base]
    cases f.base.computeValueForDump (structView d vals) .none with
    | ok v =>
      simp only [Except.map, set_fillDict]
      exact ih _
    | error e =>
      simp only [Except.map]
      split
      · exact ih acc
      · rfl

theorem chainLoop_fill {σ : Its} {d : StructDesc} (hd : BlindClass d) (vals dct : Dict) (ks : List String) :
    chainLoop d (fillDict σ vals) (fillDict σ dct) ks = (chainLoop d vals dct ks).map (fillDict σ) := by
  induction ks with
  | nil => rfl
  | cons k ks ih =>
    simp only [chainLoop, get?_fillDict, structGetItem_fill hd, ih]
    cases Dict.get? dct k with
    | some v =>
      simp only [Option.map_some]
      cases chainLoop d vals dct ks <;> rfl
    | none =>
      simp only [Option.map_none]
      cases structGetItem d vals k with
      | error e => rfl
      | ok v =>
        simp only [Except.map]
        cases chainLoop d vals dct ks <;> rfl

theorem whateverPossible_fill {σ : Its} {d : StructDesc} (hd : BlindClass d) (vals : Dict) :
    whateverPossible d (fillDict σ vals) = (whateverPossible d vals).map (fillDict σ) := by
  unfold whateverPossible
  have := whateverLoop_fill (σ := σ) hd vals (fun _ h => h) []
  simp only [fillDict] at this
  rw [this]
  cases whateverLoop d vals d.components [] with
  | error e => rfl
  | ok dct => simp only [Except.map, definedKeys_fillDict, keys_fillDict, chainLoop_fill hd]

theorem missingLoop_fill {σ : Its} {dct : Dict} {fs : List Field} (hfs : ∀ f ∈ fs, BlindField f) :
    missingLoop (fillDict σ dct) fs = (missingLoop dct fs).map (fillDict σ) := by
  induction fs with
  | nil => rfl
  | cons f fs ih =>
    have ih := ih fun g hg => hfs g (List.mem_cons_of_mem _ hg)
    simp only [missingLoop, contains_fillDict, view_fillDict, computeValueForDump_fill (hfs f (List.mem_cons_self ..)).base, ih]
    split
    · rfl
    · cases f.base.computeValueForDump dct.view .none with
      | error e => rfl
      | ok v =>
        simp only [Except.map]
        cases missingLoop dct fs <;> rfl

theorem foldl_erase_fillDict (σ : Its) (fs : List Field) (dct : Dict) :
    fs.foldl (fun (dct : Dict) f => dct.erase f.name) (fillDict σ dct) =
      fillDict σ (fs.foldl (fun (dct : Dict) f => dct.erase f.name) dct) := by
  induction fs generalizing dct with
  | nil => rfl
  | cons f fs ih => simp only [List.foldl_cons, erase_fillDict, ih]

theorem toDictShallow_fill {σ : Its} {d : StructDesc} (hd : BlindClass d) (vals : Dict) (keep : Bool) :
    toDictShallow d (fillDict σ vals) keep = (toDictShallow d vals keep).map (fillDict σ) := by
  unfold toDictShallow
  rw [whateverPossible_fill hd]
  cases whateverPossible d vals with
  | error e => rfl
  | ok dct =>
    simp only [Except.map]
    rw [missingLoop_fill hd.fields]
    cases missingLoop dct d.components with
    | error e => rfl
    | ok more =>
      simp only [Except.map, update_fillDict, foldl_erase_fillDict]
      cases keep <;> rfl

theorem mapE_fillList {σ : Its} {g : Value → Except Err Value} (h : ∀ v, g (fill σ v) = (g v).map (fill σ)) (l : List Value) :
    mapE g (fillList σ l) = (mapE g l).map (fillList σ) := by
  induction l with
  | nil => rfl
  | cons v l ih =>
    simp only [fillList, mapE, h, ih]
    cases g v with
    | error e => rfl
    | ok w =>
      simp only [Except.map]
      cases mapE g l <;> rfl

theorem mapDictE_fillDict {σ : Its} {g : Value → Except Err Value} (h : ∀ v, g (fill σ v) = (g v).map (fill σ)) (d : Dict) :
    mapDictE g (fillDict σ d) = (mapDictE g d).map (fillDict σ) := by
  unfold mapDictE
  induction d with
  | nil => rfl
  | cons p d ih =>
    obtain ⟨k, v⟩ := p
    simp only [fillDict, mapE, h, ih]
    cases g v with
    | error e => rfl
    | ok w =>
      simp only [Except.map]
      generalize mapE _ d = x
      cases x <;> rfl

theorem recursiveToDicts_fill {σ : Its} {Γ : Classes} (hΓ : ∀ c d, Γ c = some d → BlindClass d) (n : Nat) (v : Value) :
    recursiveToDicts Γ n (fill σ v) = (recursiveToDicts Γ n v).map (fill σ) := by
  induction n generalizing v with
  | zero => rfl
  | succ n ih =>
    cases v with
    | list l =>
      simp only [recursiveToDicts, fill, mapE_fillList ih]
      cases mapE (recursiveToDicts Γ n) l <;> rfl
    | dict d =>
      simp only [recursiveToDicts, fill, mapDictE_fillDict ih]
      cases mapDictE (recursiveToDicts Γ n) d <;> rfl
    | struct c d =>
      simp only [recursiveToDicts, fill]
      cases hc : Γ c with
      | none => rfl
      | some dd =>
        simp only [toDictShallow_fill (hΓ c dd hc)]
        cases toDictShallow dd d false with
        | error e => rfl
        | ok dct =>
          simp only [Except.map]
          rw [mapDictE_fillDict ih]
          cases mapDictE (recursiveToDicts Γ n) dct <;> rfl
    | _ => rfl

theorem structToDict_fill {σ : Its} {Γ : Classes} (hΓ : ∀ c d, Γ c = some d → BlindClass d) (n : Nat) {d : StructDesc}
    (hd : BlindClass d) (vals : Dict) (keep : Bool) :
    structToDict Γ n d (fillDict σ vals) keep = (structToDict Γ n d vals keep).map (fillDict σ) := by
  unfold structToDict
  rw [toDictShallow_fill hd]
  cases toDictShallow d vals keep with
  | error e => rfl
  | ok dct =>
    simp only [Except.map]
    rw [mapDictE_fillDict (recursiveToDicts_fill hΓ n)]
    rfl

end Verif
