import Verif.Spec.DumpErrors
import Verif.Proofs.Optional
import Verif.Proofs.Timestamp
import Verif.Proofs.Robust

/-! Helper lemmas: what dumping raises. -/

namespace Verif
open Spec

section Declared
variable {E : Err → Prop}

theorem Spec.Declared.of_ser {e : Err} (h : e.isSerialization = true) : Declared E e := Or.inl h

/-! ### Choosing the values -/

theorem computeValueForDump_declared {b : FieldBase} (hb : Mild E b) {V : View} (hV : Lookups E V)
    (hown : ∀ e, V.contains b.name = true → V.get b.name ≠ .error e) {ctx : Value} {e : Err}
    (h : b.computeValueForDump V ctx = .error e) : Declared E e := by
  unfold FieldBase.computeValueForDump at h
  simp only at h
  split at h
  · rename_i e' he
    cases h
    split at he
    · rename_i hc; exact absurd he (hown _ hc)
    · split at he
      · exact hb.default _ he
      · split at he
        · rename_i fn hfn; exact hb.compute fn V _ hfn hV he
        · simp at he
  · split at h
    · simp at h
    · split at h
      · rename_i e' he; cases h; exact hb.present V ctx _ hV he
      · simp at h
      · split at h
        · cases h; exact .of_ser rfl
        · simp at h

theorem contains_get {vals : Dict} (hn : (Dict.keys vals).Nodup) {k : String} (h : structContains vals k = true) :
    Dict.get? vals k ≠ none := by
  obtain ⟨v, hv, -⟩ := (structContains_iff hn).1 h
  simp [hv]

theorem structGet_lookups {d : StructDesc} (hd : ∀ f ∈ d.components, Mild E f.base) {vals : Dict} (hn : (Dict.keys vals).Nodup) (n : Nat) :
    ∀ k e, structGet d vals n k = .error e → Declared E e ∨ (∃ name, e = .keyErr name) ∨ e = .recursionErr := by
  induction n with
  | zero => intro k e h; simp [structGet] at h; exact .inr (.inr h.symm)
  | succ n ih =>
    intro k e h
    simp only [structGet] at h
    split at h
    · cases h; exact .inr (.inl ⟨_, rfl⟩)
    · rename_i f hf
      obtain ⟨hm, rfl⟩ := find?_some hf
      split at h
      · simp at h
      · rename_i hnone
        exact .inl (computeValueForDump_declared (V := ⟨structContains vals, structGet d vals n⟩) (hd f hm) ih (fun e hc => absurd hnone (contains_get hn hc)) h)

theorem structView_lookups {d : StructDesc} (hd : ∀ f ∈ d.components, Mild E f.base) {vals : Dict} (hn : (Dict.keys vals).Nodup) :
    Lookups E (structView d vals) := structGet_lookups hd hn _

theorem dictView_lookups (d : Dict) : Lookups E d.view := by
  intro k e h
  simp only [Dict.view] at h
  split at h
  · simp at h
  · cases h; exact .inr (.inl ⟨_, rfl⟩)

theorem dictView_own {d : Dict} {k : String} (e : Err) (h : d.view.contains k = true) : d.view.get k ≠ .error e := by
  simp only [Dict.view, Dict.contains_eq] at h ⊢
  split
  · simp
  · rename_i hn; rw [hn] at h; simp at h

theorem structGetItem_declared {d : StructDesc} (hd : ∀ f ∈ d.components, Mild E f.base) {vals : Dict} (hn : (Dict.keys vals).Nodup)
    {k : String} (hk : k ∈ names d) {e : Err} (h : structGetItem d vals k = .error e) : Declared E e := by
  unfold structGetItem at h
  simp only [structGet] at h
  split at h
  · rename_i hf
    have := has_iff.2 hk
    unfold StructDesc.has at this
    rw [hf] at this; simp at this
  · rename_i f hf
    obtain ⟨hm, rfl⟩ := find?_some hf
    split at h
    · simp at h
    · rename_i hnone
      exact computeValueForDump_declared (V := ⟨structContains vals, structGet d vals d.components.length⟩) (hd f hm) (structGet_lookups hd hn _) (fun e hc => absurd hnone (contains_get hn hc)) h

theorem structView_own {d : StructDesc} {vals : Dict} (hi : Instance d vals) {k : String} (e : Err)
    (h : (structView d vals).contains k = true) : (structView d vals).get k ≠ .error e := by
  obtain ⟨v, hv, -⟩ := (structContains_iff hi.1).1 h
  have hk : k ∈ names d := hi.2 k (List.mem_map.2 ⟨(k, v), Dict.get?_some_mem hv, rfl⟩)
  show structGetItem d vals k ≠ _
  rw [structGetItem_some hk hv]
  simp

theorem runValidators_declared {l : List (Value → Except Err Unit)} {v : Value} (h : ∀ c ∈ l, ∀ e, c v = .error e → Declared E e) {e : Err}
    (he : runValidators l v = .error e) : Declared E e := by
  induction l with
  | nil => simp [runValidators] at he
  | cons c l ih =>
    simp only [runValidators] at he
    split at he
    · rename_i e' h'; cases he; exact h c List.mem_cons_self _ h'
    · exact ih (fun c hc => h c (List.mem_cons_of_mem _ hc)) he

theorem runAll_declared {α : Type} {check : α → Except Err Unit} {l : List α} (h : ∀ a ∈ l, ∀ e, check a = .error e → Declared E e) {e : Err}
    (he : runAll check l = .error e) : Declared E e := by
  induction l with
  | nil => simp [runAll] at he
  | cons c l ih =>
    simp only [runAll] at he
    split at he
    · rename_i e' h'; cases he; exact h c List.mem_cons_self _ h'
    · exact ih (fun c hc => h c (List.mem_cons_of_mem _ hc)) he

theorem validateContents_declared {Γ : Classes} {d : StructDesc} (hd : DumpableClass Γ E d) (hm : ∀ f ∈ d.components, Mild E f.base)
    {vals : Dict} (hi : Instance d vals) {e : Err} (h : validateContents d vals = .error e) : Declared E e := by
  unfold validateContents at h
  split at h
  · rename_i e' he
    cases h
    refine runAll_declared (fun p hp e he => ?_) he
    obtain ⟨hk, hms⟩ := hd.methods p hp
    unfold validateField at he
    split at he
    · rename_i hf
      have := has_iff.2 hk
      unfold StructDesc.has at this
      rw [hf] at this; simp at this
    · rename_i f hf
      split at he
      · rename_i e' he'; cases he; exact structGetItem_declared hm hi.1 hk he'
      · split at he
        · rename_i e' he'
          cases he
          exact runValidators_declared (fun c hc e he => (hm f (find?_some hf).1).validators c hc _ e he) he'
        · exact runAll_declared (fun m hmem e he => hms m hmem _ _ e (structView_lookups hm hi.1) he) he
  · exact runAll_declared (fun m hmem e he => hd.validators m hmem _ e (structView_lookups hm hi.1) he) h

theorem whateverLoop_declared {d : StructDesc} (hm : ∀ f ∈ d.components, Mild E f.base) {vals : Dict} (hi : Instance d vals)
    {fs : List Field} (hfs : ∀ f ∈ fs, f ∈ d.components) {acc : Dict} {e : Err} (h : whateverLoop d vals fs acc = .error e) :
    Declared E e := by
  induction fs generalizing acc with
  | nil => simp [whateverLoop] at h
  | cons f fs ih =>
    have ih' := @ih fun g hg => hfs g (List.mem_cons_of_mem _ hg)
    simp only [whateverLoop] at h
    split at h
    · exact ih' h
    · rename_i e' he
      split at h
      · exact ih' h
      · cases h
        exact computeValueForDump_declared (hm f (hfs f List.mem_cons_self)) (structView_lookups hm hi.1)
          (fun e hc => structView_own hi e hc) he

theorem chainLoop_never {d : StructDesc} {vals dct : Dict} (hi : Instance d vals) {ks : List String}
    (hks : ∀ k ∈ ks, k ∈ definedKeys vals ∨ k ∈ Dict.keys dct) {e : Err} : chainLoop d vals dct ks ≠ .error e := by
  induction ks with
  | nil => simp [chainLoop]
  | cons k ks ih =>
    intro h
    simp only [chainLoop] at h
    split at h
    · rename_i e' he
      split at he
      · simp at he
      · rename_i hnone
        rcases hks k List.mem_cons_self with h1 | h1
        · obtain ⟨v, hv, -⟩ := (mem_definedKeys hi.1).1 h1
          rw [structGetItem_some (hi.2 k (List.mem_map.2 ⟨(k, v), Dict.get?_some_mem hv, rfl⟩)) hv] at he
          simp at he
        · exact absurd h1 ((Dict.get?_none_iff _ _).1 hnone)
    · split at h
      · rename_i e' he; cases h; exact ih (fun k hk => hks k (List.mem_cons_of_mem _ hk)) he
      · simp at h

theorem missingLoop_declared {dct : Dict} {fs : List Field} (hm : ∀ f ∈ fs, Mild E f.base) {e : Err} (h : missingLoop dct fs = .error e) :
    Declared E e := by
  induction fs with
  | nil => simp [missingLoop] at h
  | cons f fs ih =>
    have ih' := ih fun g hg => hm g (List.mem_cons_of_mem _ hg)
    simp only [missingLoop] at h
    split at h
    · exact ih' h
    · split at h
      · rename_i e' he
        cases h
        exact computeValueForDump_declared (hm f List.mem_cons_self) (dictView_lookups dct) (fun e hc => dictView_own e hc) he
      · split at h
        · rename_i e' he; cases h; exact ih' he
        · simp at h

theorem toDictShallow_declared {d : StructDesc} (hm : ∀ f ∈ d.components, Mild E f.base) {vals : Dict} (hi : Instance d vals)
    {keep : Bool} {e : Err} (h : toDictShallow d vals keep = .error e) : Declared E e := by
  unfold toDictShallow at h
  split at h
  · rename_i e' he
    cases h
    unfold whateverPossible at he
    split at he
    · rename_i e' he'; cases he; exact whateverLoop_declared hm hi (fun f hf => hf) he'
    · refine absurd he (chainLoop_never hi fun k hk => ?_)
      rcases List.mem_append.1 hk with h1 | h1
      · exact .inl h1
      · exact .inr (List.mem_filter.1 h1).1
  · split at h
    · rename_i e' he; cases h; exact missingLoop_declared hm he
    · simp at h

/-! ### Types are kept -/

theorem Spec.OfType.mono {Γ : Classes} {raw : Bool} {t t' : Dict → Prop} {f : Field} {v : Value} (h : OfType Γ raw t f v)
    (ht : ∀ all, t' all → t all) : OfType Γ raw t' f v := by
  induction h with
  | unset => exact .unset
  | none => exact .none
  | absent h => exact .absent h
  | leaf h => exact .leaf h
  | list _ h ih => exact .list (fun v hv => ih v hv ht) h
  | iter _ h ih => exact .iter (fun v hv => ih v hv ht) h
  | dict h1 h2 h3 _ => exact .dict h1 h2 h3
  | struct h1 h2 h3 _ => exact .struct h1 h2 h3
  | unionField h1 _ _ _ h2 ih1 ih2 ih3 =>
    exact .unionField h1 (ih1 ht) (fun v ctx all i g hv ha hd hi => ih2 v ctx all i g hv (ht all ha) hd hi ht)
      (fun v ctx all i c hv ha hd hi => ih3 v ctx all i c hv (ht all ha) hd hi ht) h2
  | unionStruct h1 _ _ _ h2 ih1 ih2 ih3 =>
    exact .unionStruct h1 (ih1 ht) (fun v ctx all i g hv ha hd hi => ih2 v ctx all i g hv (ht all ha) hd hi ht)
      (fun v ctx all i c hv ha hd hi => ih3 v ctx all i c hv (ht all ha) hd hi ht) h2

theorem Spec.OfType.counter {Γ : Classes} {raw : Bool} {tags : Dict → Prop} {f : Field} {v : Value} (hc : Counter f) (h : OfType Γ raw tags f v) :
    v = .undefined ∨ v = .none ∨ ∃ i, v = .int i := by
  obtain ⟨b, k, rfl, hk, ha⟩ := hc
  cases h with
  | unset => exact .inl rfl
  | none => exact .inr (.inl rfl)
  | absent h => exact absurd ⟨b, k, rfl, hk, ha⟩ h
  | leaf h =>
    rcases hk with ⟨sg, en, rfl⟩ | ⟨enc, m, rfl⟩ <;> (cases v <;> simp [Kind] at h ⊢)

theorem Spec.OfType.cooked {Γ : Classes} {raw : Bool} {tags : Dict → Prop} {f : Field} {v : Value} (h : OfType Γ raw tags f v) :
    OfType Γ false tags f v := by
  induction h with
  | unset => exact .unset
  | none => exact .none
  | absent h => exact .absent h
  | leaf h => exact .leaf h
  | list _ h2 ih => exact .list ih h2
  | iter h1 h2 => exact .iter h1 h2
  | dict h1 h2 h3 => exact .dict h1 h2 h3
  | struct h1 h2 h3 => exact .struct h1 h2 h3
  | unionField h1 _ _ _ _ ih1 ih2 ih3 => exact .unionField h1 ih1 ih2 ih3 (by simp)
  | unionStruct h1 _ _ _ _ ih1 ih2 ih3 => exact .unionStruct h1 ih1 ih2 ih3 (by simp)

theorem computed_ofType {Γ : Classes} {raw : Bool} {tags : Dict → Prop} {f : Field} {view : View} {ctx v : Value} (hs : SuppliesType Γ f)
    (hraw : raw = true → f.base.discard = true)
    (hv : ∀ w, view.contains f.name = true → view.get f.name = .ok w → OfType Γ raw tags f w)
    (h : f.base.computeValueForDump view ctx = .ok v) : OfType Γ raw tags f v := by
  have hraw' : ∀ {tags : Dict → Prop} {w : Value}, OfType Γ f.base.discard tags f w → OfType Γ raw tags f w := by
    intro tags w h
    cases raw with
    | false => exact h.cooked
    | true => rw [← hraw rfl]; exact h
  have hch : ∀ w, Chosen f.base view w → OfType Γ raw tags f w := by
    intro w hw
    cases hw with
    | explicit h1 h2 => exact hv _ h1 h2
    | default h1 h2 h3 => exact hraw' <| (hs.1 _ h2 h3).mono fun _ _ => trivial
    | computed h1 h2 h3 h4 => exact hraw' <| (hs.2 _ _ _ h3 h4).mono fun _ _ => trivial
    | nothing => exact .unset
  obtain ⟨w, h1, ⟨rfl, h2⟩ | ⟨rfl, -, h2, -⟩⟩ := computeValueForDump_ok h
  · rcases h2 with rfl | h2
    · exact hch _ h1
    · refine .absent ?_
      rintro ⟨b, k, rfl, -, ha, -⟩
      exact absurd (h2.symm.trans (ha _ _ _)) (by simp)
  · exact hch _ h1

theorem Spec.DumpableClass.field {Γ : Classes} {d : StructDesc} (h : DumpableClass Γ E d) {f : Field} (hf : f ∈ d.components) :
    SuppliesType Γ f := by
  obtain ⟨pre, post, hd⟩ := List.append_of_mem hf
  exact (h.fields pre f post hd).2

theorem dictValue_ofType {Γ : Classes} {tags : Dict → Prop} {d : StructDesc} {vals : Dict} (hd : DumpableClass Γ E d) (hi : Instance d vals)
    (ht : ∀ f ∈ d.components, ∀ w, Dict.get? vals f.name = some w → OfType Γ false tags f w) {f : Field} (hf : f ∈ d.components) {v : Value}
    (h : DictValue d vals f v) : OfType Γ false tags f v := by
  have hs := hd.field hf
  rcases h with h | ⟨e, -, -, ⟨-, h⟩ | ⟨-, dct, -, h1, h2⟩⟩
  · refine computed_ofType hs (by simp) (fun w h1 h2 => ?_) h
    obtain ⟨x, hx, -⟩ := (structContains_iff hi.1).1 h1
    have h3 := structGetItem_some (List.mem_map.2 ⟨f, hf, rfl⟩) hx
    simp only [structView] at h2
    rw [h3] at h2; cases h2
    exact ht f hf _ hx
  · exact ht f hf _ h
  · refine computed_ofType hs (by simp) (fun w h3 _ => ?_) h2
    simp only [Dict.view, Dict.contains_eq, h1] at h3
    simp at h3

theorem toDicts_notPresent {Γ : Classes} {n : Nat} {v : Value} (h : recursiveToDicts Γ n v = .ok .notPresent) : v = .notPresent := by
  cases n with
  | zero => simp [recursiveToDicts] at h
  | succ n =>
    cases v with
    | struct c vals =>
      simp only [recursiveToDicts] at h
      split at h
      · simp at h
      · split at h
        · simp at h
        · obtain ⟨r, -, hr⟩ := Except.map_ok h; cases hr
    | dict vals => simp only [recursiveToDicts] at h; obtain ⟨r, -, hr⟩ := Except.map_ok h; cases hr
    | list l => simp only [recursiveToDicts] at h; obtain ⟨r, -, hr⟩ := Except.map_ok h; cases hr
    | _ => simp [recursiveToDicts] at h ⊢

theorem Kind.noStruct {k : Leaf} {w : Value} (h : Kind k w) : NoStruct w := by
  cases w with
  | list l => cases k <;> simp [Kind] at h
  | dict l => cases k <;> simp [Kind] at h
  | struct c l => cases k <;> simp [Kind] at h
  | _ => constructor

theorem kind_ne_undefined {k : Leaf} {v : Value} (h : Kind k v) : v ≠ .undefined := by
  rintro rfl; cases k <;> simp [Kind] at h

theorem tag_compute {d : StructDesc} {vals : Dict} (hu : UniqueNames d) (hi : Instance d vals) {b : FieldBase} {k : Leaf} {v : Value}
    (hf : Field.leaf b k ∈ d.components) (ha : Always b) (hc : b.computeFn = none) (hk : Kind k v) (h : structGetItem d vals b.name = .ok v) :
    b.computeValueForDump (structView d vals) .none = .ok v := by
  have hmem : b.name ∈ names d := List.mem_map.2 ⟨_, hf, rfl⟩
  cases hg : Dict.get? vals b.name with
  | some x =>
    have h1 := structGetItem_some hmem hg
    rw [h] at h1; cases h1
    exact compute_set (ha.1 _ _ _) ((structContains_iff hi.1).2 ⟨_, hg, (kind_ne_undefined hk)⟩) h (kind_ne_undefined hk)
  | none =>
    rw [← solid_get hu hi.1 hf ha (traceable_of_none hc) (by rw [hg]; simp)]
    exact h

/-- `to_dict` keeps the values of plain fields. -/
theorem tags_shallow {d : StructDesc} {vals dct : Dict} (hu : UniqueNames d) (hi : Instance d vals) (h : toDictShallow d vals false = .ok dct) :
    TagsKept d vals dct := by
  intro b k v hf ha hc hd hk hv
  have hcomp := tag_compute hu hi hf ha hc hk hv
  obtain ⟨-, -, h8⟩ := toDictShallow_get hu hi h
  rcases h8 _ hf with ⟨-, h9, -⟩ | ⟨-, x, h9, h10⟩
  · rw [show (Field.leaf b k).base = b from rfl, hd] at h9; simp at h9
  · rcases h9 with h9 | ⟨e, h9, -⟩
    · rw [show (Field.leaf b k).base = b from rfl, hcomp] at h9; cases h9; exact h10
    · rw [show (Field.leaf b k).base = b from rfl, hcomp] at h9; simp at h9

theorem tags_mapped {Γ : Classes} {n : Nat} {d : StructDesc} {vals dct r : Dict} (h : TagsKept d vals dct)
    (hr : mapDictE (recursiveToDicts Γ n) dct = .ok r) : TagsKept d vals r := by
  intro b k v hf ha hc hd hk hv
  rcases (mapDictE_ok hr).2 b.name with ⟨h1, -⟩ | ⟨x, y, h1, h2, h3⟩
  · rw [h b k v hf ha hc hd hk hv] at h1; simp at h1
  · rw [h b k v hf ha hc hd hk hv] at h1; cases h1
    rw [(recursiveToDicts_spec h3).2 (Kind.noStruct hk)] at h2
    exact h2

theorem tags_toDict {Γ : Classes} {n : Nat} {d : StructDesc} {vals all : Dict} (hu : UniqueNames d) (hi : Instance d vals)
    (h : structToDict Γ n d vals = .ok all) : TagsKept d vals all := by
  unfold structToDict at h
  split at h
  · simp at h
  · rename_i dct hdct
    exact tags_mapped (tags_shallow hu hi hdct) h

/-- The dictionary made of a struct has the same plain fields. -/
theorem tags_struct {d : StructDesc} {vals r all : Dict} (h : TagsKept d vals r) (ha : TagsKept d r all) : TagsKept d vals all := by
  intro b k v hf ha' hc hd hk hv
  exact ha b k v hf ha' hc hd hk (structGetItem_some (List.mem_map.2 ⟨_, hf, rfl⟩) (h b k v hf ha' hc hd hk hv))

theorem tags_dict {Γ : Classes} {n : Nat} {d : StructDesc} {vals r all : Dict} (hu : UniqueNames d) (hi : Instance d vals)
    (hr : mapDictE (recursiveToDicts Γ n) vals = .ok r) (ha : TagsKept d r all) : TagsKept d vals all := by
  intro b k v hf ha' hc hd hk hv
  refine ha b k v hf ha' hc hd hk ?_
  have hmem : b.name ∈ names d := List.mem_map.2 ⟨_, hf, rfl⟩
  obtain ⟨h1, h2⟩ := mapDictE_ok hr
  rcases h2 b.name with ⟨h3, h4⟩ | ⟨x, y, h3, h4, h5⟩
  · have hir : Instance d r := ⟨h1 ▸ hi.1, fun k hk => hi.2 k (h1 ▸ hk)⟩
    rw [solid_get hu hir.1 hf ha' (traceable_of_none hc) (by rw [h4]; simp), ← tag_compute hu hi hf ha' hc hk hv]
    have hno : ∀ {v : Dict}, (Dict.keys v).Nodup → Dict.get? v b.name = none → structContains v b.name = false := by
      intro v hv hg
      cases hx : structContains v b.name with
      | false => rfl
      | true =>
        obtain ⟨v, hv, -⟩ := (structContains_iff hv).1 hx
        rw [hg] at hv; simp at hv
    exact compute_basic ha' hc (hno hir.1 h4) (hno hi.1 h3)
  · have h6 := structGetItem_some hmem h3
    rw [hv] at h6; cases h6
    rw [(recursiveToDicts_spec h5).2 (Kind.noStruct hk)] at h4
    exact structGetItem_some hmem h4

theorem Spec.Plainly.of_toDicts {Γ : Classes} {n : Nat} {w w' v : Value} (h : recursiveToDicts Γ n w = .ok w') (hv : Plainly Γ w' v) : Plainly Γ w v := by
  rcases hv with rfl | ⟨m, hm⟩
  · exact .inr ⟨n, h⟩
  · rw [(recursiveToDicts_spec hm).2 (recursiveToDicts_spec h).1]; exact .inr ⟨n, h⟩

theorem noStruct_ne {w : Value} (h : NoStruct w) (c : String) (vals : Dict) : w ≠ .struct c vals := by
  rintro rfl; cases h

/-- `to_dict` keeps the type of the values. -/
theorem toDicts_ofType {Γ : Classes} (hΓ : ∀ c d, Γ c = some d → DumpableClass Γ E d) {n : Nat} {raw : Bool} {tags : Dict → Prop} {f : Field}
    {v w : Value} (ht : OfType Γ raw tags f v) (h : recursiveToDicts Γ n v = .ok w) : OfType Γ true tags f w := by
  induction n generalizing raw tags f v w with
  | zero => simp [recursiveToDicts] at h
  | succ n ih =>
    have hmap : ∀ {d : StructDesc} {tags : Dict → Prop} {dct r : Dict}, Instance d dct →
        (∀ f ∈ d.components, ∀ w, Dict.get? dct f.name = some w → OfType Γ false tags f w) → mapDictE (recursiveToDicts Γ n) dct = .ok r →
        Instance d r ∧ ∀ f ∈ d.components, ∀ w, Dict.get? r f.name = some w → OfType Γ false tags f w := by
      intro d tags dct r hi hv hr
      obtain ⟨h1, h2⟩ := mapDictE_ok hr
      refine ⟨⟨h1 ▸ hi.1, fun k hk => hi.2 k (h1 ▸ hk)⟩, fun f hf w hw => ?_⟩
      rcases h2 f.name with ⟨-, h3⟩ | ⟨x, y, h3, h4, h5⟩
      · rw [hw] at h3; simp at h3
      · rw [hw] at h4; cases h4
        exact (ih (hv f hf x h3) h5).cooked
    induction ht with
    | unset => simp [recursiveToDicts] at h; subst h; exact .unset
    | none => simp [recursiveToDicts] at h; subst h; exact .none
    | absent hc => simp [recursiveToDicts] at h; subst h; exact .absent hc
    | leaf h1 => rw [(recursiveToDicts_spec h).2 (Kind.noStruct h1)]; exact .leaf h1
    | list h1 h2 =>
      simp only [recursiveToDicts] at h
      obtain ⟨r, hr, rfl⟩ := Except.map_ok h
      refine .list (mapE_forall hr fun a ha b hb => ih (h1 a ha) hb) fun hmem => ?_
      exact mapE_forall (P := fun b => b ≠ .notPresent) hr
        (fun a ha b hb hne => h2 (toDicts_notPresent (hne ▸ hb) ▸ ha)) _ hmem rfl
    | iter h1 h2 => simp [recursiveToDicts] at h; subst h; exact .iter h1 h2
    | dict h1 h2 h3 =>
      simp only [recursiveToDicts] at h
      obtain ⟨r, hr, rfl⟩ := Except.map_ok h
      obtain ⟨h4, h5⟩ := hmap h2 h3 hr
      exact .dict h1 h4 fun f hf w hw => (h5 f hf w hw).mono fun all => tags_dict (hΓ _ _ h1).unique h2 hr
    | struct h1 h2 h3 =>
      rename_i d vals _
      simp only [recursiveToDicts, h1] at h
      cases hs : toDictShallow d vals false with
      | error e => simp [hs] at h
      | ok dct =>
        simp only [hs] at h
        obtain ⟨r, hr, rfl⟩ := Except.map_ok h
        obtain ⟨h6, h7, h8⟩ := toDictShallow_get (hΓ _ _ h1).unique h2 hs
        obtain ⟨h4, h5⟩ := hmap (d := d) ⟨h6, h7⟩ (fun f hf w hw => by
          rcases h8 f hf with ⟨-, -, h9⟩ | ⟨-, v, h9, h10⟩
          · rw [hw] at h9; simp at h9
          · rw [hw] at h10; cases h10
            exact dictValue_ofType (hΓ _ _ h1) h2 h3 hf h9) hr
        exact .dict h1 h4 fun f hf w hw => (h5 f hf w hw).mono fun all =>
          tags_struct (tags_mapped (tags_shallow (hΓ _ _ h1).unique h2 hs) hr)
    | unionField h1 _ _ _ _ ih1 ih2 ih3 =>
      exact .unionField h1 (ih1 h) (fun v ctx all i g hv ha hd hi => ih2 v ctx all i g (hv.of_toDicts h) ha hd hi h)
        (fun v ctx all i c hv ha hd hi => ih3 v ctx all i c (hv.of_toDicts h) ha hd hi h) fun _ => noStruct_ne (recursiveToDicts_spec h).1
    | unionStruct h1 _ _ _ _ ih1 ih2 ih3 =>
      exact .unionStruct h1 (ih1 h) (fun v ctx all i g hv ha hd hi => ih2 v ctx all i g (hv.of_toDicts h) ha hd hi h)
        (fun v ctx all i c hv ha hd hi => ih3 v ctx all i c (hv.of_toDicts h) ha hd hi h) fun _ => noStruct_ne (recursiveToDicts_spec h).1

theorem mapE_error {α β : Type} {g : α → Except Err β} {l : List α} {e : Err} (h : mapE g l = .error e) : ∃ a ∈ l, g a = .error e := by
  induction l with
  | nil => simp [mapE] at h
  | cons a l ih =>
    simp only [mapE] at h
    split at h
    · rename_i e' he; cases h; exact ⟨a, List.mem_cons_self, he⟩
    · split at h
      · rename_i e' he
        cases h
        obtain ⟨b, hb, h'⟩ := ih he
        exact ⟨b, List.mem_cons_of_mem _ hb, h'⟩
      · simp at h

theorem mapDictE_error {g : Value → Except Err Value} {d : Dict} {e : Err} (h : mapDictE g d = .error e) :
    ∃ p ∈ d, g p.2 = .error e := by
  obtain ⟨p, hp, h'⟩ := mapE_error h
  refine ⟨p, hp, ?_⟩
  cases hg : g p.2 with
  | ok v => simp [hg, Except.map] at h'
  | error e' => simp [hg, Except.map] at h'; rw [h']

/-- Converting values of the right type to dictionaries. -/
theorem toDicts_declared {Γ : Classes} (hΓ : ∀ c d, Γ c = some d → DumpableClass Γ E d)
    (hm : ∀ c d, Γ c = some d → ∀ f ∈ d.components, Mild E f.base) {n : Nat} {raw : Bool} {tags : Dict → Prop} {f : Field} {v : Value} {e : Err}
    (ht : OfType Γ raw tags f v) (h : recursiveToDicts Γ n v = .error e) : Declared E e ∨ e = .outOfFuel := by
  induction n generalizing raw tags f v e with
  | zero => simp [recursiveToDicts] at h; exact .inr h.symm
  | succ n ih =>
    have hmap : ∀ {d : StructDesc} {tags : Dict → Prop} {dct : Dict} {e : Err}, UniqueNames d → Instance d dct →
        (∀ f ∈ d.components, ∀ w, Dict.get? dct f.name = some w → OfType Γ false tags f w) → mapDictE (recursiveToDicts Γ n) dct = .error e →
        Declared E e ∨ e = .outOfFuel := by
      intro d tags dct e hu hi hv hr
      obtain ⟨p, hp, h'⟩ := mapDictE_error hr
      obtain ⟨g, hg, hgn⟩ := List.mem_map.1 (hi.2 p.1 (List.mem_map.2 ⟨p, hp, rfl⟩))
      exact ih (hv g hg p.2 (hgn ▸ Dict.get?_of_mem hi.1 hp)) h'
    induction ht with
    | unset => simp [recursiveToDicts] at h
    | none => simp [recursiveToDicts] at h
    | absent hc => simp [recursiveToDicts] at h
    | leaf h1 =>
      rename_i k v
      cases v with
      | list l => cases k <;> simp [Kind] at h1
      | dict l => cases k <;> simp [Kind] at h1
      | struct c l => cases k <;> simp [Kind] at h1
      | _ => simp [recursiveToDicts] at h
    | list h1 h2 =>
      simp only [recursiveToDicts] at h
      obtain ⟨a, ha, h'⟩ := mapE_error (Except.map_error h)
      exact ih (h1 a ha) h'
    | iter h1 h2 => simp [recursiveToDicts] at h
    | dict h1 h2 h3 =>
      simp only [recursiveToDicts] at h
      exact hmap (hΓ _ _ h1).unique h2 h3 (Except.map_error h)
    | struct h1 h2 h3 =>
      rename_i d vals _
      simp only [recursiveToDicts, h1] at h
      cases hs : toDictShallow d vals false with
      | error e' => simp only [hs] at h; cases h; exact .inl (toDictShallow_declared (hm _ _ h1) h2 hs)
      | ok dct =>
        simp only [hs] at h
        obtain ⟨h6, h7, h8⟩ := toDictShallow_get (hΓ _ _ h1).unique h2 hs
        refine hmap (tags := TagsKept d vals) (hΓ _ _ h1).unique ⟨h6, h7⟩ (fun f hf w hw => ?_) (Except.map_error h)
        rcases h8 f hf with ⟨-, -, h9⟩ | ⟨-, v, h9, h10⟩
        · rw [hw] at h9; simp at h9
        · rw [hw] at h10; cases h10
          exact dictValue_ofType (hΓ _ _ h1) h2 h3 hf h9
    | unionField _ _ _ _ _ ih1 => exact ih1 h
    | unionStruct _ _ _ _ _ ih1 => exact ih1 h

/-! ### Converting values to bytes -/

/-- The values that earlier fields supply as sizes and counts are there. -/
def CountsKnown (pre : List Field) (all : Dict) : Prop := ∀ r, Referable pre r → ∃ i, Dict.get? all r = some (.int i)

section Fields
variable {pre : List Field} {all : Dict}

theorem expectedSizeWith_given {b : FieldBase} (hk : CountsKnown pre all) (hs : SizeGiven pre b) (sf : Value → Except Err (Option Int))
    (nr : Except Err Bytes) : ∃ n, b.expectedSizeWith sf nr all = .ok n := by
  unfold FieldBase.expectedSizeWith
  rcases hs with ⟨n, hn⟩ | ⟨r, hr, hr'⟩
  · exact ⟨n, by simp [hn]⟩
  · obtain ⟨i, hi⟩ := hk r hr'
    exact ⟨i, by simp [hr, sizeFromRef, hi]⟩

theorem nullReprWith_declared {b : FieldBase} (hb : Settled E pre b) {dumpNull : Value → W} {exp : Except Err Int}
    (hexp : SizeGiven pre b → ∃ n, exp = .ok n) {e : Err} (h : b.nullReprWith dumpNull exp = .error e) : Declared E e := by
  unfold FieldBase.nullReprWith at h
  rcases hb.null with h1 | ⟨bs, h1⟩ | ⟨h1, h2⟩
  · simp only [h1] at h; cases h; exact .of_ser rfl
  · simp [h1] at h
  · obtain ⟨n, hn⟩ := hexp h2
    simp [h1, hn] at h

theorem finishDump_declared {b : FieldBase} (hk : CountsKnown pre all) (hb : Settled E pre b) {sf : Value → Except Err (Option Int)}
    {nr : Except Err Bytes} {pad : Bytes → Int → Except Err Bytes} (hpad : ∀ x n e, pad x n = .error e → Declared E e) {s : Bytes} {e : Err}
    (h : (finishDump b (b.expectedSizeWith sf nr all) pad s).2 = .error e) : Declared E e := by
  unfold finishDump at h
  simp only at h
  split at h
  · rename_i e' he
    split at he
    · simp at he
    · simp at he
    · rename_i r hr
      obtain ⟨n, hn⟩ := expectedSizeWith_given (b := b) hk (.inr ⟨r, hr, hb.size r hr⟩) sf nr
      rw [hn] at he; simp at he
  · split at h
    · simp only [W.fail] at h; cases h; exact .of_ser rfl
    · split at h
      · rename_i n _ _ _
        cases hp : pad s n with
        | ok x => simp [hp, W.ofExcept, W.ok] at h
        | error e' => simp only [hp, W.ofExcept, W.fail] at h; cases h; exact hpad _ _ _ hp
      · simp [W.ok] at h

theorem ofType_ne_dflt {Γ : Classes} {raw : Bool} {tags : Dict → Prop} {f : Field} {v : Value} (h : OfType Γ raw tags f v) : v ≠ .dflt := by
  induction h with
  | leaf h => rename_i k v; rintro rfl; cases k <;> simp [Kind] at h
  | unionField _ _ _ _ _ ih => exact ih
  | unionStruct _ _ _ _ _ ih => exact ih
  | _ => simp

theorem toStreamWith_declared {Γ : Classes} {raw : Bool} {tags : Dict → Prop} {f : Field} (hk : CountsKnown pre all) (hb : Settled E pre f.base)
    {sf : Value → Except Err (Option Int)} {nr : Except Err Bytes} {pad : Bytes → Int → Except Err Bytes}
    (hpad : ∀ x n e, pad x n = .error e → Declared E e) {doDump dumpNull : Value → W} {exp : Except Err Int}
    (hexp : SizeGiven pre f.base → ∃ n, exp = .ok n) {P : Err → Prop} (hP : ∀ e, Declared E e → P e) {v : Value} (ht : OfType Γ raw tags f v)
    (hdump : v ≠ .undefined → v ≠ .none → ∀ e, (doDump v).2 = .error e → P e) {e : Err}
    (h : (toStreamWith f.base doDump (f.base.nullReprWith dumpNull exp) (f.base.expectedSizeWith sf nr all) pad v).2 = .error e) : P e := by
  unfold toStreamWith at h
  rw [if_neg (ofType_ne_dflt ht)] at h
  simp only at h
  split at h
  · simp only [W.fail] at h; cases h; exact hP _ (.of_ser rfl)
  · rename_i hu
    split at h
    · rename_i e' he
      simp only [W.fail] at h; cases h
      exact hP _ (runValidators_declared (fun c hc e he => hb.validators c hc _ e he) he)
    · split at h
      · cases hn : f.base.nullReprWith dumpNull exp with
        | ok x => simp [hn, W.ofExcept, W.ok] at h
        | error e' => simp only [hn, W.ofExcept, W.fail] at h; cases h; exact hP _ (nullReprWith_declared hb hexp hn)
      · rename_i hnone
        split at h
        · rename_i e' he
          simp only [W.fail] at h; cases h
          refine hdump (fun hv => hu (.inl hv)) hnone e ?_
          unfold W.toExcept at he
          split at he
          · rename_i e'' he'; cases he; exact he'
          · simp at he
        · exact hP _ (finishDump_declared hk hb hpad h)

theorem range_declared {name : String} {r : Except Err Bytes} (hr : ∀ e, r = .error e → e = .valueErr ∨ e = .overflowErr) {e : Err}
    (h : unserializableOnRange name r = .error e) : Declared E e := by
  unfold unserializableOnRange at h
  cases r with
  | ok b => simp at h
  | error e' =>
    rcases hr e' rfl with rfl | rfl <;> (simp [Err.isValueErr] at h; subst h; exact .of_ser rfl)

theorem writeInt_error {i n : Int} {sg : Bool} {en : Endian} {e : Err} (h : writeInt i n sg en = .error e) :
    e = .valueErr ∨ e = .overflowErr := by
  unfold writeInt intToBytes at h
  split at h
  · cases h; exact .inl rfl
  · simp only at h
    generalize (if sg = true then _ else _ : Bool) = fits at h
    cases fits
    · simp at h; exact .inr h.symm
    · simp at h

theorem encode_error {enc : VarIntEncoding} {i : Int} {e : Err} (h : enc.encode i = .error e) : e = .valueErr ∨ e = .overflowErr := by
  left
  cases enc <;> simp only [VarIntEncoding.encode, encodeCompact, encodeLeb128, encodeUleb128, encodeVlq] at h
  all_goals first
    | (split at h <;> simp at h)
    | (split at h
       · simp at h; exact h.symm
       · split at h <;> simp at h)

theorem ofExcept_error {r : Except Err Bytes} {e : Err} (h : (W.ofExcept r).2 = .error e) : r = .error e := by
  cases r <;> simp [W.ofExcept, W.ok, W.fail] at h ⊢; exact h

theorem Spec.Dumpable.settled {own : Bool} {f : Field} (h : Dumpable E pre own f) : Settled E pre f.base := by
  cases h <;> assumption

/-- The conversion of a scalar. -/
theorem leafDump_declared {own : Bool} {b : FieldBase} {k : Leaf} (hk : CountsKnown pre all) (hd : Dumpable E pre own (.leaf b k)) {v ctx : Value}
    (hv : Kind k v) (hown : own = true → b.discard = false → Dict.get? all b.name = some v) {e : Err}
    (h : (leafDump b k (leafExpectedSize b k all) v ctx all).2 = .error e) : Declared E e := by
  have given : SizeGiven pre b → ∃ n, leafExpectedSize b k all = .ok n := fun hs => expectedSizeWith_given hk hs _ _
  cases hd with
  | integer h1 h2 =>
    cases v <;> simp only [Kind] at hv
    simp only [leafDump, h2] at h
    exact range_declared (fun e he => writeInt_error he) (ofExcept_error h)
  | varint h1 =>
    cases v <;> simp only [Kind] at hv
    simp only [leafDump] at h
    split at h
    · rename_i e' he; simp only [W.fail] at h; cases h; exact range_declared (fun e he => encode_error he) he
    · split at h
      · split at h
        · simp only [W.fail] at h; cases h; exact .of_ser rfl
        · simp [W.ok] at h
      · simp [W.ok] at h
  | @float _ _ fmt en h1 h2 =>
    have hpack : ∀ bits, (match floatPack fmt en bits with
        | some bs => W.ok bs
        | none => W.fail .overflowErr).2 = .error e → Declared E e := by
      intro bits h
      split at h
      · simp [W.ok] at h
      · rename_i hn
        rcases h2 with rfl | h2
        · simp [floatPack, packBits] at hn
        · simp only [W.fail] at h; cases h; exact .inr (.inr h2)
    cases v <;> simp only [Kind] at hv
    · simp only [leafDump] at h
      split at h
      · simp only [W.fail] at h; cases h; exact .of_ser rfl
      · exact hpack _ h
    · simp only [leafDump] at h
      exact hpack _ h
  | timestamp h1 h2 =>
    cases v <;> simp only [Kind] at hv
    obtain ⟨n, hn⟩ := given h2
    obtain ⟨i, hi⟩ := tsStored_ok ‹_› ((datetimeFirst_min _).trans hv.1) hv.2 ‹_›
    simp only [leafDump, tsDump_of _ hv.1, hi, hn] at h
    exact range_declared (fun e he => writeInt_error he) (ofExcept_error h)
  | bytes h1 h2 =>
    cases v <;> simp only [Kind] at hv
    rename_i bs
    have : ∃ n, leafExpectedSize b .bytes all = .ok n := by
      rcases h2 with h2 | ⟨h2, h3, h4⟩
      · exact given h2
      · exact ⟨bs.length, by simp [leafExpectedSize, FieldBase.expectedSizeWith, h3, FieldBase.sizingValue, hown h2 h4, leafSizeForValue]⟩
    obtain ⟨n, hn⟩ := this
    simp only [leafDump, hn] at h
    split at h
    · simp only [W.fail] at h; cases h; exact .of_ser rfl
    · simp [W.ok] at h
  | @string _ _ c p h1 h2 h3 =>
    cases v <;> simp only [Kind] at hv
    rename_i t
    simp only [leafDump] at h
    have h' := ofExcept_error h
    unfold encodeAndResize at h'
    cases hc : c.encode t with
    | error e' => simp only [hc] at h'; cases h'; exact .inr (.inr (h3 _ _ hc))
    | ok bs =>
      have : ∃ n, leafExpectedSize b (.string c p) all = .ok n := by
        rcases h2 with h2 | ⟨h2, h4, h5⟩
        · exact given h2
        · exact ⟨bs.length, by
            simp [leafExpectedSize, FieldBase.expectedSizeWith, h4, FieldBase.sizingValue, hown h2 h5, leafSizeForValue, hc, Except.map]⟩
      obtain ⟨n, hn⟩ := this
      simp only [hc, hn] at h'
      split at h'
      · cases h'; exact .of_ser rfl
      · split at h'
        · split at h'
          · cases h'; exact .of_ser rfl
          · simp at h'
        · simp at h'
  | @stringz _ _ c p h1 h2 =>
    cases v <;> simp only [Kind] at hv
    simp only [leafDump] at h
    exact .inr (.inr (h2 _ _ (ofExcept_error h)))
  | uuid h1 =>
    cases v <;> simp only [Kind] at hv
    simp [leafDump, W.ok] at h

theorem addPadding_declared {own : Bool} {f : Field} (hd : Dumpable E pre own f) (x : Bytes) (n : Int) (e : Err)
    (h : fieldAddPadding f x n = .error e) : Declared E e := by
  cases hd <;> simp only [fieldAddPadding, leafAddPadding] at h
  all_goals first
    | (cases h; exact .of_ser rfl)
    | (split at h
       · cases h; exact .of_ser rfl
       · simp at h)

theorem W.seq_raises {a : W} {b : Unit → W} {e : Err} (h : (a.seq b).2 = .error e) : a.2 = .error e ∨ (a.2 = .ok () ∧ (b ()).2 = .error e) := by
  unfold W.seq at h
  split at h
  · exact .inl h
  · rename_i ha; exact .inr ⟨ha, h⟩

theorem dumpAll_error {ts : Value → W} {l : List Value} {e : Err} (h : (dumpAll ts l).2 = .error e) : ∃ v ∈ l, (ts v).2 = .error e := by
  induction l with
  | nil => simp [dumpAll, W.ok] at h
  | cons v l ih =>
    rcases W.seq_raises h with h | ⟨-, h⟩
    · exact ⟨v, List.mem_cons_self, h⟩
    · obtain ⟨w, hw, h'⟩ := ih h
      exact ⟨w, List.mem_cons_of_mem _ hw, h'⟩

theorem dumpUnsized_error {name : String} {ts : Value → W} {n : Option Int} {l : List Value} {k : Nat} {e : Err}
    (h : (dumpUnsized name ts n k l).2 = .error e) : e.isSerialization = true ∨ ∃ v ∈ l, (ts v).2 = .error e := by
  induction l generalizing k with
  | nil =>
    simp only [dumpUnsized] at h
    split at h
    · split at h
      · simp only [W.fail] at h; cases h; exact .inl rfl
      · simp [W.ok] at h
    · simp [W.ok] at h
  | cons v l ih =>
    simp only [dumpUnsized] at h
    split at h
    · simp only [W.fail] at h; cases h; exact .inl rfl
    · rcases W.seq_raises h with h | ⟨-, h⟩
      · exact .inr ⟨v, List.mem_cons_self, h⟩
      · rcases ih h with h' | ⟨w, hw, h'⟩
        · exact .inl h'
        · exact .inr ⟨w, List.mem_cons_of_mem _ hw, h'⟩

theorem arrayDump_error {name : String} {ts : Value → W} {count : Count} {data : Value} {e : Err} (hk : CountsKnown pre all)
    (hc : ∀ r, count = .ref r → r ≠ "" ∧ Referable pre r) {l : List Value} (hl : data = .list l ∨ data = .iter l)
    (h : (arrayDump name ts count data all).2 = .error e) : e.isSerialization = true ∨ ∃ v ∈ l, (ts v).2 = .error e := by
  have hcount : ∃ n, finalElementCount count all = .ok n := by
    unfold finalElementCount
    cases count with
    | none => exact ⟨_, rfl⟩
    | fixed n => exact ⟨_, rfl⟩
    | ref r =>
      obtain ⟨h1, h2⟩ := hc r rfl
      obtain ⟨i, hi⟩ := hk r h2
      exact ⟨some i, by simp [h1, hi]⟩
  obtain ⟨n, hn⟩ := hcount
  unfold arrayDump at h
  rcases hl with rfl | rfl
  · simp only [hn, arrayElements] at h
    split at h
    · split at h
      · simp only [W.fail] at h; cases h; exact .inl rfl
      · exact .inr (dumpAll_error h)
    · exact .inr (dumpAll_error h)
  · simp only [hn, arrayElements] at h
    exact dumpUnsized_error h

end Fields

theorem Spec.DumpableClass.mild {Γ : Classes} {d : StructDesc} (hd : DumpableClass Γ E d) : ∀ f ∈ d.components, Mild E f.base := by
  intro f hf
  obtain ⟨pre, post, h⟩ := List.append_of_mem hf
  exact (hd.fields pre f post h).1.settled.toMild

theorem structToDict_declared {Γ : Classes} (hΓ : ∀ c d, Γ c = some d → DumpableClass Γ E d) {n : Nat} {d : StructDesc} {vals : Dict}
    {keep : Bool} {e : Err} (hd : DumpableClass Γ E d) (hi : Instance d vals)
    (ht : ∀ f ∈ d.components, ∀ v, Dict.get? vals f.name = some v → OfType Γ false (TagsKept d vals) f v) (h : structToDict Γ n d vals keep = .error e) :
    Declared E e ∨ e = .outOfFuel := by
  unfold structToDict at h
  split at h
  · rename_i e' he'; cases h; exact .inl (toDictShallow_declared hd.mild hi he')
  · rename_i dct hdct
    obtain ⟨p, hp, h'⟩ := mapDictE_error h
    obtain ⟨h6, h7, h8⟩ := toDictShallow_get hd.unique hi hdct
    obtain ⟨g, hg, hgn⟩ := List.mem_map.1 (h7 p.1 (List.mem_map.2 ⟨p, hp, rfl⟩))
    have hget : Dict.get? dct g.name = some p.2 := hgn ▸ Dict.get?_of_mem h6 hp
    rcases h8 g hg with ⟨-, -, h9⟩ | ⟨-, v, h9, h10⟩
    · rw [hget] at h9; simp at h9
    · rw [hget] at h10; cases h10
      exact toDicts_declared hΓ (fun c d hc => (hΓ c d hc).mild) (dictValue_ofType hd hi ht hg h9) h'

theorem CountsKnown.nil (all : Dict) : CountsKnown [] all := by rintro r ⟨f, hf, -⟩; simp at hf

/-- `None` in a field that cannot be `None` is not dumped. -/
theorem counter_none {Γ : Classes} {n : Nat} {f : Field} {ctx : Value} {all : Dict} (hc : Counter f) :
    (fieldToStream Γ n f .none ctx all).2 ≠ .ok () := by
  obtain ⟨b, k, rfl, -, -, hn⟩ := hc
  cases n with
  | zero => simp [fieldToStream, W.fail]
  | succ n =>
    rw [fieldToStream_succ]
    unfold toStreamWith
    simp only [reduceCtorEq, if_false, or_self]
    split
    · simp [W.fail]
    · simp [fieldNullRepr, leafNullRepr, FieldBase.nullReprWith, show b.nullValue = .undefined from hn, W.ofExcept, W.fail]

/-- Errors of the whole dump. -/
theorem dump_declared {Γ : Classes} (hΓ : ∀ c d, Γ c = some d → DumpableClass Γ E d) (n : Nat) :
    (∀ {pre : List Field} {own : Bool} {f : Field} {v ctx : Value} {all : Dict} {tags : Dict → Prop} {e : Err}, CountsKnown pre all → tags all →
      Dumpable E pre own f → OfType Γ true tags f v → v ≠ .notPresent → (own = true → f.base.discard = false → Dict.get? all f.name = some v) →
      (fieldToStream Γ n f v ctx all).2 = .error e → Declared E e ∨ e = .outOfFuel) ∧
    (∀ {d : StructDesc} {vals : Dict} {ctx : Value} {e : Err}, DumpableClass Γ E d → Instance d vals →
      (∀ f ∈ d.components, ∀ v, Dict.get? vals f.name = some v → OfType Γ false (TagsKept d vals) f v) →
      (structToStream Γ n d vals ctx).2 = .error e → Declared E e ∨ e = .outOfFuel) := by
  induction n with
  | zero =>
    refine ⟨fun _ _ _ _ _ _ h => ?_, fun _ _ _ h => ?_⟩
    · simp [fieldToStream, W.fail] at h; exact .inr h.symm
    · simp [structToStream, W.fail] at h; exact .inr h.symm
  | succ n ih =>
    obtain ⟨ihf, ihs⟩ := ih
    constructor
    · intro pre own f v ctx all tags e hk htags hd ht hnp hown h
      rw [fieldToStream_succ] at h
      have hb := hd.settled
      have hexp : ∃ sf nr, fieldExpectedSize Γ n f all = f.base.expectedSizeWith sf nr all := by
        cases f <;> exact ⟨_, _, rfl⟩
      have hnull : ∃ dn, fieldNullRepr Γ n f all = f.base.nullReprWith dn (fieldExpectedSize Γ n f all) := by
        cases f <;> exact ⟨_, rfl⟩
      obtain ⟨sf, nr, hexp⟩ := hexp
      obtain ⟨dn, hnull⟩ := hnull
      rw [hnull, hexp] at h
      refine toStreamWith_declared (P := fun e => Declared E e ∨ e = .outOfFuel) hk hb (addPadding_declared hd)
        (fun hs => expectedSizeWith_given hk hs sf nr) (fun e he => .inl he) ht (fun hu hn e he => ?_) h
      cases ht with
      | unset => exact absurd rfl hu
      | none => exact absurd rfl hn
      | absent => exact absurd rfl hnp
      | leaf hkind => exact .inl (leafDump_declared hk hd hkind hown he)
      | list h1 h2 =>
        cases hd with
        | array h3 h4 h5 =>
          simp only [fieldDoDump, containerDump] at he
          rcases arrayDump_error hk h4 (.inl rfl) he with h6 | ⟨w, hw, h6⟩
          · exact .inl (.of_ser h6)
          · exact ihf hk htags h5 (h1 w hw) (fun h => h2 (h ▸ hw)) (fun h => by simp at h) h6
      | iter h1 h2 =>
        cases hd with
        | array h3 h4 h5 =>
          simp only [fieldDoDump, containerDump] at he
          rcases arrayDump_error hk h4 (.inr rfl) he with h6 | ⟨w, hw, h6⟩
          · exact .inl (.of_ser h6)
          · exact ihf hk htags h5 (h1 w hw) (fun h => h2 (h ▸ hw)) (fun h => by simp at h) h6
      | @dict _ _ b cls d vals h1 h2 h3 =>
        simp only [fieldDoDump, containerDump, dumpNew, h1] at he
        have hi : structInit d vals = .ok vals :=
          structInit_ok_iff.2 ⟨rfl, h2.2⟩
        simp only [hi] at he
        exact ihs (hΓ _ _ h1) h2 h3 he
      | @struct _ _ b cls d vals h1 h2 h3 =>
        simp only [fieldDoDump, containerDump, h1] at he
        exact ihs (hΓ _ _ h1) h2 h3 he
      | unionField h1 _ h2 h3 h4 =>
        cases hd with
        | union h5 h6 h7 h8 =>
          simp only [fieldDoDump, containerDump] at he
          split at he
          · rename_i e' he'; simp only [W.fail] at he; cases he; exact .inl (h6 _ _ _ _ he')
          · rename_i i hi
            split at he
            · rename_i hc; have := h7 _ _ _ _ hi; rw [List.getElem?_eq_none_iff] at hc; omega
            · rename_i g hg
              exact ihf hk htags (h8 g (List.mem_of_getElem? hg)) (h2 _ _ _ _ _ (.inl rfl) htags hi hg) hnp (fun h => by simp at h) he
            · rename_i cls hcls
              have h9 := h3 _ _ _ _ _ (.inl rfl) htags hi hcls
              cases h9 with
              | unset => exact absurd rfl hu
              | none => exact absurd rfl hn
              | absent => exact absurd rfl hnp
              | struct => exact absurd rfl (h4 rfl _ _)
              | @dict _ _ b cls d vals h10 h11 h12 =>
                simp only [dumpNew, h10] at he
                have hi : structInit d vals = .ok vals := structInit_ok_iff.2 ⟨rfl, h11.2⟩
                simp only [hi] at he
                exact ihs (hΓ _ _ h10) h11 h12 he
      | unionStruct h1 _ h2 h3 h4 =>
        cases hd with
        | union h5 h6 h7 h8 =>
          simp only [fieldDoDump, containerDump] at he
          split at he
          · rename_i e' he'; simp only [W.fail] at he; cases he; exact .inl (h6 _ _ _ _ he')
          · rename_i i hi
            split at he
            · rename_i hc; have := h7 _ _ _ _ hi; rw [List.getElem?_eq_none_iff] at hc; omega
            · rename_i g hg
              exact ihf hk htags (h8 g (List.mem_of_getElem? hg)) (h2 _ _ _ _ _ (.inl rfl) htags hi hg) hnp (fun h => by simp at h) he
            · rename_i cls hcls
              have h9 := h3 _ _ _ _ _ (.inl rfl) htags hi hcls
              cases h9 with
              | unset => exact absurd rfl hu
              | none => exact absurd rfl hn
              | absent => exact absurd rfl hnp
              | struct => exact absurd rfl (h4 rfl _ _)
              | @dict _ _ b cls d vals h10 h11 h12 =>
                simp only [dumpNew, h10] at he
                have hi : structInit d vals = .ok vals := structInit_ok_iff.2 ⟨rfl, h11.2⟩
                simp only [hi] at he
                exact ihs (hΓ _ _ h10) h11 h12 he
    · intro d vals ctx e hd hi ht h
      have hm := hd.mild
      simp only [structToStream, structToStreamWith] at h
      split at h
      · rename_i e' he; simp only [W.fail] at h; cases h; exact .inl (validateContents_declared hd hm hi he)
      · split at h
        · rename_i e' he
          simp only [W.fail] at h; cases h
          exact structToDict_declared hΓ hd hi ht he
        · rename_i all hall
          obtain ⟨-, -, h3⟩ := structToDict_get hd.unique hi hall
          -- what the fields are dumped with
          have hstored : ∀ f ∈ d.components, f.base.discard = false →
              ∃ w, Dict.get? all f.name = some w ∧ OfType Γ true (TagsKept d vals) f w := by
            intro f hf hdisc
            rcases h3 f hf with ⟨-, h4, -⟩ | ⟨-, v, w, h4, h5, h6⟩
            · rw [hdisc] at h4; simp at h4
            · exact ⟨w, h6, toDicts_ofType hΓ (dictValue_ofType hd hi ht hf h4) h5⟩
          have hany : ∀ f ∈ d.components, ∀ w, Dict.get? all f.name = some w → OfType Γ true (TagsKept d vals) f w := by
            intro f hf w hw
            rcases h3 f hf with ⟨-, -, h4⟩ | ⟨-, v, x, h4, h5, h6⟩
            · rw [hw] at h4; simp at h4
            · rw [hw] at h6; cases h6
              exact toDicts_ofType hΓ (dictValue_ofType hd hi ht hf h4) h5
          suffices key : ∀ post pre, d.components = pre ++ post → CountsKnown pre all →
              (dumpFields (fun f v => fieldToStream Γ n f v ctx all) all ctx post).2 = .error e → Declared E e ∨ e = .outOfFuel from
            key _ [] rfl (CountsKnown.nil all) h
          intro post
          induction post with
          | nil => intro pre _ _ h; simp [dumpFields, W.ok] at h
          | cons f post ihp =>
            intro pre hpre hk h
            have hf : f ∈ d.components := by rw [hpre]; simp
            obtain ⟨hdump, hsup⟩ := hd.fields pre f post hpre
            simp only [dumpFields] at h
            split at h
            · rename_i e' he
              simp only [W.fail] at h; cases h
              exact .inl (computeValueForDump_declared (hm f hf) (dictView_lookups all) (fun e hc => dictView_own e hc) he)
            · rename_i v hv
              have htv0 : OfType Γ f.base.discard (TagsKept d vals) f v := computed_ofType hsup (fun h => h) (fun w h1 h2 => by
                simp only [Dict.view] at h2
                split at h2
                · rename_i x hx
                  cases h2
                  cases hdisc : f.base.discard with
                  | false => exact (hany f hf _ hx).cooked
                  | true => exact hany f hf _ hx
                · simp at h2) hv
              have hgot : f.base.discard = false → v ≠ .notPresent → Dict.get? all f.name = some v := by
                intro hdisc hnp
                obtain ⟨w, hw, -⟩ := hstored f hf hdisc
                obtain ⟨x, h1, ⟨rfl, h2⟩ | ⟨rfl, -, h2, -⟩⟩ := computeValueForDump_ok hv
                · exact absurd rfl hnp
                · have : Chosen f.base all.view w := .explicit
                    (by simp only [Dict.view, Dict.contains_eq]; rw [show f.base.name = f.name from rfl, hw]; rfl)
                    (by simp only [Dict.view]; rw [show f.base.name = f.name from rfl, hw])
                  rw [Chosen.unique h1 this]; exact hw
              have htv : OfType Γ true (TagsKept d vals) f v := by
                cases hdisc : f.base.discard with
                | true => rw [← hdisc]; exact htv0
                | false =>
                  by_cases hnp : v = .notPresent
                  · subst hnp
                    refine .absent fun hc => ?_
                    rcases htv0.counter hc with h' | h' | ⟨i, h'⟩ <;> cases h'
                  · exact hany f hf _ (hgot hdisc hnp)
              have hpre' : d.components = (pre ++ [f]) ++ post := by rw [hpre]; simp
              split at h
              · -- not dumped: not a counter
                rename_i hnp
                subst hnp
                refine ihp (pre ++ [f]) hpre' (fun r hr => ?_) h
                obtain ⟨g, hg, hgn, hgc, hgd⟩ := hr
                rcases List.mem_append.1 hg with hg | hg
                · exact hk r ⟨g, hg, hgn, hgc, hgd⟩
                · obtain rfl := List.mem_singleton.1 hg
                  rcases htv.counter hgc with h' | h' | ⟨i, h'⟩ <;> cases h'
              · rename_i hnp
                rcases W.seq_raises h with h | ⟨hok, h⟩
                · exact ihf hk (tags_toDict hd.unique hi hall) hdump htv hnp (fun _ hdisc => hgot hdisc hnp) h
                · refine ihp (pre ++ [f]) hpre' (fun r hr => ?_) h
                  obtain ⟨g, hg, hgn, hgc, hgd⟩ := hr
                  rcases List.mem_append.1 hg with hg | hg
                  · exact hk r ⟨g, hg, hgn, hgc, hgd⟩
                  · obtain rfl := List.mem_singleton.1 hg
                    subst hgn
                    rcases htv.counter hgc with rfl | rfl | ⟨i, rfl⟩
                    · obtain ⟨x, -, ⟨h1, -⟩ | ⟨rfl, -, h2, -⟩⟩ := computeValueForDump_ok hv
                      · cases h1
                      · exact absurd rfl h2
                    · exact absurd hok (counter_none hgc)
                    · exact ⟨i, hgot hgd hnp⟩

end Declared
end Verif
