import Verif.Spec.Context
import Verif.Model.Load
import Verif.Model.Struct

namespace Verif
open Spec

variable {φ : Value → Value}

@[simp] theorem base_recontext (f : Field) : (f.recontext φ).base = f.base.recontext φ := by
  cases f <;> simp [Field.recontext, Field.base]

@[simp] theorem name_recontext (f : Field) : (f.recontext φ).name = f.name := by
  simp [Field.name, FieldBase.recontext]

theorem getElem?_recontextChoices (cs : List (Field ⊕ String)) (i : Nat) :
    (recontextChoices φ cs)[i]? = (cs[i]?).map (recontextChoice φ) := by
  induction cs generalizing i with
  | nil => simp [recontextChoices]
  | cons c cs ih => cases i <;> simp [recontextChoices, ih]

theorem computeValueForDump_recontext (b : FieldBase) (V : View) (c : Value) :
    (b.recontext φ).computeValueForDump V c = b.computeValueForDump V (φ c) := rfl

theorem Spec.Quiet.present {f : Field} (h : Quiet φ f) (V : View) :
    f.base.present V (φ .none) none = f.base.present V .none none := by
  cases h <;> simp only [Field.base] <;> apply_assumption

theorem Spec.Quiet.compute {f : Field} (h : Quiet φ f) (V : View) :
    (f.base.recontext φ).computeValueForDump V .none = f.base.computeValueForDump V .none := by
  rw [computeValueForDump_recontext]
  unfold FieldBase.computeValueForDump
  rw [h.present]

theorem find?_recontext (d : StructDesc) (k : String) : (d.recontext φ).find? k = (d.find? k).map (·.recontext φ) := by
  simp only [StructDesc.find?, StructDesc.recontext, List.find?_map]
  congr 1
  congr 1
  funext f
  simp

theorem has_recontext (d : StructDesc) (k : String) : (d.recontext φ).has k = d.has k := by
  simp [StructDesc.has, find?_recontext]

/-- All fields of a class are quiet. -/
abbrev QuietDesc (φ : Value → Value) (d : StructDesc) : Prop := ∀ f ∈ d.components, Quiet φ f

theorem find?_quiet {d : StructDesc} (hq : QuietDesc φ d) {k : String} {f : Field} (h : d.find? k = some f) : Quiet φ f :=
  hq f (List.mem_of_find?_eq_some h)

theorem structGet_recontext {d : StructDesc} (hq : QuietDesc φ d) (vals : Dict) (n : Nat) (k : String) :
    structGet (d.recontext φ) vals n k = structGet d vals n k := by
  induction n generalizing k with
  | zero => rfl
  | succ n ih =>
    simp only [structGet, find?_recontext]
    cases hf : d.find? k with
    | none => rfl
    | some f =>
      simp only [Option.map_some]
      cases Dict.get? vals k with
      | some v => rfl
      | none =>
        simp only [base_recontext]
        rw [(find?_quiet hq hf).compute]
        have : structGet (d.recontext φ) vals n = structGet d vals n := funext ih
        rw [this]

theorem structGetItem_recontext {d : StructDesc} (hq : QuietDesc φ d) (vals : Dict) (k : String) :
    structGetItem (d.recontext φ) vals k = structGetItem d vals k := by
  simp only [structGetItem, structGet_recontext hq]
  simp [StructDesc.recontext]

theorem structView_recontext {d : StructDesc} (hq : QuietDesc φ d) (vals : Dict) :
    structView (d.recontext φ) vals = structView d vals := by
  simp only [structView]
  congr 1
  funext k
  exact structGetItem_recontext hq vals k

theorem structInit_recontext (d : StructDesc) (kw : Dict) : structInit (d.recontext φ) kw = structInit d kw := by
  simp only [structInit, has_recontext]

theorem validateContents_recontext {d : StructDesc} (hq : QuietDesc φ d) (vals : Dict) :
    validateContents (d.recontext φ) vals = validateContents d vals := by
  have h : validateField (d.recontext φ) vals = validateField d vals := by
    funext p
    simp only [validateField, find?_recontext, structGetItem_recontext hq, structView_recontext hq]
    cases hf : d.find? p.1 with
    | none => rfl
    | some f => simp [FieldBase.recontext]
  simp only [validateContents, h, structView_recontext hq]
  rfl

theorem whateverPossible_recontext {d : StructDesc} (hq : QuietDesc φ d) (vals : Dict) :
    whateverPossible (d.recontext φ) vals = whateverPossible d vals := by
  have h1 : ∀ fs acc, (∀ f ∈ fs, Quiet φ f) →
      whateverLoop (d.recontext φ) vals (fs.map (·.recontext φ)) acc = whateverLoop d vals fs acc := by
    intro fs
    induction fs with
    | nil => intros; rfl
    | cons f fs ih =>
      intro acc hf
      have ih' := fun acc => ih acc fun g hg => hf g (List.mem_cons_of_mem _ hg)
      simp only [List.map_cons, whateverLoop, base_recontext, name_recontext, structView_recontext hq,
        (hf f List.mem_cons_self).compute, ih']
  have h2 : ∀ dct ks, chainLoop (d.recontext φ) vals dct ks = chainLoop d vals dct ks := by
    intro dct ks
    induction ks with
    | nil => rfl
    | cons k ks ih => simp only [chainLoop, ih, structGetItem_recontext hq]
  simp only [whateverPossible]
  have h3 : (d.recontext φ).components = d.components.map (·.recontext φ) := rfl
  rw [h3, h1 _ _ hq]
  simp only [h2]

theorem toDictShallow_recontext {d : StructDesc} (hq : QuietDesc φ d) (vals : Dict) (keep : Bool) :
    toDictShallow (d.recontext φ) vals keep = toDictShallow d vals keep := by
  have h3 : (d.recontext φ).components = d.components.map (·.recontext φ) := rfl
  have h1 : ∀ dct fs, (∀ f ∈ fs, Quiet φ f) → missingLoop dct (fs.map (·.recontext φ)) = missingLoop dct fs := by
    intro dct fs
    induction fs with
    | nil => intros; rfl
    | cons f fs ih =>
      intro hf
      have ih' := ih fun g hg => hf g (List.mem_cons_of_mem _ hg)
      simp only [List.map_cons, missingLoop, base_recontext, name_recontext, (hf f List.mem_cons_self).compute, ih']
  have h2 : ∀ (fs : List Field) (dct : Dict),
      ((fs.map (·.recontext φ)).filter (·.base.discard)).foldl (fun dct f => Dict.erase dct f.name) dct =
        (fs.filter (·.base.discard)).foldl (fun dct f => Dict.erase dct f.name) dct := by
    intro fs
    induction fs with
    | nil => intro; rfl
    | cons f fs ih =>
      intro dct
      have hb : (f.recontext φ).base.discard = f.base.discard := by simp [FieldBase.recontext]
      simp only [List.map_cons, List.filter_cons, hb]
      split
      · simp only [List.foldl_cons, name_recontext, ih]
      · exact ih dct
  simp only [toDictShallow, whateverPossible_recontext hq, h3, h1 _ _ hq, h2]

theorem recursiveToDicts_recontext {Γ : Classes} (hΓ : QuietClasses φ Γ) (n : Nat) (v : Value) :
    recursiveToDicts (Γ.recontext φ) n v = recursiveToDicts Γ n v := by
  induction n generalizing v with
  | zero => rfl
  | succ n ih =>
    have : recursiveToDicts (Γ.recontext φ) n = recursiveToDicts Γ n := funext ih
    cases v <;> simp only [recursiveToDicts, this]
    rename_i cls vals
    simp only [Classes.recontext]
    cases hc : Γ cls with
    | none => rfl
    | some d => simp only [Option.map_some, toDictShallow_recontext (hΓ cls d hc)]

theorem structToDict_recontext {Γ : Classes} (hΓ : QuietClasses φ Γ) {d : StructDesc} (hq : QuietDesc φ d) (n : Nat)
    (vals : Dict) (keep : Bool) :
    structToDict (Γ.recontext φ) n (d.recontext φ) vals keep = structToDict Γ n d vals keep := by
  have : recursiveToDicts (Γ.recontext φ) n = recursiveToDicts Γ n := funext (recursiveToDicts_recontext hΓ n)
  simp only [structToDict, toDictShallow_recontext hq, this]

/-! ### Dumping -/

theorem nullReprWith_congr {b : FieldBase} {d1 d2 : Value → W} {e1 e2 : Except Err Int} (hd : BytesNull b ∨ ∀ v, d1 v = d2 v)
    (he : e1 = e2) : b.nullReprWith d1 e1 = b.nullReprWith d2 e2 := by
  subst he
  rcases hd with hb | hd
  · unfold FieldBase.nullReprWith
    rcases hb with hb | hb | hb | ⟨bs, hb⟩ <;> rw [hb]
  · have : d1 = d2 := funext hd
    rw [this]

theorem leafDump_recontext (b : FieldBase) (k : Leaf) (e : Except Err Int) (v c : Value) (all : Dict) :
    leafDump (b.recontext φ) (k.recontext φ) e v c all = leafDump b k e v (φ c) all := by
  cases k <;> rfl

theorem leafSizeForValue_recontext (b : FieldBase) (k : Leaf) (v : Value) :
    leafSizeForValue (b.recontext φ) (k.recontext φ) v = leafSizeForValue b k v := by
  cases k <;> rfl

theorem leafAddPadding_recontext (b : FieldBase) (k : Leaf) (bs : Bytes) (n : Int) :
    leafAddPadding (b.recontext φ) (k.recontext φ) bs n = leafAddPadding b k bs n := by
  cases k <;> rfl

/-- The condition on the null value of a leaf in `Quiet`. -/
abbrev NullQuiet (φ : Value → Value) (b : FieldBase) (k : Leaf) : Prop :=
  φ .none = .none ∨ BytesNull b ∨ ∀ ops, k ≠ .custom ops

theorem leafNull_cases {b : FieldBase} {k : Leaf} (h : NullQuiet φ b k) (e : Except Err Int) (all : Dict) :
    BytesNull b ∨ ∀ v, leafDump b k e v (φ .none) all = leafDump b k e v .none all := by
  rcases h with h | h | h
  · exact .inr fun v => by rw [h]
  · exact .inl h
  · refine .inr fun v => ?_
    cases k <;> first | rfl | exact absurd rfl (h _)

theorem leafExpectedSize_recontext {b : FieldBase} {k : Leaf} (h : NullQuiet φ b k) (all : Dict) :
    leafExpectedSize (b.recontext φ) (k.recontext φ) all = leafExpectedSize b k all := by
  have h1 : ∀ e, (b.recontext φ).nullReprWith (fun v => leafDump (b.recontext φ) (k.recontext φ) e v .none all) e =
      b.nullReprWith (fun v => leafDump b k e v .none all) e := by
    intro e
    simp only [leafDump_recontext]
    exact nullReprWith_congr (leafNull_cases h e all) rfl
  have h2 : leafSizeForValue (b.recontext φ) (k.recontext φ) = leafSizeForValue b k :=
    funext (leafSizeForValue_recontext b k)
  simp only [leafExpectedSize]
  have h3 := h1 (.error (.buggyField b.name))
  have hn : (b.recontext φ).name = b.name := rfl
  rw [hn, h3, h2]
  rfl

theorem leafNullRepr_recontext {b : FieldBase} {k : Leaf} (h : NullQuiet φ b k) (all : Dict) :
    leafNullRepr (b.recontext φ) (k.recontext φ) all = leafNullRepr b k all := by
  simp only [leafNullRepr, leafExpectedSize_recontext h, leafDump_recontext]
  exact nullReprWith_congr (leafNull_cases h _ all) rfl

theorem containerNull_recontext {b : FieldBase} {d1 d2 : Value → W} (hd : BytesNull b ∨ ∀ v, d1 v = d2 v) (all : Dict) :
    containerExpectedSize (b.recontext φ) d1 all = containerExpectedSize b d2 all ∧
    containerNullRepr (b.recontext φ) d1 all = containerNullRepr b d2 all := by
  have h1 : containerExpectedSize (b.recontext φ) d1 all = containerExpectedSize b d2 all := by
    simp only [containerExpectedSize]
    have := nullReprWith_congr (b := b) (e1 := .error (.buggyField b.name)) hd rfl
    rw [← this]
    rfl
  refine ⟨h1, ?_⟩
  simp only [containerNullRepr, h1]
  exact nullReprWith_congr (b := b) hd rfl

theorem dumpFields_recontext {ts ts' : Field → Value → W} {all : Dict} {c : Value} (fs : List Field)
    (h : ∀ f ∈ fs, ∀ v, ts' (f.recontext φ) v = ts f v) :
    dumpFields ts' all c (fs.map (·.recontext φ)) = dumpFields ts all (φ c) fs := by
  induction fs with
  | nil => rfl
  | cons f fs ih =>
    have ih' := ih fun g hg => h g (List.mem_cons_of_mem _ hg)
    simp only [List.map_cons, dumpFields, base_recontext, computeValueForDump_recontext, h f List.mem_cons_self, ih']

/-- What the induction on the fuel shows about fields and structs. -/
structure DumpAt (φ : Value → Value) (Γ : Classes) (n : Nat) : Prop where
  field : ∀ f v c all, Quiet φ f →
    fieldToStream (Γ.recontext φ) n (f.recontext φ) v c all = fieldToStream Γ n f v (φ c) all
  struct : ∀ d vals c, QuietDesc φ d →
    structToStream (Γ.recontext φ) n (d.recontext φ) vals c = structToStream Γ n d vals (φ c)

theorem dumpNew_recontext {Γ : Classes} (hΓ : QuietClasses φ Γ) {n : Nat} (ih : DumpAt φ Γ n) (cls : String) (kw : Dict) (c : Value) :
    dumpNew (Γ.recontext φ) (structToStream (Γ.recontext φ) n) cls kw c = dumpNew Γ (structToStream Γ n) cls kw (φ c) := by
  simp only [dumpNew, Classes.recontext]
  cases hc : Γ cls with
  | none => rfl
  | some d =>
    simp only [Option.map_some, structInit_recontext]
    cases structInit d kw with
    | error e => rfl
    | ok vals => exact ih.struct d vals c (hΓ cls d hc)

theorem containerDump_recontext {Γ : Classes} (hΓ : QuietClasses φ Γ) {n : Nat} (ih : DumpAt φ Γ n) {f : Field} (hf : Quiet φ f)
    (v c : Value) (all : Dict) :
    containerDump (Γ.recontext φ) (fieldToStream (Γ.recontext φ) n) (structToStream (Γ.recontext φ) n) (f.recontext φ) v c all =
      containerDump Γ (fieldToStream Γ n) (structToStream Γ n) f v (φ c) all := by
  cases hf with
  | leaf => rfl
  | @array b comp count halt _ _ hc =>
    simp only [Field.recontext, containerDump, ih.field comp _ _ _ hc]
    rfl
  | @nested b cls =>
    simp only [Field.recontext, containerDump]
    cases v <;> try rfl
    · exact dumpNew_recontext hΓ ih cls _ c
    · rename_i cls vals
      simp only [Classes.recontext]
      cases hc : Γ cls with
      | none => rfl
      | some d => exact ih.struct d vals c (hΓ cls d hc)
  | @union b cs ld dd _ _ hg =>
    simp only [Field.recontext, containerDump, getElem?_recontextChoices]
    cases dd v (φ c) all with
    | error e => rfl
    | ok i =>
      simp only
      cases hi : cs[i]? with
      | none => rfl
      | some ch =>
        cases ch with
        | inl g => exact ih.field g v c all (hg g (List.mem_of_getElem? hi))
        | inr cls =>
          simp only [Option.map_some, recontextChoice]
          cases v <;> try rfl
          exact dumpNew_recontext hΓ ih cls _ c

theorem Spec.Quiet.containerNull {f : Field} (h : Quiet φ f) (hl : ∀ b k, f ≠ .leaf b k) : φ .none = .none ∨ BytesNull f.base := by
  cases h with
  | leaf => exact absurd rfl (hl _ _)
  | array _ h => exact h
  | nested _ h => exact h
  | union _ h => exact h

theorem toStreamWith_recontext (b : FieldBase) (d : Value → W) (nr : Except Err Bytes) (e : Except Err Int)
    (p : Bytes → Int → Except Err Bytes) (v : Value) : toStreamWith (b.recontext φ) d nr e p v = toStreamWith b d nr e p v := rfl

theorem fieldToStream_container {Γ : Classes} {n : Nat} {f : Field} (hl : ∀ b k, f ≠ .leaf b k) (data ctx : Value) (all : Dict) :
    fieldToStream Γ (n + 1) f data ctx all =
      toStreamWith f.base (fun v => containerDump Γ (fieldToStream Γ n) (structToStream Γ n) f v ctx all)
        (containerNullRepr f.base (fun v => containerDump Γ (fieldToStream Γ n) (structToStream Γ n) f v .none all) all)
        (containerExpectedSize f.base (fun v => containerDump Γ (fieldToStream Γ n) (structToStream Γ n) f v .none all) all)
        (fun _ _ => .error (.valueSize f.name)) data := by
  cases f with
  | leaf b k => exact absurd rfl (hl b k)
  | array => rfl
  | nested => rfl
  | union => rfl

theorem recontext_ne_leaf {f : Field} (hl : ∀ b k, f ≠ .leaf b k) (b : FieldBase) (k : Leaf) : f.recontext φ ≠ .leaf b k := by
  cases f with
  | leaf b k => exact absurd rfl (hl b k)
  | array => simp [Field.recontext]
  | nested => simp [Field.recontext]
  | union => simp [Field.recontext]

theorem containerNulls_recontext {Γ : Classes} (hΓ : QuietClasses φ Γ) {n : Nat} (ih : DumpAt φ Γ n) {f : Field} (hf : Quiet φ f)
    (hl : ∀ b k, f ≠ .leaf b k) (all : Dict) :
    BytesNull f.base ∨ ∀ v, containerDump (Γ.recontext φ) (fieldToStream (Γ.recontext φ) n) (structToStream (Γ.recontext φ) n)
      (f.recontext φ) v .none all = containerDump Γ (fieldToStream Γ n) (structToStream Γ n) f v .none all := by
  rcases hf.containerNull hl with h | h
  · refine .inr fun v => ?_
    rw [containerDump_recontext hΓ ih hf, h]
  · exact .inl h

theorem dumpAt {Γ : Classes} (hΓ : QuietClasses φ Γ) (n : Nat) : DumpAt φ Γ n := by
  induction n with
  | zero => exact ⟨fun _ _ _ _ _ => rfl, fun _ _ _ _ => rfl⟩
  | succ n ih =>
    constructor
    · intro f v c all hf
      by_cases hl : ∃ b k, f = .leaf b k
      · obtain ⟨b, k, rfl⟩ := hl
        cases hf with
        | leaf hp hn =>
          simp only [fieldToStream, Field.recontext, leafDump_recontext, leafExpectedSize_recontext hn, leafNullRepr_recontext hn,
            toStreamWith_recontext]
          have : leafAddPadding (b.recontext φ) (k.recontext φ) = leafAddPadding b k :=
            funext fun _ => funext fun _ => leafAddPadding_recontext b k _ _
          rw [this]
      · have hl' : ∀ b k, f ≠ .leaf b k := fun b k h => hl ⟨b, k, h⟩
        rw [fieldToStream_container hl', fieldToStream_container (recontext_ne_leaf hl')]
        have hn := containerNulls_recontext hΓ ih hf hl' all
        simp only [base_recontext, name_recontext, toStreamWith_recontext]
        rw [(containerNull_recontext (φ := φ) hn all).1, (containerNull_recontext (φ := φ) hn all).2]
        simp only [containerDump_recontext hΓ ih hf]
    · intro d vals c hq
      simp only [structToStream, structToStreamWith, validateContents_recontext hq, structToDict_recontext hΓ hq]
      cases validateContents d vals with
      | error e => rfl
      | ok u =>
        simp only
        cases structToDict Γ n d vals with
        | error e => rfl
        | ok all => exact dumpFields_recontext d.components fun f hf v => ih.field f v c all (hq f hf)

/-! ### Equality -/

theorem fieldDoDump_recontext {Γ : Classes} (hΓ : QuietClasses φ Γ) {f : Field} (hf : Quiet φ f) (n : Nat) (v c : Value)
    (all : Dict) : fieldDoDump (Γ.recontext φ) n (f.recontext φ) v c all = fieldDoDump Γ n f v (φ c) all := by
  cases hf with
  | leaf hp hn => simp only [fieldDoDump, Field.recontext, leafDump_recontext, leafExpectedSize_recontext hn]
  | @array b comp count halt h1 h2 h3 =>
    exact containerDump_recontext hΓ (dumpAt hΓ n) (f := .array b comp count halt) (.array h1 h2 h3) v c all
  | nested h1 h2 => exact containerDump_recontext hΓ (dumpAt hΓ n) (.nested h1 h2) v c all
  | @union b cs ld dd h1 h2 h3 =>
    exact containerDump_recontext hΓ (dumpAt hΓ n) (f := .union b cs ld dd) (.union h1 h2 h3) v c all

theorem fieldNulls_recontext {Γ : Classes} (hΓ : QuietClasses φ Γ) {f : Field} (hf : Quiet φ f) (n : Nat) (all : Dict) :
    fieldExpectedSize (Γ.recontext φ) n (f.recontext φ) all = fieldExpectedSize Γ n f all ∧
    fieldNullRepr (Γ.recontext φ) n (f.recontext φ) all = fieldNullRepr Γ n f all := by
  by_cases hl : ∃ b k, f = .leaf b k
  · obtain ⟨b, k, rfl⟩ := hl
    cases hf with
    | leaf hp hn => exact ⟨leafExpectedSize_recontext hn all, leafNullRepr_recontext hn all⟩
  · have hl' : ∀ b k, f ≠ .leaf b k := fun b k h => hl ⟨b, k, h⟩
    have hn : BytesNull f.base ∨ ∀ v, fieldDoDump (Γ.recontext φ) n (f.recontext φ) v .none all = fieldDoDump Γ n f v .none all := by
      rcases hf.containerNull hl' with h | h
      · exact .inr fun v => by rw [fieldDoDump_recontext hΓ hf, h]
      · exact .inl h
    have := containerNull_recontext (φ := φ) hn all
    cases f with
    | leaf b k => exact absurd rfl (hl' b k)
    | array => exact this
    | nested => exact this
    | union => exact this

theorem structLen_recontext {Γ : Classes} (hΓ : QuietClasses φ Γ) (h0 : φ .none = .none) {d : StructDesc} (hq : QuietDesc φ d)
    (n : Nat) (vals : Dict) : structLen (Γ.recontext φ) n (d.recontext φ) vals = structLen Γ n d vals := by
  have h1 : ∀ cur f, Quiet φ f → fieldLen (Γ.recontext φ) n cur (f.recontext φ) = fieldLen Γ n cur f := by
    intro cur f hf
    have hs : (f.base.recontext φ).size = f.base.size := rfl
    simp only [fieldLen, (fieldNulls_recontext hΓ hf n cur).1, base_recontext, hf.compute, fieldToBytes,
      (dumpAt hΓ n).field f _ _ _ hf, h0, hs]
  have h2 : ∀ cur fs, (∀ f ∈ fs, Quiet φ f) →
      sumSizes (fieldLen (Γ.recontext φ) n cur) (fs.map (·.recontext φ)) = sumSizes (fieldLen Γ n cur) fs := by
    intro cur fs
    induction fs with
    | nil => intros; rfl
    | cons f fs ih =>
      intro hf
      simp only [List.map_cons, sumSizes, h1 cur f (hf f List.mem_cons_self), ih fun g hg => hf g (List.mem_cons_of_mem _ hg)]
  simp only [structLen, whateverPossible_recontext hq]
  cases whateverPossible d vals with
  | error e => rfl
  | ok cur => exact h2 cur d.components hq

theorem pyEq_recontext {Γ : Classes} (hΓ : QuietClasses φ Γ) (h0 : φ .none = .none) (n : Nat) (a b : Value) :
    pyEq (Γ.recontext φ) n a b = pyEq Γ n a b := by
  induction n generalizing a b with
  | zero => rfl
  | succ n ih =>
    have hp : pyEq (Γ.recontext φ) n = pyEq Γ n := funext fun a => funext fun b => ih a b
    have hr : recursiveToDicts (Γ.recontext φ) n = recursiveToDicts Γ n := funext (recursiveToDicts_recontext hΓ n)
    have hc : ∀ cls vals, comparableDict (Γ.recontext φ) n cls vals = comparableDict Γ n cls vals := by
      intro cls vals
      simp only [comparableDict, Classes.recontext]
      cases hd : Γ cls with
      | none => rfl
      | some d =>
        have hq := hΓ cls d hd
        simp only [Option.map_some]
        rw [structLen_recontext hΓ h0 hq n vals]
        have h1 : definedDict (d.recontext φ) vals = definedDict d vals := by
          simp only [definedDict, structGetItem_recontext hq]
        rw [h1, hr]
    have ho : ∀ v, comparableOther (Γ.recontext φ) n v = comparableOther Γ n v := by
      intro v
      cases v <;> simp only [comparableOther, hc, hr]
    have hs : ∀ cls vals other, structEqWith (Γ.recontext φ) n (pyEq Γ n) cls vals other =
        structEqWith Γ n (pyEq Γ n) cls vals other := by
      intro cls vals other
      simp only [structEqWith, hc, ho]
    cases a <;> cases b <;> simp only [pyEq, hp, hs]

theorem pyEq_unnested {Γ Γ' : Classes} {a b : Value} (ha : ∀ cls vals, a ≠ .struct cls vals) (hb : Unnested b) (n : Nat) :
    pyEq Γ n a b = pyEq Γ' n a b := by
  cases n with
  | zero => rfl
  | succ n =>
    obtain ⟨h1, h2, h3⟩ := hb
    cases a <;> cases b <;> first | rfl | exact absurd rfl (ha _ _) | exact absurd rfl (h1 _ _) | exact absurd rfl (h2 _) | exact absurd rfl (h3 _)

/-! ### Loading -/

theorem leafLoad_recontext (b : FieldBase) (k : Leaf) (e : Except Err Int) (s : Stream) (c : Value) (loaded : Dict) :
    leafLoad (b.recontext φ) (k.recontext φ) e s c loaded = leafLoad b k e s (φ c) loaded := by
  cases k <;> rfl

theorem andThen_ok {α β : Type} {r : R α} {g : α → Except Err β} {v : β} {t : Stream} (h : R.andThen r g = (.ok v, t)) :
    ∃ a, g a = .ok v := by
  obtain ⟨r, s⟩ := r
  cases r with
  | error e => simp [R.andThen, Except.bind] at h
  | ok a => exact ⟨a, by simpa [R.andThen, Except.bind] using congrArg Prod.fst h⟩

theorem rmap_ok {α β : Type} {r : R α} {g : α → β} {v : β} {t : Stream} (h : R.map r g = (.ok v, t)) : ∃ a, g a = v := by
  obtain ⟨r, s⟩ := r
  cases r with
  | error e => simp [R.map, Except.map] at h
  | ok a => exact ⟨a, by simpa [R.map, Except.map] using congrArg Prod.fst h⟩

theorem map_ok' {α β : Type} {r : Except Err α} {g : α → β} {v : β} (h : r.map g = .ok v) : ∃ a, g a = v := by
  cases r with
  | error e => simp [Except.map] at h
  | ok a => exact ⟨a, by simpa [Except.map] using h⟩

theorem leafLoad_not_struct {b : FieldBase} {k : Leaf} (hk : ∀ ops, k ≠ .custom ops) {e : Except Err Int} {s t : Stream} {c v : Value}
    {loaded : Dict} (h : leafLoad b k e s c loaded = (.ok v, t)) (cls : String) (vals : Dict) : v ≠ .struct cls vals := by
  rintro rfl
  cases k with
  | float fmt en =>
    obtain ⟨a, ha⟩ := andThen_ok h
    split at ha <;> simp at ha
  | integer sg en =>
    simp only [leafLoad] at h
    split at h
    · obtain ⟨a, ha⟩ := rmap_ok h; simp at ha
    · simp at h
  | varint enc m => obtain ⟨a, ha⟩ := rmap_ok h; simp at ha
  | timestamp res tz sg en =>
    simp only [leafLoad] at h
    split at h
    · simp at h
    · obtain ⟨a, ha⟩ := andThen_ok h
      obtain ⟨a, ha⟩ := map_ok' ha
      simp at ha
  | bytes => obtain ⟨a, ha⟩ := rmap_ok h; simp at ha
  | string codec pad =>
    obtain ⟨a, ha⟩ := andThen_ok h
    obtain ⟨a, ha⟩ := map_ok' ha
    simp at ha
  | stringz codec pad =>
    simp only [leafLoad] at h
    split at h
    · obtain ⟨a, ha⟩ := rmap_ok h; simp at ha
    · obtain ⟨a, ha⟩ := rmap_ok h; simp at ha
    · simp at h
  | uuid fmt =>
    simp only [leafLoad] at h
    split at h
    · simp at h
    · obtain ⟨a, ha⟩ := map_ok' (congrArg Prod.fst h)
      simp at ha
  | custom ops => exact absurd rfl (hk ops)

theorem finishLoad_congr {b : FieldBase} {eq eq' : Value → Value → Except Err Bool} {v : Value}
    (h : (b.const = .undefined ∧ b.nullValue = .undefined) ∨
      ((eq v b.nullValue = eq' v b.nullValue) ∧ (eq v b.const = eq' v b.const) ∧ eq .none b.const = eq' .none b.const)) :
    finishLoad b eq v = finishLoad b eq' v := by
  unfold finishLoad
  rcases h with ⟨h1, h2⟩ | ⟨h1, h2, h3⟩
  · simp [FieldBase.allowNull, h1, h2]
  · rw [h1]
    split
    · rfl
    · rename_i isNull _
      cases isNull with
      | true => simp only [if_true, h3]
      | false => simp only [Bool.false_eq_true, if_false, h2]

theorem loadAndFinish_congr {b : FieldBase} {eq eq' : Value → Value → Except Err Bool} {dl : Stream → R Value} {s : Stream}
    (h : ∀ v t, dl s = (.ok v, t) → finishLoad b eq v = finishLoad b eq' v) :
    loadAndFinish b eq dl s = loadAndFinish b eq' dl s := by
  unfold loadAndFinish
  split
  · rfl
  · rename_i v t hv
    rw [h v t hv]

theorem fromStreamWith_congr {b : FieldBase} {eq eq' : Value → Value → Except Err Bool} {nr : Except Err Bytes} {dl : Stream → R Value}
    {s : Stream} {c : Value} {loaded : Dict} (h : ∀ s v t, dl s = (.ok v, t) → finishLoad b eq v = finishLoad b eq' v) :
    fromStreamWith b eq nr dl s c loaded = fromStreamWith b eq' nr dl s c loaded := by
  have : ∀ s, loadAndFinish b eq dl s = loadAndFinish b eq' dl s := fun s => loadAndFinish_congr (h s)
  unfold fromStreamWith
  simp only [this]

theorem fromStreamWith_recontext (b : FieldBase) (eq : Value → Value → Except Err Bool) (nr : Except Err Bytes)
    (dl : Stream → R Value) (s : Stream) (c : Value) (loaded : Dict) :
    fromStreamWith (b.recontext φ) eq nr dl s c loaded = fromStreamWith b eq nr dl s (φ c) loaded := rfl

/-- All fields of a class are never compared with structs. -/
abbrev UncomparedDesc (φ : Value → Value) (d : StructDesc) : Prop := ∀ f ∈ d.components, Uncompared φ f

/-- What the induction on the fuel shows about fields and structs. -/
structure LoadAt (φ : Value → Value) (Γ : Classes) (n : Nat) : Prop where
  field : ∀ f s c loaded, Quiet φ f → Uncompared φ f →
    fieldFromStream (Γ.recontext φ) n (f.recontext φ) s c loaded = fieldFromStream Γ n f s (φ c) loaded
  raw : ∀ f s c loaded, Quiet φ f → Uncompared φ f →
    fieldDoLoad (Γ.recontext φ) n (f.recontext φ) s c loaded = fieldDoLoad Γ n f s (φ c) loaded
  struct : ∀ d s c kw, QuietDesc φ d → UncomparedDesc φ d →
    structFromStream (Γ.recontext φ) n (d.recontext φ) s c kw = structFromStream Γ n d s (φ c) kw

theorem loadStruct_recontext {Γ : Classes} (hΓ : QuietClasses φ Γ) (hu : UncomparedClasses φ Γ) {n : Nat} (ih : LoadAt φ Γ n)
    (cls : String) (s : Stream) (c : Value) :
    loadStruct (Γ.recontext φ) (fun d s ctx => structFromStream (Γ.recontext φ) n d s ctx []) cls s c =
      loadStruct Γ (fun d s ctx => structFromStream Γ n d s ctx []) cls s (φ c) := by
  simp only [loadStruct]
  cases hc : Γ cls with
  | none => simp [Classes.recontext, hc]
  | some d =>
    have h1 : Γ.recontext φ cls = some (d.recontext φ) := by simp [Classes.recontext, hc]
    simp only [h1, ih.struct d s c [] (hΓ cls d hc) (hu cls d hc)]

theorem containerLoad_recontext {Γ : Classes} (hΓ : QuietClasses φ Γ) (hu : UncomparedClasses φ Γ) {n : Nat} (ih : LoadAt φ Γ n)
    {f : Field} (hf : Quiet φ f) (huf : Uncompared φ f) (s : Stream) (c : Value) (loaded : Dict) :
    containerLoad (Γ.recontext φ) n (fieldFromStream (Γ.recontext φ) n) (fieldDoLoad (Γ.recontext φ) n)
        (fun d s ctx => structFromStream (Γ.recontext φ) n d s ctx []) (f.recontext φ) s c loaded =
      containerLoad Γ n (fieldFromStream Γ n) (fieldDoLoad Γ n) (fun d s ctx => structFromStream Γ n d s ctx []) f s (φ c) loaded := by
  cases hf with
  | leaf => rfl
  | @array b comp count halt _ _ hc =>
    cases huf with
    | array _ huc =>
      simp only [Field.recontext, containerLoad, ih.field comp _ _ _ hc huc]
      have : haltCheck (b.recontext φ).name count (halt.map fun h s vs ctx loaded => h s vs (φ ctx) loaded) c loaded =
          haltCheck b.name count halt (φ c) loaded := by
        funext s vs
        cases halt <;> rfl
      rw [this]
  | @nested b cls =>
    simp only [Field.recontext, containerLoad]
    exact loadStruct_recontext hΓ hu ih cls s c
  | @union b cs ld dd _ _ hg =>
    cases huf with
    | union _ hug =>
      simp only [Field.recontext, containerLoad, getElem?_recontextChoices]
      cases ld s (φ c) loaded with
      | error e => rfl
      | ok i =>
        simp only
        cases hi : cs[i]? with
        | none => rfl
        | some ch =>
          cases ch with
          | inl g => exact ih.raw g s c loaded (hg g (List.mem_of_getElem? hi)) (hug g (List.mem_of_getElem? hi))
          | inr cls => exact loadStruct_recontext hΓ hu ih cls s c

theorem loadFields_recontext {fs1 fs2 : Field → Stream → Dict → R Value} (fs : List Field)
    (h : ∀ f ∈ fs, ∀ s loaded, fs1 (f.recontext φ) s loaded = fs2 f s loaded) (results : Dict) (s : Stream) :
    loadFields fs1 (fs.map (·.recontext φ)) results s = loadFields fs2 fs results s := by
  induction fs generalizing results s with
  | nil => rfl
  | cons f fs ih =>
    have ih' := ih fun g hg => h g (List.mem_cons_of_mem _ hg)
    simp only [List.map_cons, loadFields, h f List.mem_cons_self, name_recontext, ih']

theorem dropDiscarded_recontext (d : StructDesc) (vals : Dict) : dropDiscarded (d.recontext φ) vals = dropDiscarded d vals := by
  have h2 : ∀ (fs : List Field) (dct : Dict),
      ((fs.map (·.recontext φ)).filter (·.base.discard)).foldl (fun dct f => Dict.erase dct f.name) dct =
        (fs.filter (·.base.discard)).foldl (fun dct f => Dict.erase dct f.name) dct := by
    intro fs
    induction fs with
    | nil => intro; rfl
    | cons f fs ih =>
      intro dct
      have hb : (f.recontext φ).base.discard = f.base.discard := by simp [FieldBase.recontext]
      simp only [List.map_cons, List.filter_cons, hb]
      split
      · simp only [List.foldl_cons, name_recontext, ih]
      · exact ih dct
  exact h2 d.components vals

theorem fieldDoLoad_container {Γ : Classes} {n : Nat} {f : Field} (hl : ∀ b k, f ≠ .leaf b k) (s : Stream) (ctx : Value)
    (loaded : Dict) : fieldDoLoad Γ (n + 1) f s ctx loaded = containerLoad Γ n (fieldFromStream Γ n) (fieldDoLoad Γ n)
        (fun d s ctx => structFromStream Γ n d s ctx []) f s ctx loaded := by
  cases f with
  | leaf b k => exact absurd rfl (hl b k)
  | array => rfl
  | nested => rfl
  | union => rfl

theorem Spec.Uncompared.container {f : Field} (h : Uncompared φ f) (hl : ∀ b k, f ≠ .leaf b k) :
    φ .none = .none ∨ (f.base.const = .undefined ∧ f.base.nullValue = .undefined) := by
  cases h with
  | leaf => exact absurd rfl (hl _ _)
  | array h => exact h
  | nested h => exact h
  | union h => exact h

theorem none_ne_struct : ∀ cls vals, Value.none ≠ .struct cls vals := by intro _ _ h; cases h

theorem loadAt {Γ : Classes} (hΓ : QuietClasses φ Γ) (hu : UncomparedClasses φ Γ) (n : Nat) : LoadAt φ Γ n := by
  induction n with
  | zero => exact ⟨fun _ _ _ _ _ _ => rfl, fun _ _ _ _ _ _ => rfl, fun _ _ _ _ _ _ => rfl⟩
  | succ n ih =>
    refine ⟨?_, ?_, ?_⟩
    · intro f s c loaded hf huf
      have hraw : (fun s => fieldDoLoad (Γ.recontext φ) n (f.recontext φ) s c loaded) = fun s => fieldDoLoad Γ n f s (φ c) loaded :=
        funext fun s => ih.raw f s c loaded hf huf
      simp only [fieldFromStream, base_recontext, fromStreamWith_recontext, (fieldNulls_recontext hΓ hf n loaded).2, hraw]
      refine fromStreamWith_congr fun s v t hv => finishLoad_congr ?_
      have h0 : φ .none = .none → (f.base.const = .undefined ∧ f.base.nullValue = .undefined) ∨
          ((pyEq (Γ.recontext φ) n v f.base.nullValue = pyEq Γ n v f.base.nullValue) ∧
            (pyEq (Γ.recontext φ) n v f.base.const = pyEq Γ n v f.base.const) ∧
            pyEq (Γ.recontext φ) n .none f.base.const = pyEq Γ n .none f.base.const) := fun h =>
        .inr ⟨pyEq_recontext hΓ h n _ _, pyEq_recontext hΓ h n _ _, pyEq_recontext hΓ h n _ _⟩
      by_cases hl : ∃ b k, f = .leaf b k
      · obtain ⟨b, k, rfl⟩ := hl
        cases huf with
        | leaf h =>
          rcases h with h | h | ⟨hk, h1, h2⟩
          · exact h0 h
          · exact .inl h
          · have hv' : ∀ cls vals, v ≠ .struct cls vals := by
              cases n with
              | zero => simp [fieldDoLoad] at hv
              | succ n => exact leafLoad_not_struct hk (by simpa only [fieldDoLoad] using hv)
            exact .inr ⟨pyEq_unnested hv' h2 n, pyEq_unnested hv' h1 n, pyEq_unnested none_ne_struct h1 n⟩
      · rcases huf.container fun b k h => hl ⟨b, k, h⟩ with h | h
        · exact h0 h
        · exact .inl h
    · intro f s c loaded hf huf
      by_cases hl : ∃ b k, f = .leaf b k
      · obtain ⟨b, k, rfl⟩ := hl
        cases hf with
        | leaf hp hn =>
          simp only [fieldDoLoad, Field.recontext, leafExpectedSize_recontext hn, leafLoad_recontext]
      · have hl' : ∀ b k, f ≠ .leaf b k := fun b k h => hl ⟨b, k, h⟩
        rw [fieldDoLoad_container hl', fieldDoLoad_container (recontext_ne_leaf hl')]
        exact containerLoad_recontext hΓ hu ih hf huf s c loaded
    · intro d s c kw hq hud
      simp only [structFromStream, structFromStreamWith]
      have h3 : (d.recontext φ).components = d.components.map (·.recontext φ) := rfl
      rw [h3, loadFields_recontext (fs2 := fun f s loaded => fieldFromStream Γ n f s (φ c) loaded) d.components
        (fun f hf s loaded => ih.field f s c loaded (hq f hf) (hud f hf)) kw s]
      simp only [structInit_recontext, validateContents_recontext hq, dropDiscarded_recontext]

/-! ### Partial dumps and loads -/

theorem partialLoadLoop_recontext {fs1 fs2 : Field → Stream → Dict → R Value} (last : Option String) (fs : List Field)
    (h : ∀ f ∈ fs, ∀ s loaded, fs1 (f.recontext φ) s loaded = fs2 f s loaded) (results : Dict) (s : Stream) :
    partialLoadLoop fs1 last (fs.map (·.recontext φ)) results s = partialLoadLoop fs2 last fs results s := by
  induction fs generalizing results s with
  | nil => rfl
  | cons f fs ih =>
    have ih' := ih fun g hg => h g (List.mem_cons_of_mem _ hg)
    have hb : (f.base.recontext φ).discard = f.base.discard := rfl
    simp only [List.map_cons, partialLoadLoop, h f List.mem_cons_self, base_recontext, name_recontext, hb, ih']

theorem partialLoad_recontext {Γ : Classes} (hΓ : QuietClasses φ Γ) (hu : UncomparedClasses φ Γ) {d : StructDesc} (hq : QuietDesc φ d)
    (hud : UncomparedDesc φ d) (n : Nat) (s : Stream) (last : Option String) (c : Value) :
    structPartialLoad (Γ.recontext φ) n (d.recontext φ) s last c = structPartialLoad Γ n d s last (φ c) := by
  have h3 : (d.recontext φ).components = d.components.map (·.recontext φ) := rfl
  simp only [structPartialLoad, has_recontext]
  rw [h3, partialLoadLoop_recontext (fs2 := fun f s loaded => fieldFromStream Γ n f s (φ c) loaded) last d.components
    (fun f hf s loaded => (loadAt hΓ hu n).field f s c loaded (hq f hf) (hud f hf)) [] s]
  simp only [structInit_recontext]

theorem getField_recontext {Γ : Classes} (hΓ : QuietClasses φ Γ) (hu : UncomparedClasses φ Γ) {d : StructDesc} (hq : QuietDesc φ d)
    (hud : UncomparedDesc φ d) (n : Nat) (s : Stream) (name : String) (c : Value) :
    structGetField (Γ.recontext φ) n (d.recontext φ) s name c = structGetField Γ n d s name (φ c) := by
  simp only [structGetField, find?_recontext]
  cases hf : d.find? name with
  | none => rfl
  | some f =>
    have hm := List.mem_of_find?_eq_some hf
    have ho : (f.base.recontext φ).offset = f.base.offset := rfl
    simp only [Option.map_some, base_recontext, ho, (loadAt hΓ hu n).field f _ c [] (hq f hm) (hud f hm),
      partialLoad_recontext hΓ hu hq hud, structGetItem_recontext hq]

theorem partialDump_recontext {Γ : Classes} (hΓ : QuietClasses φ Γ) {d : StructDesc} (hq : QuietDesc φ d) (n : Nat) (vals : Dict)
    (last : Option String) (c : Value) :
    structPartialDump (Γ.recontext φ) n (d.recontext φ) vals last c = structPartialDump Γ n d vals last (φ c) := by
  have h1 : ∀ fs, (∀ f ∈ fs, Quiet φ f) →
      partialDumpLoop (fun f v => fieldToStream (Γ.recontext φ) n f v c []) vals last (fs.map (·.recontext φ)) =
        partialDumpLoop (fun f v => fieldToStream Γ n f v (φ c) []) vals last fs := by
    intro fs
    induction fs with
    | nil => intros; rfl
    | cons f fs ih =>
      intro hf
      have ih' := ih fun g hg => hf g (List.mem_cons_of_mem _ hg)
      have hd : (f.base.recontext φ).default = f.base.default := rfl
      have hr : (f.base.recontext φ).required = f.base.required := rfl
      simp only [List.map_cons, partialDumpLoop, (dumpAt hΓ n).field f _ c [] (hf f List.mem_cons_self), base_recontext, name_recontext,
        hd, hr, ih']
  exact h1 d.components hq

/-! ### Every field, if `φ` keeps `None` -/

theorem quiet_of_none (h0 : φ .none = .none) : (f : Field) → Quiet φ f
  | .leaf b k => .leaf (fun V => by rw [h0]) (.inl h0)
  | .array b comp count halt => .array (fun V => by rw [h0]) (.inl h0) (quiet_of_none h0 comp)
  | .nested b cls => .nested (fun V => by rw [h0]) (.inl h0)
  | .union b cs ld dd => .union (fun V => by rw [h0]) (.inl h0) fun g _hg => quiet_of_none h0 g
termination_by f => sizeOf f
decreasing_by
  all_goals simp_wf
  · omega
  · have := List.sizeOf_lt_of_mem _hg
    simp at this
    omega

theorem uncompared_of_none (h0 : φ .none = .none) : (f : Field) → Uncompared φ f
  | .leaf b k => .leaf (.inl h0)
  | .array b comp count halt => .array (.inl h0) (uncompared_of_none h0 comp)
  | .nested b cls => .nested (.inl h0)
  | .union b cs ld dd => .union (.inl h0) fun g _hg => uncompared_of_none h0 g
termination_by f => sizeOf f
decreasing_by
  all_goals simp_wf
  · omega
  · have := List.sizeOf_lt_of_mem _hg
    simp at this
    omega

end Verif
