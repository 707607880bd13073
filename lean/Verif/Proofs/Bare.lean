import Verif.Spec.Bare
import Verif.Model.Load
import Verif.Model.Struct

namespace Verif
open Spec

@[simp] theorem base_bare (f : Field) : f.bare.base = f.base.bare := by cases f <;> rfl

@[simp] theorem name_bare (f : Field) : f.bare.name = f.name := by cases f <;> rfl

theorem computeValueForDump_bare (b : FieldBase) (V : View) (c : Value) : b.bare.computeValueForDump V c = b.computeValueForDump V c := rfl

theorem find?_bare (d : StructDesc) (k : String) : d.bare.find? k = (d.find? k).map Field.bare := by
  simp only [StructDesc.find?, StructDesc.bare, List.find?_map]
  congr 1
  congr 1
  funext f
  simp

theorem has_bare (d : StructDesc) (k : String) : d.bare.has k = d.has k := by
  simp [StructDesc.has, find?_bare]

theorem structGet_bare (d : StructDesc) (vals : Dict) (n : Nat) (k : String) : structGet d.bare vals n k = structGet d vals n k := by
  induction n generalizing k with
  | zero => rfl
  | succ n ih =>
    simp only [structGet, find?_bare]
    cases hf : d.find? k with
    | none => rfl
    | some f =>
      simp only [Option.map_some]
      cases Dict.get? vals k with
      | some v => rfl
      | none =>
        simp only [base_bare, computeValueForDump_bare]
        have : structGet d.bare vals n = structGet d vals n := funext ih
        rw [this]

theorem structGetItem_bare (d : StructDesc) (vals : Dict) (k : String) : structGetItem d.bare vals k = structGetItem d vals k := by
  simp only [structGetItem, structGet_bare]
  simp [StructDesc.bare]

theorem structView_bare (d : StructDesc) (vals : Dict) : structView d.bare vals = structView d vals := by
  simp only [structView]
  congr 1
  funext k
  exact structGetItem_bare d vals k

theorem structInit_bare (d : StructDesc) (kw : Dict) : structInit d.bare kw = structInit d kw := by
  simp only [structInit, has_bare]

theorem validateContents_bare (d : StructDesc) (vals : Dict) : validateContents d.bare vals = validateContents d vals := by
  have h : validateField d.bare vals = validateField d vals := by
    funext p
    simp only [validateField, find?_bare, structGetItem_bare, structView_bare]
    cases hf : d.find? p.1 with
    | none => rfl
    | some f => simp [FieldBase.bare]
  simp only [validateContents, h, structView_bare]
  rfl

theorem whateverPossible_bare (d : StructDesc) (vals : Dict) : whateverPossible d.bare vals = whateverPossible d vals := by
  have h1 : ∀ fs acc, whateverLoop d.bare vals (fs.map Field.bare) acc = whateverLoop d vals fs acc := by
    intro fs
    induction fs with
    | nil => intros; rfl
    | cons f fs ih =>
      intro acc
      simp only [List.map_cons, whateverLoop, base_bare, name_bare, structView_bare, computeValueForDump_bare, ih]
  have h2 : ∀ dct ks, chainLoop d.bare vals dct ks = chainLoop d vals dct ks := by
    intro dct ks
    induction ks with
    | nil => rfl
    | cons k ks ih => simp only [chainLoop, ih, structGetItem_bare]
  simp only [whateverPossible]
  rw [show d.bare.components = d.components.map Field.bare from rfl, h1]
  simp only [h2]

theorem toDictShallow_bare (d : StructDesc) (vals : Dict) (keep : Bool) : toDictShallow d.bare vals keep = toDictShallow d vals keep := by
  have h3 : d.bare.components = d.components.map Field.bare := rfl
  have h1 : ∀ dct fs, missingLoop dct (fs.map Field.bare) = missingLoop dct fs := by
    intro dct fs
    induction fs with
    | nil => rfl
    | cons f fs ih => simp only [List.map_cons, missingLoop, base_bare, name_bare, computeValueForDump_bare, ih]
  have h2 : ∀ (fs : List Field) (dct : Dict),
      ((fs.map Field.bare).filter (·.base.discard)).foldl (fun dct f => Dict.erase dct f.name) dct =
        (fs.filter (·.base.discard)).foldl (fun dct f => Dict.erase dct f.name) dct := by
    intro fs
    induction fs with
    | nil => intro; rfl
    | cons f fs ih =>
      intro dct
      have hb : f.bare.base.discard = f.base.discard := by simp [FieldBase.bare]
      simp only [List.map_cons, List.filter_cons, hb]
      split
      · simp only [List.foldl_cons, name_bare, ih]
      · exact ih dct
  simp only [toDictShallow, whateverPossible_bare, h3, h1, h2]

theorem recursiveToDicts_bare (Γ : Classes) (n : Nat) (v : Value) : recursiveToDicts Γ.bare n v = recursiveToDicts Γ n v := by
  induction n generalizing v with
  | zero => rfl
  | succ n ih =>
    have : recursiveToDicts Γ.bare n = recursiveToDicts Γ n := funext ih
    cases v <;> simp only [recursiveToDicts, this]
    rename_i cls vals
    simp only [Classes.bare]
    cases hc : Γ cls with
    | none => rfl
    | some d => simp only [Option.map_some, toDictShallow_bare]

theorem structToDict_bare (Γ : Classes) (n : Nat) (d : StructDesc) (vals : Dict) (keep : Bool) :
    structToDict Γ.bare n d.bare vals keep = structToDict Γ n d vals keep := by
  have : recursiveToDicts Γ.bare n = recursiveToDicts Γ n := funext (recursiveToDicts_bare Γ n)
  simp only [structToDict, toDictShallow_bare, this]

/-! ### Dumping -/

theorem dumpFields_bare {ts ts' : Field → Value → W} {all : Dict} {c : Value} (fs : List Field) (h : ∀ f v, ts' f.bare v = ts f v) :
    dumpFields ts' all c (fs.map Field.bare) = dumpFields ts all c fs := by
  induction fs with
  | nil => rfl
  | cons f fs ih => simp only [List.map_cons, dumpFields, base_bare, computeValueForDump_bare, h, ih]

theorem fieldToStream_bare (Γ : Classes) (n : Nat) (f : Field) (v c : Value) (all : Dict) :
    fieldToStream Γ n f.bare v c all = fieldToStream Γ n f v c all := by
  cases n with
  | zero => rfl
  | succ n =>
    cases f with
    | leaf b k => cases k <;> rfl
    | array => rfl
    | nested => rfl
    | union => rfl

/-- What the induction on the fuel shows about fields and structs. -/
structure DumpBare (Γ : Classes) (n : Nat) : Prop where
  field : ∀ f v c all, fieldToStream Γ.bare n f v c all = fieldToStream Γ n f v c all
  struct : ∀ d vals c, structToStream Γ.bare n d.bare vals c = structToStream Γ n d vals c

theorem dumpNew_bare {Γ : Classes} {n : Nat} (ih : DumpBare Γ n) (cls : String) (kw : Dict) (c : Value) :
    dumpNew Γ.bare (structToStream Γ.bare n) cls kw c = dumpNew Γ (structToStream Γ n) cls kw c := by
  simp only [dumpNew, Classes.bare]
  cases hc : Γ cls with
  | none => rfl
  | some d =>
    simp only [Option.map_some, structInit_bare]
    cases structInit d kw with
    | error e => rfl
    | ok vals => exact ih.struct d vals c

theorem containerDump_bare {Γ : Classes} {n : Nat} (ih : DumpBare Γ n) (f : Field) (v c : Value) (all : Dict) :
    containerDump Γ.bare (fieldToStream Γ.bare n) (structToStream Γ.bare n) f v c all =
      containerDump Γ (fieldToStream Γ n) (structToStream Γ n) f v c all := by
  cases f with
  | leaf => rfl
  | array b comp count halt => simp only [containerDump, ih.field comp]
  | nested b cls =>
    simp only [containerDump]
    cases v <;> try rfl
    · exact dumpNew_bare ih cls _ c
    · rename_i cls vals
      simp only [Classes.bare]
      cases hc : Γ cls with
      | none => rfl
      | some d => exact ih.struct d vals c
  | union b cs ld dd =>
    simp only [containerDump]
    cases dd v c all with
    | error e => rfl
    | ok i =>
      simp only
      cases hi : cs[i]? with
      | none => rfl
      | some ch =>
        cases ch with
        | inl g => exact ih.field g v c all
        | inr cls =>
          cases v <;> try rfl
          exact dumpNew_bare ih cls _ c

theorem dumpBare (Γ : Classes) (n : Nat) : DumpBare Γ n := by
  induction n with
  | zero => exact ⟨fun _ _ _ _ => rfl, fun _ _ _ => rfl⟩
  | succ n ih =>
    have hc := containerDump_bare ih
    constructor
    · intro f v c all
      cases f with
      | leaf b k => rfl
      | array => simp only [fieldToStream, hc]
      | nested => simp only [fieldToStream, hc]
      | union => simp only [fieldToStream, hc]
    · intro d vals c
      simp only [structToStream, structToStreamWith, validateContents_bare, structToDict_bare]
      cases validateContents d vals with
      | error e => rfl
      | ok u =>
        simp only
        cases structToDict Γ n d vals with
        | error e => rfl
        | ok all => exact dumpFields_bare d.components fun f v => by rw [fieldToStream_bare, ih.field]

/-! ### Equality -/

theorem fieldDoDump_bare (Γ : Classes) (n : Nat) (f : Field) (v c : Value) (all : Dict) :
    fieldDoDump Γ.bare n f v c all = fieldDoDump Γ n f v c all := by
  cases f with
  | leaf => rfl
  | array b comp count halt => exact containerDump_bare (dumpBare Γ n) (.array b comp count halt) v c all
  | nested b cls => exact containerDump_bare (dumpBare Γ n) (.nested b cls) v c all
  | union b cs ld dd => exact containerDump_bare (dumpBare Γ n) (.union b cs ld dd) v c all

theorem fieldNulls_bare (Γ : Classes) (n : Nat) (f : Field) (all : Dict) :
    fieldExpectedSize Γ.bare n f all = fieldExpectedSize Γ n f all ∧ fieldNullRepr Γ.bare n f all = fieldNullRepr Γ n f all := by
  cases f with
  | leaf => exact ⟨rfl, rfl⟩
  | array => simp only [fieldExpectedSize, fieldNullRepr, fieldDoDump_bare]; exact ⟨trivial, trivial⟩
  | nested => simp only [fieldExpectedSize, fieldNullRepr, fieldDoDump_bare]; exact ⟨trivial, trivial⟩
  | union => simp only [fieldExpectedSize, fieldNullRepr, fieldDoDump_bare]; exact ⟨trivial, trivial⟩

theorem fieldExpectedSize_bare (Γ : Classes) (n : Nat) (f : Field) (all : Dict) :
    fieldExpectedSize Γ n f.bare all = fieldExpectedSize Γ n f all ∧ fieldNullRepr Γ n f.bare all = fieldNullRepr Γ n f all := by
  cases f with
  | leaf b k => cases k <;> exact ⟨rfl, rfl⟩
  | array => exact ⟨rfl, rfl⟩
  | nested => exact ⟨rfl, rfl⟩
  | union => exact ⟨rfl, rfl⟩

theorem structLen_bare (Γ : Classes) (n : Nat) (d : StructDesc) (vals : Dict) : structLen Γ.bare n d.bare vals = structLen Γ n d vals := by
  have h1 : ∀ cur f, fieldLen Γ.bare n cur f.bare = fieldLen Γ n cur f := by
    intro cur f
    have hs : f.base.bare.size = f.base.size := rfl
    simp only [fieldLen, (fieldNulls_bare Γ n _ cur).1, (fieldExpectedSize_bare Γ n f cur).1, base_bare, computeValueForDump_bare, fieldToBytes,
      (dumpBare Γ n).field, fieldToStream_bare, hs]
  have h2 : ∀ cur fs, sumSizes (fieldLen Γ.bare n cur) (fs.map Field.bare) = sumSizes (fieldLen Γ n cur) fs := by
    intro cur fs
    induction fs with
    | nil => rfl
    | cons f fs ih => simp only [List.map_cons, sumSizes, h1, ih]
  simp only [structLen, whateverPossible_bare]
  cases whateverPossible d vals with
  | error e => rfl
  | ok cur => exact h2 cur d.components

theorem pyEq_bare (Γ : Classes) (n : Nat) (a b : Value) : pyEq Γ.bare n a b = pyEq Γ n a b := by
  induction n generalizing a b with
  | zero => rfl
  | succ n ih =>
    have hp : pyEq Γ.bare n = pyEq Γ n := funext fun a => funext fun b => ih a b
    have hr : recursiveToDicts Γ.bare n = recursiveToDicts Γ n := funext (recursiveToDicts_bare Γ n)
    have hc : ∀ cls vals, comparableDict Γ.bare n cls vals = comparableDict Γ n cls vals := by
      intro cls vals
      simp only [comparableDict, Classes.bare]
      cases hd : Γ cls with
      | none => rfl
      | some d =>
        simp only [Option.map_some]
        rw [structLen_bare]
        have h1 : definedDict d.bare vals = definedDict d vals := by
          simp only [definedDict, structGetItem_bare]
        rw [h1, hr]
    have ho : ∀ v, comparableOther Γ.bare n v = comparableOther Γ n v := by
      intro v
      cases v <;> simp only [comparableOther, hc, hr]
    have hs : ∀ cls vals other, structEqWith Γ.bare n (pyEq Γ n) cls vals other = structEqWith Γ n (pyEq Γ n) cls vals other := by
      intro cls vals other
      simp only [structEqWith, hc, ho]
    cases a <;> cases b <;> simp only [pyEq, hp, hs]

/-! ### Loading -/

theorem fieldDoLoad_bare (Γ : Classes) (n : Nat) (f : Field) (s : Stream) (c : Value) (loaded : Dict) :
    fieldDoLoad Γ n f.bare s c loaded = fieldDoLoad Γ n f s c loaded := by
  cases n with
  | zero => rfl
  | succ n =>
    cases f with
    | leaf b k => cases k <;> rfl
    | array => rfl
    | nested => rfl
    | union => rfl

theorem fieldFromStream_bare (Γ : Classes) (n : Nat) (f : Field) (s : Stream) (c : Value) (loaded : Dict) :
    fieldFromStream Γ n f.bare s c loaded = fieldFromStream Γ n f s c loaded := by
  cases n with
  | zero => rfl
  | succ n =>
    simp only [fieldFromStream, (fieldExpectedSize_bare Γ n f loaded).2, fieldDoLoad_bare, base_bare]
    rfl

/-- What the induction on the fuel shows about fields and structs. -/
structure LoadBare (Γ : Classes) (n : Nat) : Prop where
  field : ∀ f s c loaded, fieldFromStream Γ.bare n f s c loaded = fieldFromStream Γ n f s c loaded
  raw : ∀ f s c loaded, fieldDoLoad Γ.bare n f s c loaded = fieldDoLoad Γ n f s c loaded
  struct : ∀ d s c kw, structFromStream Γ.bare n d.bare s c kw = structFromStream Γ n d s c kw

theorem loadStruct_bare {Γ : Classes} {n : Nat} (ih : LoadBare Γ n) (cls : String) (s : Stream) (c : Value) :
    loadStruct Γ.bare (fun d s ctx => structFromStream Γ.bare n d s ctx []) cls s c =
      loadStruct Γ (fun d s ctx => structFromStream Γ n d s ctx []) cls s c := by
  simp only [loadStruct]
  cases hc : Γ cls with
  | none => simp [Classes.bare, hc]
  | some d =>
    have h1 : Γ.bare cls = some d.bare := by simp [Classes.bare, hc]
    simp only [h1, ih.struct d s c []]

theorem containerLoad_bare {Γ : Classes} {n : Nat} (ih : LoadBare Γ n) (f : Field) (s : Stream) (c : Value) (loaded : Dict) :
    containerLoad Γ.bare n (fieldFromStream Γ.bare n) (fieldDoLoad Γ.bare n) (fun d s ctx => structFromStream Γ.bare n d s ctx []) f s c loaded =
      containerLoad Γ n (fieldFromStream Γ n) (fieldDoLoad Γ n) (fun d s ctx => structFromStream Γ n d s ctx []) f s c loaded := by
  cases f with
  | leaf => rfl
  | array b comp count halt => simp only [containerLoad, ih.field comp]
  | nested b cls => exact loadStruct_bare ih cls s c
  | union b cs ld dd =>
    simp only [containerLoad]
    cases ld s c loaded with
    | error e => rfl
    | ok i =>
      simp only
      cases hi : cs[i]? with
      | none => rfl
      | some ch =>
        cases ch with
        | inl g => exact ih.raw g s c loaded
        | inr cls => exact loadStruct_bare ih cls s c

theorem loadFields_bare {fs1 fs2 : Field → Stream → Dict → R Value} (fs : List Field)
    (h : ∀ f s loaded, fs1 f.bare s loaded = fs2 f s loaded) (results : Dict) (s : Stream) :
    loadFields fs1 (fs.map Field.bare) results s = loadFields fs2 fs results s := by
  induction fs generalizing results s with
  | nil => rfl
  | cons f fs ih => simp only [List.map_cons, loadFields, h, name_bare, ih]

theorem dropDiscarded_bare (d : StructDesc) (vals : Dict) : dropDiscarded d.bare vals = dropDiscarded d vals := by
  have h2 : ∀ (fs : List Field) (dct : Dict),
      ((fs.map Field.bare).filter (·.base.discard)).foldl (fun dct f => Dict.erase dct f.name) dct =
        (fs.filter (·.base.discard)).foldl (fun dct f => Dict.erase dct f.name) dct := by
    intro fs
    induction fs with
    | nil => intro; rfl
    | cons f fs ih =>
      intro dct
      have hb : f.bare.base.discard = f.base.discard := by simp [FieldBase.bare]
      simp only [List.map_cons, List.filter_cons, hb]
      split
      · simp only [List.foldl_cons, name_bare, ih]
      · exact ih dct
  exact h2 d.components vals

theorem loadBare (Γ : Classes) (n : Nat) : LoadBare Γ n := by
  induction n with
  | zero => exact ⟨fun _ _ _ _ => rfl, fun _ _ _ _ => rfl, fun _ _ _ _ => rfl⟩
  | succ n ih =>
    have hc := containerLoad_bare ih
    refine ⟨?_, ?_, ?_⟩
    · intro f s c loaded
      have hp : pyEq Γ.bare n = pyEq Γ n := funext fun a => funext fun b => pyEq_bare Γ n a b
      simp only [fieldFromStream, (fieldNulls_bare Γ n f loaded).2, ih.raw, hp]
    · intro f s c loaded
      cases f with
      | leaf => rfl
      | array => simp only [fieldDoLoad, hc]
      | nested => simp only [fieldDoLoad, hc]
      | union => simp only [fieldDoLoad, hc]
    · intro d s c kw
      simp only [structFromStream, structFromStreamWith]
      rw [show d.bare.components = d.components.map Field.bare from rfl,
        loadFields_bare (fs2 := fun f s loaded => fieldFromStream Γ n f s c loaded) d.components
          (fun f s loaded => by rw [fieldFromStream_bare, ih.field]) kw s]
      simp only [structInit_bare, validateContents_bare, dropDiscarded_bare]

/-! ### Partial dumps and loads -/

theorem partialLoadLoop_bare {fs1 fs2 : Field → Stream → Dict → R Value} (last : Option String) (fs : List Field)
    (h : ∀ f s loaded, fs1 f.bare s loaded = fs2 f s loaded) (results : Dict) (s : Stream) :
    partialLoadLoop fs1 last (fs.map Field.bare) results s = partialLoadLoop fs2 last fs results s := by
  induction fs generalizing results s with
  | nil => rfl
  | cons f fs ih =>
    have hb : f.base.bare.discard = f.base.discard := rfl
    simp only [List.map_cons, partialLoadLoop, h, base_bare, name_bare, hb, ih]

theorem partialLoad_bare (Γ : Classes) (n : Nat) (d : StructDesc) (s : Stream) (last : Option String) (c : Value) :
    structPartialLoad Γ.bare n d.bare s last c = structPartialLoad Γ n d s last c := by
  simp only [structPartialLoad, has_bare]
  rw [show d.bare.components = d.components.map Field.bare from rfl,
    partialLoadLoop_bare (fs2 := fun f s loaded => fieldFromStream Γ n f s c loaded) last d.components
      (fun f s loaded => by rw [fieldFromStream_bare, (loadBare Γ n).field]) [] s]
  simp only [structInit_bare]

theorem partialDump_bare (Γ : Classes) (n : Nat) (d : StructDesc) (vals : Dict) (last : Option String) (c : Value) :
    structPartialDump Γ.bare n d.bare vals last c = structPartialDump Γ n d vals last c := by
  have h1 : ∀ {ts ts' : Field → Value → W} fs, (∀ f v, ts' f.bare v = ts f v) →
      partialDumpLoop ts' vals last (fs.map Field.bare) = partialDumpLoop ts vals last fs := by
    intro ts ts' fs h
    induction fs with
    | nil => rfl
    | cons f fs ih =>
      have hd : f.base.bare.default = f.base.default := rfl
      have hr : f.base.bare.required = f.base.required := rfl
      simp only [List.map_cons, partialDumpLoop, h, base_bare, name_bare, hd, hr, ih]
  exact h1 d.components fun f v => by rw [fieldToStream_bare, (dumpBare Γ n).field]

end Verif
