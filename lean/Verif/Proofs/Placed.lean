import Verif.Proofs.StructDump
import Verif.Proofs.StructLoad
import Verif.Proofs.Class
import Verif.Spec.Annotate

/-!
# Index and offset of a field

Neither matters for dumping and loading.
-/

namespace Verif

open Spec

/-- The class with fields that have no particular place. -/
def unplacedClass (d : StructDesc) : StructDesc := { d with components := d.components.map unplaced }

theorem unplaced_name (f : Field) : (unplaced f).name = f.name := by cases f <;> rfl
theorem unplaced_discard (f : Field) : (unplaced f).base.discard = f.base.discard := by cases f <;> rfl
theorem unplaced_validators (f : Field) : (unplaced f).base.validators = f.base.validators := by cases f <;> rfl
theorem unplaced_compute (f : Field) (v : View) (ctx : Value) :
    (unplaced f).base.computeValueForDump v ctx = f.base.computeValueForDump v ctx := by cases f <;> rfl
theorem unplaced_default (f : Field) : (unplaced f).base.default = f.base.default := by cases f <;> rfl

theorem fieldDoDump_unplaced (Γ : Classes) (n : Nat) (f : Field) (v ctx : Value) (all : Dict) :
    fieldDoDump Γ n (unplaced f) v ctx all = fieldDoDump Γ n f v ctx all := by
  cases f with
  | leaf b k => cases n <;> cases k <;> rfl
  | array => cases n <;> rfl
  | nested => cases n <;> rfl
  | union => cases n <;> rfl

theorem fieldToStream_unplaced (Γ : Classes) (n : Nat) (f : Field) (v ctx : Value) (all : Dict) :
    fieldToStream Γ n (unplaced f) v ctx all = fieldToStream Γ n f v ctx all := by
  cases n with
  | zero => rfl
  | succ n =>
    cases f with
    | leaf b k => cases k <;> rfl
    | array => rfl
    | nested => rfl
    | union => rfl

theorem fieldFromStream_unplaced (Γ : Classes) (n : Nat) (f : Field) (s : Stream) (ctx : Value) (loaded : Dict) :
    fieldFromStream Γ n (unplaced f) s ctx loaded = fieldFromStream Γ n f s ctx loaded := by
  cases n with
  | zero => rfl
  | succ n =>
    cases f with
    | leaf b k => cases n <;> cases k <;> rfl
    | array => cases n <;> rfl
    | nested => cases n <;> rfl
    | union => cases n <;> rfl

theorem find?_unplaced (d : StructDesc) (name : String) : (unplacedClass d).find? name = (d.find? name).map unplaced := by
  show (d.components.map unplaced).find? (fun f => f.name = name) = _
  unfold StructDesc.find?
  rw [List.find?_map]
  congr 1
  apply congrArg (fun p => d.components.find? p)
  funext f
  simp [Function.comp, unplaced_name]

theorem names_unplaced (d : StructDesc) : Spec.names (unplacedClass d) = Spec.names d := by
  simp [Spec.names, unplacedClass, Function.comp_def, unplaced_name]

theorem structGet_unplaced (d : StructDesc) (vals : Dict) (n : Nat) (name : String) :
    structGet (unplacedClass d) vals n name = structGet d vals n name := by
  induction n generalizing name with
  | zero => rfl
  | succ n ih =>
    have hg : structGet (unplacedClass d) vals n = structGet d vals n := funext ih
    simp only [structGet, find?_unplaced, hg]
    cases d.find? name with
    | none => rfl
    | some f => simp only [Option.map_some, unplaced_compute]

theorem structGetItem_unplaced (d : StructDesc) (vals : Dict) (name : String) :
    structGetItem (unplacedClass d) vals name = structGetItem d vals name := by
  unfold structGetItem
  rw [structGet_unplaced]
  simp [unplacedClass]

theorem structView_unplaced (d : StructDesc) (vals : Dict) : structView (unplacedClass d) vals = structView d vals := by
  have : structGetItem (unplacedClass d) vals = structGetItem d vals := funext (structGetItem_unplaced d vals)
  simp only [structView, this]

theorem erase_unplaced (fs : List Field) (dct : Dict) :
    ((fs.map unplaced).filter (·.base.discard)).foldl (fun dct f => dct.erase f.name) dct =
      (fs.filter (·.base.discard)).foldl (fun dct f => dct.erase f.name) dct := by
  induction fs generalizing dct with
  | nil => rfl
  | cons f fs ih =>
    simp only [List.map_cons, List.filter_cons, unplaced_discard]
    split
    · simp only [List.foldl_cons, unplaced_name]; exact ih _
    · exact ih _

theorem toDictShallow_unplaced (d : StructDesc) (vals : Dict) (keep : Bool) :
    toDictShallow (unplacedClass d) vals keep = toDictShallow d vals keep := by
  have hw : ∀ fs acc, whateverLoop (unplacedClass d) vals (fs.map unplaced) acc = whateverLoop d vals fs acc := by
    intro fs
    induction fs with
    | nil => intro acc; rfl
    | cons f fs ih =>
      intro acc
      simp only [List.map_cons, whateverLoop, structView_unplaced, unplaced_compute, unplaced_name, ih]
  have hc : ∀ dct ks, chainLoop (unplacedClass d) vals dct ks = chainLoop d vals dct ks := by
    intro dct ks
    induction ks with
    | nil => rfl
    | cons k ks ih => simp only [chainLoop, structGetItem_unplaced, ih]
  have hm : ∀ dct fs, missingLoop dct (fs.map unplaced) = missingLoop dct fs := by
    intro dct fs
    induction fs with
    | nil => rfl
    | cons f fs ih => simp only [List.map_cons, missingLoop, unplaced_compute, unplaced_name, ih]
  have hcomp : (unplacedClass d).components = d.components.map unplaced := rfl
  simp only [toDictShallow, whateverPossible, hc, hcomp, hw, hm, erase_unplaced]

theorem structToDict_unplaced (Γ : Classes) (n : Nat) (d : StructDesc) (vals : Dict) (keep : Bool) :
    structToDict Γ n (unplacedClass d) vals keep = structToDict Γ n d vals keep := by
  simp only [structToDict, toDictShallow_unplaced]

theorem structInit_unplaced (d : StructDesc) (kw : Dict) : structInit (unplacedClass d) kw = structInit d kw := by
  simp [structInit, StructDesc.has, find?_unplaced]

theorem validateContents_unplaced (d : StructDesc) (vals : Dict) : validateContents (unplacedClass d) vals = validateContents d vals := by
  have hf : validateField (unplacedClass d) vals = validateField d vals := by
    funext p
    simp only [validateField, find?_unplaced, structGetItem_unplaced, structView_unplaced]
    cases d.find? p.1 with
    | none => rfl
    | some f => simp only [Option.map_some, unplaced_validators]
  simp only [validateContents, hf, structView_unplaced]
  rfl

theorem Valid_unplaced {d : StructDesc} {vals : Dict} : Valid (unplacedClass d) vals ↔ Valid d vals := by
  rw [← validateContents_ok_iff, ← validateContents_ok_iff, validateContents_unplaced]

theorem structToStream_unplaced (Γ : Classes) (n : Nat) (d : StructDesc) (vals : Dict) (ctx : Value) :
    structToStream Γ n (unplacedClass d) vals ctx = structToStream Γ n d vals ctx := by
  have hd : ∀ n all fs, dumpFields (fun f v => fieldToStream Γ n f v ctx all) all ctx (fs.map unplaced) =
      dumpFields (fun f v => fieldToStream Γ n f v ctx all) all ctx fs := by
    intro n all fs
    induction fs with
    | nil => rfl
    | cons f fs ih => simp only [List.map_cons, dumpFields, unplaced_compute, fieldToStream_unplaced, ih]
  have hcomp : (unplacedClass d).components = d.components.map unplaced := rfl
  cases n with
  | zero => rfl
  | succ n => simp only [structToStream, structToStreamWith, validateContents_unplaced, structToDict_unplaced, hcomp, hd]

theorem structFromStream_unplaced (Γ : Classes) (n : Nat) (d : StructDesc) (s : Stream) (ctx : Value) (kw : Dict) :
    structFromStream Γ n (unplacedClass d) s ctx kw = structFromStream Γ n d s ctx kw := by
  have hl : ∀ n fs kw s, loadFields (fun f s loaded => fieldFromStream Γ n f s ctx loaded) (fs.map unplaced) kw s =
      loadFields (fun f s loaded => fieldFromStream Γ n f s ctx loaded) fs kw s := by
    intro n fs
    induction fs with
    | nil => intro kw s; rfl
    | cons f fs ih => intro kw s; simp only [List.map_cons, loadFields, fieldFromStream_unplaced, unplaced_name, ih]
  have hcomp : (unplacedClass d).components = d.components.map unplaced := rfl
  cases n with
  | zero => rfl
  | succ n =>
    simp only [structFromStream, structFromStreamWith, hcomp, hl, structInit_unplaced, validateContents_unplaced, dropDiscarded, erase_unplaced]

theorem Loads_unplaced {Γ : Classes} {n : Nat} {ctx : Value} {fs : List Field} {kw r : Dict} {s t : Stream} :
    Loads Γ n ctx (fs.map unplaced) kw s r t ↔ Loads Γ n ctx fs kw s r t := by
  rw [← loadFields_ok_iff, ← loadFields_ok_iff]
  have : ∀ kw s, loadFields (fun f s loaded => fieldFromStream Γ n f s ctx loaded) (fs.map unplaced) kw s =
      loadFields (fun f s loaded => fieldFromStream Γ n f s ctx loaded) fs kw s := by
    induction fs with
    | nil => intro kw s; rfl
    | cons f fs ih => intro kw s; simp only [List.map_cons, loadFields, fieldFromStream_unplaced, unplaced_name, ih]
  rw [this]

end Verif
