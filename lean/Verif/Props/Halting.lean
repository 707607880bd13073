import Verif.Proofs.Halting
import Verif.Props.RoundTrip

/-! Property theorems: dumping comes to an end. -/

namespace Verif
open Spec

/-- **C75.** Dumping ends: if no class supplies itself with nested structs without end, every dump of every instance (whatever its
values: they may be nested to any depth, of classes that refer to themselves) returns or raises, and more fuel changes nothing. -/
theorem C75_dump_ends (rank : String → Nat) (Γ : Classes) (hΓ : ∀ c d, Γ c = some d → Founded rank (rank c) d) (r : Nat) (d : StructDesc)
    (hd : Founded rank r d) (vals : Dict) (ctx : Value) :
    ∃ n out, out.2 ≠ .error .outOfFuel ∧ ∀ m, n ≤ m → structToStream Γ m d vals ctx = out :=
  ((struct_ends hΓ hd vals).1 ctx).settlesW fun _ _ h => structToStream_mono Γ h d vals ctx

/-- So do partial dumps. -/
theorem C75_partial_dump_ends (rank : String → Nat) (Γ : Classes) (hΓ : ∀ c d, Γ c = some d → Founded rank (rank c) d) (r : Nat)
    (d : StructDesc) (hd : Founded rank r d) (vals : Dict) (last : Option String) (ctx : Value) :
    ∃ n out, out.2 ≠ .error .outOfFuel ∧ ∀ m, n ≤ m → structPartialDump Γ m d vals last ctx = out :=
  (partialDump_ends hΓ hd vals last ctx).settlesW fun _ _ h => partialDumpLoop_le (fun f v => fieldToStream_mono Γ h f v ctx []) _ _ _

/-- So do `to_dict` and `len`. -/
theorem C75_to_dict_ends (rank : String → Nat) (Γ : Classes) (hΓ : ∀ c d, Γ c = some d → Founded rank (rank c) d) (r : Nat) (d : StructDesc)
    (hd : Founded rank r d) (vals : Dict) :
    (∀ keep, ∃ n out, out ≠ .error .outOfFuel ∧ ∀ m, n ≤ m → structToDict Γ m d vals keep = out) ∧
    ∃ n out, out ≠ .error .outOfFuel ∧ ∀ m, n ≤ m → structLen Γ m d vals = out :=
  ⟨fun keep => ((struct_ends hΓ hd vals).2 keep).settles fun _ _ h => structToDict_mono Γ h d vals keep,
    (len_ends hΓ hd vals).settles fun _ _ h => structLen_mono Γ h d vals⟩

/-- So does `==`, whatever the operands. -/
theorem C75_eq_ends (rank : String → Nat) (Γ : Classes) (hΓ : ∀ c d, Γ c = some d → Founded rank (rank c) d) (a b : Value) :
    ∃ n out, out ≠ .error .outOfFuel ∧ ∀ m, n ≤ m → pyEq Γ m a b = out :=
  (eq_ends hΓ a b).settles fun _ _ h => pyEq_mono Γ h a b

/-! ### A class that refers to itself, and one that supplies a default of that class -/

theorem honest_plain {b : FieldBase} (h1 : b.factory = none) (h2 : b.computeFn = none) (h3 : b.present = fun _ _ _ => .ok true)
    (h4 : b.validators = []) : Honest b where
  default := by simp [FieldBase.default, h1]
  compute := by simp [h2]
  present := by simp [h3]
  validators := by simp [h4]

theorem supplies_plain {b : FieldBase} (h1 : b.factory = none) (h2 : b.computeFn = none) {v : Value} (h : Supplies b v) :
    v = b.dflt ∨ v = b.nullValue := by
  rcases h with h | ⟨fn, _, h, _⟩ | h
  · simp [FieldBase.default, h1] at h; exact .inl h.symm
  · simp [h2] at h
  · exact .inr h.symm

theorem flat_undefined : Flat .undefined := .atom (by simp) (by simp) (by simp) (by simp)

theorem Sample.tree_founded : Founded (fun c => if c = "Tree" then 0 else 1) 0 Sample.tree where
  unique := by unfold UniqueNames; decide
  fields := by
    intro f hf
    simp only [Sample.tree, List.mem_cons, List.not_mem_nil, or_false] at hf
    rcases hf with rfl | rfl | rfl
    · exact .leaf (honest_plain rfl rfl rfl rfl) (by intro ops h; cases h)
    · exact .leaf (honest_plain rfl rfl rfl rfl) (by intro ops h; cases h)
    · refine .array (honest_plain rfl rfl rfl rfl) (.nested (honest_plain rfl rfl rfl rfl)) ?_
      intro v hv
      rcases supplies_plain rfl rfl hv with rfl | rfl <;> exact flat_undefined
  mentions := by
    intro f hf c hc
    simp only [Sample.tree, List.mem_cons, List.not_mem_nil, or_false] at hf
    rcases hf with rfl | rfl | rfl
    · cases hc
    · cases hc
    · cases hc with | array hc => cases hc with | nested => decide
  supplies := by
    intro f hf v hv
    simp only [Sample.tree, List.mem_cons, List.not_mem_nil, or_false] at hf
    rcases hf with rfl | rfl | rfl <;> rcases supplies_plain rfl rfl hv with rfl | rfl <;> left <;>
      exact .atom (by simp [Sample.upd, Sample.u16, Sample.u8, Sample.array, Field.withBase, Field.base])
        (by simp [Sample.upd, Sample.u16, Sample.u8, Sample.array, Field.withBase, Field.base])
        (by simp [Sample.upd, Sample.u16, Sample.u8, Sample.array, Field.withBase, Field.base])
        (by simp [Sample.upd, Sample.u16, Sample.u8, Sample.array, Field.withBase, Field.base])
  methods := by simp [Sample.tree]
  validators := by simp [Sample.tree]

/-- `t = Nested(Tree, default=Tree(label=7, n=0, children=[]))` -/
def Sample.garden : StructDesc :=
  { name := "Garden", components := [.nested { name := "t", dflt := Sample.leafTree 7 } "Tree"] }

theorem Sample.garden_founded : Founded (fun c => if c = "Tree" then 0 else 1) 1 Sample.garden where
  unique := by unfold UniqueNames; decide
  fields := by
    intro f hf
    simp only [Sample.garden, List.mem_cons, List.not_mem_nil, or_false] at hf
    subst hf
    exact .nested (honest_plain rfl rfl rfl rfl)
  mentions := by
    intro f hf c hc
    simp only [Sample.garden, List.mem_cons, List.not_mem_nil, or_false] at hf
    subst hf
    cases hc; decide
  supplies := by
    intro f hf v hv
    simp only [Sample.garden, List.mem_cons, List.not_mem_nil, or_false] at hf
    subst hf
    rcases supplies_plain rfl rfl hv with rfl | rfl
    · refine .inr ⟨.struct (by decide) ?_, fun c hc => by cases hc; decide⟩
      intro p hp
      refine .flat ?_
      simp only [List.mem_cons, List.not_mem_nil, or_false] at hp
      rcases hp with rfl | rfl | rfl
      · exact .atom (by simp) (by simp) (by simp) (by simp)
      · exact .atom (by simp) (by simp) (by simp) (by simp)
      · exact .list (by simp)
    · exact .inl flat_undefined
  methods := by simp [Sample.garden]
  validators := by simp [Sample.garden]

theorem Sample.treeClasses_founded (c : String) (d : StructDesc) (h : Sample.treeClasses c = some d) :
    Founded (fun c => if c = "Tree" then 0 else 1) ((fun c => if c = "Tree" then 0 else 1) c) d := by
  unfold Sample.treeClasses Classes.add at h
  split at h
  · rename_i hc
    cases h
    rw [hc]
    exact Sample.tree_founded
  · simp [Sample.noClasses] at h

example (vals : Dict) (ctx : Value) :
    ∃ n out, out.2 ≠ .error .outOfFuel ∧ ∀ m, n ≤ m → structToStream Sample.treeClasses m Sample.garden vals ctx = out :=
  C75_dump_ends _ _ Sample.treeClasses_founded 1 _ Sample.garden_founded vals ctx

example (a b : Value) : ∃ n out, out ≠ .error .outOfFuel ∧ ∀ m, n ≤ m → pyEq Sample.treeClasses m a b = out :=
  C75_eq_ends _ _ Sample.treeClasses_founded a b

example : structToBytes Sample.treeClasses 9 Sample.garden [] .none = .ok [0, 7, 0] ∧
    structToBytes Sample.treeClasses 14 Sample.tree Sample.bigTree .none ≠ .error .outOfFuel ∧
    structLen Sample.treeClasses 9 Sample.garden [] = .ok 3 := by
  decide +kernel

/-! ### A class that supplies itself with itself -/

/-- `x = Nested(Ouroboros, default={})` -/
def Sample.ouroboros : StructDesc :=
  { name := "Ouroboros", components := [.nested { name := "x", dflt := .dict [] } "Ouroboros"] }

def Sample.ouroborosClasses : Classes := Classes.add Sample.noClasses Sample.ouroboros

theorem Sample.ouroboros_field (n : Nat) (ctx : Value) (all : Dict)
    (ih : ∀ m, m < n → (structToStream Sample.ouroborosClasses m Sample.ouroboros [] ctx).2 = .error .outOfFuel) :
    (fieldToStream Sample.ouroborosClasses n (.nested { name := "x", dflt := .dict [] } "Ouroboros") (.dict []) ctx all).2 =
      .error .outOfFuel := by
  cases n with
  | zero => rfl
  | succ m =>
    have hc : Sample.ouroborosClasses "Ouroboros" = some Sample.ouroboros := rfl
    have hi : structInit Sample.ouroboros [] = .ok [] := rfl
    simp [fieldToStream, toStreamWith, containerDump, dumpNew, hc, hi, Field.base, runValidators, W.toExcept, ih m (Nat.lt_succ_self m),
      W.fail]

theorem Sample.ouroboros_dump (n : Nat) (ctx : Value) :
    (structToStream Sample.ouroborosClasses n Sample.ouroboros [] ctx).2 = .error .outOfFuel := by
  induction n using Nat.strongRecOn with
  | ind n ih =>
    cases n with
    | zero => rfl
    | succ m =>
      have hv : validateContents Sample.ouroboros [] = .ok () := rfl
      cases m with
      | zero => rfl
      | succ m =>
        have hd : structToDict Sample.ouroborosClasses (m + 1) Sample.ouroboros [] = .ok [("x", .dict [])] := rfl
        have hf := Sample.ouroboros_field (m + 1) ctx [("x", .dict [])] fun k hk => ih k (by omega)
        rw [structToStream, structToStreamWith, hv, hd]
        simp only [Sample.ouroboros, dumpFields]
        have hc : FieldBase.computeValueForDump { name := "x", dflt := .dict [] } (Dict.view [("x", .dict [])]) ctx = .ok (.dict []) := rfl
        simp only [Field.base, hc, W.seq, hf]
        simp [hf]

/-- **C75, not in general.** The default of a nested field may again be dumped with that default: the class can be declared and
instantiated, but no dump of `Ouroboros()` ever ends (in Python: `RecursionError`), and neither does `len`. -/
theorem C75_default_refuted (n : Nat) (ctx : Value) :
    (structToStream Sample.ouroborosClasses n Sample.ouroboros [] ctx).2 = .error .outOfFuel ∧
    structLen Sample.ouroborosClasses n Sample.ouroboros [] = .error .outOfFuel := by
  refine ⟨Sample.ouroboros_dump n ctx, ?_⟩
  have hw : whateverPossible Sample.ouroboros [] = .ok [("x", .dict [])] := rfl
  have hf := Sample.ouroboros_field n .none [] fun m _ => Sample.ouroboros_dump m .none
  have hs : fieldExpectedSize Sample.ouroborosClasses n (.nested { name := "x", dflt := .dict [] } "Ouroboros") [("x", .dict [])] =
      .error (.undefinedSize "x") := rfl
  have hc : FieldBase.computeValueForDump { name := "x", dflt := .dict [] } (Dict.view [("x", .dict [])]) .none = .ok (.dict []) := rfl
  rw [structLen, hw]
  simp only [Sample.ouroboros, sumSizes, fieldLen, hs, Field.base, Err.isBinobj, hc, fieldToBytes, W.toExcept, hf, Except.map]
  rfl

end Verif
