import Verif.Proofs.Memory
import Verif.Props.Robust

/-!
# C94: what is loaded is not much bigger than what was read
-/

namespace Verif
open Spec

/-- **C94** The size of what a field loads is at most a constant times the number of bytes read (plus one).  The constant only depends on
the classes: not on the input, and not on how deep structs that contain themselves are nested in it. -/
theorem C94_field_partial (Γ : Classes) (level : String → Nat) (M L : Nat) (hΓ : Levelled Γ level M L) (f : Field)
    (hf : Thrifty Γ level M L f) (n : Nat) (s t : Stream) (hs : s.pos ≤ s.data.length) (ctx v : Value) (loaded : Dict)
    (h : fieldFromStream Γ n f s ctx loaded = (.ok v, t)) : v.weight ≤ costPerByte M L * (t.pos - s.pos + 1) := by
  have hb := budget_pow M L
  have key := (load_pays hb hΓ n).1 L f (Nat.le_refl _) hf s ctx loaded v t hs h
  exact pays_cost key

/-- **C94** The same for a struct. -/
theorem C94_struct_partial (Γ : Classes) (level : String → Nat) (M L ℓ : Nat) (hΓ : Levelled Γ level M L) (d : StructDesc) (hℓ : ℓ < L)
    (hd : ThriftyClass Γ level M L ℓ d) (n : Nat) (s t : Stream) (hs : s.pos ≤ s.data.length) (ctx : Value) (vals : Dict)
    (h : structFromStream Γ n d s ctx [] = (.ok vals, t)) :
    (Value.struct d.name vals).weight ≤ costPerByte M L * (t.pos - s.pos + 1) := by
  have hb := budget_pow M L
  have key := (load_pays hb hΓ n).2.2 ℓ d hℓ hd s ctx vals t hs h
  exact pays_cost (key.mono hb hℓ)

/-- **C94** `Struct.from_bytes(data)`: at most a constant for each byte given. -/
theorem C94_from_bytes_partial (Γ : Classes) (level : String → Nat) (M L ℓ : Nat) (hΓ : Levelled Γ level M L) (d : StructDesc) (hℓ : ℓ < L)
    (hd : ThriftyClass Γ level M L ℓ d) (n : Nat) (data : Bytes) (ctx : Value) (vals : Dict)
    (exact : Bool) (h : structFromBytes Γ n d data ctx exact [] = .ok vals) :
    (Value.struct d.name vals).weight ≤ costPerByte M L * (data.length + 1) := by
  unfold structFromBytes at h
  split at h
  · simp at h
  · rename_i vals' t ht
    simp only at h
    split at h
    · simp at h
    · simp only [Except.ok.injEq] at h
      subst h
      have h1 := C94_struct_partial Γ level M L ℓ hΓ d hℓ hd n ⟨data, 0⟩ t (Nat.zero_le _) ctx vals' ht
      have h2 := (load_forward Γ hΓ.forward n).2.2 d (fun f hf => (hd.fields (by omega) hf).forward) ctx [] ⟨data, 0⟩ (Nat.zero_le _)
      simp only [ht] at h2
      exact Nat.le_trans h1 (Nat.mul_le_mul_left _ (by simp only; omega))

/-- **C94** All text encodings of C51 qualify. -/
theorem C94_text (c : CharCodec) (h : Supported c) : TakesBytes c := supported_takesBytes h

/-! ### A count in the data for elements without bytes -/

/-- `class Padded(Struct): n = VariableLengthInteger(vli_format=VLQ); items = Array(Bytes(size=0), count=n)` -/
def Sample.padded : StructDesc :=
  { name := "Padded", components := [Sample.vlq "n", Sample.array "items" (Sample.bytes "" 0) (.ref "n")],
    fieldValidators := [("n", []), ("items", [])] }

theorem Sample.padded_item (n : Nat) (s : Stream) (ctx : Value) (loaded : Dict) :
    fieldFromStream Sample.noClasses (n + 2) (Sample.bytes "" 0) s ctx loaded = (.ok (.bytes []), s) := by
  rw [fieldFromStream, fromStreamWith_plain rfl (Or.inl rfl)]
  simp only [loadAndFinish, Sample.bytes, fieldDoLoad, leafLoad, leafExpectedSize, FieldBase.expectedSizeWith, readExactSize, Stream.read,
    R.map]
  simp [Except.map]
  rfl

theorem Sample.padded_items (k : Nat) (name : String) (N : Nat) (ctx : Value) (s : Stream) :
    ∀ (fuel j : Nat), j ≤ fuel → j ≤ N →
      arrayLoop (haltCheck name (.ref "n") none ctx [("n", .int N)])
        (fun s => fieldFromStream Sample.noClasses (k + 2) (Sample.bytes "" 0) s ctx [("n", .int N)]) fuel
        (List.replicate (N - j) (.bytes [])) s = (.ok (List.replicate N (.bytes [])), s) := by
  intro fuel
  have hh : ∀ vs, haltCheck name (.ref "n") none ctx [("n", .int N)] s vs = .ok (decide ((N : Int) ≤ vs.length), vs) := fun vs => rfl
  induction fuel with
  | zero =>
    intro j hj _
    obtain rfl : j = 0 := by omega
    unfold arrayLoop
    rw [hh]
    simp
  | succ fuel ih =>
    intro j hj hN
    unfold arrayLoop
    rw [hh]
    by_cases h0 : j = 0
    · subst h0; simp
    · have : decide ((N : Int) ≤ (List.replicate (N - j) (Value.bytes [])).length) = false := by simp; omega
      rw [this]
      simp only [Sample.padded_item]
      rw [if_neg (by simp)]
      rw [show List.replicate (N - j) (Value.bytes []) ++ [Value.bytes []] = List.replicate (N - (j - 1)) (Value.bytes []) by
        rw [← List.replicate_succ']; congr 1; omega]
      exact ih (j - 1) (by omega) (by omega)

/-- A few bytes for a huge number. -/
theorem Sample.huge_count (K : Nat) : ∃ (data : Bytes) (N : Nat), data.length = K + 2 ∧ K * (data.length + 1) + 3 < N ∧
    VarIntEncoding.vlq.decode ⟨data, 0⟩ = (.ok (N : Int), ⟨data, data.length⟩) := by
  let data : Bytes := List.replicate (K + 1) 0xFF ++ [0x7F]
  have hlen : data.length = K + 2 := by simp [data]
  let N := 128 ^ (K + 2) - 1
  have hval : varIntValue .vlq data = (N : Int) := by
    simp only [varIntValue, beValue, data, List.foldl_append, List.foldl_cons, List.foldl_nil]
    have : ∀ k a, (List.replicate k (0xFF : UInt8)).foldl (fun acc b => acc * 128 + low7 b) a + 1 = (a + 1) * 128 ^ k := by
      intro k
      induction k with
      | zero => intro a; simp
      | succ k ih =>
        intro a
        rw [List.replicate_succ, List.foldl_cons, ih, Nat.pow_succ, show low7 0xFF = 127 from rfl, Nat.mul_comm (128 ^ k), ← Nat.mul_assoc]
        congr 1; omega
    have h := this (K + 1) 0
    have h7 : low7 0x7F = 127 := rfl
    have hp : 128 ^ (K + 2) = 128 ^ (K + 1) * 128 := Nat.pow_succ _ _
    simp only [N]
    omega
  have hdel : Delimited data := ⟨List.replicate (K + 1) 0xFF, 0x7F, rfl, fun b hb => by
    rw [List.eq_of_mem_replicate hb]; decide, by decide⟩
  have hdec : VarIntEncoding.vlq.decode ⟨data, 0⟩ = (.ok (N : Int), ⟨data, data.length⟩) := by
    rw [C07_decode_delimited .vlq ⟨data, 0⟩ data [] hdel (by simp [Stream.rest]), hval]; simp
  refine ⟨data, N, hlen, ?_, hdec⟩
  simp only [hlen]
  have h1 : K + 3 ≤ 2 ^ (K + 2) := Nat.lt_two_pow_self
  have h2 : (2 ^ (K + 2)) * (2 ^ (K + 2)) ≤ 128 ^ (K + 2) := by
    rw [← Nat.mul_pow]; exact Nat.pow_le_pow_left (by decide) _
  have h3 : (K + 3) * (K + 3) ≤ 2 ^ (K + 2) * 2 ^ (K + 2) := Nat.mul_le_mul h1 h1
  have h4 : (K + 3) * (K + 3) = K * (K + 3) + 3 * (K + 3) := Nat.add_mul _ _ _
  rw [show K + 2 + 1 = K + 3 from rfl]
  show K * (K + 3) + 3 < 128 ^ (K + 2) - 1
  omega

/-- **C94** If the number of elements is read from the data and elements may have no bytes, a few bytes are enough for a value of any
size: no constant will do. -/
theorem C94_count_refuted (K : Nat) : ∃ n data ctx vals,
    structFromStream Sample.noClasses n Sample.padded ⟨data, 0⟩ ctx [] = (.ok vals, ⟨data, data.length⟩) ∧
    K * (data.length + 1) < (Value.struct "Padded" vals).weight := by
  obtain ⟨data, N, hlen, hN, hdec⟩ := Sample.huge_count K
  have hn : ∀ n, fieldFromStream Sample.noClasses (n + 2) (Sample.vlq "n") ⟨data, 0⟩ .none [] = (.ok (.int N), ⟨data, data.length⟩) := by
    intro n
    rw [fieldFromStream, fromStreamWith_plain rfl (Or.inl rfl)]
    simp only [loadAndFinish, Sample.vlq, fieldDoLoad, leafLoad, hdec]
    rfl
  have hitems : fieldFromStream Sample.noClasses (N + 4) (Sample.array "items" (Sample.bytes "" 0) (.ref "n")) ⟨data, data.length⟩ .none
      [("n", .int N)] = (.ok (.list (List.replicate N (.bytes []))), ⟨data, data.length⟩) := by
    rw [fieldFromStream, fromStreamWith_plain rfl (Or.inl rfl), loadAndFinish, Sample.array, fieldDoLoad_array]
    have := Sample.padded_items N "items" N .none ⟨data, data.length⟩ (N + 2) N (by omega) (Nat.le_refl _)
    rw [Nat.sub_self, List.replicate_zero] at this
    rw [show ({ name := "items", typeName := "Array" } : FieldBase).name = "items" from rfl, this]
    rfl
  refine ⟨N + 5, data, .none, [("n", .int N), ("items", .list (List.replicate N (.bytes [])))], ?_, ?_⟩
  · rw [structFromStream, structFromStreamWith]
    simp only [Sample.padded, loadFields, hn]
    rw [show Dict.setDefault [] (Sample.vlq "n").name (Value.int N) = [("n", Value.int N)] from rfl, hitems]
    rfl
  · have hw : ∀ k, weightList (List.replicate k (Value.bytes [])) = k := by
      intro k
      induction k with
      | zero => rfl
      | succ k ih => rw [List.replicate_succ, weightList, ih]; simp only [Value.weight, List.length_nil]; omega
    simp only [Value.weight, weightDict, hw]
    omega

/-- `data = Bytes(size=n, null_value=DEFAULT)`, where `n` is the field before it. -/
def Sample.zeroed : Field :=
  .leaf { name := "data", typeName := "Bytes", size := .ref "n", nullValue := .dflt } .bytes

/-- **C94** (refuted for what is built on the way) A nullable field whose size is in the data compares what follows with as many zero bytes
as the size says before reading anything (base.py 684-697, 953): a few bytes make the loader build a string of any length. -/
theorem C94_null_refuted (K : Nat) : ∃ data N zeros,
    fieldFromStream Sample.noClasses 2 (Sample.vlq "n") ⟨data, 0⟩ .none [] = (.ok (.int N), ⟨data, data.length⟩) ∧
    fieldNullRepr Sample.noClasses 2 Sample.zeroed [("n", .int N)] = .ok zeros ∧ K * (data.length + 1) < zeros.length := by
  obtain ⟨data, N, hlen, hN, hdec⟩ := Sample.huge_count K
  refine ⟨data, N, List.replicate N 0, ?_, ?_, ?_⟩
  · rw [fieldFromStream, fromStreamWith_plain rfl (Or.inl rfl)]
    simp only [loadAndFinish, Sample.vlq, fieldDoLoad, leafLoad, hdec]
    rfl
  · rfl
  · rw [List.length_replicate]
    generalize K * (data.length + 1) = x at hN
    omega

/-! ### Examples -/

theorem Sample.tree_thrifty : ThriftyClass Sample.treeClasses (fun _ => 1) 3 2 0 Sample.tree := by
  have hfwd : ∀ c d, Sample.treeClasses c = some d → ∀ f ∈ d.components, LoadsForward f :=
    fun c d h => (Sample.treeClasses_robust c d h).1.forward
  have hlabel : Eats Sample.treeClasses (Sample.u8 "n") :=
    eats_fixed (n := 1) ⟨fun _ _ _ => rfl, rfl⟩ trivial rfl (by decide) (by simp)
  refine ⟨by decide, ?_⟩
  refine fields_of_take (Q := fun pre f => Thrifty Sample.treeClasses (fun _ => 1) 3 0 f ∨
    ((∃ g ∈ pre, Eats Sample.treeClasses g) ∧ Thrifty Sample.treeClasses (fun _ => 1) 3 2 f)) ?_
  intro i hi
  match i, hi with
  | 0, _ => exact Or.inl (.leaf (by decide) .integer)
  | 1, _ => exact Or.inl (.leaf (by decide) .integer)
  | 2, _ =>
    refine Or.inr ⟨⟨Sample.u8 "n", by simp [Sample.tree], hlabel⟩, .array (by decide) (.nested (by decide) (by decide)) (Or.inl ?_)⟩
    exact eats_nested (d := Sample.tree) (f := Sample.u8 "n") hfwd ⟨fun _ _ _ => rfl, rfl⟩ rfl (by simp [Sample.tree]) hlabel

theorem Sample.treeClasses_levelled : Levelled Sample.treeClasses (fun _ => 1) 3 2 := by
  intro c d h
  unfold Sample.treeClasses Classes.add at h
  split at h
  · cases h; exact ⟨0, rfl, by decide, Sample.tree_thrifty⟩
  · simp [Sample.noClasses] at h

-- trees of any depth and breadth
example (n : Nat) (data : Bytes) (t : Stream) (vals : Dict)
    (h : structFromStream Sample.treeClasses n Sample.tree ⟨data, 0⟩ .none [] = (.ok vals, t)) :
    (Value.struct "Tree" vals).weight ≤ 1024 * (t.pos + 1) :=
  C94_struct_partial _ _ 3 2 0 Sample.treeClasses_levelled Sample.tree (by decide) Sample.tree_thrifty n _ t (Nat.zero_le _) .none vals h

example : ∃ vals, structFromStream Sample.treeClasses 14 Sample.tree ⟨[0, 1, 1, 0, 2, 0], 0⟩ .none [] = (.ok vals, ⟨[0, 1, 1, 0, 2, 0], 6⟩) ∧
    (Value.struct "Tree" vals).weight = 8 :=
  ⟨[("label", .int 1), ("n", .int 1), ("children", .list [.struct "Tree" [("label", .int 2), ("n", .int 0), ("children", .list [])]])],
    by decide +kernel, by decide +kernel⟩

end Verif
