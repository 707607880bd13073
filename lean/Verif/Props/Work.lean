import Verif.Proofs.Work
import Verif.Props.Memory

/-!
# C105: the work of a load is in proportion to the bytes read
-/

namespace Verif
open Spec

/-- **C105** Whatever the bytes are, and whether the load succeeds or fails, the number of calls of methods of the stream is at most a
constant times the number of bytes taken (plus one).  The constant depends on the classes only. -/
theorem C105_struct (Γ : Classes) (level : String → Nat) (M L ℓ : Nat) (hΓ : BriskClasses Γ level M L) (d : StructDesc) (hℓ : ℓ < L)
    (hd : BriskClass Γ level M L ℓ d) (n : Nat) (s t : Stream) (hs : s.pos ≤ s.data.length) (ctx : Value) (kw : Dict)
    (res : Except Err Dict) (h : structFromStream Γ n d s ctx kw = (res, t)) :
    ∃ calls, structFromSource counting Γ n d ctx kw (s, 0) = (res, (t, calls)) ∧ calls ≤ callsPerByte M L * (t.pos - s.pos + 1) := by
  have hb := workBudget_pow M L
  obtain ⟨-, -, -, w, h4, h5⟩ := (hb.raise hℓ ((load_costs hb hΓ n).2.2 ℓ d hℓ hd ctx kw)) (s, 0) hs
  have h6 := counting_struct Γ n d ctx kw (s, 0)
  rw [h] at h6
  simp only [Prod.mk.injEq] at h6
  simp only [Nat.zero_add] at h4
  refine ⟨w, ?_, ?_⟩
  · rw [h6.1, h6.2, ← h4]
  · rw [h6.2]
    exact owes_calls (h5.weaken (Nat.le_add_right _ 4) (Nat.le_refl _))

/-- **C105** The same for one field. -/
theorem C105_field (Γ : Classes) (level : String → Nat) (M L : Nat) (hΓ : BriskClasses Γ level M L) (f : Field)
    (hf : Brisk Γ level M L f) (n : Nat) (s t : Stream) (hs : s.pos ≤ s.data.length) (ctx : Value) (loaded : Dict)
    (res : Except Err Value) (h : fieldFromStream Γ n f s ctx loaded = (res, t)) :
    ∃ calls, fieldFromSource counting Γ n f ctx loaded (s, 0) = (res, (t, calls)) ∧ calls ≤ callsPerByte M L * (t.pos - s.pos + 1) := by
  have hb := workBudget_pow M L
  obtain ⟨-, -, -, w, h4, h5⟩ := (load_costs hb hΓ n).1 L f (Nat.le_refl _) hf ctx loaded (s, 0) hs
  have h6 := counting_field Γ n f ctx loaded (s, 0)
  rw [h] at h6
  simp only [Prod.mk.injEq] at h6
  simp only [Nat.zero_add] at h4
  refine ⟨w, ?_, ?_⟩
  · rw [h6.1, h6.2, ← h4]
  · rw [h6.2]
    exact owes_calls h5

/-- **C105** So a string of `k` bytes, however malicious, cannot keep the loader busy for more than a constant times `k + 1` calls. -/
theorem C105_bytes (Γ : Classes) (level : String → Nat) (M L ℓ : Nat) (hΓ : BriskClasses Γ level M L) (d : StructDesc) (hℓ : ℓ < L)
    (hd : BriskClass Γ level M L ℓ d) (n : Nat) (data : Bytes) (ctx : Value) :
    (structFromSource counting Γ n d ctx [] (⟨data, 0⟩, 0)).2.2 ≤ callsPerByte M L * (data.length + 1) := by
  have hb := workBudget_pow M L
  obtain ⟨-, -, h3, -⟩ := (load_costs hb hΓ n).2.2 ℓ d hℓ hd ctx [] (⟨data, 0⟩, 0) (Nat.zero_le _)
  obtain ⟨calls, h1, h2⟩ := C105_struct Γ level M L ℓ hΓ d hℓ hd n ⟨data, 0⟩ _ (Nat.zero_le _) ctx [] _ rfl
  have h4 := counting_struct Γ n d ctx [] (⟨data, 0⟩, 0)
  rw [h1]
  refine Nat.le_trans h2 (Nat.mul_le_mul_left _ ?_)
  rw [h4]
  simp only at h3 ⊢
  omega

/-! ### A count in the data for elements without bytes -/

theorem Sample.padded_calls (k : Nat) (name : String) (N : Nat) (ctx : Value) :
    ∀ (fuel j : Nat), j ≤ fuel → j ≤ N → ∀ t : Stream × Nat,
      Source.arrayLoop (counting.haltCheck name (.ref "n") none ctx [("n", .int N)])
        (fieldFromSource counting Sample.noClasses (k + 2) (Sample.bytes "" 0) ctx [("n", .int N)]) fuel
        (List.replicate (N - j) (.bytes [])) t = (.ok (List.replicate N (.bytes [])), (t.1, t.2 + 2 * j)) := by
  have hh : ∀ vs t, counting.haltCheck name (.ref "n") none ctx [("n", .int N)] vs t = (.ok (decide ((N : Int) ≤ vs.length), vs), t) :=
    fun vs t => rfl
  have hitem : ∀ t, fieldFromSource counting Sample.noClasses (k + 2) (Sample.bytes "" 0) ctx [("n", .int N)] t =
      (.ok (.bytes []), (t.1, t.2 + 2)) := by
    intro t
    rw [fieldFromSource]
    simp only [Source.fromSourceWith, Sample.bytes, Field.base, FieldBase.allowNull, fieldDoLoadSource, Source.leafLoad,
      leafExpectedSize, FieldBase.expectedSizeWith, Source.loadAndFinish, thenCalc, andNext, Source.readExactSize, counting, Stream.read,
      pureResult]
    simp
    rfl
  intro fuel
  induction fuel with
  | zero =>
    intro j hj _ t
    obtain rfl : j = 0 := by omega
    rw [Source.arrayLoop.eq_def]
    simp [andNext, hh, pureResult]
  | succ fuel ih =>
    intro j hj hN t
    rw [Source.arrayLoop.eq_def]
    simp only [andNext, hh]
    by_cases h0 : j = 0
    · subst h0; simp [pureResult]
    · have : decide ((N : Int) ≤ (List.replicate (N - j) (Value.bytes [])).length) = false := by simp; omega
      rw [this]
      simp only [Bool.false_eq_true, if_false]
      simp only [andNext, hitem]
      rw [if_neg (by simp)]
      rw [show List.replicate (N - j) (Value.bytes []) ++ [Value.bytes []] = List.replicate (N - (j - 1)) (Value.bytes []) by
        rw [← List.replicate_succ']; congr 1; omega]
      rw [ih (j - 1) (by omega) (by omega)]
      simp only [Prod.mk.injEq, true_and]
      omega

/-- **C105** Where the number of elements is read from the data and elements may have no bytes, no constant will do: a few bytes keep
the loader busy for any number of calls. -/
theorem C105_count_refuted (K : Nat) : ∃ n data, K * (data.length + 1) <
    (structFromSource counting Sample.noClasses n Sample.padded .none [] (⟨data, 0⟩, 0)).2.2 := by
  obtain ⟨data, N, hlen, hN, hdec⟩ := Sample.huge_count K
  refine ⟨N + 5, data, ?_⟩
  have hn : fieldFromStream Sample.noClasses (N + 4) (Sample.vlq "n") ⟨data, 0⟩ .none [] = (.ok (.int N), ⟨data, data.length⟩) := by
    rw [fieldFromStream, fromStreamWith_plain rfl (Or.inl rfl)]
    simp only [loadAndFinish, Sample.vlq, fieldDoLoad, leafLoad, hdec]
    rfl
  obtain ⟨calls, hc⟩ : ∃ calls, fieldFromSource counting Sample.noClasses (N + 4) (Sample.vlq "n") .none [] (⟨data, 0⟩, 0) =
      (.ok (.int N), (⟨data, data.length⟩, calls)) := by
    have h := counting_field Sample.noClasses (N + 4) (Sample.vlq "n") .none [] (⟨data, 0⟩, 0)
    rw [hn] at h
    simp only [Prod.mk.injEq] at h
    exact ⟨_, Prod.ext h.1.symm (Prod.ext h.2.symm rfl)⟩
  have hitems : fieldFromSource counting Sample.noClasses (N + 4) (Sample.array "items" (Sample.bytes "" 0) (.ref "n")) .none [("n", .int N)]
      (⟨data, data.length⟩, calls) = (.ok (.list (List.replicate N (.bytes []))), (⟨data, data.length⟩, calls + 2 * N)) := by
    have := Sample.padded_calls N "items" N .none (N + 2) N (by omega) (Nat.le_refl _) (⟨data, data.length⟩, calls)
    rw [Nat.sub_self, List.replicate_zero] at this
    rw [fieldFromSource]
    simp only [Source.fromSourceWith, Sample.array, Field.base, FieldBase.allowNull, fieldDoLoadSource, Source.containerLoad,
      Source.loadAndFinish, thenCalc, andNext, pureResult, this]
    simp
    rfl
  rw [structFromSource, Source.structFromSourceWith]
  simp only [Sample.padded, Source.loadFields, thenCalc, andNext, hc]
  rw [show Dict.setDefault [] (Sample.vlq "n").name (Value.int N) = [("n", Value.int N)] from rfl, hitems]
  simp only [pureResult]
  generalize K * (data.length + 1) = x at hN
  omega

/-! ### Examples -/

theorem Sample.tree_brisk : BriskClass Sample.treeClasses (fun _ => 1) 3 2 0 Sample.tree := by
  have hfwd : ∀ c d, Sample.treeClasses c = some d → ∀ f ∈ d.components, LoadsForward f :=
    fun c d h => (Sample.treeClasses_robust c d h).1.forward
  have hlabel : Eats Sample.treeClasses (Sample.u8 "n") :=
    eats_fixed (n := 1) ⟨fun _ _ _ => rfl, rfl⟩ trivial rfl (by decide) (by simp)
  refine ⟨by decide, ?_⟩
  refine fields_of_take (Q := fun pre f => Brisk Sample.treeClasses (fun _ => 1) 3 0 f ∨
    ((∃ g ∈ pre, Eats Sample.treeClasses g) ∧ Brisk Sample.treeClasses (fun _ => 1) 3 2 f)) ?_
  intro i hi
  match i, hi with
  | 0, _ => exact Or.inl (.leaf (.leaf (by simp)))
  | 1, _ => exact Or.inl (.leaf (.leaf (by simp)))
  | 2, _ =>
    refine Or.inr ⟨⟨Sample.u8 "n", by simp [Sample.tree], hlabel⟩, .eats (.nested (by decide)) ?_⟩
    exact eats_nested (d := Sample.tree) (f := Sample.u8 "n") hfwd ⟨fun _ _ _ => rfl, rfl⟩ rfl (by simp [Sample.tree]) hlabel

theorem Sample.treeClasses_brisk : BriskClasses Sample.treeClasses (fun _ => 1) 3 2 := by
  intro c d h
  unfold Sample.treeClasses Classes.add at h
  split at h
  · cases h; exact ⟨0, rfl, by decide, Sample.tree_brisk⟩
  · simp [Sample.noClasses] at h

-- any bytes given as a tree
example (n : Nat) (data : Bytes) (ctx : Value) :
    (structFromSource counting Sample.treeClasses n Sample.tree ctx [] (⟨data, 0⟩, 0)).2.2 ≤ 40000 * (data.length + 1) :=
  C105_bytes _ _ 3 2 0 Sample.treeClasses_brisk Sample.tree (by decide) Sample.tree_brisk n data ctx

-- six bytes make two trees with eight calls (for every number a tell and a read); with the last byte missing the load
-- fails after the same number of calls
example : (structFromSource counting Sample.treeClasses 14 Sample.tree .none [] (⟨[0, 1, 1, 0, 2, 0], 0⟩, 0)).2 = (⟨[0, 1, 1, 0, 2, 0], 6⟩, 8) := by
  decide +kernel

example : (structFromSource counting Sample.treeClasses 14 Sample.tree .none [] (⟨[0, 1, 1, 0, 2], 0⟩, 0)) =
    (.error (.eof (some "children") 1 5), (⟨[0, 1, 1, 0, 2], 5⟩, 8)) := by
  decide +kernel

-- an array with a fixed number of elements that may be empty
example : Brisk Sample.noClasses (fun _ => 0) 3 1 (Sample.array "a" (Sample.bytes "" 0) (.fixed 3)) :=
  .fixed (ℓ := 0) (.leaf (.leaf (by simp))) (fun n s ctx loaded t h => by
    cases n with
    | zero => simp [fieldFromStream] at h
    | succ n =>
      rw [fieldFromStream, fromStreamWith_plain rfl (Or.inl rfl), loadAndFinish] at h
      cases n with
      | zero => simp [fieldDoLoad] at h
      | succ n =>
        simp only [Sample.bytes, fieldDoLoad, leafLoad, leafExpectedSize, FieldBase.expectedSizeWith, readExactSize, Stream.read, R.map] at h
        simp [Except.map] at h
        exact absurd h.1 (by simp [finishLoad, Field.base, FieldBase.allowNull, runValidators]))
    (by decide)

end Verif
