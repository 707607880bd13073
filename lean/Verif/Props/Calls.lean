import Verif.Proofs.Calls
import Verif.Spec.Samples

/-! # C96: how often compute functions are called -/
namespace Verif
open Verif.Spec

/-- **C96** One `to_stream()` makes exactly twice the calls of compute functions that reading every field once makes: once
while validating, once while collecting the values, none while writing. -/
theorem C96_calls {d : StructDesc} {formula : String → Option Formula} {vals : Dict} {rank : String → Nat} {depth n s s₁ : Nat}
    {C : LiveClasses Nat} {ctx : Value} (h : Sheet d formula vals rank depth) (hC : ∀ cls, C cls = none)
    (hv : liveValidate (sheet d formula depth) vals s = (.ok (), s₁)) :
    (liveToStream C n (sheet d formula depth) vals ctx s).2 = s + 2 * totalCalls d formula vals depth :=
  toStream_calls h hC hv

/-- **C96**, what holds of the claim that dumping is linear: if compute functions read only fields that have been given a
value, every compute function of a field without a value is called exactly twice. -/
theorem C96_twice_partial {d : StructDesc} {formula : String → Option Formula} {vals : Dict} {rank : String → Nat} {depth n s s₁ : Nat}
    {C : LiveClasses Nat} {ctx : Value} (h : Sheet d formula vals rank depth) (hC : ∀ cls, C cls = none)
    (hflat : ∀ k g, formula k = some g → ∀ r ∈ g.reads, r ∈ Dict.keys vals)
    (hv : liveValidate (sheet d formula depth) vals s = (.ok (), s₁)) :
    (liveToStream C n (sheet d formula depth) vals ctx s).2 =
      s + 2 * (d.components.filter fun f => !Dict.contains vals f.name).length := by
  rw [C96_calls h hC hv]
  congr 2
  have hset : ∀ m k, k ∈ Dict.keys vals → calls formula vals m k = 0 := by
    intro m k hk
    cases m with
    | zero => rfl
    | succ m => simp only [calls, (Dict.contains_iff vals k).2 hk, if_true]
  have hone : ∀ f ∈ d.components, calls formula vals depth f.name = if Dict.contains vals f.name then 0 else 1 := by
    intro f hf
    have hd := h.depth _ (List.mem_map.2 ⟨f, hf, rfl⟩)
    obtain ⟨m, rfl⟩ : ∃ m, depth = m + 1 := ⟨depth - 1, by omega⟩
    rw [calls]
    split
    · rfl
    · rename_i hk
      obtain ⟨-, g, hg⟩ := h.filled f hf fun hx => hk ((Dict.contains_iff _ _).2 hx)
      simp only [hg]
      rw [listSum_eq_zero]
      intro a ha
      obtain ⟨r, hr, rfl⟩ := List.mem_map.1 ha
      exact hset m r (hflat _ g hg r hr)
  unfold totalCalls
  rw [List.map_congr_left hone]
  generalize d.components = fs
  induction fs with
  | nil => rfl
  | cons f fs ih =>
    rw [List.map_cons, List.sum_cons, ih, List.filter_cons]
    by_cases hc : Dict.contains vals f.name = true
    · simp [hc]
    · simp [hc]; omega

namespace Sample

/-- A name of length `i`. -/
def xs (i : Nat) : String := String.ofList (List.replicate i 'x')

theorem length_xs (i : Nat) : (xs i).length = i := by simp [xs]

/-- `n + 1` fields, each computed by adding the one before it to itself:
```
class Doubling(Struct):
    f0 = UInt8()
    f1 = UInt8()
    …

    @f0.computes
    def _f0(self, all_fields): return 0

    @f1.computes
    def _f1(self, all_fields): return all_fields["f0"] + all_fields["f0"]
    …
```
(Field number `i` has the name `xs i` here; all values are 0.) -/
def doubling (n : Nat) : StructDesc :=
  { name := "Doubling", components := (List.range (n + 1)).map fun i => u8 (xs i) }

def doublingFormula (n : Nat) (k : String) : Option Formula :=
  if k.length = 0 then some ⟨[], fun _ => .int 0⟩
  else if k.length ≤ n then some ⟨[xs (k.length - 1), xs (k.length - 1)], fun _ => .int 0⟩
  else none

theorem doubling_names (n : Nat) : names (doubling n) = (List.range (n + 1)).map xs := by
  simp only [names, doubling, List.map_map]
  apply List.map_congr_left
  intro i _
  rfl

theorem xs_inj {i j : Nat} (h : xs i = xs j) : i = j := by
  have := congrArg String.length h
  rwa [length_xs, length_xs] at this

theorem doubling_sheet (n : Nat) : Sheet (doubling n) (doublingFormula n) [] String.length (n + 1) := by
  have hmem : ∀ i, i ≤ n → xs i ∈ names (doubling n) := by
    intro i hi
    rw [doubling_names]
    exact List.mem_map.2 ⟨i, by simp; omega, rfl⟩
  refine ⟨?_, ⟨by simp [Dict.keys], by simp [Dict.keys]⟩, by simp, ?_, ?_, ?_, ?_, ?_⟩
  · unfold UniqueNames
    rw [doubling_names]
    exact List.Pairwise.map _ (fun a b hab h => hab (xs_inj h)) List.nodup_range
  · intro f hf
    obtain ⟨i, -, rfl⟩ := List.mem_map.1 hf
    rfl
  · intro f hf _
    obtain ⟨i, hi, rfl⟩ := List.mem_map.1 hf
    refine ⟨rfl, ?_⟩
    have hi : i ≤ n := by simp at hi; omega
    show ∃ g, doublingFormula n (xs i) = some g
    unfold doublingFormula
    rw [length_xs]
    split
    · exact ⟨_, rfl⟩
    · exact ⟨_, rfl⟩
  · intro k g hg r hr
    unfold doublingFormula at hg
    split at hg
    · simp at hg; subst hg; simp at hr
    · split at hg
      · simp at hg; subst hg
        simp at hr
        subst hr
        exact ⟨hmem _ (by omega), by rw [length_xs]; omega⟩
      · simp at hg
  · intro k g hg vs
    unfold doublingFormula at hg
    split at hg
    · simp at hg; subst hg; simp
    · split at hg
      · simp at hg; subst hg; simp
      · simp at hg
  · intro k hk
    rw [doubling_names] at hk
    obtain ⟨i, hi, rfl⟩ := List.mem_map.1 hk
    rw [length_xs]
    simpa using hi

theorem doubling_calls {n i m : Nat} (hi : i ≤ n) (hm : i < m) : calls (doublingFormula n) [] m (xs i) = 2 ^ (i + 1) - 1 := by
  induction i generalizing m with
  | zero =>
    obtain ⟨m, rfl⟩ : ∃ m', m = m' + 1 := ⟨m - 1, by omega⟩
    simp [calls, doublingFormula, length_xs, Dict.contains]
  | succ i ih =>
    obtain ⟨m, rfl⟩ : ∃ m', m = m' + 1 := ⟨m - 1, by omega⟩
    have := ih (m := m) (by omega) (by omega)
    have h2 : 0 < 2 ^ i := Nat.pow_pos (by omega)
    simp only [calls, doublingFormula, length_xs, Dict.contains, hi, if_true]
    simp [this, Nat.pow_succ]
    omega

theorem doubling_validate (n s : Nat) : ∃ s₁, liveValidate (sheet (doubling n) (doublingFormula n) (n + 1)) [] s = (.ok (), s₁) := by
  have key : ∀ (fs : List Field), (∀ f ∈ fs, f ∈ (doubling n).components) → ∀ s, ∃ s₁,
      liveRunAll (liveValidateField (sheet (doubling n) (doublingFormula n) (n + 1)) []) (fs.map fun f => (f.name, [])) s = (.ok (), s₁) := by
    intro fs
    induction fs with
    | nil => intro _ s; exact ⟨s, rfl⟩
    | cons f fs ih =>
      intro hfs s
      have hf := hfs f (List.mem_cons_self ..)
      obtain ⟨v, hv⟩ := liveGetItem_calls (doubling_sheet n) (List.mem_map.2 ⟨f, hf, rfl⟩) s
      obtain ⟨s₁, h1⟩ := ih (fun g hg => hfs g (List.mem_cons_of_mem _ hg)) (s + calls (doublingFormula n) [] (n + 1) f.name)
      refine ⟨s₁, ?_⟩
      have hfind : (sheet (doubling n) (doublingFormula n) (n + 1)).desc.find? f.name = some f :=
        find?_of_mem (doubling_sheet n).names hf
      have hval : f.base.validators = [] := by
        obtain ⟨i, -, rfl⟩ := List.mem_map.1 hf
        rfl
      simp only [List.map_cons, liveRunAll, liveValidateField, hfind, Prog.andThen, hv, hval, runValidators, Prog.pure_apply, h1]
  obtain ⟨s₁, h1⟩ := key (doubling n).components (fun f hf => hf) s
  have h1' : liveRunAll (liveValidateField (sheet (doubling n) (doublingFormula n) (n + 1)) [])
    (sheet (doubling n) (doublingFormula n) (n + 1)).fieldValidators s = (.ok (), s₁) := h1
  exact ⟨s₁, by simp only [liveValidate, Prog.andThen, h1']; rfl⟩

end Sample

/-- **Refuted**: that dumping is cheap.  A class with `n + 1` one-byte fields, each compute function reading one other field
twice, makes `2 ** (n + 1)` calls and more in one `to_bytes()`: reading a computed field computes it anew each time. -/
theorem C96_exponential_refuted (n fuel s : Nat) (ctx : Value) :
    (Sample.doubling n).components.length = n + 1 ∧
    (∀ k g, Sample.doublingFormula n k = some g → g.reads.length ≤ 2) ∧
    s + 2 ^ (n + 1) ≤ (liveToStream (fun _ => none) fuel (sheet (Sample.doubling n) (Sample.doublingFormula n) (n + 1)) [] ctx s).2 := by
  refine ⟨by simp [Sample.doubling], ?_, ?_⟩
  · intro k g hg
    unfold Sample.doublingFormula at hg
    split at hg
    · simp at hg; subst hg; simp
    · split at hg
      · simp at hg; subst hg; simp
      · simp at hg
  · obtain ⟨s₁, hv⟩ := Sample.doubling_validate n s
    rw [C96_calls (Sample.doubling_sheet n) (fun _ => rfl) hv]
    have h1 : calls (Sample.doublingFormula n) [] (n + 1) (Sample.xs n) ≤ totalCalls (Sample.doubling n) (Sample.doublingFormula n) [] (n + 1) := by
      unfold totalCalls
      apply mem_le_listSum
      exact List.mem_map.2 ⟨Sample.u8 (Sample.xs n), List.mem_map.2 ⟨n, by simp, rfl⟩, rfl⟩
    rw [Sample.doubling_calls (Nat.le_refl _) (Nat.lt_succ_self _)] at h1
    have h2 : 2 ≤ 2 ^ (n + 1) := by
      rw [Nat.pow_succ]
      have : 0 < 2 ^ n := Nat.pow_pos (by omega)
      omega
    omega

/-- Four fields: the four zero bytes cost 52 calls. -/
example : liveToStream (fun _ => none) 2 (sheet (Sample.doubling 3) (Sample.doublingFormula 3) 4) [] .none 0 =
    (([0, 0, 0, 0], .ok ()), 52) := by decide +kernel

namespace Sample

/-- ```
class Frame(Struct):
    size = UInt8()
    data = Bytes(size=size)
    check = UInt8()
```
with `size` and `check` computed from `data`. -/
def frame : StructDesc :=
  { name := "Frame", components := [u8 "size", .leaf { name := "data", size := .ref "size" } .bytes, u8 "check"] }

def frameFormula (k : String) : Option Formula :=
  if k = "size" then some ⟨["data"], fun _ => .int 2⟩
  else if k = "check" then some ⟨["data"], fun _ => .int 5⟩
  else none

end Sample

/-- The usual case: a size and a checksum computed from the data, two calls each. -/
example : liveToStream (fun _ => none) 3 (sheet Sample.frame Sample.frameFormula 2) [("data", .bytes [7, 8])] .none 0 =
      (([2, 7, 8, 5], .ok ()), 4) ∧
    (liveToStream (fun _ => none) 3 (sheet Sample.frame Sample.frameFormula 2) [("data", .bytes [7, 8])] .none 0).2 =
      0 + 2 * (Sample.frame.components.filter fun f => !Dict.contains [("data", .bytes [7, 8])] f.name).length := by
  refine ⟨by decide, ?_⟩
  refine C96_twice_partial (rank := fun k => if k = "data" then 0 else 1) (s₁ := 2) ?_ (fun _ => rfl) ?_ (by decide)
  · refine ⟨by unfold UniqueNames; decide, by unfold Instance; decide, by decide, by decide, ?_, ?_, ?_, by decide⟩
    · intro f hf hn
      simp [Sample.frame] at hf
      rcases hf with rfl | rfl | rfl
      · exact ⟨rfl, _, rfl⟩
      · exact absurd hn (by decide)
      · exact ⟨rfl, _, rfl⟩
    · intro k g hg r hr
      unfold Sample.frameFormula at hg
      split at hg
      · rename_i hk; simp at hg; subst hg; simp at hr; subst hr; subst hk; decide
      · split at hg
        · rename_i hk; simp at hg; subst hg; simp at hr; subst hr; subst hk; decide
        · simp at hg
    · intro k g hg vs
      unfold Sample.frameFormula at hg
      split at hg
      · simp at hg; subst hg; simp
      · split at hg
        · simp at hg; subst hg; simp
        · simp at hg
  · intro k g hg r hr
    unfold Sample.frameFormula at hg
    split at hg
    · simp at hg; subst hg; simp at hr; subst hr; decide
    · split at hg
      · simp at hg; subst hg; simp at hr; subst hr; decide
      · simp at hg

end Verif
