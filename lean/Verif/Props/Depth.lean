import Verif.Proofs.Depth
import Verif.Spec.Samples

/-!
# C109: how deep calls nest does not depend on the data
-/

namespace Verif
open Spec

/-- **C109** The classes of a program, each defined once: if the stack is as deep as the program text says, loading any data gives what it
gives with any deeper stack. -/
theorem C109_deeper_stack (sys : Endian) (m : Nat) (program : List ClassSource) (Γ : Classes) (hnames : (program.map (·.name)).Nodup)
    (hrun : runProgram sys m program (fun _ => none) = .ok Γ) (cls : String) (d : StructDesc) (hd : Γ cls = some d) (fuel limit deeper : Nat)
    (hl : programDepth program ≤ limit) (hdeep : limit ≤ deeper) (s : Stream) (ctx : Value) (kw : Dict) :
    deepStruct Γ fuel limit d s ctx kw = deepStruct Γ fuel deeper d s ctx kw := by
  have hs := runProgram_shallow program (fun _ => none) Γ 0 (fun cls d h => by cases h) (fun _ _ => rfl) hnames hrun
  exact hs.stable hd fuel (by omega) (by omega) s ctx kw

/-- **C109** And what it gives is what the model without a limit gives: the values or the exception, and the position in the stream. -/
theorem C109_unlimited (sys : Endian) (m : Nat) (program : List ClassSource) (Γ : Classes) (hnames : (program.map (·.name)).Nodup)
    (hrun : runProgram sys m program (fun _ => none) = .ok Γ) (cls : String) (d : StructDesc) (hd : Γ cls = some d) (n fuel limit : Nat)
    (hl : programDepth program ≤ limit) (hf : n ≤ fuel) (s t : Stream) (ctx : Value) (kw : Dict) (r : Except Err Dict)
    (hr : r ≠ .error .outOfFuel) (h : structFromStream Γ n d s ctx kw = (r, t)) : deepStruct Γ fuel limit d s ctx kw = (r, t) := by
  rw [C109_deeper_stack sys m program Γ hnames hrun cls d hd fuel limit (max limit n) hl (by omega)]
  rcases (deep_load Γ fuel n hf (max limit n) (by omega)).2.2 d s ctx kw with h' | h'
  · rw [h] at h'; exact (hr h').elim
  · rw [← h', h]

/-- A program: points, and shapes with an array of points and a union of a point and an array of arrays of numbers. -/
def Sample.shapesProgram : List ClassSource :=
  [{ name := "Dot", body := [("x", .field (.integer "Int16" (.fixed 2) true (some .big) {})), ("y", .field (.integer "Int16" (.fixed 2) true (some .big) {}))] },
   { name := "Shape"
     body :=
      [("n", .field (.integer "UInt8" (.fixed 1) false (some .big) {})),
       ("dots", .field (.array (.nested "Dot" {}) (.ref "n") none {})),
       ("tail", .field (.union (.struct "Dot" (.field (.array (.array (.integer "UInt8" (.fixed 1) false (some .big) {}) (.fixed 2) none {}) (.fixed 2) none {}) .nil))
          (fun _ _ loaded => if loaded.lookup "n" = some (.int 0) then .ok 0 else .ok 1) (fun _ _ _ => .ok 0) {}))] }]

/-- The bound is 11, and the program defines both classes. -/
example : programDepth Sample.shapesProgram = 11 ∧
    ((runProgram .little 6 Sample.shapesProgram (fun _ => none)).toOption.bind (· "Shape")).isSome ∧
    ((Sample.shapesProgram.map (·.name)).Nodup) := by
  refine ⟨rfl, ?_, by decide⟩
  decide +kernel

/-- What the class `cls` of the program loads with a stack of the given depth: the values and the end position. -/
def Sample.deepLoads (limit : Nat) (cls : String) (data : Bytes) : Option (Except Err Dict × Nat) :=
  ((runProgram .little 6 Sample.shapesProgram (fun _ => none)).toOption).bind fun Γ =>
    (Γ cls).map fun d =>
      let r := deepStruct Γ 20 limit d ⟨data, 0⟩ .none []
      (r.1, r.2.pos)

/-- Two dots and four numbers, with the stack of the bound; with a stack of 3 this is a `RecursionError`. -/
example : Sample.deepLoads 11 "Shape" [2, 0, 1, 0, 2, 0, 3, 0, 4, 9, 8, 7, 6] =
      some (.ok [("n", .int 2),
        ("dots", .list [.struct "Dot" [("x", .int 1), ("y", .int 2)], .struct "Dot" [("x", .int 3), ("y", .int 4)]]),
        ("tail", .list [.list [.int 9, .int 8], .list [.int 7, .int 6]])], 13) ∧
    Sample.deepLoads 3 "Shape" [2, 0, 1, 0, 2, 0, 3, 0, 4, 9, 8, 7, 6] = some (.error .recursionErr, 1) := by
  constructor <;> decide +kernel

/-! ### Classes that contain themselves -/

def Sample.linkNext : Field :=
  .nested { name := "next", present := fun v _ _ => (v.get "more").map fun m => decide (m ≠ .int 0) } "Link"

/-- `class Link: more = UInt8(); next = Nested(…, present=lambda f, *_: f["more"])`, where `Link.next.struct_class` was set to `Link` afterwards.
(A class statement cannot make it: `Link` is not defined yet in its own body.) -/
def Sample.link : StructDesc :=
  { name := "Link"
    components := [Sample.u8 "more", Sample.linkNext] }

def Sample.linkClasses : Classes := fun name => if name = "Link" then some Sample.link else none

/-- A chain of links. -/
def Sample.linkData (k : Nat) : Bytes := List.replicate k 1 ++ [0]

theorem Sample.reads_byte {s : Stream} {v : UInt8} (hv : s.data[s.pos]? = some v) : readInt s 1 false .little = (.ok v.toNat, ⟨s.data, s.pos + 1⟩) := by
  have hlt : s.pos < s.data.length := (List.getElem?_eq_some_iff.1 hv).1
  have hg := (List.getElem?_eq_some_iff.1 hv).2
  have hd : (s.data.drop s.pos).take 1 = [v] := by
    rw [List.drop_eq_getElem_cons hlt, hg]; rfl
  have hr : s.read 1 = ([v], ⟨s.data, s.pos + 1⟩) := by
    have : s.read 1 = ((s.data.drop s.pos).take 1, ⟨s.data, s.pos + ((s.data.drop s.pos).take 1).length⟩) := rfl
    rw [this, hd]; rfl
  unfold readInt
  rw [hr]
  simp [intOfBytes, Endian.arrange, natOfLE]

/-- `UInt8` reads a byte, with or without a limit on the stack. -/
theorem Sample.deep_u8 (Γ : Classes) (fuel n : Nat) (name : String) {s : Stream} {v : UInt8} (hv : s.data[s.pos]? = some v) (ctx : Value)
    (loaded : Dict) : deepFromStream Γ fuel (n + 2) (Sample.u8 name) s ctx loaded = (.ok (.int v.toNat), ⟨s.data, s.pos + 1⟩) := by
  simp [deepFromStream, Sample.u8, Field.base, fromStreamWith, FieldBase.allowNull, loadAndFinish, deepDoLoad, leafLoad, Sample.reads_byte hv, R.map,
    Except.map, finishLoad, runValidators]

theorem Sample.load_u8 (Γ : Classes) (n : Nat) (name : String) {s : Stream} {v : UInt8} (hv : s.data[s.pos]? = some v) (ctx : Value)
    (loaded : Dict) : fieldFromStream Γ (n + 2) (Sample.u8 name) s ctx loaded = (.ok (.int v.toNat), ⟨s.data, s.pos + 1⟩) := by
  simp [fieldFromStream, Sample.u8, Field.base, fromStreamWith, FieldBase.allowNull, loadAndFinish, fieldDoLoad, leafLoad, Sample.reads_byte hv, R.map,
    Except.map, finishLoad, runValidators]

theorem Sample.chain_get {k p : Nat} (hp : p < k) : (Sample.linkData k)[p]? = some 1 := by
  unfold Sample.linkData
  rw [List.getElem?_append_left (by simpa using hp), List.getElem?_replicate, if_pos hp]

theorem Sample.chain_end (k : Nat) : (Sample.linkData k)[k]? = some 0 := by
  unfold Sample.linkData
  rw [List.getElem?_append_right (by simp)]
  simp

theorem Sample.linkNext_present (eq : Value → Value → Except Err Bool) (nr : Except Err Bytes) (l : Stream → R Value) (s : Stream) :
    fromStreamWith Sample.linkNext.base eq nr l s .none [("more", .int 1)] =
      match l s with
      | (.error e, s) => (.error (setErrField "next" e), s)
      | (.ok v, s) => (.ok v, s) := by
  rw [show fromStreamWith Sample.linkNext.base eq nr l s .none [("more", .int 1)] = loadAndFinish Sample.linkNext.base eq l s from rfl]
  unfold loadAndFinish
  cases l s with
  | mk r t => cases r <;> rfl

theorem Sample.chain_overflows (fuel k : Nat) : ∀ n p, n + 3 * p ≤ 3 * k →
    (deepStruct Sample.linkClasses fuel n Sample.link ⟨Sample.linkData k, p⟩ .none []).1 = .error .recursionErr
  | 0, p, _ => rfl
  | 1, p, _ => rfl
  | 2, p, _ => by
    simp [deepStruct, structFromStreamWith, Sample.link, loadFields, deepFromStream, Sample.u8, Field.base, fromStreamWith, FieldBase.allowNull,
      loadAndFinish, deepDoLoad, setErrField]
  | n + 3, p, h => by
    have ih := Sample.chain_overflows fuel k n (p + 1) (by omega)
    have hp : p < k := by omega
    have h1 := Sample.deep_u8 Sample.linkClasses fuel n "more" (s := ⟨Sample.linkData k, p⟩) (Sample.chain_get hp) .none []
    generalize hx : deepStruct Sample.linkClasses fuel n Sample.link ⟨Sample.linkData k, p + 1⟩ .none [] = x at ih
    obtain ⟨x, t⟩ := x
    simp only at ih
    subst ih
    rw [deepStruct]
    simp only [structFromStreamWith, Sample.link, loadFields]
    rw [h1]
    have h2 : deepFromStream Sample.linkClasses fuel (n + 2) Sample.linkNext ⟨Sample.linkData k, p + 1⟩ .none [("more", .int 1)] =
        (.error .recursionErr, t) := by
      rw [deepFromStream, Sample.linkNext_present]
      simp only [Sample.linkNext, deepDoLoad, containerLoad, loadStruct, Sample.linkClasses, if_pos]
      rw [hx]
      rfl
    have h3 : ((Dict.setDefault [] (Sample.u8 "more").name (Value.int (1 : UInt8).toNat)) : Dict) = [("more", .int 1)] := rfl
    simp only [h3]
    rw [h2]

theorem Sample.chain_loads (k : Nat) : ∀ j p, p + j = k →
    ∃ r t, structFromStream Sample.linkClasses (3 * j + 3) Sample.link ⟨Sample.linkData k, p⟩ .none [] = (.ok r, t)
  | 0, p, h => by
    have h1 := Sample.load_u8 Sample.linkClasses 0 "more" (s := ⟨Sample.linkData k, p⟩) (v := 0) (by subst h; exact Sample.chain_end p) .none []
    rw [structFromStream]
    simp only [structFromStreamWith, Sample.link, loadFields]
    rw [h1]
    exact ⟨_, _, rfl⟩
  | j + 1, p, h => by
    obtain ⟨r, t, ih⟩ := Sample.chain_loads k j (p + 1) (by omega)
    have hp : p < k := by omega
    have h1 := Sample.load_u8 Sample.linkClasses (3 * j + 3) "more" (s := ⟨Sample.linkData k, p⟩) (Sample.chain_get hp) .none []
    rw [show 3 * (j + 1) + 3 = 3 * j + 3 + 2 + 1 by omega, structFromStream]
    simp only [structFromStreamWith, Sample.link, loadFields]
    rw [h1]
    have h2 : fieldFromStream Sample.linkClasses (3 * j + 3 + 2) Sample.linkNext ⟨Sample.linkData k, p + 1⟩ .none [("more", .int 1)] =
        (.ok (.struct "Link" r), t) := by
      rw [fieldFromStream, Sample.linkNext_present]
      simp only [Sample.linkNext, fieldDoLoad, containerLoad, loadStruct, Sample.linkClasses, if_pos]
      rw [ih]
      rfl
    have h3 : ((Dict.setDefault [] (Sample.u8 "more").name (Value.int (1 : UInt8).toNat)) : Dict) = [("more", .int 1)] := rfl
    simp only [h3]
    rw [h2]
    exact ⟨_, _, rfl⟩

/-- **C109** Not so for a class that contains itself: for every depth of the stack there is data, no longer than that, whose load is cut off with
`RecursionError`, although it is in the format. -/
theorem C109_recursive_refuted : ∃ (Γ : Classes) (d : StructDesc), Γ d.name = some d ∧ ∀ limit, ∃ data : Bytes, data.length ≤ limit + 1 ∧
    (∀ fuel, (deepStruct Γ fuel limit d ⟨data, 0⟩ .none []).1 = .error .recursionErr) ∧
    ∃ n r t, structFromStream Γ n d ⟨data, 0⟩ .none [] = (.ok r, t) := by
  refine ⟨Sample.linkClasses, Sample.link, rfl, fun limit => ⟨Sample.linkData limit, by simp [Sample.linkData], fun fuel => ?_, ?_⟩⟩
  · exact Sample.chain_overflows fuel limit limit 0 (by omega)
  · obtain ⟨r, t, h⟩ := Sample.chain_loads limit limit 0 (by omega)
    exact ⟨_, r, t, h⟩

end Verif
