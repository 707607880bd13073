import Verif.Proofs.Stack
import Verif.Props.Depth
import Verif.Props.Class
import Verif.Props.Halting

/-!
# C119: how deep calls nest while a struct is written
-/

namespace Verif
open Spec

/-- **C119** The classes of a program, each defined once, whose fields supply no values deeper than `S`: if the stack is as deep as the program
text says plus as deep as the values of the instance are nested, dumping it gives what it gives with any deeper stack. -/
theorem C119_deeper_stack (sys : Endian) (m : Nat) (program : List ClassSource) (Γ : Classes) (hnames : (program.map (·.name)).Nodup)
    (hrun : runProgram sys m program (fun _ => none) = .ok Γ) (S : Nat) (hS : ∀ cls d, Γ cls = some d → ∀ f ∈ d.components, Modest S f)
    (cls : String) (d : StructDesc) (hd : Γ cls = some d) (V : Nat) (vals : Dict) (hv : ∀ p ∈ vals, Nests V p.2) (limit deeper : Nat)
    (hl : programDepth program + V + S + 1 ≤ limit) (hdeep : limit ≤ deeper) (ctx : Value) :
    structToStream Γ limit d vals ctx = structToStream Γ deeper d vals ctx := by
  have hs := runProgram_shallow program (fun _ => none) Γ 0 (fun cls d h => by cases h) (fun _ _ => rfl) hnames hrun
  exact hs.dump hS hd hv (by omega) (by omega) ctx

/-- **C119** And what it gives is what it gives without a limit: the bytes, or the bytes written before the exception and the exception. -/
theorem C119_unlimited (sys : Endian) (m : Nat) (program : List ClassSource) (Γ : Classes) (hnames : (program.map (·.name)).Nodup)
    (hrun : runProgram sys m program (fun _ => none) = .ok Γ) (S : Nat) (hS : ∀ cls d, Γ cls = some d → ∀ f ∈ d.components, Modest S f)
    (cls : String) (d : StructDesc) (hd : Γ cls = some d) (V : Nat) (vals : Dict) (hv : ∀ p ∈ vals, Nests V p.2) (limit n : Nat)
    (hl : programDepth program + V + S + 1 ≤ limit) (ctx : Value) (w : W) (hw : w.2 ≠ .error .outOfFuel)
    (h : structToStream Γ n d vals ctx = w) : structToStream Γ limit d vals ctx = w := by
  rw [C119_deeper_stack sys m program Γ hnames hrun S hS cls d hd V vals hv limit (max limit n) hl (by omega)]
  rcases structToStream_mono Γ (Nat.le_max_right limit n) d vals ctx with h' | h'
  · rw [h] at h'; exact (hw h').elim
  · rw [← h', h]

/-- **C119** What was loaded, whatever the data, can be written again with twice the stack that the program text says. -/
theorem C119_reload (sys : Endian) (m : Nat) (program : List ClassSource) (Γ : Classes) (hnames : (program.map (·.name)).Nodup)
    (hrun : runProgram sys m program (fun _ => none) = .ok Γ) (S : Nat)
    (hS : ∀ cls d, Γ cls = some d → ∀ f ∈ d.components, Modest S f ∧ Regular S f) (cls : String) (d : StructDesc) (hd : Γ cls = some d)
    (k n limit : Nat) (hl : 2 * programDepth program + 2 * S ≤ limit) (s t : Stream) (ctx ctx' : Value) (vals : Dict)
    (hload : structFromStream Γ k d s ctx [] = (.ok vals, t)) (w : W) (hw : w.2 ≠ .error .outOfFuel)
    (h : structToStream Γ n d vals ctx' = w) : structToStream Γ limit d vals ctx' = w := by
  have hs := runProgram_shallow program (fun _ => none) Γ 0 (fun cls d h => by cases h) (fun _ _ => rfl) hnames hrun
  obtain ⟨h2, hv⟩ := hs.loaded (fun c d h f hf => (hS c d h f hf).2) hd hload
  exact C119_unlimited sys m program Γ hnames hrun S (fun c d h f hf => (hS c d h f hf).1) cls d hd _ vals hv limit n (by omega) ctx' w hw h

/-! ### No RecursionError -/

/-- The classes of a program: each is defined once, in terms of those before it. -/
theorem runProgram_program {sys : Endian} {n : Nat} : ∀ (program : List ClassSource) (Γ Γ' : Classes), Program Γ →
    (∀ c ∈ program, Γ c.name = none) → (program.map (·.name)).Nodup → runProgram sys n program Γ = .ok Γ' → Program Γ'
  | [], Γ, Γ', hΓ, _, _, h => by cases h; exact hΓ
  | c :: cs, Γ, Γ', hΓ, hnew, hd, h => by
    rw [runProgram] at h
    cases hr : c.run sys Γ n with
    | error e => rw [hr] at h; cases h
    | ok Γ₁ =>
      rw [hr] at h
      have hs : (∀ name, name ≠ c.name → Γ₁ name = Γ name) ∧ Program Γ₁ := by
        unfold ClassSource.run at hr
        cases hi : evalItems sys Γ n c.body with
        | error e => rw [hi] at hr; cases hr
        | ok items =>
          rw [hi] at hr
          obtain ⟨d, hd', rfl⟩ := Except.map_ok hr
          have hname := fromClass_name hd'
          refine ⟨fun name hn => ?_, .declare hΓ (hnew c (List.mem_cons_self ..)) hd'⟩
          unfold Classes.add
          rw [if_neg (by rw [hname]; exact hn)]
      rw [List.map_cons, List.nodup_cons] at hd
      exact runProgram_program cs Γ₁ Γ' hs.2 (fun c' hc' => by
        rw [hs.1]
        · exact hnew c' (List.mem_cons_of_mem _ hc')
        · intro he; exact hd.1 (he ▸ List.mem_map_of_mem hc')) hd.2 h

/-- All fields of the class can be loaded with `k` calls. -/
def ClassWithin (Γ : Classes) (cls : String) (k : Nat) : Prop := ∀ d, Γ cls = some d → ∀ f ∈ d.components, LoadsWithin Γ k f

open Classical in
/-- How deep the class is. -/
noncomputable def classRank (Γ : Classes) (cls : String) : Nat := if h : ∃ k, ClassWithin Γ cls k then Nat.find h else 0

open Classical in
theorem classRank_le {Γ : Classes} {cls : String} {k : Nat} (h : ClassWithin Γ cls k) : classRank Γ cls ≤ k := by
  unfold classRank
  rw [dif_pos ⟨k, h⟩]
  exact Nat.find_min' _ h

open Classical in
theorem classRank_within {Γ : Classes} {cls : String} {k : Nat} (h : ClassWithin Γ cls k) : ClassWithin Γ cls (classRank Γ cls) := by
  unfold classRank
  rw [dif_pos ⟨k, h⟩]
  exact Nat.find_spec (p := ClassWithin Γ cls) _

theorem mentions_below {Γ : Classes} {f : Field} {c : String} (h : Mentions f c) : ∀ {k}, LoadsWithin Γ k f → classRank Γ c < k := by
  induction h with
  | nested =>
    intro k hk
    cases hk with
    | @nested k _ _ d h1 h2 =>
      have := classRank_le (Γ := Γ) (cls := _) (k := k) (fun d' hd' => by rw [h1] at hd'; cases hd'; exact h2)
      omega
  | array _ ih =>
    intro k hk
    cases hk with
    | array h1 => have := ih h1; omega
  | field hg _ ih =>
    intro k hk
    cases hk with
    | union h1 _ => have := ih (h1 _ hg); omega
  | struct hc =>
    intro k hk
    cases hk with
    | union _ h2 =>
      cases h2 _ hc with
      | @nested k _ _ d h3 h4 =>
        have := classRank_le (Γ := Γ) (cls := _) (k := k) (fun d' hd' => by rw [h3] at hd'; cases hd'; exact h4)
        omega

theorem plain_within {rank : String → Nat} {r S : Nat} {v : Value} (h : PlainNests S v) : Within rank r v := by
  induction h with
  | atom h1 h2 h3 h4 => exact .flat (.atom h1 h2 h3 h4)
  | list _ ih => exact .list ih
  | dict _ ih => exact .dict ih

/-- **C119** So it does not raise `RecursionError`: a stack as deep as the program text says plus as deep as the values are nested is enough. -/
theorem C119_no_recursion_error (sys : Endian) (m : Nat) (program : List ClassSource) (Γ : Classes) (hnames : (program.map (·.name)).Nodup)
    (hrun : runProgram sys m program (fun _ => none) = .ok Γ) (S : Nat)
    (hS : ∀ cls d, Γ cls = some d → HonestClass d ∧ ∀ f ∈ d.components, Modest S f)
    (cls : String) (d : StructDesc) (hd : Γ cls = some d) (V : Nat) (vals : Dict) (hv : ∀ p ∈ vals, Nests V p.2) (limit : Nat)
    (hl : programDepth program + V + S + 1 ≤ limit) (ctx : Value) : (structToStream Γ limit d vals ctx).2 ≠ .error .outOfFuel := by
  have hs := runProgram_shallow program (fun _ => none) Γ 0 (fun cls d h => by cases h) (fun _ _ => rfl) hnames hrun
  have hp := runProgram_program program (fun _ => none) Γ .empty (fun _ _ => rfl) hnames hrun
  have hf : ∀ c d, Γ c = some d → Founded (classRank Γ) (classRank Γ c) d := by
    intro c d hc
    obtain ⟨k, -, hk⟩ := hs c d hc
    have hw : ClassWithin Γ c k := fun d' hd' => by rw [hc] at hd'; cases hd'; exact hk
    have hlow : ∀ f ∈ d.components, ∀ c', Mentions f c' → classRank Γ c' < classRank Γ c :=
      fun f hf c' hm => mentions_below hm (classRank_within hw d hc f hf)
    obtain ⟨hh, hmod⟩ := hS c d hc
    exact
      { unique := C58_unique_names Γ hp c d hc
        fields := hh.fields
        mentions := fun f hf c' hm => Nat.le_of_lt (hlow f hf c' hm)
        supplies := fun f hf v hsup => .inr ⟨plain_within ((hmod f hf).supplies v hsup), hlow f hf⟩
        methods := hh.methods
        validators := hh.validators }
  obtain ⟨n, out, hout, hn⟩ := C75_dump_ends (classRank Γ) Γ hf _ d (hf cls d hd) vals ctx
  rw [C119_unlimited sys m program Γ hnames hrun S (fun c d h => (hS c d h).2) cls d hd V vals hv limit n hl ctx out hout (hn n (Nat.le_refl _))]
  exact hout

/-- **C119** Nor does writing what was loaded, whatever the data, with twice the stack that the program text says. -/
theorem C119_reload_no_recursion_error (sys : Endian) (m : Nat) (program : List ClassSource) (Γ : Classes)
    (hnames : (program.map (·.name)).Nodup) (hrun : runProgram sys m program (fun _ => none) = .ok Γ) (S : Nat)
    (hS : ∀ cls d, Γ cls = some d → HonestClass d ∧ ∀ f ∈ d.components, Modest S f ∧ Regular S f) (cls : String) (d : StructDesc)
    (hd : Γ cls = some d) (k limit : Nat) (hl : 2 * programDepth program + 2 * S ≤ limit) (s t : Stream) (ctx ctx' : Value) (vals : Dict)
    (hload : structFromStream Γ k d s ctx [] = (.ok vals, t)) : (structToStream Γ limit d vals ctx').2 ≠ .error .outOfFuel := by
  have hs := runProgram_shallow program (fun _ => none) Γ 0 (fun cls d h => by cases h) (fun _ _ => rfl) hnames hrun
  obtain ⟨h2, hv⟩ := hs.loaded (fun c d h f hf => ((hS c d h).2 f hf).2) hd hload
  exact C119_no_recursion_error sys m program Γ hnames hrun S (fun c d h => ⟨(hS c d h).1, fun f hf => ((hS c d h).2 f hf).1⟩) cls d hd _ vals hv
    limit (by omega) ctx'

/-! ### A program -/

theorem Sample.supplies_undefined {b : FieldBase} (h1 : b.default = .ok .undefined) (h2 : b.computeFn = none) (h3 : b.nullValue = .undefined) :
    ∀ v, Supplies b v → PlainNests 0 v := by
  intro v hv
  have : v = .undefined := by
    rcases hv with h | ⟨fn, V, h, _⟩ | h
    · rw [h1] at h; cases h; rfl
    · rw [h2] at h; cases h
    · rw [h3] at h; exact h.symm
  subst this
  exact .atom (by simp) (by simp) (by simp) (by simp)

theorem Sample.fine_leaf {b : FieldBase} {k : Leaf} (h1 : b.default = .ok .undefined) (h2 : b.computeFn = none) (h3 : b.nullValue = .undefined)
    (h4 : b.notPresentValue = .notPresent) (hk : ∀ ops, k ≠ .custom ops) : Modest 0 (.leaf b k) ∧ Regular 0 (.leaf b k) :=
  ⟨.leaf (Sample.supplies_undefined h1 h2 h3), .leaf (h4 ▸ .notPresent 0) hk⟩

theorem Sample.fine_nested {b : FieldBase} {cls : String} (h1 : b.default = .ok .undefined) (h2 : b.computeFn = none)
    (h3 : b.nullValue = .undefined) (h4 : b.notPresentValue = .notPresent) : Modest 0 (.nested b cls) ∧ Regular 0 (.nested b cls) :=
  ⟨.nested (Sample.supplies_undefined h1 h2 h3), .nested (h4 ▸ .notPresent 0)⟩

theorem Sample.fine_array {b : FieldBase} {comp : Field} {count : Count} (h1 : b.default = .ok .undefined) (h2 : b.computeFn = none)
    (h3 : b.nullValue = .undefined) (h4 : b.notPresentValue = .notPresent) (hc : Modest 0 comp ∧ Regular 0 comp) :
    Modest 0 (.array b comp count none) ∧ Regular 0 (.array b comp count none) :=
  ⟨.array (Sample.supplies_undefined h1 h2 h3) hc.1, .array (h4 ▸ .notPresent 0) hc.2 (by simp)⟩

theorem Sample.fine_union {b : FieldBase} {choices : List (Field ⊕ String)} {ld dd} (h1 : b.default = .ok .undefined) (h2 : b.computeFn = none)
    (h3 : b.nullValue = .undefined) (h4 : b.notPresentValue = .notPresent) (hc : ∀ g, .inl g ∈ choices → Modest 0 g ∧ Regular 0 g) :
    Modest 0 (.union b choices ld dd) ∧ Regular 0 (.union b choices ld dd) :=
  ⟨.union (Sample.supplies_undefined h1 h2 h3) fun g hg => (hc g hg).1, .union (h4 ▸ .notPresent 0) fun g hg => (hc g hg).2⟩

/-- The program of C109 meets the hypotheses: no defaults, no computed fields, no null values. -/
theorem Sample.shapes_fine : ∃ Γ, runProgram .little 6 Sample.shapesProgram (fun _ => none) = .ok Γ ∧
    ∀ cls d, Γ cls = some d → ∀ f ∈ d.components, Modest 0 f ∧ Regular 0 f := by
  refine ⟨_, rfl, ?_⟩
  intro cls d h f hf
  by_cases h1 : cls = "Shape"
  · subst h1
    cases h
    rcases List.mem_cons.1 hf with rfl | hf
    · exact Sample.fine_leaf rfl rfl rfl rfl nofun
    rcases List.mem_cons.1 hf with rfl | hf
    · exact Sample.fine_array rfl rfl rfl rfl (Sample.fine_nested rfl rfl rfl rfl)
    rcases List.mem_cons.1 hf with rfl | hf
    · refine Sample.fine_union rfl rfl rfl rfl fun g hg => ?_
      rcases List.mem_cons.1 hg with hg | hg
      · cases hg
      rcases List.mem_cons.1 hg with hg | hg
      · cases hg
        exact Sample.fine_array rfl rfl rfl rfl (Sample.fine_array rfl rfl rfl rfl (Sample.fine_leaf rfl rfl rfl rfl nofun))
      · cases hg
    · cases hf
  · by_cases h2 : cls = "Dot"
    · subst h2
      cases h
      rcases List.mem_cons.1 hf with rfl | hf
      · exact Sample.fine_leaf rfl rfl rfl rfl nofun
      rcases List.mem_cons.1 hf with rfl | hf
      · exact Sample.fine_leaf rfl rfl rfl rfl nofun
      · cases hf
    · have h : (if cls = "Shape" then _ else if cls = "Dot" then _ else none) = some d := h
      rw [if_neg h1, if_neg h2] at h
      cases h

theorem Sample.honest_leaf {b : FieldBase} {k : Leaf} (h1 : b.factory = none) (h2 : b.computeFn = none) (h3 : b.present = fun _ _ _ => .ok true)
    (h4 : b.validators = []) (hk : ∀ ops, k ≠ .custom ops) : Orderly (.leaf b k) :=
  .leaf (honest_plain h1 h2 h3 h4) fun ops h => (hk ops h).elim

theorem Sample.flat_supplies {b : FieldBase} (h1 : b.factory = none) (h2 : b.computeFn = none) (h3 : b.dflt = .undefined)
    (h4 : b.nullValue = .undefined) : ∀ v, Supplies b v → Flat v := by
  intro v hv
  rcases supplies_plain h1 h2 hv with rfl | rfl
  · rw [h3]; exact flat_undefined
  · rw [h4]; exact flat_undefined

theorem Sample.shapes_honest : ∃ Γ, runProgram .little 6 Sample.shapesProgram (fun _ => none) = .ok Γ ∧
    ∀ cls d, Γ cls = some d → HonestClass d := by
  refine ⟨_, rfl, ?_⟩
  intro cls d h
  by_cases h1 : cls = "Shape"
  · subst h1
    cases h
    refine ⟨fun f hf => ?_, fun p hp m hm => ?_, fun m hm => by cases hm⟩
    · rcases List.mem_cons.1 hf with rfl | hf
      · exact Sample.honest_leaf rfl rfl rfl rfl nofun
      rcases List.mem_cons.1 hf with rfl | hf
      · exact .array (honest_plain rfl rfl rfl rfl) (.nested (honest_plain rfl rfl rfl rfl)) (Sample.flat_supplies rfl rfl rfl rfl)
      rcases List.mem_cons.1 hf with rfl | hf
      · refine .union (honest_plain rfl rfl rfl rfl) (fun _ _ _ => nofun) (fun g hg => ?_) (fun g hg => ?_)
        · rcases List.mem_cons.1 hg with hg | hg
          · cases hg
          rcases List.mem_cons.1 hg with hg | hg
          · cases hg
            exact .array (honest_plain rfl rfl rfl rfl) (.array (honest_plain rfl rfl rfl rfl) (Sample.honest_leaf rfl rfl rfl rfl nofun)
              (Sample.flat_supplies rfl rfl rfl rfl)) (Sample.flat_supplies rfl rfl rfl rfl)
          · cases hg
        · rcases List.mem_cons.1 hg with hg | hg
          · cases hg
          rcases List.mem_cons.1 hg with hg | hg
          · cases hg
            exact Sample.flat_supplies rfl rfl rfl rfl
          · cases hg
      · cases hf
    · rcases List.mem_cons.1 hp with rfl | hp
      · cases hm
      rcases List.mem_cons.1 hp with rfl | hp
      · cases hm
      rcases List.mem_cons.1 hp with rfl | hp
      · cases hm
      · cases hp
  · by_cases h2 : cls = "Dot"
    · subst h2
      cases h
      refine ⟨fun f hf => ?_, fun p hp m hm => ?_, fun m hm => by cases hm⟩
      · rcases List.mem_cons.1 hf with rfl | hf
        · exact Sample.honest_leaf rfl rfl rfl rfl nofun
        rcases List.mem_cons.1 hf with rfl | hf
        · exact Sample.honest_leaf rfl rfl rfl rfl nofun
        · cases hf
      · rcases List.mem_cons.1 hp with rfl | hp
        · cases hm
        rcases List.mem_cons.1 hp with rfl | hp
        · cases hm
        · cases hp
    · have h : (if cls = "Shape" then _ else if cls = "Dot" then _ else none) = some d := h
      rw [if_neg h1, if_neg h2] at h
      cases h

/-- All instances of the program's classes with values of two levels, with a stack of 14; and everything that was loaded, with a stack of 22. -/
example : ∃ Γ, runProgram .little 6 Sample.shapesProgram (fun _ => none) = .ok Γ ∧
    (∀ cls d, Γ cls = some d → ∀ vals : Dict, (∀ p ∈ vals, Nests 2 p.2) → ∀ ctx, (structToStream Γ 14 d vals ctx).2 ≠ .error .outOfFuel) ∧
    ∀ cls d, Γ cls = some d → ∀ k s t ctx vals, structFromStream Γ k d s ctx [] = (.ok vals, t) →
      (structToStream Γ 22 d vals ctx).2 ≠ .error .outOfFuel := by
  obtain ⟨Γ, h1, h2⟩ := Sample.shapes_fine
  obtain ⟨Γ', h1', h2'⟩ := Sample.shapes_honest
  obtain rfl : Γ = Γ' := by rw [h1] at h1'; cases h1'; rfl
  refine ⟨Γ, h1, ?_, ?_⟩
  · intro cls d hd vals hv ctx
    exact C119_no_recursion_error .little 6 _ Γ (by decide) h1 0 (fun c d h => ⟨h2' c d h, fun f hf => (h2 c d h f hf).1⟩) cls d hd 2 vals hv 14
      (by decide) ctx
  · intro cls d hd k s t ctx vals h
    exact C119_reload_no_recursion_error .little 6 _ Γ (by decide) h1 0 (fun c d h => ⟨h2' c d h, h2 c d h⟩) cls d hd k 22 (by decide) s t ctx ctx
      vals h

/-- What the class `cls` of the program writes with a stack of the given depth. -/
def Sample.deepDumps (limit : Nat) (cls : String) (vals : Dict) : Option W :=
  ((runProgram .little 6 Sample.shapesProgram (fun _ => none)).toOption).bind fun Γ =>
    (Γ cls).map fun d => structToStream Γ limit d vals .none

/-- Two dots and another one: the values nest two levels, the bound is 11 + 2 + 1; a stack of 3 is too small. -/
def Sample.shapeValues : Dict :=
  [("n", .int 2), ("dots", .list [.struct "Dot" [("x", .int 1), ("y", .int 2)], .struct "Dot" [("x", .int 3), ("y", .int 4)]]),
   ("tail", .struct "Dot" [("x", .int 5), ("y", .int 6)])]

example : ∀ p ∈ Sample.shapeValues, Nests 2 p.2 := by
  have int : ∀ k i, Nests k (.int i) := fun k i => .atom (by simp) (by simp) (by simp) (by simp)
  intro p hp
  simp only [Sample.shapeValues, List.mem_cons, List.not_mem_nil, or_false] at hp
  rcases hp with rfl | rfl | rfl
  · exact int _ _
  · refine .list fun v hv => ?_
    simp only [List.mem_cons, List.not_mem_nil, or_false] at hv
    rcases hv with rfl | rfl <;> (refine .struct fun p hp => ?_; simp only [List.mem_cons, List.not_mem_nil, or_false] at hp;
                                  rcases hp with rfl | rfl <;> exact int _ _)
  · refine .struct fun p hp => ?_
    simp only [List.mem_cons, List.not_mem_nil, or_false] at hp
    rcases hp with rfl | rfl <;> exact int _ _

example : Sample.deepDumps 14 "Shape" Sample.shapeValues = some (W.ok [2, 0, 1, 0, 2, 0, 3, 0, 4, 0, 5, 0, 6]) ∧
    Sample.deepDumps 3 "Shape" Sample.shapeValues = some ([], .error .outOfFuel) := by
  constructor <;> decide +kernel

/-! ### The depth of the values matters -/

/-- A list in a list in a list … -/
def Sample.wrapped : Nat → Value
  | 0 => .list []
  | k + 1 => .list [Sample.wrapped k]

/-- A user-defined field that accepts anything and writes nothing. -/
def Sample.accepting : StructDesc :=
  { name := "Accepting"
    components := [.leaf { name := "x" } (.custom { dump := fun _ _ _ => W.ok [], load := fun s _ _ => (.ok .none, s) })] }

theorem Sample.wrapped_needs (Γ : Classes) : ∀ k n, recursiveToDicts Γ n (Sample.wrapped k) =
    if k + 1 ≤ n then .ok (Sample.wrapped k) else .error .outOfFuel
  | _, 0 => by simp [recursiveToDicts]
  | 0, n + 1 => by simp [recursiveToDicts, Sample.wrapped, mapE, Except.map]
  | k + 1, n + 1 => by
    simp only [recursiveToDicts, Sample.wrapped, mapE, Sample.wrapped_needs Γ k n]
    by_cases h : k + 1 ≤ n
    · rw [if_pos h, if_pos (by omega)]; rfl
    · rw [if_neg h, if_neg (by omega)]; rfl

/-- **C119** The program text alone is not enough: for one class, and for every depth of the stack, there is a value that cannot be written with
it, although it can be written with a deeper one. -/
theorem C119_text_only_refuted : ∃ (Γ : Classes) (d : StructDesc), Γ d.name = some d ∧ ∀ limit, ∃ vals : Dict,
    (structToStream Γ limit d vals .none).2 = .error .outOfFuel ∧ ∃ deeper, (structToStream Γ deeper d vals .none).2 = .ok () := by
  refine ⟨fun name => if name = "Accepting" then some Sample.accepting else none, Sample.accepting, rfl, fun limit => ?_⟩
  generalize (fun name => if name = "Accepting" then some Sample.accepting else none : Classes) = Γ
  have hd : ∀ n v, structToDict Γ n Sample.accepting [("x", Sample.wrapped v)] =
      if v + 1 ≤ n then .ok [("x", Sample.wrapped v)] else .error .outOfFuel := by
    intro n v
    have : toDictShallow Sample.accepting [("x", Sample.wrapped v)] false = .ok [("x", Sample.wrapped v)] := by
      cases v <;> rfl
    unfold structToDict
    rw [this]
    simp only [mapDictE, mapE, Sample.wrapped_needs Γ v n]
    by_cases h : v + 1 ≤ n
    · rw [if_pos h, if_pos h]; rfl
    · rw [if_neg h, if_neg h]; rfl
  have hv : ∀ v, validateContents Sample.accepting [("x", Sample.wrapped v)] = .ok () := fun v => rfl
  refine ⟨[("x", Sample.wrapped limit)], ?_, limit + 2, ?_⟩
  · cases limit with
    | zero => rfl
    | succ n =>
      simp only [structToStream, structToStreamWith, hv, hd]
      rw [if_neg (by omega)]
      rfl
  · simp only [structToStream, structToStreamWith, hv, hd]
    rw [if_pos (by omega)]
    cases limit <;> rfl

end Verif
