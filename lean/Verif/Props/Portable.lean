import Verif.Proofs.Portable
import Verif.Props.Optional

/-!
# C107: the same program makes the same classes on every machine
-/

namespace Verif
open Spec

/-- **C107** If every number has a declared byte order, a program makes the same classes on a machine with one `sys.byteorder` as on a machine
with the other (or raises the same exception). -/
theorem C107_same_classes (writer reader : Endian) (n : Nat) (program : List ClassSource) (Γ : Classes)
    (h : PortableProgram writer n program Γ) : runProgram writer n program Γ = runProgram reader n program Γ := by
  induction program generalizing Γ with
  | nil => rfl
  | cons c cs ih =>
    obtain ⟨h1, h2⟩ := h
    simp only [runProgram]
    rw [← run_same writer reader Γ n c h1]
    cases hc : c.run writer Γ n with
    | error e => rfl
    | ok Γ' => exact ih Γ' (h2 Γ' hc)

/-- **C107** So what is dumped on one machine is loaded on the other. -/
theorem C107_exchange (writer reader : Endian) (m : Nat) (program : List ClassSource) (Γ Γw : Classes)
    (h : PortableProgram writer m program Γ) (hw : runProgram writer m program Γ = .ok Γw)
    (hΓ : ∀ c d, Γw c = some d → OptionalSchema Γw d) (cls : String) (d : StructDesc) (hd : Γw cls = some d)
    (n : Nat) (vals : Dict) (ctx : Value) (bs : Bytes) (hv : Bears Γw d vals) (hb : structToStream Γw (n + 1) d vals ctx = (bs, .ok ())) :
    ∃ Γr d' all k r, runProgram reader m program Γ = .ok Γr ∧ Γr cls = some d' ∧ structToDict Γw n d vals = .ok all ∧
      (∀ f ∈ d.components, f.base.discard = false → ∃ v w, Dict.get? all f.name = some w ∧ Dict.get? r f.name = some v ∧ Stands v w) ∧
      ∀ pre rest, structFromStream Γr k d' ⟨pre ++ bs ++ rest, pre.length⟩ ctx [] = (.ok r, ⟨pre ++ bs ++ rest, pre.length + bs.length⟩) := by
  obtain ⟨all, k, r, h1, h2, -, h3⟩ := C26_optional_round_trip Γw hΓ n d vals ctx bs (hΓ cls d hd) hv hb
  refine ⟨Γw, d, all, k, r, by rw [← C107_same_classes writer reader m program Γ h]; exact hw, hd, h1, ?_, h3⟩
  intro f hf hdis
  obtain ⟨v, w, a, b, c, -⟩ := h2 f hf hdis
  exact ⟨v, w, a, b, c⟩

/-- Two classes: one with `Meta.argument_defaults = {"endian": "big"}` and one derived from it, which gets the same defaults. -/
def Sample.portableProgram : List ClassSource :=
  [{ name := "Head", metaOpts := some [("endian", .big)]
     body := [("tag", .field (.integer "UInt16" (.fixed 2) false none {})),
              ("ratio", .field (.float "Float32" binary32 (some .little) { explicit := ["endian"] }))] },
   { name := "Tail", bases := ["Head"]
     body := [("len", .field (.computed (.integer "UInt32" (.fixed 4) false none {}) fun _ => .ok (.int 7))),
              ("cells", .field (.array (.integer "Int16" (.fixed 2) true (some .big) { explicit := ["endian"] }) (.fixed 2) none {}))] }]

/-- The hypothesis is met. -/
theorem Sample.portable : PortableProgram .little 3 Sample.portableProgram Sample.noClasses := by
  refine ⟨?_, fun Γ' h => ⟨?_, fun _ _ => trivial⟩⟩
  · intro name f hf
    simp only [List.mem_cons, List.not_mem_nil, or_false, Prod.mk.injEq, ItemExpr.field.injEq] at hf
    rcases hf with ⟨-, rfl⟩ | ⟨-, rfl⟩
    · exact .inr ⟨by decide, .inr (by decide)⟩
    · exact .inl rfl
  · cases h
    intro name f hf
    simp only [List.mem_cons, List.not_mem_nil, or_false, Prod.mk.injEq, ItemExpr.field.injEq] at hf
    rcases hf with ⟨-, rfl⟩ | ⟨-, rfl⟩
    · exact .inr ⟨by decide, .inr (by decide)⟩
    · exact .inl rfl

/-- What the class `cls` of a program, executed on a machine with byte order `sys`, writes for `vals`. -/
def Spec.dumpsOn (sys : Endian) (program : List ClassSource) (cls : String) (vals : Dict) : Option Bytes :=
  match runProgram sys 3 program Sample.noClasses with
  | .error _ => none
  | .ok Γ => (Γ cls).bind fun d =>
    match structToStream Γ 6 d vals .none with
    | (bs, .ok ()) => some bs
    | (_, .error _) => none

/-- What it reads from `bs`. -/
def Spec.loadsOn (sys : Endian) (program : List ClassSource) (cls : String) (bs : Bytes) : Option Dict :=
  match runProgram sys 3 program Sample.noClasses with
  | .error _ => none
  | .ok Γ => (Γ cls).bind fun d => (structFromStream Γ 6 d ⟨bs, 0⟩ .none []).1.toOption

/-- 1, 1.0, the computed 7, and −1 and 2 go from a little-endian machine to a big-endian machine. -/
example : dumpsOn .little Sample.portableProgram "Tail" [("tag", .int 1), ("ratio", .float 0x3FF0000000000000), ("cells", .list [.int (-1), .int 2])] =
      some [0, 1, 0, 0, 0x80, 0x3F, 0, 0, 0, 7, 0xFF, 0xFF, 0, 2] ∧
    loadsOn .big Sample.portableProgram "Tail" [0, 1, 0, 0, 0x80, 0x3F, 0, 0, 0, 7, 0xFF, 0xFF, 0, 2] =
      some [("tag", .int 1), ("ratio", .float 0x3FF0000000000000), ("len", .int 7), ("cells", .list [.int (-1), .int 2])] := by
  constructor <;> decide +kernel

/-- A class with two numbers in big-endian order. -/
def Sample.spanSource : ClassSource :=
  { name := "Span", metaOpts := some [("endian", .big)]
    body := [("low", .field (.integer "UInt16" (.fixed 2) false none {})), ("high", .field (.integer "Int32" (.fixed 4) true none {}))] }

/-- What comes out of it. -/
def Sample.span : StructDesc :=
  { name := "Span"
    components :=
      [.leaf { name := "low", typeName := "UInt16", size := .fixed 2, index := 0, offset := some 0 } (.integer false .big),
       .leaf { name := "high", typeName := "Int32", size := .fixed 4, index := 1, offset := some 2 } (.integer true .big)]
    fieldValidators := [("low", []), ("high", [])]
    numOwnFields := 2, argumentDefaults := [("endian", .big)], metaOpts := some [("endian", .big)] }

theorem Sample.span_portable : PortableProgram .little 3 [Sample.spanSource] Sample.noClasses := by
  refine ⟨?_, fun _ _ => trivial⟩
  intro name f hf
  simp only [Sample.spanSource, List.mem_cons, List.not_mem_nil, or_false, Prod.mk.injEq, ItemExpr.field.injEq] at hf
  rcases hf with ⟨-, rfl⟩ | ⟨-, rfl⟩ <;> exact .inr ⟨by decide, .inr (by decide)⟩

theorem Sample.span_optional (Γ : Classes) : OptionalSchema Γ Sample.span where
  unique := by unfold UniqueNames; decide
  checks := unchecked_impartial (by decide) (by simp [Sample.span, Field.base]) rfl (by unfold UniqueNames; decide)
  fields := by
    refine optional_fields_of_index fun i hi => ?_
    match i, hi with
    | 0, _ => exact optional_field_plain (.integer (n := 2) rfl (by decide)) ⟨fun _ _ _ => rfl, rfl⟩ rfl rfl rfl rfl
    | 1, _ => exact optional_field_plain (.integer (n := 4) rfl (by decide)) ⟨fun _ _ _ => rfl, rfl⟩ rfl rfl rfl rfl

-- the hypotheses of `C107_exchange` are met, for all numbers that are dumped
example (x y : Int) (bs : Bytes)
    (h : structToStream (Classes.add Sample.noClasses Sample.span) 4 Sample.span [("low", .int x), ("high", .int y)] .none = (bs, .ok ())) :=
  C107_exchange .little .big 3 [Sample.spanSource] Sample.noClasses (Classes.add Sample.noClasses Sample.span) Sample.span_portable rfl
    (by
      intro c d h
      unfold Classes.add at h
      split at h
      · cases h; exact Sample.span_optional _
      · simp [Sample.noClasses] at h)
    "Span" Sample.span rfl 3 [("low", .int x), ("high", .int y)] .none bs
    { inst := by unfold Instance; simp [Sample.span, Dict.keys, names, Field.name, Field.base]
      absent := by
        intro f hf h
        simp only [Sample.span, List.mem_cons, List.not_mem_nil, or_false] at hf
        rcases hf with rfl | rfl <;> cases h
      fits := by
        intro f hf w hw _
        simp only [Sample.span, List.mem_cons, List.not_mem_nil, or_false] at hf
        rcases hf with rfl | rfl <;> cases hw <;> exact .leaf trivial (Or.inl rfl) (Or.inl rfl) }
    h

/-- **C107** refuted for numbers without a declared byte order: `x = UInt16()` takes the byte order of the machine, so 1 written on a
little-endian machine is read as 256 on a big-endian machine, without an error. -/
theorem C107_undeclared_refuted :
    ∃ (program : List ClassSource) (bs : Bytes), dumpsOn .little program "A" [("x", .int 1)] = some bs ∧
      loadsOn .little program "A" bs = some [("x", .int 1)] ∧ loadsOn .big program "A" bs = some [("x", .int 256)] :=
  ⟨[{ name := "A", body := [("x", .field (.integer "UInt16" (.fixed 2) false none {}))] }], [1, 0],
    by decide +kernel, by decide +kernel, by decide +kernel⟩

/-- **C107** refuted for classes whose byte order is declared only in `Meta.argument_defaults`: these do not reach the components of arrays
(C57), so the array `[1]` written on a little-endian machine is read as `[256]` on a big-endian machine, although the class says "big". -/
theorem C107_components_refuted :
    ∃ (c : ClassSource) (bs : Bytes), c.metaOpts = some [("endian", .big)] ∧ dumpsOn .little [c] "A" [("x", .list [.int 1])] = some bs ∧
      loadsOn .big [c] "A" bs = some [("x", .list [.int 256])] :=
  ⟨{ name := "A", metaOpts := some [("endian", .big)]
     body := [("x", .field (.array (.integer "UInt16" (.fixed 2) false none {}) (.fixed 1) none {}))] }, [1, 0],
    rfl, by decide +kernel, by decide +kernel⟩

/-- **C107** refuted likewise for floats: 1.0 is read as 4.6e-41. -/
theorem C107_floats_refuted :
    ∃ (c : ClassSource) (bs : Bytes), c.metaOpts = some [("endian", .big)] ∧
      dumpsOn .little [c] "A" [("x", .float 0x3FF0000000000000)] = some bs ∧
      loadsOn .big [c] "A" bs = some [("x", .float 0x379007E000000000)] :=
  ⟨{ name := "A", metaOpts := some [("endian", .big)]
     body := [("x", .field (.float "Float32" binary32 none {}))] }, [0, 0, 0x80, 0x3F],
    rfl, by decide +kernel, by decide +kernel⟩

end Verif
