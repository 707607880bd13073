import Verif.Proofs.Context
import Verif.Spec.Samples

/-!
# C74: the caller's context reaches every callable, unchanged
-/

namespace Verif
open Spec

/-- **C74.** Dumping with the context `φ c` is dumping with `c` a program each of whose callables, at every depth, applies `φ` to the
context it receives: all of them are given the caller's context, and nothing else looks at it.  Partial: only for fields that do not
care about the `None` which the library passes of its own accord (`Quiet`). -/
theorem C74_dump_partial (φ : Value → Value) (Γ : Classes) (n : Nat) (d : StructDesc) (vals : Dict) (c : Value)
    (hΓ : QuietClasses φ Γ) (hd : ∀ f ∈ d.components, Quiet φ f) :
    structToStream Γ n d vals (φ c) = structToStream (Γ.recontext φ) n (d.recontext φ) vals c :=
  ((dumpAt hΓ n).struct d vals c hd).symm

/-- The same for `partial_dump`. -/
theorem C74_partial_dump_partial (φ : Value → Value) (Γ : Classes) (n : Nat) (d : StructDesc) (vals : Dict) (last : Option String)
    (c : Value) (hΓ : QuietClasses φ Γ) (hd : ∀ f ∈ d.components, Quiet φ f) :
    structPartialDump Γ n d vals last (φ c) = structPartialDump (Γ.recontext φ) n (d.recontext φ) vals last c :=
  (partialDump_recontext hΓ hd n vals last c).symm

/-- Loading.  Partial: `Quiet` as above, and no struct is compared with a `const` or a null value (which asks for its length). -/
theorem C74_load_partial (φ : Value → Value) (Γ : Classes) (n : Nat) (d : StructDesc) (s : Stream) (c : Value) (kw : Dict)
    (hΓ : QuietClasses φ Γ) (hu : UncomparedClasses φ Γ) (hd : ∀ f ∈ d.components, Quiet φ f ∧ Uncompared φ f) :
    structFromStream Γ n d s (φ c) kw = structFromStream (Γ.recontext φ) n (d.recontext φ) s c kw :=
  ((loadAt hΓ hu n).struct d s c kw (fun f hf => (hd f hf).1) fun f hf => (hd f hf).2).symm

/-- `partial_load` and `get_field`. -/
theorem C74_partial_load_partial (φ : Value → Value) (Γ : Classes) (n : Nat) (d : StructDesc) (s : Stream) (c : Value)
    (hΓ : QuietClasses φ Γ) (hu : UncomparedClasses φ Γ) (hd : ∀ f ∈ d.components, Quiet φ f ∧ Uncompared φ f) :
    (∀ last, structPartialLoad Γ n d s last (φ c) = structPartialLoad (Γ.recontext φ) n (d.recontext φ) s last c) ∧
    (∀ name, structGetField Γ n d s name (φ c) = structGetField (Γ.recontext φ) n (d.recontext φ) s name c) :=
  ⟨fun last => (partialLoad_recontext hΓ hu (fun f hf => (hd f hf).1) (fun f hf => (hd f hf).2) n s last c).symm,
    fun name => (getField_recontext hΓ hu (fun f hf => (hd f hf).1) (fun f hf => (hd f hf).2) n s name c).symm⟩

/-- For every program without exception, a callable is given the caller's context or `None`, and nothing else looks at the context:
the law above holds for every `φ` that keeps `None`. -/
theorem C74_opaque (φ : Value → Value) (h0 : φ .none = .none) (Γ : Classes) (n : Nat) (d : StructDesc) (c : Value) :
    (∀ vals, structToStream Γ n d vals (φ c) = structToStream (Γ.recontext φ) n (d.recontext φ) vals c) ∧
    (∀ vals last, structPartialDump Γ n d vals last (φ c) = structPartialDump (Γ.recontext φ) n (d.recontext φ) vals last c) ∧
    (∀ s kw, structFromStream Γ n d s (φ c) kw = structFromStream (Γ.recontext φ) n (d.recontext φ) s c kw) ∧
    (∀ s last, structPartialLoad Γ n d s last (φ c) = structPartialLoad (Γ.recontext φ) n (d.recontext φ) s last c) ∧
    (∀ s name, structGetField Γ n d s name (φ c) = structGetField (Γ.recontext φ) n (d.recontext φ) s name c) := by
  have hΓ : QuietClasses φ Γ := fun _ _ _ f _ => quiet_of_none h0 f
  have hu : UncomparedClasses φ Γ := fun _ _ _ f _ => uncompared_of_none h0 f
  have hd : ∀ f ∈ d.components, Quiet φ f := fun f _ => quiet_of_none h0 f
  have hd' : ∀ f ∈ d.components, Quiet φ f ∧ Uncompared φ f := fun f _ => ⟨quiet_of_none h0 f, uncompared_of_none h0 f⟩
  exact ⟨fun vals => C74_dump_partial φ Γ n d vals c hΓ hd, fun vals last => C74_partial_dump_partial φ Γ n d vals last c hΓ hd,
    fun s kw => C74_load_partial φ Γ n d s c kw hΓ hu hd', fun s => (C74_partial_load_partial φ Γ n d s c hΓ hu hd').1,
    fun s => (C74_partial_load_partial φ Γ n d s c hΓ hu hd').2⟩

namespace Sample

/-- `UInt8(name, default=1, present=lambda fields, context, stream: context == 2)` -/
def since2 (name : String) : Field :=
  upd (u8 name) ({ · with dflt := .int 1, present := fun _ ctx _ => .ok (decide (ctx = .int 2)) })

/-- A class with this field only: a header that depends on the protocol version, which is the context. -/
def versioned : StructDesc := { name := "Versioned", components := [since2 "x"], fieldValidators := [("x", [])], numOwnFields := 1 }

/-- `Union(UInt8(), UInt16(), dump_decider=…)`: two bytes if the context is 2. -/
def wide (name : String) (null : Value) : Field :=
  .union { name := name, typeName := "Union", nullValue := null } [.inl (u8 ""), .inl (u16 "")]
    (fun _ ctx _ => .ok (if ctx = .int 2 then 1 else 0)) (fun _ ctx _ => .ok (if ctx = .int 2 then 1 else 0))

/-- ```
class Body(Struct):
    a = Union(UInt8(), UInt16(), …)
class Mailing(Struct):
    bodies = Array(Nested(Body), count=2)
``` -/
def body : StructDesc := { name := "Body", components := [wide "a" .undefined], fieldValidators := [("a", [])], numOwnFields := 1 }
@[inherit_doc body]
def mailing : StructDesc :=
  { name := "Mailing", components := [array "bodies" (nested "" "Body") (.fixed 2)], fieldValidators := [("bodies", [])],
    numOwnFields := 1 }

/-- These classes. -/
def mailings : Classes := Classes.add (Classes.add noClasses body) mailing

/-- Two bodies. -/
def twoBodies : Dict := [("bodies", .list [.dict [("a", .int 7)], .dict [("a", .int 8)]])]

/-- A class with a nullable union. -/
def maybeWide : StructDesc :=
  { name := "MaybeWide", components := [wide "a" (.int 7)], fieldValidators := [("a", [])], numOwnFields := 1 }

end Sample

section Examples
open Sample

theorem Sample.wide_quiet (φ : Value → Value) (name : String) : Quiet φ (wide name .undefined) := by
  refine .union (fun _ => rfl) (.inr (.inl rfl)) ?_
  intro g hg
  simp only [List.mem_cons, Sum.inl.injEq, List.not_mem_nil, or_false] at hg
  rcases hg with rfl | rfl <;> exact .leaf (fun _ => rfl) (.inr (.inl (.inl rfl)))

theorem Sample.wide_uncompared (φ : Value → Value) (name : String) : Uncompared φ (wide name .undefined) := by
  refine .union (.inr ⟨rfl, rfl⟩) ?_
  intro g hg
  simp only [List.mem_cons, Sum.inl.injEq, List.not_mem_nil, or_false] at hg
  rcases hg with rfl | rfl <;> exact .leaf (.inr (.inl ⟨rfl, rfl⟩))

theorem Sample.mailing_quiet (φ : Value → Value) : ∀ f ∈ mailing.components, Quiet φ f ∧ Uncompared φ f := by
  intro f hf
  simp only [mailing, List.mem_cons, List.not_mem_nil, or_false] at hf
  subst hf
  exact ⟨.array (fun _ => rfl) (.inr (.inl rfl)) (.nested (fun _ => rfl) (.inr (.inl rfl))),
    .array (.inr ⟨rfl, rfl⟩) (.nested (.inr ⟨rfl, rfl⟩))⟩

theorem Sample.mailings_quiet (φ : Value → Value) : QuietClasses φ mailings ∧ UncomparedClasses φ mailings := by
  have h : ∀ cls d, mailings cls = some d → ∀ f ∈ d.components, Quiet φ f ∧ Uncompared φ f := by
    intro cls d h f hf
    simp only [mailings, Classes.add, noClasses] at h
    split at h
    · cases h; exact mailing_quiet φ f hf
    · split at h
      · cases h
        simp only [body, List.mem_cons, List.not_mem_nil, or_false] at hf
        subst hf
        exact ⟨wide_quiet φ "a", wide_uncompared φ "a"⟩
      · cases h
  exact ⟨fun cls d hc f hf => (h cls d hc f hf).1, fun cls d hc f hf => (h cls d hc f hf).2⟩

/-- The context reaches a decider in a struct in an array; and the program whose callables see 2 whatever the context is writes the
same. -/
example : (structToBytes mailings 12 mailing twoBodies (.int 2)) = .ok [0, 7, 0, 8] ∧
    structToBytes mailings 12 mailing twoBodies .none = .ok [7, 8] ∧
    structToStream (mailings.recontext fun _ => .int 2) 12 (mailing.recontext fun _ => .int 2) twoBodies .none =
      structToStream mailings 12 mailing twoBodies (.int 2) := by
  refine ⟨by decide +kernel, by decide +kernel, ?_⟩
  exact (C74_dump_partial (fun _ => .int 2) mailings 12 mailing twoBodies .none (mailings_quiet _).1
    fun f hf => (mailing_quiet _ f hf).1).symm

/-- Loading. -/
example : (structFromStream mailings 14 mailing ⟨[0, 7, 0, 8], 0⟩ (.int 2) []).1 =
      .ok [("bodies", .list [.struct "Body" [("a", .int 7)], .struct "Body" [("a", .int 8)]])] ∧
    structFromStream (mailings.recontext fun _ => .int 2) 14 (mailing.recontext fun _ => .int 2) ⟨[0, 7, 0, 8], 0⟩ .none [] =
      structFromStream mailings 14 mailing ⟨[0, 7, 0, 8], 0⟩ (.int 2) [] := by
  refine ⟨by decide +kernel, ?_⟩
  exact (C74_load_partial (fun _ => .int 2) mailings 14 mailing ⟨[0, 7, 0, 8], 0⟩ .none [] (mailings_quiet _).1 (mailings_quiet _).2
    (mailing_quiet _)).symm

end Examples

/-- **C74, not in general.** `to_dict`, which every dump begins with, asks `present` with the context `None`: a field that is present in
version 2 of the format is left out of a dump for version 2, whether it is set or has a default, and the result cannot be loaded as
version 2. -/
theorem C74_present_refuted :
    structToBytes Sample.noClasses 5 Sample.versioned [] (.int 2) = .ok [] ∧
    structToBytes Sample.noClasses 5 Sample.versioned [("x", .int 1)] (.int 2) = .ok [] ∧
    structFromBytes Sample.noClasses 5 Sample.versioned [] (.int 2) true [] = .error (.eof (some "x") 1 0) ∧
    structToBytes (Classes.recontext (fun _ => .int 2) Sample.noClasses) 5 (Sample.versioned.recontext fun _ => .int 2)
      [("x", .int 1)] .none = .ok [1] := by
  decide +kernel

/-- And a null value is serialized with the context `None`: the union writes numbers in two bytes in version 2, but null, whose
representation is the number 7, in one. -/
theorem C74_null_refuted :
    structToBytes Sample.noClasses 8 Sample.maybeWide [("a", .int 7)] (.int 2) = .ok [0, 7] ∧
    structToBytes Sample.noClasses 8 Sample.maybeWide [("a", .none)] (.int 2) = .ok [7] := by
  decide +kernel

end Verif
