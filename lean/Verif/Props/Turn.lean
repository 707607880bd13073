import Verif.Proofs.TurnDecl
import Verif.Props.Permute

/-!
# C128: the byte order of a number is only the order of its bytes

* `C128_dump`: dumping;
* `C128_load`: loading;
* `C128_declared`: `Meta.argument_defaults` with the other byte order;
* `C128_null_refuted`: not so for the bytes that stand for `None`.
-/

namespace Verif
open Spec

/-- Dumping: every field has its bytes, and with some of the numbers in the other byte order the same instance is dumped as the same bytes except
that those of these numbers are turned round. -/
theorem C128_dump (Γ : Classes) (n : Nat) (X : List String) (d d' : StructDesc) (ht : TurnedRound X d d') (ctx : Value) (vals : Dict)
    (hval : Valid d' vals) (bs : Bytes) (h : structToStream Γ n d vals ctx = (bs, .ok ())) :
    ∃ part : String → Bytes, bs = inOrder part d.components ∧
      structToStream Γ n d' vals ctx = (inOrder (turnParts X part) d'.components, .ok ()) := by
  cases n with
  | zero => simp [structToStream, W.fail] at h
  | succ n =>
    obtain ⟨-, all, h1, ps, h2, rfl⟩ := structToStream_ok_iff.1 h
    obtain ⟨part, h3, h4⟩ := parts_by_name (by simpa [UniqueNames, names] using ht.unique) h2
    refine ⟨part, h4, structToStream_ok_iff.2 ⟨hval, all, ?_, _, parts_of_names fun f hf => ?_, rfl⟩⟩
    · rw [structToDict_mapped ht.fields (base_turn X)]
      exact h1
    · rw [ht.fields] at hf
      obtain ⟨g, hg, rfl⟩ := List.mem_map.1 hf
      exact part_turn (ht.numbers g hg) (h3 g hg)

/-- Loading: the bytes a struct is loaded from are the bytes of its fields, and with those of some of the numbers turned round, anywhere in any
file, the class with these numbers in the other byte order loads the same values. -/
theorem C128_load (Γ : Classes) (n : Nat) (X : List String) (d d' : StructDesc) (ht : TurnedRound X d d') (hd : LoadsInPlace Γ d) (ctx : Value)
    (pre rest : Bytes) (vals : Dict) (t : Stream) (h : structFromStream Γ n d ⟨pre ++ rest, pre.length⟩ ctx [] = (.ok vals, t)) :
    ∃ (part : String → Bytes) (post : Bytes), rest = inOrder part d.components ++ post ∧
      t = ⟨pre ++ rest, pre.length + (inOrder part d.components).length⟩ ∧
      ∀ pre' post' : Bytes,
        LoadsUnlessRejected Γ n d' ⟨pre' ++ (inOrder (turnParts X part) d'.components ++ post'), pre'.length⟩ ctx vals
          ⟨pre' ++ (inOrder (turnParts X part) d'.components ++ post'), pre'.length + (inOrder (turnParts X part) d'.components).length⟩ := by
  cases n with
  | zero => simp [structFromStream] at h
  | succ n =>
    obtain ⟨results, h1, h2, -, rfl⟩ := structFromStream_ok_iff.1 h
    obtain ⟨part, post, rfl, rfl, h3⟩ := loads_turn hd ht.numbers (fun _ hf => hf) (by simpa [UniqueNames, names] using ht.unique)
      (fun f _ r i _ hg => by simp [Dict.get?] at hg) h1
    refine ⟨part, post, rfl, by simp, fun pre' post' => ?_⟩
    have h4 := h3 pre' post'
    rw [← ht.fields] at h4
    rw [← dropDiscarded_mapped ht.fields (base_turn X)]
    exact loadsUnlessRejected_of h4

/-- A class statement whose `Meta.argument_defaults` says the other byte order makes the class with exactly those numbers turned round that are
its own integer fields without an `endian`, and all else the same: the validators, the offsets, and so on. -/
theorem C128_declared (Γ : Classes) (hΓ : Program Γ) (n : Nat) (decl : ClassDecl) (hfresh : Γ decl.name = none) (e : Endian)
    (hm : decl.metaOpts = some [("endian", e)]) (X : List String)
    (hX : ∀ name f, (name, f) ∈ ownFields decl.body → (name ∈ X ↔ FollowsDefault f) ∧ (FollowsDefault f → FixedNumber f))
    (hX' : ∀ x ∈ X, x ∈ (ownFields decl.body).map (·.1)) (d : StructDesc) (h : fromClass Γ n decl = .ok d) :
    ∃ d', fromClass Γ n { decl with metaOpts := some [("endian", otherEnd e)] } = .ok d' ∧ TurnedRound X d d' ∧
      d'.name = d.name ∧ d'.fieldValidators = d.fieldValidators ∧ d'.structValidators = d.structValidators := by
  have hu : UniqueNames d := C58_unique_names _ (.declare hΓ hfresh h) d.name d (by simp [Classes.add])
  have key : ∀ comps fv sv mo off, fromClassWith decl comps fv sv mo off = .ok d →
      ∃ d', fromClassWith { decl with metaOpts := some [("endian", otherEnd e)] } comps fv sv mo off = .ok d' ∧ TurnedRound X d d' ∧
        d'.name = d.name ∧ d'.fieldValidators = d.fieldValidators ∧ d'.structValidators = d.structValidators := by
    intro comps fv sv mo off h
    unfold fromClassWith at h ⊢
    simp only [hm, Option.some_or, Option.getD_some] at h ⊢
    cases hc : collectAssignedFields [("endian", e)] decl.body comps off 0 with
    | error e => rw [hc] at h; cases h
    | ok r =>
      obtain ⟨out, m⟩ := r
      obtain ⟨new, rfl, h1, h3, h2⟩ := collect_turn hX (comps' := comps) rfl hc
      simp only [hc] at h
      simp only [h2]
      cases hv : bindValidators decl.body (initialValidators fv decl.body) sv with
      | error e => rw [hv] at h; cases h
      | ok r =>
        obtain ⟨fv', sv'⟩ := r
        simp only [hv, Except.ok.injEq] at h ⊢
        subst h
        have hold : ∀ f ∈ comps, f.name ∉ X := fun f hf hx => by
          obtain ⟨g, hg, he⟩ := h3 _ (hX' _ hx)
          unfold UniqueNames names at hu
          simp only [List.map_append] at hu
          exact (List.nodup_append.1 hu).2.2 _ (List.mem_map.2 ⟨f, hf, rfl⟩) _ (List.mem_map.2 ⟨g, hg, rfl⟩) he.symm
        refine ⟨_, rfl, ⟨hu, ?_, fun f hf hx => ?_⟩, rfl, rfl, rfl⟩
        · simp only [List.map_append]
          congr 1
          exact (List.map_id' comps).symm.trans (List.map_congr_left fun f hf => (turn_off (hold f hf)).symm)
        · rcases List.mem_append.1 hf with hf | hf
          · exact absurd hx (hold f hf)
          · exact h1 f hf hx
  unfold fromClass at h ⊢
  simp only at h ⊢
  split at h
  · rename_i hb
    simp only [hb]
    exact key _ _ _ _ _ h
  · rename_i base hb
    simp only [hb]
    cases hg : Γ base with
    | none => simp [hg] at h
    | some b =>
      simp only [hg] at h ⊢
      cases hs : structGetSize Γ n b [] with
      | error e => simp [hs] at h
      | ok size =>
        simp only [hs] at h ⊢
        exact key _ _ _ _ _ h
  · cases h

/-! ### Examples -/

namespace Sample

/-- ```
class Dial(Struct):
    level = Int16(endian="big")
    n = UInt16(endian="big")
    data = Bytes(size=n)
    over = UInt16(endian="big")

    @over.computes
    def _(self): return self.level + 1
``` -/
def dial : StructDesc := { name := "Dial", components :=
  [.leaf { name := "level", size := .fixed 2 } (.integer true .big), .leaf { name := "n", size := .fixed 2 } (.integer false .big), bytesRef "data" "n",
    .leaf { name := "over", size := .fixed 2, computeFn := some oneMore } (.integer false .big)] }

/-- The same with `endian="little"`. -/
def dialTurned : StructDesc := { name := "DialTurned", components :=
  [.leaf { name := "level", size := .fixed 2 } (.integer true .little), .leaf { name := "n", size := .fixed 2 } (.integer false .little),
    bytesRef "data" "n", .leaf { name := "over", size := .fixed 2, computeFn := some oneMore } (.integer false .little)] }

theorem dial_turned : TurnedRound ["level", "n", "over"] dial dialTurned :=
  ⟨by unfold UniqueNames; decide, rfl, fun f hf hx => by
    simp only [dial, List.mem_cons, List.not_mem_nil, or_false] at hf
    rcases hf with rfl | rfl | rfl | rfl
    · exact .leaf (n := 2) trivial rfl rfl
    · exact .leaf (n := 2) trivial rfl rfl
    · exact absurd hx (by decide)
    · exact .leaf (n := 2) trivial rfl rfl⟩

theorem dial_in_place : LoadsInPlace noClasses dial := by
  refine ⟨nofun, fun f hf => ?_, fun f hf r hr g hg he => ?_⟩
  · simp only [dial, List.mem_cons, List.not_mem_nil, or_false] at hf
    rcases hf with rfl | rfl | rfl | rfl <;>
      exact ⟨.leaf nofun, .leaf ⟨fun _ _ _ _ _ => rfl, .inl rfl⟩ nofun, .leaf (fun _ _ _ _ _ => rfl) nofun,
        .leaf (by intro m hm; cases hm <;> decide)⟩
  · have hrn : r = "n" := by
      simp only [dial, List.mem_cons, List.not_mem_nil, or_false] at hf
      rcases hf with rfl | rfl | rfl | rfl <;> cases hr with | leaf h => cases h <;> rfl
    subst hrn
    simp only [dial, List.mem_cons, List.not_mem_nil, or_false] at hg
    rcases hg with rfl | rfl | rfl | rfl
    · exact absurd he (by decide)
    · exact fun n s ctx loaded i t h => unsigned_loads_nonneg (by simp) h
    · exact absurd he (by decide)
    · exact absurd he (by decide)

end Sample

-- dumping
example : ∃ part : String → Bytes, [1, 0x38, 0, 3, 7, 8, 9, 1, 0x39] = inOrder part Sample.dial.components ∧
    structToStream Sample.noClasses 9 Sample.dialTurned [("level", .int 0x138), ("n", .int 3), ("data", .bytes [7, 8, 9])] .none =
      (inOrder (turnParts ["level", "n", "over"] part) Sample.dialTurned.components, .ok ()) :=
  C128_dump Sample.noClasses 9 _ _ _ Sample.dial_turned .none _ (validateContents_ok_iff.1 (by decide)) _ (by decide +kernel)

-- and what it comes to
example : structToStream Sample.noClasses 9 Sample.dialTurned [("level", .int 0x138), ("n", .int 3), ("data", .bytes [7, 8, 9])] .none =
    ([0x38, 1, 3, 0, 7, 8, 9, 0x39, 1], .ok ()) := by decide +kernel

-- loading
example : ∃ (part : String → Bytes) (post : Bytes), [1, 0x38, 0, 3, 7, 8, 9, 1, 0x39, 5] = inOrder part Sample.dial.components ++ post ∧
    ∀ pre' post' : Bytes, LoadsUnlessRejected Sample.noClasses 9 Sample.dialTurned
      ⟨pre' ++ (inOrder (turnParts ["level", "n", "over"] part) Sample.dialTurned.components ++ post'), pre'.length⟩ .none
      [("level", .int 0x138), ("n", .int 3), ("data", .bytes [7, 8, 9]), ("over", .int 0x139)]
      ⟨pre' ++ (inOrder (turnParts ["level", "n", "over"] part) Sample.dialTurned.components ++ post'),
        pre'.length + (inOrder (turnParts ["level", "n", "over"] part) Sample.dialTurned.components).length⟩ := by
  obtain ⟨part, post, h1, -, h2⟩ := C128_load Sample.noClasses 9 _ _ _ Sample.dial_turned Sample.dial_in_place .none
    [9, 9] [1, 0x38, 0, 3, 7, 8, 9, 1, 0x39, 5] [("level", .int 0x138), ("n", .int 3), ("data", .bytes [7, 8, 9]), ("over", .int 0x139)]
    ⟨[9, 9, 1, 0x38, 0, 3, 7, 8, 9, 1, 0x39, 5], 11⟩ (by decide +kernel)
  exact ⟨part, post, h1, h2⟩

-- and what it comes to
example : (structFromStream Sample.noClasses 9 Sample.dialTurned ⟨[0x38, 1, 3, 0, 7, 8, 9, 0x39, 1], 0⟩ .none []).1 =
    .ok [("level", .int 0x138), ("n", .int 3), ("data", .bytes [7, 8, 9]), ("over", .int 0x139)] := by decide +kernel

/-- ```
class Steered(Struct):
    class Meta:
        argument_defaults = {"endian": "big"}
    a = Int32()
    c = UInt32(endian="little")
    d = Array(UInt16(), count=1)
    e = UInt16()
``` -/
def Sample.steeredDecl : ClassDecl :=
  { name := "Steered", metaOpts := some [("endian", .big)]
    body := [("a", .field (.leaf { typeName := "Int32", size := .fixed 4 } (.integer true .little))),
      ("c", .field (.leaf { typeName := "UInt32", size := .fixed 4, explicit := ["endian"] } (.integer false .little))),
      ("d", .field (.array { typeName := "Array", size := .fixed 2 }
        (.leaf { typeName := "UInt16", size := .fixed 2 } (.integer false .little)) (.fixed 1) none)),
      ("e", .field (.leaf { typeName := "UInt16", size := .fixed 2 } (.integer false .little)))] }

-- declaring: of the four fields, those without an `endian` of their own
example : ∃ d d', fromClass Sample.noClasses 3 Sample.steeredDecl = .ok d ∧
    fromClass Sample.noClasses 3 { Sample.steeredDecl with metaOpts := some [("endian", .little)] } = .ok d' ∧ TurnedRound ["a", "e"] d d' ∧
    d.components.map Field.name = ["a", "c", "d", "e"] := by
  obtain ⟨d', h1, h2, -⟩ := C128_declared Sample.noClasses .empty 3 Sample.steeredDecl rfl .big rfl ["a", "e"] (by
    intro name f hf
    simp only [Sample.steeredDecl, ownFields, List.mem_cons, List.not_mem_nil, or_false, Prod.mk.injEq] at hf
    rcases hf with ⟨rfl, rfl⟩ | ⟨rfl, rfl⟩ | ⟨rfl, rfl⟩ | ⟨rfl, rfl⟩
    · exact ⟨⟨fun _ => ⟨_, _, _, rfl, by simp⟩, fun _ => by simp⟩, fun _ => .leaf (n := 4) trivial rfl rfl⟩
    · exact ⟨⟨fun h => absurd h (by decide), fun ⟨_, _, _, h1, h2⟩ => by cases h1; simp at h2⟩, fun ⟨_, _, _, h1, h2⟩ => by cases h1; simp at h2⟩
    · exact ⟨⟨fun h => absurd h (by decide), fun ⟨_, _, _, h1, _⟩ => by cases h1⟩, fun ⟨_, _, _, h1, _⟩ => by cases h1⟩
    · exact ⟨⟨fun _ => ⟨_, _, _, rfl, by simp⟩, fun _ => by simp⟩, fun _ => .leaf (n := 2) trivial rfl rfl⟩) (by decide) _ rfl
  exact ⟨_, d', rfl, h1, h2, rfl⟩

/-- **C128** is about numbers that are never `None`: bytes given as `null_value` are written as they are in either byte order. -/
theorem C128_null_refuted : ∃ (b : FieldBase) (part : Bytes), b.size = .fixed 2 ∧ part ≠ part.reverse ∧
    ∀ e, structToStream Sample.noClasses 9 { name := "", components := [.leaf b (.integer false e)] } [("n", .none)] .none = (part, .ok ()) :=
  ⟨{ name := "n", size := .fixed 2, nullValue := .bytes [1, 2] }, [1, 2], rfl, by decide, fun e => by cases e <;> decide +kernel⟩

end Verif
