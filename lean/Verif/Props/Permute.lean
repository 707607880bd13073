import Verif.Proofs.Permute
import Verif.Props.Unroll

/-!
# C127: the order of the fields is only the order of their bytes

* `C127_dump`: dumping;
* `C127_load`: loading;
* `C127_size`: `get_size`;
* `C127_reference_refuted`: not so for loading when a field needs another one before it.
-/

namespace Verif
open Spec

/-- Dumping: every field has its bytes, and an instance with the same values of the class with the fields in another order writes these bytes in
that order.  Fields may be computed from each other, take their size from each other, be absent, and so on. -/
theorem C127_dump (Γ : Classes) (n : Nat) (d d' : StructDesc) (hr : Reordered d d') (hb : ∀ f ∈ d.components, ByName f) (ctx : Value)
    (vals vals' : Dict) (hv : SameValues vals' vals) (hi : Instance d vals) (hi' : Instance d' vals') (hval : Valid d' vals') (bs : Bytes)
    (h : structToStream Γ n d vals ctx = (bs, .ok ())) :
    ∃ part : String → Bytes, bs = inOrder part d.components ∧ structToStream Γ n d' vals' ctx = (inOrder part d'.components, .ok ()) := by
  cases n with
  | zero => simp [structToStream, W.fail] at h
  | succ n =>
    obtain ⟨-, all, h1, ps, h2, rfl⟩ := structToStream_ok_iff.1 h
    obtain ⟨part, h3, h4⟩ := parts_by_name (by simpa [UniqueNames, names] using hr.unique) h2
    have htr := reordered_runs hr hv hi hi' hb
    obtain ⟨all', h5⟩ := structToDict_runs_but htr (fun _ _ => .inl id) h1
    have ha := structToDict_agree htr h5 h1
    refine ⟨part, h4, structToStream_ok_iff.2 ⟨hval, all', h5, _, parts_of_names fun f hf => ?_, rfl⟩⟩
    have hf' := (hr.mem f).1 hf
    exact Part_runs (hb f hf').unaware ha (h3 f hf')

/-- Loading: the bytes a struct is loaded from are the bytes of its fields, and from these bytes in another order, anywhere in any file, the class
with the fields in that order loads the same values. -/
theorem C127_load (Γ : Classes) (hΓ : MovableInside Γ) (n : Nat) (d d' : StructDesc) (hr : Reordered d d')
    (hm : ∀ f ∈ d.components, Movable Γ f) (ctx : Value) (pre rest : Bytes) (vals : Dict) (t : Stream)
    (h : structFromStream Γ n d ⟨pre ++ rest, pre.length⟩ ctx [] = (.ok vals, t)) :
    ∃ (part : String → Bytes) (post : Bytes), rest = inOrder part d.components ++ post ∧
      t = ⟨pre ++ rest, pre.length + (inOrder part d.components).length⟩ ∧
      ∀ pre' post' : Bytes, ∃ vals', SameValues vals' vals ∧
        LoadsUnlessRejected Γ n d' ⟨pre' ++ (inOrder part d'.components ++ post'), pre'.length⟩ ctx vals'
          ⟨pre' ++ (inOrder part d'.components ++ post'), pre'.length + (inOrder part d'.components).length⟩ := by
  cases n with
  | zero => simp [structFromStream] at h
  | succ n =>
    obtain ⟨results, h1, h2, -, rfl⟩ := structFromStream_ok_iff.1 h
    obtain ⟨part, value, post, rfl, rfl, h3, h4⟩ := loads_pieces hΓ hm (by simpa [UniqueNames, names] using hr.unique) (fun _ _ => rfl) h1
    refine ⟨part, post, rfl, by simp, fun pre' post' => ?_⟩
    obtain ⟨r, h5, h6⟩ := pieces_load (fs := d'.components) (fun f hf => h3 f ((hr.mem f).1 hf))
      (by simpa [UniqueNames, names] using hr.unique') pre' post' (acc := []) (fun _ _ => rfl)
    refine ⟨dropDiscarded d' r, fun y => ?_, loadsUnlessRejected_of h5⟩
    by_cases hy : y ∈ names d
    · obtain ⟨f, hf, rfl⟩ := mem_names hy
      have hf' := (hr.mem f).2 hf
      rw [dropDiscarded_get hr.unique _ hf, dropDiscarded_get hr.unique' _ hf', h4 f hf, h6 f hf']
    · have e1 : Dict.get? results y = none := by rw [loads_frame h1 hy]; rfl
      have e2 : Dict.get? r y = none := by rw [loads_frame h5 fun hx => hy ((hr.names y).1 hx)]; rfl
      rw [dropDiscarded_absent e1, dropDiscarded_absent e2]

/-- `get_size` is the same. -/
theorem C127_size (Γ : Classes) (n : Nat) (d d' : StructDesc) (hr : Reordered d d') (values : Dict) (k : Int)
    (h : structGetSize Γ n d values = .ok (some k)) : structGetSize Γ n d' values = .ok (some k) := by
  unfold structGetSize at h ⊢
  cases hs : sumSizes (fun f => fieldExpectedSize Γ n f values) d.components with
  | error e => rw [hs] at h; cases e <;> cases h
  | ok m =>
    rw [hs] at h
    rw [sumSizes_perm hr.fields.symm hs]
    exact h

/-! ### Examples -/

namespace Sample

/-- A compute function: `level + 1`. -/
def oneMore (self : View) : Except Err Value :=
  match self.get "level" with
  | .ok (.int i) => .ok (.int (i + 1))
  | .ok _ => .error .typeErr
  | .error e => .error e

/-- ```
class RowForth(Struct):
    over = UInt8()
    title = StringZ(encoding="utf-8")
    level = VariableLengthInteger(vli_format=VLQ)

    @over.computes
    def _(self): return self.level + 1
``` -/
def rowForth : StructDesc := (fromClass noClasses 3 { name := "RowForth", body :=
  [("over", .field (upd (u8 "") ({ · with computeFn := some oneMore }))), ("title", .field (strz "")), ("level", .field (vlq ""))] }).toOption.getD
    { name := "", components := [] }

/-- The same fields from the last to the first. -/
def rowBack : StructDesc := (fromClass noClasses 3 { name := "RowBack", body :=
  [("level", .field (vlq "")), ("title", .field (strz "")), ("over", .field (upd (u8 "") ({ · with computeFn := some oneMore })))] }).toOption.getD
    { name := "", components := [] }

theorem rows_reordered : Reordered rowForth.bare rowBack.bare :=
  ⟨by unfold UniqueNames; decide, List.reverse_perm rowForth.bare.components⟩

theorem row_fields : ∀ f ∈ rowForth.bare.components, ByName f ∧ Movable noClasses.bare f := by
  have hr : rowForth.bare.components =
      [(upd (u8 "over") ({ · with computeFn := some oneMore })).bare, (strz "title").bare, (vlq "level").bare] := rfl
  rw [hr]
  intro f hf
  simp only [List.mem_cons, List.not_mem_nil, or_false] at hf
  rcases hf with rfl | rfl | rfl <;>
    exact ⟨.leaf nofun, ⟨.leaf ⟨fun _ h => h rfl, nofun, fun _ _ _ _ _ => rfl⟩ nofun, nofun, .leaf nofun,
      .leaf ⟨fun _ _ _ _ _ => rfl, .inl rfl⟩ nofun, .leaf (fun _ _ _ _ _ => rfl) nofun, .leaf (by intro m hm; cases hm <;> decide)⟩⟩

end Sample

-- dumping
example : ∃ part : String → Bytes, [201, 0x61, 0, 0x81, 0x48] = inOrder part Sample.rowForth.bare.components ∧
    structToStream Sample.noClasses 9 Sample.rowBack [("title", .str [0x61]), ("level", .int 200)] .none =
      (inOrder part Sample.rowBack.bare.components, .ok ()) := by
  rw [← (dumpBare Sample.noClasses 9).struct]
  refine C127_dump Sample.noClasses.bare 9 _ _ Sample.rows_reordered (fun f hf => (Sample.row_fields f hf).1) .none
    [("level", .int 200), ("title", .str [0x61])] _ ?_ (by unfold Instance; decide) (by unfold Instance; decide)
    (validateContents_ok_iff.1 (by decide)) _ ?_
  · intro k
    simp only [Dict.get?_cons]
    by_cases h : "title" = k
    · subst h; rfl
    · by_cases h' : "level" = k <;> simp [h, h']
  · rw [(dumpBare Sample.noClasses 9).struct]
    decide +kernel

-- and what it comes to
example : structToStream Sample.noClasses 9 Sample.rowBack [("title", .str [0x61]), ("level", .int 200)] .none =
    ([0x81, 0x48, 0x61, 0, 201], .ok ()) := by decide +kernel

-- loading
example : ∃ (part : String → Bytes) (post : Bytes), [201, 0x61, 0, 0x81, 0x48, 7] = inOrder part Sample.rowForth.bare.components ++ post ∧
    ∀ pre' post' : Bytes, ∃ vals', SameValues vals' [("over", .int 201), ("title", .str [0x61]), ("level", .int 200)] ∧
      LoadsUnlessRejected Sample.noClasses.bare 9 Sample.rowBack.bare ⟨pre' ++ (inOrder part Sample.rowBack.bare.components ++ post'), pre'.length⟩
        .none vals' ⟨pre' ++ (inOrder part Sample.rowBack.bare.components ++ post'),
          pre'.length + (inOrder part Sample.rowBack.bare.components).length⟩ := by
  obtain ⟨part, post, h1, -, h2⟩ := C127_load Sample.noClasses.bare nofun 9 _ _ Sample.rows_reordered
    (fun f hf => (Sample.row_fields f hf).2) .none [9, 9] [201, 0x61, 0, 0x81, 0x48, 7]
    [("over", .int 201), ("title", .str [0x61]), ("level", .int 200)] ⟨[9, 9, 201, 0x61, 0, 0x81, 0x48, 7], 7⟩ (by
      rw [(loadBare Sample.noClasses 9).struct]
      decide +kernel)
  exact ⟨part, post, h1, h2⟩

-- sizes
example : structGetSize Sample.noClasses 9 { name := "Back", components := [Sample.u16 "b", Sample.u8 "a"] } [] = .ok (some 3) :=
  C127_size Sample.noClasses 9 { name := "Forth", components := [Sample.u8 "a", Sample.u16 "b"] } _
    ⟨by unfold UniqueNames; decide, List.reverse_perm [Sample.u8 "a", Sample.u16 "b"]⟩ [] 3 (by decide +kernel)

/-- **C127** for loading is about fields that look at no other field: a size has to come before what it is the size of.  The other order can be
dumped, but not loaded. -/
theorem C127_reference_refuted : ∃ (d d' : StructDesc) (vals : Dict),
    d.components = [Sample.u8 "n", Sample.bytesRef "data" "n"] ∧ d'.components = [Sample.bytesRef "data" "n", Sample.u8 "n"] ∧
    structToStream Sample.noClasses 9 d vals .none = ([2, 7, 8], .ok ()) ∧ structToStream Sample.noClasses 9 d' vals .none = ([7, 8, 2], .ok ()) ∧
    (structFromStream Sample.noClasses 9 d ⟨[2, 7, 8], 0⟩ .none []).1 = .ok vals ∧
    ∃ e, (structFromStream Sample.noClasses 9 d' ⟨[7, 8, 2], 0⟩ .none []).1 = .error e :=
  ⟨{ name := "Forth", components := [Sample.u8 "n", Sample.bytesRef "data" "n"] },
    { name := "Back", components := [Sample.bytesRef "data" "n", Sample.u8 "n"] }, [("n", .int 2), ("data", .bytes [7, 8])], rfl, rfl,
    by decide +kernel, by decide +kernel, by decide +kernel, _, by rfl⟩

end Verif
