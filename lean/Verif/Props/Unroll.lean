import Verif.Proofs.Unroll
import Verif.Props.Envelope
import Verif.Props.Bare

/-!
# C125: an array of a fixed number of elements is as many fields in a row

* `C125_list`, `C125_unlist`: loading, from the class with the single fields to the one with the array and back;
* `C125_dump`, `C125_dump_unlist`: dumping;
* `C125_reference_refuted`: the other fields must not refer to the ones that become elements.
-/

namespace Verif
open Spec

/-- Loading: what loads as the class with the single fields also loads as the class with the array, from the same bytes, with the same values. -/
theorem C125_list (Γ : Classes) (n : Nat) (d d' : StructDesc) (pre : List Field) (xs : List String) (c : FieldBase) (k : Leaf) (b : FieldBase)
    (post : List Field) (hu : Unrolled d d' pre xs c k b post) (hc : ElementType c k)
    (hpost : ∀ g ∈ post, ReadsOff (fun y => y ∈ xs ∨ y = b.name) g) (hb : ∀ vs, Plain b (.list vs)) (hnd : b.discard = false)
    (ctx : Value) (s t : Stream) (vals : Dict) (h : structFromStream Γ (n + 1) d s ctx [] = (.ok vals, t)) :
    ∃ vals' vs, LoadsUnlessRejected Γ (n + xs.length + 3) d' s ctx vals' t ∧ SameElements pre xs b post vals vals' vs := by
  obtain ⟨a1, a2, a3, a4, a5, a6⟩ := hu.apart
  obtain ⟨results, hr, -, -, rfl⟩ := structFromStream_ok_iff.1 h
  rw [hu.single] at hr
  obtain ⟨m2, w, hr, h3⟩ := Loads.append.1 hr
  obtain ⟨m1, u, h1, h2⟩ := Loads.append.1 hr
  have hpre : ∀ y, y ∉ pre.map Field.name → Dict.get? m1 y = none := fun y hy => by rw [loads_frame h1 hy]; rfl
  have h0 : ∀ x ∈ xs, Dict.get? m1 x = none := fun x hx => hpre x fun hm => by
    obtain ⟨f, hf, he⟩ := List.mem_map.1 hm
    exact a1 f hf (he ▸ hx)
  have hnone : Dict.get? m1 b.name = none := hpre _ fun hm => by
    obtain ⟨f, hf, he⟩ := List.mem_map.1 hm
    exact a4 f hf he
  obtain ⟨vs, hv, hreads, rfl⟩ := (loads_singles hc m1 a6 h0).1 h2
  have hf : fieldFromStream Γ (n + xs.length + 2) (.array b (.leaf c k) (.fixed xs.length) none) u ctx m1 = (.ok (.list vs), w) := by
    refine fieldFromStream_plain (f := .array b (.leaf c k) (.fixed xs.length) none) (hb vs) ?_
    have hl := arrayLoop_of_reads (name := b.name) (m := xs.length) (ctx := ctx) (loaded := m1)
      (load := fun s => fieldFromStream Γ (n + xs.length) (.leaf c k) s ctx m1)
      (fun s v t h => element_load_there hc h) (hreads.change fun s v t h => fieldFromStream_of_le (by omega) h) (n + xs.length) [] (by simpa using hv)
      (by omega)
    simp only [fieldDoLoad, containerLoad, hl, R.map, List.nil_append]
    rfl
  have happ : ∀ y, Dict.get? (m1 ++ [(b.name, Value.list vs)]) y = if b.name = y then some (.list vs) else Dict.get? m1 y := by
    intro y
    rw [← set_of_not_mem hnone, Dict.get?_set]
  obtain ⟨r', h6, h7⟩ := loads_apart h3 (fun g hg => ⟨hpost g hg, by rintro (hx | hx); exacts [a3 g hg hx, a5 g hg hx]⟩)
    (m1 ++ [(b.name, .list vs)]) (by
      intro y hy
      rw [happ, if_neg (fun he => hy (Or.inr he.symm)), Dict.get?_append, zipped_keys (fun hx => hy (Or.inl hx))]
      simp)
  have hl' : Loads Γ (n + xs.length + 2) ctx d'.components [] s r' t := by
    rw [hu.listed]
    refine Loads.append.2 ⟨m1, u, h1.of_le (by omega), .cons hf ?_⟩
    rw [show (Field.array b (.leaf c k) (.fixed xs.length) none).name = b.name from rfl, if_pos hnone]
    exact h6.of_le (by omega)
  refine ⟨dropDiscarded d' r', vs, loadsUnlessRejected_of hl', unrolled_same hu hc hnd hv h0 (fun y hy => loads_frame h3 hy)
    (fun y hy => ?_) h7⟩
  rw [loads_frame h6 hy, happ]

/-- The converse: what loads as the class with the array also loads as the class with the single fields. -/
theorem C125_unlist (Γ : Classes) (n : Nat) (d d' : StructDesc) (pre : List Field) (xs : List String) (c : FieldBase) (k : Leaf) (b : FieldBase)
    (post : List Field) (hu : Unrolled d d' pre xs c k b post) (hc : ElementType c k)
    (hpost : ∀ g ∈ post, ReadsOff (fun y => y ∈ xs ∨ y = b.name) g) (hb : Always b) (hnd : b.discard = false)
    (ctx : Value) (s t : Stream) (vals' : Dict) (h : structFromStream Γ (n + 3) d' s ctx [] = (.ok vals', t)) :
    ∃ vals vs, LoadsUnlessRejected Γ (n + 3) d s ctx vals t ∧ SameElements pre xs b post vals vals' vs := by
  obtain ⟨a1, a2, a3, a4, a5, a6⟩ := hu.apart
  obtain ⟨r', hr, -, -, rfl⟩ := structFromStream_ok_iff.1 h
  rw [hu.listed] at hr
  obtain ⟨m1, u, h1, h2⟩ := Loads.append.1 hr
  have hpre : ∀ y, y ∉ pre.map Field.name → Dict.get? m1 y = none := fun y hy => by rw [loads_frame h1 hy]; rfl
  have h0 : ∀ x ∈ xs, Dict.get? m1 x = none := fun x hx => hpre x fun hm => by
    obtain ⟨f, hf, he⟩ := List.mem_map.1 hm
    exact a1 f hf (he ▸ hx)
  have hnone : Dict.get? m1 b.name = none := hpre _ fun hm => by
    obtain ⟨f, hf, he⟩ := List.mem_map.1 hm
    exact a4 f hf he
  cases h2 with
  | @cons _ _ _ _ v _ w _ h2 h3 =>
    rw [show (Field.array b (.leaf c k) (.fixed xs.length) none).name = b.name from rfl, if_pos hnone] at h3
    obtain ⟨vs, rfl, hv, hreads⟩ : ∃ vs, v = .list vs ∧ vs.length = xs.length ∧
        ReadsAll (fun s => fieldFromStream Γ n (.leaf c k) s ctx m1) vs u w := by
      rcases fieldFromStream_ok h2 with ⟨h4, -⟩ | ⟨-, -, ⟨h4, -⟩ | ⟨v', h4, h5⟩⟩
      · rw [show (Field.array b (.leaf c k) (.fixed xs.length) none).base = b from rfl, hb.1] at h4
        cases h4
      · rw [show (Field.array b (.leaf c k) (.fixed xs.length) none).base = b from rfl, allowNull_false hb.2] at h4
        cases h4
      · have hvv : v = v' := by
          rcases h5 with h5 | ⟨-, h5⟩
          · exact h5
          · rw [show (Field.array b (.leaf c k) (.fixed xs.length) none).base = b from rfl, allowNull_false hb.2] at h5
            cases h5
        subst hvv
        simp only [fieldDoLoad, containerLoad, R.map, Prod.mk.injEq] at h4
        obtain ⟨h4, h9⟩ := h4
        cases hl : (arrayLoop (haltCheck b.name (.fixed xs.length) none ctx m1) (fun s => fieldFromStream Γ n (.leaf c k) s ctx m1) n [] u).1 with
        | error e => rw [hl] at h4; cases h4
        | ok ws =>
          rw [hl] at h4
          cases h4
          obtain ⟨vs, h6, h7, h8⟩ := arrayLoop_reads (fun s v t h => element_load_there hc h) n [] ws u w (by simp) (by rw [← hl, ← h9])
          simp only [List.nil_append] at h6
          subst h6
          exact ⟨ws, rfl, by simpa using h7, h8⟩
    have happ : ∀ y, Dict.get? (m1 ++ [(b.name, Value.list vs)]) y = if b.name = y then some (.list vs) else Dict.get? m1 y := by
      intro y
      rw [← set_of_not_mem hnone, Dict.get?_set]
    have h4 : Loads Γ (n + 2) ctx (xs.map (singleField c k)) m1 u (m1 ++ xs.zip vs) w :=
      ((loads_singles hc m1 a6 h0).2 ⟨vs, hv, hreads, rfl⟩ : Loads Γ n ctx _ _ _ _ _).of_le (by omega)
    obtain ⟨results, h7, h8⟩ := loads_apart h3 (fun g hg => ⟨hpost g hg, by rintro (hx | hx); exacts [a3 g hg hx, a5 g hg hx]⟩)
      (m1 ++ xs.zip vs) (by
        intro y hy
        rw [happ, if_neg (fun he => hy (Or.inr he.symm)), Dict.get?_append, zipped_keys (fun hx => hy (Or.inl hx))]
        simp)
    have hl : Loads Γ (n + 2) ctx d.components [] s results t := by
      rw [hu.single]
      exact Loads.append.2 ⟨_, w, Loads.append.2 ⟨m1, u, h1, h4⟩, h7⟩
    refine ⟨dropDiscarded d results, vs, loadsUnlessRejected_of hl, unrolled_same hu hc hnd hv h0 (fun y hy => loads_frame h7 hy)
      (fun y hy => ?_) (fun y hy => (h8 y hy).symm)⟩
    rw [loads_frame h3 hy, happ]

/-- Dumping: an instance of the class with the array, of the same values, gives the same bytes. -/
theorem C125_dump (Γ : Classes) (n : Nat) (d d' : StructDesc) (pre : List Field) (xs : List String) (c : FieldBase) (k : Leaf) (b : FieldBase)
    (post : List Field) (hu : Unrolled d d' pre xs c k b post) (hc : ElementType c k)
    (hout : ∀ g ∈ pre ++ post, Unaware (fun y => y ∈ xs ∨ y = b.name) g) (hb : Always b) (hnd : b.discard = false) (hsz : b.size = .none)
    (ctx : Value) (vals vals' : Dict) (vs : List Value) (hs : SameElements pre xs b post vals vals' vs) (hv : ∀ v ∈ vs, SimpleValue v)
    (hchk : ∀ check ∈ b.validators, check (.list vs) = .ok ()) (hi : Instance d vals) (hi' : Instance d' vals')
    (hset : ∀ g ∈ d.components, Dict.get? vals g.name ≠ none) (hval : Valid d' vals') (bs : Bytes)
    (h : structToStream Γ (n + 1) d vals ctx = (bs, .ok ())) : structToStream Γ (n + 3) d' vals' ctx = (bs, .ok ()) := by
  obtain ⟨-, all, h1, ps, h2, rfl⟩ := structToStream_ok_iff.1 h
  rw [hu.single] at h2
  obtain ⟨_, zs, rfl, h2, h3⟩ := parts_append.1 h2
  obtain ⟨ws, ys, rfl, h2, h4⟩ := parts_append.1 h2
  have hmem : ∀ x ∈ xs, singleField c k x ∈ d.components := fun x hx => by
    rw [hu.single]; simp; exact .inr (.inl ⟨x, hx, rfl⟩)
  have h1' : structToDict Γ (n + 2) d vals = .ok all := (structToDict_mono Γ (show n ≤ n + 2 by omega) d vals false).of_ok h1
  have hitems : Each (fun x v => Dict.get? all x = some v) xs vs := by
    have : ∀ ys ws, Each (fun x v => Dict.get? vals x = some v) ys ws → (∀ x ∈ ys, x ∈ xs) → (∀ v ∈ ws, SimpleValue v) →
        Each (fun x v => Dict.get? all x = some v) ys ws := by
      intro ys ws he
      induction he with
      | nil => exact fun _ _ => .nil
      | @cons x v _ _ hx _ ih =>
        intro hy hw
        have hsv := hw v List.mem_cons_self
        refine .cons ?_ (ih (fun y h => hy y (List.mem_cons_of_mem _ h)) fun v h => hw v (List.mem_cons_of_mem _ h))
        exact toDict_stored (f := singleField c k x) hu.unique hi h1' (hmem x (hy x List.mem_cons_self)) hc.kept hc.always.1 hx (simple_there hsv).1
          (simple_toDicts hsv)
    exact this xs vs hs.items (fun _ h => h) hv
  have htr := unrolled_runs hu hs hout hi hi' hset
  have hnm : Field.array b (.leaf c k) (.fixed xs.length) none ∈ d'.components := by rw [hu.listed]; simp
  have hcv := full_value hi' hnm (v := .list vs) hs.list (.inr ⟨by simp, hb.1 _ _ _⟩)
  obtain ⟨all', h5⟩ := structToDict_runs_but htr (fun f hf => by
    rw [hu.listed] at hf
    rcases List.mem_append.1 hf with hf | hf
    · exact Or.inl (hout f (List.mem_append_left _ hf)).base.name
    · rcases List.mem_cons.1 hf with rfl | hf
      · exact Or.inr ⟨_, _, hcv, simple_list_toDicts hv⟩
      · exact Or.inl (hout f (List.mem_append_right _ hf)).base.name) h1'
  have ha := structToDict_agree htr h5 h1'
  have hent : Dict.get? all' b.name = some (.list vs) :=
    toDict_stored hu.unique' hi' h5 hnm hnd hb.1 hs.list (by simp) (simple_list_toDicts hv)
  have hpart : Part Γ (n + 2) ctx all' (.array b (.leaf c k) (.fixed xs.length) none) ys.flatten := by
    rw [part_iff]
    refine ⟨.list vs, compute_entry (b := b) hb hent (by simp), Or.inr ⟨by simp, ?_⟩⟩
    refine fieldToStream_plain (f := .array b (.leaf c k) (.fixed xs.length) none) (by simp) (by simp) (by simp) hchk (Or.inl hsz) ?_
    have h6 := parts_singles hc (all' := all') hitems hv ys (h4.mono (show n ≤ n + 1 by omega))
    simp only [fieldDoDump, containerDump, arrayDump, finalElementCount, arrayElements]
    rw [if_neg (by rw [hs.items.length]; simp)]
    exact h6
  refine structToStream_ok_iff.2 ⟨hval, all', h5, ws ++ ys.flatten :: zs, ?_, by simp⟩
  rw [hu.listed]
  refine parts_append.2 ⟨ws, _, rfl, Parts_runs (fun f hf => hout f (List.mem_append_left _ hf)) ha (h2.mono (by omega)), .cons hpart ?_⟩
  exact Parts_runs (fun f hf => hout f (List.mem_append_right _ hf)) ha (h3.mono (by omega))

/-- The converse. -/
theorem C125_dump_unlist (Γ : Classes) (n : Nat) (d d' : StructDesc) (pre : List Field) (xs : List String) (c : FieldBase) (k : Leaf)
    (b : FieldBase) (post : List Field) (hu : Unrolled d d' pre xs c k b post) (hc : ElementType c k)
    (hout : ∀ g ∈ pre ++ post, Unaware (fun y => y ∈ xs ∨ y = b.name) g) (hb : Always b) (hnd : b.discard = false)
    (ctx : Value) (vals vals' : Dict) (vs : List Value) (hs : SameElements pre xs b post vals vals' vs) (hv : ∀ v ∈ vs, SimpleValue v)
    (hi : Instance d vals) (hi' : Instance d' vals') (hset : ∀ g ∈ d.components, Dict.get? vals g.name ≠ none) (hval : Valid d vals) (bs : Bytes)
    (h : structToStream Γ (n + 3) d' vals' ctx = (bs, .ok ())) : structToStream Γ (n + 3) d vals ctx = (bs, .ok ()) := by
  obtain ⟨-, all', h1, ps, h2, rfl⟩ := structToStream_ok_iff.1 h
  rw [hu.listed] at h2
  obtain ⟨ws, _, rfl, hpre, h3⟩ := parts_append.1 h2
  cases h3 with
  | @cons _ _ p zs h3 h4 =>
    have hmem : ∀ x ∈ xs, singleField c k x ∈ d.components := fun x hx => by
      rw [hu.single]; simp; exact .inr (.inl ⟨x, hx, rfl⟩)
    have hnm : Field.array b (.leaf c k) (.fixed xs.length) none ∈ d'.components := by rw [hu.listed]; simp
    have hent : Dict.get? all' b.name = some (.list vs) :=
      toDict_stored hu.unique' hi' h1 hnm hnd hb.1 hs.list (by simp) (simple_list_toDicts hv)
    -- what the array wrote
    have hx : dumpAll (fun v => fieldToStream Γ (n + 1) (.leaf c k) v ctx all') vs = (p, .ok ()) := by
      rw [part_iff] at h3
      obtain ⟨z, h5, h6⟩ := h3
      rw [show (Field.array b (.leaf c k) (.fixed xs.length) none).base = b from rfl, compute_entry hb hent (by simp)] at h5
      cases h5
      rcases h6 with ⟨h6, -⟩ | ⟨-, h6⟩
      · cases h6
      · rw [fieldToStream_succ] at h6
        obtain ⟨w, hw, -, -, -, h7⟩ := toStreamWith_ok h6
        simp at hw; subst hw
        rcases h7 with ⟨h7, -⟩ | ⟨-, ser, h8, h9⟩
        · simp at h7
        · have hser : p = ser := by
            rcases finishDump_ok h9 with ⟨-, hh⟩ | ⟨k', -, ⟨-, hh⟩ | ⟨-, hh⟩⟩
            · exact hh
            · exact hh
            · simp [fieldAddPadding] at hh
          rw [hser]
          simp only [fieldDoDump, containerDump, arrayDump, finalElementCount, arrayElements] at h8
          rw [if_neg (by rw [hs.items.length]; simp)] at h8
          exact h8
    -- the class with the single fields
    have htr := unrolled_single_runs hu hs hout hi hi' hset
    obtain ⟨all, h6⟩ := structToDict_runs_but htr (fun f hf => by
      rw [hu.single, List.mem_append, List.mem_append] at hf
      rcases hf with (hf | hf) | hf
      · exact Or.inl (hout f (List.mem_append_left _ hf)).base.name
      · obtain ⟨x, hx, rfl⟩ := List.mem_map.1 hf
        obtain ⟨v, hvm, hvx⟩ := hs.items.right x hx
        exact Or.inr ⟨v, v, full_value hi (hmem x hx) hvx (.inr ⟨(simple_there (hv v hvm)).1, hc.always.1 _ _ _⟩), simple_toDicts (hv v hvm)⟩
      · exact Or.inl (hout f (List.mem_append_right _ hf)).base.name) h1
    have ha := structToDict_agree htr h6 h1
    have hitems : Each (fun x v => Dict.get? all x = some v) xs vs := by
      have : ∀ ys ws, Each (fun x v => Dict.get? vals x = some v) ys ws → (∀ x ∈ ys, x ∈ xs) → (∀ v ∈ ws, SimpleValue v) →
          Each (fun x v => Dict.get? all x = some v) ys ws := by
        intro ys ws he
        induction he with
        | nil => exact fun _ _ => .nil
        | @cons x v _ _ hx _ ih =>
          intro hy hw
          have hsv := hw v List.mem_cons_self
          refine .cons ?_ (ih (fun y h => hy y (List.mem_cons_of_mem _ h)) fun v h => hw v (List.mem_cons_of_mem _ h))
          exact toDict_stored (f := singleField c k x) hu.unique hi h6 (hmem x (hy x List.mem_cons_self)) hc.kept hc.always.1 hx
            (simple_there hsv).1 (simple_toDicts hsv)
      exact this xs vs hs.items (fun _ h => h) hv
    obtain ⟨ys, h7, rfl⟩ := parts_of_dumpAll hc hitems hv p hx
    refine structToStream_ok_iff.2 ⟨hval, all, h6, ws ++ ys ++ zs, ?_, by simp⟩
    rw [hu.single]
    exact parts_append.2 ⟨_, _, rfl, parts_append.2 ⟨_, _, rfl, Parts_runs (fun f hf => hout f (List.mem_append_left _ hf)) ha hpre,
      h7.mono (by omega)⟩, Parts_runs (fun f hf => hout f (List.mem_append_right _ hf)) ha h4⟩

/-! ### Examples -/

namespace Sample

/-- ```
class ThreeCells(Struct):
    n = UInt8()
    x = Int16(endian="little")
    y = Int16(endian="little")
    z = Int16(endian="little")
    tail = UInt8()
``` -/
def threeCells : StructDesc := (fromClass noClasses 3 { name := "ThreeCells", body :=
  [("n", .field (u8 "")), ("x", .field (i16 "")), ("y", .field (i16 "")), ("z", .field (i16 "")), ("tail", .field (u8 ""))] }).toOption.getD
    { name := "", components := [] }

/-- ```
class ListedCells(Struct):
    n = UInt8()
    cells = Array(Int16(endian="little"), count=3)
    tail = UInt8()
``` -/
def listedCells : StructDesc := (fromClass noClasses 3 { name := "ListedCells", body :=
  [("n", .field (u8 "")), ("cells", .field (array "" (i16 "") (.fixed 3))), ("tail", .field (u8 ""))] }).toOption.getD
    { name := "", components := [] }

/-- The attributes of an element. -/
def cellBase : FieldBase := (i16 "").base
/-- The attributes of `cells`. -/
def cellsBase : FieldBase := { name := "cells" }

theorem cell_type : ElementType cellBase (.integer true .little) := ⟨.inl ⟨trivial, 2, rfl⟩, ⟨fun _ _ _ => rfl, rfl⟩, rfl, rfl⟩

-- also `VariableLengthInteger(vli_format=VLQ)`
example : ElementType (vlq "").base (.varint .vlq none) := ⟨.inr ⟨⟨_, _, rfl⟩, rfl⟩, ⟨fun _ _ _ => rfl, rfl⟩, rfl, rfl⟩

theorem cells_unrolled : Unrolled threeCells.bare listedCells.bare [(u8 "n").bare] ["x", "y", "z"] cellBase (.integer true .little) cellsBase
    [(u8 "tail").bare] :=
  ⟨rfl, rfl, by unfold UniqueNames; decide, by unfold UniqueNames; decide⟩

theorem cells_out : ∀ g ∈ [(u8 "n").bare] ++ [(u8 "tail").bare],
    ReadsOff (fun y => y ∈ ["x", "y", "z"] ∨ y = cellsBase.name) g ∧ Unaware (fun y => y ∈ ["x", "y", "z"] ∨ y = cellsBase.name) g := by
  intro g hg
  simp only [List.cons_append, List.nil_append, List.mem_cons, List.not_mem_nil, or_false] at hg
  rcases hg with rfl | rfl <;>
    exact ⟨.leaf ⟨nofun, nofun, fun _ _ _ _ _ => rfl⟩ nofun,
      .leaf ⟨by decide, nofun, fun _ _ _ _ _ => rfl, nofun⟩ nofun⟩

theorem cells_same : SameElements [(u8 "n").bare] ["x", "y", "z"] cellsBase [(u8 "tail").bare]
    [("n", .int 4), ("x", .int 1), ("y", .int 2), ("z", .int (-1)), ("tail", .int 9)]
    [("n", .int 4), ("cells", .list [.int 1, .int 2, .int (-1)]), ("tail", .int 9)] [.int 1, .int 2, .int (-1)] :=
  ⟨by decide, .cons rfl (.cons rfl (.cons rfl .nil)), rfl⟩

end Sample

-- a file written with three fields is loaded as a list of three
example : ∃ vals' vs, LoadsUnlessRejected Sample.noClasses.bare 12 Sample.listedCells.bare ⟨[7, 4, 1, 0, 2, 0, 255, 255, 9, 8], 1⟩ .none vals'
      ⟨[7, 4, 1, 0, 2, 0, 255, 255, 9, 8], 9⟩ ∧
    SameElements [(Sample.u8 "n").bare] ["x", "y", "z"] Sample.cellsBase [(Sample.u8 "tail").bare]
      [("n", .int 4), ("x", .int 1), ("y", .int 2), ("z", .int (-1)), ("tail", .int 9)] vals' vs := by
  refine C125_list Sample.noClasses.bare 6 _ _ _ _ _ _ _ _ Sample.cells_unrolled Sample.cell_type
    (fun g hg => (Sample.cells_out g (List.mem_append_right _ hg)).1) (fun vs => ⟨fun _ _ _ => rfl, rfl, rfl, nofun⟩) rfl .none _ _ _ ?_
  rw [(loadBare Sample.noClasses 7).struct]
  decide +kernel

-- and back
example : ∃ vals vs, LoadsUnlessRejected Sample.noClasses.bare 9 Sample.threeCells.bare ⟨[7, 4, 1, 0, 2, 0, 255, 255, 9, 8], 1⟩ .none vals
      ⟨[7, 4, 1, 0, 2, 0, 255, 255, 9, 8], 9⟩ ∧
    SameElements [(Sample.u8 "n").bare] ["x", "y", "z"] Sample.cellsBase [(Sample.u8 "tail").bare]
      vals [("n", .int 4), ("cells", .list [.int 1, .int 2, .int (-1)]), ("tail", .int 9)] vs := by
  refine C125_unlist Sample.noClasses.bare 6 _ _ _ _ _ _ _ _ Sample.cells_unrolled Sample.cell_type
    (fun g hg => (Sample.cells_out g (List.mem_append_right _ hg)).1) ⟨fun _ _ _ => rfl, rfl⟩ rfl .none _ _ _ ?_
  rw [(loadBare Sample.noClasses 9).struct]
  decide +kernel

-- dumping both, as declared
example : structToStream Sample.noClasses 9 Sample.listedCells
    [("n", .int 4), ("cells", .list [.int 1, .int 2, .int (-1)]), ("tail", .int 9)] .none = ([4, 1, 0, 2, 0, 255, 255, 9], .ok ()) := by
  rw [← (dumpBare Sample.noClasses 9).struct]
  refine C125_dump Sample.noClasses.bare 6 _ _ _ _ _ _ _ _ Sample.cells_unrolled Sample.cell_type (fun g hg => (Sample.cells_out g hg).2)
    ⟨fun _ _ _ => rfl, rfl⟩ rfl rfl .none _ _ _ Sample.cells_same (by simp [SimpleValue]) nofun (by unfold Instance; decide)
    (by unfold Instance; decide) (by decide) (validateContents_ok_iff.1 (by decide)) _ ?_
  rw [(dumpBare Sample.noClasses 7).struct]
  decide +kernel

example : structToStream Sample.noClasses 9 Sample.threeCells
    [("n", .int 4), ("x", .int 1), ("y", .int 2), ("z", .int (-1)), ("tail", .int 9)] .none = ([4, 1, 0, 2, 0, 255, 255, 9], .ok ()) := by
  rw [← (dumpBare Sample.noClasses 9).struct]
  refine C125_dump_unlist Sample.noClasses.bare 6 _ _ _ _ _ _ _ _ Sample.cells_unrolled Sample.cell_type (fun g hg => (Sample.cells_out g hg).2)
    ⟨fun _ _ _ => rfl, rfl⟩ rfl .none _ _ _ Sample.cells_same (by simp [SimpleValue]) (by unfold Instance; decide)
    (by unfold Instance; decide) (by decide) (validateContents_ok_iff.1 (by decide)) _ ?_
  rw [(dumpBare Sample.noClasses 9).struct]
  decide +kernel

/-- **C125** needs the other fields not to refer to the ones that become elements: `payload = Bytes(size=y)` does not find `y` any more. -/
theorem C125_reference_refuted : ∃ (d d' : StructDesc) (c b : FieldBase) (k : Leaf) (s : Stream),
    Unrolled d d' [] ["x", "y"] c k b [Sample.bytesRef "payload" "y"] ∧ ElementType c k ∧
    (structFromStream Sample.noClasses 9 d s .none []).1 = .ok [("x", .int 1), ("y", .int 2), ("payload", .bytes [5, 6])] ∧
    ∃ e, (structFromStream Sample.noClasses 9 d' s .none []).1 = .error e :=
  let c : FieldBase := (Sample.u8 "").base
  let d : StructDesc := { name := "Singles", components := [(Sample.u8 "x").bare, (Sample.u8 "y").bare, Sample.bytesRef "payload" "y"],
                          fieldValidators := [("x", []), ("y", []), ("payload", [])] }
  let d' : StructDesc := { name := "Listed", components := [.array { name := "xy" } (Sample.u8 "") (.fixed 2) none, Sample.bytesRef "payload" "y"],
                           fieldValidators := [("xy", []), ("payload", [])] }
  ⟨d, d', c, { name := "xy" }, .integer false .little, ⟨[1, 2, 5, 6], 0⟩,
    ⟨rfl, rfl, by unfold UniqueNames; decide, by unfold UniqueNames; decide⟩, ⟨.inl ⟨trivial, 1, rfl⟩, ⟨fun _ _ _ => rfl, rfl⟩, rfl, rfl⟩, by decide, by
      cases h : (structFromStream Sample.noClasses 9 d' ⟨[1, 2, 5, 6], 0⟩ .none []).1 with
      | error e => exact ⟨e, rfl⟩
      | ok v =>
        have : (structFromStream Sample.noClasses 9 d' ⟨[1, 2, 5, 6], 0⟩ .none []).1.toOption = none := by decide
        rw [h] at this
        cases this⟩

end Verif
