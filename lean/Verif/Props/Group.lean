import Verif.Proofs.Group
import Verif.Props.Envelope
import Verif.Props.Bare

/-!
# C122: fields can be put together in a nested struct

* `C122_group`, `C122_inline`: loading, from the class with the single fields to the one with the nested struct and back;
* `C122_dump`, `C122_dump_inline`: dumping;
* `C122_reference_refuted`: the fields that are put together must not refer to fields that stay outside.

The records of the fields are taken to be the same in both classes.  Their offsets and indices are not, but do not matter (C123): the theorems
are applied to `bare` classes, as in the examples.
-/

namespace Verif
open Spec

/-- Loading: what loads as the class with the single fields also loads as the class with the nested struct, from the same bytes, with the same
values.  The fields that are put together may only look at one another, and the later ones not at them; the class of the nested struct has
no further validators, and those of the new class may still object. -/
theorem C122_group (Γ : Classes) (n : Nat) (d d' inner : StructDesc) (pre mid post : List Field) (b : FieldBase) (cls : String)
    (hg : Grouped Γ d d' inner pre mid post b cls) (hmid : ∀ g ∈ mid, ReadsOff (· ∈ pre.map Field.name) g)
    (hpost : ∀ g ∈ post, ReadsOff (fun k => k ∈ mid.map Field.name ∨ k = b.name) g) (hb : ∀ iv, Plain b (.struct cls iv))
    (hnd : b.discard = false) (hl : Lenient inner) (ctx : Value) (s t : Stream) (vals : Dict)
    (h : structFromStream Γ (n + 1) d s ctx [] = (.ok vals, t)) :
    ∃ vals' iv, LoadsUnlessRejected Γ (n + 4) d' s ctx vals' t ∧ SameData pre mid post b cls vals vals' iv := by
  obtain ⟨a1, a2, a3, a4, a5, a6⟩ := hg.apart
  obtain ⟨results, hr, -, -, rfl⟩ := structFromStream_ok_iff.1 h
  rw [hg.flat] at hr
  obtain ⟨m2, w, hr, h3⟩ := Loads.append.1 hr
  obtain ⟨m1, u, h1, h2⟩ := Loads.append.1 hr
  have hS1 : ∀ g ∈ mid, ReadsOff (· ∈ pre.map Field.name) g ∧ g.name ∉ pre.map Field.name := by
    intro g hgm
    refine ⟨hmid g hgm, fun hx => ?_⟩
    obtain ⟨f, hf, he⟩ := List.mem_map.1 hx
    exact a1 f hf g hgm he
  obtain ⟨ri, h4, h5⟩ := loads_apart h2 hS1 [] (by
    intro k hk
    rw [loads_frame h1 hk])
  have hin : structFromStream Γ (n + 1) inner u ctx [] = (.ok (dropDiscarded inner ri), w) := by
    have hk : ∀ k, k ∈ Dict.keys ri ↔ k ∈ names inner := by
      intro k
      rw [h4.keys k, names, hg.fields]
      simp [Dict.keys]
    refine structFromStream_ok_iff.2 ⟨ri, by rw [hg.fields]; exact h4, fun k => (hk k).1, hl ri ?_, rfl⟩
    intro k hkn hx
    exact (Dict.get?_none_iff _ _).1 hx ((hk k).2 hkn)
  have hf : fieldFromStream Γ (n + 3) (.nested b cls) u ctx m1 = (.ok (.struct cls (dropDiscarded inner ri)), w) :=
    C42_nested_load Γ (n + 1) b cls inner u w _ ctx m1 hg.defined (hb _) hin
  have hnone : Dict.get? m1 b.name = none := by
    rw [loads_frame h1 (by intro hx; obtain ⟨f, hf, he⟩ := List.mem_map.1 hx; exact a4 f hf he)]
    rfl
  have happ : ∀ k, Dict.get? (m1 ++ [(b.name, Value.struct cls (dropDiscarded inner ri))]) k =
      if b.name = k then some (.struct cls (dropDiscarded inner ri)) else Dict.get? m1 k := by
    intro k
    rw [← set_of_not_mem hnone, Dict.get?_set]
  have hS2 : ∀ g ∈ post, ReadsOff (fun k => k ∈ mid.map Field.name ∨ k = b.name) g ∧ ¬ (g.name ∈ mid.map Field.name ∨ g.name = b.name) := by
    intro g hgp
    refine ⟨hpost g hgp, ?_⟩
    rintro (hx | hx)
    · obtain ⟨f, hf, he⟩ := List.mem_map.1 hx
      exact a3 f hf g hgp he
    · exact a5 g hgp hx
  obtain ⟨r', h6, h7⟩ := loads_apart h3 hS2 (m1 ++ [(b.name, .struct cls (dropDiscarded inner ri))]) (by
    intro k hk
    rw [happ, if_neg (fun he => hk (Or.inr he.symm)), loads_frame h2 (fun hx => hk (Or.inl hx))])
  have hl' : Loads Γ (n + 3) ctx d'.components [] s r' t := by
    rw [hg.grouped]
    refine Loads.append.2 ⟨m1, u, h1.of_le (by omega), .cons hf ?_⟩
    rw [show (Field.nested b cls).name = b.name from rfl, if_pos hnone]
    exact h6.of_le (by omega)
  refine ⟨dropDiscarded d' r', dropDiscarded inner ri, loadsUnlessRejected_of hl', grouped_same hg hnd (m1 := m1) (m2 := m2)
    (fun k hk => loads_frame h3 hk) (fun k hk => loads_frame h2 hk) h5 (fun k hk => ?_) h7⟩
  rw [loads_frame h6 hk, happ]

/-- The converse: what loads as the class with the nested struct also loads as the class with the single fields. -/
theorem C122_inline (Γ : Classes) (n : Nat) (d d' inner : StructDesc) (pre mid post : List Field) (b : FieldBase) (cls : String)
    (hg : Grouped Γ d d' inner pre mid post b cls) (hmid : ∀ g ∈ mid, ReadsOff (· ∈ pre.map Field.name) g)
    (hpost : ∀ g ∈ post, ReadsOff (fun k => k ∈ mid.map Field.name ∨ k = b.name) g) (hb : Always b) (hnd : b.discard = false)
    (ctx : Value) (s t : Stream) (vals' : Dict) (h : structFromStream Γ (n + 4) d' s ctx [] = (.ok vals', t)) :
    ∃ vals iv, LoadsUnlessRejected Γ (n + 4) d s ctx vals t ∧ SameData pre mid post b cls vals vals' iv := by
  obtain ⟨a1, a2, a3, a4, a5, a6⟩ := hg.apart
  obtain ⟨r', hr, -, -, rfl⟩ := structFromStream_ok_iff.1 h
  rw [hg.grouped] at hr
  obtain ⟨m1, u, h1, h2⟩ := Loads.append.1 hr
  have hnone : Dict.get? m1 b.name = none := by
    rw [loads_frame h1 (by intro hx; obtain ⟨f, hf, he⟩ := List.mem_map.1 hx; exact a4 f hf he)]
    rfl
  cases h2 with
  | @cons _ _ _ _ v _ w _ h2 h3 =>
    rw [show (Field.nested b cls).name = b.name from rfl, if_pos hnone] at h3
    obtain ⟨iv, rfl, hin⟩ := C42_nested_load_only Γ (n + 1) b cls inner u w v ctx m1 hg.defined hb.2 (hb.1 _ _ _) h2
    obtain ⟨ri, h4, -, -, rfl⟩ := structFromStream_ok_iff.1 hin
    rw [hg.fields] at h4
    have happ : ∀ k, Dict.get? (m1 ++ [(b.name, Value.struct cls (dropDiscarded inner ri))]) k =
        if b.name = k then some (.struct cls (dropDiscarded inner ri)) else Dict.get? m1 k := by
      intro k
      rw [← set_of_not_mem hnone, Dict.get?_set]
    have hS1 : ∀ g ∈ mid, ReadsOff (· ∈ pre.map Field.name) g ∧ g.name ∉ pre.map Field.name := by
      intro g hgm
      refine ⟨hmid g hgm, fun hx => ?_⟩
      obtain ⟨f, hf, he⟩ := List.mem_map.1 hx
      exact a1 f hf g hgm he
    have hS2 : ∀ g ∈ post, ReadsOff (fun k => k ∈ mid.map Field.name ∨ k = b.name) g ∧ ¬ (g.name ∈ mid.map Field.name ∨ g.name = b.name) := by
      intro g hgp
      refine ⟨hpost g hgp, ?_⟩
      rintro (hx | hx)
      · obtain ⟨f, hf, he⟩ := List.mem_map.1 hx
        exact a3 f hf g hgp he
      · exact a5 g hgp hx
    obtain ⟨m2, h5, h6⟩ := loads_apart h4 hS1 m1 (by
      intro k hk
      rw [loads_frame h1 hk])
    obtain ⟨results, h7, h8⟩ := loads_apart h3 hS2 m2 (by
      intro k hk
      rw [happ, if_neg (fun he => hk (Or.inr he.symm)), loads_frame h5 (fun hx => hk (Or.inl hx))])
    have hl : Loads Γ (n + 3) ctx d.components [] s results t := by
      rw [hg.flat]
      exact Loads.append.2 ⟨m2, w, Loads.append.2 ⟨m1, u, h1, h5.of_le (by omega)⟩, h7⟩
    refine ⟨dropDiscarded d results, dropDiscarded inner ri, loadsUnlessRejected_of hl, grouped_same hg hnd (m1 := m1) (m2 := m2)
      (fun k hk => loads_frame h7 hk) (fun k hk => loads_frame h5 hk) (fun k hk => (h6 k hk).symm) (fun k hk => ?_)
      (fun k hk => (h8 k hk).symm)⟩
    rw [loads_frame h3 hk, happ]

/-- Dumping: two instances with the same data, of the class with the single fields and of the class with the nested struct, are dumped to the same
bytes.  The fields that are put together and the others do not look at each other, all of them are set, and the nested struct can be rebuilt from
its dictionary, which is how it is dumped. -/
theorem C122_dump (Γ : Classes) (n : Nat) (d d' inner : StructDesc) (pre mid post : List Field) (b : FieldBase) (cls : String)
    (hg : Grouped Γ d d' inner pre mid post b cls) (hmid : ∀ g ∈ mid, Unaware (· ∈ (pre ++ post).map Field.name) g)
    (hout : ∀ g ∈ pre ++ post, Unaware (fun k => k ∈ mid.map Field.name ∨ k = b.name) g) (hb : Always b) (hnd : b.discard = false)
    (hchk : ∀ c ∈ b.validators, ∀ T, c (.dict T) = .ok ()) (ctx : Value) (vals vals' iv : Dict) (hs : SameData pre mid post b cls vals vals' iv)
    (hi : Instance d vals) (hi' : Instance d' vals') (hset : ∀ g ∈ d.components, Dict.get? vals g.name ≠ none) (hr : Rebuilds Γ n inner iv)
    (hval : Valid d' vals') (hvi : Valid inner iv)
    (hsize : b.size = .none ∨ ∀ x, structToStream Γ (n + 1) inner iv ctx = (x, .ok ()) → b.size = .fixed x.length)
    (bs : Bytes) (h : structToStream Γ (n + 1) d vals ctx = (bs, .ok ())) :
    structToStream Γ (n + 3) d' vals' ctx = (bs, .ok ()) := by
  obtain ⟨-, all, h1, ps, h2, rfl⟩ := structToStream_ok_iff.1 h
  rw [hg.flat] at h2
  obtain ⟨_, zs, rfl, h2, h3⟩ := parts_append.1 h2
  obtain ⟨xs, ys, rfl, h2, h4⟩ := parts_append.1 h2
  -- the nested struct
  have htrI := grouped_inner_runs hg hs hmid hi hr.2.1 hset
  obtain ⟨T, hT⟩ := structToDict_runs_but htrI (fun f hf => Or.inl (by rw [hg.fields] at hf; exact (hmid f hf).base.name)) h1
  have hx : structToStream Γ (n + 1) inner iv ctx = (ys.flatten, .ok ()) :=
    structToStream_ok_iff.2 ⟨hvi, T, hT, ys, by rw [hg.fields]; exact Parts_runs hmid (structToDict_agree htrI hT h1) h4, rfl⟩
  obtain ⟨T', hT', hdump⟩ := nested_written hg.defined hr hx
  -- the class around it
  have h1' : structToDict Γ (n + 2) d vals = .ok all := (structToDict_mono Γ (show n ≤ n + 2 by omega) d vals false).of_ok h1
  have htr := grouped_outer_runs hg hs hout hi hi' hset
  have hnm : Field.nested b cls ∈ d'.components := by rw [hg.grouped]; simp
  have hc := full_value hi' hnm (v := .struct cls iv) hs.nested (.inr ⟨by simp, hb.1 _ _ _⟩)
  obtain ⟨all', h5⟩ := structToDict_runs_but htr (fun f hf => by
    rw [hg.grouped] at hf
    rcases List.mem_append.1 hf with hf | hf
    · exact Or.inl (hout f (List.mem_append_left _ hf)).base.name
    · rcases List.mem_cons.1 hf with rfl | hf
      · exact Or.inr ⟨_, _, hc, hT'⟩
      · exact Or.inl (hout f (List.mem_append_right _ hf)).base.name) h1'
  have ha := structToDict_agree htr h5 h1'
  have hent : Dict.get? all' b.name = some (.dict T') :=
    toDict_stored hg.unique' hi' h5 hnm hnd hb.1 hs.nested (by simp) hT'
  have hpart : Part Γ (n + 2) ctx all' (.nested b cls) ys.flatten := by
    rw [part_iff]
    refine ⟨.dict T', compute_entry (b := b) hb hent (by simp), Or.inr ⟨by simp, ?_⟩⟩
    refine fieldToStream_plain (f := .nested b cls) (by simp) (by simp) (by simp) (fun c hc => hchk c hc T') ?_ (hdump b all')
    rcases hsize with hs | hs
    · exact Or.inl hs
    · exact Or.inr (Or.inl (hs _ hx))
  refine structToStream_ok_iff.2 ⟨hval, all', h5, xs ++ ys.flatten :: zs, ?_, by simp⟩
  rw [hg.grouped]
  refine parts_append.2 ⟨xs, _, rfl, Parts_runs (fun f hf => hout f (List.mem_append_left _ hf)) ha (h2.mono (by omega)), .cons hpart ?_⟩
  exact Parts_runs (fun f hf => hout f (List.mem_append_right _ hf)) ha (h3.mono (by omega))

/-- The converse, for fields `mid` that are never left out or discarded. -/
theorem C122_dump_inline (Γ : Classes) (n : Nat) (d d' inner : StructDesc) (pre mid post : List Field) (b : FieldBase) (cls : String)
    (hg : Grouped Γ d d' inner pre mid post b cls) (hmid : ∀ g ∈ mid, Unaware (· ∈ (pre ++ post).map Field.name) g)
    (hout : ∀ g ∈ pre ++ post, Unaware (fun k => k ∈ mid.map Field.name ∨ k = b.name) g) (hb : Always b) (hnd : b.discard = false)
    (ctx : Value) (vals vals' iv : Dict) (hs : SameData pre mid post b cls vals vals' iv)
    (hi : Instance d vals) (hi' : Instance d' vals') (hset : ∀ g ∈ d.components, Dict.get? vals g.name ≠ none)
    (hall : ∀ g ∈ mid, (∀ w c s, g.base.present w c s = .ok true) ∧ g.base.discard = false ∧ Dict.get? vals g.name ≠ some .undefined)
    (hr : Rebuilds Γ (n + 1) inner iv) (hval : Valid d vals) (hvi : Valid inner iv)
    (bs : Bytes) (h : structToStream Γ (n + 3) d' vals' ctx = (bs, .ok ())) :
    structToStream Γ (n + 3) d vals ctx = (bs, .ok ()) := by
  obtain ⟨-, all', h1, ps, h2, rfl⟩ := structToStream_ok_iff.1 h
  rw [hg.grouped] at h2
  obtain ⟨xs, _, rfl, hpre, h3⟩ := parts_append.1 h2
  cases h3 with
  | @cons _ _ p zs h3 h4 =>
    obtain ⟨hui, hii, hr⟩ := hr
    have hnm : Field.nested b cls ∈ d'.components := by rw [hg.grouped]; simp
    have hc := full_value hi' hnm (v := .struct cls iv) hs.nested (.inr ⟨by simp, hb.1 _ _ _⟩)
    -- the dictionary of the nested struct
    obtain ⟨T, hT, hent⟩ : ∃ T, structToDict Γ (n + 1) inner iv = .ok T ∧ Dict.get? all' b.name = some (.dict T) := by
      rcases (structToDict_get hg.unique' hi' h1).2.2 _ hnm with ⟨-, h5, -⟩ | ⟨-, v, w, h5, h6, h7⟩
      · rw [show (Field.nested b cls).base = b from rfl, hnd] at h5; cases h5
      · have hv : v = .struct cls iv := by
          rcases h5 with h5 | ⟨e, h5, -⟩
          · rw [hc] at h5; cases h5; rfl
          · rw [hc] at h5; cases h5
        rw [hv, recursiveToDicts] at h6
        simp only [hg.defined] at h6
        unfold structToDict
        cases hsh : toDictShallow inner iv false with
        | error e => rw [hsh] at h6; cases h6
        | ok dct =>
          rw [hsh] at h6
          simp only at h6 ⊢
          cases hm : mapDictE (recursiveToDicts Γ (n + 1)) dct with
          | error e => rw [hm] at h6; cases h6
          | ok T => rw [hm] at h6; cases h6; exact ⟨T, rfl, h7⟩
    obtain ⟨hr1, hr2, hr3⟩ := hr T hT
    obtain ⟨hinit, -⟩ := C93_rebuild hui hii hT hr1 hr2
    have hsame := C93_same_bytes (ctx := ctx) hui hii hT hr1 hr2 (validateContents_ok_iff.2 hvi) hr3
    -- what the nested struct wrote
    have hx : structToStream Γ (n + 2) inner iv ctx = (p, .ok ()) := by
      rw [part_iff] at h3
      obtain ⟨z, h5, h6⟩ := h3
      rw [show (Field.nested b cls).base = b from rfl, compute_entry hb hent (by simp)] at h5
      cases h5
      rcases h6 with ⟨h6, -⟩ | ⟨-, h6⟩
      · cases h6
      · rw [fieldToStream_succ] at h6
        obtain ⟨w, hw, -, -, -, h7⟩ := toStreamWith_ok h6
        simp at hw; subst hw
        rcases h7 with ⟨h7, -⟩ | ⟨-, ser, h8, h9⟩
        · simp at h7
        · have hser : p = ser := by
            rcases finishDump_ok h9 with ⟨-, hh⟩ | ⟨k', -, ⟨-, hh⟩ | ⟨-, hh⟩⟩
            · exact hh
            · exact hh
            · simp [fieldAddPadding] at hh
          rw [hser, ← hsame]
          simp only [fieldDoDump, containerDump, dumpNew, hg.defined, hinit] at h8
          exact structToStream_of_le (by omega) h8
    obtain ⟨-, T2, hT2, ys, h5, rfl⟩ := structToStream_ok_iff.1 hx
    rw [hT] at hT2
    cases hT2
    rw [hg.fields] at h5
    -- the flat struct
    have htr := grouped_flat_runs hg hs hout hi hi' hset
    have htrI := grouped_inner_runs hg hs hmid hi hii hset
    obtain ⟨all, h6⟩ := structToDict_runs_but htr (fun f hf => by
      by_cases hS : f ∈ mid
      · right
        obtain ⟨hp, hd, hun⟩ := hall f hS
        cases hv : Dict.get? vals f.name with
        | none => exact absurd hv (hset f hf)
        | some v =>
          have hun : v ≠ .undefined := by rintro rfl; exact hun hv
          refine ⟨v, ?_⟩
          have hfi : f ∈ inner.components := by rw [hg.fields]; exact hS
          have hci := full_value hii hfi (v := v) (by rw [hs.inside f hS, hv]) (.inr ⟨hun, hp _ _ _⟩)
          rcases (structToDict_get hui hii hT).2.2 f hfi with ⟨-, h7, -⟩ | ⟨-, v', w, h7, h8, -⟩
          · rw [hd] at h7; cases h7
          · have hv' : v' = v := by
              rcases h7 with h7 | ⟨e, h7, -⟩
              · rw [hci] at h7; cases h7; rfl
              · rw [hci] at h7; cases h7
            rw [hv'] at h8
            exact ⟨w, full_value hi hf hv (.inr ⟨hun, hp _ _ _⟩), (recursiveToDicts_mono Γ (by omega) v).of_ok h8⟩
      · left
        rw [hg.flat, List.mem_append, List.mem_append] at hf
        rcases hf with (hf | hf) | hf
        · exact (hout f (List.mem_append_left _ hf)).base.name
        · exact absurd hf hS
        · exact (hout f (List.mem_append_right _ hf)).base.name) h1
    have ha := structToDict_agree htr h6 h1
    have hT3 : structToDict Γ (n + 2) inner iv = .ok T := (structToDict_mono Γ (show n + 1 ≤ n + 2 by omega) inner iv false).of_ok hT
    have haI := structToDict_agree htrI hT3 h6
    refine structToStream_ok_iff.2 ⟨hval, all, h6, xs ++ ys ++ zs, ?_, by simp⟩
    rw [hg.flat]
    refine parts_append.2 ⟨_, _, rfl, parts_append.2 ⟨_, _, rfl, Parts_runs (fun f hf => hout f (List.mem_append_left _ hf)) ha hpre, ?_⟩,
      Parts_runs (fun f hf => hout f (List.mem_append_right _ hf)) ha h4⟩
    exact Parts_runs hmid (fun k hk => (haI k hk).symm) (h5.mono (by omega))

/-! ### Examples -/

namespace Sample

/-- ```
class FlatLetter(Struct):
    n = UInt8()
    x = Int16(endian="little")
    y = Int16(endian="little")
    tail = UInt8()
``` -/
def flatLetter : StructDesc := (fromClass pointOnly 3 { name := "FlatLetter", body :=
  [("n", .field (u8 "")), ("x", .field (i16 "")), ("y", .field (i16 "")), ("tail", .field (u8 ""))] }).toOption.getD { name := "", components := [] }

/-- ```
class GroupedLetter(Struct):
    n = UInt8()
    body = Nested(Point)
    tail = UInt8()
``` -/
def groupedLetter : StructDesc := (fromClass pointOnly 3 { name := "GroupedLetter", body :=
  [("n", .field (u8 "")), ("body", .field (nested "" "Point")), ("tail", .field (u8 ""))] }).toOption.getD { name := "", components := [] }

/-- The attributes of `body`. -/
def groupedBody : FieldBase := { name := "body" }

theorem letter_grouped : Grouped pointOnly.bare flatLetter.bare groupedLetter.bare point.bare [(u8 "n").bare] [(i16 "x").bare, (i16 "y").bare]
    [(u8 "tail").bare] groupedBody "Point" :=
  ⟨rfl, rfl, rfl, rfl, by unfold UniqueNames; decide, by unfold UniqueNames; decide⟩

theorem grouped_mid : ∀ g ∈ [(i16 "x").bare, (i16 "y").bare], ReadsOff (· ∈ [(u8 "n").bare].map Field.name) g ∧
    Unaware (· ∈ ([(u8 "n").bare] ++ [(u8 "tail").bare]).map Field.name) g := by
  intro g hg
  simp only [List.mem_cons, List.not_mem_nil, or_false] at hg
  rcases hg with rfl | rfl <;>
    exact ⟨.leaf ⟨nofun, nofun, fun _ _ _ _ _ => rfl⟩ nofun,
      .leaf ⟨by decide, nofun, fun _ _ _ _ _ => rfl, nofun⟩ nofun⟩

theorem grouped_out : ∀ g ∈ [(u8 "n").bare] ++ [(u8 "tail").bare],
    ReadsOff (fun k => k ∈ [(i16 "x").bare, (i16 "y").bare].map Field.name ∨ k = groupedBody.name) g ∧
    Unaware (fun k => k ∈ [(i16 "x").bare, (i16 "y").bare].map Field.name ∨ k = groupedBody.name) g := by
  intro g hg
  simp only [List.cons_append, List.nil_append, List.mem_cons, List.not_mem_nil, or_false] at hg
  rcases hg with rfl | rfl <;>
    exact ⟨.leaf ⟨nofun, nofun, fun _ _ _ _ _ => rfl⟩ nofun,
      .leaf ⟨by decide, nofun, fun _ _ _ _ _ => rfl, nofun⟩ nofun⟩

theorem point_lenient : Lenient point.bare := by
  intro vals hv
  have key : ∀ k ∈ ["x", "y"], ∃ v, structGetItem point.bare vals k = .ok v := by
    intro k hk
    cases hg : Dict.get? vals k with
    | none => exact absurd hg (hv k hk)
    | some v =>
      simp only [List.mem_cons, List.not_mem_nil, or_false] at hk
      refine ⟨v, ?_⟩
      rcases hk with rfl | rfl
      · exact structGetItem_some (show _ ∈ ["x", "y"] by simp) hg
      · exact structGetItem_some (show _ ∈ ["x", "y"] by simp) hg
  refine ⟨?_, by intro m hm; cases hm⟩
  intro p hp
  have hp' : p = ("x", []) ∨ p = ("y", []) := by
    have : p ∈ [("x", []), ("y", [])] := hp
    simpa only [List.mem_cons, List.not_mem_nil, or_false] using this
  rcases hp' with rfl | rfl
  · obtain ⟨v, hv⟩ := key "x" (by simp)
    exact ⟨(i16 "x").bare, v, rfl, hv, (by intro c hc; cases hc), by intro m hm; cases hm⟩
  · obtain ⟨v, hv⟩ := key "y" (by simp)
    exact ⟨(i16 "y").bare, v, rfl, hv, (by intro c hc; cases hc), by intro m hm; cases hm⟩

end Sample

-- non-vacuity: from single fields to a nested struct, in the middle of a file
example : ∃ vals' iv, LoadsUnlessRejected Sample.pointOnly.bare 9 Sample.groupedLetter.bare ⟨[7, 7, 4, 1, 0, 2, 0, 9, 8], 2⟩ .none vals'
      ⟨[7, 7, 4, 1, 0, 2, 0, 9, 8], 8⟩ ∧
    SameData [(Sample.u8 "n").bare] [(Sample.i16 "x").bare, (Sample.i16 "y").bare] [(Sample.u8 "tail").bare] Sample.groupedBody "Point"
      [("n", .int 4), ("x", .int 1), ("y", .int 2), ("tail", .int 9)] vals' iv := by
  refine C122_group Sample.pointOnly.bare 5 _ _ _ _ _ _ _ _ Sample.letter_grouped (fun g hg => (Sample.grouped_mid g hg).1)
    (fun g hg => (Sample.grouped_out g (List.mem_append_right _ hg)).1) (fun iv => ⟨fun _ _ _ => rfl, rfl, rfl, nofun⟩) rfl Sample.point_lenient
    .none _ _ _ ?_
  rw [(loadBare Sample.pointOnly 6).struct]
  decide +kernel

-- and back
example : ∃ vals iv, LoadsUnlessRejected Sample.pointOnly.bare 9 Sample.flatLetter.bare ⟨[7, 7, 4, 1, 0, 2, 0, 9, 8], 2⟩ .none vals
      ⟨[7, 7, 4, 1, 0, 2, 0, 9, 8], 8⟩ ∧
    SameData [(Sample.u8 "n").bare] [(Sample.i16 "x").bare, (Sample.i16 "y").bare] [(Sample.u8 "tail").bare] Sample.groupedBody "Point"
      vals [("n", .int 4), ("body", .struct "Point" [("x", .int 1), ("y", .int 2)]), ("tail", .int 9)] iv := by
  refine C122_inline Sample.pointOnly.bare 5 _ _ _ _ _ _ _ _ Sample.letter_grouped (fun g hg => (Sample.grouped_mid g hg).1)
    (fun g hg => (Sample.grouped_out g (List.mem_append_right _ hg)).1) ⟨fun _ _ _ => rfl, rfl⟩ rfl .none _ _ _ ?_
  rw [(loadBare Sample.pointOnly 9).struct]
  decide +kernel

theorem Sample.letters_same : SameData [(Sample.u8 "n").bare] [(Sample.i16 "x").bare, (Sample.i16 "y").bare] [(Sample.u8 "tail").bare] Sample.groupedBody
    "Point" [("n", .int 4), ("x", .int 1), ("y", .int 2), ("tail", .int 9)]
    [("n", .int 4), ("body", .struct "Point" [("x", .int 1), ("y", .int 2)]), ("tail", .int 9)] [("x", .int 1), ("y", .int 2)] :=
  ⟨by decide, by decide, rfl⟩

theorem Sample.bare_point_rebuilds (n : Nat) : Rebuilds Sample.pointOnly.bare (n + 1) Sample.point.bare [("x", .int 1), ("y", .int 2)] := by
  refine ⟨by unfold UniqueNames; decide, by unfold Instance; decide, fun T hT => ?_⟩
  have : T = [("x", .int 1), ("y", .int 2)] := by
    have h : structToDict Sample.pointOnly.bare (n + 1) Sample.point.bare [("x", .int 1), ("y", .int 2)] = .ok [("x", .int 1), ("y", .int 2)] := rfl
    rw [h] at hT
    simpa using hT.symm
  subst this
  refine ⟨?_, ?_, by decide⟩
  · intro f hf
    have hf : f ∈ [(Sample.i16 "x").bare, (Sample.i16 "y").bare] := hf
    simp only [List.mem_cons, List.not_mem_nil, or_false] at hf
    rcases hf with rfl | rfl <;> intros <;> rfl
  · intro f hf hg
    have hf : f ∈ [(Sample.i16 "x").bare, (Sample.i16 "y").bare] := hf
    simp only [List.mem_cons, List.not_mem_nil, or_false] at hf
    rcases hf with rfl | rfl <;> exact absurd hg (by decide)

-- dumping both, as declared
example : structToStream Sample.pointOnly 9 Sample.groupedLetter
    [("n", .int 4), ("body", .struct "Point" [("x", .int 1), ("y", .int 2)]), ("tail", .int 9)] .none = ([4, 1, 0, 2, 0, 9], .ok ()) := by
  rw [← (dumpBare Sample.pointOnly 9).struct]
  refine C122_dump Sample.pointOnly.bare 6 _ _ _ _ _ _ _ _ Sample.letter_grouped (fun g hg => (Sample.grouped_mid g hg).2)
    (fun g hg => (Sample.grouped_out g hg).2) ⟨fun _ _ _ => rfl, rfl⟩ rfl nofun .none _ _ _ Sample.letters_same (by unfold Instance; decide)
    (by unfold Instance; decide) (by decide) (Sample.bare_point_rebuilds 5) (validateContents_ok_iff.1 (by decide)) (validateContents_ok_iff.1 (by decide))
    (.inl rfl) _ ?_
  rw [(dumpBare Sample.pointOnly 7).struct]
  decide +kernel

example : structToStream Sample.pointOnly 9 Sample.flatLetter [("n", .int 4), ("x", .int 1), ("y", .int 2), ("tail", .int 9)] .none =
    ([4, 1, 0, 2, 0, 9], .ok ()) := by
  rw [← (dumpBare Sample.pointOnly 9).struct]
  refine C122_dump_inline Sample.pointOnly.bare 6 _ _ _ _ _ _ _ _ Sample.letter_grouped (fun g hg => (Sample.grouped_mid g hg).2)
    (fun g hg => (Sample.grouped_out g hg).2) ⟨fun _ _ _ => rfl, rfl⟩ rfl .none _ _ _ Sample.letters_same (by unfold Instance; decide)
    (by unfold Instance; decide) (by decide) ?_ (Sample.bare_point_rebuilds 6) (validateContents_ok_iff.1 (by decide))
    (validateContents_ok_iff.1 (by decide)) _ ?_
  · intro g hg
    simp only [List.mem_cons, List.not_mem_nil, or_false] at hg
    rcases hg with rfl | rfl <;> exact ⟨fun _ _ _ => rfl, rfl, by decide⟩
  · rw [(dumpBare Sample.pointOnly 9).struct]
    decide +kernel

/-- **C122** needs the fields that are put together not to refer to others: `payload = Bytes(size=n)` finds `n` only in its own struct. -/
theorem C122_reference_refuted : ∃ (Γ : Classes) (d d' inner : StructDesc) (b : FieldBase) (cls : String) (s : Stream),
    Grouped Γ d d' inner [Sample.u8 "n"] [Sample.bytesRef "payload" "n"] [] b cls ∧
    (structFromStream Γ 9 d s .none []).1 = .ok [("n", .int 2), ("payload", .bytes [5, 6])] ∧
    ∃ e, (structFromStream Γ 9 d' s .none []).1 = .error e :=
  let inner : StructDesc := { name := "Body", components := [Sample.bytesRef "payload" "n"], fieldValidators := [("payload", [])] }
  let d : StructDesc := { name := "Flat", components := [Sample.u8 "n", Sample.bytesRef "payload" "n"], fieldValidators := [("n", []), ("payload", [])] }
  let d' : StructDesc := { name := "Nested", components := [Sample.u8 "n", .nested { name := "body" } "Body"], fieldValidators := [("n", []), ("body", [])] }
  ⟨Classes.add Sample.noClasses inner, d, d', inner, { name := "body" }, "Body", ⟨[2, 5, 6], 0⟩,
    ⟨rfl, rfl, rfl, rfl, by unfold UniqueNames; decide, by unfold UniqueNames; decide⟩, by decide, by
      cases h : (structFromStream (Classes.add Sample.noClasses inner) 9 d' ⟨[2, 5, 6], 0⟩ .none []).1 with
      | error e => exact ⟨e, rfl⟩
      | ok v =>
        have : (structFromStream (Classes.add Sample.noClasses inner) 9 d' ⟨[2, 5, 6], 0⟩ .none []).1.toOption = none := by decide
        rw [h] at this
        cases this⟩

end Verif
