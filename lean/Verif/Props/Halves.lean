import Verif.Proofs.Halves
import Verif.Props.Unroll

/-!
# C126: arrays of fixed length can be split in two and joined

* `C126_split`, `C126_join`: loading;
* `C126_dump`, `C126_dump_join`: dumping;
* `C126_open_refuted`: not so for arrays without a count.
-/

namespace Verif
open Spec

/-- Loading: what loads as the class with one array also loads as the class with two, from the same bytes, with the same values. -/
theorem C126_split (Γ : Classes) (N : Nat) (d d' : StructDesc) (pre : List Field) (b b1 b2 : FieldBase) (g : Field) (n m : Nat)
    (post : List Field) (hu : Split d d' pre b b1 b2 g n m post) (hg : AlwaysThere Γ g) (hgo : ReadsOff (SplitNames b b1 b2) g)
    (hpost : ∀ f ∈ post, ReadsOff (SplitNames b b1 b2) f) (hb : Always b) (hb1 : ∀ vs, Plain b1 (.list vs)) (hb2 : ∀ vs, Plain b2 (.list vs))
    (hnd : b.discard = false) (hnd1 : b1.discard = false) (hnd2 : b2.discard = false)
    (ctx : Value) (s t : Stream) (vals : Dict) (h : structFromStream Γ (N + 3) d s ctx [] = (.ok vals, t)) :
    ∃ vals' vs ws, LoadsUnlessRejected Γ (N + n + m + 3) d' s ctx vals' t ∧ vs.length = n ∧ ws.length = m ∧
      SameHalves pre b b1 b2 post vals vals' vs ws := by
  obtain ⟨a1, a2, a3, a4⟩ := hu.apart
  obtain ⟨results, hr, -, -, rfl⟩ := structFromStream_ok_iff.1 h
  rw [hu.whole] at hr
  obtain ⟨m1, u, h1, h2⟩ := Loads.append.1 hr
  have hpre : ∀ y, (∀ f ∈ pre, f.name ≠ y) → Dict.get? m1 y = none := fun y hy => by
    rw [loads_frame h1 (fun hm => by obtain ⟨f, hf, he⟩ := List.mem_map.1 hm; exact hy f hf he)]; rfl
  have hn := hpre b.name fun f hf => (a1 f hf).1
  have hn1 := hpre b1.name fun f hf => (a1 f hf).2.1
  have hn2 := hpre b2.name fun f hf => (a1 f hf).2.2
  cases h2 with
  | @cons _ _ _ _ v _ w _ h2 h3 =>
    rw [show (Field.array b g (.fixed (n + m : Nat)) none).name = b.name from rfl, if_pos hn] at h3
    obtain ⟨l, rfl, hl, hreads⟩ := array_reads hb hg h2
    obtain ⟨vs, ws, rfl, hv, hw⟩ : ∃ vs ws, l = vs ++ ws ∧ vs.length = n ∧ ws.length = m :=
      ⟨l.take n, l.drop n, (List.take_append_drop n l).symm, by simp [hl], by simp [hl]⟩
    obtain ⟨z, hr1, hr2⟩ := ReadsAll.append.1 hreads
    have happ : ∀ y, Dict.get? (m1 ++ [(b.name, Value.list (vs ++ ws))]) y = if b.name = y then some (.list (vs ++ ws)) else Dict.get? m1 y := by
      intro y
      rw [← set_of_not_mem hn, Dict.get?_set]
    have happ1 : ∀ y, Dict.get? (m1 ++ [(b1.name, Value.list vs)]) y = if b1.name = y then some (.list vs) else Dict.get? m1 y := by
      intro y
      rw [← set_of_not_mem hn1, Dict.get?_set]
    have hn2' : Dict.get? (m1 ++ [(b1.name, Value.list vs)]) b2.name = none := by rw [happ1, if_neg a4, hn2]
    have happ2 : ∀ y, Dict.get? (m1 ++ [(b1.name, Value.list vs)] ++ [(b2.name, Value.list ws)]) y =
        if b2.name = y then some (.list ws) else if b1.name = y then some (.list vs) else Dict.get? m1 y := by
      intro y
      rw [← set_of_not_mem hn2', Dict.get?_set, happ1]
    have hoff1 : AgreeOff (SplitNames b b1 b2) m1 (m1 ++ [(b1.name, Value.list vs)]) := fun y hy => by
      rw [happ1, if_neg (fun he => hy (.inr (.inl he.symm)))]
    have hf1 := array_of_reads (hb1 vs) hg hv hr1 (M := N + n + m + 2) (by omega)
    have hf2 := array_of_reads (hb2 ws) hg hw (hr2.off hgo hoff1) (M := N + n + m + 2) (by omega)
    obtain ⟨r', h6, h7⟩ := loads_apart h3 (fun f hf => ⟨hpost f hf, by
        rintro (hx | hx | hx); exacts [(a2 f hf).1 hx, (a2 f hf).2.1 hx, (a2 f hf).2.2 hx]⟩)
      (m1 ++ [(b1.name, .list vs)] ++ [(b2.name, .list ws)]) (by
        intro y hy
        rw [happ, happ2, if_neg (fun he => hy (.inl he.symm)), if_neg (fun he => hy (.inr (.inr he.symm))),
          if_neg (fun he => hy (.inr (.inl he.symm)))])
    have hl' : Loads Γ (N + n + m + 2) ctx d'.components [] s r' t := by
      rw [hu.halves]
      refine Loads.append.2 ⟨m1, u, h1.of_le (by omega), .cons hf1 ?_⟩
      rw [show (Field.array b1 g (.fixed n) none).name = b1.name from rfl, if_pos hn1]
      refine .cons hf2 ?_
      rw [show (Field.array b2 g (.fixed m) none).name = b2.name from rfl, if_pos hn2']
      exact h6.of_le (by omega)
    refine ⟨dropDiscarded d' r', vs, ws, loadsUnlessRejected_of hl', hv, hw, split_same hu hnd hnd1 hnd2 (m1 := m1) (fun y hy => ?_) (fun y hy => ?_) h7⟩
    · rw [loads_frame h3 hy, happ]
    · rw [loads_frame h6 hy, happ2]

/-- The converse: what loads as the class with two arrays also loads as the class with one. -/
theorem C126_join (Γ : Classes) (N : Nat) (d d' : StructDesc) (pre : List Field) (b b1 b2 : FieldBase) (g : Field) (n m : Nat)
    (post : List Field) (hu : Split d d' pre b b1 b2 g n m post) (hg : AlwaysThere Γ g) (hgo : ReadsOff (SplitNames b b1 b2) g)
    (hpost : ∀ f ∈ post, ReadsOff (SplitNames b b1 b2) f) (hb : ∀ vs, Plain b (.list vs)) (hb1 : Always b1) (hb2 : Always b2)
    (hnd : b.discard = false) (hnd1 : b1.discard = false) (hnd2 : b2.discard = false)
    (ctx : Value) (s t : Stream) (vals' : Dict) (h : structFromStream Γ (N + 3) d' s ctx [] = (.ok vals', t)) :
    ∃ vals vs ws, LoadsUnlessRejected Γ (N + n + m + 3) d s ctx vals t ∧ vs.length = n ∧ ws.length = m ∧
      SameHalves pre b b1 b2 post vals vals' vs ws := by
  obtain ⟨a1, a2, a3, a4⟩ := hu.apart
  obtain ⟨r', hr, -, -, rfl⟩ := structFromStream_ok_iff.1 h
  rw [hu.halves] at hr
  obtain ⟨m1, u, h1, h2⟩ := Loads.append.1 hr
  have hpre : ∀ y, (∀ f ∈ pre, f.name ≠ y) → Dict.get? m1 y = none := fun y hy => by
    rw [loads_frame h1 (fun hm => by obtain ⟨f, hf, he⟩ := List.mem_map.1 hm; exact hy f hf he)]; rfl
  have hn := hpre b.name fun f hf => (a1 f hf).1
  have hn1 := hpre b1.name fun f hf => (a1 f hf).2.1
  have hn2 := hpre b2.name fun f hf => (a1 f hf).2.2
  cases h2 with
  | @cons _ _ _ _ v _ z _ h2 h3 =>
    rw [show (Field.array b1 g (.fixed n) none).name = b1.name from rfl, if_pos hn1] at h3
    obtain ⟨vs, rfl, hv, hr1⟩ := array_reads hb1 hg h2
    have happ1 : ∀ y, Dict.get? (m1 ++ [(b1.name, Value.list vs)]) y = if b1.name = y then some (.list vs) else Dict.get? m1 y := by
      intro y
      rw [← set_of_not_mem hn1, Dict.get?_set]
    have hn2' : Dict.get? (m1 ++ [(b1.name, Value.list vs)]) b2.name = none := by rw [happ1, if_neg a4, hn2]
    cases h3 with
    | @cons _ _ _ _ v _ w _ h3 h4 =>
      rw [show (Field.array b2 g (.fixed m) none).name = b2.name from rfl, if_pos hn2'] at h4
      obtain ⟨ws, rfl, hw, hr2⟩ := array_reads hb2 hg h3
      have happ : ∀ y, Dict.get? (m1 ++ [(b.name, Value.list (vs ++ ws))]) y = if b.name = y then some (.list (vs ++ ws)) else Dict.get? m1 y := by
        intro y
        rw [← set_of_not_mem hn, Dict.get?_set]
      have happ2 : ∀ y, Dict.get? (m1 ++ [(b1.name, Value.list vs)] ++ [(b2.name, Value.list ws)]) y =
          if b2.name = y then some (.list ws) else if b1.name = y then some (.list vs) else Dict.get? m1 y := by
        intro y
        rw [← set_of_not_mem hn2', Dict.get?_set, happ1]
      have hoff1 : AgreeOff (SplitNames b b1 b2) (m1 ++ [(b1.name, Value.list vs)]) m1 := fun y hy => by
        rw [happ1, if_neg (fun he => hy (.inr (.inl he.symm)))]
      have hf := array_of_reads (hb (vs ++ ws)) hg (n := n + m) (by simp [hv, hw]) (ReadsAll.append.2 ⟨z, hr1, hr2.off hgo hoff1⟩)
        (M := N + n + m + 2) (by omega)
      obtain ⟨results, h6, h7⟩ := loads_apart h4 (fun f hf => ⟨hpost f hf, by
          rintro (hx | hx | hx); exacts [(a2 f hf).1 hx, (a2 f hf).2.1 hx, (a2 f hf).2.2 hx]⟩)
        (m1 ++ [(b.name, .list (vs ++ ws))]) (by
          intro y hy
          rw [happ, happ2, if_neg (fun he => hy (.inr (.inr he.symm))), if_neg (fun he => hy (.inr (.inl he.symm))),
            if_neg (fun he => hy (.inl he.symm))])
      have hl : Loads Γ (N + n + m + 2) ctx d.components [] s results t := by
        rw [hu.whole]
        refine Loads.append.2 ⟨m1, u, h1.of_le (by omega), .cons hf ?_⟩
        rw [show (Field.array b g (.fixed (n + m : Nat)) none).name = b.name from rfl, if_pos hn]
        exact h6.of_le (by omega)
      refine ⟨dropDiscarded d results, vs, ws, loadsUnlessRejected_of hl, hv, hw, split_same hu hnd hnd1 hnd2 (m1 := m1) (fun y hy => ?_)
        (fun y hy => ?_) (fun y hy => (h7 y hy).symm)⟩
      · rw [loads_frame h6 hy, happ]
      · rw [loads_frame h4 hy, happ2]

/-- Dumping: an instance of the class with two arrays, of the same values, gives the same bytes. -/
theorem C126_dump (Γ : Classes) (N : Nat) (d d' : StructDesc) (pre : List Field) (b b1 b2 : FieldBase) (g : Field) (n m : Nat)
    (post : List Field) (hu : Split d d' pre b b1 b2 g n m post) (hgo : Unaware (SplitNames b b1 b2) g)
    (hout : ∀ f ∈ pre ++ post, Unaware (SplitNames b b1 b2) f) (hb : Always b) (hb1 : Always b1) (hb2 : Always b2)
    (hnd : b.discard = false) (hnd1 : b1.discard = false) (hnd2 : b2.discard = false) (hsz : b.size = .none ∧ b1.size = .none ∧ b2.size = .none)
    (hchk : ∀ check ∈ b.validators ++ b1.validators ++ b2.validators, ∀ l, check (.list l) = .ok ())
    (ctx : Value) (vals vals' : Dict) (vs ws : List Value) (hs : SameHalves pre b b1 b2 post vals vals' vs ws) (hv : vs.length = n)
    (hw : ws.length = m) (hi : Instance d vals) (hi' : Instance d' vals') (hset : ∀ f ∈ d.components, Dict.get? vals f.name ≠ none)
    (hval : Valid d' vals') (bs : Bytes) (h : structToStream Γ (N + 3) d vals ctx = (bs, .ok ())) :
    structToStream Γ (N + 3) d' vals' ctx = (bs, .ok ()) := by
  obtain ⟨-, all, h1, ps, h2, rfl⟩ := structToStream_ok_iff.1 h
  rw [hu.whole] at h2
  obtain ⟨xs, _, rfl, hpre, h3⟩ := parts_append.1 h2
  cases h3 with
  | @cons _ _ p zs h3 h4 =>
    have hm : Field.array b g (.fixed (n + m : Nat)) none ∈ d.components := by rw [hu.whole]; simp
    have hm1 : Field.array b1 g (.fixed n) none ∈ d'.components := by rw [hu.halves]; simp
    have hm2 : Field.array b2 g (.fixed m) none ∈ d'.components := by rw [hu.halves]; simp
    obtain ⟨w, h0, hent⟩ := toDict_entry hu.unique hi h1 hm hnd hb.1 hs.whole (by simp)
    obtain ⟨l, h5, rfl⟩ := list_toDicts.1 h0
    obtain ⟨l1, l2, h6, h7, rfl⟩ := mapE_append_ok.1 h5
    have htr := split_runs hu hs hout hi hi' hset
    obtain ⟨all', h8⟩ := structToDict_runs_but htr (fun f hf => by
      rw [hu.halves] at hf
      rcases List.mem_append.1 hf with hf | hf
      · exact Or.inl (hout f (List.mem_append_left _ hf)).base.name
      · rcases List.mem_cons.1 hf with rfl | hf
        · exact Or.inr ⟨_, _, full_value hi' hm1 hs.first (.inr ⟨by simp, hb1.1 _ _ _⟩), list_toDicts.2 ⟨l1, h6, rfl⟩⟩
        · rcases List.mem_cons.1 hf with rfl | hf
          · exact Or.inr ⟨_, _, full_value hi' hm2 hs.second (.inr ⟨by simp, hb2.1 _ _ _⟩), list_toDicts.2 ⟨l2, h7, rfl⟩⟩
          · exact Or.inl (hout f (List.mem_append_right _ hf)).base.name) h1
    have ha := structToDict_agree htr h8 h1
    have hent1 : Dict.get? all' b1.name = some (.list l1) :=
      toDict_stored hu.unique' hi' h8 hm1 hnd1 hb1.1 hs.first (by simp) (list_toDicts.2 ⟨l1, h6, rfl⟩)
    have hent2 : Dict.get? all' b2.name = some (.list l2) :=
      toDict_stored hu.unique' hi' h8 hm2 hnd2 hb2.1 hs.second (by simp) (list_toDicts.2 ⟨l2, h7, rfl⟩)
    have hl1 : l1.length = n := (mapE_length h6).trans hv
    have hl2 : l2.length = m := (mapE_length h7).trans hw
    have h9 := (array_part hb hsz.1 (fun c hc => hchk c (by simp [hc]) _) (by simp [hl1, hl2]) hent).1 h3
    obtain ⟨x, y, hx, hy, rfl⟩ := dumpAll_append.1 h9
    rw [← dumpAll_off hgo ha] at hx hy
    have hp1 := (array_part hb1 hsz.2.1 (fun c hc => hchk c (by simp [hc]) _) hl1 hent1).2 hx
    have hp2 := (array_part hb2 hsz.2.2 (fun c hc => hchk c (by simp [hc]) _) hl2 hent2).2 hy
    refine structToStream_ok_iff.2 ⟨hval, all', h8, xs ++ x :: y :: zs, ?_, by simp⟩
    rw [hu.halves]
    exact parts_append.2 ⟨xs, _, rfl, Parts_runs (fun f hf => hout f (List.mem_append_left _ hf)) ha hpre, .cons hp1 (.cons hp2
      (Parts_runs (fun f hf => hout f (List.mem_append_right _ hf)) ha h4))⟩

/-- The converse. -/
theorem C126_dump_join (Γ : Classes) (N : Nat) (d d' : StructDesc) (pre : List Field) (b b1 b2 : FieldBase) (g : Field) (n m : Nat)
    (post : List Field) (hu : Split d d' pre b b1 b2 g n m post) (hgo : Unaware (SplitNames b b1 b2) g)
    (hout : ∀ f ∈ pre ++ post, Unaware (SplitNames b b1 b2) f) (hb : Always b) (hb1 : Always b1) (hb2 : Always b2)
    (hnd : b.discard = false) (hnd1 : b1.discard = false) (hnd2 : b2.discard = false) (hsz : b.size = .none ∧ b1.size = .none ∧ b2.size = .none)
    (hchk : ∀ check ∈ b.validators ++ b1.validators ++ b2.validators, ∀ l, check (.list l) = .ok ())
    (ctx : Value) (vals vals' : Dict) (vs ws : List Value) (hs : SameHalves pre b b1 b2 post vals vals' vs ws) (hv : vs.length = n)
    (hw : ws.length = m) (hi : Instance d vals) (hi' : Instance d' vals') (hset : ∀ f ∈ d.components, Dict.get? vals f.name ≠ none)
    (hval : Valid d vals) (bs : Bytes) (h : structToStream Γ (N + 3) d' vals' ctx = (bs, .ok ())) :
    structToStream Γ (N + 3) d vals ctx = (bs, .ok ()) := by
  obtain ⟨-, all', h1, ps, h2, rfl⟩ := structToStream_ok_iff.1 h
  rw [hu.halves] at h2
  obtain ⟨xs, _, rfl, hpre, h3⟩ := parts_append.1 h2
  cases h3 with
  | @cons _ _ x zs h3 h4 =>
    cases h4 with
    | @cons _ _ y zs h4 h5 =>
      have hm : Field.array b g (.fixed (n + m : Nat)) none ∈ d.components := by rw [hu.whole]; simp
      have hm1 : Field.array b1 g (.fixed n) none ∈ d'.components := by rw [hu.halves]; simp
      have hm2 : Field.array b2 g (.fixed m) none ∈ d'.components := by rw [hu.halves]; simp
      obtain ⟨w, h0, hent1⟩ := toDict_entry hu.unique' hi' h1 hm1 hnd1 hb1.1 hs.first (by simp)
      obtain ⟨l1, h6, rfl⟩ := list_toDicts.1 h0
      obtain ⟨w, h0, hent2⟩ := toDict_entry hu.unique' hi' h1 hm2 hnd2 hb2.1 hs.second (by simp)
      obtain ⟨l2, h7, rfl⟩ := list_toDicts.1 h0
      have hlist : recursiveToDicts Γ (N + 2) (.list (vs ++ ws)) = .ok (.list (l1 ++ l2)) :=
        list_toDicts.2 ⟨_, mapE_append_ok.2 ⟨l1, l2, h6, h7, rfl⟩, rfl⟩
      have htr := joined_runs hu hs hout hi hi' hset
      obtain ⟨all, h8⟩ := structToDict_runs_but htr (fun f hf => by
        rw [hu.whole] at hf
        rcases List.mem_append.1 hf with hf | hf
        · exact Or.inl (hout f (List.mem_append_left _ hf)).base.name
        · rcases List.mem_cons.1 hf with rfl | hf
          · exact Or.inr ⟨_, _, full_value hi hm hs.whole (.inr ⟨by simp, hb.1 _ _ _⟩), hlist⟩
          · exact Or.inl (hout f (List.mem_append_right _ hf)).base.name) h1
      have ha := structToDict_agree htr h8 h1
      have hent : Dict.get? all b.name = some (.list (l1 ++ l2)) :=
        toDict_stored hu.unique hi h8 hm hnd hb.1 hs.whole (by simp) hlist
      have hl1 : l1.length = n := (mapE_length h6).trans hv
      have hl2 : l2.length = m := (mapE_length h7).trans hw
      have hx := (array_part hb1 hsz.2.1 (fun c hc => hchk c (by simp [hc]) _) hl1 hent1).1 h3
      have hy := (array_part hb2 hsz.2.2 (fun c hc => hchk c (by simp [hc]) _) hl2 hent2).1 h4
      rw [← dumpAll_off hgo ha] at hx hy
      have hp := (array_part (n := n + m) hb hsz.1 (fun c hc => hchk c (by simp [hc]) _) (by simp [hl1, hl2]) hent).2 (dumpAll_append.2 ⟨x, y, hx, hy, rfl⟩)
      refine structToStream_ok_iff.2 ⟨hval, all, h8, xs ++ (x ++ y) :: zs, ?_, by simp⟩
      rw [hu.whole]
      exact parts_append.2 ⟨xs, _, rfl, Parts_runs (fun f hf => hout f (List.mem_append_left _ hf)) ha hpre, .cons hp
        (Parts_runs (fun f hf => hout f (List.mem_append_right _ hf)) ha h5)⟩

/-! ### Examples -/

namespace Sample

/-- ```
class SplitCells(Struct):
    n = UInt8()
    cells = Array(Int16(endian="little"), count=1)
    more = Array(Int16(endian="little"), count=2)
    tail = UInt8()
``` -/
def splitCells : StructDesc := (fromClass noClasses 3 { name := "SplitCells", body :=
  [("n", .field (u8 "")), ("cells", .field (array "" (i16 "") (.fixed 1))), ("more", .field (array "" (i16 "") (.fixed 2))),
   ("tail", .field (u8 ""))] }).toOption.getD { name := "", components := [] }

/-- The attributes of `more`. -/
def moreBase : FieldBase := { name := "more" }

theorem cells_split : Split listedCells.bare splitCells.bare [(u8 "n").bare] cellsBase cellsBase moreBase (i16 "") 1 2 [(u8 "tail").bare] :=
  ⟨rfl, rfl, by unfold UniqueNames; decide, by unfold UniqueNames; decide⟩

theorem split_out : ∀ g ∈ [(u8 "n").bare] ++ [(u8 "tail").bare],
    ReadsOff (SplitNames cellsBase cellsBase moreBase) g ∧ Unaware (SplitNames cellsBase cellsBase moreBase) g := by
  intro g hg
  simp only [List.cons_append, List.nil_append, List.mem_cons, List.not_mem_nil, or_false] at hg
  rcases hg with rfl | rfl <;>
    exact ⟨.leaf ⟨nofun, nofun, fun _ _ _ _ _ => rfl⟩ nofun,
      .leaf ⟨by unfold SplitNames; decide, nofun, fun _ _ _ _ _ => rfl, nofun⟩ nofun⟩

theorem split_element : AlwaysThere noClasses.bare (i16 "") ∧ ReadsOff (SplitNames cellsBase cellsBase moreBase) (i16 "") ∧
    Unaware (SplitNames cellsBase cellsBase moreBase) (i16 "") :=
  ⟨fun _ _ _ _ _ h => element_load_there cell_type h rfl, .leaf ⟨nofun, nofun, fun _ _ _ _ _ => rfl⟩ nofun,
    .leaf ⟨by unfold SplitNames; decide, nofun, fun _ _ _ _ _ => rfl, nofun⟩ nofun⟩

theorem split_same_cells : SameHalves [(u8 "n").bare] cellsBase cellsBase moreBase [(u8 "tail").bare]
    [("n", .int 4), ("cells", .list [.int 1, .int 2, .int (-1)]), ("tail", .int 9)]
    [("n", .int 4), ("cells", .list [.int 1]), ("more", .list [.int 2, .int (-1)]), ("tail", .int 9)] [.int 1] [.int 2, .int (-1)] :=
  ⟨by decide, rfl, rfl, rfl⟩

end Sample

-- a file written with one array is loaded with two
example : ∃ vals' vs ws, LoadsUnlessRejected Sample.noClasses.bare 12 Sample.splitCells.bare ⟨[7, 4, 1, 0, 2, 0, 255, 255, 9, 8], 1⟩ .none vals'
      ⟨[7, 4, 1, 0, 2, 0, 255, 255, 9, 8], 9⟩ ∧ vs.length = 1 ∧ ws.length = 2 ∧
    SameHalves [(Sample.u8 "n").bare] Sample.cellsBase Sample.cellsBase Sample.moreBase [(Sample.u8 "tail").bare]
      [("n", .int 4), ("cells", .list [.int 1, .int 2, .int (-1)]), ("tail", .int 9)] vals' vs ws := by
  refine C126_split Sample.noClasses.bare 6 _ _ _ _ _ _ _ _ _ _ Sample.cells_split Sample.split_element.1 Sample.split_element.2.1
    (fun g hg => (Sample.split_out g (List.mem_append_right _ hg)).1) ⟨fun _ _ _ => rfl, rfl⟩ (fun vs => ⟨fun _ _ _ => rfl, rfl, rfl, nofun⟩)
    (fun vs => ⟨fun _ _ _ => rfl, rfl, rfl, nofun⟩) rfl rfl rfl .none _ _ _ ?_
  rw [(loadBare Sample.noClasses 9).struct]
  decide +kernel

-- and back
example : ∃ vals vs ws, LoadsUnlessRejected Sample.noClasses.bare 12 Sample.listedCells.bare ⟨[7, 4, 1, 0, 2, 0, 255, 255, 9, 8], 1⟩ .none vals
      ⟨[7, 4, 1, 0, 2, 0, 255, 255, 9, 8], 9⟩ ∧ vs.length = 1 ∧ ws.length = 2 ∧
    SameHalves [(Sample.u8 "n").bare] Sample.cellsBase Sample.cellsBase Sample.moreBase [(Sample.u8 "tail").bare]
      vals [("n", .int 4), ("cells", .list [.int 1]), ("more", .list [.int 2, .int (-1)]), ("tail", .int 9)] vs ws := by
  refine C126_join Sample.noClasses.bare 6 _ _ _ _ _ _ _ _ _ _ Sample.cells_split Sample.split_element.1 Sample.split_element.2.1
    (fun g hg => (Sample.split_out g (List.mem_append_right _ hg)).1) (fun vs => ⟨fun _ _ _ => rfl, rfl, rfl, nofun⟩) ⟨fun _ _ _ => rfl, rfl⟩
    ⟨fun _ _ _ => rfl, rfl⟩ rfl rfl rfl .none _ _ _ ?_
  rw [(loadBare Sample.noClasses 9).struct]
  decide +kernel

-- dumping both, as declared
example : structToStream Sample.noClasses 9 Sample.splitCells
    [("n", .int 4), ("cells", .list [.int 1]), ("more", .list [.int 2, .int (-1)]), ("tail", .int 9)] .none =
      ([4, 1, 0, 2, 0, 255, 255, 9], .ok ()) := by
  rw [← (dumpBare Sample.noClasses 9).struct]
  refine C126_dump Sample.noClasses.bare 6 _ _ _ _ _ _ _ _ _ _ Sample.cells_split Sample.split_element.2.2 (fun g hg => (Sample.split_out g hg).2)
    ⟨fun _ _ _ => rfl, rfl⟩ ⟨fun _ _ _ => rfl, rfl⟩ ⟨fun _ _ _ => rfl, rfl⟩ rfl rfl rfl ⟨rfl, rfl, rfl⟩ nofun .none _ _ _ _
    Sample.split_same_cells rfl rfl (by unfold Instance; decide) (by unfold Instance; decide) (by decide)
    (validateContents_ok_iff.1 (by decide)) _ ?_
  rw [(dumpBare Sample.noClasses 9).struct]
  decide +kernel

example : structToStream Sample.noClasses 9 Sample.listedCells
    [("n", .int 4), ("cells", .list [.int 1, .int 2, .int (-1)]), ("tail", .int 9)] .none = ([4, 1, 0, 2, 0, 255, 255, 9], .ok ()) := by
  rw [← (dumpBare Sample.noClasses 9).struct]
  refine C126_dump_join Sample.noClasses.bare 6 _ _ _ _ _ _ _ _ _ _ Sample.cells_split Sample.split_element.2.2
    (fun g hg => (Sample.split_out g hg).2)
    ⟨fun _ _ _ => rfl, rfl⟩ ⟨fun _ _ _ => rfl, rfl⟩ ⟨fun _ _ _ => rfl, rfl⟩ rfl rfl rfl ⟨rfl, rfl, rfl⟩ nofun .none _ _ _ _
    Sample.split_same_cells rfl rfl (by unfold Instance; decide) (by unfold Instance; decide) (by decide)
    (validateContents_ok_iff.1 (by decide)) _ ?_
  rw [(dumpBare Sample.noClasses 9).struct]
  decide +kernel

/-- **C126** is about arrays with a count: of two arrays without one, the first takes everything. -/
theorem C126_open_refuted : ∃ (d d' : StructDesc) (vals' : Dict) (bs : Bytes) (vs : Value),
    d.components = [Sample.array "a" (Sample.u8 "") .none] ∧
    d'.components = [Sample.array "a" (Sample.u8 "") .none, Sample.array "z" (Sample.u8 "") .none] ∧
    vals' = [("a", .list [.int 1]), ("z", .list [.int 2])] ∧ structToStream Sample.noClasses 9 d' vals' .none = (bs, .ok ()) ∧
    (structFromStream Sample.noClasses 9 d ⟨bs, 0⟩ .none []).1 = .ok [("a", .list [.int 1, .int 2])] ∧
    (structFromStream Sample.noClasses 9 d' ⟨bs, 0⟩ .none []).1 = .ok [("a", vs), ("z", .list [])] ∧ vs = .list [.int 1, .int 2] :=
  let d : StructDesc := { name := "One", components := [Sample.array "a" (Sample.u8 "") .none], fieldValidators := [("a", [])] }
  let d' : StructDesc := { name := "Two", components := [Sample.array "a" (Sample.u8 "") .none, Sample.array "z" (Sample.u8 "") .none],
                           fieldValidators := [("a", []), ("z", [])] }
  ⟨d, d', _, [1, 2], _, rfl, rfl, rfl, by decide +kernel, by decide +kernel, by decide +kernel, rfl⟩

end Verif
