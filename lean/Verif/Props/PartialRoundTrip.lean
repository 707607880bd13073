import Verif.Proofs.Optional
import Verif.Proofs.Reorder
import Verif.Proofs.Canonical
import Verif.Spec.PartialRoundTrip
import Verif.Props.PartialDump
import Verif.Props.StructLoad
import Verif.Props.RoundTrip

/-!
# C111: `partial_load` reads what `partial_dump` wrote
-/

namespace Verif
open Spec

/-- What the field writes for `w`, without being told about other fields, is read back as a value in relation `Q` to it. -/
def Returns (Γ : Classes) (ctx : Value) (earlier : List String) (f : Field) (w : Value) (Q : Value → Value → Prop) : Prop :=
  ∀ n bs, fieldToStream Γ n f w ctx [] = (bs, .ok ()) → ∀ loaded, (∀ k, Dict.get? loaded k ≠ none ↔ k ∈ earlier) →
    ∃ m v, Q v w ∧ ∀ pre rest, fieldFromStream Γ m f ⟨pre ++ bs ++ rest, pre.length⟩ ctx loaded =
      (.ok v, ⟨pre ++ bs ++ rest, pre.length + bs.length⟩)

theorem wrote_loads {Γ : Classes} {ctx : Value} {d : StructDesc} {vals : Dict} (hu : UniqueNames d) {Q : Value → Value → Prop}
    (hret : ∀ pre f post w, d.components = pre ++ f :: post → PartialValue vals f w → w ≠ .undefined →
      Returns Γ ctx (pre.map Field.name) f w Q)
    {n : Nat} {fs : List Field} {ps : List Bytes} (hw : Wrote Γ n ctx vals fs ps) :
    ∀ (done post : List Field) (acc : Dict), d.components = done ++ (fs ++ post) → Dict.keys acc = done.map Field.name →
      ∃ m r, Dict.keys r = (done ++ fs).map Field.name ∧ (∀ k v, Dict.get? acc k = some v → Dict.get? r k = some v) ∧
        (∀ f ∈ fs, ∃ v w, PartialValue vals f w ∧ Dict.get? r f.name = some v ∧ Q v w) ∧
        ∀ pre rest, Loads Γ m ctx fs acc ⟨pre ++ ps.flatten ++ rest, pre.length⟩ r
          ⟨pre ++ ps.flatten ++ rest, pre.length + ps.flatten.length⟩ := by
  induction hw with
  | nil =>
    intro done post acc hd hk
    refine ⟨0, acc, by simp [hk], fun _ _ h => h, by simp, fun pre rest => ?_⟩
    simpa using Loads.nil acc _
  | @cons f fs p ps fallback v0 hdef hv0 hne hto _ ih =>
    intro done post acc hd hk
    have hnew : f.name ∉ done.map Field.name := by
      unfold UniqueNames names at hu
      rw [hd, List.map_append, List.nodup_append] at hu
      intro hmem
      exact hu.2.2 _ hmem f.name (by simp) rfl
    have hnone : Dict.get? acc f.name = none := by
      rw [Dict.get?_none_iff, hk]; exact hnew
    have hpv : PartialValue vals f v0 := by
      unfold PartialValue
      cases hg : Dict.get? vals f.name with
      | none => right; rw [hg] at hv0; exact ⟨rfl, by rw [hdef, hv0]; rfl⟩
      | some x => left; rw [hg] at hv0; rw [hv0]; rfl
    obtain ⟨m1, v, hq, hload⟩ := hret done f (fs ++ post) v0 hd hpv hne n p hto acc (fun k => by
      rw [← hk, ne_eq, Dict.get?_none_iff]; exact Decidable.not_not)
    have hkeys : Dict.keys (acc ++ [(f.name, v)]) = (done ++ [f]).map Field.name := by
      have : Dict.keys (acc ++ [(f.name, v)]) = Dict.keys acc ++ [f.name] := by simp [Dict.keys]
      rw [this, hk]; simp
    obtain ⟨m2, r, h1, h2, h3, h4⟩ := ih (done ++ [f]) post (acc ++ [(f.name, v)]) (by rw [hd]; simp) hkeys
    have hgf : Dict.get? (acc ++ [(f.name, v)]) f.name = some v := by
      rw [Dict.get?_append, hnone, Dict.get?_cons]; simp
    refine ⟨max m1 m2, r, by rw [h1]; simp, fun k x hx => h2 k x (by rw [Dict.get?_append, hx]; rfl), fun g hg => ?_, fun pre rest => ?_⟩
    · rcases List.mem_cons.1 hg with rfl | hg
      · exact ⟨v, v0, hpv, h2 _ _ hgf, hq⟩
      · exact h3 g hg
    · have ha := fieldFromStream_of_le (Nat.le_max_left m1 m2) (hload pre (ps.flatten ++ rest))
      have hb := (h4 (pre ++ p) rest).of_le (Nat.le_max_right m1 m2)
      have e1 : pre ++ p ++ (ps.flatten ++ rest) = pre ++ (p :: ps).flatten ++ rest := by simp
      have e2 : pre ++ p ++ ps.flatten ++ rest = pre ++ (p :: ps).flatten ++ rest := by simp
      have e3 : (pre ++ p).length = pre.length + p.length := by simp
      have e4 : pre.length + p.length + ps.flatten.length = pre.length + (p :: ps).flatten.length := by simp; omega
      rw [e1] at ha
      rw [e2, e3, e4] at hb
      refine .cons ha ?_
      rw [if_pos hnone]
      exact hb

/-- **C111** (core, with `last_field`) -/
theorem partial_last {Γ : Classes} {n : Nat} {d : StructDesc} {vals : Dict} {ctx : Value} {last : String} {bs : Bytes}
    {Q : Value → Value → Prop} (hu : UniqueNames d) (hdis : ∀ f ∈ d.components, f.base.discard = false) (hl : last ∈ names d)
    (hret : ∀ pre f post w, d.components = pre ++ f :: post → PartialValue vals f w → w ≠ .undefined →
      Returns Γ ctx (pre.map Field.name) f w Q)
    (h : structPartialDump Γ n d vals (some last) ctx = (bs, .ok ())) :
    ∃ pre f post m r, d.components = pre ++ f :: post ∧ f.name = last ∧ Dict.keys r = (pre ++ [f]).map Field.name ∧
      (∀ g ∈ pre ++ [f], ∃ v w, PartialValue vals g w ∧ Dict.get? r g.name = some v ∧ Q v w) ∧
      ∀ before rest, structPartialLoad Γ m d ⟨before ++ bs ++ rest, before.length⟩ (some last) ctx =
        (.ok r, ⟨before ++ bs ++ rest, before.length + bs.length⟩) := by
  obtain ⟨pre0, post, ps, h1, h2, rfl, h3, -, -⟩ := partialDumpLoop_ok h
  obtain ⟨pre, f, rfl, h4, -⟩ := h3 last rfl hl
  have hc : d.components = pre ++ f :: post := by rw [h1]; simp
  obtain ⟨m, r, h5, -, h6, h7⟩ := wrote_loads hu hret h2 [] post [] (by rw [h1]; rfl) rfl
  refine ⟨pre, f, post, m, r, hc, h4, by simpa using h5, h6, fun before rest => ?_⟩
  subst h4
  unfold structPartialLoad
  rw [if_neg (by simp [Option.any, has_iff.2 hl]), hc,
    partialLoadLoop_last (by unfold UniqueNames names at hu; rw [hc] at hu; simpa [Dict.keys] using hu)
      (fun g hg => hdis g (by rw [h1]; simp only [List.mem_append] at hg ⊢; exact Or.inl hg)) (h7 before rest)]
  simp only
  rw [structInit_ok_iff.2 ⟨rfl, ?_⟩]
  intro k hk
  rw [h5] at hk
  unfold names; rw [h1]
  simp only [List.nil_append, List.map_append, List.mem_append] at hk ⊢
  exact Or.inl hk

/-- **C111** (core, without `last_field`) -/
theorem partial_upto {Γ : Classes} {n : Nat} {d : StructDesc} {vals : Dict} {ctx : Value} {bs : Bytes}
    {Q : Value → Value → Prop} (hu : UniqueNames d) (hdis : ∀ f ∈ d.components, f.base.discard = false)
    (hret : ∀ pre f post w, d.components = pre ++ f :: post → PartialValue vals f w → w ≠ .undefined →
      Returns Γ ctx (pre.map Field.name) f w Q)
    (hend : ∀ f ∈ d.components, PartialValue vals f .undefined → FailsAtEnd Γ ctx f)
    (h : structPartialDump Γ n d vals none ctx = (bs, .ok ())) :
    ∃ pre post m r, d.components = pre ++ post ∧ (∀ f post', post = f :: post' → PartialValue vals f .undefined) ∧
      Dict.keys r = pre.map Field.name ∧
      (∀ g ∈ pre, ∃ v w, PartialValue vals g w ∧ Dict.get? r g.name = some v ∧ Q v w) ∧
      ∀ before, (structPartialLoad Γ m d ⟨before ++ bs, before.length⟩ none ctx).1 = .ok r ∧
        (structPartialLoad Γ m d ⟨before ++ bs, before.length⟩ none ctx).2.pos = before.length + bs.length := by
  obtain ⟨pre, post, ps, h1, h2, rfl, -, -, h3⟩ := partialDumpLoop_ok h
  obtain ⟨m, r, h5, -, h6, h7⟩ := wrote_loads hu hret h2 [] post [] (by rw [h1]; rfl) rfl
  have hnext : ∀ f post', post = f :: post' → PartialValue vals f .undefined := by
    intro f post' hp
    obtain ⟨fallback, h8, h9⟩ := h3 rfl f post' hp
    unfold PartialValue
    cases hg : Dict.get? vals f.name with
    | none => right; rw [hg] at h9; exact ⟨rfl, by rw [h8]; exact congrArg _ h9⟩
    | some x => left; rw [hg] at h9; exact congrArg _ h9
  have hnd := hu
  unfold UniqueNames names at hnd
  rw [h1, List.map_append, List.nodup_append] at hnd
  refine ⟨pre, post, m + 2, r, h1, hnext, by simpa using h5, h6, fun before => ?_⟩
  have hload := (h7 before []).of_le (Nat.le_add_right m 2)
  rw [List.append_nil] at hload
  have hinit : structInit d r = .ok r := by
    refine structInit_ok_iff.2 ⟨rfl, fun k hk => ?_⟩
    rw [h5] at hk
    unfold names; rw [h1]
    simp only [List.nil_append, List.map_append, List.mem_append] at hk ⊢
    exact Or.inl hk
  have hd1 : ∀ g ∈ pre, g.base.discard = false := fun g hg => hdis g (by rw [h1]; simp [hg])
  unfold structPartialLoad
  rw [if_neg (by simp [Option.any])]
  cases post with
  | nil =>
    rw [h1, List.append_nil, partialLoadLoop_all (by simpa [Dict.keys] using hnd.1) hd1 hload]
    simp only [hinit, and_self]
  | cons f post =>
    obtain ⟨e, s', h8, h9⟩ := hend f (by rw [h1]; simp) (hnext f post rfl) m r ⟨before ++ ps.flatten, before.length + ps.flatten.length⟩
      (by simp [Stream.rest])
    rw [h1, partialLoadLoop_eof (by simpa [Dict.keys] using hnd.1) hd1 hload h8 h9]
    simp only [hinit, true_and]
    rfl

theorem proper_returns {Γ : Classes} {ctx : Value} {earlier : List String} {f : Field} {w : Value} (h : Proper Γ ctx earlier [] f w) :
    Returns Γ ctx earlier f w Stands := by
  intro n bs hto loaded hk
  obtain ⟨m, v, h1, -, h2, -⟩ := proper_restores h n bs hto loaded ⟨hk, by simp [Dict.get?_nil]⟩
  exact ⟨m, v, h1, h2⟩

/-- **C111** (with `last_field`) What `partial_dump(last_field)` wrote, `partial_load(last_field)` reads: the fields up to that one, in their
order and with the values that were set (or the defaults), wherever in a stream the bytes are, and no byte more.  The values
must be ones the fields can represent without loss when they are not told about other fields (`Proper … []`): `partial_dump` does not tell them. -/
theorem C111_last_field (Γ : Classes) (n : Nat) (d : StructDesc) (vals : Dict) (ctx : Value) (last : String) (bs : Bytes)
    (hu : UniqueNames d) (hdis : ∀ f ∈ d.components, f.base.discard = false) (hl : last ∈ names d)
    (hp : ∀ pre f post w, d.components = pre ++ f :: post → PartialValue vals f w → w ≠ .undefined →
      Proper Γ ctx (pre.map Field.name) [] f w)
    (h : structPartialDump Γ n d vals (some last) ctx = (bs, .ok ())) :
    ∃ pre f post m r, d.components = pre ++ f :: post ∧ f.name = last ∧ Dict.keys r = (pre ++ [f]).map Field.name ∧
      (∀ g ∈ pre ++ [f], ∃ v w, PartialValue vals g w ∧ Dict.get? r g.name = some v ∧ Stands v w) ∧
      ∀ before rest, structPartialLoad Γ m d ⟨before ++ bs ++ rest, before.length⟩ (some last) ctx =
        (.ok r, ⟨before ++ bs ++ rest, before.length + bs.length⟩) :=
  partial_last hu hdis hl (fun pre f post w hc hv hw => proper_returns (hp pre f post w hc hv hw)) h

/-- **C111** (without `last_field`) What `partial_dump()` wrote - the fields before the first one without a value - `partial_load()` reads from those
bytes, and then stops where they end: the result has the fields that were written and no others. -/
theorem C111_up_to_missing (Γ : Classes) (n : Nat) (d : StructDesc) (vals : Dict) (ctx : Value) (bs : Bytes)
    (hu : UniqueNames d) (hdis : ∀ f ∈ d.components, f.base.discard = false)
    (hp : ∀ pre f post w, d.components = pre ++ f :: post → PartialValue vals f w → w ≠ .undefined →
      Proper Γ ctx (pre.map Field.name) [] f w)
    (hend : ∀ f ∈ d.components, PartialValue vals f .undefined → FailsAtEnd Γ ctx f)
    (h : structPartialDump Γ n d vals none ctx = (bs, .ok ())) :
    ∃ pre post m r, d.components = pre ++ post ∧ (∀ f post', post = f :: post' → PartialValue vals f .undefined) ∧
      Dict.keys r = pre.map Field.name ∧
      (∀ g ∈ pre, ∃ v w, PartialValue vals g w ∧ Dict.get? r g.name = some v ∧ Stands v w) ∧
      ∀ before, (structPartialLoad Γ m d ⟨before ++ bs, before.length⟩ none ctx).1 = .ok r ∧
        (structPartialLoad Γ m d ⟨before ++ bs, before.length⟩ none ctx).2.pos = before.length + bs.length :=
  partial_upto hu hdis (fun pre f post w hc hv hw => proper_returns (hp pre f post w hc hv hw)) hend h

theorem varint_at_end (enc : VarIntEncoding) (s : Stream) (hs : s.rest = []) :
    ∃ size off s', enc.decode s = (.error (.eof none size off), s') := by
  obtain ⟨off, s', hr⟩ := readInt_short 1 s false .little (by rw [hs]; simp)
  have h8 : ∃ off s', readUInt8 s = (.error (.eof none 1 off), s') := by
    unfold readUInt8
    rw [hr]
    exact ⟨_, _, rfl⟩
  obtain ⟨off, s', h8⟩ := h8
  refine ⟨1, off, s', ?_⟩
  cases enc <;>
    simp only [VarIntEncoding.decode, decodeCompact, decodeLeb128, decodeUleb128, decodeUleb128Nat, decodeVlq, loopFuel, decodeCompactLoop,
      decodeUleb128Loop, decodeVlqLoop, h8]

/-- Fields that take at least one byte cannot be loaded at the end of the data. -/
theorem C111_takes_a_byte (Γ : Classes) (ctx : Value) (f : Field) (h : TakesAByte f) : FailsAtEnd Γ ctx f := by
  intro m loaded s hs
  cases h with
  | @sized b k size h1 h2 h3 h4 h5 =>
    obtain ⟨off, s', h6⟩ := C13_short_read Γ m b k size s ctx loaded h2 (Or.inl h4) (fun _ _ _ => h4) (fun fmt hf => absurd hf (h3 fmt))
      (h1.1 _ _ _) (Or.inl h1.2) (by rw [hs]; simpa using h5)
    exact ⟨_, _, h6, rfl⟩
  | @uuid b fmt h1 h2 =>
    obtain ⟨off, s', h6⟩ := C13_short_read Γ m b (.uuid fmt) fmt.size s ctx loaded trivial (Or.inl h2) (by simp) (fun f hf => by cases hf; rfl)
      (h1.1 _ _ _) (Or.inl h1.2) (by rw [hs]; cases fmt <;> decide)
    exact ⟨_, _, h6, rfl⟩
  | @varint b enc mx h1 =>
    obtain ⟨size, off, s', h2⟩ := varint_at_end enc s hs
    refine ⟨.eof (some b.name) size off, s', ?_, rfl⟩
    show fromStreamWith b _ _ _ s ctx loaded = _
    rw [fromStreamWith_plain (h1.1 _ _ _) (Or.inl (allowNull_false h1.2))]
    simp only [loadAndFinish, fieldDoLoad, leafLoad, h2, R.map, Except.map, setErrField]

/-- A value stored in a struct of a plain class, and what `to_dict` makes of it. -/
theorem stored_shown {Γ : Classes} {n : Nat} {d : StructDesc} {vals all : Dict} (hd : Schema Γ d) (hi : Instance d vals)
    (h : structToDict Γ n d vals = .ok all) {k : String} {w : Value} (hw : Dict.get? vals k = some w) (hu : w ≠ .undefined) :
    ∃ x, recursiveToDicts Γ n w = .ok x ∧ Dict.get? all k = some x := by
  have hk : k ∈ names d := hi.2 k (Decidable.byContradiction fun hn => by rw [(Dict.get?_none_iff _ _).2 hn] at hw; cases hw)
  obtain ⟨f, hf, rfl⟩ := List.mem_map.1 hk
  obtain ⟨ha, hdis, -⟩ := hd.field hf
  obtain ⟨-, -, h3⟩ := structToDict_get hd.unique hi h
  rcases h3 f hf with ⟨-, hx, -⟩ | ⟨-, v, x, hv, hrec, hg⟩
  · rw [hdis] at hx; simp at hx
  · have hc : f.base.computeValueForDump (structView d vals) .none = .ok w := by
      refine compute_set (ha.1 _ _ _) ?_ ?_ hu
      · exact (structContains_iff hi.1).2 ⟨w, hw, hu⟩
      · exact structGetItem_some (List.mem_map.2 ⟨f, hf, rfl⟩) hw
    have hvw : v = w := by
      rcases hv with hv | ⟨e, hv, -⟩
      · rw [hc] at hv; cases hv; rfl
      · rw [hc] at hv; cases hv
    subst hvw
    exact ⟨x, hrec, hg⟩

theorem typed_set {Γ : Classes} {f : Field} {w : Value} (h : Typed Γ f w) : w ≠ .undefined ∧ w ≠ .notPresent := by
  cases h with
  | @leaf b k _ h _ => constructor <;> rintro rfl <;> cases k <;> exact (show False from h)
  | array _ => exact ⟨by simp, by simp⟩
  | dict _ _ _ => exact ⟨by simp, by simp⟩
  | struct _ _ _ => exact ⟨by simp, by simp⟩

theorem mem_of_get?_some {d : Dict} {k : String} {v : Value} (h : Dict.get? d k = some v) : k ∈ Dict.keys d :=
  Decidable.byContradiction fun hn => by rw [(Dict.get?_none_iff _ _).2 hn] at h; cases h

/-- The values of a struct that was dumped and loaded again stand for those in the dictionary. -/
theorem stands_dict {Γ : Classes} {n : Nat} {d : StructDesc} {vals all D r : Dict} {cls : String} (hd : Schema Γ d) (hi : Instance d vals)
    (h : structToDict Γ n d vals = .ok all)
    (hr : ∀ f ∈ d.components, ∃ v w, Dict.get? all f.name = some w ∧ Dict.get? r f.name = some v ∧ Stands v w)
    (hD : ∀ k x, Dict.get? D k = some x → Dict.get? all k = some x) : Stands (.struct cls r) (.dict D) := by
  have hin : ∀ {k x}, Dict.get? all k = some x → k ∈ names d := fun hx => (structToDict_get hd.unique hi h).2.1 _ (mem_of_get?_some hx)
  refine .struct ?_ ?_
  · intro k hk
    cases hx : Dict.get? D k with
    | none => exact (hk hx).elim
    | some x =>
      obtain ⟨g, hg, rfl⟩ := List.mem_map.1 (hin (hD k x hx))
      obtain ⟨v, w, -, h10, -⟩ := hr g hg
      rw [h10]; simp
  · intro k v w hv hw
    have hw' := hD k w hw
    obtain ⟨g, hg, rfl⟩ := List.mem_map.1 (hin hw')
    obtain ⟨v', w', h10, h11, h12⟩ := hr g hg
    rw [hv] at h11; cases h11
    rw [hw'] at h10; cases h10
    exact h12

/-- Elements that stand for what `to_dict` shows of other elements: the same of the lists. -/
theorem list_shown {Γ : Classes} : ∀ {l vs : List Value}, vs.length = l.length →
    (∀ i (hi : i < l.length) (hv : i < vs.length), ∃ x, DictShows Γ l[i] x ∧ Stands vs[i] x) →
    ∃ xs, DictShows Γ (.list l) (.list xs) ∧ Stands (.list vs) (.list xs) := by
  intro l
  induction l with
  | nil =>
    intro vs hl _
    have : vs = [] := List.length_eq_zero_iff.1 hl
    subst this
    exact ⟨[], ⟨1, rfl⟩, .same _⟩
  | cons w l ih =>
    intro vs hl h
    cases vs with
    | nil => simp at hl
    | cons v vs =>
      obtain ⟨x, ⟨n1, h1⟩, h2⟩ := h 0 (by simp) (by simp)
      obtain ⟨xs, ⟨n2, h3⟩, h4⟩ := ih (vs := vs) (by simpa using hl) fun i hi hv => by
        have := h (i + 1) (by simpa using hi) (by simpa using hv)
        simpa using this
      simp only [List.getElem_cons_zero] at h1 h2
      cases n2 with
      | zero => simp [recursiveToDicts] at h3
      | succ n2 =>
        simp only [recursiveToDicts] at h3
        obtain ⟨ys, h5, h6⟩ := Except.map_ok h3
        cases h6
        have h7 := recursiveToDicts_of_le (Nat.le_max_left n1 n2) h1
        have h8 : mapE (recursiveToDicts Γ (max n1 n2)) l = .ok xs := by
          exact (mapE_le l fun a => recursiveToDicts_mono Γ (Nat.le_max_right n1 n2) a).of_ok h5
        refine ⟨x :: xs, ⟨max n1 n2 + 1, ?_⟩, ?_⟩
        · simp only [recursiveToDicts, mapE, h7, h8]; rfl
        · have hlen : vs.length = xs.length := by
            have := (mapE_ok h5).1
            simp at hl; omega
          refine .list (by simp [hlen]) fun i a b ha hb => ?_
          cases i with
          | zero => simp at ha hb; subst ha hb; exact h2
          | succ i =>
            simp at ha hb
            cases h4 with
            | same _ => rw [ha] at hb; cases hb; exact .same _
            | list _ h9 => exact h9 i a b ha hb

theorem schema_returns {Γ : Classes} (hΓ : ∀ c d, Γ c = some d → Schema Γ d) {ctx : Value} {f : Field} {w : Value} (ht : Typed Γ f w) :
    ∀ {earlier : List String}, Layout earlier f → Always f.base →
    Returns Γ ctx earlier f w (fun v w => ∃ x, DictShows Γ w x ∧ Stands v x) := by
  induction ht with
  | @leaf b k w h1 h2 =>
    intro earlier hl ha n bs hto loaded hk
    have hs := Scalar.noStruct h1
    have hp := layout_proper hΓ hl ha (.leaf h1 h2) hs (by simp [Dict.get?_nil]) hto
    obtain ⟨m, v, h1, h2⟩ := proper_returns hp n bs hto loaded hk
    obtain ⟨j, hj⟩ := recursiveToDicts_total Γ hs
    exact ⟨m, v, ⟨w, ⟨j, hj⟩, h1⟩, h2⟩
  | @array b comp count halt l ht ih =>
    intro earlier hl ha n bs hto loaded hk
    cases hl with
    | array hconst hval hcount hac hlc =>
      obtain ⟨m, -, hdump⟩ := container_dumped (by simp) (by simp) (by simp) hto
      simp only [containerDump, arrayDump, arrayElements] at hdump
      have hcnt : count = .fixed l.length ∧ dumpAll (fun v => fieldToStream Γ m comp v ctx []) l = (bs, .ok ()) := by
        rcases hcount with ⟨k, rfl⟩ | ⟨r, hr, rfl⟩
        · simp only [finalElementCount] at hdump
          split at hdump
          · simp [W.fail] at hdump
          · rename_i hk
            have hk : k = (l.length : Int) := by omega
            exact ⟨by rw [hk], hdump⟩
        · simp only [finalElementCount, Dict.get?_nil] at hdump
          split at hdump
          · simp [W.fail] at hdump
          · rename_i h; split at h <;> cases h
      obtain ⟨ps, h1, rfl, h3⟩ := dumpAll_ok hcnt.2
      have key : ∀ (l : List Value) (ps : List Bytes), (∀ w ∈ l, Returns Γ ctx earlier comp w fun v w => ∃ x, DictShows Γ w x ∧ Stands v x) →
          ps.length = l.length → (∀ i (hi : i < l.length) (hi' : i < ps.length), fieldToStream Γ m comp l[i] ctx [] = (ps[i], .ok ())) →
          ∃ (m' : Nat) (vs : List Value), vs.length = l.length ∧
            ∀ i (hi : i < l.length) (hv : i < vs.length) (hp : i < ps.length), (∃ x, DictShows Γ l[i] x ∧ Stands vs[i] x) ∧ ∀ pre rest,
              fieldFromStream Γ m' comp ⟨pre ++ ps[i] ++ rest, pre.length⟩ ctx loaded =
                (.ok vs[i], ⟨pre ++ ps[i] ++ rest, pre.length + ps[i].length⟩) := by
        intro l
        induction l with
        | nil => intro ps _ _ _; exact ⟨0, [], rfl, by simp⟩
        | cons w l ihl =>
          intro ps hr hlen hd
          cases ps with
          | nil => simp at hlen
          | cons p ps =>
            have h0 := hd 0 (by simp) (by simp)
            simp only [List.getElem_cons_zero] at h0
            obtain ⟨m1, v, hst, hload⟩ := hr w List.mem_cons_self m p h0 loaded hk
            obtain ⟨m2, vs, hvs, hrest⟩ := ihl ps (fun u hu => hr u (List.mem_cons_of_mem _ hu)) (by simpa using hlen) (by
              intro i hi hi'
              have := hd (i + 1) (by simpa using hi) (by simpa using hi')
              simpa using this)
            refine ⟨max m1 m2, v :: vs, by simp [hvs], ?_⟩
            intro i hi hv hp
            cases i with
            | zero => exact ⟨hst, fun pre rest => fieldFromStream_of_le (by omega) (hload pre rest)⟩
            | succ i =>
              obtain ⟨h1, h2⟩ := hrest i (by simpa using hi) (by simpa using hv) (by simpa using hp)
              exact ⟨h1, fun pre rest => fieldFromStream_of_le (by omega) (h2 pre rest)⟩
      obtain ⟨m', vs, h4, h5⟩ := key l ps (fun w hw => ih w hw hlc hac) h1 h3
      obtain ⟨xs, h6, h7⟩ := list_shown h4 fun i hi hv => (h5 i hi hv (by omega)).1
      refine ⟨max m' vs.length + 2, .list vs, ⟨.list xs, h6, h7⟩, fun pre rest => ?_⟩
      refine fromStream_open (f := .array b comp count none) (w := .list vs) (ha.1 _ _ _) ⟨ha.2, hconst, fun v _ c hc => ?_⟩ (.same _) ?_
      · rw [show (Field.array b comp count none).base.validators = [] from hval] at hc; cases hc
      · rw [fieldDoLoad_array, arrayLoop_elements (l := vs) (ps := ps) (acc := []) (by omega) ?_ (Or.inl ?_) (by omega)]
        · simp [R.map, Except.map]
        · intro i hi hi'
          obtain ⟨⟨x, h8, h9⟩, h10⟩ := h5 i (by omega) hi hi'
          refine ⟨?_, fun pre rest => fieldFromStream_of_le (by omega) (h10 pre rest)⟩
          refine h9.ne_notPresent fun hx => ?_
          subst hx
          obtain ⟨j, h8⟩ := h8
          exact (typed_set (ht l[i] (List.getElem_mem _))).2 ((recursiveToDicts_marker h8).1 rfl)
        · simp only [List.length_nil, Nat.zero_add, h4, hcnt.1]; exact Or.inl rfl
  | @dict b cls d vals h1 h2 h3 _ =>
    intro earlier hl ha n bs hto loaded hk
    cases hl with
    | nested h4 h5 =>
      obtain ⟨m, rfl, h6⟩ := container_dumped (by simp) (by simp) (by simp) hto
      simp only [containerDump, dumpNew, h1] at h6
      have hd := hΓ _ _ h1
      cases hini : structInit d vals with
      | error e => rw [hini] at h6; simp [W.fail] at h6
      | ok vals' =>
        rw [hini] at h6
        obtain ⟨rfl, -⟩ := structInit_ok_iff.1 hini
        simp only at h6
        cases m with
        | zero => simp [structToStream, W.fail] at h6
        | succ m =>
          obtain ⟨all, k, r, h7, h8, h9⟩ := C26_plain_round_trip Γ hΓ m d _ ctx bs hd h2 h3 h6
          have hst : ∀ k w, Dict.get? vals' k = some w → ∃ x, recursiveToDicts Γ m w = .ok x ∧ Dict.get? all k = some x := by
            intro k w hw
            have hk : k ∈ names d := h2.2 k (mem_of_get?_some hw)
            obtain ⟨g, hg, rfl⟩ := List.mem_map.1 hk
            exact stored_shown hd h2 h7 hw (typed_set (h3 g hg w hw)).1
          obtain ⟨D, hD⟩ := mapDictE_ok_of (g := recursiveToDicts Γ m) (D := vals') fun p hp => by
            obtain ⟨x, hx, -⟩ := hst p.1 p.2 (Dict.get?_of_mem h2.1 hp)
            exact ⟨x, hx⟩
          refine ⟨k + 2, .struct cls r, ⟨.dict D, ⟨m + 1, by simp only [recursiveToDicts, hD]; rfl⟩, stands_dict hd h2 h7 h8 ?_⟩, fun pre rest => ?_⟩
          · intro k x hx
            rcases (mapDictE_ok hD).2 k with ⟨-, h10⟩ | ⟨v, w, h10, h11, h12⟩
            · rw [hx] at h10; cases h10
            · rw [hx] at h11; cases h11
              obtain ⟨x', h13, h14⟩ := hst k v h10
              rw [h12] at h13; cases h13
              exact h14
          · exact C42_nested_load Γ k b cls d _ _ r ctx loaded h1 ⟨ha.1, ha.2, h4, by rw [h5]; simp⟩ (h9 pre rest)
  | @struct b cls d vals h1 h2 h3 _ =>
    intro earlier hl ha n bs hto loaded hk
    cases hl with
    | nested h4 h5 =>
      obtain ⟨m, rfl, h6⟩ := container_dumped (by simp) (by simp) (by simp) hto
      simp only [containerDump, h1] at h6
      have hd := hΓ _ _ h1
      cases m with
      | zero => simp [structToStream, W.fail] at h6
      | succ m =>
        obtain ⟨all, k, r, h7, h8, h9⟩ := C26_plain_round_trip Γ hΓ m d vals ctx bs hd h2 h3 h6
        refine ⟨k + 2, .struct cls r, ⟨.dict all, ⟨m + 1, ?_⟩, stands_dict hd h2 h7 h8 fun _ _ h => h⟩, fun pre rest => ?_⟩
        · unfold structToDict at h7
          simp only [recursiveToDicts, h1]
          cases hx : toDictShallow d vals false with
          | error e => rw [hx] at h7; cases h7
          | ok dct => rw [hx] at h7; simp only at h7 ⊢; rw [h7]; rfl
        · exact C42_nested_load Γ k b cls d _ _ r ctx loaded h1 ⟨ha.1, ha.2, h4, by rw [h5]; simp⟩ (h9 pre rest)

/-- **C111** for plain classes, with `last_field`: integers, bytes, strings, UUIDs, floats, timestamps, arrays, and structs in structs.  Nested
structs, also those in lists, may be given as dictionaries or as instances; what is loaded has the values that `to_dict` shows. -/
theorem C111_plain_last_field (Γ : Classes) (hΓ : ∀ c d, Γ c = some d → Schema Γ d) (n : Nat) (d : StructDesc) (vals : Dict) (ctx : Value)
    (last : String) (bs : Bytes) (hd : Schema Γ d) (hl : last ∈ names d)
    (ht : ∀ f ∈ d.components, ∀ w, PartialValue vals f w → w ≠ .undefined → Typed Γ f w)
    (h : structPartialDump Γ n d vals (some last) ctx = (bs, .ok ())) :
    ∃ pre f post m r, d.components = pre ++ f :: post ∧ f.name = last ∧ Dict.keys r = (pre ++ [f]).map Field.name ∧
      (∀ g ∈ pre ++ [f], ∃ v w, PartialValue vals g w ∧ Dict.get? r g.name = some v ∧ ∃ x, DictShows Γ w x ∧ Stands v x) ∧
      ∀ before rest, structPartialLoad Γ m d ⟨before ++ bs ++ rest, before.length⟩ (some last) ctx =
        (.ok r, ⟨before ++ bs ++ rest, before.length + bs.length⟩) :=
  partial_last hd.unique (fun f hf => (hd.field hf).2.1) hl (fun pre f post w hc hv hw => by
    obtain ⟨h1, h2, -, -⟩ := hd.fields pre f post hc
    exact schema_returns hΓ (ht f (by rw [hc]; simp) w hv hw) h1 h2) h

/-- **C111** for plain classes, without `last_field`, if the fields that were not given values take at least a byte each. -/
theorem C111_plain_up_to_missing (Γ : Classes) (hΓ : ∀ c d, Γ c = some d → Schema Γ d) (n : Nat) (d : StructDesc) (vals : Dict) (ctx : Value)
    (bs : Bytes) (hd : Schema Γ d)
    (ht : ∀ f ∈ d.components, ∀ w, PartialValue vals f w → w ≠ .undefined → Typed Γ f w)
    (hend : ∀ f ∈ d.components, PartialValue vals f .undefined → TakesAByte f)
    (h : structPartialDump Γ n d vals none ctx = (bs, .ok ())) :
    ∃ pre post m r, d.components = pre ++ post ∧ (∀ f post', post = f :: post' → PartialValue vals f .undefined) ∧
      Dict.keys r = pre.map Field.name ∧
      (∀ g ∈ pre, ∃ v w, PartialValue vals g w ∧ Dict.get? r g.name = some v ∧ ∃ x, DictShows Γ w x ∧ Stands v x) ∧
      ∀ before, (structPartialLoad Γ m d ⟨before ++ bs, before.length⟩ none ctx).1 = .ok r ∧
        (structPartialLoad Γ m d ⟨before ++ bs, before.length⟩ none ctx).2.pos = before.length + bs.length :=
  partial_upto hd.unique (fun f hf => (hd.field hf).2.1) (fun pre f post w hc hv hw => by
    obtain ⟨h1, h2, -, -⟩ := hd.fields pre f post hc
    exact schema_returns hΓ (ht f (by rw [hc]; simp) w hv hw) h1 h2) (fun f hf hv => C111_takes_a_byte Γ ctx f (hend f hf hv)) h

/-! ### Where it fails -/

/-- A field that `present` leaves out is written by `partial_dump` but not read by `partial_load`, which takes its bytes for the next field. -/
theorem C111_absent_refuted :
    ∃ (Γ : Classes) (d : StructDesc) (vals : Dict) (bs : Bytes) (r : Dict), UniqueNames d ∧ Instance d vals ∧
      structPartialDump Γ 3 d vals (some "b") .none = (bs, .ok ()) ∧
      (structPartialLoad Γ 3 d ⟨bs, 0⟩ (some "b") .none).1 = .ok r ∧
      Dict.get? vals "b" = some (.int 2) ∧ Dict.get? r "b" = some (.int 1) :=
  ⟨Sample.noClasses,
   { name := "S"
     components := [Sample.upd (Sample.u8 "a") ({ · with present := fun _ _ _ => .ok false }), Sample.u8 "b"]
     fieldValidators := [("a", []), ("b", [])] },
   [("a", .int 1), ("b", .int 2)], [1, 2], [("a", .notPresent), ("b", .int 1)], by unfold UniqueNames; decide, by unfold Instance; decide,
   by decide, by decide, rfl, rfl⟩

/-- A field that takes no bytes can be read from nothing: `partial_load` returns a value for it although `partial_dump` stopped before it. -/
theorem C111_empty_field_refuted :
    ∃ (Γ : Classes) (d : StructDesc) (vals : Dict) (bs : Bytes) (r : Dict), UniqueNames d ∧ Instance d vals ∧
      structPartialDump Γ 3 d vals none .none = (bs, .ok ()) ∧ (structPartialLoad Γ 3 d ⟨bs, 0⟩ none .none).1 = .ok r ∧
      Dict.get? vals "b" = none ∧ Dict.get? r "b" = some (.bytes []) :=
  ⟨Sample.noClasses,
   { name := "S"
     components := [Sample.u8 "a", .leaf { name := "b", size := .fixed 0 } .bytes]
     fieldValidators := [("a", []), ("b", [])] },
   [("a", .int 1)], [1], [("a", .int 1), ("b", .bytes [])], by unfold UniqueNames; decide, by unfold Instance; decide,
   by decide, by decide, rfl, rfl⟩

/-- A field whose size is another field cannot be written by `partial_dump` at all, even if the whole struct can be dumped. -/
theorem C111_size_field_refuted :
    ∃ (Γ : Classes) (d : StructDesc) (vals : Dict), UniqueNames d ∧ Instance d vals ∧
      (∃ bs, structToStream Γ 3 d vals .none = (bs, .ok ())) ∧ ∀ n bs, structPartialDump Γ n d vals (some "data") .none ≠ (bs, .ok ()) := by
  refine ⟨Sample.noClasses,
   { name := "S"
     components := [Sample.u8 "n", .leaf { name := "data", size := .ref "n" } .bytes]
     fieldValidators := [("n", []), ("data", [])] },
   [("n", .int 1), ("data", .bytes [5])], by unfold UniqueNames; decide, by unfold Instance; decide, ⟨[1, 5], by decide⟩, ?_⟩
  intro n bs h
  obtain ⟨pre, post, ps, h1, h2, -, h3, -, -⟩ := partialDumpLoop_ok h
  obtain ⟨pre', f, rfl, h4, -⟩ := h3 "data" rfl (by decide)
  have hw : ∃ v p, fieldToStream Sample.noClasses n (.leaf { name := "data", size := .ref "n" } .bytes) v .none [] = (p, .ok ()) := by
    cases pre' with
    | nil => simp at h1; rw [← h1.1] at h4; exact absurd h4 (by decide)
    | cons g pre' =>
      cases pre' with
      | nil =>
        simp at h1
        rw [← h1.2.1] at h2
        cases h2 with
        | cons _ _ _ _ h5 => cases h5 with
          | cons _ _ _ h6 _ => exact ⟨_, _, h6⟩
      | cons g' pre' => simp at h1
  obtain ⟨v, p, hv⟩ := hw
  cases n with
  | zero => simp [fieldToStream, W.fail] at hv
  | succ n =>
    rw [fieldToStream_succ] at hv
    obtain ⟨w, -, -, -, -, ⟨h4, h5⟩ | ⟨-, ser, -, h6⟩⟩ := toStreamWith_ok hv
    · simp [fieldNullRepr, leafNullRepr, FieldBase.nullReprWith] at h5
    · have : leafExpectedSize { name := "data", size := .ref "n" } .bytes [] = .error (.missingRequired "n") := by decide
      rcases finishDump_ok h6 with ⟨h7, -⟩ | ⟨k, h7 | ⟨name, -, h7⟩, -⟩
      · simp [Field.base] at h7
      · simp [Field.base] at h7
      · cases n <;> simp [fieldExpectedSize, this] at h7

/-! ### Examples -/

/-- ```
class Segment(Struct):
    kind = UInt8(default=7)
    start = Nested(Point)
    weight = UInt8()
``` -/
def Sample.segment : StructDesc :=
  { name := "Segment"
    components := [Sample.upd (Sample.u8 "kind") ({ · with dflt := .int 7 }), Sample.nested "start" "Point", Sample.u8 "weight"]
    fieldValidators := [("kind", []), ("start", []), ("weight", [])], numOwnFields := 3 }

def Sample.segmentVals : Dict := [("start", .struct "Point" [("x", .int 1), ("y", .int 2)])]

theorem Sample.segment_schema : Schema Sample.pointClasses Sample.segment where
  unique := by unfold UniqueNames; decide
  checks r hr := unchecked_valid (by decide) (by simp [Sample.segment, Sample.upd, Sample.u8, Sample.nested, Field.withBase, Field.base])
    rfl hr (by unfold UniqueNames; decide)
  fields := by
    refine fields_of_index (Q := fun e f => Layout e f ∧ Always f.base ∧ f.base.discard = false ∧ Sources Sample.pointClasses f) ?_
    have hnone : ∀ f : Field, f.base.dflt = .undefined → f.base.computeFn = none → Sources Sample.pointClasses f :=
      fun f h1 h2 => ⟨fun v h => absurd h1 h, fun fn view v h => by rw [h2] at h; simp at h⟩
    intro i hi
    match i, hi with
    | 0, _ =>
      refine ⟨.integer (n := 1) rfl (by decide), ⟨fun _ _ _ => rfl, rfl⟩, rfl, ?_, ?_⟩
      · intro v _ hv
        cases hv
        exact .leaf trivial (Or.inl rfl)
      · intro fn view v h; cases h
    | 1, _ => exact ⟨.nested rfl rfl, ⟨fun _ _ _ => rfl, rfl⟩, rfl, hnone _ rfl rfl⟩
    | 2, _ => exact ⟨.integer (n := 1) rfl (by decide), ⟨fun _ _ _ => rfl, rfl⟩, rfl, hnone _ rfl rfl⟩

theorem Sample.segment_typed : ∀ f ∈ Sample.segment.components, ∀ w, PartialValue Sample.segmentVals f w → w ≠ .undefined →
    Typed Sample.pointClasses f w := by
  intro f hf w hw hne
  simp only [Sample.segment, List.mem_cons, List.not_mem_nil, or_false] at hf
  rcases hf with rfl | rfl | rfl
  · rcases hw with hw | ⟨-, hw⟩
    · cases hw
    · cases hw; exact .leaf trivial (Or.inl rfl)
  · rcases hw with hw | ⟨hw, -⟩
    · cases hw
      refine .struct (d := Sample.point) rfl (by unfold Instance; decide) ?_
      intro g hg w hw
      simp only [Sample.point, List.mem_cons, List.not_mem_nil, or_false] at hg
      rcases hg with rfl | rfl <;> (cases hw; exact .leaf trivial (Or.inl rfl))
    · cases hw
  · rcases hw with hw | ⟨-, hw⟩
    · cases hw
    · cases hw; exact absurd rfl hne

example : ∃ pre post m r, Sample.segment.components = pre ++ post ∧
      (∀ f post', post = f :: post' → PartialValue Sample.segmentVals f .undefined) ∧ Dict.keys r = pre.map Field.name ∧
      (∀ g ∈ pre, ∃ v w, PartialValue Sample.segmentVals g w ∧ Dict.get? r g.name = some v ∧
        ∃ x, DictShows Sample.pointClasses w x ∧ Stands v x) ∧
      ∀ before, (structPartialLoad Sample.pointClasses m Sample.segment ⟨before ++ [7, 1, 0, 2, 0], before.length⟩ none .none).1 = .ok r ∧
        (structPartialLoad Sample.pointClasses m Sample.segment ⟨before ++ [7, 1, 0, 2, 0], before.length⟩ none .none).2.pos =
          before.length + 5 :=
  C111_plain_up_to_missing Sample.pointClasses Sample.pointClasses_schema 9 Sample.segment Sample.segmentVals .none _ Sample.segment_schema
    Sample.segment_typed (fun f hf hv => by
      simp only [Sample.segment, List.mem_cons, List.not_mem_nil, or_false] at hf
      rcases hf with rfl | rfl | rfl
      · rcases hv with hv | ⟨-, hv⟩ <;> cases hv
      · rcases hv with hv | ⟨hv, -⟩ <;> cases hv
      · exact .sized (size := 1) ⟨fun _ _ _ => rfl, rfl⟩ trivial (by simp) rfl (by decide)) (by decide)

example : ∃ pre f post m r, Sample.segment.components = pre ++ f :: post ∧ f.name = "start" ∧
      Dict.keys r = (pre ++ [f]).map Field.name ∧
      (∀ g ∈ pre ++ [f], ∃ v w, PartialValue Sample.segmentVals g w ∧ Dict.get? r g.name = some v ∧
        ∃ x, DictShows Sample.pointClasses w x ∧ Stands v x) ∧
      ∀ before rest, structPartialLoad Sample.pointClasses m Sample.segment ⟨before ++ [7, 1, 0, 2, 0] ++ rest, before.length⟩
          (some "start") .none = (.ok r, ⟨before ++ [7, 1, 0, 2, 0] ++ rest, before.length + 5⟩) :=
  C111_plain_last_field Sample.pointClasses Sample.pointClasses_schema 9 Sample.segment Sample.segmentVals .none "start" _
    Sample.segment_schema (by decide) Sample.segment_typed (by decide)

example : structPartialLoad Sample.pointClasses 9 Sample.segment ⟨[9, 7, 1, 0, 2, 0], 1⟩ none .none =
    (.ok [("kind", .int 7), ("start", .struct "Point" [("x", .int 1), ("y", .int 2)])], ⟨[9, 7, 1, 0, 2, 0], 6⟩) := by decide

/-- ```
class Outline(Struct):
    corners = Array(Nested(Point), count=2)
    weight = UInt8()
``` -/
def Sample.outline : StructDesc :=
  { name := "Outline"
    components := [.array { name := "corners", size := .none } (Sample.nested "" "Point") (.fixed 2) none, Sample.u8 "weight"]
    fieldValidators := [("corners", []), ("weight", [])], numOwnFields := 2 }

/-- An instance of `Point`, and a dictionary in the place of the other. -/
def Sample.outlineVals : Dict :=
  [("corners", .list [.struct "Point" [("x", .int 1), ("y", .int 2)], .dict [("y", .int 4), ("x", .int 3)]])]

theorem Sample.outline_schema : Schema Sample.pointClasses Sample.outline where
  unique := by unfold UniqueNames; decide
  checks r hr := unchecked_valid (by decide) (by simp [Sample.outline, Sample.u8, Sample.nested, Field.base])
    rfl hr (by unfold UniqueNames; decide)
  fields := by
    refine fields_of_index (Q := fun e f => Layout e f ∧ Always f.base ∧ f.base.discard = false ∧ Sources Sample.pointClasses f) ?_
    have hnone : ∀ f : Field, f.base.dflt = .undefined → f.base.computeFn = none → Sources Sample.pointClasses f :=
      fun f h1 h2 => ⟨fun v h => absurd h1 h, fun fn view v h => by rw [h2] at h; simp at h⟩
    intro i hi
    match i, hi with
    | 0, _ =>
      exact ⟨.array rfl rfl (Or.inl ⟨2, rfl⟩) ⟨fun _ _ _ => rfl, rfl⟩ (.nested rfl rfl), ⟨fun _ _ _ => rfl, rfl⟩, rfl, hnone _ rfl rfl⟩
    | 1, _ => exact ⟨.integer (n := 1) rfl (by decide), ⟨fun _ _ _ => rfl, rfl⟩, rfl, hnone _ rfl rfl⟩

theorem Sample.outline_typed : ∀ f ∈ Sample.outline.components, ∀ w, PartialValue Sample.outlineVals f w → w ≠ .undefined →
    Typed Sample.pointClasses f w := by
  intro f hf w hw hne
  simp only [Sample.outline, List.mem_cons, List.not_mem_nil, or_false] at hf
  rcases hf with rfl | rfl
  · rcases hw with hw | ⟨hw, -⟩
    · cases hw
      refine .array fun w hw => ?_
      simp only [List.mem_cons, List.not_mem_nil, or_false] at hw
      rcases hw with rfl | rfl
      · refine .struct (d := Sample.point) rfl (by unfold Instance; decide) ?_
        intro g hg w hw
        simp only [Sample.point, List.mem_cons, List.not_mem_nil, or_false] at hg
        rcases hg with rfl | rfl <;> (cases hw; exact .leaf trivial (Or.inl rfl))
      · refine .dict (d := Sample.point) rfl (by unfold Instance; decide) ?_
        intro g hg w hw
        simp only [Sample.point, List.mem_cons, List.not_mem_nil, or_false] at hg
        rcases hg with rfl | rfl <;> (cases hw; exact .leaf trivial (Or.inl rfl))
    · cases hw
  · rcases hw with hw | ⟨-, hw⟩
    · cases hw
    · cases hw; exact (hne rfl).elim

example : ∃ pre f post m r, Sample.outline.components = pre ++ f :: post ∧ f.name = "corners" ∧
      Dict.keys r = (pre ++ [f]).map Field.name ∧
      (∀ g ∈ pre ++ [f], ∃ v w, PartialValue Sample.outlineVals g w ∧ Dict.get? r g.name = some v ∧
        ∃ x, DictShows Sample.pointClasses w x ∧ Stands v x) ∧
      ∀ before rest, structPartialLoad Sample.pointClasses m Sample.outline
          ⟨before ++ [1, 0, 2, 0, 3, 0, 4, 0] ++ rest, before.length⟩ (some "corners") .none =
        (.ok r, ⟨before ++ [1, 0, 2, 0, 3, 0, 4, 0] ++ rest, before.length + 8⟩) :=
  C111_plain_last_field Sample.pointClasses Sample.pointClasses_schema 12 Sample.outline Sample.outlineVals .none "corners" _
    Sample.outline_schema (by decide) Sample.outline_typed (by decide)

end Verif
