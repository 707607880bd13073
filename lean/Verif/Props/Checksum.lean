import Verif.Spec.Checksum
import Verif.Props.Stale
import Verif.Props.Position

/-!
# C108: checksums
-/

namespace Verif
open Spec

theorem Spec.Checksummed.valid {d : StructDesc} {f : Field} {fn : View → Except Err Value} {refs : List String} {vals : Dict}
    (hc : Checksummed d f fn refs) (h : Valid d vals) : ∃ v, structGetItem d vals f.name = .ok v ∧ fn (structView d vals) = .ok v := by
  obtain ⟨check, h1, h2⟩ := hc.verified
  exact h2 _ (h.2 check h1)

/-- **C108** (load) Whenever a struct is loaded, the checksum in the data (`results` are the values of all fields that were read) is what the
function makes of the loaded struct. -/
theorem C108_loaded (Γ : Classes) (n : Nat) (d : StructDesc) (s s' : Stream) (ctx : Value) (r : Dict) (f : Field)
    (fn : View → Except Err Value) (refs : List String) (hd : UniqueNames d) (hc : Checksummed d f fn refs)
    (h : structFromStream Γ (n + 1) d s ctx [] = (.ok r, s')) :
    ∃ results v, Loads Γ n ctx d.components [] s results s' ∧ Dict.get? results f.name = some v ∧ fn (structView d r) = .ok v ∧
      (f.base.discard = false → Dict.get? r f.name = some v) := by
  obtain ⟨results, h1, h2, h3, rfl⟩ := structFromStream_ok_iff.1 h
  obtain ⟨v, h4, h5⟩ := hc.valid h3
  have hk := h1.keys_eq (show ([] ++ names d).Nodup from hd)
  have hin : ∀ g ∈ d.components, ∃ x, Dict.get? results g.name = some x := by
    intro g hg
    cases hx : Dict.get? results g.name with
    | some x => exact ⟨x, rfl⟩
    | none =>
      rw [Dict.get?_none_iff, hk] at hx
      exact absurd (show g.name ∈ [] ++ names d from List.mem_map.2 ⟨g, hg, rfl⟩) hx
  obtain ⟨x, hx⟩ := hin f hc.field
  rw [structGetItem_some (List.mem_map.2 ⟨f, hc.field, rfl⟩) hx] at h4
  cases h4
  refine ⟨results, v, h1, hx, ?_, ?_⟩
  · rw [← h5]
    apply hc.looksUp
    intro q hq
    obtain ⟨-, g, hg, rfl, hdisc⟩ := hc.others q hq
    obtain ⟨y, hy⟩ := hin g hg
    have hm : g.name ∈ names d := List.mem_map.2 ⟨g, hg, rfl⟩
    have hy' : Dict.get? (dropDiscarded d results) g.name = some y := by
      rw [dropDiscarded_get hd _ hg, hdisc]; simpa using hy
    exact (structGetItem_some hm hy').trans (structGetItem_some hm hy).symm
  · intro hdisc
    rw [dropDiscarded_get hd _ hc.field, hdisc]; simpa using hx

/-- **C108** (dump) Whatever was done with an instance, a dump that succeeds writes what the function makes of the values at that moment. -/
theorem C108_written (Γ : Classes) (n : Nat) (d : StructDesc) (vals : Dict) (ctx : Value) (bs : Bytes) (pre post : List Field) (f : Field)
    (fn : View → Except Err Value) (refs : List String) (hd : UniqueNames d) (hi : Instance d vals) (hc : Checksummed d f fn refs)
    (hf : d.components = pre ++ f :: post) (hdisc : f.base.discard = false) (hp : PresentFor Γ n d vals ctx f)
    (h : structToStream Γ (n + 1) d vals ctx = (bs, .ok ())) :
    ∃ v all before p after, fn (structView d vals) = .ok v ∧ structToDict Γ n d vals = .ok all ∧ Parts Γ n ctx all pre before ∧
      fieldToStream Γ n f v ctx all = (p, .ok ()) ∧ Parts Γ n ctx all post after ∧ bs = before.flatten ++ p ++ after.flatten := by
  obtain ⟨hval, -⟩ := structToStream_ok_iff.1 h
  obtain ⟨v, h1, h2⟩ := hc.valid hval
  obtain ⟨h3, h4, h5⟩ := hc.plain _ _ h2
  have hm : f.name ∈ names d := List.mem_map.2 ⟨f, hc.field, rfl⟩
  have hch : Chosen f.base (structView d vals) v := by
    cases hg : Dict.get? vals f.name with
    | none => exact .computed (not_set hi.1 hg) hc.noDefault hc.computed h2
    | some x =>
      rw [structGetItem_some hm hg] at h1
      cases h1
      exact .explicit ((structContains_iff hi.1).2 ⟨v, hg, h5⟩) (structGetItem_some hm hg)
  obtain ⟨all, before, p, after, w, h6, h7, h8, h9, h10, h11⟩ :=
    C32_struct_dumps_chosen_value Γ n d vals ctx v bs pre post f hd hi hf hdisc hp hch h4 h5 h
  rw [(recursiveToDicts_spec h7).2 h3] at h9
  exact ⟨v, all, before, p, after, h2, h6, h8, h9, h10, h11⟩

/-- **C108** (new instances) The check has no objection to an instance for which no checksum was given, if one can be computed. -/
theorem C108_fresh (d : StructDesc) (vals : Dict) (b : FieldBase) (k : Leaf) (fn : View → Except Err Value) (check : View → Except Err Unit) (v : Value)
    (refs : List String) (hd : UniqueNames d) (hi : Instance d vals) (hc : Checksummed d (.leaf b k) fn refs) (ha : Always b)
    (hrefs : ∀ r ∈ refs, Basic d.components r) (hv : fn (structView d vals) = .ok v) (hno : Dict.get? vals b.name = none)
    (hcheck : ∀ view v, view.get b.name = .ok v → fn view = .ok v → check view = .ok ()) : check (structView d vals) = .ok () := by
  have htr : Traceable d.components b := by
    intro fn' h'
    rw [show b.computeFn = some fn from hc.computed] at h'
    cases h'
    exact ⟨refs, hrefs, hc.looksUp⟩
  refine hcheck _ v ?_ hv
  show structGetItem d vals b.name = .ok v
  rw [solid_get hd hi.1 hc.field ha htr (fun v h => by rw [hno] at h; cases h)]
  unfold FieldBase.computeValueForDump
  simp only [show (structView d vals).contains b.name = false from not_set hi.1 hno, show b.dflt = .undefined from hc.noDefault,
    show b.computeFn = some fn from hc.computed, ha.1, hv, Bool.false_eq_true, if_false]
  simp [(hc.plain _ _ hv).2.1, (hc.plain _ _ hv).2.2]

/-- **C108** (stale) If the stored checksum, such as one that was loaded, does not match the values any more, then dumping raises an exception
and writes nothing. -/
theorem C108_stale_refused (Γ : Classes) (n : Nat) (d : StructDesc) (vals : Dict) (ctx v : Value) (f : Field)
    (fn : View → Except Err Value) (refs : List String) (hc : Checksummed d f fn refs) (hv : Dict.get? vals f.name = some v)
    (hne : fn (structView d vals) ≠ .ok v) : ∃ e, structToStream Γ (n + 1) d vals ctx = ([], .error e) := by
  simp only [structToStream, structToStreamWith]
  cases hval : validateContents d vals with
  | error e => exact ⟨e, rfl⟩
  | ok u =>
    obtain ⟨w, h1, h2⟩ := hc.valid (validateContents_ok_iff.1 hval)
    rw [structGetItem_some (List.mem_map.2 ⟨f, hc.field, rfl⟩) hv] at h1
    cases h1
    exact absurd h2 hne

/-- **C108** (discarded) With `discard=True` the checksum is never stale: whatever was done with an instance, also one that was loaded, a dump that
succeeds writes what the function makes of the values at that moment. -/
theorem C108_discarded_written (Γ : Classes) (n : Nat) (d : StructDesc) (vals : Dict) (ctx : Value) (bs : Bytes) (pre post : List Field) (f : Field)
    (fn : View → Except Err Value) (refs : List String) (hd : UniqueNames d) (hi : Instance d vals) (hc : Checksummed d f fn refs)
    (hf : d.components = pre ++ f :: post) (hdisc : f.base.discard = true) (hp : ∀ all : Dict, f.base.present all.view ctx none = .ok true)
    (hset : ∀ g ∈ d.components, g.name ∈ refs → g.base.present (structView d vals) .none none = .ok true ∧
      ∃ x, Dict.get? vals g.name = some x ∧ NoStruct x ∧ x ≠ .undefined)
    (h : structToStream Γ (n + 1) d vals ctx = (bs, .ok ())) :
    ∃ v all before p after, fn (structView d vals) = .ok v ∧ structToDict Γ n d vals = .ok all ∧ Parts Γ n ctx all pre before ∧
      fieldToStream Γ n f v ctx all = (p, .ok ()) ∧ Parts Γ n ctx all post after ∧ bs = before.flatten ++ p ++ after.flatten := by
  obtain ⟨-, all, h1, ps, h2, rfl⟩ := structToStream_ok_iff.1 h
  obtain ⟨hnd, -, hget⟩ := structToDict_get hd hi h1
  have hno : Dict.get? all f.name = none := by
    rcases hget f hc.field with ⟨-, -, h3⟩ | ⟨h3, -⟩
    · exact h3
    · rw [hdisc] at h3; simp at h3
  have hsame : fn all.view = fn (structView d vals) := by
    apply hc.looksUp
    intro q hq
    obtain ⟨-, g, hg, rfl, hgd⟩ := hc.others q hq
    obtain ⟨hpr, x, hx, hns, hu⟩ := hset g hg hq
    have hm : g.name ∈ names d := List.mem_map.2 ⟨g, hg, rfl⟩
    have hgi := structGetItem_some hm hx
    have hcv : g.base.computeValueForDump (structView d vals) .none = .ok x :=
      compute_set hpr ((structContains_iff hi.1).2 ⟨x, hx, hu⟩) hgi hu
    rcases hget g hg with ⟨-, h3, -⟩ | ⟨-, y, w, h3, h4, h5⟩
    · rw [hgd] at h3; simp at h3
    · have hy : y = x := by
        rcases h3 with h3 | ⟨e, h3, -⟩
        · rw [hcv] at h3; cases h3; rfl
        · rw [hcv] at h3; cases h3
      subst hy
      rw [(recursiveToDicts_spec h4).2 hns] at h5
      exact (show all.view.get g.name = .ok y by simp [Dict.view, h5]).trans hgi.symm
  rw [hf] at h2
  obtain ⟨before, p, after, rfl, h3, h5, h6⟩ := Parts.split h2
  · have hcon : all.view.contains f.base.name = false := by
      have hno : Dict.get? all f.base.name = none := hno
      show (List.lookup f.base.name all).isSome = false
      rw [show List.lookup f.base.name all = none from hno]; rfl
    have hone : ∀ v, Chosen f.base all.view v → fn all.view = .ok v := by
      intro v hv
      cases hv with
      | explicit a b => rw [hcon] at a; cases a
      | default a b c => exact absurd hc.noDefault b
      | computed a b c e => rw [hc.computed] at c; cases c; exact e
      | nothing a b c => rw [hc.computed] at c; cases c
    rcases h5 with ⟨⟨v, h7, h8⟩, -⟩ | ⟨v, h7, h8⟩
    · have h9 := hone v h7
      rcases h8 with rfl | h8
      · exact absurd rfl (hc.plain _ _ h9).2.1
      · rw [hp all] at h8; cases h8
    · have h9 := hone v h7.1
      exact ⟨v, all, before, p, after, by rw [← hsame]; exact h9, h1, h3, h8, h6, by simp⟩

/-- **C108** (corruption) The bytes of a field `g` of fixed size are overwritten with any others.  If the struct still loads, then `g` is another field
than the checksum, and the function does not tell the old values from the new ones; or nothing has changed. -/
theorem C108_detects (Γ : Classes) (n : Nat) (d : StructDesc) (ctx : Value) (pre post : List Field) (f g : Field)
    (fn : View → Except Err Value) (refs : List String) (before a x x' b : Bytes) (m vals vals' : Dict)
    (t t' : Stream) (hd : UniqueNames d) (hc : Checksummed d f fn refs) (hdisc : f.base.discard = false)
    (hg : d.components = pre ++ g :: post) (hx : x ≠ []) (hr : Rigid g x.length) (hx' : x'.length = x.length)
    (hΓ : ∀ c d, Γ c = some d → ∀ g ∈ d.components, LoadsForward g ∧ LooksBehind Γ g ∧ LooksAhead g)
    (hpre : ∀ g ∈ pre, LoadsForward g ∧ LooksBehind Γ g) (hpost : ∀ h ∈ post, LooksAhead h ∧ ReadsOff (· = g.name) h)
    (hm : Loads Γ n ctx pre [] ⟨before ++ a ++ x ++ b, before.length⟩ m ⟨before ++ a ++ x ++ b, (before ++ a).length⟩)
    (hload : structFromStream Γ (n + 1) d ⟨before ++ a ++ x ++ b, before.length⟩ ctx [] = (.ok vals, t))
    (hload' : structFromStream Γ (n + 1) d ⟨before ++ a ++ x' ++ b, before.length⟩ ctx [] = (.ok vals', t')) :
    (∀ k, Dict.get? vals' k = Dict.get? vals k) ∨
      g.name ≠ f.name ∧ g.name ∈ refs ∧ fn (structView d vals') = fn (structView d vals) ∨ g.name ≠ f.name ∧ g.name ∉ refs := by
  obtain ⟨-, hsame⟩ := C83_overwrite Γ n d ctx pre post g before a x x' b m vals vals' t t' hd hg hx hr hx' hΓ hpre hpost hm hload hload'
  obtain ⟨-, v, -, -, h1, h2⟩ := C108_loaded Γ n d _ _ ctx vals f fn refs hd hc hload
  obtain ⟨-, v', -, -, h1', h2'⟩ := C108_loaded Γ n d _ _ ctx vals' f fn refs hd hc hload'
  have h2 := h2 hdisc
  have h2' := h2' hdisc
  by_cases hgf : g.name = f.name
  · refine .inl fun k => ?_
    by_cases hk : k = g.name
    · subst hk
      rw [hgf, h2, h2', ← Except.ok.inj (h1.symm.trans (Eq.trans ?_ h1'))]
      apply hc.looksUp
      intro q hq
      obtain ⟨hqf, h, hh, rfl, hhd⟩ := hc.others q hq
      obtain ⟨y, hy⟩ := (loaded_stored hd hload).2 h hh hhd
      have hmem : h.name ∈ names d := List.mem_map.2 ⟨h, hh, rfl⟩
      have hy' : Dict.get? vals' h.name = some y := by rw [hsame h.name (by rw [hgf]; exact hqf)]; exact hy
      exact (structGetItem_some hmem hy).trans (structGetItem_some hmem hy').symm
    · exact hsame k hk
  · refine .inr ?_
    by_cases hq : g.name ∈ refs
    · refine .inl ⟨hgf, hq, ?_⟩
      rw [hsame f.name (Ne.symm hgf), h2] at h2'
      cases h2'
      rw [h1, h1']
    · exact .inr ⟨hgf, hq⟩

/-! ### An example -/

/-- `(self.kind + 3 * self.id) % 256` -/
def Sample.sealOf (view : View) : Except Err Value :=
  match view.get "kind" with
  | .error e => .error e
  | .ok a =>
    match view.get "id" with
    | .error e => .error e
    | .ok b =>
      match a, b with
      | .int a, .int b => .ok (.int ((a + 3 * b) % 256))
      | _, _ => .error .typeErr

/-- `if struct["seal"] != sealOf(struct): raise ValidationError(...)` -/
def Sample.checkSeal (view : View) : Except Err Unit :=
  match view.get "seal" with
  | .error e => .error e
  | .ok v =>
    match Sample.sealOf view with
    | .error e => .error e
    | .ok w => if v = w then .ok () else .error (.validation "seal")

/-- ```
class Sealed(Struct):
    kind = UInt8()
    id = UInt16(endian="big")
    seal = UInt8(discard=discard)

    @seal.computes
    def _seal(self): return (self.kind + 3 * self.id) % 256

    @validates_struct
    def check(self, struct): …
``` -/
def Sample.sealedWith (discard : Bool) : StructDesc :=
  { name := "Sealed"
    components := [Sample.u8 "kind", Sample.u16 "id",
      .leaf { name := "seal", typeName := "UInt8", size := .fixed 1, computeFn := some Sample.sealOf, discard := discard } (.integer false .little)]
    fieldValidators := [("kind", []), ("id", []), ("seal", [])], structValidators := [Sample.checkSeal], numOwnFields := 3 }

def Sample.sealField (discard : Bool) : Field :=
  .leaf { name := "seal", typeName := "UInt8", size := .fixed 1, computeFn := some Sample.sealOf, discard := discard } (.integer false .little)

theorem Sample.sealed_checksummed (discard : Bool) :
    Checksummed (Sample.sealedWith discard) (Sample.sealField discard) Sample.sealOf ["kind", "id"] where
  field := by simp [Sample.sealedWith, Sample.sealField]
  computed := rfl
  noDefault := rfl
  looksUp := by
    intro v₁ v₂ h
    unfold Sample.sealOf
    rw [h "kind" (by simp), h "id" (by simp)]
  others := by
    intro q hq
    simp only [List.mem_cons, List.not_mem_nil, or_false] at hq
    rcases hq with rfl | rfl
    · exact ⟨(by decide : "kind" ≠ "seal"), Sample.u8 "kind", by simp [Sample.sealedWith], rfl, rfl⟩
    · exact ⟨(by decide : "id" ≠ "seal"), Sample.u16 "id", by simp [Sample.sealedWith], rfl, rfl⟩
  plain := by
    intro view v h
    unfold Sample.sealOf at h
    split at h
    · cases h
    · split at h
      · cases h
      · split at h
        · cases h; exact ⟨.int _, by simp, by simp⟩
        · cases h
  verified := by
    refine ⟨Sample.checkSeal, by simp [Sample.sealedWith], ?_⟩
    intro view h
    unfold Sample.checkSeal at h
    split at h
    · cases h
    · rename_i v hv
      split at h
      · cases h
      · rename_i w hw
        split at h
        · rename_i hvw; subst hvw; exact ⟨v, hv, hw⟩
        · cases h

-- a new instance is dumped with its seal, and loaded
example : structToStream Sample.noClasses 4 (Sample.sealedWith false) [("kind", .int 7), ("id", .int 258)] .none = ([7, 1, 2, 13], .ok ()) ∧
    structFromStream Sample.noClasses 4 (Sample.sealedWith false) ⟨[7, 1, 2, 13], 0⟩ .none [] =
      (.ok [("kind", .int 7), ("id", .int 258), ("seal", .int 13)], ⟨[7, 1, 2, 13], 4⟩) := by decide

-- the hypotheses of `C108_fresh` are met
example (i j : Int) : Sample.checkSeal (structView (Sample.sealedWith false) [("kind", .int i), ("id", .int j)]) = .ok () :=
  C108_fresh (Sample.sealedWith false) [("kind", .int i), ("id", .int j)] (Sample.sealField false).base (.integer false .little) Sample.sealOf Sample.checkSeal
    (.int ((i + 3 * j) % 256)) ["kind", "id"] (by unfold UniqueNames; decide)
    (by unfold Instance; simp [Sample.sealedWith, names, Sample.u8, Sample.u16, Dict.keys, Field.name, Field.base]) (Sample.sealed_checksummed false)
    ⟨fun _ _ _ => rfl, rfl⟩
    (by
      intro r hr
      simp only [List.mem_cons, List.not_mem_nil, or_false] at hr
      rcases hr with rfl | rfl
      · exact ⟨_, _, .head _, rfl, ⟨fun _ _ _ => rfl, rfl⟩, rfl, rfl⟩
      · exact ⟨_, _, .tail _ (.head _), rfl, ⟨fun _ _ _ => rfl, rfl⟩, rfl, rfl⟩)
    rfl rfl
    (by
      intro view v h1 h2
      have h1 : view.get "seal" = .ok v := h1
      simp [Sample.checkSeal, h1, h2])

-- a loaded instance with another id cannot be dumped: the seal is stale
example : structToStream Sample.noClasses 4 (Sample.sealedWith false) [("kind", .int 7), ("id", .int 259), ("seal", .int 13)] .none =
    ([], .error (.validation "seal")) := by decide

-- with `discard=True` it can
example : structFromStream Sample.noClasses 4 (Sample.sealedWith true) ⟨[7, 1, 2, 13], 0⟩ .none [] =
      (.ok [("kind", .int 7), ("id", .int 258)], ⟨[7, 1, 2, 13], 4⟩) ∧
    structFromStream Sample.noClasses 4 (Sample.sealedWith true) ⟨[7, 1, 2, 14], 0⟩ .none [] = (.error (.validation "seal"), ⟨[7, 1, 2, 14], 4⟩) ∧
    structToStream Sample.noClasses 4 (Sample.sealedWith true) [("kind", .int 7), ("id", .int 259)] .none = ([7, 1, 3, 16], .ok ()) := by decide

-- the hypotheses of `C108_discarded_written` are met by all numbers that can be dumped
example (i j : Int) (bs : Bytes)
    (h : structToStream Sample.noClasses 4 (Sample.sealedWith true) [("kind", .int i), ("id", .int j)] .none = (bs, .ok ())) :=
  C108_discarded_written Sample.noClasses 3 (Sample.sealedWith true) [("kind", .int i), ("id", .int j)] .none bs [Sample.u8 "kind", Sample.u16 "id"] []
    (Sample.sealField true) Sample.sealOf ["kind", "id"] (by unfold UniqueNames; decide)
    (by unfold Instance; simp [Sample.sealedWith, names, Sample.u8, Sample.u16, Dict.keys, Field.name, Field.base]) (Sample.sealed_checksummed true) rfl rfl (fun _ => rfl)
    (by
      intro g hg hq
      simp only [Sample.sealedWith, List.mem_cons, List.not_mem_nil, or_false] at hg
      rcases hg with rfl | rfl | rfl
      · exact ⟨rfl, _, rfl, .int _, by simp⟩
      · exact ⟨rfl, _, rfl, .int _, by simp⟩
      · simp [Field.name, Field.base] at hq) h

-- any byte put in the place of the kind is noticed
example (k : UInt8) (vals' : Dict) (t' : Stream)
    (h : structFromStream Sample.noClasses 4 (Sample.sealedWith false) ⟨[] ++ [] ++ [k] ++ [1, 2, 13], 0⟩ .none [] = (.ok vals', t')) :=
  C108_detects Sample.noClasses 3 (Sample.sealedWith false) .none [] [Sample.u16 "id", Sample.sealField false] (Sample.sealField false) (Sample.u8 "kind")
    Sample.sealOf ["kind", "id"] [] [] [7] [k] [1, 2, 13] [] [("kind", .int 7), ("id", .int 258), ("seal", .int 13)] vals' ⟨[7, 1, 2, 13], 4⟩ t'
    (by unfold UniqueNames; decide) (Sample.sealed_checksummed false) rfl rfl (by simp) (.leaf trivial rfl (by simp) (fun _ _ _ => rfl) (Or.inl rfl)) rfl
    (by simp [Sample.noClasses]) (by simp)
    (by
      intro g hg
      simp only [List.mem_cons, List.not_mem_nil, or_false] at hg
      rcases hg with rfl | rfl
      · exact ⟨.leaf (fun _ _ _ _ _ => rfl) (by simp), .leaf ⟨by simp, by simp, fun _ _ _ _ _ => rfl⟩ (by simp)⟩
      · exact ⟨.leaf (fun _ _ _ _ _ => rfl) (by simp), .leaf ⟨by simp, by simp, fun _ _ _ _ _ => rfl⟩ (by simp)⟩)
    (.nil _ _) (by decide) h

/-- **C108** refuted for `partial_load` and `get_field`: they do not run the checks, also if all of the struct is loaded. -/
theorem C108_partial_refuted :
    structPartialLoad Sample.noClasses 4 (Sample.sealedWith false) ⟨[7, 1, 2, 99], 0⟩ none .none =
      (.ok [("kind", .int 7), ("id", .int 258), ("seal", .int 99)], ⟨[7, 1, 2, 99], 4⟩) ∧
    structGetField Sample.noClasses 4 (Sample.sealedWith false) ⟨[7, 1, 2, 99], 0⟩ "seal" .none = (.ok (.int 99), ⟨[7, 1, 2, 99], 0⟩) ∧
    structFromStream Sample.noClasses 4 (Sample.sealedWith false) ⟨[7, 1, 2, 99], 0⟩ .none [] =
      (.error (.validation "seal"), ⟨[7, 1, 2, 99], 4⟩) := by decide

end Verif
