import Verif.Proofs.Splice
import Verif.Props.Size

/-!
# C82: the same bytes load the same wherever they are; C83: replacing the bytes of one field
-/

namespace Verif
open Spec

/-! ## C82 -/

/-- **C82** If nothing the user supplied for the fields of the classes involved looks at the position or at the bytes behind it, then loading a field or a
struct depends on the bytes ahead only.  With the same bytes ahead, at any position and after any other bytes, it gives the same value or raises the
same exception (offsets in `UnexpectedEOFError` moved along), and takes the same number of bytes. -/
theorem C82_position (Γ : Classes) (n : Nat) (hΓ : ∀ c d, Γ c = some d → ∀ f ∈ d.components, LooksAhead f) :
    (∀ f ctx loaded, LooksAhead f → Ahead fun s => fieldFromStream Γ n f s ctx loaded) ∧
    (∀ d ctx kw, (∀ f ∈ d.components, LooksAhead f) → Ahead fun s => structFromStream Γ n d s ctx kw) :=
  ⟨fun f ctx loaded hf δ s t h => (load_moved hΓ δ n).1 f hf ctx loaded s t h,
    fun d ctx kw hd δ s t h => (load_moved hΓ δ n).2.2 d hd ctx kw s t h⟩

/-- **C82**, for a struct that loads: it loads the same from the middle of a file. -/
theorem C82_anywhere (Γ : Classes) (n : Nat) (d : StructDesc) (ctx : Value) (kw vals : Dict) (bs : Bytes) (k : Nat)
    (hΓ : ∀ c d, Γ c = some d → ∀ f ∈ d.components, LooksAhead f ∧ LoadsForward f)
    (hd : ∀ f ∈ d.components, LooksAhead f ∧ LoadsForward f) (h : structFromStream Γ n d ⟨bs, 0⟩ ctx kw = (.ok vals, ⟨bs, k⟩)) (before : Bytes) :
    structFromStream Γ n d ⟨before ++ bs, before.length⟩ ctx kw = (.ok vals, ⟨before ++ bs, before.length + k⟩) := by
  have hm : Moved before.length ⟨bs, 0⟩ ⟨before ++ bs, before.length⟩ := ⟨by simp [Stream.rest], by simp⟩
  obtain ⟨h1, -, h2⟩ := (load_moved (fun c d hc f hf => (hΓ c d hc f hf).1) _ n).2.2 d (fun f hf => (hd f hf).1) ctx kw _ _ hm
  have h3 := (load_forward Γ (fun c d hc f hf => (hΓ c d hc f hf).2) n).2.2 d (fun f hf => (hd f hf).2) ctx kw ⟨before ++ bs, before.length⟩ (by simp)
  rcases h4 : structFromStream Γ n d ⟨before ++ bs, before.length⟩ ctx kw with ⟨y, ⟨data, pos⟩⟩
  rw [h, h4] at h1 h2
  simp only [h4] at h3
  rcases h1 with ⟨a, h5, h6⟩ | ⟨e, e', h5, -, -⟩
  · simp only [Except.ok.injEq] at h5 h6
    subst h5
    rw [h6, h3.1, show pos = before.length + k by simp only at h2; omega]
  · simp at h5

/-- The condition is needed: a `present` callable that asks the stream for its position makes a field depend on where it is. -/
theorem C82_tell_refuted :
    let f := Sample.upd (Sample.u8 "x") ({ · with present := fun _ _ s => .ok (s.any (·.pos = 0)) })
    fieldFromStream Sample.noClasses 3 f ⟨[5], 0⟩ .none [] = (.ok (.int 5), ⟨[5], 1⟩) ∧
    fieldFromStream Sample.noClasses 3 f ⟨[9, 5], 1⟩ .none [] = (.ok .notPresent, ⟨[9, 5], 1⟩) := by decide

theorem Sample.record_ahead : ∀ f ∈ Sample.record.components, LooksAhead f ∧ LoadsForward f := by
  intro f hf
  simp [Sample.record, Sample.u8, Sample.bytesRef, Sample.strz] at hf
  rcases hf with rfl | rfl | rfl <;> exact ⟨.leaf (fun _ _ _ _ _ => rfl) (by simp), .leaf (by simp)⟩

-- non-vacuity: a `Record` loads from the middle of any file
example (before : Bytes) : structFromStream Sample.noClasses 4 Sample.record ⟨before ++ [2, 7, 8, 0x61, 0, 1], before.length⟩ .none [] =
    (.ok [("n", .int 2), ("payload", .bytes [7, 8]), ("title", .str [0x61])], ⟨before ++ [2, 7, 8, 0x61, 0, 1], before.length + 5⟩) :=
  C82_anywhere Sample.noClasses 4 Sample.record .none [] _ [2, 7, 8, 0x61, 0, 1] 5 (by simp [Sample.noClasses]) Sample.record_ahead (by decide) before

-- a truncated one says where in the file it was cut off
example : Ahead fun s => structFromStream Sample.noClasses 4 Sample.record s .none [] :=
  (C82_position Sample.noClasses 4 (by simp [Sample.noClasses])).2 Sample.record .none [] (fun f hf => (Sample.record_ahead f hf).1)

example : structFromStream Sample.noClasses 4 Sample.record ⟨[2, 7], 0⟩ .none [] = (.error (.eof (some "payload") 2 1), ⟨[2, 7], 2⟩) ∧
    structFromStream Sample.noClasses 4 Sample.record ⟨[0, 0, 0, 2, 7], 3⟩ .none [] = (.error (.eof (some "payload") 2 4), ⟨[0, 0, 0, 2, 7], 5⟩) := by
  decide

/-! ## C83 -/

/-- **C83** Loading a struct from `before ++ a ++ x ++ b`, the field `f` has taken the bytes `x`.  If they are replaced by `x'`, of whatever length, from
which `f` loads `v'`, then loading the struct gives the same values for all other fields, and `v'` for `f`; unless the validators object to the new
values.  Conditions: the fields before `f` do not look ahead, those after `f` do not look back, nor at the value of `f`. -/
theorem C83_replace (Γ : Classes) (n : Nat) (d : StructDesc) (ctx : Value) (pre post : List Field) (f : Field) (before a x x' b : Bytes) (m vals : Dict)
    (v v' : Value) (t : Stream) (hd : UniqueNames d) (hf : d.components = pre ++ f :: post) (hx : x ≠ [])
    (hΓ : ∀ c d, Γ c = some d → ∀ g ∈ d.components, LoadsForward g ∧ LooksBehind Γ g ∧ LooksAhead g)
    (hpre : ∀ g ∈ pre, LoadsForward g ∧ LooksBehind Γ g) (hpost : ∀ g ∈ post, LooksAhead g ∧ ReadsOff (· = f.name) g)
    (hload : structFromStream Γ (n + 1) d ⟨before ++ a ++ x ++ b, before.length⟩ ctx [] = (.ok vals, t))
    (hm : Loads Γ n ctx pre [] ⟨before ++ a ++ x ++ b, before.length⟩ m ⟨before ++ a ++ x ++ b, (before ++ a).length⟩)
    (hv : fieldFromStream Γ n f ⟨before ++ a ++ x ++ b, (before ++ a).length⟩ ctx m =
      (.ok v, ⟨before ++ a ++ x ++ b, (before ++ a ++ x).length⟩))
    (hv' : fieldFromStream Γ n f ⟨before ++ a ++ x' ++ b, (before ++ a).length⟩ ctx m =
      (.ok v', ⟨before ++ a ++ x' ++ b, (before ++ a ++ x').length⟩)) :
    ∃ vals' t', (t'.pos : Int) = t.pos + x'.length - x.length ∧ (∀ k, k ≠ f.name → Dict.get? vals' k = Dict.get? vals k) ∧
      (Dict.get? vals' f.name = if f.base.discard then none else some v') ∧
      (structFromStream Γ (n + 1) d ⟨before ++ a ++ x' ++ b, before.length⟩ ctx [] = (.ok vals', t') ∨
        ∃ e all, validateContents d all = .error e ∧
          structFromStream Γ (n + 1) d ⟨before ++ a ++ x' ++ b, before.length⟩ ctx [] = (.error e, t')) := by
  obtain ⟨results, hl, hkeys, -, rfl⟩ := structFromStream_ok_iff.1 hload
  have hnd := hd
  unfold UniqueNames names at hnd
  rw [hf] at hl hnd
  obtain ⟨m', u, h1, h2⟩ := Loads.append.1 hl
  have hdet := (loadFields_ok_iff.2 hm).symm.trans (loadFields_ok_iff.2 h1)
  simp only [Prod.mk.injEq, Except.ok.injEq] at hdet
  obtain ⟨rfl, rfl⟩ := hdet
  cases h2 with
  | @cons _ _ _ _ w _ t1 _ h3 h4 =>
    rw [hv] at h3
    simp only [Prod.mk.injEq, Except.ok.injEq] at h3
    obtain ⟨rfl, rfl⟩ := h3
    -- the fields before
    have e1 : ∀ y, before ++ a ++ y ++ b = before ++ a ++ (y ++ b) := by simp
    have e2 : (before ++ a).length = before.length + a.length := by simp
    have hm' : Loads Γ n ctx pre [] ⟨before ++ a ++ x' ++ b, before.length⟩ m ⟨before ++ a ++ x' ++ b, (before ++ a).length⟩ := by
      rw [e1, e2] at hm ⊢
      exact loads_local (fun c d hc g hg => (hΓ c d hc g hg).1) (fun c d hc g hg => (hΓ c d hc g hg).2.1) (fun g hg => (hpre g hg).1)
        (fun g hg => (hpre g hg).2) hm (by simp [hx]) _
    have hnone : Dict.get? m f.name = none := by
      rw [Dict.get?_none_iff]
      intro hmem
      rcases (hm.keys f.name).1 hmem with h | h
      · simp [Dict.keys] at h
      · rw [List.map_append, List.nodup_append] at hnd
        exact hnd.2.2 _ h f.name (by simp) rfl
    rw [if_pos hnone] at h4
    -- the fields after
    have happ : ∀ z k, Dict.get? (m ++ [(f.name, z)]) k = if f.name = k then some z else Dict.get? m k := by
      intro z k
      rw [← set_of_not_mem hnone, Dict.get?_set]
    have hmov : Moved ((x'.length : Int) - x.length) ⟨before ++ a ++ x ++ b, (before ++ a ++ x).length⟩
        ⟨before ++ a ++ x' ++ b, (before ++ a ++ x').length⟩ :=
      ⟨by simp only [rest_mid], by simp only [List.length_append]; omega⟩
    obtain ⟨r', t', h5, h6, h7⟩ := loads_moved_off (S := (· = f.name)) (fun c d hc g hg => (hΓ c d hc g hg).2.2) h4 hpost (m ++ [(f.name, v')]) _
      (by intro k hk; rw [happ, happ, if_neg (Ne.symm hk), if_neg (Ne.symm hk)])
      (by intro k hk; subst hk; rw [happ, happ]; simp) hmov
    have hl' : Loads Γ n ctx d.components [] ⟨before ++ a ++ x' ++ b, before.length⟩ r' t' := by
      rw [hf]
      exact Loads.append.2 ⟨m, _, hm', .cons hv' (by rw [if_pos hnone]; exact h5)⟩
    have hfm : f ∈ d.components := by rw [hf]; simp
    have hvf : Dict.get? r' f.name = some v' := by
      apply h5.mono_get
      rw [happ, if_pos rfl]
    refine ⟨dropDiscarded d r', t', ?_, ?_, ?_, ?_⟩
    · have := h6.2; omega
    · intro k hk
      unfold dropDiscarded
      rw [Dict.get?_foldl_erase Field.name, Dict.get?_foldl_erase Field.name, h7 k hk]
    · rw [dropDiscarded_get hd _ hfm, hvf]
    · cases hval : validateContents d r' with
      | ok _ =>
        left
        refine structFromStream_ok_iff.2 ⟨r', hl', ?_, validateContents_ok_iff.1 hval, rfl⟩
        intro k hk
        rcases (hl'.keys k).1 hk with h | h
        · simp [Dict.keys] at h
        · exact h
      | error e =>
        right
        refine ⟨e, r', hval, ?_⟩
        simp only [structFromStream, structFromStreamWith]
        rw [loadFields_ok_iff.2 hl']
        simp only
        rw [structInit_ok_iff.2 ⟨rfl, fun k hk => by
          rcases (hl'.keys k).1 hk with h | h
          · simp [Dict.keys] at h
          · exact h⟩]
        simp only [hval]

/-- **C83**, for a field of fixed size, such as a number: overwrite its bytes with any others.  If the struct still loads, all other fields have the
values they had, and the struct ends where it ended. -/
theorem C83_overwrite (Γ : Classes) (n : Nat) (d : StructDesc) (ctx : Value) (pre post : List Field) (f : Field) (before a x x' b : Bytes) (m vals vals' : Dict)
    (t t' : Stream) (hd : UniqueNames d) (hf : d.components = pre ++ f :: post) (hx : x ≠ []) (hr : Rigid f x.length) (hx' : x'.length = x.length)
    (hΓ : ∀ c d, Γ c = some d → ∀ g ∈ d.components, LoadsForward g ∧ LooksBehind Γ g ∧ LooksAhead g)
    (hpre : ∀ g ∈ pre, LoadsForward g ∧ LooksBehind Γ g) (hpost : ∀ g ∈ post, LooksAhead g ∧ ReadsOff (· = f.name) g)
    (hm : Loads Γ n ctx pre [] ⟨before ++ a ++ x ++ b, before.length⟩ m ⟨before ++ a ++ x ++ b, (before ++ a).length⟩)
    (hload : structFromStream Γ (n + 1) d ⟨before ++ a ++ x ++ b, before.length⟩ ctx [] = (.ok vals, t))
    (hload' : structFromStream Γ (n + 1) d ⟨before ++ a ++ x' ++ b, before.length⟩ ctx [] = (.ok vals', t')) :
    t'.pos = t.pos ∧ ∀ k, k ≠ f.name → Dict.get? vals' k = Dict.get? vals k := by
  have hfield : ∀ y w u, y.length = x.length → structFromStream Γ (n + 1) d ⟨before ++ a ++ y ++ b, before.length⟩ ctx [] = (.ok w, u) →
      Loads Γ n ctx pre [] ⟨before ++ a ++ y ++ b, before.length⟩ m ⟨before ++ a ++ y ++ b, (before ++ a).length⟩ →
      ∃ v, fieldFromStream Γ n f ⟨before ++ a ++ y ++ b, (before ++ a).length⟩ ctx m =
        (.ok v, ⟨before ++ a ++ y ++ b, (before ++ a ++ y).length⟩) := by
    intro y w u hy h hm
    obtain ⟨results, hl, -, -, -⟩ := structFromStream_ok_iff.1 h
    rw [hf] at hl
    obtain ⟨m', u, h1, h2⟩ := Loads.append.1 hl
    have hdet := (loadFields_ok_iff.2 hm).symm.trans (loadFields_ok_iff.2 h1)
    simp only [Prod.mk.injEq, Except.ok.injEq] at hdet
    obtain ⟨rfl, rfl⟩ := hdet
    cases h2 with
    | @cons _ _ _ _ z _ t1 _ h3 h4 =>
      obtain ⟨h5, h6, -, -⟩ := hr.load (by simp) h3
      refine ⟨z, h3.trans ?_⟩
      obtain ⟨dd, pp⟩ := t1
      simp only at h5 h6
      simp [h5, h6, hy, Nat.add_assoc]
  have e1 : ∀ y, before ++ a ++ y ++ b = before ++ a ++ (y ++ b) := by simp
  have e2 : (before ++ a).length = before.length + a.length := by simp
  have hm' : Loads Γ n ctx pre [] ⟨before ++ a ++ x' ++ b, before.length⟩ m ⟨before ++ a ++ x' ++ b, (before ++ a).length⟩ := by
    rw [e1, e2] at hm ⊢
    exact loads_local (fun c d hc g hg => (hΓ c d hc g hg).1) (fun c d hc g hg => (hΓ c d hc g hg).2.1) (fun g hg => (hpre g hg).1)
      (fun g hg => (hpre g hg).2) hm (by simp [hx]) _
  obtain ⟨v, hv⟩ := hfield x vals t rfl hload hm
  obtain ⟨v', hv'⟩ := hfield x' vals' t' hx' hload' hm'
  obtain ⟨w, u, h1, h2, -, h3⟩ := C83_replace Γ n d ctx pre post f before a x x' b m vals v v' t hd hf hx hΓ hpre hpost hload hm hv hv'
  rcases h3 with h3 | ⟨e, -, -, h3⟩
  · rw [h3] at hload'
    simp only [Prod.mk.injEq, Except.ok.injEq] at hload'
    obtain ⟨rfl, rfl⟩ := hload'
    exact ⟨by omega, h2⟩
  · rw [h3] at hload'
    simp at hload'

/-- The fields after must not look at the value of the field: overwriting the byte that holds the size of another field changes other fields too. -/
theorem C83_size_refuted :
    structFromStream Sample.noClasses 4 Sample.record ⟨[2, 7, 8, 0x61, 0], 0⟩ .none [] =
      (.ok [("n", .int 2), ("payload", .bytes [7, 8]), ("title", .str [0x61])], ⟨[2, 7, 8, 0x61, 0], 5⟩) ∧
    structFromStream Sample.noClasses 4 Sample.record ⟨[1, 7, 8, 0x61, 0], 0⟩ .none [] =
      (.ok [("n", .int 1), ("payload", .bytes [7]), ("title", .str [8, 0x61])], ⟨[1, 7, 8, 0x61, 0], 5⟩) := by decide

/-- ```
class Labelled(Struct):
    kind = UInt8()
    label = StringZ()
    id = UInt16(endian="big")
``` -/
def Sample.labelled : StructDesc :=
  { name := "Labelled", components := [Sample.u8 "kind", Sample.strz "label", Sample.u16 "id"]
    fieldValidators := [("kind", []), ("label", []), ("id", [])], numOwnFields := 3 }

-- non-vacuity: another label, of another length, in a struct somewhere in a file
example : ∃ vals' t', structFromStream Sample.noClasses 4 Sample.labelled ⟨[9, 9] ++ [7] ++ [0x62, 0x63, 0x64, 0] ++ [1, 2, 9], 2⟩ .none [] =
      (.ok vals', t') ∧ t'.pos = 9 ∧ Dict.get? vals' "label" = some (.str [0x62, 0x63, 0x64]) ∧ Dict.get? vals' "kind" = some (.int 7) ∧
      Dict.get? vals' "id" = some (.int 258) := by
  obtain ⟨vals', t', h1, h2, h3, h4⟩ := C83_replace Sample.noClasses 3 Sample.labelled .none [Sample.u8 "kind"] [Sample.u16 "id"] (Sample.strz "label")
    [9, 9] [7] [0x61, 0] [0x62, 0x63, 0x64, 0] [1, 2, 9] [("kind", .int 7)] [("kind", .int 7), ("label", .str [0x61]), ("id", .int 258)]
    (.str [0x61]) (.str [0x62, 0x63, 0x64]) ⟨[9, 9] ++ [7] ++ [0x61, 0] ++ [1, 2, 9], 7⟩ (by unfold UniqueNames; decide) rfl (by simp)
    (by simp [Sample.noClasses])
    (by intro g hg; simp at hg; subst hg; exact ⟨.leaf (by simp), .leaf ⟨fun _ _ _ _ _ => rfl, Or.inl rfl⟩ (by simp)⟩)
    (by
      intro g hg; simp at hg; subst hg
      exact ⟨.leaf (fun _ _ _ _ _ => rfl) (by simp), .leaf ⟨by simp, by simp, fun _ _ _ _ _ => rfl⟩ (by simp)⟩)
    (by decide) (loadFields_ok_iff.1 (by decide)) (by decide) (by decide)
  rcases h4 with h4 | ⟨e, all, h5, h4⟩
  · refine ⟨vals', t', h4, by simp at h1; omega, h3, ?_, ?_⟩
    · rw [h2 "kind" (by decide)]; rfl
    · rw [h2 "id" (by decide)]; rfl
  · exfalso
    revert h4
    have : (structFromStream Sample.noClasses 4 Sample.labelled ⟨[9, 9] ++ [7] ++ [0x62, 0x63, 0x64, 0] ++ [1, 2, 9], 2⟩ .none []).1 ≠ .error e := by
      rw [show (structFromStream Sample.noClasses 4 Sample.labelled ⟨[9, 9] ++ [7] ++ [0x62, 0x63, 0x64, 0] ++ [1, 2, 9], 2⟩ .none []).1 =
        .ok [("kind", .int 7), ("label", .str [0x62, 0x63, 0x64]), ("id", .int 258)] by decide]
      simp
    intro h4
    exact this (by rw [show (2 : Nat) = [(9 : UInt8), 9].length from rfl, h4])

-- … and another kind, whatever byte it is
example (k : UInt8) (vals' : Dict) (t' : Stream)
    (h : structFromStream Sample.noClasses 4 Sample.labelled ⟨[] ++ [] ++ [k] ++ [0x61, 0, 1, 2], 0⟩ .none [] = (.ok vals', t')) :
    t'.pos = 5 ∧ Dict.get? vals' "label" = some (.str [0x61]) ∧ Dict.get? vals' "id" = some (.int 258) := by
  have hw := C83_overwrite Sample.noClasses 3 Sample.labelled .none [] [Sample.strz "label", Sample.u16 "id"] (Sample.u8 "kind") [] [] [7] [k]
    [0x61, 0, 1, 2] [] [("kind", .int 7), ("label", .str [0x61]), ("id", .int 258)] vals' ⟨[7, 0x61, 0, 1, 2], 5⟩ t'
    (by unfold UniqueNames; decide) rfl (by simp)
    (.leaf trivial rfl (by simp) (fun _ _ _ => rfl) (Or.inl rfl)) rfl (by simp [Sample.noClasses]) (by simp)
    (by
      intro g hg
      simp [Sample.strz, Sample.u16] at hg
      rcases hg with rfl | rfl
      · exact ⟨.leaf (fun _ _ _ _ _ => rfl) (by simp), .leaf ⟨fun _ => by decide, by simp, fun _ _ _ _ _ => rfl⟩ (by simp)⟩
      · exact ⟨.leaf (fun _ _ _ _ _ => rfl) (by simp), .leaf ⟨by simp, by simp, fun _ _ _ _ _ => rfl⟩ (by simp)⟩)
    (.nil _ _) (by decide) h
  exact ⟨hw.1, by rw [hw.2 "label" (by decide)]; rfl, by rw [hw.2 "id" (by decide)]; rfl⟩

end Verif
