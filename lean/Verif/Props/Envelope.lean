import Verif.Proofs.Envelope
import Verif.Props.Container
import Verif.Props.Locality
import Verif.Props.Position
import Verif.Props.Rebuild
import Verif.Props.Frame

/-!
# Nested structs and opaque payloads

C112.
-/

namespace Verif
open Spec

/-- **C112** (opening) A message class has a `Bytes` field, and a message was loaded whose payload `x`, on its own, is a complete `Inner`.  The class
with `Nested(Inner)` in the place of the `Bytes` field loads the same message from the same place: the same values for all other fields, the struct that
`Inner` loads from the payload, and it stops at the same place; unless the validators of that class object. -/
theorem C112_open (Γ : Classes) (n : Nat) (d d' : StructDesc) (ctx : Value) (pre post : List Field) (b b' : FieldBase) (cls : String)
    (inner : StructDesc) (s t : Stream) (vals' iv : Dict) (x : Bytes) (hd : UniqueNames d)
    (hsw : OneFieldApart d d' pre (.nested b cls) (.leaf b' .bytes) post) (hcls : Γ cls = some inner)
    (hΓ : ∀ c e, Γ c = some e → (∀ g ∈ e.components, LoadsForward g ∧ LooksBehind Γ g ∧ LooksAhead g ∧ SelfLimited g) ∧ SizeFieldsNonNeg Γ e)
    (hpre : ∀ g ∈ pre, LoadsForward g) (hpost : ∀ g ∈ post, ReadsOff (· = b.name) g)
    (hb : Plain b (.struct cls iv)) (hb' : ∀ w c s, b'.present w c s = .ok true) (hs : s.pos ≤ s.data.length)
    (h : structFromStream Γ (n + 3) d' s ctx [] = (.ok vals', t)) (hx : Dict.get? vals' b.name = some (.bytes x))
    (hin : structFromStream Γ n inner ⟨x, 0⟩ ctx [] = (.ok iv, ⟨x, x.length⟩)) :
    ∃ vals, LoadsUnlessRejected Γ (n + 3) d s ctx vals t ∧ (∀ k, k ≠ b.name → Dict.get? vals k = Dict.get? vals' k) ∧
      Dict.get? vals b.name = if b.discard then none else some (.struct cls iv) := by
  have hd' := hsw.unique hd
  have hname : b'.name = b.name := hsw.name
  obtain ⟨results, hl, hkeys, -, rfl⟩ := structFromStream_ok_iff.1 h
  have hfm : Field.leaf b' .bytes ∈ d'.components := by rw [hsw.right]; simp
  have hxr : Dict.get? results b.name = some (.bytes x) := by
    have := dropDiscarded_get hd' results hfm
    rw [show (Field.leaf b' .bytes).name = b.name from hname] at this
    rw [this] at hx
    split at hx
    · simp at hx
    · exact hx
  rw [hsw.right] at hl
  obtain ⟨m, u, h1, h2⟩ := Loads.append.1 hl
  cases h2 with
  | @cons _ _ _ _ v _ w _ h3 h4 =>
    have hnone : Dict.get? m b.name = none := by
      rw [Dict.get?_none_iff]
      intro hmem
      rcases (h1.keys b.name).1 hmem with h | h
      · simp [Dict.keys] at h
      · have hnd := hd'
        unfold UniqueNames Spec.names at hnd
        rw [hsw.right, List.map_append, List.nodup_append] at hnd
        exact hnd.2.2 _ h b.name (by simp; exact Or.inl hname.symm) rfl
    rw [show (Field.leaf b' .bytes).name = b.name from hname, if_pos hnone] at h4
    have hv : v = .bytes x := by
      have := h4.mono_get (k := b.name) (v := v) (by rw [← set_of_not_mem hnone, Dict.get?_set, if_pos rfl])
      rw [hxr] at this
      simpa using this.symm
    subst hv
    have hu : u.pos ≤ u.data.length := by
      have := loads_forward (fun c e hc g hg => ((hΓ c e hc).1 g hg).1) hpre h1 hs
      rw [this.1]; exact this.2.2
    have hread : ∃ e, readExactSize b'.name e u = (.ok x, w) := by
      rcases fieldFromStream_ok h3 with ⟨h5, -, -⟩ | ⟨-, -, ⟨-, h5, -⟩ | ⟨z, h5, h6⟩⟩
      · rw [show (Field.leaf b' .bytes).base.present = b'.present from rfl, hb'] at h5; simp at h5
      · simp at h5
      · rcases h6 with h6 | ⟨h6, -⟩
        · subst h6
          refine ⟨leafExpectedSize b' .bytes m, ?_⟩
          simp only [fieldDoLoad, leafLoad] at h5
          rcases hr : readExactSize b'.name (leafExpectedSize b' .bytes m) u with ⟨r, w'⟩
          rw [hr] at h5
          cases r with
          | error e => simp [R.map, Except.map] at h5
          | ok y =>
            simp [R.map, Except.map] at h5
            rw [h5.1, h5.2]
        · simp at h6
    obtain ⟨e, hread⟩ := hread
    obtain ⟨p, q, hu1, hw1⟩ := bytes_load hu hread
    have hloc := (C63_local_to_end_partial Γ n (fun c e hc g hg => ((hΓ c e hc).1 g hg).1) (fun c e hc g hg => ((hΓ c e hc).1 g hg).2.1)
      (fun c e hc => ⟨fun g hg => ((hΓ c e hc).1 g hg).2.2.2, (hΓ c e hc).2⟩)).2 inner ctx (fun g hg => ((hΓ _ _ hcls).1 g hg).1)
      (fun g hg => ((hΓ _ _ hcls).1 g hg).2.1) (fun g hg => ((hΓ _ _ hcls).1 g hg).2.2.2) (hΓ _ _ hcls).2
    have h5 := hloc [] x [] iv (by simpa using hin) (Or.inr rfl) q
    have h6 := C82_anywhere Γ n inner ctx [] iv (x ++ q) x.length (fun c e hc g hg => ⟨((hΓ c e hc).1 g hg).2.2.1, ((hΓ c e hc).1 g hg).1⟩)
      (fun g hg => ⟨((hΓ _ _ hcls).1 g hg).2.2.1, ((hΓ _ _ hcls).1 g hg).1⟩) (by simpa using h5) p
    have h7 : fieldFromStream Γ (n + 2) (.nested b cls) u ctx m = (.ok (.struct cls iv), w) := by
      rw [hu1, hw1]
      exact C42_nested_load Γ n b cls inner _ _ iv ctx m hcls hb (by simpa [List.append_assoc] using h6)
    have h8 := swap_load (v := .bytes x) hd' hsw.symm (f := .leaf b' .bytes) (f' := .nested b cls)
      (by rw [show (Field.leaf b' .bytes).name = b.name from hname]; exact hpost) h1
      (by rw [show (Field.leaf b' .bytes).name = b.name from hname]; exact h4) h7
    rw [show (Field.leaf b' .bytes).name = b.name from hname] at h8
    exact h8

/-- **C112** (sealing) A message class has a field `Nested(Inner)`, and a message was loaded.  The bytes `x` that the inner struct took are, on their own,
a complete `Inner` with the same values; and the class with a `Bytes` field in the place of the `Nested` field, of a size that is the number of these
bytes, loads the same message from the same place: the same values for all other fields, and `x` for the payload; unless the validators of that class
object. -/
theorem C112_seal (Γ : Classes) (n : Nat) (d d' : StructDesc) (ctx : Value) (pre post : List Field) (b b' : FieldBase) (cls : String)
    (inner : StructDesc) (s t : Stream) (vals iv : Dict) (hd : UniqueNames d)
    (hsw : OneFieldApart d d' pre (.nested b cls) (.leaf b' .bytes) post) (hcls : Γ cls = some inner)
    (hΓ : ∀ c e, Γ c = some e → ∀ g ∈ e.components, LoadsForward g ∧ LooksBehind Γ g ∧ LooksAhead g)
    (hpre : ∀ g ∈ pre, LoadsForward g) (hpost : ∀ g ∈ post, ReadsOff (· = b.name) g)
    (hb : ∀ w c s, b.present w c s = .ok true) (hs : s.pos ≤ s.data.length)
    (h : structFromStream Γ (n + 3) d s ctx [] = (.ok vals, t)) (hx : Dict.get? vals b.name = some (.struct cls iv)) :
    ∃ m u x, Loads Γ (n + 2) ctx pre [] s m u ∧ s.data = u.data ∧ x <+: u.rest ∧
      structFromStream Γ n inner ⟨x, 0⟩ ctx [] = (.ok iv, ⟨x, x.length⟩) ∧
      (Plain b' (.bytes x) → DeclaredSize (.leaf b' .bytes) m x.length →
        ∃ vals', LoadsUnlessRejected Γ (n + 3) d' s ctx vals' t ∧ (∀ k, k ≠ b.name → Dict.get? vals' k = Dict.get? vals k) ∧
          Dict.get? vals' b.name = if b'.discard then none else some (.bytes x)) := by
  have hd' := hsw.unique hd
  have hname : b'.name = b.name := hsw.name
  obtain ⟨results, hl, hkeys, -, rfl⟩ := structFromStream_ok_iff.1 h
  have hfm : Field.nested b cls ∈ d.components := by rw [hsw.left]; simp
  have hxr : Dict.get? results b.name = some (.struct cls iv) := by
    have := dropDiscarded_get hd results hfm
    rw [show (Field.nested b cls).name = b.name from rfl] at this
    rw [this] at hx
    split at hx
    · simp at hx
    · exact hx
  rw [hsw.left] at hl
  obtain ⟨m, u, h1, h2⟩ := Loads.append.1 hl
  cases h2 with
  | @cons _ _ _ _ v _ w _ h3 h4 =>
    have hnone : Dict.get? m b.name = none := by
      rw [Dict.get?_none_iff]
      intro hmem
      rcases (h1.keys b.name).1 hmem with h | h
      · simp [Dict.keys] at h
      · have hnd := hd
        unfold UniqueNames Spec.names at hnd
        rw [hsw.left, List.map_append, List.nodup_append] at hnd
        exact hnd.2.2 _ h b.name (by simp; exact Or.inl rfl) rfl
    rw [show (Field.nested b cls).name = b.name from rfl, if_pos hnone] at h4
    have hv : v = .struct cls iv := by
      have := h4.mono_get (k := b.name) (v := v) (by rw [← set_of_not_mem hnone, Dict.get?_set, if_pos rfl])
      rw [hxr] at this
      simpa using this.symm
    subst hv
    have hfw := loads_forward (fun c e hc g hg => (hΓ c e hc g hg).1) hpre h1 hs
    have hu : u.pos ≤ u.data.length := by rw [hfw.1]; exact hfw.2.2
    have hnest : structFromStream Γ n inner u ctx [] = (.ok iv, w) := by
      rcases fieldFromStream_ok h3 with ⟨h5, -, -⟩ | ⟨-, -, ⟨-, h5, -⟩ | ⟨z, h5, h6⟩⟩
      · rw [show (Field.nested b cls).base.present = b.present from rfl, hb] at h5; simp at h5
      · simp at h5
      · rcases h6 with h6 | ⟨h6, -⟩
        · subst h6
          simp only [fieldDoLoad, containerLoad, loadStruct, hcls] at h5
          rcases hr : structFromStream Γ n inner u ctx [] with ⟨r, w'⟩
          rw [hr] at h5
          cases r with
          | error e => simp [R.map, Except.map] at h5
          | ok y =>
            simp [R.map, Except.map] at h5
            rw [h5.1, h5.2]
        · simp at h6
    have hfw2 := (load_forward Γ (fun c e hc g hg => (hΓ c e hc g hg).1) n).2.2 inner (fun g hg => (hΓ _ _ hcls g hg).1) ctx [] u hu
    simp only [hnest] at hfw2
    obtain ⟨hw1, hw2, hw3⟩ := hfw2
    obtain ⟨p, x, q, hu1, hw4⟩ : ∃ p x q, u = ⟨p ++ x ++ q, p.length⟩ ∧ w = ⟨p ++ x ++ q, p.length + x.length⟩ := by
      refine ⟨u.data.take u.pos, (u.data.drop u.pos).take (w.pos - u.pos), (u.data.drop u.pos).drop (w.pos - u.pos), ?_, ?_⟩
      · rw [List.append_assoc, List.take_append_drop, List.take_append_drop, List.length_take, Nat.min_eq_left hu]
      · rw [List.append_assoc, List.take_append_drop, List.take_append_drop, List.length_take, Nat.min_eq_left hu, ← hw1]
        have : u.pos + ((w.data.drop u.pos).take (w.pos - u.pos)).length = w.pos := by
          rw [← hw1] at hw3
          simp; omega
        rw [this]
    have hcut : structFromStream Γ n inner ⟨p ++ x ++ [], p.length⟩ ctx [] = (.ok iv, ⟨p ++ x ++ [], p.length + x.length⟩) := by
      rw [hu1, hw4] at hnest
      by_cases hq : q = []
      · rw [hq] at hnest; exact hnest
      · exact (C63_local_partial Γ n (fun c e hc g hg => (hΓ c e hc g hg).1) (fun c e hc g hg => (hΓ c e hc g hg).2.1)).2 inner ctx []
          (fun g hg => (hΓ _ _ hcls g hg).1) (fun g hg => (hΓ _ _ hcls g hg).2.1) p x q iv hnest (Or.inl hq) []
    have hown : structFromStream Γ n inner ⟨x, 0⟩ ctx [] = (.ok iv, ⟨x, x.length⟩) := by
      have hmv : Moved (-(p.length : Int)) ⟨p ++ x ++ [], p.length⟩ ⟨x, 0⟩ := ⟨by simp [Stream.rest], by simp⟩
      obtain ⟨h5, -, h6⟩ := (load_moved (fun c e hc g hg => (hΓ c e hc g hg).2.2) _ n).2.2 inner (fun g hg => (hΓ _ _ hcls g hg).2.2) ctx [] _ _ hmv
      have h7 := (load_forward Γ (fun c e hc g hg => (hΓ c e hc g hg).1) n).2.2 inner (fun g hg => (hΓ _ _ hcls g hg).1) ctx [] ⟨x, 0⟩ (by simp)
      rcases h8 : structFromStream Γ n inner ⟨x, 0⟩ ctx [] with ⟨y, ⟨data, pos⟩⟩
      rw [hcut, h8] at h5 h6
      simp only [h8] at h7
      rcases h5 with ⟨a, h9, h10⟩ | ⟨e, e', h9, -, -⟩
      · simp only [Except.ok.injEq] at h9 h10
        subst h9
        rw [h10, h7.1, show pos = x.length by simp only at h6; omega]
      · simp at h9
    refine ⟨m, u, x, h1, hfw.1.symm, ⟨q, by rw [hu1]; simp [Stream.rest]⟩, hown, fun hb' hsz => ?_⟩
    have h7 : fieldFromStream Γ (n + 2) (.leaf b' .bytes) u ctx m = (.ok (.bytes x), w) := by
      refine fieldFromStream_plain (f := .leaf b' .bytes) hb' ?_
      simp only [fieldDoLoad, leafLoad]
      rw [leafExpectedSize_declared hsz, hu1, readExactSize_here, hw4]
      rfl
    exact swap_load (v := .struct cls iv) hd hsw (f := .nested b cls) hpost h1 h4 h7

/-- What `to_dict` makes of a nested struct, and what the `Nested` field then writes. -/
theorem nested_written {Γ : Classes} {n : Nat} {cls : String} {inner : StructDesc} {iv : Dict} {x : Bytes} {ctx : Value} (hcls : Γ cls = some inner)
    (hr : Rebuilds Γ n inner iv) (hx : structToStream Γ (n + 1) inner iv ctx = (x, .ok ())) :
    ∃ T, recursiveToDicts Γ (n + 2) (.struct cls iv) = .ok (.dict T) ∧
      ∀ b all, fieldDoDump Γ (n + 1) (.nested b cls) (.dict T) ctx all = (x, .ok ()) := by
  obtain ⟨hu, hi, hr⟩ := hr
  obtain ⟨hval, T, hT, -⟩ := structToStream_ok_iff.1 hx
  obtain ⟨h1, h2, h3⟩ := hr T hT
  obtain ⟨h4, -⟩ := C93_rebuild hu hi hT h1 h2
  have h5 := C93_same_bytes (ctx := ctx) hu hi hT h1 h2 (validateContents_ok_iff.2 hval) h3
  have h6 : structToDict Γ (n + 1) inner iv = .ok T := (structToDict_mono Γ (Nat.le_succ n) inner iv false).of_ok hT
  refine ⟨T, ?_, fun b all => ?_⟩
  · unfold structToDict at h6
    rw [recursiveToDicts]
    simp only [hcls]
    cases hs : toDictShallow inner iv false with
    | error e => rw [hs] at h6; simp at h6
    | ok dct =>
      rw [hs] at h6
      simp only at h6 ⊢
      rw [h6]; rfl
  · simp only [fieldDoDump, containerDump, dumpNew, hcls, h4]
    rw [h5, hx]

/-- **C112** (sealing a message that is dumped) A message with a `Nested(Inner)` field is dumped.  The message of the class with a `Bytes` field in its
place that has the same values, and `inner.to_bytes()` for the payload, is dumped to the same bytes; provided the size of the `Bytes` field is right,
and its validators accept the message. -/
theorem C112_seal_dump (Γ : Classes) (n : Nat) (d d' : StructDesc) (ctx : Value) (pre post : List Field) (b b' : FieldBase) (cls : String)
    (inner : StructDesc) (vals vals' iv : Dict) (x bs : Bytes) (hd : UniqueNames d)
    (hsw : OneFieldApart d d' pre (.nested b cls) (.leaf b' .bytes) post) (hcls : Γ cls = some inner)
    (hu : ∀ g ∈ pre ++ post, Unaware (· = b.name) g) (hi : Instance d vals) (hi' : Instance d' vals')
    (hag : ∀ k, k ≠ b.name → Dict.get? vals k = Dict.get? vals' k)
    (hp : ∀ w c s, b.present w c s = .ok true) (hp' : ∀ w c s, b'.present w c s = .ok true)
    (hnd : b.discard = false) (hnd' : b'.discard = false)
    (hv : Dict.get? vals b.name = some (.struct cls iv)) (hv' : Dict.get? vals' b.name = some (.bytes x))
    (hx : structToStream Γ (n + 1) inner iv ctx = (x, .ok ())) (hr : Rebuilds Γ n inner iv)
    (hsize : ∀ all, structToDict Γ (n + 2) d vals = .ok all → DeclaredSize (.leaf b' .bytes) all x.length)
    (hchk : ∀ c ∈ b'.validators, c (.bytes x) = .ok ()) (hval : validateContents d' vals' = .ok ())
    (h : structToStream Γ (n + 3) d vals ctx = (bs, .ok ())) :
    structToStream Γ (n + 3) d' vals' ctx = (bs, .ok ()) := by
  obtain ⟨T, hT, hdump⟩ := nested_written hcls hr hx
  refine swap_dump (v := .struct cls iv) (v' := .bytes x) (w := .dict T) (w' := .bytes x) (f := .nested b cls) (f' := .leaf b' .bytes)
    hd hsw hu hi hi' hag hp hp' hnd hnd' hv hv' hT rfl (by simp) (by simp) ?_ hval h
  intro all all' p hall haa hdict hpt
  have hpx : p = x := by
    rw [fieldToStream_succ] at hpt
    obtain ⟨w, hw, -, -, -, h4⟩ := toStreamWith_ok hpt
    simp at hw; subst hw
    rcases h4 with ⟨h4, -⟩ | ⟨-, ser, h5, h6⟩
    · simp at h4
    · rw [hdump b all] at h5
      have hs : p = ser := by
        rcases finishDump_ok h6 with ⟨-, hh⟩ | ⟨k', -, ⟨-, hh⟩ | ⟨-, hh⟩⟩
        · exact hh
        · exact hh
        · simp [fieldAddPadding] at hh
      simp only [Prod.mk.injEq] at h5
      rw [hs, ← h5.1]
  subst hpx
  have hsz : DeclaredSize (.leaf b' .bytes) all' p.length := by
    rcases hsize all hall with hs | ⟨r, hs, hg⟩
    · exact Or.inl hs
    · refine Or.inr ⟨r, hs, ?_⟩
      by_cases hrb : r = b.name
      · rw [hrb, show Dict.get? all b.name = some (.dict T) from hdict] at hg; simp at hg
      · rw [← haa r hrb]; exact hg
  refine fieldToStream_plain (f := .leaf b' .bytes) (by simp) (by simp) (by simp) hchk (Or.inr hsz) ?_
  simp only [fieldDoDump, leafDump]
  rw [leafExpectedSize_declared hsz]
  simp [W.ok]

/-- **C112** (opening a message that is dumped) Conversely, a message whose payload is `inner.to_bytes()` is dumped.  The message of the class with
`Nested(Inner)` in the place of the `Bytes` field that has the same values, and `inner` for the payload, is dumped to the same bytes. -/
theorem C112_open_dump (Γ : Classes) (n : Nat) (d d' : StructDesc) (ctx : Value) (pre post : List Field) (b b' : FieldBase) (cls : String)
    (inner : StructDesc) (vals vals' iv : Dict) (x bs : Bytes) (hd : UniqueNames d)
    (hsw : OneFieldApart d d' pre (.nested b cls) (.leaf b' .bytes) post) (hcls : Γ cls = some inner)
    (hu : ∀ g ∈ pre ++ post, Unaware (· = b.name) g) (hi : Instance d vals) (hi' : Instance d' vals')
    (hag : ∀ k, k ≠ b.name → Dict.get? vals k = Dict.get? vals' k)
    (hp : ∀ w c s, b.present w c s = .ok true) (hp' : ∀ w c s, b'.present w c s = .ok true)
    (hnd : b.discard = false) (hnd' : b'.discard = false)
    (hv : Dict.get? vals b.name = some (.struct cls iv)) (hv' : Dict.get? vals' b.name = some (.bytes x))
    (hx : structToStream Γ (n + 1) inner iv ctx = (x, .ok ())) (hr : Rebuilds Γ n inner iv)
    (hsize : b.size = .none ∨ ∀ all, structToDict Γ (n + 2) d' vals' = .ok all → DeclaredSize (.nested b cls) all x.length)
    (hchk : ∀ c ∈ b.validators, ∀ T, c (.dict T) = .ok ()) (hval : validateContents d vals = .ok ())
    (h : structToStream Γ (n + 3) d' vals' ctx = (bs, .ok ())) :
    structToStream Γ (n + 3) d vals ctx = (bs, .ok ()) := by
  obtain ⟨T, hT, hdump⟩ := nested_written hcls hr hx
  have hname : (Field.leaf b' .bytes).name = b.name := hsw.name
  refine swap_dump (v := .bytes x) (v' := .struct cls iv) (w := .bytes x) (w' := .dict T) (f := .leaf b' .bytes) (f' := .nested b cls)
    (hsw.unique hd) hsw.symm (by rw [hname]; exact hu) hi' hi (by rw [hname]; exact fun k hk => (hag k hk).symm) hp' hp hnd' hnd
    (by rw [hname]; exact hv') (by rw [hname]; exact hv) rfl hT (by simp) (by simp) ?_ hval h
  rw [hname]
  intro all all' p hall haa hdict hpt
  have hpx : p = x := by
    rw [fieldToStream_succ] at hpt
    obtain ⟨w, hw, -, -, -, h4⟩ := toStreamWith_ok hpt
    simp at hw; subst hw
    rcases h4 with ⟨h4, -⟩ | ⟨-, ser, h5, h6⟩
    · simp at h4
    · have h7 : ser = x ∧ leafExpectedSize b' .bytes all = .ok (x.length : Int) := by
        simp only [fieldDoDump, leafDump] at h5
        cases he : leafExpectedSize b' .bytes all with
        | error e => rw [he] at h5; simp [W.fail] at h5
        | ok k =>
          rw [he] at h5
          simp only at h5
          split at h5
          · simp [W.fail] at h5
          · rename_i hk
            simp only [W.ok, Prod.mk.injEq] at h5
            rw [Classical.not_not.1 hk]
            exact ⟨h5.1.symm, rfl⟩
      have hs : p = ser := by
        rcases finishDump_ok h6 with ⟨-, hh⟩ | ⟨k', hk, ⟨-, hh⟩ | ⟨hlt, -⟩⟩
        · exact hh
        · exact hh
        · have hk' : leafExpectedSize b' .bytes all = .ok k' := by
            rcases hk with hk | ⟨r, -, hk⟩
            · exact leafExpectedSize_declared (Or.inl hk)
            · exact hk
          rw [h7.2] at hk'
          simp only [Except.ok.injEq] at hk'
          rw [h7.1] at hlt
          omega
      rw [hs, h7.1]
  subst hpx
  refine fieldToStream_plain (f := .nested b cls) (by simp) (by simp) (by simp) (fun c hc => hchk c hc T) ?_ (hdump b all')
  rcases hsize with hs | hs
  · exact Or.inl hs
  · right
    rcases hs all hall with hs | ⟨r, hs, hg⟩
    · exact Or.inl hs
    · refine Or.inr ⟨r, hs, ?_⟩
      by_cases hrb : r = b.name
      · rw [hrb, hdict] at hg; simp at hg
      · rw [← haa r hrb]; exact hg

/-! ### Examples -/

namespace Sample

/-- ```
class Letter(Struct):
    n = UInt8()
    body = Nested(Point)
    tail = UInt8()
``` -/
def letter : StructDesc :=
  { name := "Letter", components := [u8 "n", nested "body" "Point", u8 "tail"], fieldValidators := [("n", []), ("body", []), ("tail", [])] }

/-- The same with `body = Bytes(size=n)`. -/
def sealedLetter : StructDesc :=
  { name := "SealedLetter", components := [u8 "n", bytesRef "body" "n", u8 "tail"], fieldValidators := [("n", []), ("body", []), ("tail", [])] }

/-- The class `Point` only. -/
def pointOnly : Classes := Classes.add noClasses point

theorem letter_apart : OneFieldApart letter sealedLetter [u8 "n"] (nested "body" "Point") (bytesRef "body" "n") [u8 "tail"] := ⟨rfl, rfl, rfl⟩

theorem pointOnly_only {c : String} {e : StructDesc} (h : pointOnly c = some e) : e = point := by
  unfold pointOnly Classes.add noClasses at h
  split at h
  · simpa using h.symm
  · simp at h

theorem point_loads : ∀ g ∈ point.components, LoadsForward g ∧ LooksBehind pointOnly g ∧ LooksAhead g ∧ SelfLimited g := by
  intro g hg
  simp [point, i16, upd, Field.withBase, Field.base] at hg
  rcases hg with rfl | rfl <;>
    exact ⟨.leaf (by simp), .leaf ⟨fun _ _ _ _ _ => rfl, Or.inl rfl⟩ (by simp), .leaf (fun _ _ _ _ _ => rfl) (by simp), .leaf (by simp)⟩

theorem point_sizes : SizeFieldsNonNeg pointOnly point := by
  intro f hf r hr
  simp [point, i16, upd, Field.withBase, Field.base] at hf
  rcases hf with rfl | rfl <;> cases hr <;> simp at *

theorem tail_off : ∀ g ∈ [u8 "tail"], ReadsOff (· = "body") g := by
  intro g hg
  simp at hg
  subst hg
  exact .leaf ⟨by simp, by simp, fun _ _ _ _ _ => rfl⟩ (by simp)

theorem letter_unaware : ∀ g ∈ [u8 "n"] ++ [u8 "tail"], Unaware (· = "body") g := by
  intro g hg
  simp at hg
  rcases hg with rfl | rfl <;> exact .leaf (.plain (by simp) (by simp) rfl rfl) (by simp)

end Sample

-- non-vacuity: a letter is opened, in the middle of a file
example : ∃ vals, LoadsUnlessRejected Sample.pointOnly 9 Sample.letter ⟨[7, 7, 4, 1, 0, 2, 0, 9, 8], 2⟩ .none vals ⟨[7, 7, 4, 1, 0, 2, 0, 9, 8], 8⟩ ∧
    (∀ k, k ≠ "body" → Dict.get? vals k = Dict.get? [("n", .int 4), ("body", .bytes [1, 0, 2, 0]), ("tail", .int 9)] k) ∧
    Dict.get? vals "body" = some (.struct "Point" [("x", .int 1), ("y", .int 2)]) :=
  C112_open Sample.pointOnly 6 Sample.letter Sample.sealedLetter .none _ _ _ _ "Point" Sample.point _ _ _ _ [1, 0, 2, 0]
    (by unfold UniqueNames; decide) Sample.letter_apart rfl
    (fun c e hc => by rw [Sample.pointOnly_only hc]; exact ⟨Sample.point_loads, Sample.point_sizes⟩)
    (by intro g hg; simp at hg; subst hg; exact .leaf (by simp)) Sample.tail_off ⟨fun _ _ _ => rfl, rfl, rfl, by simp⟩ (fun _ _ _ => rfl)
    (by decide) (by decide) (by decide) (by decide)

-- the same letter is sealed
example : ∃ m u x, Loads Sample.pointOnly 8 .none [Sample.u8 "n"] [] ⟨[7, 7, 4, 1, 0, 2, 0, 9, 8], 2⟩ m u ∧ [7, 7, 4, 1, 0, 2, 0, 9, 8] = u.data ∧
      x <+: u.rest ∧ structFromStream Sample.pointOnly 6 Sample.point ⟨x, 0⟩ .none [] = (.ok [("x", .int 1), ("y", .int 2)], ⟨x, x.length⟩) ∧
      (Plain (Sample.bytesRef "body" "n").base (.bytes x) → DeclaredSize (Sample.bytesRef "body" "n") m x.length →
        ∃ vals', LoadsUnlessRejected Sample.pointOnly 9 Sample.sealedLetter ⟨[7, 7, 4, 1, 0, 2, 0, 9, 8], 2⟩ .none vals' ⟨[7, 7, 4, 1, 0, 2, 0, 9, 8], 8⟩ ∧
          (∀ k, k ≠ "body" → Dict.get? vals' k =
            Dict.get? [("n", .int 4), ("body", .struct "Point" [("x", .int 1), ("y", .int 2)]), ("tail", .int 9)] k) ∧
          Dict.get? vals' "body" = some (.bytes x)) :=
  C112_seal Sample.pointOnly 6 Sample.letter Sample.sealedLetter .none _ _ _ _ "Point" Sample.point ⟨[7, 7, 4, 1, 0, 2, 0, 9, 8], 2⟩
    ⟨[7, 7, 4, 1, 0, 2, 0, 9, 8], 8⟩ [("n", .int 4), ("body", .struct "Point" [("x", .int 1), ("y", .int 2)]), ("tail", .int 9)] _
    (by unfold UniqueNames; decide) Sample.letter_apart rfl
    (fun c e hc => by
      rw [Sample.pointOnly_only hc]
      exact fun g hg => ⟨(Sample.point_loads g hg).1, (Sample.point_loads g hg).2.1, (Sample.point_loads g hg).2.2.1⟩)
    (by intro g hg; simp at hg; subst hg; exact .leaf (by simp)) Sample.tail_off (fun _ _ _ => rfl)
    (by decide) (by decide) (by decide)

theorem Sample.point_rebuilds : Rebuilds Sample.pointOnly 6 Sample.point [("x", .int 1), ("y", .int 2)] := by
  refine ⟨by unfold UniqueNames; decide, by unfold Instance; decide, fun T hT => ?_⟩
  have : T = [("x", .int 1), ("y", .int 2)] := by
    have h : structToDict Sample.pointOnly 6 Sample.point [("x", .int 1), ("y", .int 2)] = .ok [("x", .int 1), ("y", .int 2)] := by decide
    rw [h] at hT
    simpa using hT.symm
  subst this
  refine ⟨?_, ?_, by decide⟩
  · intro f hf; simp [point, i16, upd, Field.withBase, Field.base] at hf; rcases hf with rfl | rfl <;> intros <;> rfl
  · intro f hf hg; simp [point, i16, upd, Field.withBase, Field.base] at hf; rcases hf with rfl | rfl <;> exact absurd hg (by decide)

-- and dumped, both ways
example : structToStream Sample.pointOnly 9 Sample.sealedLetter [("n", .int 4), ("body", .bytes [1, 0, 2, 0]), ("tail", .int 9)] .none =
    ([4, 1, 0, 2, 0, 9], .ok ()) :=
  C112_seal_dump Sample.pointOnly 6 Sample.letter Sample.sealedLetter .none _ _ _ _ "Point" Sample.point
    [("n", .int 4), ("body", .struct "Point" [("x", .int 1), ("y", .int 2)]), ("tail", .int 9)] _ _ [1, 0, 2, 0] _
    (by unfold UniqueNames; decide) Sample.letter_apart rfl Sample.letter_unaware (by unfold Instance; decide) (by unfold Instance; decide)
    (by
      intro k hk
      have hk' : ¬ "body" = k := fun h => hk h.symm
      simp [Dict.get?_cons, hk'])
    (fun _ _ _ => rfl) (fun _ _ _ => rfl) rfl rfl (by decide) (by decide) (by decide) Sample.point_rebuilds
    (by
      intro all hall
      have h : structToDict Sample.pointOnly 8 Sample.letter [("n", .int 4), ("body", .struct "Point" [("x", .int 1), ("y", .int 2)]),
        ("tail", .int 9)] = .ok [("n", .int 4), ("body", .dict [("x", .int 1), ("y", .int 2)]), ("tail", .int 9)] := by decide
      rw [h] at hall
      simp only [Except.ok.injEq] at hall
      subst hall
      exact Or.inr ⟨"n", rfl, by decide⟩)
    (by simp) (by decide) (by decide)

example : structToStream Sample.pointOnly 9 Sample.letter [("n", .int 4), ("body", .struct "Point" [("x", .int 1), ("y", .int 2)]), ("tail", .int 9)]
    .none = ([4, 1, 0, 2, 0, 9], .ok ()) :=
  C112_open_dump Sample.pointOnly 6 Sample.letter Sample.sealedLetter .none _ _ _ _ "Point" Sample.point
    _ [("n", .int 4), ("body", .bytes [1, 0, 2, 0]), ("tail", .int 9)] [("x", .int 1), ("y", .int 2)] [1, 0, 2, 0] _
    (by unfold UniqueNames; decide) Sample.letter_apart rfl Sample.letter_unaware (by unfold Instance; decide) (by unfold Instance; decide)
    (by
      intro k hk
      have hk' : ¬ "body" = k := fun h => hk h.symm
      simp [Dict.get?_cons, hk'])
    (fun _ _ _ => rfl) (fun _ _ _ => rfl) rfl rfl (by decide) (by decide) (by decide) Sample.point_rebuilds
    (Or.inl rfl) (by simp) (by decide) (by decide)

namespace Sample

/-- ```
class Blob(Struct):
    data = Bytes(size=-1)
``` -/
def blob : StructDesc :=
  { name := "Blob", components := [.leaf { name := "data", typeName := "Bytes", size := .fixed (-1) } .bytes], fieldValidators := [("data", [])] }

end Sample

/-- The condition that nothing in `Inner` reads to the end of the stream is needed: the payload on its own is a complete `Blob`, but `Nested(Blob)` takes
the rest of the message too. -/
theorem C112_to_end_refuted :
    let Γ := Classes.add Sample.noClasses Sample.blob
    let sealed_ : StructDesc := { name := "S", components := [Sample.u8 "n", Sample.bytesRef "body" "n", Sample.u8 "tail"] }
    let opened : StructDesc := { name := "O", components := [Sample.u8 "n", Sample.nested "body" "Blob", Sample.u8 "tail"] }
    structFromStream Γ 9 sealed_ ⟨[2, 5, 6, 9], 0⟩ .none [] =
      (.ok [("n", .int 2), ("body", .bytes [5, 6]), ("tail", .int 9)], ⟨[2, 5, 6, 9], 4⟩) ∧
    structFromStream Γ 6 Sample.blob ⟨[5, 6], 0⟩ .none [] = (.ok [("data", .bytes [5, 6])], ⟨[5, 6], 2⟩) ∧
    structFromStream Γ 9 opened ⟨[2, 5, 6, 9], 0⟩ .none [] = (.error (.eof (some "tail") 1 4), ⟨[2, 5, 6, 9], 4⟩) := by decide

end Verif
