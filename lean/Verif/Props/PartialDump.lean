import Verif.Proofs.Independent
import Verif.Props.StructDump

/-!
# C60: `partial_dump`
-/

namespace Verif
open Spec

theorem fieldToStream_undefined (Γ : Classes) (n : Nat) (f : Field) (ctx : Value) (all : Dict) (bs : Bytes) :
    fieldToStream Γ n f .undefined ctx all ≠ (bs, .ok ()) := by
  intro h
  cases n with
  | zero => cases f <;> simp [fieldToStream, W.fail] at h
  | succ n => cases f <;> simp [fieldToStream, toStreamWith, W.fail] at h

/-- The fields written and what was written for each. -/
inductive Wrote (Γ : Classes) (n : Nat) (ctx : Value) (vals : Dict) : List Field → List Bytes → Prop where
  | nil : Wrote Γ n ctx vals [] []
  | cons {f : Field} {fs : List Field} {p : Bytes} {ps : List Bytes} {fallback v : Value} : f.base.default = .ok fallback →
      v = (Dict.get? vals f.name).getD fallback → v ≠ .undefined → fieldToStream Γ n f v ctx [] = (p, .ok ()) →
      Wrote Γ n ctx vals fs ps → Wrote Γ n ctx vals (f :: fs) (p :: ps)

theorem partialDumpLoop_ok {Γ : Classes} {n : Nat} {ctx : Value} {vals : Dict} {last : Option String} {fs : List Field} {bs : Bytes}
    (h : partialDumpLoop (fun f v => fieldToStream Γ n f v ctx []) vals last fs = (bs, .ok ())) :
    ∃ pre post ps, fs = pre ++ post ∧ Wrote Γ n ctx vals pre ps ∧ bs = ps.flatten ∧
      (∀ name, last = some name → name ∈ fs.map Field.name →
        ∃ pre' f, pre = pre' ++ [f] ∧ f.name = name ∧ name ∉ pre'.map Field.name) ∧
      (∀ name, last = some name → name ∉ fs.map Field.name → post = []) ∧
      (last = none → ∀ f post', post = f :: post' → ∃ fallback, f.base.default = .ok fallback ∧
        (Dict.get? vals f.name).getD fallback = .undefined) := by
  induction fs generalizing bs with
  | nil =>
    simp only [partialDumpLoop, W.ok] at h
    cases h
    exact ⟨[], [], [], rfl, .nil, rfl, by simp, by simp, by simp⟩
  | cons f fs ih =>
    simp only [partialDumpLoop] at h
    split at h
    · simp [W.fail] at h
    · rename_i fallback hd
      have go : ∀ {bs}, ((fieldToStream Γ n f ((Dict.get? vals f.name).getD fallback) ctx []).seq fun _ =>
          if some f.name = last then W.ok [] else partialDumpLoop (fun f v => fieldToStream Γ n f v ctx []) vals last fs) = (bs, .ok ()) →
          ∃ pre post ps, f :: fs = pre ++ post ∧ Wrote Γ n ctx vals pre ps ∧ bs = ps.flatten ∧
            (∀ name, last = some name → name ∈ (f :: fs).map Field.name →
              ∃ pre' f, pre = pre' ++ [f] ∧ f.name = name ∧ name ∉ pre'.map Field.name) ∧
            (∀ name, last = some name → name ∉ (f :: fs).map Field.name → post = []) ∧
            (last = none → ∀ f post', post = f :: post' → ∃ fallback, f.base.default = .ok fallback ∧
              (Dict.get? vals f.name).getD fallback = .undefined) := by
        intro bs h
        obtain ⟨p, q, h1, h2, rfl⟩ := W.seq_ok h
        have hv : (Dict.get? vals f.name).getD fallback ≠ .undefined := by
          intro hv
          rw [hv] at h1
          exact fieldToStream_undefined _ _ _ _ _ _ h1
        split at h2
        · rename_i hl
          simp [W.ok] at h2
          subst h2
          refine ⟨[f], fs, [p], rfl, .cons hd rfl hv h1 .nil, by simp, fun name hn _ => ?_, fun name hn hm => ?_, fun hn => ?_⟩
          · refine ⟨[], f, rfl, ?_, by simp⟩
            rw [hn] at hl; simpa using hl
          · rw [hn] at hl; simp at hl; simp [hl] at hm
          · rw [hn] at hl; simp at hl
        · rename_i hl
          obtain ⟨pre, post, ps, h3, h4, h5, h6, h7, h8⟩ := ih h2
          refine ⟨f :: pre, post, p :: ps, by simp [h3], .cons hd rfl hv h1 h4, by simp [h5], fun name hn hm => ?_,
            fun name hn hm => ?_, h8⟩
          · have hne : f.name ≠ name := by rintro rfl; exact hl hn.symm
            simp only [List.map_cons, List.mem_cons] at hm
            obtain ⟨pre', g, hg1, hg2, hg3⟩ := h6 name hn (hm.resolve_left (Ne.symm hne))
            refine ⟨f :: pre', g, by simp [hg1], hg2, ?_⟩
            simp only [List.map_cons, List.mem_cons, not_or]
            exact ⟨Ne.symm hne, hg3⟩
          · simp only [List.map_cons, List.mem_cons, not_or] at hm
            exact h7 name hn hm.2
      split at h
      · rename_i hu
        split at h
        · rename_i hl
          simp [W.ok] at h
          subst h
          refine ⟨[], f :: fs, [], rfl, .nil, rfl, by simp [hl], by simp [hl], fun _ g post' hg => ?_⟩
          simp at hg
          rw [← hg.1]
          exact ⟨fallback, hd, hu⟩
        · split at h
          · simp [W.fail] at h
          · simp [W.fail] at h
          · exact go h
      · exact go h

/-- **C60** refuted: `partial_dump` does not ask whether a field is present, so it writes a field that `to_bytes` leaves out. -/
theorem C60_prefix_refuted :
    ∃ (Γ : Classes) (d : StructDesc) (vals : Dict) (p bs : Bytes), UniqueNames d ∧ Instance d vals ∧
      structPartialDump Γ 3 d vals none .none = (p, .ok ()) ∧ structToStream Γ 3 d vals .none = (bs, .ok ()) ∧ ¬ p <+: bs :=
  ⟨Sample.noClasses,
   { name := "S"
     components := [Sample.upd (Sample.u8 "a") ({ · with present := fun _ _ _ => .ok false }), Sample.u8 "b"]
     fieldValidators := [("a", []), ("b", [])] },
   [("a", .int 1), ("b", .int 2)], [1, 2], [2], by unfold UniqueNames; decide, by unfold Instance; decide, by decide, by decide, by decide⟩

/-- **C60** refuted even when all fields are present: a discarded field is written with its value by `partial_dump` and with its default by
`to_bytes`. -/
theorem C60_discard_refuted :
    ∃ (Γ : Classes) (d : StructDesc) (vals : Dict) (p bs : Bytes), UniqueNames d ∧ Instance d vals ∧
      structPartialDump Γ 3 d vals none .none = (p, .ok ()) ∧ structToStream Γ 3 d vals .none = (bs, .ok ()) ∧ ¬ p <+: bs :=
  ⟨Sample.noClasses,
   { name := "S", components := [Sample.upd (Sample.u8 "a") ({ · with discard := true, dflt := .int 0 })]
     fieldValidators := [("a", [])] },
   [("a", .int 1)], [1], [0], by unfold UniqueNames; decide, by unfold Instance; decide, by decide, by decide, by decide⟩

/-- Values whose dump the two functions agree on. -/
def Spec.PlainValue (v : Value) : Prop := NoStruct v ∧ v ≠ .notPresent

/-- **C60**, the part that holds: if every field is present, not discarded, has no `factory`, does not depend on other fields, and the values are not
struct instances, then what `partial_dump` writes are the contributions of the first few fields to `to_bytes`, hence a prefix; the last of them is
`last_field` if that is a field; without a `last_field`, the dump stops only at a field that has no value. -/
theorem C60_prefix_partial (Γ : Classes) (n : Nat) (d : StructDesc) (vals : Dict) (last : Option String) (ctx : Value) (p bs : Bytes)
    (hd : UniqueNames d) (hi : Instance d vals)
    (hf : ∀ f ∈ d.components, f.base.discard = false ∧ f.base.factory = none ∧ PresentFor Γ n d vals ctx f ∧ Independent f)
    (hv : ∀ f ∈ d.components, PlainValue f.base.dflt ∧ ∀ v, Dict.get? vals f.name = some v → PlainValue v)
    (hp : structPartialDump Γ n d vals last ctx = (p, .ok ())) (hb : structToStream Γ (n + 1) d vals ctx = (bs, .ok ())) :
    ∃ all pre post parts, structToDict Γ n d vals = .ok all ∧ d.components = pre ++ post ∧ Parts Γ n ctx all pre parts ∧
      p = parts.flatten ∧ p <+: bs ∧
      (∀ name, last = some name → name ∈ names d → ∃ pre' f, pre = pre' ++ [f] ∧ f.name = name) ∧
      (∀ name, last = some name → name ∉ names d → post = []) ∧
      (last = none → ∀ f post', post = f :: post' → Dict.get? vals f.name = some .undefined ∨
        (Dict.get? vals f.name = none ∧ f.base.dflt = .undefined)) := by
  obtain ⟨-, all, ha, ps, hps, rfl⟩ := structToStream_ok_iff.1 hb
  obtain ⟨pre, post, qs, h1, h2, rfl, h3, h4, h5⟩ := partialDumpLoop_ok hp
  -- every field written
  have key : ∀ f ∈ d.components, ∀ fallback v q, f.base.default = .ok fallback → v = (Dict.get? vals f.name).getD fallback → v ≠ .undefined →
      fieldToStream Γ n f v ctx [] = (q, .ok ()) → ∀ q', Part Γ n ctx all f q' → q' = q := by
    intro f hfm fallback v q hdf hvv hvu hw q' hq'
    obtain ⟨f1, f2, f3, f4⟩ := hf f hfm
    obtain ⟨v1, v2⟩ := hv f hfm
    have hdd : fallback = f.base.dflt := by
      unfold FieldBase.default at hdf
      rw [f2] at hdf
      simpa using hdf.symm
    have hplain : PlainValue v := by
      cases hg : Dict.get? vals f.name with
      | none => rw [hg] at hvv; rw [hvv, hdd]; exact v1
      | some x => rw [hg] at hvv; rw [hvv]; exact v2 x hg
    have hch : Chosen f.base (structView d vals) v := by
      cases hg : Dict.get? vals f.name with
      | none =>
        rw [hg] at hvv
        refine .default ?_ ?_ (by rw [hdf, hvv]; rfl)
        · show structContains vals f.name = false
          cases hc : structContains vals f.name with
          | false => rfl
          | true => obtain ⟨x, hx, -⟩ := (structContains_iff hi.1).1 hc; rw [hg] at hx; simp at hx
        · rw [← hdd]; simp at hvv; rw [← hvv]; exact hvu
      | some x =>
        rw [hg] at hvv
        simp at hvv
        subst hvv
        refine .explicit ?_ ?_
        · exact (structContains_iff hi.1).2 ⟨v, hg, hvu⟩
        · exact structGetItem_some (List.mem_map.2 ⟨f, hfm, rfl⟩) hg
    obtain ⟨pre1, post1, hsp⟩ := List.append_of_mem hfm
    obtain ⟨all', -, q2, -, w, g1, g2, -, g3, -, -⟩ :=
      C32_struct_dumps_chosen_value Γ n d vals ctx v _ pre1 post1 f hd hi hsp f1 f3 hch hplain.2 hvu hb
    rw [ha] at g1
    cases g1
    have hwv := (recursiveToDicts_spec g2).2 hplain.1
    subst hwv
    rw [f4.dump Γ n w ctx all []] at g3
    rw [hw] at g3
    -- the same value is used by the full dump
    rcases hq' with ⟨⟨u, hu, hs⟩, -⟩ | ⟨u, hu, hq⟩
    · have hcu : u = w := by
        obtain ⟨-, -, h8⟩ := structToDict_get hd hi ha
        rcases h8 f hfm with ⟨-, h9, -⟩ | ⟨-, v', w', h9, h10, h11⟩
        · rw [f1] at h9; simp at h9
        · have hcv : f.base.computeValueForDump (structView d vals) .none = .ok w := by
            rw [computeValueForDump_of_chosen hch, if_neg hplain.2, f3.1]; simp [hvu]
          have : v' = w := by
            rcases h9 with h9 | ⟨e, h9, -⟩
            · rw [hcv] at h9; simp at h9; exact h9.symm
            · rw [hcv] at h9; simp at h9
          subst this
          rw [g2] at h10
          cases h10
          refine Chosen.unique hu (.explicit ?_ ?_)
          · show Dict.contains all f.name = true
            rw [Dict.contains_eq, h11]; rfl
          · show (match Dict.get? all f.name with
              | some v => Except.ok v
              | none => .error (Err.keyErr f.name)) = .ok v'
            rw [h11]
      rcases hs with hs | hs
      · exact absurd (hcu ▸ hs) hplain.2
      · rw [f3.2 all ha] at hs; simp at hs
    · have hcu : u = w := by
        obtain ⟨-, -, h8⟩ := structToDict_get hd hi ha
        rcases h8 f hfm with ⟨-, h9, -⟩ | ⟨-, v', w', h9, h10, h11⟩
        · rw [f1] at h9; simp at h9
        · have hcv : f.base.computeValueForDump (structView d vals) .none = .ok w := by
            rw [computeValueForDump_of_chosen hch, if_neg hplain.2, f3.1]; simp [hvu]
          have : v' = w := by
            rcases h9 with h9 | ⟨e, h9, -⟩
            · rw [hcv] at h9; simp at h9; exact h9.symm
            · rw [hcv] at h9; simp at h9
          subst this
          rw [g2] at h10
          cases h10
          refine Chosen.unique hu.1 (.explicit ?_ ?_)
          · show Dict.contains all f.name = true
            rw [Dict.contains_eq, h11]; rfl
          · show (match Dict.get? all f.name with
              | some v => Except.ok v
              | none => .error (Err.keyErr f.name)) = .ok v'
            rw [h11]
      subst hcu
      rw [f4.dump Γ n u ctx all [], hw] at hq
      cases hq
      rfl
  have hsplit : ∃ as cs, ps = as ++ cs ∧ Parts Γ n ctx all pre as ∧ as = qs := by
    have hmem : ∀ f ∈ pre, f ∈ d.components := fun f hf => by rw [h1]; exact List.mem_append_left _ hf
    rw [h1] at hps
    clear h1 h3 h4 h5 hp hb hi
    induction h2 generalizing ps with
    | nil => exact ⟨[], ps, rfl, .nil, rfl⟩
    | @cons f fs q qs fallback v e1 e2 e3 e4 _ ih =>
      cases hps with
      | @cons _ _ q' ps' hq hps =>
        obtain ⟨as, cs, rfl, i1, rfl⟩ := ih ps' hps (fun g hg => hmem g (List.mem_cons_of_mem _ hg))
        have := key f (hmem f List.mem_cons_self) fallback v q e1 e2 e3 e4 q' hq
        subst this
        exact ⟨q' :: as, cs, rfl, .cons hq i1, rfl⟩
  obtain ⟨as, cs, rfl, hpa, rfl⟩ := hsplit
  refine ⟨all, pre, post, as, ha, h1, hpa, rfl, ?_, fun name hn hm => ?_, h4, fun hl f post' hpo => ?_⟩
  · rw [List.flatten_append]; exact List.prefix_append _ _
  · obtain ⟨pre', f, e1, e2, -⟩ := h3 name hn hm
    exact ⟨pre', f, e1, e2⟩
  · obtain ⟨fallback, e1, e2⟩ := h5 hl f post' hpo
    have hdd : fallback = f.base.dflt := by
      have hfm : f ∈ d.components := by rw [h1, hpo]; simp
      unfold FieldBase.default at e1
      rw [(hf f hfm).2.1] at e1
      simpa using e1.symm
    cases hg : Dict.get? vals f.name with
    | none => rw [hg] at e2; right; exact ⟨rfl, by rw [← hdd]; simpa using e2⟩
    | some x => rw [hg] at e2; left; simp at e2; rw [e2]

-- a class and an instance that meet the conditions
example : ∃ parts : List Bytes, ([1, 0] : Bytes) = parts.flatten ∧ ([1, 0] : Bytes) <+: [1, 0, 2, 0] := by
  obtain ⟨all, pre, post, parts, -, -, -, h, h', -⟩ := C60_prefix_partial Sample.noClasses 2 Sample.point
    [("x", .int 1), ("y", .int 2)] (some "x") .none [1, 0] [1, 0, 2, 0] (by unfold UniqueNames; decide) (by unfold Instance; decide)
    (by
      intro f hf
      have : f = Sample.upd (Sample.i16 "x") ({ · with offset := some 0 }) ∨
          f = Sample.upd (Sample.i16 "y") ({ · with index := 1, offset := some 2 }) := by simpa [Sample.point] using hf
      rcases this with rfl | rfl <;>
        exact ⟨rfl, rfl, ⟨rfl, fun _ _ => rfl⟩, .leaf (by simp) (Or.inl ⟨2, rfl⟩)⟩)
    (by
      intro f hf
      have : f = Sample.upd (Sample.i16 "x") ({ · with offset := some 0 }) ∨
          f = Sample.upd (Sample.i16 "y") ({ · with index := 1, offset := some 2 }) := by simpa [Sample.point] using hf
      rcases this with rfl | rfl
      · refine ⟨⟨.undefined, by decide⟩, fun v hv => ?_⟩
        have : v = .int 1 := by simpa using hv.symm.trans (show _ = some (.int 1) by decide)
        subst this
        exact ⟨.int 1, by decide⟩
      · refine ⟨⟨.undefined, by decide⟩, fun v hv => ?_⟩
        have : v = .int 2 := by simpa using hv.symm.trans (show _ = some (.int 2) by decide)
        subst this
        exact ⟨.int 2, by decide⟩) (by decide) (by decide)
  exact ⟨parts, h, h'⟩

end Verif
