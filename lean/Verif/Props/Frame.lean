import Verif.Proofs.Frame
import Verif.Proofs.Size
import Verif.Props.History
import Verif.Spec.Samples

/-!
# Changing a field changes only its own bytes

C71.
-/

namespace Verif
open Spec

/-- **C71** Let `S` be a set of fields that the other fields of the class do not look at.  Two instances that differ in `S` only have dumps
that differ only in what the fields in `S` contribute: for every other field the contribution is the same. -/
theorem C71_locality (S : String → Prop) (Γ : Classes) (n : Nat) (d : StructDesc) (vals vals' : Dict) (ctx : Value) (bs bs' : Bytes)
    (hd : UniqueNames d) (hs : Separated S d) (hi : Instance d vals) (hi' : Instance d vals') (h : AgreeOff S vals vals')
    (hb : structToStream Γ (n + 1) d vals ctx = (bs, .ok ())) (hb' : structToStream Γ (n + 1) d vals' ctx = (bs', .ok ())) :
    ∃ all all' ps ps', structToDict Γ n d vals = .ok all ∧ structToDict Γ n d vals' = .ok all' ∧
      Parts Γ n ctx all d.components ps ∧ Parts Γ n ctx all' d.components ps' ∧ bs = ps.flatten ∧ bs' = ps'.flatten ∧
      SameOff S d.components ps ps' := by
  obtain ⟨-, all, h1, ps, h2, h3⟩ := structToStream_ok_iff.1 hb
  obtain ⟨-, all', h4, ps', h5, h6⟩ := structToStream_ok_iff.1 hb'
  exact ⟨all, all', ps, ps', h1, h4, h2, h5, h3, h6, Parts_agree hs (structToDict_agree (.same hd hs hi hi' h) h1 h4) h2 h5⟩

theorem list_ext_of_length {α : Type} {l l' : List α} (hl : l.length = l'.length) (h : ∀ i : Nat, i < l.length → l[i]? = l'[i]?) :
    l = l' := by
  apply List.ext_getElem? fun i => ?_
  by_cases hi : i < l.length
  · exact h i hi
  · rw [List.getElem?_eq_none (by omega), List.getElem?_eq_none (by omega)]

/-- **C71** In particular, if no other field looks at `f`, two instances that differ in `f` only have dumps that differ only in what `f`
contributes, somewhere in the middle. -/
theorem C71_one_field (Γ : Classes) (n : Nat) (d : StructDesc) (vals vals' : Dict) (ctx : Value) (bs bs' : Bytes)
    (pre post : List Field) (f : Field) (hd : UniqueNames d) (hf : d.components = pre ++ f :: post)
    (hs : ∀ g ∈ pre ++ post, Unaware (· = f.name) g) (hi : Instance d vals) (hi' : Instance d vals')
    (h : ∀ k, k ≠ f.name → Dict.get? vals k = Dict.get? vals' k)
    (hb : structToStream Γ (n + 1) d vals ctx = (bs, .ok ())) (hb' : structToStream Γ (n + 1) d vals' ctx = (bs', .ok ())) :
    ∃ all all' before p p' after, structToDict Γ n d vals = .ok all ∧ structToDict Γ n d vals' = .ok all' ∧
      Part Γ n ctx all f p ∧ Part Γ n ctx all' f p' ∧ bs = before ++ p ++ after ∧ bs' = before ++ p' ++ after := by
  have hsep : Separated (· = f.name) d := by
    intro g hg
    rw [hf] at hg
    rcases List.mem_append.1 hg with hg | hg
    · exact Or.inr (hs g (by simp [hg]))
    · rcases List.mem_cons.1 hg with rfl | hg
      · exact Or.inl rfl
      · exact Or.inr (hs g (by simp [hg]))
  obtain ⟨all, as, p, cs, h1, h2, h3, h4, h5⟩ := structToStream_part hb hf
  obtain ⟨all', as', p', cs', h6, h7, h8, h9, h10⟩ := structToStream_part hb' hf
  have ha := structToDict_agree (.same hd hsep hi hi' h) h1 h6
  have key : ∀ (gs : List Field) (xs ys : List Bytes), (∀ g ∈ gs, Unaware (· = f.name) g) → Parts Γ n ctx all gs xs →
      Parts Γ n ctx all' gs ys → xs = ys := by
    intro gs xs ys hg hx hy
    refine list_ext_of_length (by rw [Parts_length hx, Parts_length hy]) fun i hi => ?_
    rw [Parts_length hx] at hi
    refine Parts_agree (fun g hg' => Or.inr (hg g hg')) ha hx hy i gs[i] (by simp [hi]) ?_
    exact (hg _ (by simp)).base.name
  have e1 := key pre as as' (fun g hg => hs g (by simp [hg])) h3 h8
  have e2 := key post cs cs' (fun g hg => hs g (by simp [hg])) h5 h10
  subst e1; subst e2
  exact ⟨all, all', as.flatten, p, p', cs.flatten, h1, h6, h4, h9, h2, h7⟩

/-- **C71** If moreover `f` has a fixed size and is present in both, the dumps have the same length and agree outside the bytes of `f`: the
record can be updated in place. -/
theorem C71_in_place (Γ : Classes) (n : Nat) (d : StructDesc) (vals vals' : Dict) (ctx : Value) (bs bs' : Bytes)
    (pre post : List Field) (f : Field) (k : Int) (hd : UniqueNames d) (hf : d.components = pre ++ f :: post)
    (hs : ∀ g ∈ pre ++ post, Unaware (· = f.name) g) (hi : Instance d vals) (hi' : Instance d vals')
    (h : ∀ k, k ≠ f.name → Dict.get? vals k = Dict.get? vals' k)
    (hsize : f.base.size = .fixed k) (hpad : PadsExactly f) (hnull : NullFits f)
    (hpres : ∀ all, structToDict Γ n d vals = .ok all → ¬ Skipped f all ctx)
    (hpres' : ∀ all, structToDict Γ n d vals' = .ok all → ¬ Skipped f all ctx)
    (hb : structToStream Γ (n + 1) d vals ctx = (bs, .ok ())) (hb' : structToStream Γ (n + 1) d vals' ctx = (bs', .ok ())) :
    ∃ before p p' after, bs = before ++ p ++ after ∧ bs' = before ++ p' ++ after ∧ (p.length : Int) = k ∧ (p'.length : Int) = k := by
  obtain ⟨all, all', before, p, p', after, h1, h2, h3, h4, h5, h6⟩ :=
    C71_one_field Γ n d vals vals' ctx bs bs' pre post f hd hf hs hi hi' h hb hb'
  refine ⟨before, p, p', after, h5, h6, ?_, ?_⟩
  · rcases h3 with ⟨h3, -⟩ | ⟨v, -, h3⟩
    · exact absurd h3 (hpres all h1)
    · exact fixed_dump_length hsize hpad hnull h3
  · rcases h4 with ⟨h4, -⟩ | ⟨v, -, h4⟩
    · exact absurd h4 (hpres' all' h2)
    · exact fixed_dump_length hsize hpad hnull h4

theorem history_agreeOff {S : String → Prop} {d : StructDesc} {vals : Dict} (hd : UniqueNames d) {ops : List Op}
    (hops : ∀ op ∈ ops, S op.name) : AgreeOff S vals (history d vals ops) := by
  induction ops generalizing vals with
  | nil => exact fun k _ => rfl
  | cons op ops ih =>
    intro k hk
    have h1 := ih (vals := (op.run d vals).2) (fun o ho => hops o (by simp [ho])) k hk
    simp only [history]
    rw [← h1]
    have hne : op.name ≠ k := fun hx => hk (hx ▸ hops op (by simp))
    by_cases ha : Allowed d op
    · rw [run_allowed hd ha]
      cases op with
      | set k' v => simp only [Op.name] at hne; simp [Dict.get?_set, hne]
      | del k' => simp only [Op.name] at hne; simp [Dict.get?_erase, hne]
    · obtain ⟨e, he⟩ := run_not_allowed (vals := vals) ha
      rw [he]

/-- **C71** After any history of assignments to and deletions of fields in `S`, the other fields contribute the same bytes as before. -/
theorem C71_history (S : String → Prop) (Γ : Classes) (n : Nat) (d : StructDesc) (vals : Dict) (ops : List Op) (ctx : Value)
    (bs bs' : Bytes) (hd : UniqueNames d) (hs : Separated S d) (hi : Instance d vals) (hops : ∀ op ∈ ops, S op.name)
    (hb : structToStream Γ (n + 1) d vals ctx = (bs, .ok ()))
    (hb' : structToStream Γ (n + 1) d (history d vals ops) ctx = (bs', .ok ())) :
    ∃ all all' ps ps', structToDict Γ n d vals = .ok all ∧ structToDict Γ n d (history d vals ops) = .ok all' ∧
      Parts Γ n ctx all d.components ps ∧ Parts Γ n ctx all' d.components ps' ∧ bs = ps.flatten ∧ bs' = ps'.flatten ∧
      SameOff S d.components ps ps' :=
  C71_locality S Γ n d vals _ ctx bs bs' hd hs hi (history_instance hd hi ops) (history_agreeOff hd hops) hb hb'

/-! ### Examples -/

theorem Spec.BaseUnaware.plain {S : String → Prop} {b : FieldBase} (hn : ¬ S b.name) (hs : ∀ r, b.size = .ref r → ¬ S r)
    (hp : b.present = fun _ _ _ => .ok true) (hc : b.computeFn = none) : BaseUnaware S b :=
  ⟨hn, hs, fun _ _ _ _ _ => by rw [hp], fun fn h => by rw [hc] at h; cases h⟩

/-- The points of a packet do not look at its payload or the length of it. -/
theorem Sample.packet_separated : Separated (fun k => k = "n" ∨ k = "payload") Sample.packet := by
  intro f hf
  simp only [Sample.packet, List.mem_cons, List.not_mem_nil, or_false] at hf
  rcases hf with rfl | rfl | rfl
  · exact Or.inl (Or.inl rfl)
  · exact Or.inl (Or.inr rfl)
  · exact Or.inr (.array (.plain (by decide) (by intro r hr; cases hr) rfl rfl)
      (.nested (.plain (by decide) (by intro r hr; cases hr) rfl rfl)) (by intro r hr; cases hr))

-- another payload, and its length: whatever the history that led to it, the points contribute the same eight bytes
example (ops : List Op) (hops : ∀ op ∈ ops, op.name = "n" ∨ op.name = "payload") (bs' : Bytes)
    (h : structToStream Sample.classes 8 Sample.packet (history Sample.packet [("n", .int 2), ("payload", .bytes [7, 8]),
      ("points", .list [.dict [("x", .int 1), ("y", .int 2)], .dict [("x", .int 3), ("y", .int 4)]])] ops) .none = (bs', .ok ())) :
    ∃ ps ps' : List Bytes, [2, 7, 8, 1, 0, 2, 0, 3, 0, 4, 0] = ps.flatten ∧ bs' = ps'.flatten ∧ ps[2]? = ps'[2]? := by
  obtain ⟨all, all', ps, ps', h1, h2, h3, h4, h5, h6, h7⟩ := C71_history (fun k => k = "n" ∨ k = "payload") Sample.classes 7
    Sample.packet [("n", .int 2), ("payload", .bytes [7, 8]),
      ("points", .list [.dict [("x", .int 1), ("y", .int 2)], .dict [("x", .int 3), ("y", .int 4)]])] ops .none
    [2, 7, 8, 1, 0, 2, 0, 3, 0, 4, 0] bs' (by unfold UniqueNames; decide) Sample.packet_separated (by unfold Instance; decide) hops
    (by decide) h
  exact ⟨ps, ps', h5, h6, h7 2 _ rfl (by decide)⟩

-- such a history, and the dump after it
example : (structToStream Sample.classes 8 Sample.packet (history Sample.packet [("n", .int 2), ("payload", .bytes [7, 8]),
      ("points", .list [.dict [("x", .int 1), ("y", .int 2)], .dict [("x", .int 3), ("y", .int 4)]])]
      [.del "n", .set "payload" (.bytes [9]), .set "n" (.int 1)]) .none) =
    ([1, 9, 1, 0, 2, 0, 3, 0, 4, 0], .ok ()) := by decide

-- rewriting `y` in place
example (y : Int) (bs' : Bytes)
    (h : structToStream Sample.noClasses 5 Sample.point [("x", .int 1), ("y", .int y)] .none = (bs', .ok ())) :
    ∃ before p p' after, [1, 0, 2, 0] = before ++ p ++ after ∧ bs' = before ++ p' ++ after ∧ (p.length : Int) = 2 ∧
      (p'.length : Int) = 2 :=
  C71_in_place Sample.noClasses 4 Sample.point [("x", .int 1), ("y", .int 2)] [("x", .int 1), ("y", .int y)] .none _ bs'
    [Sample.upd (Sample.i16 "x") ({ · with offset := some 0 })] []
    (Sample.upd (Sample.i16 "y") ({ · with index := 1, offset := some 2 })) 2 (by unfold UniqueNames; decide) rfl
    (by
      intro g hg
      simp only [List.append_nil, List.mem_cons, List.not_mem_nil, or_false] at hg
      subst hg
      exact .leaf (.plain (by decide) (by intro r hr; cases hr) rfl rfl) (by intro ops h; cases h))
    (by unfold Instance; decide) (by unfold Instance; simp [Dict.keys]; decide)
    (by
      intro k hk
      have hk' : "y" ≠ k := fun hx => hk hx.symm
      simp [Dict.get?_cons, hk'])
    rfl trivial (Or.inl rfl) (fun all ha hs => by cases ha; cases computeValueForDump_skipped hs)
    (fun all ha hs => by cases ha; cases computeValueForDump_skipped hs) (by decide) h

end Verif
