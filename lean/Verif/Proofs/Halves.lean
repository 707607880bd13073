import Verif.Spec.Halves
import Verif.Proofs.Unroll

/-! Helper lemmas: one array and two arrays. -/

namespace Verif
open Spec

theorem ReadsAll.append {load : Stream → R Value} {vs ws : List Value} {s t : Stream} :
    ReadsAll load (vs ++ ws) s t ↔ ∃ u, ReadsAll load vs s u ∧ ReadsAll load ws u t := by
  constructor
  · intro h
    induction vs generalizing s with
    | nil => exact ⟨s, .nil s, h⟩
    | cons v vs ih =>
      cases h with
      | cons h1 h2 =>
        obtain ⟨u, h3, h4⟩ := ih h2
        exact ⟨u, .cons h1 h3, h4⟩
  · rintro ⟨u, h1, h2⟩
    induction h1 with
    | nil => exact h2
    | cons h _ ih => exact .cons h (ih h2)

/-- An array of a fixed number of elements reads them one after the other. -/
theorem array_reads {Γ : Classes} {N n : Nat} {b : FieldBase} {g : Field} {ctx : Value} {a : Dict} {s t : Stream} {v : Value} (hb : Always b)
    (hg : AlwaysThere Γ g) (h : fieldFromStream Γ (N + 2) (.array b g (.fixed n) none) s ctx a = (.ok v, t)) :
    ∃ vs, v = .list vs ∧ vs.length = n ∧ ReadsAll (fun s => fieldFromStream Γ N g s ctx a) vs s t := by
  rcases fieldFromStream_ok h with ⟨h4, -⟩ | ⟨-, -, ⟨h4, -⟩ | ⟨v', h4, h5⟩⟩
  · rw [show (Field.array b g (.fixed n) none).base = b from rfl, hb.1] at h4
    cases h4
  · rw [show (Field.array b g (.fixed n) none).base = b from rfl, allowNull_false hb.2] at h4
    cases h4
  · have hvv : v = v' := by
      rcases h5 with h5 | ⟨-, h5⟩
      · exact h5
      · rw [show (Field.array b g (.fixed n) none).base = b from rfl, allowNull_false hb.2] at h5
        cases h5
    subst hvv
    simp only [fieldDoLoad, containerLoad, R.map, Prod.mk.injEq] at h4
    obtain ⟨h4, h9⟩ := h4
    cases hl : (arrayLoop (haltCheck b.name (.fixed n) none ctx a) (fun s => fieldFromStream Γ N g s ctx a) N [] s).1 with
    | error e => rw [hl] at h4; cases h4
    | ok ws =>
      rw [hl] at h4
      cases h4
      obtain ⟨vs, h6, h7, h8⟩ := arrayLoop_reads (name := b.name) (m := n) (ctx := ctx) (loaded := a)
        (load := fun s => fieldFromStream Γ N g s ctx a) (fun s v t h hv => hg _ _ _ _ _ (hv ▸ h)) N [] ws s t (by simp) (by rw [← hl, ← h9])
      simp only [List.nil_append] at h6
      subst h6
      exact ⟨ws, rfl, by simpa using h7, h8⟩

/-- And the converse. -/
theorem array_of_reads {Γ : Classes} {N n : Nat} {b : FieldBase} {g : Field} {ctx : Value} {a : Dict} {s t : Stream} {vs : List Value}
    (hb : Plain b (.list vs)) (hg : AlwaysThere Γ g) (hn : vs.length = n) (h : ReadsAll (fun s => fieldFromStream Γ N g s ctx a) vs s t)
    {M : Nat} (hM : N + n + 2 ≤ M) : fieldFromStream Γ M (.array b g (.fixed n) none) s ctx a = (.ok (.list vs), t) := by
  refine fieldFromStream_of_le hM ?_
  refine fieldFromStream_plain (f := .array b g (.fixed n) none) hb ?_
  have hl := arrayLoop_of_reads (name := b.name) (m := n) (ctx := ctx) (loaded := a) (load := fun s => fieldFromStream Γ (N + n) g s ctx a)
    (fun s v t h hv => hg _ _ _ _ _ (hv ▸ h)) (h.change fun s v t h => fieldFromStream_of_le (by omega) h) (N + n) [] (by simpa using hn)
    (by omega)
  simp only [fieldDoLoad, containerLoad, hl, R.map, List.nil_append]
  rfl

theorem ReadsAll.off {S : String → Prop} {Γ : Classes} {N : Nat} {g : Field} {ctx : Value} {a a' : Dict} {vs : List Value} {s t : Stream}
    (hg : ReadsOff S g) (ha : AgreeOff S a a') (h : ReadsAll (fun s => fieldFromStream Γ N g s ctx a) vs s t) :
    ReadsAll (fun s => fieldFromStream Γ N g s ctx a') vs s t :=
  h.change fun s v t h => by rw [← (hg.load Γ ha N s ctx).1]; exact h

section
variable {d d' : StructDesc} {pre post : List Field} {b b1 b2 : FieldBase} {g : Field} {n m : Nat}

/-- The names of the parts are different. -/
theorem Spec.Split.apart (h : Split d d' pre b b1 b2 g n m post) :
    (∀ f ∈ pre, f.name ≠ b.name ∧ f.name ≠ b1.name ∧ f.name ≠ b2.name) ∧ (∀ f ∈ post, f.name ≠ b.name ∧ f.name ≠ b1.name ∧ f.name ≠ b2.name) ∧
      (∀ f ∈ pre, ∀ g ∈ post, f.name ≠ g.name) ∧ b1.name ≠ b2.name := by
  have h1 := h.unique
  have h2 := h.unique'
  unfold UniqueNames names at h1 h2
  rw [h.whole, List.map_append, List.map_cons, List.nodup_append, List.nodup_cons] at h1
  rw [h.halves, List.map_append, List.map_cons, List.map_cons, List.nodup_append, List.nodup_cons, List.nodup_cons] at h2
  obtain ⟨-, ⟨h3, -⟩, h4⟩ := h1
  obtain ⟨-, ⟨h5, h6, -⟩, h7⟩ := h2
  have mem : ∀ {l : List Field} {f : Field}, f ∈ l → f.name ∈ l.map Field.name := fun hf => List.mem_map.2 ⟨_, hf, rfl⟩
  refine ⟨fun f hf => ⟨h4 _ (mem hf) _ (List.mem_cons_self ..), h7 _ (mem hf) _ (List.mem_cons_self ..),
    h7 _ (mem hf) _ (List.mem_cons_of_mem _ (List.mem_cons_self ..))⟩, fun f hf => ⟨fun he => h3 ?_, fun he => h5 ?_, fun he => h6 ?_⟩,
    fun f hf g hg => h4 _ (mem hf) _ (List.mem_cons_of_mem _ (mem hg)), fun he => h5 ?_⟩
  · exact (show (Field.array b g (.fixed (n + m : Nat)) none).name = f.name from he.symm) ▸ mem hf
  · exact List.mem_cons_of_mem _ ((show (Field.array b1 g (.fixed n) none).name = f.name from he.symm) ▸ mem hf)
  · exact (show (Field.array b2 g (.fixed m) none).name = f.name from he.symm) ▸ mem hf
  · rw [show (Field.array b1 g (.fixed n) none).name = (Field.array b2 g (.fixed m) none).name from he]
    exact List.mem_cons_self ..

theorem split_same (hu : Split d d' pre b b1 b2 g n m post) (hnd : b.discard = false) (hnd1 : b1.discard = false) (hnd2 : b2.discard = false)
    {m1 results r' : Dict} {vs ws : List Value}
    (h1 : ∀ y, y ∉ post.map Field.name → Dict.get? results y = if b.name = y then some (.list (vs ++ ws)) else Dict.get? m1 y)
    (h4 : ∀ y, y ∉ post.map Field.name → Dict.get? r' y =
      if b2.name = y then some (.list ws) else if b1.name = y then some (.list vs) else Dict.get? m1 y)
    (h5 : AgreeOff (SplitNames b b1 b2) results r') :
    SameHalves pre b b1 b2 post (dropDiscarded d results) (dropDiscarded d' r') vs ws := by
  obtain ⟨a1, a2, a3, a4⟩ := hu.apart
  have off : ∀ {l : List Field} {y : String}, (∀ f ∈ l, f.name ≠ y) → y ∉ l.map Field.name := by
    intro l y h hx
    obtain ⟨f, hf, he⟩ := List.mem_map.1 hx
    exact h f hf he
  refine ⟨?_, ?_, ?_, ?_⟩
  · intro g hgm
    have hd : g ∈ d.components := by rw [hu.whole]; rcases List.mem_append.1 hgm with h | h <;> simp [h]
    have hd' : g ∈ d'.components := by rw [hu.halves]; rcases List.mem_append.1 hgm with h | h <;> simp [h]
    rw [dropDiscarded_get hu.unique _ hd, dropDiscarded_get hu.unique' _ hd']
    split
    · rfl
    · rcases List.mem_append.1 hgm with h | h
      · have hp : g.name ∉ post.map Field.name := off fun f hf he => a3 g h f hf he.symm
        obtain ⟨e1, e2, e3⟩ := a1 g h
        rw [h4 _ hp, h1 _ hp, if_neg (fun he => e3 he.symm), if_neg (fun he => e2 he.symm), if_neg (fun he => e1 he.symm)]
      · obtain ⟨e1, e2, e3⟩ := a2 g h
        exact (h5 g.name (by rintro (hx | hx | hx); exacts [e1 hx, e2 hx, e3 hx])).symm
  · have := dropDiscarded_get hu.unique results (f := .array b g (.fixed (n + m : Nat)) none) (by rw [hu.whole]; simp)
    rw [show (Field.array b g (.fixed (n + m : Nat)) none).name = b.name from rfl,
      show (Field.array b g (.fixed (n + m : Nat)) none).base = b from rfl, hnd] at this
    rw [this, h1 _ (off fun f hf => (a2 f hf).1)]
    simp
  · have := dropDiscarded_get hu.unique' r' (f := .array b1 g (.fixed n) none) (by rw [hu.halves]; simp)
    rw [show (Field.array b1 g (.fixed n) none).name = b1.name from rfl, show (Field.array b1 g (.fixed n) none).base = b1 from rfl, hnd1] at this
    rw [this, h4 _ (off fun f hf => (a2 f hf).2.1)]
    simp [Ne.symm a4]
  · have := dropDiscarded_get hu.unique' r' (f := .array b2 g (.fixed m) none) (by rw [hu.halves]; simp)
    rw [show (Field.array b2 g (.fixed m) none).name = b2.name from rfl, show (Field.array b2 g (.fixed m) none).base = b2 from rfl, hnd2] at this
    rw [this, h4 _ (off fun f hf => (a2 f hf).2.2)]
    simp

/-! ### Dumping -/

theorem mapE_append_ok {α β : Type} {f : α → Except Err β} {as cs : List α} {l : List β} :
    mapE f (as ++ cs) = .ok l ↔ ∃ x y, mapE f as = .ok x ∧ mapE f cs = .ok y ∧ l = x ++ y := by
  induction as generalizing l with
  | nil =>
    simp only [List.nil_append, mapE]
    constructor
    · exact fun h => ⟨[], l, rfl, h, rfl⟩
    · rintro ⟨x, y, h1, h2, rfl⟩
      cases h1
      exact h2
  | cons a as ih =>
    simp only [List.cons_append, mapE]
    cases f a with
    | error e => simp
    | ok z =>
      simp only
      cases h1 : mapE f (as ++ cs) with
      | error e =>
        constructor
        · nofun
        · rintro ⟨x, y, h2, h3, rfl⟩
          cases h4 : mapE f as with
          | error e => rw [h4] at h2; cases h2
          | ok w =>
            rw [ih.2 ⟨w, y, h4, h3, rfl⟩] at h1
            cases h1
      | ok l' =>
        obtain ⟨x, y, h2, h3, rfl⟩ := ih.1 h1
        simp only [h2, h3]
        constructor
        · intro h
          cases h
          exact ⟨_, _, rfl, rfl, rfl⟩
        · rintro ⟨x, y, h2, h3, rfl⟩
          cases h2
          cases h3
          rfl

theorem list_toDicts {Γ : Classes} {N : Nat} {vs : List Value} {w : Value} :
    recursiveToDicts Γ (N + 1) (.list vs) = .ok w ↔ ∃ l, mapE (recursiveToDicts Γ N) vs = .ok l ∧ w = .list l := by
  rw [recursiveToDicts]
  cases mapE (recursiveToDicts Γ N) vs with
  | error e => simp [Except.map]
  | ok l =>
    simp only [Except.map, Except.ok.injEq]
    constructor
    · exact fun h => ⟨l, rfl, h.symm⟩
    · rintro ⟨l', rfl, rfl⟩; rfl

theorem mapE_length {α β : Type} {f : α → Except Err β} {as : List α} {l : List β} (h : mapE f as = .ok l) : l.length = as.length := by
  induction as generalizing l with
  | nil => cases h; rfl
  | cons a as ih =>
    simp only [mapE] at h
    cases h1 : f a with
    | error e => rw [h1] at h; cases h
    | ok z =>
      rw [h1] at h
      simp only at h
      cases h2 : mapE f as with
      | error e => rw [h2] at h; cases h
      | ok w =>
        rw [h2] at h
        cases h
        simp [ih h2]

theorem dumpAll_append {f : Value → W} {vs ws : List Value} {bs : Bytes} :
    dumpAll f (vs ++ ws) = (bs, .ok ()) ↔ ∃ x y, dumpAll f vs = (x, .ok ()) ∧ dumpAll f ws = (y, .ok ()) ∧ bs = x ++ y := by
  induction vs generalizing bs with
  | nil =>
    simp only [List.nil_append, dumpAll, W.ok]
    constructor
    · exact fun h => ⟨[], bs, rfl, h, rfl⟩
    · rintro ⟨x, y, h1, h2, rfl⟩
      cases h1
      exact h2
  | cons v vs ih =>
    simp only [List.cons_append, dumpAll]
    constructor
    · intro h
      obtain ⟨x, y, h1, h2, rfl⟩ := W.seq_ok h
      obtain ⟨z, w, h3, h4, rfl⟩ := ih.1 h2
      exact ⟨x ++ z, w, by simp [h1, h3, W.seq], h4, by simp⟩
    · rintro ⟨x, y, h1, h2, rfl⟩
      obtain ⟨z, w, h3, h4, rfl⟩ := W.seq_ok h1
      rw [h3]
      have := ih.2 ⟨w, y, h4, h2, rfl⟩
      simp [W.seq, this]

/-- What is in the dictionary of a struct for a field that is set. -/
theorem toDict_entry {Γ : Classes} {N : Nat} {d : StructDesc} {vals all : Dict} {f : Field} {v : Value} (hd : UniqueNames d)
    (hi : Instance d vals) (h : structToDict Γ N d vals = .ok all) (hf : f ∈ d.components) (hnd : f.base.discard = false)
    (hp : ∀ w c s, f.base.present w c s = .ok true) (hx : Dict.get? vals f.name = some v) (hu : v ≠ .undefined) :
    ∃ w, recursiveToDicts Γ N v = .ok w ∧ Dict.get? all f.name = some w := by
  have hc := full_value hi hf hx (.inr ⟨hu, hp _ _ _⟩)
  rcases (structToDict_get hd hi h).2.2 f hf with ⟨-, h4, -⟩ | ⟨-, v', w', h4, h5, h6⟩
  · rw [hnd] at h4; cases h4
  · have hv : v' = v := by
      rcases h4 with h4 | ⟨e, h4, -⟩
      · rw [hc] at h4; cases h4; rfl
      · rw [hc] at h4; cases h4
    exact ⟨w', hv ▸ h5, h6⟩

/-- An array writes its elements one after the other. -/
theorem array_part_of {Γ : Classes} {N : Nat} {count : Count} {b : FieldBase} {g : Field} {ctx : Value} {all : Dict} {l : List Value} {p : Bytes} (hb : Always b)
    (hs : b.size = .none) (hchk : ∀ check ∈ b.validators, check (.list l) = .ok ()) (hl : count = .none ∨ count = .fixed l.length)
    (hx : Dict.get? all b.name = some (.list l)) :
    Part Γ (N + 2) ctx all (.array b g count none) p ↔ dumpAll (fun v => fieldToStream Γ (N + 1) g v ctx all) l = (p, .ok ()) := by
  have hdo : fieldDoDump Γ (N + 1) (.array b g count none) (.list l) ctx all = dumpAll (fun v => fieldToStream Γ (N + 1) g v ctx all) l := by
    rcases hl with rfl | rfl
    · simp only [fieldDoDump, containerDump, arrayDump, finalElementCount, arrayElements]
    · simp only [fieldDoDump, containerDump, arrayDump, finalElementCount, arrayElements]
      rw [if_neg (by simp)]
  rw [part_iff, show (Field.array b g count none).base = b from rfl, compute_entry hb hx (by simp)]
  constructor
  · rintro ⟨v, h1, h2⟩
    cases h1
    have h6 := (h2.resolve_left fun h => by cases h.1).2
    rw [fieldToStream_succ] at h6
    obtain ⟨w, hw, -, -, -, h7⟩ := toStreamWith_ok h6
    simp at hw; subst hw
    rcases h7 with ⟨h7, -⟩ | ⟨-, ser, h8, h9⟩
    · simp at h7
    · have hser : p = ser := by
        rcases finishDump_ok h9 with ⟨-, hh⟩ | ⟨k', -, ⟨-, hh⟩ | ⟨-, hh⟩⟩
        · exact hh
        · exact hh
        · simp [fieldAddPadding] at hh
      rw [hser, ← hdo]
      exact h8
  · intro h
    refine ⟨_, rfl, Or.inr ⟨by simp, ?_⟩⟩
    exact fieldToStream_plain (f := .array b g count none) (by simp) (by simp) (by simp) hchk (Or.inl hs) (hdo.trans h)

/-- An array of a fixed number of elements writes them one after the other. -/
theorem array_part {Γ : Classes} {N n : Nat} {b : FieldBase} {g : Field} {ctx : Value} {all : Dict} {l : List Value} {p : Bytes} (hb : Always b)
    (hs : b.size = .none) (hchk : ∀ check ∈ b.validators, check (.list l) = .ok ()) (hl : l.length = n)
    (hx : Dict.get? all b.name = some (.list l)) :
    Part Γ (N + 2) ctx all (.array b g (.fixed n) none) p ↔ dumpAll (fun v => fieldToStream Γ (N + 1) g v ctx all) l = (p, .ok ()) := 
  array_part_of hb hs hchk (.inr (by rw [hl])) hx

theorem Parts_unique {Γ : Classes} {n : Nat} {ctx : Value} {all : Dict} {fs : List Field} {ps qs : List Bytes} (h : Parts Γ n ctx all fs ps)
    (h' : Parts Γ n ctx all fs qs) : ps = qs := by
  induction h generalizing qs with
  | nil => cases h'; rfl
  | cons h1 _ ih =>
    cases h' with
    | cons h2 h3 =>
      rw [ih h3]
      rw [part_iff] at h1 h2
      obtain ⟨v, e1, e2⟩ := h1
      obtain ⟨w, e3, e4⟩ := h2
      rw [e1] at e3
      cases e3
      rcases e2 with ⟨rfl, rfl⟩ | ⟨hne, e2⟩
      · rw [(e4.resolve_right fun h => h.1 rfl).2]
      · have e4 := (e4.resolve_left fun h => hne h.1).2
        rw [e2] at e4
        cases e4
        rfl

theorem dumpAll_off {S : String → Prop} {Γ : Classes} {N : Nat} {g : Field} {ctx : Value} {a a' : Dict} (hg : Unaware S g) (ha : AgreeOff S a a')
    (l : List Value) : dumpAll (fun v => fieldToStream Γ N g v ctx a) l = dumpAll (fun v => fieldToStream Γ N g v ctx a') l := by
  congr 1
  funext v
  exact hg.dump Γ N v ctx ha

/-- The class with two arrays against the one with one. -/
theorem split_runs (hu : Split d d' pre b b1 b2 g n m post) {vals vals' : Dict} {vs ws : List Value}
    (hs : SameHalves pre b b1 b2 post vals vals' vs ws) (ho : ∀ g ∈ pre ++ post, Unaware (SplitNames b b1 b2) g) (hi : Instance d vals)
    (hi' : Instance d' vals') (hset : ∀ g ∈ d.components, Dict.get? vals g.name ≠ none) :
    TwoRuns (SplitNames b b1 b2) d' d vals' vals := by
  have hmem : ∀ f : Field, ¬ SplitNames b b1 b2 f.name → (f ∈ d'.components ↔ f ∈ pre ++ post) := by
    intro f hf
    rw [hu.halves, List.mem_append, List.mem_cons, List.mem_cons, List.mem_append]
    have e1 : f ≠ .array b1 g (.fixed n) none := by rintro rfl; exact hf (.inr (.inl rfl))
    have e2 : f ≠ .array b2 g (.fixed m) none := by rintro rfl; exact hf (.inr (.inr rfl))
    simp [e1, e2]
  refine stored_twoRuns hu.unique' hu.unique hi' hi ?_ ?_ ?_
  · intro f hf
    rw [hmem f hf, hu.whole, List.mem_append, List.mem_append, List.mem_cons]
    have e : f ≠ .array b g (.fixed (n + m : Nat)) none := by rintro rfl; exact hf (.inl rfl)
    simp only [e, false_or]
  · intro f hf
    by_cases hS : SplitNames b b1 b2 f.name
    · exact Or.inl hS
    · exact Or.inr (ho f ((hmem f hS).1 hf))
  · intro g hgm hS
    have hgm := (hmem g hS).1 hgm
    rw [hs.outer g hgm]
    exact ⟨hset g (by rw [hu.whole]; rcases List.mem_append.1 hgm with h | h <;> simp [h]), rfl⟩

/-- And the other way round. -/
theorem joined_runs (hu : Split d d' pre b b1 b2 g n m post) {vals vals' : Dict} {vs ws : List Value}
    (hs : SameHalves pre b b1 b2 post vals vals' vs ws) (ho : ∀ g ∈ pre ++ post, Unaware (SplitNames b b1 b2) g) (hi : Instance d vals)
    (hi' : Instance d' vals') (hset : ∀ g ∈ d.components, Dict.get? vals g.name ≠ none) :
    TwoRuns (SplitNames b b1 b2) d d' vals vals' := by
  have h := split_runs hu hs ho hi hi' hset
  refine ⟨h.unique', h.unique, h.inst', h.inst, fun f hf => (h.fields f hf).symm, ?_, fun y hy => (h.agree y hy).symm,
    fun y hy => ⟨(h.views y hy).1.symm, (h.views y hy).2.symm⟩⟩
  intro f hf
  by_cases hS : SplitNames b b1 b2 f.name
  · exact Or.inl hS
  · exact Or.inr ((h.separated f ((h.fields f hS).2 hf)).resolve_left hS)

end

end Verif
