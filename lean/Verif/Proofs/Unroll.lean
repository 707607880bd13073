import Verif.Spec.Unroll
import Verif.Proofs.Group
import Verif.Proofs.RenamingLoad

/-! Helper lemmas: arrays of a fixed number of elements. -/

namespace Verif
open Spec

theorem renaming_id : Renaming id := ⟨fun _ _ h => h, rfl⟩

theorem dict_rename_id (a : Dict) : Dict.rename id a = a := by simp [Dict.rename]

section
variable {c : FieldBase} {k : Leaf} (hc : ElementType c k)

include hc in
theorem element_alike (x : String) : BaseAlike id c { c.bare with name := x } where
  const := rfl
  dflt := rfl
  factory := rfl
  discard := rfl
  nullValue := rfl
  size := by rcases hc.kind with ⟨-, n, hn⟩ | ⟨-, hn⟩ <;> simp [hn, sizeRenamed, FieldBase.bare]
  validators := rfl
  present := fun V V' ctx s _ => by
    show SameE (c.present V ctx s) (c.present V' ctx s)
    rw [hc.always.1, hc.always.1]
    exact .ok rfl
  notPresentValue := rfl
  computeFn := by
    show Both _ c.computeFn c.computeFn
    rw [hc.stored]
    exact .none

include hc in
theorem element_kind : LeafRenamed id k k := .same fun ops h => by
  rcases hc.kind with ⟨h1, -⟩ | ⟨⟨_, _, h1⟩, -⟩
  · rw [h] at h1
    exact h1
  · rw [h] at h1
    cases h1

theorem element_expected {n : Int} (hn : c.size = .fixed n) (x : String) (a : Dict) :
    SameE (leafExpectedSize c k a) (leafExpectedSize { c.bare with name := x } k a) := by
  simp only [leafExpectedSize, FieldBase.expectedSizeWith, hn, show c.bare.size = .fixed n from hn]
  exact .ok rfl

include hc in
theorem single_always (x : String) : Always { c.bare with name := x } := ⟨hc.always.1, hc.always.2⟩

theorem fromStreamWith_never_null {b : FieldBase} (hb : Always b) {eq : Value → Value → Except Err Bool} {nr : Except Err Bytes}
    {dl : Stream → R Value} {s : Stream} {ctx : Value} {a : Dict} : fromStreamWith b eq nr dl s ctx a = loadAndFinish b eq dl s := by
  simp only [fromStreamWith, hb.1, allowNull_false hb.2]
  rfl

theorem toStreamWith_unsized {b : FieldBase} (hb : b.size = .none) (dd : Value → W) (nr : Except Err Bytes) (es : Except Err Int)
    (pad : Bytes → Int → Except Err Bytes) (v : Value) : toStreamWith b dd nr es pad v = toStreamWith b dd nr (.ok 0) pad v := by
  simp only [toStreamWith, finishDump, hb]

include hc in
/-- The name of an element type does not matter when it is loaded. -/
theorem element_load (Γ : Classes) (n : Nat) (x : String) (s : Stream) (ctx : Value) (a a' : Dict) :
    AlikeR Eq (fieldFromStream Γ n (.leaf c k) s ctx a) (fieldFromStream Γ n (singleField c k x) s ctx a') := by
  rcases hc.kind with ⟨hkind, m, hm⟩ | ⟨⟨enc, mx, rfl⟩, hm⟩
  case inr =>
    cases n with
    | zero => exact AlikeR.refl _
    | succ n =>
      simp only [fieldFromStream]
      rw [show (Field.leaf c (.varint enc mx)).base = c from rfl, show (singleField c (.varint enc mx) x).base = { c.bare with name := x } from rfl]
      rw [fromStreamWith_never_null hc.always, fromStreamWith_never_null (single_always hc x)]
      refine loadAndFinish_renamed (element_alike hc x) (pyEq Γ n) (fun s => ?_) s
      cases n with
      | zero => exact AlikeR.refl _
      | succ n => exact AlikeR.refl _
  have hoff : ReadsOff (fun _ => True) (singleField c k x) := by
    refine .leaf ⟨fun h => ?_, fun r h => ?_, fun V V' ctx s _ => ?_⟩ fun ops h => ?_
    · rw [show FieldBase.size { c.bare with name := x } = c.size from rfl, hm] at h
      cases h
    · rw [show FieldBase.size { c.bare with name := x } = c.size from rfl, hm] at h
      cases h
    · show c.present V ctx s = c.present V' ctx s
      rw [hc.always.1, hc.always.1]
    · rw [h] at hkind
      exact absurd hkind id
  rw [(hoff.load Γ (a := a') (a' := a) (fun k hk => absurd trivial hk) n s ctx).1]
  cases n with
  | zero => exact AlikeR.refl _
  | succ n =>
    have hex := element_expected (k := k) hm x a
    have hd : ∀ s, AlikeR Eq (fieldDoLoad Γ n (.leaf c k) s ctx a) (fieldDoLoad Γ n (singleField c k x) s ctx a) := by
      intro s
      cases n with
      | zero => exact AlikeR.refl _
      | succ n =>
        have := leafLoad_renamed (element_alike hc x) (element_kind hc) hex s ctx a
        rw [dict_rename_id] at this
        exact this
    have hnull : SameE (fieldNullRepr Γ n (.leaf c k) a) (fieldNullRepr Γ n (singleField c k x) a) := by
      refine nullReprWith_renamed (ρ := id) (element_alike hc x) (fun v => ?_) hex
      have := leafDump_renamed (element_alike hc x) (element_kind hc) hex v .none a
      rw [dict_rename_id] at this
      exact this
    have := fromStreamWith_renamed renaming_id (element_alike hc x) (pyEq Γ n) hnull hd s ctx a
    rw [dict_rename_id] at this
    simp only [fieldFromStream]
    exact this

include hc in
theorem element_load_iff (Γ : Classes) (n : Nat) (x : String) (s : Stream) (ctx : Value) (a a' : Dict) (v : Value) (t : Stream) :
    fieldFromStream Γ n (singleField c k x) s ctx a' = (.ok v, t) ↔ fieldFromStream Γ n (.leaf c k) s ctx a = (.ok v, t) := by
  have h := element_load hc Γ n x s ctx a a'
  generalize fieldFromStream Γ n (.leaf c k) s ctx a = p at h
  generalize fieldFromStream Γ n (singleField c k x) s ctx a' = q at h
  obtain ⟨p1, p2⟩ := p
  obtain ⟨q1, q2⟩ := q
  obtain ⟨h1, h2⟩ := h
  simp only at h1 h2
  subst h1
  cases h2 with
  | ok h => subst h; exact Iff.rfl
  | error _ => constructor <;> intro h <;> cases h

include hc in
/-- … and when it is dumped. -/
theorem element_dump (Γ : Classes) (n : Nat) (x : String) (v ctx : Value) (a a' : Dict) :
    SameW (fieldToStream Γ n (.leaf c k) v ctx a) (fieldToStream Γ n (singleField c k x) v ctx a') := by
  rcases hc.kind with ⟨hkind, m, hm⟩ | ⟨⟨enc, mx, rfl⟩, hm⟩
  case inr =>
    cases n with
    | zero => exact SameW.refl _
    | succ n =>
      have h1 := toStreamWith_unsized (b := c) hm (fun v => leafDump c (.varint enc mx) (leafExpectedSize c (.varint enc mx) a) v ctx a)
        (leafNullRepr c (.varint enc mx) a) (leafExpectedSize c (.varint enc mx) a) (leafAddPadding c (.varint enc mx)) v
      have h2 := toStreamWith_unsized (b := { c.bare with name := x }) hm
        (fun v => leafDump { c.bare with name := x } (.varint enc mx) (leafExpectedSize { c.bare with name := x } (.varint enc mx) a') v ctx a')
        (leafNullRepr { c.bare with name := x } (.varint enc mx) a') (leafExpectedSize { c.bare with name := x } (.varint enc mx) a')
        (leafAddPadding { c.bare with name := x } (.varint enc mx)) v
      have h3 : fieldToStream Γ (n + 1) (.leaf c (.varint enc mx)) v ctx a = _ := h1
      have h4 : fieldToStream Γ (n + 1) (singleField c (.varint enc mx) x) v ctx a' = _ := h2
      rw [h3, h4]
      refine toStreamWith_renamed (element_alike hc x) (fun v => ?_) ?_ (.ok rfl) (leafAddPadding_renamed (element_kind hc)) v
      · have := leafDump_renamed (element_alike hc x) (element_kind hc) (r := .ok 0) (r' := .ok 0) (.ok rfl) v ctx a
        exact this
      · simp only [leafNullRepr, FieldBase.nullReprWith, hc.always.2, show c.bare.nullValue = .undefined from hc.always.2]
        exact AlikeE.error (e := .unserializable c.name) (e' := .unserializable x) rfl
  have hun : fieldToStream Γ n (.leaf c k) v ctx a = fieldToStream Γ n (.leaf c k) v ctx a' := by
    cases n with
    | zero => rfl
    | succ n =>
      cases k <;> first
        | exact absurd hkind id
        | simp only [fieldToStream, leafExpectedSize, leafNullRepr, FieldBase.expectedSizeWith, hm, leafDump]
  rw [hun]
  cases n with
  | zero => exact SameW.refl _
  | succ n =>
    have hex := element_expected (k := k) hm x a'
    have hd : ∀ v ctx, SameW (leafDump c k (leafExpectedSize c k a') v ctx a')
        (leafDump { c.bare with name := x } k (leafExpectedSize { c.bare with name := x } k a') v ctx a') := fun v ctx => by
      have := leafDump_renamed (element_alike hc x) (element_kind hc) hex v ctx a'
      rw [dict_rename_id] at this
      exact this
    exact toStreamWith_renamed (element_alike hc x) (fun v => hd v ctx)
      (nullReprWith_renamed (ρ := id) (element_alike hc x) (fun v => hd v .none) hex) hex (leafAddPadding_renamed (element_kind hc)) v

include hc in
theorem element_dump_iff (Γ : Classes) (n : Nat) (x : String) (v ctx : Value) (a a' : Dict) (p : Bytes) :
    fieldToStream Γ n (singleField c k x) v ctx a' = (p, .ok ()) ↔ fieldToStream Γ n (.leaf c k) v ctx a = (p, .ok ()) := by
  have h := element_dump hc Γ n x v ctx a a'
  generalize fieldToStream Γ n (.leaf c k) v ctx a = p at h
  generalize fieldToStream Γ n (singleField c k x) v ctx a' = q at h
  obtain ⟨p1, p2⟩ := p
  obtain ⟨q1, q2⟩ := q
  obtain ⟨h1, h2⟩ := h
  simp only at h1 h2
  subst h1
  cases h2 with
  | ok h => subst h; exact Iff.rfl
  | error _ => constructor <;> intro h <;> cases h

include hc in
theorem element_load_there {Γ : Classes} {n : Nat} {s t : Stream} {ctx v : Value} {a : Dict} (h : fieldFromStream Γ n (.leaf c k) s ctx a = (.ok v, t)) :
    v ≠ .notPresent := by
  cases n with
  | zero => simp [fieldFromStream] at h
  | succ n =>
    rcases fieldFromStream_ok h with ⟨h1, -⟩ | ⟨-, -, ⟨h1, -⟩ | ⟨w, h1, h2⟩⟩
    · rw [show (Field.leaf c k).base = c from rfl, hc.always.1] at h1
      cases h1
    · rw [show (Field.leaf c k).base = c from rfl, allowNull_false hc.always.2] at h1
      cases h1
    · rcases h2 with rfl | ⟨rfl, -⟩
      · rintro rfl
        cases n with
        | zero => simp [fieldDoLoad] at h1
        | succ n =>
          rcases hc.kind with ⟨hk, -⟩ | ⟨⟨enc, mx, rfl⟩, -⟩
          · exact leafLoad_not_notPresent hk h1
          · simp only [fieldDoLoad, leafLoad, R.map, Prod.mk.injEq] at h1
            cases hr : (enc.decode s).1 <;> simp [hr, Except.map] at h1
      · simp

end

/-- These values are read one after the other. -/
inductive ReadsAll (load : Stream → R Value) : List Value → Stream → Stream → Prop where
  | nil (s : Stream) : ReadsAll load [] s s
  | cons {v : Value} {vs : List Value} {s u t : Stream} : load s = (.ok v, u) → ReadsAll load vs u t → ReadsAll load (v :: vs) s t

theorem ReadsAll.change {load load' : Stream → R Value} {vs : List Value} {s t : Stream} (h : ReadsAll load vs s t)
    (hl : ∀ s v t, load s = (.ok v, t) → load' s = (.ok v, t)) : ReadsAll load' vs s t := by
  induction h with
  | nil s => exact .nil s
  | cons h _ ih => exact .cons (hl _ _ _ h) ih

theorem arrayLoop_reads {name : String} {m : Nat} {ctx : Value} {loaded : Dict} {load : Stream → R Value}
    (hl : ∀ s v t, load s = (.ok v, t) → v ≠ .notPresent) (fuel : Nat) :
    ∀ acc ws s t, acc.length ≤ m → arrayLoop (haltCheck name (.fixed m) none ctx loaded) load fuel acc s = (.ok ws, t) →
      ∃ vs, ws = acc ++ vs ∧ acc.length + vs.length = m ∧ ReadsAll load vs s t := by
  have hhalt : ∀ s vs, haltCheck name (.fixed m) none ctx loaded s vs = .ok (decide ((m : Int) ≤ vs.length), vs) := fun s vs => rfl
  induction fuel with
  | zero =>
    intro acc ws s t hm h
    rw [arrayLoop.eq_def] at h
    simp only [hhalt] at h
    by_cases hd : (m : Int) ≤ acc.length
    · simp only [hd, decide_true, Prod.mk.injEq, Except.ok.injEq] at h
      obtain ⟨rfl, rfl⟩ := h
      exact ⟨[], by simp, by simp; omega, .nil _⟩
    · simp only [hd, decide_false] at h
      split at h <;> simp at h
  | succ fuel ih =>
    intro acc ws s t hm h
    rw [arrayLoop.eq_def] at h
    simp only [hhalt] at h
    by_cases hd : (m : Int) ≤ acc.length
    · simp only [hd, decide_true, Prod.mk.injEq, Except.ok.injEq] at h
      obtain ⟨rfl, rfl⟩ := h
      exact ⟨[], by simp, by simp; omega, .nil _⟩
    · simp only [hd, decide_false] at h
      split at h
      · simp at h
      · rename_i v u hv
        rw [if_neg (hl _ _ _ hv)] at h
        obtain ⟨vs, h1, h2, h3⟩ := ih _ ws u t (by simp; omega) h
        exact ⟨v :: vs, by simp [h1], by simp at h2 ⊢; omega, .cons hv h3⟩

theorem arrayLoop_of_reads {name : String} {m : Nat} {ctx : Value} {loaded : Dict} {load : Stream → R Value}
    (hl : ∀ s v t, load s = (.ok v, t) → v ≠ .notPresent) {vs : List Value} {s t : Stream} (h : ReadsAll load vs s t) :
    ∀ fuel acc, acc.length + vs.length = m → vs.length ≤ fuel →
      arrayLoop (haltCheck name (.fixed m) none ctx loaded) load fuel acc s = (.ok (acc ++ vs), t) := by
  have hhalt : ∀ s vs, haltCheck name (.fixed m) none ctx loaded s vs = .ok (decide ((m : Int) ≤ vs.length), vs) := fun s vs => rfl
  induction h with
  | nil s =>
    intro fuel acc h1 _
    rw [arrayLoop.eq_def]
    have hd : (m : Int) ≤ acc.length := by simp at h1; omega
    simp only [hhalt, hd, decide_true, List.append_nil]
  | @cons v vs s u t hv _ ih =>
    intro fuel acc h1 h2
    rw [arrayLoop.eq_def]
    have hd : ¬ (m : Int) ≤ acc.length := by simp at h1; omega
    simp only [hhalt, hd, decide_false, hv, if_neg (hl _ _ _ hv)]
    cases fuel with
    | zero => simp at h2
    | succ fuel =>
      simp only
      rw [ih fuel (acc ++ [v]) (by simp at h1 ⊢; omega) (by simp at h2; omega)]
      simp

theorem loads_singles {Γ : Classes} {n : Nat} {ctx : Value} {c : FieldBase} {k : Leaf} (hc : ElementType c k) (a : Dict) {xs : List String}
    (hx : xs.Nodup) {acc : Dict} (hacc : ∀ x ∈ xs, Dict.get? acc x = none) {s t : Stream} {r : Dict} :
    Loads Γ n ctx (xs.map (singleField c k)) acc s r t ↔
      ∃ vs, vs.length = xs.length ∧ ReadsAll (fun s => fieldFromStream Γ n (.leaf c k) s ctx a) vs s t ∧ r = acc ++ xs.zip vs := by
  induction xs generalizing acc s with
  | nil =>
    constructor
    · intro h
      cases h
      exact ⟨[], rfl, .nil _, by simp⟩
    · rintro ⟨vs, h1, h2, h3⟩
      cases h2 with
      | nil => rw [h3]; simp; exact .nil _ _
      | cons => simp at h1
  | cons x xs ih =>
    have hx1 := (List.nodup_cons.1 hx).1
    have hx2 := (List.nodup_cons.1 hx).2
    have hnone := hacc x List.mem_cons_self
    have hacc' : ∀ v, ∀ y ∈ xs, Dict.get? (acc ++ [(x, v)]) y = none := by
      intro v y hy
      rw [← set_of_not_mem hnone, Dict.get?_set, if_neg (fun h : x = y => hx1 (h ▸ hy))]
      exact hacc y (List.mem_cons_of_mem _ hy)
    constructor
    · intro h
      cases h with
      | @cons _ _ _ _ v _ u _ h1 h2 =>
        rw [show (singleField c k x).name = x from rfl, if_pos hnone] at h2
        obtain ⟨vs, h3, h4, h5⟩ := (ih hx2 (hacc' v)).1 h2
        exact ⟨v :: vs, by simp [h3], .cons ((element_load_iff hc Γ n x s ctx a acc v u).1 h1) h4, by simp [h5]⟩
    · rintro ⟨vs, h1, h2, h3⟩
      cases h2 with
      | nil => simp at h1
      | @cons v vs _ u _ h4 h5 =>
        refine .cons ((element_load_iff hc Γ n x s ctx a acc v u).2 h4) ?_
        rw [show (singleField c k x).name = x from rfl, if_pos hnone]
        exact (ih hx2 (hacc' v)).2 ⟨vs, by simpa using h1, h5, by simp [h3]⟩

theorem zipped_keys {xs : List String} {vs : List Value} {y : String} (hy : y ∉ xs) : Dict.get? (xs.zip vs) y = none := by
  rw [Dict.get?_none_iff]
  intro h
  simp only [Dict.keys, List.mem_map] at h
  obtain ⟨⟨x, v⟩, h1, rfl⟩ := h
  exact hy (List.of_mem_zip h1).1

theorem zip_each {xs : List String} (hx : xs.Nodup) {acc : Dict} (hacc : ∀ x ∈ xs, Dict.get? acc x = none) {vs : List Value}
    (hl : vs.length = xs.length) : Each (fun x v => Dict.get? (acc ++ xs.zip vs) x = some v) xs vs := by
  induction xs generalizing acc vs with
  | nil =>
    cases vs with
    | nil => exact .nil
    | cons => simp at hl
  | cons x xs ih =>
    cases vs with
    | nil => simp at hl
    | cons v vs =>
      have hx1 := (List.nodup_cons.1 hx).1
      have hnone := hacc x List.mem_cons_self
      refine .cons ?_ ?_
      · rw [Dict.get?_append, hnone, List.zip_cons_cons, Dict.get?_cons, if_pos rfl]
        rfl
      · have := ih (List.nodup_cons.1 hx).2 (acc := acc ++ [(x, v)]) (vs := vs) (fun y hy => by
          rw [← set_of_not_mem hnone, Dict.get?_set, if_neg (fun h : x = y => hx1 (h ▸ hy))]
          exact hacc y (List.mem_cons_of_mem _ hy)) (by simpa using hl)
        simpa using this

theorem Spec.Each.weaken {α β : Type} {R Q : α → β → Prop} {as : List α} {bs : List β} (h : Each R as bs) (hg : ∀ a ∈ as, ∀ b, R a b → Q a b) :
    Each Q as bs := by
  induction h with
  | nil => exact .nil
  | cons h _ ih => exact .cons (hg _ List.mem_cons_self _ h) (ih fun a ha => hg a (List.mem_cons_of_mem _ ha))

theorem singles_names (c : FieldBase) (k : Leaf) (xs : List String) : (xs.map (singleField c k)).map Field.name = xs := by
  rw [List.map_map]
  exact List.map_id _

section
variable {d d' : StructDesc} {pre post : List Field} {xs : List String} {c b : FieldBase} {k : Leaf}

/-- The names of the parts are different. -/
theorem Spec.Unrolled.apart (h : Unrolled d d' pre xs c k b post) :
    (∀ f ∈ pre, f.name ∉ xs) ∧ (∀ f ∈ pre, ∀ g ∈ post, f.name ≠ g.name) ∧ (∀ f ∈ post, f.name ∉ xs) ∧
      (∀ f ∈ pre, f.name ≠ b.name) ∧ (∀ f ∈ post, f.name ≠ b.name) ∧ xs.Nodup := by
  have h1 := h.unique
  have h2 := h.unique'
  unfold UniqueNames names at h1 h2
  rw [h.single, List.map_append, List.map_append, singles_names, List.nodup_append, List.nodup_append] at h1
  rw [h.listed, List.map_append, List.map_cons, List.nodup_append, List.nodup_cons] at h2
  obtain ⟨⟨h3, h4, h5⟩, h6, h7⟩ := h1
  obtain ⟨h8, ⟨h9, h10⟩, h11⟩ := h2
  have mem : ∀ {l : List Field} {f : Field}, f ∈ l → f.name ∈ l.map Field.name := fun hf => List.mem_map.2 ⟨_, hf, rfl⟩
  refine ⟨fun f hf hx => h5 _ (mem hf) _ hx rfl, fun f hf g hg => h7 _ (List.mem_append_left _ (mem hf)) _ (mem hg),
    fun f hf hx => h7 _ (List.mem_append_right _ hx) _ (mem hf) rfl, fun f hf => h11 _ (mem hf) _ (List.mem_cons_self ..), ?_, h4⟩
  intro f hf he
  exact h9 (by rw [show (Field.array b (.leaf c k) (.fixed xs.length) none).name = b.name from rfl, ← he]; exact mem hf)

theorem unrolled_same (hu : Unrolled d d' pre xs c k b post) (hc : ElementType c k) (hnd : b.discard = false) {m1 results r' : Dict}
    {vs : List Value} (hv : vs.length = xs.length) (h0 : ∀ x ∈ xs, Dict.get? m1 x = none)
    (h1 : ∀ y, y ∉ post.map Field.name → Dict.get? results y = Dict.get? (m1 ++ xs.zip vs) y)
    (h4 : ∀ y, y ∉ post.map Field.name → Dict.get? r' y = if b.name = y then some (.list vs) else Dict.get? m1 y)
    (h5 : AgreeOff (fun y => y ∈ xs ∨ y = b.name) results r') :
    SameElements pre xs b post (dropDiscarded d results) (dropDiscarded d' r') vs := by
  obtain ⟨a1, a2, a3, a4, a5, a6⟩ := hu.apart
  have off : ∀ {l : List Field} {y : String}, (∀ f ∈ l, f.name ≠ y) → y ∉ l.map Field.name := by
    intro l y h hx
    obtain ⟨f, hf, he⟩ := List.mem_map.1 hx
    exact h f hf he
  refine ⟨?_, ?_, ?_⟩
  · intro g hgm
    have hd : g ∈ d.components := by rw [hu.single]; rcases List.mem_append.1 hgm with h | h <;> simp [h]
    have hd' : g ∈ d'.components := by rw [hu.listed]; rcases List.mem_append.1 hgm with h | h <;> simp [h]
    rw [dropDiscarded_get hu.unique _ hd, dropDiscarded_get hu.unique' _ hd']
    split
    · rfl
    · rcases List.mem_append.1 hgm with h | h
      · have hp : g.name ∉ post.map Field.name := off fun f hf he => a2 g h f hf he.symm
        rw [h4 _ hp, h1 _ hp, if_neg (fun he => a4 g h he.symm), Dict.get?_append, zipped_keys (a1 g h)]
        simp
      · exact (h5 g.name (by rintro (hx | hx); exacts [a3 g h hx, a5 g h hx])).symm
  · refine (zip_each a6 h0 hv).weaken fun x hx v hxv => ?_
    have := dropDiscarded_get hu.unique results (f := singleField c k x) (by rw [hu.single]; simp; exact .inr (.inl ⟨x, hx, rfl⟩))
    rw [show (singleField c k x).name = x from rfl, show (singleField c k x).base.discard = c.discard from rfl, hc.kept] at this
    rw [this, h1 x (off fun f hf he => a3 f hf (he ▸ hx)), hxv]
    simp
  · have := dropDiscarded_get hu.unique' r' (f := .array b (.leaf c k) (.fixed xs.length) none) (by rw [hu.listed]; simp)
    rw [show (Field.array b (.leaf c k) (.fixed xs.length) none).name = b.name from rfl,
      show (Field.array b (.leaf c k) (.fixed xs.length) none).base = b from rfl, hnd] at this
    rw [this, h4 _ (off a5)]
    simp

end

/-! ### Dumping -/

theorem simple_toDicts {Γ : Classes} {n : Nat} {v : Value} (h : SimpleValue v) : recursiveToDicts Γ (n + 1) v = .ok v := by
  cases v <;> first
    | exact h.elim
    | rfl

theorem simple_list_toDicts {Γ : Classes} {n : Nat} {vs : List Value} (h : ∀ v ∈ vs, SimpleValue v) :
    recursiveToDicts Γ (n + 2) (.list vs) = .ok (.list vs) := by
  have : mapE (recursiveToDicts Γ (n + 1)) vs = .ok vs := by
    induction vs with
    | nil => rfl
    | cons v vs ih =>
      simp only [mapE]
      rw [simple_toDicts (h v List.mem_cons_self), ih fun w hw => h w (List.mem_cons_of_mem _ hw)]
  rw [recursiveToDicts]
  simp only [this]
  rfl

theorem simple_there {v : Value} (h : SimpleValue v) : v ≠ .undefined ∧ v ≠ .notPresent ∧ v ≠ .dflt ∧ v ≠ .none := by
  cases v <;> first
    | exact h.elim
    | simp

section
variable {c : FieldBase} {k : Leaf} (hc : ElementType c k)
include hc

theorem part_single {Γ : Classes} {n : Nat} {ctx : Value} {all all' : Dict} {x : String} {v : Value} {p : Bytes} (hx : Dict.get? all x = some v)
    (hv : SimpleValue v) :
    Part Γ n ctx all (singleField c k x) p ↔ fieldToStream Γ n (.leaf c k) v ctx all' = (p, .ok ()) := by
  obtain ⟨h1, h2, -, -⟩ := simple_there hv
  rw [part_iff, show (singleField c k x).base = { c.bare with name := x } from rfl,
    compute_entry (b := { c.bare with name := x }) (single_always hc x) hx h1, ← element_dump_iff hc Γ n x v ctx all' all p]
  constructor
  · rintro ⟨v', h3, h4⟩
    cases h3
    exact (h4.resolve_left fun h => h2 h.1).2
  · intro h
    exact ⟨v, rfl, Or.inr ⟨h2, h⟩⟩

theorem parts_singles {Γ : Classes} {n : Nat} {ctx : Value} {all all' : Dict} {xs : List String} {vs : List Value}
    (he : Each (fun x v => Dict.get? all x = some v) xs vs) :
    (∀ v ∈ vs, SimpleValue v) → ∀ ps, Parts Γ n ctx all (xs.map (singleField c k)) ps →
      dumpAll (fun v => fieldToStream Γ n (.leaf c k) v ctx all') vs = (ps.flatten, .ok ()) := by
  induction he with
  | nil =>
    intro _ ps h
    cases h
    rfl
  | cons hx _ ih =>
    intro hv ps h
    cases h with
    | cons h1 h2 =>
      have h3 := (part_single hc (all' := all') hx (hv _ List.mem_cons_self)).1 h1
      have h4 := ih (fun v h => hv v (List.mem_cons_of_mem _ h)) _ h2
      simp only [dumpAll, h3, h4, W.seq, List.flatten_cons]

theorem parts_of_dumpAll {Γ : Classes} {n : Nat} {ctx : Value} {all all' : Dict} {xs : List String} {vs : List Value}
    (he : Each (fun x v => Dict.get? all x = some v) xs vs) :
    (∀ v ∈ vs, SimpleValue v) → ∀ bs, dumpAll (fun v => fieldToStream Γ n (.leaf c k) v ctx all') vs = (bs, .ok ()) →
      ∃ ps, Parts Γ n ctx all (xs.map (singleField c k)) ps ∧ bs = ps.flatten := by
  induction he with
  | nil =>
    intro _ bs h
    simp only [dumpAll, W.ok, Prod.mk.injEq] at h
    exact ⟨[], .nil, by simp [← h.1]⟩
  | cons hx _ ih =>
    intro hv bs h
    simp only [dumpAll] at h
    obtain ⟨a, b, h1, h2, rfl⟩ := W.seq_ok h
    obtain ⟨ps, h3, rfl⟩ := ih (fun v h => hv v (List.mem_cons_of_mem _ h)) _ h2
    exact ⟨a :: ps, .cons ((part_single hc hx (hv _ List.mem_cons_self)).2 h1) h3, by simp⟩

end

section
variable {d d' : StructDesc} {pre post : List Field} {xs : List String} {c b : FieldBase} {k : Leaf}

theorem Spec.Each.right {α β : Type} {R : α → β → Prop} {as : List α} {bs : List β} (h : Each R as bs) : ∀ a ∈ as, ∃ b ∈ bs, R a b := by
  induction h with
  | nil => nofun
  | cons h _ ih =>
    intro a ha
    rcases List.mem_cons.1 ha with rfl | ha
    · exact ⟨_, List.mem_cons_self, h⟩
    · obtain ⟨b, hb, hr⟩ := ih a ha
      exact ⟨b, List.mem_cons_of_mem _ hb, hr⟩

/-- The class with the array against the one with the single fields. -/
theorem unrolled_runs (hu : Unrolled d d' pre xs c k b post) {vals vals' : Dict} {vs : List Value} (hs : SameElements pre xs b post vals vals' vs)
    (ho : ∀ g ∈ pre ++ post, Unaware (fun y => y ∈ xs ∨ y = b.name) g) (hi : Instance d vals) (hi' : Instance d' vals')
    (hset : ∀ g ∈ d.components, Dict.get? vals g.name ≠ none) :
    TwoRuns (fun y => y ∈ xs ∨ y = b.name) d' d vals' vals := by
  have hmem : ∀ f : Field, ¬ (f.name ∈ xs ∨ f.name = b.name) → (f ∈ d'.components ↔ f ∈ pre ++ post) := by
    intro f hf
    rw [hu.listed, List.mem_append, List.mem_cons, List.mem_append]
    have : f ≠ .array b (.leaf c k) (.fixed xs.length) none := by rintro rfl; exact hf (Or.inr rfl)
    simp [this]
  refine stored_twoRuns hu.unique' hu.unique hi' hi ?_ ?_ ?_
  · intro f hf
    rw [hmem f hf, hu.single, List.mem_append, List.mem_append, List.mem_append]
    have : f ∉ xs.map (singleField c k) := fun h => by
      obtain ⟨x, hx, rfl⟩ := List.mem_map.1 h
      exact hf (Or.inl hx)
    simp [this]
  · intro f hf
    by_cases hS : f.name ∈ xs ∨ f.name = b.name
    · exact Or.inl hS
    · exact Or.inr (ho f ((hmem f hS).1 hf))
  · intro g hgm hS
    have hgm := (hmem g hS).1 hgm
    rw [hs.outer g hgm]
    exact ⟨hset g (by rw [hu.single]; rcases List.mem_append.1 hgm with h | h <;> simp [h]), rfl⟩

/-- And the other way round. -/
theorem unrolled_single_runs (hu : Unrolled d d' pre xs c k b post) {vals vals' : Dict} {vs : List Value}
    (hs : SameElements pre xs b post vals vals' vs) (ho : ∀ g ∈ pre ++ post, Unaware (fun y => y ∈ xs ∨ y = b.name) g) (hi : Instance d vals)
    (hi' : Instance d' vals') (hset : ∀ g ∈ d.components, Dict.get? vals g.name ≠ none) :
    TwoRuns (fun y => y ∈ xs ∨ y = b.name) d d' vals vals' := by
  have h := unrolled_runs hu hs ho hi hi' hset
  refine ⟨h.unique', h.unique, h.inst', h.inst, fun f hf => (h.fields f hf).symm, ?_, fun y hy => (h.agree y hy).symm,
    fun y hy => ⟨(h.views y hy).1.symm, (h.views y hy).2.symm⟩⟩
  intro f hf
  by_cases hS : f.name ∈ xs ∨ f.name = b.name
  · exact Or.inl hS
  · exact Or.inr ((h.separated f ((h.fields f hS).2 hf)).resolve_left hS)

end

end Verif
