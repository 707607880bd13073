import Verif.Proofs.Reorder
import Verif.Spec.History
import Verif.Props.History
import Verif.Model.Struct

/-!
# The order in which values were given does not matter

C99.
-/

namespace Verif
open Spec

/-- **C99** Two instances of a class with the same values are read, validated and dumped alike, in whatever order the values were
given: the same bytes and the same outcome; only if both dumps raise before writing anything can the exceptions differ. -/
theorem C99_dump (Γ : Classes) (n : Nat) (d : StructDesc) (a b : Dict) (ctx : Value) (hd : UniqueNames d) (ha : Instance d a)
    (hb : Instance d b) (hf : ∀ f ∈ d.components, ByName f) (h : SameValues a b) :
    SameDump (structToStream Γ n d a ctx) (structToStream Γ n d b ctx) := by
  cases n with
  | zero => unfold structToStream; exact Or.inl rfl
  | succ n =>
    unfold structToStream structToStreamWith
    rw [h.validateContents ha.1 hb.1]
    cases validateContents d b with
    | error e => exact Or.inl rfl
    | ok _ =>
      simp only
      rcases h.structToDict (Γ := Γ) (n := n) (keep := false) hd ha hb with ⟨e, e', h1, h2⟩ | ⟨u, v, h1, h2, huv⟩
      · rw [h1, h2]
        exact Or.inr ⟨e, e', rfl, rfl⟩
      · rw [h1, h2]
        exact Or.inl (huv.dumpFields hf)

/-- **C99** `struct[name]` and `name in struct`. -/
theorem C99_lookup (d : StructDesc) (a b : Dict) (ha : Instance d a) (hb : Instance d b) (h : SameValues a b) (k : String) :
    structGetItem d a k = structGetItem d b k ∧ structContains a k = structContains b k :=
  ⟨congrFun (congrArg View.get (h.structView (d := d) ha.1 hb.1)) k, congrFun (h.structContains ha.1 hb.1) k⟩

/-- **C99** `validate_contents()`. -/
theorem C99_validate (d : StructDesc) (a b : Dict) (ha : Instance d a) (hb : Instance d b) (h : SameValues a b) :
    validateContents d a = validateContents d b := h.validateContents ha.1 hb.1

/-- **C99** `to_dict()`: the same entries (possibly in another order), or both raise. -/
theorem C99_to_dict (Γ : Classes) (n : Nat) (d : StructDesc) (a b : Dict) (keep : Bool) (hd : UniqueNames d) (ha : Instance d a)
    (hb : Instance d b) (h : SameValues a b) :
    (∃ u v, structToDict Γ n d a keep = .ok u ∧ structToDict Γ n d b keep = .ok v ∧ SameValues u v) ∨
    (∃ e e', structToDict Γ n d a keep = .error e ∧ structToDict Γ n d b keep = .error e') := by
  rcases h.structToDict (Γ := Γ) (n := n) (keep := keep) hd ha hb with h | h
  · exact Or.inr h
  · exact Or.inl h

/-- **C99** `len()`. -/
theorem C99_len (Γ : Classes) (n : Nat) (d : StructDesc) (a b : Dict) (ha : Instance d a) (hb : Instance d b)
    (hf : ∀ f ∈ d.components, ByName f) (h : SameValues a b) : structLen Γ n d a = structLen Γ n d b := by
  unfold structLen
  rcases h.whateverPossible ha hb with ⟨e, h1, h2⟩ | ⟨u, v, h1, h2, huv⟩
  · rw [h1, h2]
  · rw [h1, h2]
    apply sumSizes_congr
    intro f hfm
    unfold fieldLen
    rw [huv.fieldExpectedSize (hf f hfm), huv.view]

/-- **C99** `partial_dump()`. -/
theorem C99_partial_dump (Γ : Classes) (n : Nat) (d : StructDesc) (a b : Dict) (last : Option String) (ctx : Value)
    (h : SameValues a b) : structPartialDump Γ n d a last ctx = structPartialDump Γ n d b last ctx := by
  unfold structPartialDump
  generalize (fun f v => fieldToStream Γ n f v ctx []) = ts
  induction d.components with
  | nil => rfl
  | cons f fs ih =>
    unfold partialDumpLoop
    simp only [h f.name, ih]

/-- **C99** The keyword arguments of the constructor may be given in any order. -/
theorem C99_keywords (Γ : Classes) (n : Nat) (d : StructDesc) (kw kw' : Dict) (ctx : Value) (hd : UniqueNames d)
    (hf : ∀ f ∈ d.components, ByName f) (hn : (Dict.keys kw).Nodup) (hp : kw.Perm kw') :
    (structInit d kw = .ok kw ∧ structInit d kw' = .ok kw' ∧ SameDump (structToStream Γ n d kw ctx) (structToStream Γ n d kw' ctx)) ∨
    (∃ l l', structInit d kw = .error (.unexpectedValue l) ∧ structInit d kw' = .error (.unexpectedValue l') ∧ ∀ k, k ∈ l ↔ k ∈ l') := by
  have hpk : (Dict.keys kw).Perm (Dict.keys kw') := hp.map _
  have hn' : (Dict.keys kw').Nodup := hpk.nodup_iff.1 hn
  obtain ⟨h1, h2⟩ := C36_constructor d kw
  obtain ⟨h1', h2'⟩ := C36_constructor d kw'
  by_cases hk : ∀ k ∈ Dict.keys kw, k ∈ names d
  · have hk' : ∀ k ∈ Dict.keys kw', k ∈ names d := fun k hx => hk k (hpk.mem_iff.2 hx)
    refine Or.inl ⟨h1 hk, h1' hk', C99_dump Γ n d kw kw' ctx hd ⟨hn, hk⟩ ⟨hn', hk'⟩ hf ?_⟩
    intro k
    cases hg : Dict.get? kw k with
    | none =>
      rw [Dict.get?_none_iff] at hg
      symm
      rw [Dict.get?_none_iff]
      exact fun hx => hg (hpk.mem_iff.2 hx)
    | some v => exact (Dict.get?_of_mem hn' (hp.mem_iff.1 (Dict.get?_some_mem hg))).symm
  · have hk' : ¬ ∀ k ∈ Dict.keys kw', k ∈ names d := fun hx => hk fun k hy => hx k (hpk.mem_iff.1 hy)
    obtain ⟨l, e1, m1⟩ := h2 hk
    obtain ⟨l', e2, m2⟩ := h2' hk'
    refine Or.inr ⟨l, l', e1, e2, ?_⟩
    intro k
    rw [m1, m2, hpk.mem_iff]

/-- **C99** Assignments and deletions, too: after two histories that leave every field with the same value, the instances dump
alike -- the same bytes and the same outcome. -/
theorem C99_history (Γ : Classes) (n : Nat) (d : StructDesc) (a b : Dict) (ops ops' : List Op) (ctx : Value) (hd : UniqueNames d)
    (ha : Instance d a) (hb : Instance d b) (hf : ∀ f ∈ d.components, ByName f)
    (h : ∀ k r, Outcome d k (Dict.get? a k) ops r ↔ Outcome d k (Dict.get? b k) ops' r) :
    SameDump (structToStream Γ n d (history d a ops) ctx) (structToStream Γ n d (history d b ops') ctx) := by
  refine C99_dump Γ n d _ _ ctx hd (history_instance hd ha ops) (history_instance hd hb ops') hf ?_
  intro k
  exact ((C35_history d b ops' k _ hd hb).1 ((h k _).1 ((C35_history d a ops k _ hd ha).2 rfl))).symm

/-- **C99** Two neighbouring operations on different fields may be exchanged. -/
theorem C99_swap (Γ : Classes) (n : Nat) (d : StructDesc) (vals : Dict) (before after : List Op) (x y : Op) (ctx : Value)
    (hd : UniqueNames d) (hi : Instance d vals) (hf : ∀ f ∈ d.components, ByName f) (hxy : x.name ≠ y.name) :
    SameDump (structToStream Γ n d (history d vals (before ++ x :: y :: after)) ctx)
      (structToStream Γ n d (history d vals (before ++ y :: x :: after)) ctx) := by
  have happ : ∀ (us ws : List Op) (v : Dict), history d v (us ++ ws) = history d (history d v us) ws := by
    intro us
    induction us with
    | nil => intro ws v; rfl
    | cons u us ih => intro ws v; exact ih ws _
  have one : ∀ (v : Dict), Instance d v → ∀ (z w : Op), z.name ≠ w.name → ∀ k r,
      Outcome d k (Dict.get? v k) (z :: w :: after) r → Outcome d k (Dict.get? v k) (w :: z :: after) r := by
    intro v _ z w hzw k r h
    cases h with
    | set h1 h2 =>
      cases h2 with
      | set h3 h4 => exact absurd rfl hzw
      | del h3 h4 => exact absurd rfl hzw
      | skip h3 h4 => exact .skip (Or.inl (fun hx => hzw hx.symm)) (.set h1 h4)
    | del h1 h2 =>
      cases h2 with
      | set h3 h4 => exact absurd rfl hzw
      | del h3 h4 => exact absurd rfl hzw
      | skip h3 h4 => exact .skip (Or.inl (fun hx => hzw hx.symm)) (.del h1 h4)
    | skip h1 h2 =>
      cases h2 with
      | set h3 h4 => exact .set h3 (.skip h1 h4)
      | del h3 h4 => exact .del h3 (.skip h1 h4)
      | skip h3 h4 => exact .skip h3 (.skip h1 h4)
  rw [happ, happ]
  have hv := history_instance hd hi before
  exact C99_history Γ n d _ _ _ _ ctx hd hv hv hf fun k r =>
    ⟨one _ hv x y hxy k r, one _ hv y x (fun hx => hxy hx.symm) k r⟩

namespace Sample

/-- Two structs with a computed field each, whose functions raise different exceptions. -/
def moody (cls msg : String) : StructDesc :=
  { name := cls, components := [upd (u8 "x") fun b => { b with computeFn := some fun _ => .error (.user msg) }] }

/-- A struct with one of each. -/
def twoMoody : StructDesc :=
  { name := "TwoMoody", components := [nested "p" "A", nested "q" "B"] }

def moodyClasses : Classes := Classes.add (Classes.add noClasses (moody "A" "a")) (moody "B" "b")

end Sample

/-- **C99**, refuted in the strongest form: the exception may depend on the order.  Two keyword arguments, both nested structs that
cannot be converted: the dump reports the one given first. -/
theorem C99_same_exception_refuted :
    (structToStream Sample.moodyClasses 4 Sample.twoMoody [("p", .struct "A" []), ("q", .struct "B" [])] .none).2 =
      .error (.user "a") ∧
    (structToStream Sample.moodyClasses 4 Sample.twoMoody [("q", .struct "B" []), ("p", .struct "A" [])] .none).2 =
      .error (.user "b") := ⟨rfl, rfl⟩

theorem point_byName : ∀ f ∈ Sample.point.components, ByName f := by
  intro f hf
  simp only [Sample.point, List.mem_cons, List.not_mem_nil, or_false] at hf
  rcases hf with rfl | rfl <;> exact .leaf fun ops h => nomatch h

example : structToStream Sample.classes 4 Sample.point [("x", .int 3), ("y", .int 4)] .none = W.ok [3, 0, 4, 0] := by decide
example : SameDump (structToStream Sample.classes 4 Sample.point [("x", .int 3), ("y", .int 4)] .none)
    (structToStream Sample.classes 4 Sample.point [("y", .int 4), ("x", .int 3)] .none) :=
  ((C99_keywords Sample.classes 4 Sample.point [("x", .int 3), ("y", .int 4)] [("y", .int 4), ("x", .int 3)] .none
    (show (names Sample.point).Nodup by decide) point_byName (by decide) (List.Perm.swap _ _ [])).resolve_right
      (by rintro ⟨l, l', h, -, -⟩; rw [show structInit Sample.point [("x", .int 3), ("y", .int 4)] = .ok [("x", .int 3), ("y", .int 4)] by decide] at h; cases h)).2.2

end Verif
