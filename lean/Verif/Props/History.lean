import Verif.Spec.History
import Verif.Props.StructDump

/-!
# Struct instances as maps

C34, C35, C36.
-/

namespace Verif
open Spec

/-! ## C36: the constructor -/

/-- **C36** The constructor accepts its keywords exactly if all of them are fields; then the stored values are the keywords. -/
theorem C36_constructor (d : StructDesc) (kw : Dict) :
    ((∀ k ∈ Dict.keys kw, k ∈ names d) → structInit d kw = .ok kw) ∧
    (¬ (∀ k ∈ Dict.keys kw, k ∈ names d) → ∃ extra, structInit d kw = .error (.unexpectedValue extra) ∧
      ∀ k, k ∈ extra ↔ k ∈ Dict.keys kw ∧ k ∉ names d) := by
  have hmem : ∀ k, k ∈ (Dict.keys kw).filter (fun k => !d.has k) ↔ k ∈ Dict.keys kw ∧ k ∉ names d := by
    intro k
    rw [List.mem_filter]
    simp only [Bool.not_eq_true', ← Bool.not_eq_true, has_iff]
  unfold structInit
  simp only
  constructor
  · intro h
    rw [if_neg]
    intro hne
    obtain ⟨k, hk⟩ := List.exists_mem_of_ne_nil _ hne
    obtain ⟨h1, h2⟩ := (hmem k).1 hk
    exact h2 (h k h1)
  · intro h
    refine ⟨_, ?_, hmem⟩
    rw [if_pos]
    intro hnil
    apply h
    intro k hk
    apply Decidable.byContradiction
    intro hno
    have := (hmem k).2 ⟨hk, hno⟩
    rw [hnil] at this
    simp at this

example : structInit Sample.point [("x", .int 1), ("z", .int 2)] = .error (.unexpectedValue ["z"]) := by decide

/-! ## Single operations -/

theorem fieldSet_allowed {f : Field} {vals : Dict} {v : Value} (h1 : ¬ Immutable f)
    (h2 : ∀ c ∈ f.base.validators, c v = .ok ()) : fieldSet f vals v = (.ok (), vals.set f.name v) := by
  unfold fieldSet
  unfold Immutable at h1
  rw [if_neg h1, (runValidators_ok_iff _ _).2 h2]

theorem run_allowed {d : StructDesc} (hd : UniqueNames d) {vals : Dict} {op : Op} (h : Allowed d op) :
    op.run d vals = (.ok (), match op with
      | .set k v => vals.set k v
      | .del k => vals.erase k) := by
  obtain ⟨f, hf, hn, hop⟩ := h
  have hfind := find?_of_mem hd hf
  cases op with
  | set k v =>
    simp only [Op.name] at hn; subst hn
    simp only [Op.run, structSetItem, hfind]
    exact fieldSet_allowed hop.1 hop.2
  | del k =>
    simp only [Op.name] at hn; subst hn
    simp only [Op.run, structDelItem]
    rw [if_pos (has_iff.2 (List.mem_map.2 ⟨f, hf, rfl⟩))]

theorem run_not_allowed {d : StructDesc} {vals : Dict} {op : Op} (h : ¬ Allowed d op) :
    ∃ e, op.run d vals = (.error e, vals) := by
  cases op with
  | set k v =>
    simp only [Op.run, structSetItem]
    cases hf : d.find? k with
    | none => exact ⟨_, rfl⟩
    | some f =>
      obtain ⟨hm, hn⟩ := find?_some hf
      simp only
      unfold fieldSet
      by_cases himm : Immutable f
      · unfold Immutable at himm
        exact ⟨_, by rw [if_pos himm]⟩
      · have himm' := himm
        unfold Immutable at himm'
        rw [if_neg himm']
        have hbad : ¬ Accepts f v := fun hacc => h ⟨f, hm, hn, himm, hacc⟩
        obtain ⟨c, hc, e, h1, h2⟩ := runValidators_error _ _ hbad
        exact ⟨e, by rw [h2]⟩
  | del k =>
    simp only [Op.run, structDelItem]
    by_cases hk : d.has k = true
    · exfalso; apply h
      obtain ⟨f, hf, hn⟩ := List.mem_map.1 (has_iff.1 hk)
      exact ⟨f, hf, hn, trivial⟩
    · exact ⟨_, by rw [if_neg hk]⟩

/-- **C34** Assigning to a computed or constant field raises `ImmutableFieldError` and leaves the instance unchanged. -/
theorem C34_immutable_assignment (d : StructDesc) (vals : Dict) (f : Field) (v : Value) (hd : UniqueNames d)
    (hf : f ∈ d.components) (him : Immutable f) :
    structSetItem d vals f.name v = (.error (.immutableField f.name), vals) := by
  unfold structSetItem
  rw [find?_of_mem hd hf]
  simp only
  unfold fieldSet
  unfold Immutable at him
  rw [if_pos him]

/-- **C35** Item operations on names that are not fields raise `KeyError` and change nothing. -/
theorem C35_unknown_names (d : StructDesc) (vals : Dict) (k : String) (v : Value) (hk : k ∉ names d) :
    structGetItem d vals k = .error (.keyErr k) ∧ structSetItem d vals k v = (.error (.keyErr k), vals) ∧
    structDelItem d vals k = (.error (.keyErr k), vals) := by
  have hh : d.has k = false := by rw [← Bool.not_eq_true, has_iff]; exact hk
  have hnone : d.find? k = none := by unfold StructDesc.has at hh; simpa using hh
  refine ⟨?_, ?_, ?_⟩
  · simp [structGetItem, structGet, hnone]
  · simp [structSetItem, hnone]
  · simp [structDelItem, hh]

/-! ## Histories -/

theorem Outcome.total (d : StructDesc) (k : String) (ops : List Op) : ∀ r, ∃ r', Outcome d k r ops r' := by
  induction ops with
  | nil => exact fun r => ⟨r, .nil r⟩
  | cons op ops ih =>
    intro r
    by_cases h : op.name = k ∧ Allowed d op
    · obtain ⟨hn, ha⟩ := h
      cases op with
      | set k' v => simp only [Op.name] at hn; subst hn; obtain ⟨r', h'⟩ := ih (some v); exact ⟨r', .set ha h'⟩
      | del k' => simp only [Op.name] at hn; subst hn; obtain ⟨r', h'⟩ := ih none; exact ⟨r', .del ha h'⟩
    · obtain ⟨r', h'⟩ := ih r
      refine ⟨r', .skip ?_ h'⟩
      by_cases hn : op.name = k
      · exact Or.inr fun ha => h ⟨hn, ha⟩
      · exact Or.inl hn

theorem history_instance {d : StructDesc} (hd : UniqueNames d) {vals : Dict} (hi : Instance d vals) (ops : List Op) :
    Instance d (history d vals ops) := by
  induction ops generalizing vals with
  | nil => exact hi
  | cons op ops ih =>
    apply ih
    by_cases ha : Allowed d op
    · rw [run_allowed hd ha]
      obtain ⟨f, hf, hn, -⟩ := ha
      cases op with
      | set k v =>
        refine ⟨Dict.nodup_set hi.1, ?_⟩
        intro k' hk'
        rcases Dict.mem_keys_set.1 hk' with rfl | hk'
        · exact List.mem_map.2 ⟨f, hf, hn⟩
        · exact hi.2 _ hk'
      | del k =>
        refine ⟨Dict.nodup_erase hi.1, ?_⟩
        intro k' hk'
        exact hi.2 _ (Dict.mem_keys_erase.1 hk').2
    · obtain ⟨e, he⟩ := run_not_allowed (vals := vals) ha
      rw [he]; exact hi

/-- **C35** (refinement) After any history of assignments and deletions, whatever was raised on the way, the struct's stored value for every
name is what a plain dictionary that saw only the allowed operations would have. -/
theorem C35_history (d : StructDesc) (vals : Dict) (ops : List Op) (k : String) (r : Option Value) (hd : UniqueNames d)
    (hi : Instance d vals) : Outcome d k (Dict.get? vals k) ops r ↔ Dict.get? (history d vals ops) k = r := by
  have hfwd : ∀ (vals : Dict), Instance d vals → ∀ r, Outcome d k (Dict.get? vals k) ops r →
      Dict.get? (history d vals ops) k = r := by
    clear hi r vals
    induction ops with
    | nil => intro vals _ r h; cases h; rfl
    | cons op ops ih =>
      intro vals hi r h
      have hi' : Instance d (op.run d vals).2 := history_instance hd hi [op]
      simp only [history]
      by_cases ha : Allowed d op
      · apply ih _ hi'
        rw [run_allowed hd ha]
        cases h with
        | set h1 h2 => simpa [Dict.get?_set] using h2
        | del h1 h2 => simpa [Dict.get?_erase] using h2
        | skip h1 h2 =>
          rcases h1 with h1 | h1
          · cases op with
            | set k' v => simp only [Op.name] at h1; simp only [Dict.get?_set]; rw [if_neg h1]; exact h2
            | del k' => simp only [Op.name] at h1; simp only [Dict.get?_erase]; rw [if_neg h1]; exact h2
          · exact absurd ha h1
      · apply ih _ hi'
        obtain ⟨e, he⟩ := run_not_allowed (vals := vals) ha
        rw [he]
        cases h with
        | set h1 h2 => exact absurd h1 ha
        | del h1 h2 => exact absurd h1 ha
        | skip h1 h2 => exact h2
  constructor
  · exact hfwd vals hi r
  · intro h
    obtain ⟨r', h'⟩ := Outcome.total d k ops (Dict.get? vals k)
    rw [hfwd vals hi r' h'] at h
    exact h ▸ h'

/-- **C35** After any history, reading a field that has a stored value returns it, and iterating over the struct yields exactly, and once each,
the names with a defined value; all of them are fields. -/
theorem C35_reads (d : StructDesc) (vals : Dict) (ops : List Op) (hd : UniqueNames d) (hi : Instance d vals) :
    (∀ k v, Outcome d k (Dict.get? vals k) ops (some v) → structGetItem d (history d vals ops) k = .ok v) ∧
    (definedKeys (history d vals ops)).Nodup ∧
    ∀ k, k ∈ definedKeys (history d vals ops) ↔ ∃ v, Outcome d k (Dict.get? vals k) ops (some v) ∧ v ≠ .undefined := by
  have hi' := history_instance hd hi ops
  refine ⟨?_, definedKeys_nodup hi'.1, ?_⟩
  · intro k v h
    have hg := (C35_history d vals ops k _ hd hi).1 h
    refine structGetItem_some (hi'.2 k ?_) hg
    rw [← Dict.contains_iff, Dict.contains_eq, hg]; rfl
  · intro k
    rw [mem_definedKeys hi'.1]
    simp only [C35_history d vals ops k _ hd hi]

/-- **C34** After any history, the stored value of a computed or constant field is the one given at construction, or nothing if it was
deleted (an assignment never changes it). -/
theorem C34_history (d : StructDesc) (vals : Dict) (ops : List Op) (f : Field) (hd : UniqueNames d) (hi : Instance d vals)
    (hf : f ∈ d.components) (him : Immutable f) :
    (Op.del f.name ∈ ops → Dict.get? (history d vals ops) f.name = none) ∧
    (Op.del f.name ∉ ops → Dict.get? (history d vals ops) f.name = Dict.get? vals f.name) := by
  rw [← C35_history d vals ops f.name _ hd hi, ← C35_history d vals ops f.name _ hd hi]
  have hset : ∀ v, ¬ Allowed d (.set f.name v) := by
    rintro v ⟨g, hg, hn, hno, -⟩
    have h1 := find?_of_mem hd hf
    have h2 := find?_of_mem hd hg
    simp only [Op.name] at hn
    rw [hn, h1] at h2
    simp at h2; subst h2; exact hno him
  generalize Dict.get? vals f.name = r
  induction ops generalizing r with
  | nil => exact ⟨by simp, fun _ => .nil r⟩
  | cons op ops ih =>
    cases op with
    | set k v =>
      simp only [List.mem_cons, reduceCtorEq, false_or]
      have hsk : k ≠ f.name ∨ ¬ Allowed d (.set k v) := by
        by_cases hk : k = f.name
        · subst hk; exact Or.inr (hset v)
        · exact Or.inl hk
      exact ⟨fun h => .skip hsk ((ih r).1 h), fun h => .skip hsk ((ih r).2 h)⟩
    | del k =>
      by_cases hk : k = f.name
      · subst hk
        refine ⟨fun _ => .del ⟨f, hf, rfl, trivial⟩ ?_, fun h => absurd (by simp) h⟩
        by_cases hx : Op.del f.name ∈ ops
        · exact (ih none).1 hx
        · exact (ih none).2 hx
      · have hm : Op.del f.name ∈ Op.del k :: ops ↔ Op.del f.name ∈ ops := by
          simp only [List.mem_cons, Op.del.injEq]
          constructor
          · rintro (h | h)
            · exact absurd h.symm hk
            · exact h
          · exact Or.inr
        simp only [hm]
        exact ⟨fun h => .skip (Or.inl hk) ((ih r).1 h), fun h => .skip (Or.inl hk) ((ih r).2 h)⟩

/-- A function of the struct's values that only reads fields with a stored value. -/
def Spec.ReadsStored {α : Type} (vals : Dict) (fn : View → α) : Prop :=
  ∀ v1 v2 : View, v1.contains = v2.contains → (∀ k, k ∈ Dict.keys vals → v1.get k = v2.get k) → fn v1 = fn v2

/-- **C34** The visible value of a computed field that has no stored value is what its function returns for the current values of the
struct — so, after any history of operations, it is computed from the values at that time. -/
theorem C34_computed_value (d : StructDesc) (vals : Dict) (ops : List Op) (f : Field) (fn : View → Except Err Value)
    (v : Value) (hd : UniqueNames d) (hi : Instance d vals) (hf : f ∈ d.components)
    (hno : Dict.get? vals f.name = none) (hfn : f.base.computeFn = some fn) (hdflt : f.base.dflt = .undefined)
    (hreads : ReadsStored (history d vals ops) fn) (hpr : ReadsStored (history d vals ops) fun w => f.base.present w .none none)
    (hpresent : f.base.present (structView d (history d vals ops)) .none none = .ok true)
    (hv : fn (structView d (history d vals ops)) = .ok v) (hv1 : v ≠ .notPresent) (hv2 : v ≠ .undefined) :
    structGetItem d (history d vals ops) f.name = .ok v := by
  have him : Immutable f := Or.inl (by rw [hfn]; rfl)
  have hno' : Dict.get? (history d vals ops) f.name = none := by
    by_cases hx : Op.del f.name ∈ ops
    · exact (C34_history d vals ops f hd hi hf him).1 hx
    · rw [(C34_history d vals ops f hd hi hf him).2 hx, hno]
  have hi' := history_instance hd hi ops
  generalize history d vals ops = cur at *
  unfold structGetItem structGet
  rw [find?_of_mem hd hf, hno']
  simp only
  have hne : d.components.length ≠ 0 := by
    intro h0; rw [List.length_eq_zero_iff] at h0; rw [h0] at hf; simp at hf
  have hsame : ∀ k, k ∈ Dict.keys cur → structGet d cur d.components.length k = structGetItem d cur k := by
    intro k hk
    cases hg : Dict.get? cur k with
    | none => exact absurd hk ((Dict.get?_none_iff cur k).1 hg)
    | some w =>
      rw [structGetItem_some (hi'.2 k hk) hg]
      obtain ⟨m, hm⟩ := Nat.exists_eq_succ_of_ne_zero hne
      rw [hm]
      unfold structGet
      cases hfd : d.find? k with
      | none =>
        have := has_iff.2 (hi'.2 k hk)
        unfold StructDesc.has at this
        simp [hfd] at this
      | some g => simp [hg]
  have h1 : fn ⟨structContains cur, structGet d cur d.components.length⟩ = .ok v := by
    rw [← hv]; exact hreads _ _ rfl hsame
  have h2 : f.base.present ⟨structContains cur, structGet d cur d.components.length⟩ .none none = .ok true := by
    rw [← hpresent]; exact hpr _ _ rfl hsame
  have hc : structContains cur f.name = false := by
    rw [← Bool.not_eq_true, structContains_iff hi'.1, hno']; simp
  rw [computeValueForDump_of_chosen (Chosen.computed hc hdflt hfn h1), if_neg hv1, h2]
  simp [hv2]

/-- ```
class Sized(Struct):
    n = UInt8()
    @n.computes
    def _n(self): return len(self["data"])
    data = Bytes(size=n)
``` -/
def Sample.sized : StructDesc :=
  { name := "Sized"
    components := [Sample.upd (Sample.u8 "n") ({ · with computeFn := some fun w => match w.get "data" with
        | .ok (.bytes b) => .ok (.int b.length)
        | .ok _ => .error .typeErr
        | .error e => .error e }),
      Sample.upd (Sample.bytesRef "data" "n") ({ · with index := 1, offset := some 1 })]
    fieldValidators := [("n", []), ("data", [])] }

example : history Sample.sized [("data", .bytes [1])]
    [.set "n" (.int 9), .set "data" (.bytes [1, 2, 3]), .del "zzz", .set "n" (.int 4)] = [("data", .bytes [1, 2, 3])] := by
  decide
example : structGetItem Sample.sized (history Sample.sized [("data", .bytes [1])]
    [.set "n" (.int 9), .set "data" (.bytes [1, 2, 3]), .del "zzz", .set "n" (.int 4)]) "n" = .ok (.int 3) := by
  decide

end Verif
