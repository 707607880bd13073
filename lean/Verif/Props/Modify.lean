import Verif.Spec.Modify
import Verif.Props.History
import Verif.Props.RoundTrip
import Verif.Props.Annotate

/-!
# C117: validators that change the struct
-/

namespace Verif
open Verif.Spec

theorem runMut_split {α : Type} {check : α → Dict → Mut} {X Y : List α} {a : α} {vals vals' : Dict} {u : Unit}
    (h : runMut check (X ++ a :: Y) vals = (.ok u, vals')) :
    ∃ v w, runMut check X vals = (.ok (), v) ∧ check a v = (.ok (), w) ∧ runMut check Y w = (.ok u, vals') := by
  induction X generalizing vals with
  | nil =>
    simp only [List.nil_append, runMut] at h
    cases hc : check a vals with
    | mk r w =>
      rw [hc] at h
      cases r with
      | error e => simp at h
      | ok x => exact ⟨vals, w, rfl, hc, h⟩
  | cons x X ih =>
    simp only [List.cons_append, runMut] at h ⊢
    cases hc : check x vals with
    | mk r w =>
      rw [hc] at h
      cases r with
      | error e => simp at h
      | ok y => exact ih h

theorem runMut_keeps {α : Type} {check : α → Dict → Mut} {l : List α} {P : Dict → Prop} (h : ∀ a ∈ l, ∀ vals, P vals → P (check a vals).2)
    {vals : Dict} (hp : P vals) : P (runMut check l vals).2 := by
  induction l generalizing vals with
  | nil => exact hp
  | cons a l ih =>
    have h1 := h a List.mem_cons_self vals hp
    simp only [runMut]
    cases hc : check a vals with
    | mk r w =>
      rw [hc] at h1
      cases r with
      | error e => exact h1
      | ok x => exact ih (fun b hb => h b (List.mem_cons_of_mem _ hb)) h1

theorem modifyField_keeps {d : StructDesc} {p : String × List (Value → Dict → Mut)} {P : Dict → Prop}
    (h : ∀ m ∈ p.2, ∀ v vals, P vals → P (m v vals).2) {vals : Dict} (hp : P vals) : P (modifyField d p vals).2 := by
  unfold modifyField
  split
  · exact hp
  · split
    · exact hp
    · split
      · exact hp
      · exact runMut_keeps (fun m hm vals hq => h m hm _ vals hq) hp

theorem modifyContents_ok {d : StructDesc} {c : Modifiers} {vals vals' : Dict} {u : Unit} (h : modifyContents d c vals = (.ok u, vals')) :
    ∃ w, runMut (modifyField d) c.fields vals = (.ok (), w) ∧ runMut (fun m => m) c.structs w = (.ok u, vals') := by
  unfold modifyContents at h
  cases hc : runMut (modifyField d) c.fields vals with
  | mk r w =>
    rw [hc] at h
    cases r with
    | error e => simp at h
    | ok x => exact ⟨w, rfl, h⟩

/-! ## What is dumped is the struct as the validators left it -/

theorem dump_unchecked (Γ : Classes) (n : Nat) (d : StructDesc) (vals : Dict) (ctx : Value) :
    structToStream Γ (n + 1) (withoutChecks d) vals ctx =
      match structToDict Γ n d vals with
      | .error e => W.fail e
      | .ok all => dumpFields (fun f v => fieldToStream Γ n f v ctx all) all ctx d.components := by
  have h : structToDict Γ n (withoutChecks d) vals = structToDict Γ n d vals := structToDict_components (d' := withoutChecks d) (d := d) rfl Γ n vals false
  simp only [structToStream, structToStreamWith, h]
  rfl

/-- **C117** Whatever the validators do: if one of them raises, nothing is written, and otherwise what is written is the dump of the struct that they
leave behind — by the same class without validator methods. -/
theorem C117_dump (Γ : Classes) (n : Nat) (d : StructDesc) (c : Modifiers) (vals : Dict) (ctx : Value) :
    (∀ e, (modifyContents d c vals).1 = .error e → (structToStreamModify Γ n d c vals ctx).1 = W.fail e) ∧
    ((modifyContents d c vals).1 = .ok () →
      (structToStreamModify Γ n d c vals ctx).1 = structToStream Γ (n + 1) (withoutChecks d) (modifyContents d c vals).2 ctx) ∧
    (structToStreamModify Γ n d c vals ctx).2 = (modifyContents d c vals).2 := by
  rw [dump_unchecked]
  unfold structToStreamModify
  cases h : modifyContents d c vals with
  | mk r w =>
    cases r with
    | error e => simp
    | ok u =>
      simp only [reduceCtorEq, false_implies, implies_true, forall_const, true_and]
      cases structToDict Γ n d w <;> exact ⟨rfl, rfl⟩

/-- **C117** Loading: the bytes that are consumed, and the values the validators are given, are those of the class without validator methods; the result is
what they leave behind, without the discarded fields. -/
theorem C117_load (Γ : Classes) (n : Nat) (d : StructDesc) (c : Modifiers) (s s' : Stream) (ctx : Value) (kw r : Dict) :
    structFromStreamModify Γ n d c s ctx kw = (.ok r, s') ↔
      ∃ vals vals', Loads Γ n ctx d.components kw s vals s' ∧ (∀ k ∈ Dict.keys vals, k ∈ names d) ∧ modifyContents d c vals = (.ok (), vals') ∧
        r = dropDiscarded d vals' := by
  unfold structFromStreamModify
  constructor
  · intro h
    cases hl : loadFields (fun f s loaded => fieldFromStream Γ n f s ctx loaded) d.components kw s with
    | mk x t =>
      rw [hl] at h
      cases x with
      | error e => simp at h
      | ok results =>
        simp only at h
        cases hi : structInit d results with
        | error e => simp [hi] at h
        | ok vals =>
          simp only [hi] at h
          obtain ⟨rfl, hk⟩ := structInit_ok_iff.1 hi
          cases hm : modifyContents d c vals with
          | mk y vals' =>
            rw [hm] at h
            cases y with
            | error e => simp at h
            | ok u =>
              simp only [Prod.mk.injEq, Except.ok.injEq] at h
              obtain ⟨rfl, rfl⟩ := h
              exact ⟨vals, vals', loadFields_ok_iff.1 hl, hk, hm, rfl⟩
  · rintro ⟨vals, vals', h1, h2, h3, rfl⟩
    rw [loadFields_ok_iff.2 h1]
    simp only [structInit_ok_iff.2 ⟨rfl, h2⟩, h3]

/-! ## Validators that change nothing -/

theorem runMut_pure {α : Type} {check : α → Except Err Unit} {l : List α} {f : α → Dict → Mut} {vals : Dict}
    (h : ∀ b ∈ l, f b vals = (check b, vals)) : runMut f l vals = (runAll check l, vals) := by
  induction l with
  | nil => rfl
  | cons b l ih =>
    simp only [runMut, runAll, h b List.mem_cons_self]
    cases check b with
    | error e => rfl
    | ok u => exact ih fun x hx => h x (List.mem_cons_of_mem _ hx)

theorem runMut_map {α β : Type} {f : α → Dict → Mut} {g : β → α} {l : List β} {vals : Dict} :
    runMut f (l.map g) vals = runMut (fun b => f (g b)) l vals := by
  induction l generalizing vals with
  | nil => rfl
  | cons b l ih =>
    simp only [runMut, List.map_cons]
    cases hx : f (g b) vals with
    | mk r w => cases r <;> simp only [ih]

/-- **C117** Validators that change nothing: the model is the main one. -/
theorem C117_pure_contents (d : StructDesc) (vals : Dict) : modifyContents d (pureChecks d) vals = (validateContents d vals, vals) := by
  have hfield : ∀ p, modifyField d (p.1, p.2.map fun m v vals => (m (structView d vals) v, vals)) vals = (validateField d vals p, vals) := by
    intro p
    unfold modifyField validateField
    cases d.find? p.1 with
    | none => rfl
    | some f =>
      simp only
      cases structGetItem d vals p.1 with
      | error e => rfl
      | ok v =>
        simp only
        cases runValidators f.base.validators v with
        | error e => rfl
        | ok u =>
          simp only
          rw [runMut_map]
          exact runMut_pure (check := fun m : View → Value → Except Err Unit => m (structView d vals) v) fun b _ => rfl
  unfold modifyContents validateContents pureChecks
  simp only
  rw [runMut_map, runMut_pure (check := validateField d vals) (fun p _ => hfield p)]
  cases runAll (validateField d vals) d.fieldValidators with
  | error e => rfl
  | ok u =>
    simp only
    rw [runMut_map]
    exact runMut_pure (check := fun m : View → Except Err Unit => m (structView d vals)) fun b _ => rfl

theorem C117_pure (Γ : Classes) (n : Nat) (d : StructDesc) (vals : Dict) (s : Stream) (ctx : Value) (kw : Dict) :
    structToStreamModify Γ n d (pureChecks d) vals ctx = (structToStream Γ (n + 1) d vals ctx, vals) ∧
    structFromStreamModify Γ n d (pureChecks d) s ctx kw = structFromStream Γ (n + 1) d s ctx kw := by
  constructor
  · unfold structToStreamModify
    rw [C117_pure_contents]
    simp only [structToStream, structToStreamWith]
    cases validateContents d vals with
    | error e => rfl
    | ok u => simp only; cases structToDict Γ n d vals <;> rfl
  · unfold structFromStreamModify
    simp only [structFromStream, structFromStreamWith]
    cases loadFields (fun f s loaded => fieldFromStream Γ n f s ctx loaded) d.components kw s with
    | mk x t =>
      cases x with
      | error e => rfl
      | ok results =>
        simp only
        cases structInit d results with
        | error e => rfl
        | ok w =>
          simp only [C117_pure_contents]
          cases validateContents d w <;> rfl

/-! ## What has been checked -/

/-- The value stored for the field, if any, is one its own validators accept. -/
def OwnAccepted (d : StructDesc) (k : String) (vals : Dict) : Prop :=
  ∀ f, d.find? k = some f → ∀ v, Dict.get? vals k = some v → ∀ chk ∈ f.base.validators, chk v = .ok ()

theorem ownAccepted_history {d : StructDesc} {k : String} {vals : Dict} (h : OwnAccepted d k vals) (ops : List Op) :
    OwnAccepted d k (history d vals ops) := by
  induction ops generalizing vals with
  | nil => exact h
  | cons op ops ih =>
    apply ih
    cases op with
    | set name v =>
      simp only [Op.run, structSetItem]
      cases hf : d.find? name with
      | none => exact h
      | some f =>
        simp only [fieldSet]
        split
        · exact h
        · cases hv : runValidators f.base.validators v with
          | error e => exact h
          | ok u =>
            simp only
            intro g hg w hw
            rw [Dict.get?_set] at hw
            split at hw
            · rename_i hk
              cases hw
              rw [(find?_some hf).2] at hk
              subst hk
              rw [hf] at hg; cases hg
              exact (runValidators_ok_iff _ _).1 hv
            · exact h g hg w hw
    | del name =>
      simp only [Op.run, structDelItem]
      split
      · intro g hg w hw
        rw [Dict.get?_erase] at hw
        split at hw
        · cases hw
        · exact h g hg w hw
      · exact h

/-- **C117** The validators given to a field (`validators=`) cannot be circumvented: whatever the validator methods assign, if they all return, then at the
end — in what is dumped — every checked field's stored value is one that the field's own validators accept. -/
theorem C117_own_validators (d : StructDesc) (c : Modifiers) (vals vals' : Dict) (hc : ByAssignment d c)
    (h : modifyContents d c vals = (.ok (), vals')) (p : String × List (Value → Dict → Mut)) (hp : p ∈ c.fields) (f : Field)
    (hf : d.find? p.1 = some f) (v : Value) (hv : Dict.get? vals' p.1 = some v) : ∀ chk ∈ f.base.validators, chk v = .ok () := by
  obtain ⟨w, h1, h2⟩ := modifyContents_ok h
  obtain ⟨A, B, hAB⟩ := List.append_of_mem hp
  rw [hAB] at h1
  obtain ⟨u1, u2, -, h4, h5⟩ := runMut_split h1
  have hmet : ∀ q ∈ c.fields, ∀ m ∈ q.2, ∀ v vals, OwnAccepted d p.1 vals → OwnAccepted d p.1 (m v vals).2 := by
    intro q hq m hm v vals ho
    obtain ⟨ops, hops⟩ := hc.1 q hq m hm v vals
    rw [hops]; exact ownAccepted_history ho ops
  have hacc : OwnAccepted d p.1 u2 := by
    have h6 : OwnAccepted d p.1 u1 := by
      intro g hg x hx
      rw [hf] at hg; cases hg
      unfold modifyField at h4
      simp only [hf, structGetItem_some (List.mem_map.2 ⟨f, find?_some hf⟩) hx] at h4
      cases hr : runValidators f.base.validators x with
      | error e => simp [hr] at h4
      | ok u => exact (runValidators_ok_iff _ _).1 hr
    have := modifyField_keeps (d := d) (p := p) (P := OwnAccepted d p.1) (hmet p hp) h6
    rw [h4] at this; exact this
  have hB : OwnAccepted d p.1 w := by
    have := runMut_keeps (check := modifyField d) (l := B) (P := OwnAccepted d p.1)
      (fun q hq vals ho => modifyField_keeps (hmet q (by rw [hAB]; simp [hq])) ho) hacc
    rw [h5] at this; exact this
  have hend : OwnAccepted d p.1 vals' := by
    have := runMut_keeps (check := fun m : Dict → Mut => m) (l := c.structs) (P := OwnAccepted d p.1)
      (fun m hm vals ho => by
        obtain ⟨ops, hops⟩ := hc.2 m hm vals
        rw [hops]; exact ownAccepted_history ho ops) hB
    rw [h2] at this; exact this
  exact hend f hf v hv

/-- **C117** (partial: validator methods change only fields that are checked later, and do not look at those) Every validator method accepts what is
dumped: asked again about the value that is stored at the end, it says the same. -/
theorem C117_method_validators_partial (d : StructDesc) (c : Modifiers) (vals vals' : Dict) (hc : ChangesLater c) (hl : LooksEarlier c)
    (h : modifyContents d c vals = (.ok (), vals')) (p : String × List (Value → Dict → Mut)) (hp : p ∈ c.fields) (v : Value)
    (hv : Dict.get? vals' p.1 = some v) : ∀ m ∈ p.2, (m v vals').1 = .ok () := by
  intro m hm
  obtain ⟨w, h1, h2⟩ := modifyContents_ok h
  obtain ⟨A, B, hAB⟩ := List.append_of_mem hp
  have hAB' := hAB
  rw [hAB] at h1
  obtain ⟨u1, u2, -, h4, h5⟩ := runMut_split h1
  -- the fields up to this one stay as they are
  let P : Dict → Prop := fun x => ∀ k ∈ A.map (·.1) ++ [p.1], Dict.get? x k = Dict.get? u1 k
  have hlater : ∀ A' q B', c.fields = A' ++ q :: B' → (∀ k ∈ A.map (·.1) ++ [p.1], k ∈ A'.map (·.1) ++ [q.1]) →
      ∀ m ∈ q.2, ∀ v vals, P vals → P (m v vals).2 := by
    intro A' q B' hs hsub m hm v vals hP k hk
    rw [hc.1 A' q B' hs m hm v vals k (hsub k hk)]
    exact hP k hk
  have hP2 : P u2 := by
    have := modifyField_keeps (d := d) (p := p) (P := P) (hlater A p B hAB (fun k hk => hk)) (vals := u1) (fun k _ => rfl)
    rw [h4] at this; exact this
  have hPw : P w := by
    have := runMut_keeps (check := modifyField d) (l := B) (P := P) (fun q hq vals hP => by
      obtain ⟨B1, B2, hB⟩ := List.append_of_mem hq
      refine modifyField_keeps (hlater (A ++ p :: B1) q B2 (by rw [hAB, hB]; simp) ?_) hP
      intro k hk
      simp only [List.map_append, List.map_cons, List.mem_append, List.mem_cons, List.not_mem_nil, or_false] at hk ⊢
      rcases hk with hk | hk
      · exact Or.inl (Or.inl hk)
      · exact Or.inl (Or.inr (Or.inl hk))) hP2
    rw [h5] at this; exact this
  have hPe : P vals' := by
    have := runMut_keeps (check := fun m : Dict → Mut => m) (l := c.structs) (P := P) (fun m hm vals hP k hk => by
      rw [hc.2 m hm vals k (by
        rw [hAB]
        simp only [List.map_append, List.map_cons, List.mem_append, List.mem_cons, List.not_mem_nil, or_false] at hk ⊢
        rcases hk with hk | hk
        · exact Or.inl hk
        · exact Or.inr (Or.inl hk))]
      exact hP k hk) hPw
    rw [h2] at this; exact this
  have hv1 : Dict.get? u1 p.1 = some v := by rw [← hPe p.1 (by simp)]; exact hv
  unfold modifyField at h4
  cases hf : d.find? p.1 with
  | none => simp [hf] at h4
  | some f =>
    simp only [hf, structGetItem_some (List.mem_map.2 ⟨f, find?_some hf⟩) hv1] at h4
    cases hr : runValidators f.base.validators v with
    | error e => simp [hr] at h4
    | ok u =>
      simp only [hr] at h4
      obtain ⟨X, Y, hXY⟩ := List.append_of_mem hm
      rw [hXY] at h4
      obtain ⟨x, y, h6, h7, -⟩ := runMut_split h4
      have hPx : P x := by
        have := runMut_keeps (check := fun m => m v) (l := X) (P := P)
          (fun m' hm' vals hP => hlater A p B hAB (fun k hk => hk) m' (by rw [hXY]; simp [hm']) v vals hP) (vals := u1) (fun k _ => rfl)
        rw [h6] at this; exact this
      rw [hl A p B hAB m hm v vals' x (fun k hk => by rw [hPe k hk, hPx k hk]), h7]

/-! ## Round trip -/

theorem modifyContents_instance {d : StructDesc} (hd : UniqueNames d) {c : Modifiers} (hc : ByAssignment d c) {vals : Dict} (hi : Instance d vals) :
    Instance d (modifyContents d c vals).2 := by
  have h1 : Instance d (runMut (modifyField d) c.fields vals).2 :=
    runMut_keeps (P := Instance d) (fun p hp vals h => modifyField_keeps (fun m hm v vals h => by
      obtain ⟨ops, hops⟩ := hc.1 p hp m hm v vals
      rw [hops]; exact history_instance hd h ops) h) hi
  unfold modifyContents
  cases hr : runMut (modifyField d) c.fields vals with
  | mk r w =>
    rw [hr] at h1
    cases r with
    | error e => exact h1
    | ok u =>
      refine runMut_keeps (P := Instance d) (fun m hm vals h => ?_) h1
      obtain ⟨ops, hops⟩ := hc.2 m hm vals
      rw [hops]; exact history_instance hd h ops

/-- **C117** Round trip: the bytes a struct is dumped to, with validators that change it, load as the values the validators left; the loading validators
are given these, and what they leave behind is the result. -/
theorem C117_round_trip (Γ : Classes) (hΓ : ∀ c d, Γ c = some d → Schema Γ d) (n : Nat) (d : StructDesc) (c : Modifiers) (vals vals' : Dict)
    (ctx : Value) (bs : Bytes) (hd : Schema Γ (withoutChecks d)) (hc : ByAssignment d c) (hi : Instance d vals)
    (ht : ∀ f ∈ d.components, ∀ w, Dict.get? vals' f.name = some w → Typed Γ f w)
    (h : structToStreamModify Γ n d c vals ctx = ((bs, .ok ()), vals')) :
    ∃ all m r, structToDict Γ n d vals' = .ok all ∧
      (∀ f ∈ d.components, ∃ v w, Dict.get? all f.name = some w ∧ Dict.get? r f.name = some v ∧ Stands v w) ∧
      ∀ r', modifyContents d c r = (.ok (), r') → ∀ pre rest, structFromStreamModify Γ m d c ⟨pre ++ bs ++ rest, pre.length⟩ ctx [] =
        (.ok r', ⟨pre ++ bs ++ rest, pre.length + bs.length⟩) := by
  obtain ⟨h1, h2, h3⟩ := C117_dump Γ n d c vals ctx
  rw [h] at h1 h2 h3
  have hok : (modifyContents d c vals).1 = .ok () := by
    cases hx : (modifyContents d c vals).1 with
    | ok u => rfl
    | error e => have := h1 e hx; simp [W.fail] at this
  have hbs := h2 hok
  simp only at hbs h3
  have hinst : Instance (withoutChecks d) vals' := by rw [h3]; exact (modifyContents_instance (d := d) hd.unique hc hi : Instance d _)
  obtain ⟨all, m, r, g1, g2, g3⟩ := C26_plain_round_trip Γ hΓ n (withoutChecks d) vals' ctx bs hd hinst ht (by rw [h3]; exact hbs.symm)
  rw [structToDict_components (d' := withoutChecks d) (d := d) rfl Γ n vals' false] at g1
  cases m with
  | zero => have := g3 [] []; simp [structFromStream] at this
  | succ m =>
    refine ⟨all, m, r, g1, g2, fun r' hr' pre rest => ?_⟩
    obtain ⟨vals2, k1, k2, -, k4⟩ := structFromStream_ok_iff.1 (g3 pre rest)
    have hdisc : ∀ f ∈ d.components, f.base.discard = false := fun f hf => (hd.field (d := withoutChecks d) hf).2.1
    rw [dropDiscarded_none (d := withoutChecks d) hdisc] at k4
    subst k4
    exact (C117_load Γ m d c _ _ ctx [] r').2 ⟨_, r', k1, k2, hr', (dropDiscarded_none hdisc).symm⟩

/-! ## Examples -/

/-- A validator method of the struct that appends a zero to the list.
```
@validates_struct
def more(self, struct):
    struct["items"] = struct["items"] + [0]
``` -/
def Sample.appends (d : StructDesc) (vals : Dict) : Mut :=
  match Dict.get? vals "items" with
  | some (.list l) => structSetItem d vals "items" (.list (l ++ [.int 0]))
  | _ => (.ok (), vals)

/-- ```
class Shelf(Struct):
    n = UInt8()
    items = Array(UInt8(), count=n)
``` -/
def Sample.shelf : StructDesc :=
  { name := "Shelf", components := [Sample.u8 "n", Sample.array "items" (Sample.u8 "") (.ref "n")]
    fieldValidators := [("n", []), ("items", [])], numOwnFields := 2 }

/-- The same with `@n.computes def _(self): return len(self["items"])`. -/
def Sample.countedShelf : StructDesc :=
  { Sample.shelf with
    components := [Sample.upd (Sample.u8 "n") ({ · with computeFn := some fun w => match w.get "items" with
        | .ok (.list l) => .ok (.int l.length)
        | .ok _ => .error .typeErr
        | .error e => .error e }), Sample.array "items" (Sample.u8 "") (.ref "n")] }

def Sample.shelfChecks (d : StructDesc) : Modifiers where
  fields := [("n", []), ("items", [])]
  structs := [Sample.appends d]

theorem Sample.shelf_byAssignment (d : StructDesc) : ByAssignment d (Sample.shelfChecks d) := by
  constructor
  · intro p hp m hm
    simp only [Sample.shelfChecks, List.mem_cons, List.not_mem_nil, or_false] at hp
    rcases hp with rfl | rfl <;> cases hm
  · intro m hm vals
    simp only [Sample.shelfChecks, List.mem_cons, List.not_mem_nil, or_false] at hm
    subst hm
    unfold Sample.appends
    split
    · rename_i l _
      exact ⟨[.set "items" (.list (l ++ [.int 0]))], rfl⟩
    · exact ⟨[], rfl⟩

-- the documentation's warning: a count that was set does not follow
example : (structToStreamModify Sample.noClasses 3 Sample.shelf (Sample.shelfChecks Sample.shelf) [("n", .int 2), ("items", .list [.int 7, .int 8])]
    .none).1.2 = .error (.arraySize "items" 2 3) := by decide +kernel
-- a computed one does
example : structToStreamModify Sample.noClasses 3 Sample.countedShelf (Sample.shelfChecks Sample.countedShelf) [("items", .list [.int 7, .int 8])] .none =
    (W.ok [3, 7, 8, 0], [("items", .list [.int 7, .int 8, .int 0])]) := by decide +kernel

/-- ```
class Guarded(Struct):
    a = UInt8()
    b = UInt8()
    @a.validator
    def _a(self, value):
        if value == 0: raise ValidationError
        self.b = 255 - value
    @b.validator
    def _b(self, value):
        if value != 255 - self.a: raise ValidationError
``` -/
def Sample.guarded : StructDesc :=
  { name := "Guarded", components := [Sample.u8 "a", Sample.u8 "b"], fieldValidators := [("a", []), ("b", [])], numOwnFields := 2 }

def Sample.setsB (v : Value) (vals : Dict) : Mut :=
  match v with
  | .int i => if i = 0 then (.error (.validation "a"), vals) else structSetItem Sample.guarded vals "b" (.int (255 - i))
  | _ => (.error (.validation "a"), vals)

def Sample.checksB (v : Value) (vals : Dict) : Mut :=
  match v, Dict.get? vals "a" with
  | .int j, some (.int i) => if j = 255 - i then (.ok (), vals) else (.error (.validation "b"), vals)
  | _, _ => (.error (.validation "b"), vals)

def Sample.guards : Modifiers where
  fields := [("a", [Sample.setsB]), ("b", [Sample.checksB])]
  structs := []

theorem Sample.setsB_keeps (v : Value) (vals : Dict) : Dict.get? (Sample.setsB v vals).2 "a" = Dict.get? vals "a" := by
  unfold Sample.setsB
  split
  · split
    · rfl
    · simp only [structSetItem, Sample.guarded, StructDesc.find?, Sample.u8, List.find?, Field.name, Field.base]
      simp only [fieldSet, Field.base, Field.name]
      simp [runValidators, Dict.get?_set]
  · rfl

theorem Sample.setsB_verdict (v : Value) (vals vals' : Dict) : (Sample.setsB v vals).1 = (Sample.setsB v vals').1 := by
  unfold Sample.setsB
  split
  · split
    · rfl
    · simp only [structSetItem, Sample.guarded, StructDesc.find?, Sample.u8, List.find?, Field.name, Field.base]
      simp only [fieldSet, Field.base, Field.name]
      simp [runValidators]
  · rfl

theorem Sample.checksB_keeps (v : Value) (vals : Dict) : (Sample.checksB v vals).2 = vals := by
  unfold Sample.checksB
  split
  · split <;> rfl
  · rfl

theorem Sample.guards_split {A B : List (String × List (Value → Dict → Mut))} {p : String × List (Value → Dict → Mut)}
    (h : Sample.guards.fields = A ++ p :: B) : (A = [] ∧ p = ("a", [Sample.setsB])) ∨ (A = [("a", [Sample.setsB])] ∧ p = ("b", [Sample.checksB])) := by
  unfold Sample.guards at h
  cases A with
  | nil => simp only [List.nil_append, List.cons.injEq] at h; exact Or.inl ⟨rfl, h.1.symm⟩
  | cons q A =>
    cases A with
    | nil =>
      simp only [List.cons_append, List.nil_append, List.cons.injEq] at h
      exact Or.inr ⟨by rw [h.1], h.2.1.symm⟩
    | cons q' A => simp at h

theorem Sample.guards_later : ChangesLater Sample.guards := by
  constructor
  · intro A p B h m hm v vals k hk
    rcases Sample.guards_split h with ⟨rfl, rfl⟩ | ⟨rfl, rfl⟩ <;>
      simp only [List.mem_cons, List.not_mem_nil, or_false, List.map_nil, List.nil_append] at hm hk <;> subst hm
    · subst hk; exact Sample.setsB_keeps v vals
    · rw [Sample.checksB_keeps]
  · intro m hm
    cases hm

theorem Sample.guards_earlier : LooksEarlier Sample.guards := by
  intro A p B h m hm v vals vals' hk
  rcases Sample.guards_split h with ⟨rfl, rfl⟩ | ⟨rfl, rfl⟩ <;>
    simp only [List.mem_cons, List.not_mem_nil, or_false] at hm <;> subst hm
  · exact Sample.setsB_verdict v vals vals'
  · have := hk "a" (by simp)
    unfold Sample.checksB
    rw [this]
    split
    · split <;> rfl
    · rfl

-- the checksum is set, checked and dumped
example : structToStreamModify Sample.noClasses 3 Sample.guarded Sample.guards [("a", .int 5), ("b", .int 0)] .none =
    (W.ok [5, 250], [("a", .int 5), ("b", .int 250)]) := by decide +kernel
-- the theorem, about the second validator method: it accepts 250 in what is dumped
example : (Sample.checksB (.int 250) [("a", .int 5), ("b", .int 250)]).1 = .ok () :=
  C117_method_validators_partial Sample.guarded Sample.guards [("a", .int 5), ("b", .int 0)] [("a", .int 5), ("b", .int 250)] Sample.guards_later
    Sample.guards_earlier (by decide +kernel) ("b", [Sample.checksB]) (by simp [Sample.guards]) (.int 250) rfl Sample.checksB (by simp)
-- the bytes of a struct with a wrong checksum are rewritten as they are loaded
example : structFromStreamModify Sample.noClasses 3 Sample.guarded Sample.guards ⟨[9, 5, 1], 1⟩ .none [] =
    (.ok [("a", .int 5), ("b", .int 250)], ⟨[9, 5, 1], 3⟩) := by decide +kernel

/-- A validator method of `b` that sets `a` to zero. -/
def Sample.zerosA (_ : Value) (vals : Dict) : Mut := structSetItem Sample.guarded vals "a" (.int 0)

def Sample.rejectsZero (v : Value) (vals : Dict) : Mut :=
  (if v = .int 0 then .error (.validation "a") else .ok (), vals)

def Sample.careless : Modifiers where
  fields := [("a", [Sample.rejectsZero]), ("b", [Sample.zerosA])]
  structs := []

/-- **C117** In general it is false: a validator method may change a field that has been checked, and a value its validator method always rejects is
written.
```
@a.validator
def _a(self, value):
    if value == 0: raise ValidationError
@b.validator
def _b(self, value):
    self.a = 0
``` -/
theorem C117_method_validators_refuted :
    ∃ (d : StructDesc) (c : Modifiers) (vals : Dict), ByAssignment d c ∧
      structToStreamModify Sample.noClasses 3 d c vals .none = (W.ok [0, 7], [("a", .int 0), ("b", .int 7)]) ∧
      ∃ p ∈ c.fields, p.1 = "a" ∧ ∃ m ∈ p.2, ∀ w, (m (.int 0) w).1 = .error (.validation "a") := by
  refine ⟨Sample.guarded, Sample.careless, [("a", .int 5), ("b", .int 7)], ⟨?_, ?_⟩, by decide +kernel, ("a", [Sample.rejectsZero]),
    by simp [Sample.careless], rfl, Sample.rejectsZero, by simp, fun w => rfl⟩
  · intro p hp m hm v vals
    simp only [Sample.careless, List.mem_cons, List.not_mem_nil, or_false] at hp
    rcases hp with rfl | rfl <;> simp only [List.mem_cons, List.not_mem_nil, or_false] at hm <;> subst hm
    · exact ⟨[], rfl⟩
    · exact ⟨[.set "a" (.int 0)], rfl⟩
  · intro m hm
    cases hm

/-- `UInt8(validate=lambda v: v < 100)` -/
def Sample.atMost99 (v : Value) : Except Err Unit :=
  match v with
  | .int i => if i < 100 then .ok () else .error (.validation "below 100")
  | _ => .error .typeErr

def Sample.limited : StructDesc :=
  { name := "Limited", components := [Sample.upd (Sample.u8 "a") ({ · with validators := [Sample.atMost99] }), Sample.u8 "b"]
    fieldValidators := [("a", []), ("b", [])], numOwnFields := 2 }

/-- A validator method of `b` that copies its value to `a`. -/
def Sample.copiesToA (v : Value) (vals : Dict) : Mut := structSetItem Sample.limited vals "a" v

def Sample.copier : Modifiers where
  fields := [("a", []), ("b", [Sample.copiesToA])]
  structs := []

theorem Sample.copier_byAssignment : ByAssignment Sample.limited Sample.copier := by
  constructor
  · intro p hp m hm v vals
    simp only [Sample.copier, List.mem_cons, List.not_mem_nil, or_false] at hp
    rcases hp with rfl | rfl
    · cases hm
    · simp only [List.mem_cons, List.not_mem_nil, or_false] at hm
      subst hm
      exact ⟨[.set "a" v], rfl⟩
  · intro m hm
    cases hm

-- an assignment of a value the field's own validators reject raises, and nothing is written
example : structToStreamModify Sample.noClasses 3 Sample.limited Sample.copier [("a", .int 5), ("b", .int 200)] .none =
    (W.fail (.validation "below 100"), [("a", .int 5), ("b", .int 200)]) := by decide +kernel
example : structToStreamModify Sample.noClasses 3 Sample.limited Sample.copier [("a", .int 5), ("b", .int 60)] .none =
    (W.ok [60, 60], [("a", .int 60), ("b", .int 60)]) := by decide +kernel
example : ∀ chk ∈ [Sample.atMost99], chk (.int 60) = .ok () :=
  C117_own_validators Sample.limited Sample.copier [("a", .int 5), ("b", .int 60)] [("a", .int 60), ("b", .int 60)] Sample.copier_byAssignment
    (by decide +kernel) ("a", []) (by simp [Sample.copier]) _ rfl (.int 60) rfl

theorem Sample.guarded_schema (Γ : Classes) : Schema Γ (withoutChecks Sample.guarded) where
  unique := by unfold UniqueNames; decide
  checks := fun r hr => unchecked_valid (by simp [withoutChecks]) (by simp [withoutChecks, Sample.guarded, Sample.u8, Field.base]) rfl hr
    (by unfold UniqueNames; decide)
  fields := by
    refine fields_of_index (Q := fun pre f => Layout pre f ∧ Always f.base ∧ f.base.discard = false ∧ Sources Γ f) fun i hi => ?_
    match i, hi with
    | 0, _ => exact ⟨.integer (n := 1) rfl (by decide), ⟨fun _ _ _ => rfl, rfl⟩, rfl, fun _ h => absurd rfl h, fun _ _ _ h => by cases h⟩
    | 1, _ => exact ⟨.integer (n := 1) rfl (by decide), ⟨fun _ _ _ => rfl, rfl⟩, rfl, fun _ h => absurd rfl h, fun _ _ _ h => by cases h⟩

theorem Sample.guards_byAssignment : ByAssignment Sample.guarded Sample.guards := by
  constructor
  · intro p hp m hm v vals
    simp only [Sample.guards, List.mem_cons, List.not_mem_nil, or_false] at hp
    rcases hp with rfl | rfl <;> simp only [List.mem_cons, List.not_mem_nil, or_false] at hm <;> subst hm
    · unfold Sample.setsB
      split
      · split
        · exact ⟨[], rfl⟩
        · rename_i i _
          exact ⟨[.set "b" (.int (255 - i))], rfl⟩
      · exact ⟨[], rfl⟩
    · exact ⟨[], Sample.checksB_keeps v vals⟩
  · intro m hm
    cases hm

-- the round trip of the struct with the checksum
example : ∃ all m r, structToDict Sample.noClasses 3 Sample.guarded [("a", .int 5), ("b", .int 250)] = .ok all ∧
    (∀ f ∈ Sample.guarded.components, ∃ v w, Dict.get? all f.name = some w ∧ Dict.get? r f.name = some v ∧ Stands v w) ∧
    ∀ r', modifyContents Sample.guarded Sample.guards r = (.ok (), r') → ∀ pre rest,
      structFromStreamModify Sample.noClasses m Sample.guarded Sample.guards ⟨pre ++ [5, 250] ++ rest, pre.length⟩ .none [] =
        (.ok r', ⟨pre ++ [5, 250] ++ rest, pre.length + 2⟩) := by
  refine C117_round_trip Sample.noClasses (by intro c d h; cases h) 3 Sample.guarded Sample.guards [("a", .int 5), ("b", .int 0)] _ .none [5, 250]
    (Sample.guarded_schema _) Sample.guards_byAssignment (by unfold Instance; decide) ?_ (by decide +kernel)
  intro f hf w hw
  simp only [Sample.guarded, List.mem_cons, List.not_mem_nil, or_false] at hf
  rcases hf with rfl | rfl <;> cases hw <;> exact .leaf trivial (Or.inl rfl)

end Verif
