import Verif.Spec.Proxy
import Verif.Props.History
import Verif.Props.Equality

/-!
# Mapping proxies

C73.
-/

namespace Verif
open Spec

/-- **C73** A proxy has the fields that are set as its keys, each once, and under each key the value of the field; and so does the `dict` made
from it. -/
theorem C73_items (d : StructDesc) (vals : Dict) (hi : Instance d vals) :
    (proxyIter vals).Nodup ∧ (∀ k, k ∈ proxyIter vals ↔ ∃ v, Items vals k v) ∧
    (∀ k v, Items vals k v → proxyGetItem d vals k = .ok v) ∧
    ∃ dct, proxyDict d vals = .ok dct ∧ Dict.keys dct = proxyIter vals ∧ ∀ k v, Dict.get? dct k = some v ↔ Items vals k v := by
  have hmem : ∀ k v, Items vals k v → k ∈ names d := by
    intro k v h
    exact hi.2 k (by rw [← Dict.contains_iff, Dict.contains_eq, h.1]; rfl)
  refine ⟨definedKeys_nodup hi.1, fun k => mem_definedKeys hi.1, fun k v h => structGetItem_some (hmem k v h) h.1, ?_⟩
  refine ⟨_, definedDict_eq hi, rfl, fun k v => ?_⟩
  rw [get?_filter_defined hi.1]
  unfold Items
  cases Dict.get? vals k with
  | none => simp [Option.filter]
  | some w =>
    by_cases hw : w = .undefined
    · subst hw; simp [Option.filter]; exact fun h => h.symm
    · simp only [Option.filter, hw, ne_eq, not_false_eq_true, decide_true, if_true, Option.some.injEq]
      exact ⟨fun h => ⟨h, h ▸ hw⟩, fun h => h.1⟩

/-- **C73** For keys of the proxy, and for names that are not fields, membership and `get` are those of a mapping. -/
theorem C73_lookup_partial (d : StructDesc) (vals : Dict) (k : String) (fallback : Value) (hi : Instance d vals) :
    (∀ v, Items vals k v → proxyContains d vals k = .ok true ∧ proxyGet d vals k fallback = .ok v) ∧
    (k ∉ names d → proxyContains d vals k = .ok false ∧ proxyGet d vals k fallback = .ok fallback) := by
  refine ⟨fun v h => ?_, fun h => ?_⟩
  · have := (C73_items d vals hi).2.2.1 k v h
    simp only [proxyContains, proxyGet, this, and_self]
  · have : proxyGetItem d vals k = .error (.keyErr k) := (C35_unknown_names d vals k .none h).1
    simp only [proxyContains, proxyGet, this, Err.isKeyErr, if_true, and_self]

/-- **C73** Membership is not membership in the keys: a field that is not set is `in` the proxy if it has a default, and asking raises an error
if it has none. -/
theorem C73_contains_refuted :
    ∃ (d : StructDesc) (vals : Dict), Instance d vals ∧ UniqueNames d ∧
      (∃ k, k ∉ proxyIter vals ∧ proxyContains d vals k = .ok true) ∧
      ∃ k, k ∉ proxyIter vals ∧ k ∈ names d ∧ proxyContains d vals k = .error (.missingRequired k) :=
  ⟨Sample.inner, [], by unfold Instance; decide, by unfold UniqueNames; decide, ⟨"y", by decide, by decide⟩,
    ⟨"x", by decide, by decide, by decide⟩⟩

/-- **C73** `len(proxy)` is the length of the struct if Python allows it as a length, i.e. it is between 0 and `sys.maxsize`. -/
theorem C73_len (Γ : Classes) (n : Nat) (d : StructDesc) (vals : Dict) :
    (∀ k, proxyLen Γ n d vals = .ok k ↔ structLen Γ n d vals = .ok k ∧ 0 ≤ k ∧ k ≤ 9223372036854775807) ∧
    (∀ k, structLen Γ n d vals = .ok k → k < 0 → proxyLen Γ n d vals = .error .valueErr) ∧
    (∀ k, structLen Γ n d vals = .ok k → 9223372036854775807 < k → proxyLen Γ n d vals = .error .overflowErr) ∧
    ∀ e, structLen Γ n d vals = .error e → proxyLen Γ n d vals = .error e := by
  unfold proxyLen
  cases structLen Γ n d vals with
  | error e => simp [pyLen]
  | ok k =>
    simp only [pyLen, Except.ok.injEq, reduceCtorEq, false_implies, implies_true, and_true]
    have hp : (2 : Int) ^ 63 = 9223372036854775808 := rfl
    rw [hp]
    refine ⟨fun j => ?_, ?_, ?_⟩
    · split
      · simp; omega
      · split
        · simp; omega
        · simp; omega
    · rintro j rfl h; rw [if_pos h]
    · rintro j rfl h; rw [if_neg (by omega), if_pos (by omega)]

/-- **C73** `len(proxy)` is not the number of its keys: it is the size of the struct in bytes. -/
theorem C73_len_refuted :
    ∃ (d : StructDesc) (vals : Dict), Instance d vals ∧ (∀ n, proxyLen Sample.noClasses n d vals = .ok 4) ∧ (proxyIter vals).length = 2 :=
  ⟨Sample.point, [("x", .int 1), ("y", .int 2)], by unfold Instance; decide, fun _ => rfl, by decide⟩

/-- **C73** A proxy does not equal the `dict` made from it, nor the other kind of proxy of the same struct. -/
theorem C73_equality_refuted :
    ∃ (d : StructDesc) (vals : Dict), Instance d vals ∧ proxyDict d vals = .ok vals ∧ ∀ Γ n mutable,
      proxyEq Γ n mutable d.name vals (.value (.dict vals)) = .ok false ∧
      proxyEq Γ n mutable d.name vals (.proxy (!mutable) d.name vals) = .ok false :=
  ⟨Sample.point, [("x", .int 1), ("y", .int 2)], by unfold Instance; decide, by decide, fun Γ n m => ⟨rfl, by simp [proxyEq]⟩⟩

/-- **C73** What does hold: a proxy equals a proxy of the same kind, and a struct, exactly if the structs are equal. -/
theorem C73_equality_partial (Γ : Classes) (n : Nat) (mutable : Bool) (c c' : String) (a b : Dict) :
    proxyEq Γ n mutable c a (.proxy mutable c' b) = structEq Γ n c a (.struct c' b) ∧
    proxyEq Γ n mutable c a (.value (.struct c' b)) = structEq Γ n c' b (.struct c a) := by
  simp [proxyEq]

/-- **C73** `setdefault` never sets anything: a field that is not set is read as its default, or reading it raises an error that is no
`KeyError` (unless a callable raises one). -/
theorem C73_setdefault_refuted (d : StructDesc) (vals : Dict) (k : String) (v : Value) (hd : UniqueNames d) (hi : Instance d vals)
    (hc : ∀ f ∈ d.components, ∀ fn V e, f.base.computeFn = some fn → fn V = .error e → e.isKeyErr = false)
    (hp : ∀ f ∈ d.components, ∀ V ctx s e, f.base.present V ctx s = .error e → e.isKeyErr = false)
    (hf : ∀ f ∈ d.components, ∀ e, f.base.default = .error e → e.isKeyErr = false) :
    (proxySetDefault d vals k v).2 = vals ∧ (k ∉ names d → (proxySetDefault d vals k v).1 = .error (.keyErr k)) := by
  by_cases hk : k ∈ names d
  · refine ⟨?_, fun h => absurd hk h⟩
    have hget : ∀ e, proxyGetItem d vals k = .error e → e.isKeyErr = false := by
      intro e he
      obtain ⟨f, hf1, rfl⟩ := List.mem_map.1 hk
      cases hv : Dict.get? vals f.name with
      | some w => rw [proxyGetItem, structGetItem_some hk hv] at he; cases he
      | none =>
        unfold proxyGetItem structGetItem structGet at he
        rw [find?_of_mem hd hf1] at he
        simp only [hv] at he
        have hct : structContains vals f.name = false := by
          rw [← Bool.not_eq_true, structContains_iff hi.1, hv]; simp
        unfold FieldBase.computeValueForDump at he
        simp only [show f.base.name = f.name from rfl, hct, Bool.false_eq_true, if_false] at he
        generalize hval : (if f.base.dflt ≠ .undefined then f.base.default else
          match f.base.computeFn with
          | some fn => fn ⟨structContains vals, structGet d vals d.components.length⟩
          | none => .ok .undefined) = value at he
        cases value with
        | error e' =>
          simp only [Except.error.injEq] at he
          subst he
          by_cases hdf : f.base.dflt = .undefined
          · simp only [hdf, ne_eq, not_true_eq_false, if_false] at hval
            cases hcf : f.base.computeFn with
            | none => simp [hcf] at hval
            | some fn => rw [hcf] at hval; exact hc f hf1 fn _ _ hcf hval
          · simp only [ne_eq, hdf, not_false_eq_true, if_true] at hval
            exact hf f hf1 _ hval
        | ok w =>
          simp only at he
          split at he
          · cases he
          · cases hpr : f.base.present ⟨structContains vals, structGet d vals d.components.length⟩ .none none with
            | error e' =>
              simp only [hpr, Except.error.injEq] at he
              subst he
              exact hp f hf1 _ _ _ _ hpr
            | ok b =>
              cases b with
              | false => simp [hpr] at he
              | true =>
                simp only [hpr] at he
                split at he
                · simp only [Except.error.injEq] at he
                  subst he; rfl
                · cases he
    unfold proxySetDefault
    cases hg : proxyGetItem d vals k with
    | ok w => rfl
    | error e => simp only [hget e hg, Bool.false_eq_true, if_false]
  · have h1 := C35_unknown_names d vals k v hk
    unfold proxySetDefault proxyGetItem proxySetItem
    simp only [h1.1, h1.2.1, Err.isKeyErr, if_true, implies_true, and_self]

/-- **C73** `pop` of a field that is set returns its value and unsets it; other fields keep theirs. -/
theorem C73_pop (d : StructDesc) (vals : Dict) (k : String) (v : Value) (fallback : Option Value) (hi : Instance d vals)
    (h : Items vals k v) :
    (proxyPop d vals k fallback).1 = .ok v ∧ (∀ w, ¬ Items (proxyPop d vals k fallback).2 k w) ∧
    ∀ k', k' ≠ k → ∀ w, Items (proxyPop d vals k fallback).2 k' w ↔ Items vals k' w := by
  have hk : k ∈ names d := hi.2 k (by rw [← Dict.contains_iff, Dict.contains_eq, h.1]; rfl)
  have e : proxyPop d vals k fallback = (.ok v, Dict.erase vals k) := by
    unfold proxyPop proxyGetItem proxyDelItem structDelItem
    rw [structGetItem_some hk h.1, if_pos (has_iff.2 hk)]
  rw [e]
  unfold Items
  simp only [Dict.get?_erase]
  refine ⟨trivial, fun w hw => by simp at hw, fun k' hk' w => ?_⟩
  rw [if_neg (Ne.symm hk')]

/-- **C73** `popitem` returns and unsets the first field of the iteration; it raises `KeyError` exactly if no field is set. -/
theorem C73_popitem (d : StructDesc) (vals : Dict) (hi : Instance d vals) :
    ((proxyIter vals = [] ∧ ∃ e, proxyPopItem d vals = (.error e, vals) ∧ e.isKeyErr = true) ∨
      ∃ k v rest vals', proxyIter vals = k :: rest ∧ Items vals k v ∧ proxyPopItem d vals = (.ok (k, v), vals') ∧
        proxyIter vals' = rest ∧ Instance d vals' ∧ ∀ k' w, Items vals' k' w ↔ k' ≠ k ∧ Items vals k' w) := by
  cases hk : proxyIter vals with
  | nil => exact Or.inl ⟨rfl, _, by unfold proxyPopItem; rw [hk], rfl⟩
  | cons k rest =>
    right
    obtain ⟨h1, h2, h3, -⟩ := C73_items d vals hi
    obtain ⟨v, hv⟩ := (h2 k).1 (by rw [hk]; simp)
    have hkn : k ∈ names d := hi.2 k (by rw [← Dict.contains_iff, Dict.contains_eq, hv.1]; rfl)
    refine ⟨k, v, rest, Dict.erase vals k, rfl, hv, ?_, ?_, ?_, ?_⟩
    · unfold proxyPopItem
      rw [hk]
      simp only [h3 k v hv, proxyDelItem, structDelItem, has_iff.2 hkn, if_true]
    · have hnd : (definedKeys vals).Nodup := h1
      have e : definedKeys (Dict.erase vals k) = (definedKeys vals).erase k := definedKeys_erase hi.1
      unfold proxyIter at hk ⊢
      rw [e, hk]; simp
    · exact ⟨Dict.nodup_erase hi.1, fun k' hk' => hi.2 _ (Dict.mem_keys_erase.1 hk').2⟩
    · intro k' w
      unfold Items
      rw [Dict.get?_erase]
      by_cases e : k = k'
      · simp [e]
      · simp [e, Ne.symm e]

/-- **C73** `clear` returns, and leaves no field set. -/
theorem C73_clear (d : StructDesc) (fuel : Nat) (vals : Dict) (hi : Instance d vals) (hf : (proxyIter vals).length < fuel) :
    ∃ vals', proxyClear d fuel vals = (.ok (), vals') ∧ proxyIter vals' = [] ∧ Instance d vals' := by
  induction fuel generalizing vals with
  | zero => omega
  | succ fuel ih =>
    rcases C73_popitem d vals hi with ⟨h1, e, h2, h3⟩ | ⟨k, v, rest, vals', h1, -, h2, h3, h4, -⟩
    · exact ⟨vals, by unfold proxyClear; rw [h2]; simp only [h3, if_true], h1, hi⟩
    · obtain ⟨w, h5, h6⟩ := ih vals' h4 (by rw [h1] at hf; rw [h3]; simp at hf; omega)
      exact ⟨w, by unfold proxyClear; rw [h2]; exact h5, h6⟩

/-- **C73** Whatever is done to a struct through a proxy could have been done by assigning and deleting items of the struct itself: the
validators, `const` and computed fields are respected (C20, C34), and what the struct contains is what a dictionary would (C35). -/
theorem C73_histories (d : StructDesc) (vals : Dict) (ops : List ProxyOp) : ∃ ops', proxyHistory d vals ops = history d vals ops' := by
  have happend : ∀ (a b : List Op) (w : Dict), history d w (a ++ b) = history d (history d w a) b := by
    intro a
    induction a with
    | nil => intro b w; rfl
    | cons op a ih => intro b w; exact ih b _
  have hpopitem : ∀ w : Dict, ∃ ops', (proxyPopItem d w).2 = history d w ops' := by
    intro w
    unfold proxyPopItem
    cases proxyIter w with
    | nil => exact ⟨[], rfl⟩
    | cons k r =>
      simp only
      cases proxyGetItem d w k with
      | error e => exact ⟨[], rfl⟩
      | ok v =>
        refine ⟨[.del k], ?_⟩
        simp only [history, Op.run, proxyDelItem]
        rcases hdel : structDelItem d w k with ⟨_ | _, w'⟩ <;> rfl
  have hone : ∀ (op : ProxyOp) (w : Dict), ∃ ops', op.run d w = history d w ops' := by
    intro op w
    cases op with
    | set k v => exact ⟨[.set k v], rfl⟩
    | del k => exact ⟨[.del k], rfl⟩
    | pop k fallback =>
      simp only [ProxyOp.run, proxyPop]
      cases proxyGetItem d w k with
      | error e =>
        refine ⟨[], ?_⟩
        simp only [history]
        split
        · cases fallback <;> rfl
        · rfl
      | ok v =>
        refine ⟨[.del k], ?_⟩
        simp only [history, Op.run, proxyDelItem]
        rcases hdel : structDelItem d w k with ⟨_ | _, w'⟩ <;> rfl
    | popitem => exact hpopitem w
    | clear =>
      simp only [ProxyOp.run]
      generalize w.length + 1 = fuel
      induction fuel generalizing w with
      | zero => exact ⟨[], rfl⟩
      | succ fuel ih =>
        obtain ⟨a, ha⟩ := hpopitem w
        unfold proxyClear
        rcases hpi : proxyPopItem d w with ⟨e | p, w'⟩
        · rw [hpi] at ha
          refine ⟨a, ?_⟩
          simp only
          split <;> exact ha
        · rw [hpi] at ha
          obtain ⟨b, hb⟩ := ih w'
          exact ⟨a ++ b, by rw [happend, ← ha]; exact hb⟩
    | update other =>
      simp only [ProxyOp.run]
      induction other generalizing w with
      | nil => exact ⟨[], rfl⟩
      | cons p other ih =>
        obtain ⟨k, v⟩ := p
        unfold proxyUpdate
        rcases hs : proxySetItem d w k v with ⟨e | u, w'⟩
        · exact ⟨[.set k v], by simp only [history, Op.run]; rw [proxySetItem] at hs; rw [hs]⟩
        · obtain ⟨b, hb⟩ := ih w'
          refine ⟨.set k v :: b, ?_⟩
          simp only [history, Op.run]
          rw [proxySetItem] at hs
          rw [hs]; exact hb
    | setdefault k v =>
      simp only [ProxyOp.run, proxySetDefault]
      cases proxyGetItem d w k with
      | ok u => exact ⟨[], rfl⟩
      | error e =>
        simp only
        split
        · refine ⟨[.set k v], ?_⟩
          simp only [history, Op.run, proxySetItem]
          rcases structSetItem d w k v with ⟨_ | _, w'⟩ <;> rfl
        · exact ⟨[], rfl⟩
  induction ops generalizing vals with
  | nil => exact ⟨[], rfl⟩
  | cons op ops ih =>
    obtain ⟨a, ha⟩ := hone op vals
    obtain ⟨b, hb⟩ := ih (op.run d vals)
    exact ⟨a ++ b, by rw [happend, ← ha]; exact hb⟩

/-! ### Examples -/

section
private def p : Dict := [("x", .int 1), ("y", .undefined)]
private theorem ip : Instance Sample.inner p := by unfold Instance; decide

example : proxyIter p = ["x"] ∧ proxyDict Sample.inner p = .ok [("x", .int 1)] := by decide
example : ∃ dct, proxyDict Sample.inner p = .ok dct ∧ Dict.keys dct = ["x"] :=
  let ⟨dct, h, h', _⟩ := (C73_items Sample.inner p ip).2.2.2
  ⟨dct, h, h'⟩
example : proxyContains Sample.inner p "x" = .ok true := ((C73_lookup_partial Sample.inner p "x" .none ip).1 (.int 1) ⟨rfl, by simp⟩).1
example : proxyGet Sample.inner p "w" (.int 9) = .ok (.int 9) := ((C73_lookup_partial Sample.inner p "w" (.int 9) ip).2 (by decide)).2
example : (proxyPop Sample.inner p "x" none).1 = .ok (.int 1) := (C73_pop _ _ _ _ _ ip ⟨rfl, by simp⟩).1
example : ∃ vals', proxyClear Sample.inner 3 p = (.ok (), vals') ∧ proxyIter vals' = [] :=
  let ⟨v, h, h', _⟩ := C73_clear Sample.inner 3 p ip (by decide)
  ⟨v, h, h'⟩
example : (proxySetDefault Sample.inner [] "y" (.int 3)).2 = [] :=
  (C73_setdefault_refuted Sample.inner [] "y" (.int 3) (by unfold UniqueNames; decide) (by unfold Instance; decide)
    (by intro f hf fn V e h; simp [Sample.inner, Sample.upd, Sample.u8, Field.base, Field.withBase] at hf; rcases hf with rfl | rfl <;> cases h)
    (by intro f hf V ctx s e h; simp [Sample.inner, Sample.upd, Sample.u8, Field.base, Field.withBase] at hf; rcases hf with rfl | rfl <;> cases h)
    (by intro f hf e h; simp [Sample.inner, Sample.upd, Sample.u8, Field.base, Field.withBase] at hf; rcases hf with rfl | rfl <;> cases h)).1
example : proxyHistory Sample.inner p [.update [("y", .int 2), ("w", .int 1)], .popitem, .setdefault "x" (.int 4)] = [("y", .int 2)] := by decide
end

end Verif
