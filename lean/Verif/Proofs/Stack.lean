import Verif.Spec.Stack
import Verif.Proofs.Depth
import Verif.Proofs.Halting
import Verif.Proofs.Robust

/-!
# Dumping with a bounded call stack

Helper lemmas for C119.
-/

namespace Verif
open Spec

theorem Spec.PlainNests.mono {k m : Nat} {v : Value} (h : PlainNests k v) (hk : k ≤ m) : PlainNests m v := by
  induction h generalizing m with
  | atom h1 h2 h3 h4 => exact .atom h1 h2 h3 h4
  | list _ ih => obtain ⟨m, rfl⟩ : ∃ j, m = j + 1 := ⟨m - 1, by omega⟩; exact .list fun v hv => ih v hv (by omega)
  | dict _ ih => obtain ⟨m, rfl⟩ : ∃ j, m = j + 1 := ⟨m - 1, by omega⟩; exact .dict fun p hp => ih p hp (by omega)

theorem Spec.PlainNests.nests {k : Nat} {v : Value} (h : PlainNests k v) : Nests k v := by
  induction h with
  | atom h1 h2 h3 h4 => exact .atom h1 h2 h3 h4
  | list _ ih => exact .list ih
  | dict _ ih => exact .dict ih

theorem Spec.PlainNests.notPresent (k : Nat) : PlainNests k .notPresent := .atom (by simp) (by simp) (by simp) (by simp)

theorem Spec.Modest.supplies {S : Nat} {f : Field} (h : Modest S f) : ∀ v, Supplies f.base v → PlainNests S v := by
  cases h <;> assumption

theorem mapE_same {α β : Type} {g g' : α → Except Err β} {l : List α} (h : ∀ a ∈ l, g a = g' a) : mapE g l = mapE g' l := by
  induction l with
  | nil => rfl
  | cons a l ih =>
    simp only [mapE]
    rw [h a List.mem_cons_self, ih fun b hb => h b (List.mem_cons_of_mem _ hb)]

theorem mapDictE_same {g g' : Value → Except Err Value} {d : Dict} (h : ∀ p ∈ d, g p.2 = g' p.2) : mapDictE g d = mapDictE g' d :=
  mapE_same fun p hp => by rw [h p hp]

theorem mapE_self {α : Type} {g : α → Except Err α} {l : List α} (h : ∀ a ∈ l, g a = .ok a) : mapE g l = .ok l := by
  induction l with
  | nil => rfl
  | cons a l ih =>
    simp only [mapE]
    rw [h a List.mem_cons_self, ih fun b hb => h b (List.mem_cons_of_mem _ hb)]

theorem mapDictE_self {g : Value → Except Err Value} {d : Dict} (h : ∀ p ∈ d, g p.2 = .ok p.2) : mapDictE g d = .ok d :=
  mapE_self fun p hp => by rw [h p hp]; rfl

/-! ### Conversion to dictionaries -/

theorem recursiveToDicts_atom (Γ : Classes) (n : Nat) {v : Value} (h1 : ∀ l, v ≠ .list l) (h3 : ∀ d, v ≠ .dict d) (h4 : ∀ c d, v ≠ .struct c d) :
    recursiveToDicts Γ (n + 1) v = .ok v := by
  cases v <;> first | rfl | exact (h4 _ _ rfl).elim | exact (h3 _ rfl).elim | exact (h1 _ rfl).elim

theorem recursiveToDicts_plainNests (Γ : Classes) {k : Nat} {v : Value} (h : PlainNests k v) : ∀ n, k + 1 ≤ n → recursiveToDicts Γ n v = .ok v := by
  induction h with
  | atom h1 h2 h3 h4 =>
    intro n hn
    obtain ⟨n, rfl⟩ : ∃ j, n = j + 1 := ⟨n - 1, by omega⟩
    exact recursiveToDicts_atom Γ n h1 h3 h4
  | list _ ih =>
    intro n hn
    obtain ⟨n, rfl⟩ : ∃ j, n = j + 1 := ⟨n - 1, by omega⟩
    simp only [recursiveToDicts]
    rw [mapE_self fun v hv => ih v hv n (by omega)]
    rfl
  | dict _ ih =>
    intro n hn
    obtain ⟨n, rfl⟩ : ∃ j, n = j + 1 := ⟨n - 1, by omega⟩
    simp only [recursiveToDicts]
    rw [mapDictE_self fun p hp => ih p hp n (by omega)]
    rfl

theorem recursiveToDicts_kept (Γ : Classes) {k n : Nat} {v w : Value} (h : PlainNests k v) (hw : recursiveToDicts Γ n v = .ok w) : w = v := by
  have h1 := recursiveToDicts_plainNests Γ h (max n (k + 1)) (by omega)
  have h2 := recursiveToDicts_mono Γ (Nat.le_max_left n (k + 1)) v
  rw [hw, h1] at h2
  rcases h2 with h2 | h2
  · cases h2
  · injection h2

/-- All fields of all classes are modest. -/
def AllModest (Γ : Classes) (S : Nat) : Prop := ∀ cls d, Γ cls = some d → ∀ f ∈ d.components, Modest S f

/-- Values stored in a struct, or supplied by its fields. -/
theorem origin_cases {d : StructDesc} {S : Nat} (hd : ∀ f ∈ d.components, Modest S f) {vals dct : Dict} {keep : Bool}
    (h : toDictShallow d vals keep = .ok dct) : ∀ p ∈ dct, (∃ q ∈ vals, q.2 = p.2) ∨ PlainNests S p.2 := by
  intro p hp
  rcases toDictShallow_src h p hp with h | h | ⟨f, hf, _, hs⟩
  · exact .inl h
  · rw [h]; exact .inr (.notPresent S)
  · exact .inr ((hd f hf).supplies _ hs)

theorem recursiveToDicts_nests {Γ : Classes} {S : Nat} (hΓ : AllModest Γ S) {k : Nat} {v : Value} (h : Nests k v) :
    (∀ n m, k + S + 1 ≤ n → k + S + 1 ≤ m → recursiveToDicts Γ n v = recursiveToDicts Γ m v) ∧
    ∀ n w, recursiveToDicts Γ n v = .ok w → PlainNests (k + S) w := by
  induction h with
  | @atom k v h1 h2 h3 h4 =>
    refine ⟨fun n m hn hm => ?_, fun n w hw => ?_⟩
    · obtain ⟨n, rfl⟩ : ∃ j, n = j + 1 := ⟨n - 1, by omega⟩
      obtain ⟨m, rfl⟩ : ∃ j, m = j + 1 := ⟨m - 1, by omega⟩
      rw [recursiveToDicts_atom Γ n h1 h3 h4, recursiveToDicts_atom Γ m h1 h3 h4]
    · cases n with
      | zero => simp [recursiveToDicts] at hw
      | succ n =>
        rw [recursiveToDicts_atom Γ n h1 h3 h4] at hw
        cases hw
        exact .atom h1 h2 h3 h4
  | @list k l _ ih =>
    refine ⟨fun n m hn hm => ?_, fun n w hw => ?_⟩
    · obtain ⟨n, rfl⟩ : ∃ j, n = j + 1 := ⟨n - 1, by omega⟩
      obtain ⟨m, rfl⟩ : ∃ j, m = j + 1 := ⟨m - 1, by omega⟩
      simp only [recursiveToDicts]
      rw [mapE_same fun v hv => (ih v hv).1 n m (by omega) (by omega)]
    · cases n with
      | zero => simp [recursiveToDicts] at hw
      | succ n =>
        simp only [recursiveToDicts] at hw
        obtain ⟨r, hr, rfl⟩ := Except.map_ok hw
        rw [show k + 1 + S = k + S + 1 by omega]
        refine .list fun x hx => ?_
        obtain ⟨a, ha, hax⟩ := mapE_mem hr x hx
        exact (ih a ha).2 n x hax
  | @dict k d _ ih =>
    refine ⟨fun n m hn hm => ?_, fun n w hw => ?_⟩
    · obtain ⟨n, rfl⟩ : ∃ j, n = j + 1 := ⟨n - 1, by omega⟩
      obtain ⟨m, rfl⟩ : ∃ j, m = j + 1 := ⟨m - 1, by omega⟩
      simp only [recursiveToDicts]
      rw [mapDictE_same fun p hp => (ih p hp).1 n m (by omega) (by omega)]
    · cases n with
      | zero => simp [recursiveToDicts] at hw
      | succ n =>
        simp only [recursiveToDicts] at hw
        obtain ⟨r, hr, rfl⟩ := Except.map_ok hw
        rw [show k + 1 + S = k + S + 1 by omega]
        refine .dict fun x hx => ?_
        obtain ⟨a, ha, _, hax⟩ := mapDictE_mem hr x hx
        exact (ih a ha).2 n _ hax
  | @struct k c vals _ ih =>
    refine ⟨fun n m hn hm => ?_, fun n w hw => ?_⟩
    · obtain ⟨n, rfl⟩ : ∃ j, n = j + 1 := ⟨n - 1, by omega⟩
      obtain ⟨m, rfl⟩ : ∃ j, m = j + 1 := ⟨m - 1, by omega⟩
      simp only [recursiveToDicts]
      cases hc : Γ c with
      | none => rfl
      | some d =>
        simp only
        cases ht : toDictShallow d vals false with
        | error e => rfl
        | ok dct =>
          simp only
          rw [mapDictE_same]
          intro p hp
          rcases origin_cases (hΓ c d hc) ht p hp with ⟨q, hq, hqp⟩ | hs
          · rw [← hqp]; exact (ih q hq).1 n m (by omega) (by omega)
          · rw [recursiveToDicts_plainNests Γ hs n (by omega), recursiveToDicts_plainNests Γ hs m (by omega)]
    · cases n with
      | zero => simp [recursiveToDicts] at hw
      | succ n =>
        simp only [recursiveToDicts] at hw
        cases hc : Γ c with
        | none => simp [hc] at hw
        | some d =>
          simp only [hc] at hw
          cases ht : toDictShallow d vals false with
          | error e => simp [ht] at hw
          | ok dct =>
            simp only [ht] at hw
            obtain ⟨r, hr, rfl⟩ := Except.map_ok hw
            rw [show k + 1 + S = k + S + 1 by omega]
            refine .dict fun x hx => ?_
            obtain ⟨a, ha, _, hax⟩ := mapDictE_mem hr x hx
            rcases origin_cases (hΓ c d hc) ht a ha with ⟨q, hq, hqp⟩ | hs
            · rw [← hqp] at hax; exact (ih q hq).2 n _ hax
            · rw [recursiveToDicts_kept Γ hs hax]; exact hs.mono (by omega)

/-- `to_dict` of an instance. -/
theorem structToDict_nests {Γ : Classes} {S : Nat} (hΓ : AllModest Γ S) {d : StructDesc} (hd : ∀ f ∈ d.components, Modest S f) {k : Nat} {vals : Dict}
    (h : ∀ p ∈ vals, Nests k p.2) :
    (∀ n m, k + S + 1 ≤ n → k + S + 1 ≤ m → structToDict Γ n d vals = structToDict Γ m d vals) ∧
    ∀ n all, structToDict Γ n d vals = .ok all → ∀ p ∈ all, PlainNests (k + S) p.2 := by
  refine ⟨fun n m hn hm => ?_, fun n all ha p hp => ?_⟩
  · unfold structToDict
    cases ht : toDictShallow d vals false with
    | error e => rfl
    | ok dct =>
      simp only
      apply mapDictE_same
      intro p hp
      rcases origin_cases hd ht p hp with ⟨q, hq, hqp⟩ | hs
      · rw [← hqp]; exact (recursiveToDicts_nests hΓ (h q hq)).1 n m hn hm
      · rw [recursiveToDicts_plainNests Γ hs n (by omega), recursiveToDicts_plainNests Γ hs m (by omega)]
  · unfold structToDict at ha
    cases ht : toDictShallow d vals false with
    | error e => simp [ht] at ha
    | ok dct =>
      simp only [ht] at ha
      obtain ⟨a, ha, _, hax⟩ := mapDictE_mem ha p hp
      rcases origin_cases hd ht a ha with ⟨q, hq, hqp⟩ | hs
      · rw [← hqp] at hax; exact (recursiveToDicts_nests hΓ (h q hq)).2 n _ hax
      · rw [recursiveToDicts_kept Γ hs hax]; exact hs.mono (by omega)

theorem structToDict_plain {Γ : Classes} {S M : Nat} (hM : S ≤ M) {d : StructDesc} (hd : ∀ f ∈ d.components, Modest S f) {vals : Dict}
    (h : ∀ p ∈ vals, PlainNests M p.2) {n : Nat} (hn : M + 1 ≤ n) :
    structToDict Γ n d vals = toDictShallow d vals false ∧ ∀ all, toDictShallow d vals false = .ok all → ∀ p ∈ all, PlainNests M p.2 := by
  have key : ∀ dct, toDictShallow d vals false = .ok dct → ∀ p ∈ dct, PlainNests M p.2 := by
    intro dct ht p hp
    rcases origin_cases hd ht p hp with ⟨q, hq, hqp⟩ | hs
    · rw [← hqp]; exact h q hq
    · exact hs.mono hM
  refine ⟨?_, key⟩
  unfold structToDict
  cases ht : toDictShallow d vals false with
  | error e => rfl
  | ok dct => exact mapDictE_self fun p hp => recursiveToDicts_plainNests Γ (key dct ht p hp) n hn

/-! ### Dumping -/

theorem dumpFields_same {g g' : Field → Value → W} {all : Dict} {ctx : Value} {fs : List Field}
    (h : ∀ f ∈ fs, ∀ v, f.base.computeValueForDump all.view ctx = .ok v → g f v = g' f v) : dumpFields g all ctx fs = dumpFields g' all ctx fs := by
  induction fs with
  | nil => rfl
  | cons f fs ih =>
    simp only [dumpFields]
    rw [ih fun f' hf' => h f' (List.mem_cons_of_mem _ hf')]
    split
    · rfl
    · rename_i v hv
      rw [h f List.mem_cons_self v hv]

theorem dumpAll_same {g g' : Value → W} {l : List Value} (h : ∀ v ∈ l, g v = g' v) : dumpAll g l = dumpAll g' l := by
  induction l with
  | nil => rfl
  | cons v l ih =>
    simp only [dumpAll]
    rw [h v List.mem_cons_self, ih fun b hb => h b (List.mem_cons_of_mem _ hb)]

theorem dumpUnsized_same {g g' : Value → W} {l : List Value} (h : ∀ v ∈ l, g v = g' v) (name : String) (ne : Option Int) :
    ∀ k, dumpUnsized name g ne k l = dumpUnsized name g' ne k l := by
  induction l with
  | nil => intro k; rfl
  | cons v l ih =>
    intro k
    simp only [dumpUnsized]
    rw [h v List.mem_cons_self, ih (fun b hb => h b (List.mem_cons_of_mem _ hb)) (k + 1)]

theorem arrayDump_same {g g' : Value → W} {data : Value} (h : ∀ s l, arrayElements data = some (s, l) → ∀ v ∈ l, g v = g' v) (name : String)
    (count : Count) (all : Dict) : arrayDump name g count data all = arrayDump name g' count data all := by
  unfold arrayDump
  split
  · rfl
  · split
    · rfl
    · rename_i l hl; exact dumpUnsized_same (h _ l hl) _ _ _
    · rename_i l hl; rw [dumpAll_same (h _ l hl)]

theorem containerNullRepr_same {b : FieldBase} {g g' : Value → W} (h : g b.nullValue = g' b.nullValue) (all : Dict) :
    containerNullRepr b g all = containerNullRepr b g' all ∧ containerExpectedSize b g all = containerExpectedSize b g' all := by
  have key : ∀ e, b.nullReprWith g e = b.nullReprWith g' e := by
    intro e
    unfold FieldBase.nullReprWith
    cases hv : b.nullValue <;> simp only <;> rw [hv] at h <;> rw [h]
  unfold containerNullRepr containerExpectedSize
  rw [key, key]
  exact ⟨rfl, rfl⟩

theorem plain_elements {M : Nat} {v : Value} (hv : PlainNests M v) {s : Bool} {l : List Value} (h : arrayElements v = some (s, l)) :
    ∀ e ∈ l, PlainNests M e := by
  have str : ∀ x : List Nat, PlainNests M (.str x) := fun x => .atom (by simp) (by simp) (by simp) (by simp)
  have int : ∀ x : Int, PlainNests M (.int x) := fun x => .atom (by simp) (by simp) (by simp) (by simp)
  intro e he
  unfold arrayElements at h
  split at h
  · cases h
    cases hv with
    | atom h1 _ _ _ => exact (h1 _ rfl).elim
    | list h => exact (h e he).mono (by omega)
  · cases h
    cases hv with
    | atom _ h2 _ _ => exact (h2 _ rfl).elim
  · cases h
    obtain ⟨x, _, rfl⟩ := List.mem_map.1 he
    exact int _
  · cases h
    obtain ⟨x, _, rfl⟩ := List.mem_map.1 he
    exact str _
  · cases h
    obtain ⟨x, _, rfl⟩ := List.mem_map.1 he
    exact str _
  · cases h

/-- `_do_dump` of the field needs no more than `k` nested calls, on values that nest at most `M` levels. -/
def DumpSettled (Γ : Classes) (M k : Nat) (f : Field) : Prop :=
  ∀ n m, k + M + 1 ≤ n → k + M + 1 ≤ m → ∀ v, PlainNests M v → ∀ ctx all, fieldDoDump Γ n f v ctx all = fieldDoDump Γ m f v ctx all

theorem toStreamWith_same {b : FieldBase} {g g' : Value → W} {r r' : Except Err Bytes} {e e' : Except Err Int}
    {p : Bytes → Int → Except Err Bytes} {data : Value} (h1 : g data = g' data) (h2 : ∀ v, b.default = .ok v → g v = g' v) (h3 : r = r')
    (h4 : e = e') : toStreamWith b g r e p data = toStreamWith b g' r' e' p data := by
  subst h3 h4
  unfold toStreamWith
  split
  · rfl
  · rename_i v hv
    have : g v = g' v := by
      split at hv
      · exact h2 v hv
      · cases hv; exact h1
    rw [this]

theorem DumpSettled.stream {Γ : Classes} {S M k : Nat} {f : Field} (h : DumpSettled Γ M k f) (hS : ∀ v, Supplies f.base v → PlainNests S v)
    (hM : S ≤ M) {n m : Nat} (hn : k + M + 2 ≤ n) (hm : k + M + 2 ≤ m) {v : Value} (hv : PlainNests M v) (ctx : Value) (all : Dict) :
    fieldToStream Γ n f v ctx all = fieldToStream Γ m f v ctx all := by
  obtain ⟨n, rfl⟩ : ∃ j, n = j + 1 := ⟨n - 1, by omega⟩
  obtain ⟨m, rfl⟩ : ∃ j, m = j + 1 := ⟨m - 1, by omega⟩
  have key : ∀ w, PlainNests M w → ∀ ctx all, fieldDoDump Γ n f w ctx all = fieldDoDump Γ m f w ctx all := h n m (by omega) (by omega)
  cases f with
  | leaf b l => simp only [fieldToStream]
  | _ =>
    simp only [fieldDoDump] at key
    simp only [fieldToStream]
    have hnull := key _ ((hS _ (.inr (.inr rfl))).mono hM) .none all
    exact toStreamWith_same (key v hv ctx all) (fun w hw => key w ((hS w (.inl hw)).mono hM) ctx all)
      (containerNullRepr_same (g := fun v => containerDump Γ _ _ _ v .none all) (g' := fun v => containerDump Γ _ _ _ v .none all) hnull all).1
      (containerNullRepr_same (g := fun v => containerDump Γ _ _ _ v .none all) (g' := fun v => containerDump Γ _ _ _ v .none all) hnull all).2

/-- A struct made from a dictionary. -/
theorem structToStream_plain {Γ : Classes} {S M k : Nat} (hM : S ≤ M) {d : StructDesc} (hd : ∀ f ∈ d.components, Modest S f)
    (hk : ∀ f ∈ d.components, DumpSettled Γ M k f) {vals : Dict} (h : ∀ p ∈ vals, PlainNests M p.2) {n m : Nat} (hn : k + M + 3 ≤ n)
    (hm : k + M + 3 ≤ m) (ctx : Value) : structToStream Γ n d vals ctx = structToStream Γ m d vals ctx := by
  obtain ⟨n, rfl⟩ : ∃ j, n = j + 1 := ⟨n - 1, by omega⟩
  obtain ⟨m, rfl⟩ : ∃ j, m = j + 1 := ⟨m - 1, by omega⟩
  simp only [structToStream, structToStreamWith]
  split
  · rfl
  · rw [(structToDict_plain hM hd h (Γ := Γ) (n := n) (by omega)).1, (structToDict_plain hM hd h (Γ := Γ) (n := m) (by omega)).1]
    have hall := (structToDict_plain hM hd h (Γ := Γ) (n := n) (by omega)).2
    split
    · rfl
    · rename_i all ha
      apply dumpFields_same
      intro f hf v hv
      refine (hk f hf).stream (hd f hf).supplies hM (by omega) (by omega) ?_ ctx all
      refine computeValueForDump_src (P := PlainNests M) (fun w _ hw => ?_) (fun w hw => ((hd f hf).supplies w hw).mono hM) (.notPresent M) hv
      simp only [Dict.view] at hw
      split at hw
      · rename_i x hx; cases hw; exact hall all ha _ (mem_of_get? hx)
      · simp at hw

theorem LoadsWithin.dumpSettled {Γ : Classes} {S M : Nat} (hΓ : AllModest Γ S) (hM : S ≤ M) {k : Nat} {f : Field} (h : LoadsWithin Γ k f) :
    Modest S f → DumpSettled Γ M k f := by
  induction h with
  | leaf => intro _ n m hn hm v hv ctx all; rfl
  | @array k b comp count halt _ ih =>
    intro hf n m hn hm v hv ctx all
    cases hf with
    | array _ hc =>
      simp only [fieldDoDump, containerDump]
      refine arrayDump_same (fun s l hl e he => ?_) _ _ _
      exact (ih hc).stream hc.supplies hM (by omega) (by omega) (plain_elements hv hl e he) ctx all
  | @nested k b cls d hd _ ih =>
    intro hf n m hn hm v hv ctx all
    simp only [fieldDoDump, containerDump]
    cases hv with
    | atom h1 h2 h3 h4 =>
      cases v <;> first | rfl | exact (h3 _ rfl).elim | exact (h4 _ _ rfl).elim
    | list _ => rfl
    | @dict j kwargs h =>
      simp only [dumpNew, hd]
      split
      · rfl
      · rename_i vals hi
        have hv : vals = kwargs := by
          unfold structInit at hi
          simp only at hi
          split at hi
          · cases hi
          · cases hi; rfl
        subst hv
        exact structToStream_plain (k := k) hM (hΓ cls d hd) (fun f hf => ih f hf (hΓ cls d hd f hf)) (fun p hp => (h p hp).mono (by omega))
          (by omega) (by omega) ctx
  | @union k b choices ld dd _ _ ih1 ih2 =>
    intro hf n m hn hm v hv ctx all
    cases hf with
    | union hb hc =>
      simp only [fieldDoDump, containerDump]
      split
      · rfl
      · split
        · rfl
        · rename_i g hg
          have hg := List.mem_of_getElem? hg
          exact (ih1 g hg (hc g hg)).stream (hc g hg).supplies hM (by omega) (by omega) hv ctx all
        · rename_i cls hcls
          have := ih2 cls (List.mem_of_getElem? hcls) (.nested hb) n m (by omega) (by omega) v hv ctx all
          simp only [fieldDoDump, containerDump] at this
          cases v <;> first | rfl | exact this

/-- Dumping an instance whose values nest at most `V` levels. -/
theorem Shallow.dump {Γ : Classes} {P S V : Nat} (h : Shallow Γ P) (hΓ : AllModest Γ S) {cls : String} {d : StructDesc} (hd : Γ cls = some d)
    {vals : Dict} (hv : ∀ p ∈ vals, Nests V p.2) {n m : Nat} (hn : P + V + S + 1 ≤ n) (hm : P + V + S + 1 ≤ m) (ctx : Value) :
    structToStream Γ n d vals ctx = structToStream Γ m d vals ctx := by
  obtain ⟨k, rfl, hk⟩ := h cls d hd
  obtain ⟨n, rfl⟩ : ∃ j, n = j + 1 := ⟨n - 1, by omega⟩
  obtain ⟨m, rfl⟩ : ∃ j, m = j + 1 := ⟨m - 1, by omega⟩
  simp only [structToStream, structToStreamWith]
  split
  · rfl
  · rw [(structToDict_nests hΓ (hΓ cls d hd) hv).1 n m (by omega) (by omega)]
    split
    · rfl
    · rename_i all ha
      apply dumpFields_same
      intro f hf v hx
      have hm := hΓ cls d hd f hf
      refine ((hk f hf).dumpSettled hΓ (M := V + S) (by omega) hm).stream hm.supplies (by omega) (by omega) (by omega) ?_ ctx all
      refine computeValueForDump_src (P := PlainNests (V + S)) (fun w _ hw => ?_) (fun w hw => (hm.supplies w hw).mono (by omega))
        (.notPresent _) hx
      simp only [Dict.view] at hw
      split at hw
      · rename_i x hx; cases hw; exact (structToDict_nests hΓ (hΓ cls d hd) hv).2 m all ha _ (mem_of_get? hx)
      · simp at hw

/-! ### What was loaded -/

theorem Spec.Nests.mono {k m : Nat} {v : Value} (h : Nests k v) (hk : k ≤ m) : Nests m v := by
  induction h generalizing m with
  | atom h1 h2 h3 h4 => exact .atom h1 h2 h3 h4
  | list _ ih => obtain ⟨m, rfl⟩ : ∃ j, m = j + 1 := ⟨m - 1, by omega⟩; exact .list fun v hv => ih v hv (by omega)
  | dict _ ih => obtain ⟨m, rfl⟩ : ∃ j, m = j + 1 := ⟨m - 1, by omega⟩; exact .dict fun p hp => ih p hp (by omega)
  | struct _ ih => obtain ⟨m, rfl⟩ : ∃ j, m = j + 1 := ⟨m - 1, by omega⟩; exact .struct fun p hp => ih p hp (by omega)

theorem nests_none (k : Nat) : Nests k .none := .atom (by simp) (by simp) (by simp) (by simp)

theorem nests_atomic {v : Value} (h : Atomic v) (k : Nat) : Nests k v := by
  cases v <;> first | exact h.elim | exact .atom (by simp) (by simp) (by simp) (by simp)

theorem Spec.Regular.absent {S : Nat} {f : Field} (h : Regular S f) : PlainNests S f.base.notPresentValue := by
  cases h <;> assumption

/-- All fields of all classes are regular. -/
def AllRegular (Γ : Classes) (S : Nat) : Prop := ∀ cls d, Γ cls = some d → ∀ f ∈ d.components, Regular S f

theorem finishLoad_src {b : FieldBase} {eq : Value → Value → Except Err Bool} {v w : Value} (h : finishLoad b eq v = .ok w) : w = v ∨ w = .none := by
  unfold finishLoad at h
  split at h
  · cases h
  · rename_i isNull _
    simp only at h
    split at h
    · cases h
    · cases h
    · split at h
      · cases h
      · cases h
        cases isNull
        · exact .inl rfl
        · exact .inr rfl

theorem fromStreamWith_src {b : FieldBase} {eq : Value → Value → Except Err Bool} {nr : Except Err Bytes} {l : Stream → R Value} {s t : Stream}
    {ctx v : Value} {loaded : Dict} (h : fromStreamWith b eq nr l s ctx loaded = (.ok v, t)) :
    v = b.notPresentValue ∨ v = .none ∨ ∃ s' t', l s' = (.ok v, t') := by
  have key : ∀ s, loadAndFinish b eq l s = (.ok v, t) → v = b.notPresentValue ∨ v = .none ∨ ∃ s' t', l s' = (.ok v, t') := by
    intro s h
    unfold loadAndFinish at h
    split at h
    · cases h
    · rename_i w u hw
      rw [Prod.mk.injEq] at h
      rcases finishLoad_src h.1 with h' | h'
      · subst h'; exact .inr (.inr ⟨s, u, hw⟩)
      · exact .inr (.inl h')
  unfold fromStreamWith at h
  split at h
  · cases h
  · cases h; exact .inl rfl
  · split at h
    · split at h
      · split at h
        · split at h
          · cases h
          · exact key _ h
        · cases h
      · split at h
        · cases h
        · split at h
          · simp only at h
            split at h
            · cases h
            · cases h; exact .inr (.inl rfl)
          · exact key _ h
    · exact key _ h

theorem arrayLoop_src {halt : Stream → List Value → Except Err (Bool × List Value)} {l : Stream → R Value} {P : Value → Prop}
    (hh : ∀ s acc stop acc', halt s acc = .ok (stop, acc') → acc' = acc) (hl : ∀ s v t, l s = (.ok v, t) → P v) :
    ∀ fuel acc s r t, (∀ v ∈ acc, P v) → arrayLoop halt l fuel acc s = (.ok r, t) → ∀ v ∈ r, P v := by
  intro fuel
  induction fuel with
  | zero =>
    intro acc s r t ha h
    rw [arrayLoop.eq_def] at h
    simp only at h
    split at h
    · cases h
    · rename_i hhalt
      cases h
      rw [hh _ _ _ _ hhalt]; exact ha
    · split at h <;> cases h
  | succ fuel ih =>
    intro acc s r t ha h
    rw [arrayLoop.eq_def] at h
    simp only at h
    split at h
    · cases h
    · rename_i hhalt
      cases h
      rw [hh _ _ _ _ hhalt]; exact ha
    · rename_i acc' hhalt
      split at h
      · cases h
      · rename_i v u hv
        have he := hh _ _ _ _ hhalt
        subst he
        refine ih _ _ r t ?_ h
        split
        · exact ha
        · intro w hw
          rcases List.mem_append.1 hw with hw | hw
          · exact ha w hw
          · rw [List.mem_singleton.1 hw]; exact hl _ _ _ hv

theorem loadFields_src {g : Field → Stream → Dict → R Value} {P : Value → Prop} : ∀ (fs : List Field) (acc r : Dict) (s t : Stream),
    (∀ f ∈ fs, ∀ s a v t, g f s a = (.ok v, t) → P v) → (∀ p ∈ acc, P p.2) → loadFields g fs acc s = (.ok r, t) → ∀ p ∈ r, P p.2
  | [], acc, r, s, t, _, ha, h => by simp only [loadFields] at h; cases h; exact ha
  | f :: fs, acc, r, s, t, hg, ha, h => by
    simp only [loadFields] at h
    split at h
    · cases h
    · rename_i v u hv
      refine loadFields_src fs _ r u t (fun f' hf' => hg f' (List.mem_cons_of_mem _ hf')) ?_ h
      intro p hp
      unfold Dict.setDefault at hp
      split at hp
      · exact ha p hp
      · rcases mem_set hp with hp | rfl
        · exact ha p hp
        · exact hg f List.mem_cons_self _ _ _ _ hv

theorem structFromStreamWith_src {g : Field → Stream → Dict → R Value} {P : Value → Prop} {d : StructDesc} {s t : Stream} {kw r : Dict}
    (hg : ∀ f ∈ d.components, ∀ s a v t, g f s a = (.ok v, t) → P v) (hk : ∀ p ∈ kw, P p.2) (h : structFromStreamWith g d s kw = (.ok r, t)) :
    ∀ p ∈ r, P p.2 := by
  unfold structFromStreamWith at h
  split at h
  · cases h
  · rename_i res u hl
    split at h
    · cases h
    · rename_i vals hi
      have : vals = res := by
        unfold structInit at hi
        simp only at hi
        split at hi
        · cases hi
        · cases hi; rfl
      subst this
      split at h
      · cases h
      · cases h
        intro p hp
        exact loadFields_src d.components kw vals s _ hg hk hl p (mem_eraseAll hp)

/-- What `_do_load` returns nests at most `k + S` levels. -/
def LoadNests (Γ : Classes) (S k : Nat) (f : Field) : Prop :=
  ∀ n s ctx loaded v t, fieldDoLoad Γ n f s ctx loaded = (.ok v, t) → Nests (k + S) v

theorem LoadNests.stream {Γ : Classes} {S k : Nat} {f : Field} (h : LoadNests Γ S k f) (hf : Regular S f) {n : Nat} {s t : Stream} {ctx v : Value}
    {loaded : Dict} (hl : fieldFromStream Γ n f s ctx loaded = (.ok v, t)) : Nests (k + S) v := by
  cases n with
  | zero => simp [fieldFromStream] at hl
  | succ n =>
    rw [fieldFromStream] at hl
    rcases fromStreamWith_src hl with h' | h' | ⟨s', t', h'⟩
    · rw [h']; exact hf.absent.nests.mono (by omega)
    · rw [h']; exact nests_none _
    · exact h n s' ctx loaded v t' h'

theorem structFromStream_nests {Γ : Classes} {S k : Nat} {d : StructDesc} (h : ∀ f ∈ d.components, LoadNests Γ S k f)
    (hd : ∀ f ∈ d.components, Regular S f) {n : Nat} {s t : Stream} {ctx : Value} {r : Dict} (hl : structFromStream Γ n d s ctx [] = (.ok r, t)) :
    ∀ p ∈ r, Nests (k + S) p.2 := by
  cases n with
  | zero => simp [structFromStream] at hl
  | succ n =>
    rw [structFromStream] at hl
    exact structFromStreamWith_src (P := Nests (k + S)) (fun f hf s a v t hv => (h f hf).stream (hd f hf) hv) (by simp) hl

theorem LoadsWithin.loadNests {Γ : Classes} {S : Nat} (hΓ : AllRegular Γ S) {k : Nat} {f : Field} (h : LoadsWithin Γ k f) :
    Regular S f → LoadNests Γ S k f := by
  induction h with
  | leaf =>
    intro hf n s ctx loaded v t hl
    cases n with
    | zero => simp [fieldDoLoad] at hl
    | succ n =>
      simp only [fieldDoLoad] at hl
      cases hf with
      | leaf _ hk => exact nests_atomic (leafLoad_atomic hk hl) _
  | @array k b comp count halt _ ih =>
    intro hf n s ctx loaded v t hl
    cases n with
    | zero => simp [fieldDoLoad] at hl
    | succ n =>
      simp only [fieldDoLoad, containerLoad] at hl
      obtain ⟨l, hl', rfl⟩ := R.map_ok hl
      cases hf with
      | array _ hc hh =>
        rw [show k + 2 + S = k + 1 + S + 1 by omega]
        refine .list fun x hx => ?_
        refine arrayLoop_src (P := Nests (k + 1 + S)) ?_ ?_ n [] s l t (by simp) hl' x hx
        · intro s acc stop acc' h
          unfold haltCheck at h
          split at h
          · obtain ⟨_, _, h⟩ := Except.map_ok h
            cases h; rfl
          · rename_i h0; exact hh _ rfl _ _ _ _ _ _ h
        · intro s v t hv
          exact ((ih hc).stream hc hv).mono (by omega)
  | @nested k b cls d hd _ ih =>
    intro hf n s ctx loaded v t hl
    cases n with
    | zero => simp [fieldDoLoad] at hl
    | succ n =>
      simp only [fieldDoLoad, containerLoad, loadStruct, hd] at hl
      obtain ⟨r, hl', rfl⟩ := R.map_ok hl
      rw [show k + 3 + S = k + 2 + S + 1 by omega]
      exact .struct fun p hp =>
        (structFromStream_nests (fun f hf => ih f hf (hΓ cls d hd f hf)) (hΓ cls d hd) hl' p hp).mono (by omega)
  | @union k b choices ld dd _ _ ih1 ih2 =>
    intro hf n s ctx loaded v t hl
    cases n with
    | zero => simp [fieldDoLoad] at hl
    | succ n =>
      cases hf with
      | union hb hc =>
        simp only [fieldDoLoad, containerLoad] at hl
        split at hl
        · cases hl
        · split at hl
          · cases hl
          · rename_i g hg
            have hg := List.mem_of_getElem? hg
            exact (ih1 g hg (hc g hg) n s ctx loaded v t hl).mono (by omega)
          · rename_i cls hcls
            refine ih2 cls (List.mem_of_getElem? hcls) (.nested hb) (n + 1) s ctx loaded v t ?_
            simp only [fieldDoLoad, containerLoad]
            exact hl

/-- What a class loads. -/
theorem Shallow.loaded {Γ : Classes} {P S : Nat} (h : Shallow Γ P) (hΓ : AllRegular Γ S) {cls : String} {d : StructDesc} (hd : Γ cls = some d)
    {n : Nat} {s t : Stream} {ctx : Value} {r : Dict} (hl : structFromStream Γ n d s ctx [] = (.ok r, t)) :
    2 ≤ P ∧ ∀ p ∈ r, Nests (P - 2 + S) p.2 := by
  obtain ⟨k, rfl, hk⟩ := h cls d hd
  exact ⟨by omega, structFromStream_nests (fun f hf => (hk f hf).loadNests hΓ (hΓ cls d hd f hf)) (hΓ cls d hd) hl⟩

end Verif
