import Verif.Spec.Rebuild
import Verif.Proofs.ToDict

/-! # Helper lemmas: `to_dict` of a struct rebuilt from its dictionary -/
namespace Verif
open Verif.Spec

theorem Dict.ext_of_keys {a b : Dict} (hk : Dict.keys a = Dict.keys b) (hn : (Dict.keys b).Nodup)
    (hg : ∀ k ∈ Dict.keys b, Dict.get? a k = Dict.get? b k) : a = b := by
  induction b generalizing a with
  | nil => cases a with
    | nil => rfl
    | cons p a => simp [Dict.keys] at hk
  | cons q b ih =>
    cases a with
    | nil => simp [Dict.keys] at hk
    | cons p a =>
      simp only [Dict.keys, List.map_cons, List.cons.injEq, List.nodup_cons, List.mem_cons] at hk hn hg
      have h1 := hg q.1 (Or.inl rfl)
      rw [Dict.get?_cons, Dict.get?_cons, if_pos hk.1, if_pos rfl] at h1
      have hpq : p = q := Prod.ext hk.1 (by simpa using h1)
      subst hpq
      congr 1
      refine ih hk.2 hn.2 fun k hm => ?_
      have h2 := hg k (Or.inr hm)
      have hne : p.1 ≠ k := fun hx => hn.1 (hx ▸ hm)
      rwa [Dict.get?_cons, Dict.get?_cons, if_neg hne, if_neg hne] at h2

theorem computeValueForDump_ne_undefined {b : FieldBase} {all : View} {ctx v : Value}
    (h : b.computeValueForDump all ctx = .ok v) : v ≠ .undefined := by
  unfold FieldBase.computeValueForDump at h
  simp only at h
  split at h
  · simp at h
  · split at h
    · simp at h; subst h; simp
    · split at h
      · simp at h
      · simp at h; subst h; simp
      · split at h
        · simp at h
        · rename_i hu; simp at h; subst h; exact hu

theorem DictValue.ne_undefined {d : StructDesc} {vals : Dict} {f : Field} {v : Value} (hi : Instance d vals)
    (h : DictValue d vals f v) : v ≠ .undefined := by
  rcases h with h | ⟨e, -, -, ⟨h1, h2⟩ | ⟨-, dct, -, -, h⟩⟩
  · exact computeValueForDump_ne_undefined h
  · obtain ⟨w, hw, hne⟩ := (structContains_iff hi.1).1 h1
    rw [h2] at hw; simp at hw; subst hw; exact hne
  · exact computeValueForDump_ne_undefined h

theorem whateverLoop_total {d : StructDesc} {vals : Dict} {fs : List Field} (acc : Dict)
    (h : ∀ f ∈ fs, ∃ v, f.base.computeValueForDump (structView d vals) .none = .ok v) :
    ∃ dct, whateverLoop d vals fs acc = .ok dct := by
  induction fs generalizing acc with
  | nil => exact ⟨acc, rfl⟩
  | cons f fs ih =>
    obtain ⟨v, hv⟩ := h f (List.mem_cons_self ..)
    obtain ⟨dct, hd⟩ := ih (acc.set f.name v) fun g hg => h g (List.mem_cons_of_mem _ hg)
    exact ⟨dct, by simp only [whateverLoop, hv, hd]⟩

theorem chainLoop_total {d : StructDesc} {vals dct : Dict} {ks : List String} (h : ∀ k ∈ ks, k ∈ Dict.keys dct) :
    ∃ r, chainLoop d vals dct ks = .ok r := by
  induction ks with
  | nil => exact ⟨[], rfl⟩
  | cons k ks ih =>
    obtain ⟨r, hr⟩ := ih fun k hk => h k (List.mem_cons_of_mem _ hk)
    have hk := h k (List.mem_cons_self ..)
    cases hg : Dict.get? dct k with
    | none => exact absurd hk ((Dict.get?_none_iff _ _).1 hg)
    | some v => exact ⟨(k, v) :: r, by simp only [chainLoop, hg, hr]⟩

theorem missingLoop_complete {dct : Dict} {fs : List Field} (h : ∀ f ∈ fs, f.name ∈ Dict.keys dct) :
    missingLoop dct fs = .ok [] := by
  induction fs with
  | nil => rfl
  | cons f fs ih =>
    have := (Dict.contains_iff dct f.name).2 (h f (List.mem_cons_self ..))
    simp only [missingLoop, this, if_true]
    exact ih fun g hg => h g (List.mem_cons_of_mem _ hg)

theorem definedKeys_all {T : Dict} (h : ∀ p ∈ T, p.2 ≠ .undefined) : definedKeys T = Dict.keys T := by
  unfold definedKeys
  rw [List.filter_eq_self.2]
  intro p hp; simpa using h p hp

/-- A struct holding a complete dictionary has that dictionary. -/
theorem toDictShallow_self {d : StructDesc} {T : Dict} {keep : Bool} (hd : UniqueNames d) (hi : Instance d T)
    (hu : ∀ p ∈ T, p.2 ≠ .undefined) (hdis : ∀ f ∈ d.components, Dict.get? T f.name = none ↔ keep = false ∧ f.base.discard = true)
    (hp : StillPresent d T) (hr : Recoverable d T) : toDictShallow d T keep = .ok T := by
  have hdef := definedKeys_all hu
  have hcomp : ∀ f ∈ d.components, ∃ v, f.base.computeValueForDump (structView d T) .none = .ok v ∧
      (∀ w, Dict.get? T f.name = some w → v = w) := by
    intro f hf
    cases hg : Dict.get? T f.name with
    | none =>
      obtain ⟨v, hv⟩ := hr f hf hg
      exact ⟨v, hv, by simp⟩
    | some w =>
      have hwu : w ≠ .undefined := hu (f.name, w) (Dict.get?_some_mem hg)
      have hc : (structView d T).contains f.base.name = true := by
        simp only [structView, structContains, List.contains_iff_mem, hdef]
        exact Dict.get?_some_key hg
      have hget : (structView d T).get f.base.name = .ok w :=
        structGetItem_some (List.mem_map.2 ⟨f, hf, rfl⟩) hg
      refine ⟨w, ?_, by simp⟩
      unfold FieldBase.computeValueForDump
      simp only [hc, hget, if_true]
      by_cases hw : w = .notPresent
      · simp only [hw, if_true]
      · simp only [hw, if_false, hp f hf w hg hw, hwu]
  obtain ⟨raw, hraw⟩ := whateverLoop_total (d := d) (vals := T) (fs := d.components) [] fun f hf => by
    obtain ⟨v, hv, -⟩ := hcomp f hf; exact ⟨v, hv⟩
  obtain ⟨-, h2, h3⟩ := whateverLoop_ok hd hraw
  have hrawn : (Dict.keys raw).Nodup := h3 (by simp [Dict.keys])
  have hrk : ∀ f ∈ d.components, ∃ v, Dict.get? raw f.name = some v ∧ ∀ w, Dict.get? T f.name = some w → v = w := by
    intro f hf
    obtain ⟨v, hv, hw⟩ := hcomp f hf
    rcases h2 f hf with ⟨v', hv', hg⟩ | ⟨e, he, -, -⟩
    · rw [hv] at hv'; simp at hv'; subst hv'; exact ⟨v, hg, hw⟩
    · rw [hv] at he; simp at he
  have hrmem : ∀ k ∈ names d, k ∈ Dict.keys raw := by
    intro k hk
    obtain ⟨f, hf, rfl⟩ := List.mem_map.1 hk
    obtain ⟨v, hv, -⟩ := hrk f hf
    exact Dict.get?_some_key hv
  have hraw' : ∀ k ∈ Dict.keys raw, k ∈ names d := by
    intro k hk
    rcases whateverLoop_keys hraw hk with hk | hk
    · simp [Dict.keys] at hk
    · exact hk
  obtain ⟨r, hr'⟩ := chainLoop_total (d := d) (vals := T) (dct := raw)
    (ks := Dict.keys T ++ (Dict.keys raw).filter fun k => !(Dict.keys T).contains k) (by
      intro k hk
      rcases List.mem_append.1 hk with hk | hk
      · exact hrmem k (hi.2 k hk)
      · exact (List.mem_filter.1 hk).1)
  obtain ⟨h4, -, h6⟩ := chainLoop_ok hr'
  have hrT : ∀ k ∈ Dict.keys T, Dict.get? r k = Dict.get? T k := by
    intro k hk
    obtain ⟨f, hf, rfl⟩ := List.mem_map.1 (hi.2 k hk)
    obtain ⟨v, hv, h7⟩ := h6 _ (List.mem_append_left _ hk)
    obtain ⟨x, hx, hxw⟩ := hrk f hf
    cases hg : Dict.get? T f.name with
    | none => exact absurd hk ((Dict.get?_none_iff _ _).1 hg)
    | some w =>
      rcases h7 with h7 | ⟨h7, -⟩
      · rw [hx] at h7; simp at h7; rw [hv, ← h7, hxw w hg]
      · rw [hx] at h7; simp at h7
  have hrall : ∀ f ∈ d.components, f.name ∈ Dict.keys r := by
    intro f hf
    rw [h4]
    by_cases hk : f.name ∈ Dict.keys T
    · exact List.mem_append_left _ hk
    · exact List.mem_append_right _ (List.mem_filter.2 ⟨hrmem _ (List.mem_map.2 ⟨f, hf, rfl⟩), by simp [hk]⟩)
  have hwp : whateverPossible d T = .ok r := by
    simp only [whateverPossible, hraw, hdef, hr']
  simp only [toDictShallow, hwp, missingLoop_complete hrall, Dict.update, List.foldl_nil]
  have hrn : (Dict.keys r).Nodup := by
    rw [h4, List.nodup_append]
    refine ⟨hi.1, hrawn.filter _, ?_⟩
    intro a ha b hb hab
    subst hab
    rw [List.mem_filter] at hb
    simp [ha] at hb
  congr 1
  cases keep with
  | true =>
    simp only [if_true]
    have hnil : (Dict.keys raw).filter (fun k => !(Dict.keys T).contains k) = [] := by
      rw [List.filter_eq_nil_iff]
      intro k hk
      obtain ⟨f, hf, rfl⟩ := List.mem_map.1 (hraw' k hk)
      have : Dict.get? T f.name ≠ none := fun hx => by simpa using (hdis f hf).1 hx
      have : f.name ∈ Dict.keys T := by
        rw [Ne, Dict.get?_none_iff] at this; simpa using this
      simp [this]
    rw [hnil, List.append_nil] at h4
    exact Dict.ext_of_keys h4 hi.1 hrT
  | false =>
    simp only [Bool.false_eq_true, if_false]
    have hfold : ∀ (fs : List Field) (x : Dict), Dict.keys (fs.foldl (fun x f => x.erase f.name) x) =
        (Dict.keys x).filter fun k => !(fs.map Field.name).contains k := by
      intro fs
      induction fs with
      | nil => intro x; simp; exact (List.filter_eq_self.2 (by simp)).symm
      | cons f fs ih =>
        intro x
        rw [List.foldl_cons, ih, Dict.keys_erase, List.filter_filter]
        apply List.filter_congr
        intro k _
        by_cases hk : k = f.name <;> simp [hk]
    have hmemd : ∀ k, k ∈ ((d.components.filter (·.base.discard)).map Field.name) →
        ∃ f ∈ d.components, f.base.discard = true ∧ f.name = k := by
      intro k hk
      obtain ⟨f, hf, rfl⟩ := List.mem_map.1 hk
      have := List.mem_filter.1 hf
      exact ⟨f, this.1, by simpa using this.2, rfl⟩
    have hnotd : ∀ k ∈ Dict.keys T, k ∉ ((d.components.filter (·.base.discard)).map Field.name) := by
      intro k hk hx
      obtain ⟨f, hf, hdf, rfl⟩ := hmemd k hx
      exact (Dict.get?_none_iff _ _).1 ((hdis f hf).2 ⟨rfl, hdf⟩) hk
    apply Dict.ext_of_keys
    · rw [hfold, h4, List.filter_append]
      rw [List.filter_eq_self.2, List.filter_eq_nil_iff.2, List.append_nil]
      · intro k hk
        rw [List.mem_filter] at hk
        obtain ⟨f, hf, rfl⟩ := List.mem_map.1 (hraw' k hk.1)
        have hnT : f.name ∉ Dict.keys T := by simpa using hk.2
        have := (hdis f hf).1 ((Dict.get?_none_iff _ _).2 hnT)
        have hm : f.name ∈ ((d.components.filter (·.base.discard)).map Field.name) :=
          List.mem_map.2 ⟨f, List.mem_filter.2 ⟨hf, this.2⟩, rfl⟩
        rw [List.contains_iff_mem.2 hm]; simp
      · intro k hk
        simpa using hnotd k hk
    · exact hi.1
    · intro k hk
      rw [Dict.get?_foldl_erase Field.name, if_neg, hrT k hk]
      rintro ⟨f, hf, rfl⟩
      exact hnotd _ hk (List.mem_map.2 ⟨f, hf, rfl⟩)

theorem mapE_idem {α : Type} {g : α → Except Err α} {l r : List α} (h : mapE g l = .ok r)
    (hg : ∀ a ∈ l, ∀ b, g a = .ok b → g b = .ok b) : mapE g r = .ok r := by
  induction l generalizing r with
  | nil => simp [mapE] at h; subst h; rfl
  | cons a l ih =>
    simp only [mapE] at h
    split at h
    · simp at h
    · rename_i b hb
      split at h
      · simp at h
      · rename_i bs hbs
        simp at h; subst h
        simp only [mapE, hg a (List.mem_cons_self ..) b hb, ih hbs fun x hx => hg x (List.mem_cons_of_mem _ hx)]

theorem mapDictE_idem {g : Value → Except Err Value} {l r : Dict} (h : mapDictE g l = .ok r)
    (hg : ∀ a b, g a = .ok b → g b = .ok b) : mapDictE g r = .ok r := by
  refine mapE_idem h ?_
  intro a _ b hb
  obtain ⟨x, hx, rfl⟩ := Except.map_ok hb
  simp only [hg _ _ hx, Except.map]

theorem recursiveToDicts_again {Γ : Classes} {n : Nat} {v w : Value} (h : recursiveToDicts Γ n v = .ok w) :
    recursiveToDicts Γ n w = .ok w := by
  induction n generalizing v w with
  | zero => simp [recursiveToDicts] at h
  | succ n ih =>
    have hd : ∀ {l r : Dict}, mapDictE (recursiveToDicts Γ n) l = .ok r →
        recursiveToDicts Γ (n + 1) (.dict r) = .ok (.dict r) := fun hr => by
      simp only [recursiveToDicts, mapDictE_idem hr fun a b hab => ih hab, Except.map]
    cases v with
    | struct cls vals =>
      simp only [recursiveToDicts] at h
      split at h
      · simp at h
      · split at h
        · simp at h
        · obtain ⟨r, hr, rfl⟩ := Except.map_ok h
          exact hd hr
    | dict dct =>
      simp only [recursiveToDicts] at h
      obtain ⟨r, hr, rfl⟩ := Except.map_ok h
      exact hd hr
    | list l =>
      simp only [recursiveToDicts] at h
      obtain ⟨r, hr, rfl⟩ := Except.map_ok h
      simp only [recursiveToDicts, mapE_idem hr fun a _ b hab => ih hab, Except.map]
    | _ => simp only [recursiveToDicts, Except.ok.injEq] at h; subst h; simp only [recursiveToDicts]

theorem structToDict_self {Γ : Classes} {n : Nat} {d : StructDesc} {vals T : Dict} {keep : Bool} (hd : UniqueNames d)
    (hi : Instance d vals) (h : structToDict Γ n d vals keep = .ok T) (hp : StillPresent d T) (hr : Recoverable d T) :
    Instance d T ∧ structToDict Γ n d T keep = .ok T := by
  obtain ⟨h1, h2, h3⟩ := structToDict_get hd hi h
  have hiT : Instance d T := ⟨h1, h2⟩
  refine ⟨hiT, ?_⟩
  have hs : toDictShallow d T keep = .ok T := by
    refine toDictShallow_self hd hiT ?_ ?_ hp hr
    · intro p hpm hpu
      obtain ⟨f, hf, hfn⟩ := List.mem_map.1 (h2 p.1 (List.mem_map.2 ⟨p, hpm, rfl⟩))
      have hg : Dict.get? T f.name = some p.2 := by rw [hfn]; exact Dict.get?_of_mem h1 hpm
      rcases h3 f hf with ⟨-, -, h4⟩ | ⟨-, v, w, hv, hw, h4⟩
      · rw [hg] at h4; simp at h4
      · rw [hg] at h4; simp at h4
        exact hv.ne_undefined hi ((recursiveToDicts_marker hw).2.1 (h4 ▸ hpu))
    · intro f hf
      rcases h3 f hf with ⟨h4, h5, h6⟩ | ⟨h4, v, w, -, -, h6⟩
      · simp [h4, h5, h6]
      · rw [h6]; rcases h4 with h4 | h4 <;> simp [h4]
  have hm : mapDictE (recursiveToDicts Γ n) T = .ok T := by
    unfold structToDict at h
    split at h
    · simp at h
    · exact mapDictE_idem h fun a b hab => recursiveToDicts_again hab
  simp only [structToDict, hs, hm]

theorem mapDictE_erase {g : Value → Except Err Value} {l r : Dict} (h : mapDictE g l = .ok r) (k : String) :
    mapDictE g (l.erase k) = .ok (r.erase k) := by
  induction l generalizing r with
  | nil => simp [mapDictE, mapE] at h; subst h; rfl
  | cons p l ih =>
    simp only [mapDictE, mapE] at h
    split at h
    · simp at h
    · rename_i q hq
      split at h
      · simp at h
      · rename_i r' hr'
        simp at h; subst h
        have hq1 : q.1 = p.1 := by obtain ⟨x, -, rfl⟩ := Except.map_ok hq; rfl
        have := ih (r := r') hr'
        by_cases hk : p.1 = k
        · simpa [Dict.erase, hk, hq1] using this
        · simp only [Dict.erase, hk, hq1, ne_eq, not_false_eq_true, decide_true, List.filter_cons_of_pos]
          simp only [mapDictE, mapE, hq]
          simp only [mapDictE, Dict.erase] at this
          simp only [this]

/-- `to_dict()` is `to_dict(keep_discardable=True)` without the discardable fields. -/
theorem structToDict_discard {Γ : Classes} {n : Nat} {d : StructDesc} {vals T : Dict}
    (h : structToDict Γ n d vals true = .ok T) :
    structToDict Γ n d vals false = .ok ((d.components.filter (·.base.discard)).foldl (fun x f => x.erase f.name) T) := by
  unfold structToDict toDictShallow at h ⊢
  split at h
  · simp at h
  · rename_i S hS
    split at hS
    · simp at hS
    · split at hS
      · simp at hS
      · simp only [if_true, Except.ok.injEq] at hS
        subst hS
        simp only [Bool.false_eq_true, if_false]
        have : ∀ (fs : List Field) {a b : Dict}, mapDictE (recursiveToDicts Γ n) a = .ok b →
            mapDictE (recursiveToDicts Γ n) (fs.foldl (fun x f => x.erase f.name) a) =
              .ok (fs.foldl (fun x f => x.erase f.name) b) := by
          intro fs
          induction fs with
          | nil => intro a b hab; exact hab
          | cons f fs ih => intro a b hab; exact ih (mapDictE_erase hab f.name)
        exact this _ h

end Verif
