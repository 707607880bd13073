import Verif.Proofs.StructDump

/-! What `to_dict` contains. -/

namespace Verif
open Spec

theorem mapE_ok {α β : Type} {g : α → Except Err β} {l : List α} {r : List β} (h : mapE g l = .ok r) :
    r.length = l.length ∧ ∀ i (hi : i < l.length) (hi' : i < r.length), g l[i] = .ok r[i] := by
  induction l generalizing r with
  | nil => simp [mapE] at h; subst h; simp
  | cons a l ih =>
    simp only [mapE] at h
    split at h
    · simp at h
    · rename_i b hb
      split at h
      · simp at h
      · rename_i bs hbs
        simp at h; subst h
        obtain ⟨h1, h2⟩ := ih hbs
        refine ⟨by simp [h1], ?_⟩
        intro i hi hi'
        cases i with
        | zero => simpa using hb
        | succ i => simpa using h2 i (by simpa using hi) (by simpa using hi')

theorem mapDictE_ok {g : Value → Except Err Value} {d r : Dict} (h : mapDictE g d = .ok r) :
    Dict.keys r = Dict.keys d ∧ ∀ k, (Dict.get? d k = none ∧ Dict.get? r k = none) ∨
      ∃ v w, Dict.get? d k = some v ∧ Dict.get? r k = some w ∧ g v = .ok w := by
  unfold mapDictE at h
  induction d generalizing r with
  | nil => simp [mapE] at h; subst h; simp [Dict.keys, Dict.get?_nil]
  | cons p d ih =>
    simp only [mapE] at h
    split at h
    · simp at h
    · rename_i b hb
      split at h
      · simp at h
      · rename_i bs hbs
        simp at h; subst h
        obtain ⟨h1, h2⟩ := ih hbs
        have hb1 : b.1 = p.1 ∧ g p.2 = .ok b.2 := by
          cases hg : g p.2 with
          | error e => simp [hg, Except.map] at hb
          | ok w => simp [hg, Except.map] at hb; subst hb; simp
        refine ⟨by simp [Dict.keys, hb1.1] at h1 ⊢; exact h1, ?_⟩
        intro k
        rw [Dict.get?_cons, Dict.get?_cons, hb1.1]
        by_cases hk : p.1 = k
        · right; exact ⟨p.2, b.2, by simp [hk], by simp [hk], hb1.2⟩
        · simp only [hk, if_false]; exact h2 k

theorem find?_of_mem {d : StructDesc} (hd : UniqueNames d) {f : Field} (hf : f ∈ d.components) :
    d.find? f.name = some f := by
  unfold StructDesc.find?
  unfold UniqueNames names at hd
  generalize d.components = cs at *
  induction cs with
  | nil => simp at hf
  | cons c cs ih =>
    simp only [List.map_cons, List.nodup_cons] at hd
    rw [List.find?_cons]
    rcases List.mem_cons.1 hf with rfl | hf
    · simp
    · have hne : c.name ≠ f.name := by
        intro h; exact hd.1 (h ▸ List.mem_map.2 ⟨f, hf, rfl⟩)
      simp [hne]; exact ih hd.2 hf

theorem find?_some {d : StructDesc} {k : String} {f : Field} (h : d.find? k = some f) : f ∈ d.components ∧ f.name = k := by
  unfold StructDesc.find? at h
  exact ⟨List.mem_of_find?_eq_some h, by simpa using List.find?_some h⟩

theorem has_iff {d : StructDesc} {k : String} : d.has k = true ↔ k ∈ names d := by
  unfold StructDesc.has StructDesc.find? names
  rw [List.find?_isSome]; simp

theorem mem_definedKeys {vals : Dict} (hn : (Dict.keys vals).Nodup) {k : String} :
    k ∈ definedKeys vals ↔ ∃ v, Dict.get? vals k = some v ∧ v ≠ .undefined := by
  unfold definedKeys Dict.keys
  constructor
  · intro h
    obtain ⟨p, hp, rfl⟩ := List.mem_map.1 h
    rw [List.mem_filter] at hp
    exact ⟨p.2, Dict.get?_of_mem hn hp.1, by simpa using hp.2⟩
  · rintro ⟨v, h, hv⟩
    exact List.mem_map.2 ⟨(k, v), List.mem_filter.2 ⟨Dict.get?_some_mem h, by simpa using hv⟩, rfl⟩

theorem structContains_iff {vals : Dict} (hn : (Dict.keys vals).Nodup) {k : String} :
    structContains vals k = true ↔ ∃ v, Dict.get? vals k = some v ∧ v ≠ .undefined := by
  unfold structContains; rw [List.contains_iff_mem]; exact mem_definedKeys hn

theorem definedKeys_nodup {vals : Dict} (hn : (Dict.keys vals).Nodup) : (definedKeys vals).Nodup := by
  unfold definedKeys Dict.keys
  exact hn.sublist ((List.filter_sublist).map _)

theorem definedKeys_erase {vals : Dict} (hn : (Dict.keys vals).Nodup) {k : String} :
    definedKeys (Dict.erase vals k) = (definedKeys vals).erase k := by
  rw [(definedKeys_nodup hn).erase_eq_filter]
  unfold definedKeys Dict.erase Dict.keys
  clear hn
  induction vals with
  | nil => rfl
  | cons p vals ih =>
    obtain ⟨a, v⟩ := p
    by_cases h1 : a = k <;> by_cases h2 : v = .undefined <;> simp [h1, h2] at ih ⊢ <;> exact ih

theorem structGetItem_some {d : StructDesc} {vals : Dict} {k : String} {v : Value} (hk : k ∈ names d)
    (h : Dict.get? vals k = some v) : structGetItem d vals k = .ok v := by
  unfold structGetItem structGet
  have := has_iff.2 hk
  unfold StructDesc.has at this
  cases hf : d.find? k with
  | none => simp [hf] at this
  | some f => simp only [h]

theorem whateverLoop_ok {d : StructDesc} {vals : Dict} {fs : List Field} {acc dct : Dict}
    (hn : (fs.map Field.name).Nodup) (h : whateverLoop d vals fs acc = .ok dct) :
    (∀ k, k ∉ fs.map Field.name → Dict.get? dct k = Dict.get? acc k) ∧
    (∀ f ∈ fs, (∃ v, f.base.computeValueForDump (structView d vals) .none = .ok v ∧ Dict.get? dct f.name = some v) ∨
      (∃ e, f.base.computeValueForDump (structView d vals) .none = .error e ∧ e.isBinobj = true ∧
        Dict.get? dct f.name = Dict.get? acc f.name)) ∧
    ((Dict.keys acc).Nodup → (Dict.keys dct).Nodup) := by
  induction fs generalizing acc with
  | nil => simp [whateverLoop] at h; subst h; simp
  | cons f fs ih =>
    simp only [List.map_cons, List.nodup_cons] at hn
    simp only [whateverLoop] at h
    split at h
    · rename_i v hv
      obtain ⟨h1, h2, h3⟩ := ih hn.2 h
      refine ⟨?_, ?_, ?_⟩
      · intro k hk
        simp only [List.map_cons, List.mem_cons, not_or] at hk
        rw [h1 k hk.2, Dict.get?_set, if_neg (Ne.symm hk.1)]
      · intro g hg
        rcases List.mem_cons.1 hg with rfl | hg
        · left; exact ⟨v, hv, by rw [h1 _ hn.1, Dict.get?_set, if_pos rfl]⟩
        · have hne : f.name ≠ g.name := fun hx => hn.1 (hx ▸ List.mem_map.2 ⟨g, hg, rfl⟩)
          rcases h2 g hg with h2 | ⟨e, h2, h4, h5⟩
          · exact Or.inl h2
          · right; exact ⟨e, h2, h4, by rw [h5, Dict.get?_set, if_neg hne]⟩
      · intro ha; exact h3 (Dict.nodup_set ha)
    · rename_i e hv
      split at h
      · rename_i he
        obtain ⟨h1, h2, h3⟩ := ih hn.2 h
        refine ⟨?_, ?_, h3⟩
        · intro k hk
          simp only [List.map_cons, List.mem_cons, not_or] at hk
          exact h1 k hk.2
        · intro g hg
          rcases List.mem_cons.1 hg with rfl | hg
          · right; exact ⟨e, hv, he, h1 _ hn.1⟩
          · exact h2 g hg
      · simp at h

theorem whateverLoop_keys {d : StructDesc} {vals : Dict} {fs : List Field} {acc dct : Dict}
    (h : whateverLoop d vals fs acc = .ok dct) {k : String} (hk : k ∈ Dict.keys dct) :
    k ∈ Dict.keys acc ∨ k ∈ fs.map Field.name := by
  induction fs generalizing acc with
  | nil => simp [whateverLoop] at h; subst h; exact Or.inl hk
  | cons f fs ih =>
    simp only [whateverLoop] at h
    simp only [List.map_cons, List.mem_cons]
    split at h
    · rcases ih h with h1 | h1
      · rcases Dict.mem_keys_set.1 h1 with h1 | h1
        · exact Or.inr (Or.inl h1)
        · exact Or.inl h1
      · exact Or.inr (Or.inr h1)
    · split at h
      · rcases ih h with h1 | h1
        · exact Or.inl h1
        · exact Or.inr (Or.inr h1)
      · simp at h

theorem chainLoop_ok {d : StructDesc} {vals dct r : Dict} {ks : List String} (h : chainLoop d vals dct ks = .ok r) :
    Dict.keys r = ks ∧ (∀ k, k ∉ ks → Dict.get? r k = none) ∧
    ∀ k ∈ ks, ∃ v, Dict.get? r k = some v ∧
      (Dict.get? dct k = some v ∨ (Dict.get? dct k = none ∧ structGetItem d vals k = .ok v)) := by
  induction ks generalizing r with
  | nil => simp [chainLoop] at h; subst h; simp [Dict.keys, Dict.get?_nil]
  | cons k ks ih =>
    simp only [chainLoop] at h
    have key : ∀ x : Except Err Value,
        (∀ v, x = .ok v → (Dict.get? dct k = some v ∨ (Dict.get? dct k = none ∧ structGetItem d vals k = .ok v))) →
        ∀ y : Except Err Dict, y = (match x with
          | .error e => .error e
          | .ok v =>
            match chainLoop d vals dct ks with
            | .error e => .error e
            | .ok r => .ok ((k, v) :: r)) → y = .ok r →
        Dict.keys r = k :: ks ∧ (∀ k', k' ∉ k :: ks → Dict.get? r k' = none) ∧
        ∀ k' ∈ k :: ks, ∃ v, Dict.get? r k' = some v ∧
          (Dict.get? dct k' = some v ∨ (Dict.get? dct k' = none ∧ structGetItem d vals k' = .ok v)) := by
      intro x hx y hy hr
      subst hy
      split at hr
      · simp at hr
      · rename_i v
        split at hr
        · simp at hr
        · rename_i r' hr'
          simp at hr; subst hr
          obtain ⟨h1, h2, h3⟩ := ih hr'
          refine ⟨by simp [Dict.keys] at h1 ⊢; exact h1, ?_, ?_⟩
          · intro k' hk'
            simp only [List.mem_cons, not_or] at hk'
            rw [Dict.get?_cons, if_neg (fun hx => hk'.1 hx.symm), h2 k' hk'.2]
          · intro k' hk'
            rw [Dict.get?_cons]
            by_cases hkk : k = k'
            · subst hkk; exact ⟨v, by simp, hx v rfl⟩
            · rw [if_neg hkk]
              rcases List.mem_cons.1 hk' with h4 | h4
              · exact absurd h4.symm hkk
              · exact h3 k' h4
    refine key _ ?_ _ rfl h
    intro v hv
    split at hv
    · rename_i w hw; simp at hv; subst hv; exact Or.inl hw
    · rename_i hw; exact Or.inr ⟨hw, hv⟩

/-- What `_to_dict_whatever_possible` knows about a component. -/
theorem whateverPossible_get {d : StructDesc} {vals dct : Dict} (hd : UniqueNames d) (hi : Instance d vals)
    (h : whateverPossible d vals = .ok dct) :
    (Dict.keys dct).Nodup ∧ (∀ k ∈ Dict.keys dct, k ∈ names d) ∧
    ∀ f ∈ d.components,
      (∃ v, f.base.computeValueForDump (structView d vals) .none = .ok v ∧ Dict.get? dct f.name = some v) ∨
      (∃ e, f.base.computeValueForDump (structView d vals) .none = .error e ∧ e.isBinobj = true ∧
        ((structContains vals f.name = true ∧ ∃ v, Dict.get? vals f.name = some v ∧ Dict.get? dct f.name = some v) ∨
         (structContains vals f.name = false ∧ Dict.get? dct f.name = none))) := by
  unfold whateverPossible at h
  split at h
  · simp at h
  · rename_i raw hraw
    simp only at h
    obtain ⟨h1, h2, h3⟩ := whateverLoop_ok hd hraw
    obtain ⟨h4, h5, h6⟩ := chainLoop_ok h
    have hrawn : (Dict.keys raw).Nodup := h3 (by simp [Dict.keys])
    refine ⟨?_, ?_, ?_⟩
    · rw [h4, List.nodup_append]
      refine ⟨definedKeys_nodup hi.1, hrawn.filter _, ?_⟩
      intro a ha b hb hab
      subst hab
      rw [List.mem_filter] at hb
      simp [ha] at hb
    · intro k hk
      rw [h4, List.mem_append] at hk
      rcases hk with hk | hk
      · obtain ⟨v, hv, -⟩ := (mem_definedKeys hi.1).1 hk
        exact hi.2 k (Dict.get?_some_key hv)
      · rw [List.mem_filter] at hk
        rcases whateverLoop_keys hraw hk.1 with hk | hk
        · simp [Dict.keys] at hk
        · exact hk
    · intro f hf
      have hfn : f.name ∈ names d := List.mem_map.2 ⟨f, hf, rfl⟩
      have hown : f.name ∈ definedKeys vals ↔ structContains vals f.name = true := by
        unfold structContains; rw [List.contains_iff_mem]
      rcases h2 f hf with ⟨v, hv, hg⟩ | ⟨e, he, hb, hg⟩
      · left
        refine ⟨v, hv, ?_⟩
        have hmem : f.name ∈ definedKeys vals ++ (Dict.keys raw).filter (fun k => !(definedKeys vals).contains k) := by
          by_cases hc : f.name ∈ definedKeys vals
          · exact List.mem_append_left _ hc
          · refine List.mem_append_right _ (List.mem_filter.2 ⟨Dict.get?_some_key hg, by simp [hc]⟩)
        obtain ⟨w, hw, h7⟩ := h6 _ hmem
        rcases h7 with h7 | ⟨h7, -⟩
        · rw [hg] at h7; simp at h7; rw [hw, h7]
        · rw [hg] at h7; simp at h7
      · right
        refine ⟨e, he, hb, ?_⟩
        rw [Dict.get?_nil] at hg
        by_cases hc : structContains vals f.name = true
        · left; refine ⟨hc, ?_⟩
          obtain ⟨w, hw, h7⟩ := h6 _ (List.mem_append_left _ (hown.2 hc))
          obtain ⟨v, hv, -⟩ := (structContains_iff hi.1).1 hc
          refine ⟨v, hv, ?_⟩
          rcases h7 with h7 | ⟨-, h7⟩
          · rw [hg] at h7; simp at h7
          · rw [structGetItem_some hfn hv] at h7; simp at h7; rw [hw, h7]
        · right
          have hc' : structContains vals f.name = false := by simpa using hc
          refine ⟨hc', h5 _ ?_⟩
          rw [List.mem_append, not_or]
          refine ⟨fun hx => hc (hown.1 hx), ?_⟩
          rw [List.mem_filter]
          rintro ⟨hx, -⟩
          exact (Dict.get?_none_iff raw f.name).1 hg hx

theorem missingLoop_ok {dct more : Dict} {fs : List Field} (hn : (fs.map Field.name).Nodup)
    (h : missingLoop dct fs = .ok more) :
    (Dict.keys more).Nodup ∧ (∀ k ∈ Dict.keys more, k ∈ fs.map Field.name ∧ Dict.get? dct k = none) ∧
    ∀ f ∈ fs, Dict.get? dct f.name = none →
      ∃ v, f.base.computeValueForDump dct.view .none = .ok v ∧ Dict.get? more f.name = some v := by
  induction fs generalizing more with
  | nil => simp [missingLoop] at h; subst h; simp [Dict.keys]
  | cons f fs ih =>
    simp only [List.map_cons, List.nodup_cons] at hn
    simp only [missingLoop] at h
    split at h
    · rename_i hc
      obtain ⟨h1, h2, h3⟩ := ih hn.2 h
      refine ⟨h1, fun k hk => ⟨List.mem_cons_of_mem _ (h2 k hk).1, (h2 k hk).2⟩, ?_⟩
      intro g hg hgn
      rcases List.mem_cons.1 hg with rfl | hg
      · rw [Dict.contains_eq, hgn] at hc; simp at hc
      · exact h3 g hg hgn
    · rename_i hc
      have hfn : Dict.get? dct f.name = none := by
        rw [Dict.contains_eq] at hc; cases hh : Dict.get? dct f.name <;> simp_all
      split at h
      · simp at h
      · rename_i v hv
        split at h
        · simp at h
        · rename_i r hr
          simp at h; subst h
          obtain ⟨h1, h2, h3⟩ := ih hn.2 hr
          refine ⟨?_, ?_, ?_⟩
          · simp only [Dict.keys, List.map_cons, List.nodup_cons]
            exact ⟨fun hx => hn.1 (h2 _ hx).1, h1⟩
          · intro k hk
            simp only [Dict.keys, List.map_cons, List.mem_cons] at hk ⊢
            rcases hk with rfl | hk
            · exact ⟨Or.inl rfl, hfn⟩
            · exact ⟨Or.inr (h2 k hk).1, (h2 k hk).2⟩
          · intro g hg hgn
            rw [Dict.get?_cons]
            rcases List.mem_cons.1 hg with rfl | hg
            · exact ⟨v, hv, by simp⟩
            · have hne : f.name ≠ g.name := fun hx => hn.1 (hx ▸ List.mem_map.2 ⟨g, hg, rfl⟩)
              simp only [if_neg hne]
              exact h3 g hg hgn

/-- The value `to_dict` determines for a field (before conversion of nested structs). -/
def DictValue (d : StructDesc) (vals : Dict) (f : Field) (v : Value) : Prop :=
  f.base.computeValueForDump (structView d vals) .none = .ok v ∨
  ∃ e, f.base.computeValueForDump (structView d vals) .none = .error e ∧ e.isBinobj = true ∧
    ((structContains vals f.name = true ∧ Dict.get? vals f.name = some v) ∨
     (structContains vals f.name = false ∧ ∃ dct, whateverPossible d vals = .ok dct ∧
        Dict.get? dct f.name = none ∧ f.base.computeValueForDump (Dict.view dct) .none = .ok v))

theorem toDictShallow_get {d : StructDesc} {vals dct : Dict} {keep : Bool} (hd : UniqueNames d) (hi : Instance d vals)
    (h : toDictShallow d vals keep = .ok dct) :
    (Dict.keys dct).Nodup ∧ (∀ k ∈ Dict.keys dct, k ∈ names d) ∧
    ∀ f ∈ d.components,
      (keep = false ∧ f.base.discard = true ∧ Dict.get? dct f.name = none) ∨
      ((keep = true ∨ f.base.discard = false) ∧ ∃ v, DictValue d vals f v ∧ Dict.get? dct f.name = some v) := by
  unfold toDictShallow at h
  split at h
  · simp at h
  · rename_i w hw
    split at h
    · simp at h
    · rename_i more hm
      simp only at h
      obtain ⟨h1, h2, h3⟩ := whateverPossible_get hd hi hw
      obtain ⟨h4, h5, h6⟩ := missingLoop_ok hd hm
      have hup : ∀ k, Dict.get? (w.update more) k = (Dict.get? more k).or (Dict.get? w k) :=
        fun k => Dict.get?_update w more k h4
      have hall : ∀ f ∈ d.components, ∃ v, DictValue d vals f v ∧ Dict.get? (w.update more) f.name = some v := by
        intro f hf
        cases hg : Dict.get? w f.name with
        | none =>
          obtain ⟨v, hv, hmv⟩ := h6 f hf hg
          refine ⟨v, ?_, by rw [hup, hmv]; rfl⟩
          rcases h3 f hf with ⟨x, hx, hx'⟩ | ⟨e, he, hb, ⟨-, x, hx, hx'⟩ | ⟨hc, -⟩⟩
          · rw [hg] at hx'; simp at hx'
          · rw [hg] at hx'; simp at hx'
          · exact Or.inr ⟨e, he, hb, Or.inr ⟨hc, w, hw, hg, hv⟩⟩
        | some u =>
          have hmn : Dict.get? more f.name = none := by
            rw [Dict.get?_none_iff]; intro hx; rw [(h5 _ hx).2] at hg; simp at hg
          refine ⟨u, ?_, by rw [hup, hmn, hg]; rfl⟩
          rcases h3 f hf with ⟨x, hx, hx'⟩ | ⟨e, he, hb, ⟨hc, x, hx, hx'⟩ | ⟨hc, hx'⟩⟩
          · rw [hg] at hx'; simp at hx'; subst hx'; exact Or.inl hx
          · rw [hg] at hx'; simp at hx'; subst hx'; exact Or.inr ⟨e, he, hb, Or.inl ⟨hc, hx⟩⟩
          · rw [hg] at hx'; simp at hx'
      cases keep with
      | true =>
        simp at h; subst h
        refine ⟨Dict.nodup_update more h1, ?_, fun f hf => Or.inr ⟨Or.inl rfl, hall f hf⟩⟩
        intro k hk
        rcases Dict.mem_keys_update.1 hk with hk | hk
        · exact h2 k hk
        · exact (h5 k hk).1
      | false =>
        simp only [Bool.false_eq_true, if_false, Except.ok.injEq] at h
        subst h
        refine ⟨Dict.nodup_foldl_erase Field.name _ (Dict.nodup_update more h1), ?_, ?_⟩
        · intro k hk
          have hk' : k ∈ Dict.keys (w.update more) := by
            rw [← Dict.contains_iff, Dict.contains_eq] at hk ⊢
            rw [Dict.get?_foldl_erase Field.name] at hk
            split at hk
            · simp at hk
            · exact hk
          rcases Dict.mem_keys_update.1 hk' with hk | hk
          · exact h2 k hk
          · exact (h5 k hk).1
        · intro f hf
          rw [Dict.get?_foldl_erase Field.name]
          cases hdis : f.base.discard with
          | true =>
            left; refine ⟨rfl, rfl, ?_⟩
            rw [if_pos ⟨f, List.mem_filter.2 ⟨hf, hdis⟩, rfl⟩]
          | false =>
            right; refine ⟨Or.inr rfl, ?_⟩
            obtain ⟨v, hv, hg⟩ := hall f hf
            refine ⟨v, hv, ?_⟩
            rw [if_neg, hg]
            rintro ⟨g, hgm, hgn⟩
            rw [List.mem_filter] at hgm
            have h7 := find?_of_mem hd hgm.1
            rw [hgn, find?_of_mem hd hf] at h7
            simp at h7; subst h7
            rw [hdis] at hgm; simp at hgm

theorem structToDict_get {Γ : Classes} {n : Nat} {d : StructDesc} {vals all : Dict} {keep : Bool} (hd : UniqueNames d)
    (hi : Instance d vals) (h : structToDict Γ n d vals keep = .ok all) :
    (Dict.keys all).Nodup ∧ (∀ k ∈ Dict.keys all, k ∈ names d) ∧
    ∀ f ∈ d.components,
      (keep = false ∧ f.base.discard = true ∧ Dict.get? all f.name = none) ∨
      ((keep = true ∨ f.base.discard = false) ∧ ∃ v w, DictValue d vals f v ∧ recursiveToDicts Γ n v = .ok w ∧
        Dict.get? all f.name = some w) := by
  unfold structToDict at h
  split at h
  · simp at h
  · rename_i dct hdct
    obtain ⟨h1, h2, h3⟩ := toDictShallow_get hd hi hdct
    obtain ⟨h4, h5⟩ := mapDictE_ok h
    rw [h4]
    refine ⟨h1, h2, ?_⟩
    intro f hf
    rcases h3 f hf with ⟨ha, hb, hc⟩ | ⟨ha, v, hb, hc⟩
    · left; refine ⟨ha, hb, ?_⟩
      rcases h5 f.name with ⟨-, h6⟩ | ⟨x, y, h6, -⟩
      · exact h6
      · rw [hc] at h6; simp at h6
    · right; refine ⟨ha, v, ?_⟩
      rcases h5 f.name with ⟨h6, -⟩ | ⟨x, y, h6, h7, h8⟩
      · rw [hc] at h6; simp at h6
      · rw [hc] at h6; simp at h6; subst h6; exact ⟨y, hb, h8, h7⟩

theorem mapE_forall {α β : Type} {g : α → Except Err β} {P : β → Prop} {l : List α} {r : List β} (h : mapE g l = .ok r)
    (hp : ∀ a ∈ l, ∀ b, g a = .ok b → P b) : ∀ b ∈ r, P b := by
  induction l generalizing r with
  | nil => simp [mapE] at h; subst h; simp
  | cons a l ih =>
    simp only [mapE] at h
    split at h
    · simp at h
    · rename_i b hb
      split at h
      · simp at h
      · rename_i bs hbs
        simp at h; subst h
        intro x hx
        rcases List.mem_cons.1 hx with rfl | hx
        · exact hp a List.mem_cons_self x hb
        · exact ih hbs (fun y hy => hp y (List.mem_cons_of_mem _ hy)) x hx

theorem mapE_id {α : Type} {g : α → Except Err α} {l r : List α} (h : mapE g l = .ok r)
    (hp : ∀ a ∈ l, ∀ b, g a = .ok b → b = a) : r = l := by
  induction l generalizing r with
  | nil => simp [mapE] at h; exact h
  | cons a l ih =>
    simp only [mapE] at h
    split at h
    · simp at h
    · rename_i b hb
      split at h
      · simp at h
      · rename_i bs hbs
        simp at h; subst h
        rw [hp a List.mem_cons_self b hb, ih hbs fun y hy => hp y (List.mem_cons_of_mem _ hy)]

theorem Except.map_ok {α β : Type} {x : Except Err α} {g : α → β} {b : β} (h : x.map g = .ok b) :
    ∃ a, x = .ok a ∧ b = g a := by
  cases x with
  | error e => simp [Except.map] at h
  | ok a => simp [Except.map] at h; exact ⟨a, rfl, h.symm⟩

theorem view_get {dct : Dict} {k : String} {v : Value} (h : Dict.get? dct k = some v) : (Dict.view dct).get k = .ok v := by
  simp only [Dict.view, h]

theorem recursiveToDicts_spec {Γ : Classes} {n : Nat} {v w : Value} (h : recursiveToDicts Γ n v = .ok w) :
    NoStruct w ∧ (NoStruct v → w = v) := by
  induction n generalizing v w with
  | zero => simp [recursiveToDicts] at h
  | succ n ih =>
    have hmap : ∀ {dct r : Dict}, mapDictE (recursiveToDicts Γ n) dct = .ok r →
        (∀ p ∈ r, NoStruct p.2) ∧ ((∀ p ∈ dct, NoStruct p.2) → r = dct) := by
      intro dct r hr
      unfold mapDictE at hr
      refine ⟨mapE_forall hr ?_, fun hns => mapE_id hr ?_⟩
      · intro p _ q hq
        obtain ⟨x, hx, rfl⟩ := Except.map_ok hq
        exact (ih hx).1
      · intro p hp q hq
        obtain ⟨x, hx, rfl⟩ := Except.map_ok hq
        rw [(ih hx).2 (hns p hp)]
    cases v with
    | struct cls vals =>
      refine ⟨?_, fun hv => by cases hv⟩
      simp only [recursiveToDicts] at h
      split at h
      · simp at h
      · split at h
        · simp at h
        · obtain ⟨r, hr, rfl⟩ := Except.map_ok h
          exact .dict (hmap hr).1
    | dict dct =>
      simp only [recursiveToDicts] at h
      obtain ⟨r, hr, rfl⟩ := Except.map_ok h
      refine ⟨.dict (hmap hr).1, ?_⟩
      intro hv; cases hv with
      | dict hv => rw [(hmap hr).2 hv]
    | list l =>
      simp only [recursiveToDicts] at h
      obtain ⟨r, hr, rfl⟩ := Except.map_ok h
      refine ⟨.list (mapE_forall hr fun a _ b hb => (ih hb).1), ?_⟩
      intro hv; cases hv with
      | list hv => rw [mapE_id hr fun a ha b hb => (ih hb).2 (hv a ha)]
    | _ =>
      simp only [recursiveToDicts, Except.ok.injEq] at h
      subst h
      exact ⟨by constructor, fun _ => rfl⟩

/-- Conversion does not turn anything into one of the markers. -/
theorem recursiveToDicts_marker {Γ : Classes} {n : Nat} {v w : Value} (h : recursiveToDicts Γ n v = .ok w) :
    (w = .notPresent → v = .notPresent) ∧ (w = .undefined → v = .undefined) ∧ (w = .none ↔ v = .none) ∧
      (w = .dflt → v = .dflt) := by
  cases n with
  | zero => simp [recursiveToDicts] at h
  | succ n =>
    cases v with
    | struct cls vals =>
      simp only [recursiveToDicts] at h
      split at h
      · simp at h
      · split at h
        · simp at h
        · obtain ⟨r, hr, rfl⟩ := Except.map_ok h; simp
    | dict dct => simp only [recursiveToDicts] at h; obtain ⟨r, hr, rfl⟩ := Except.map_ok h; simp
    | list l => simp only [recursiveToDicts] at h; obtain ⟨r, hr, rfl⟩ := Except.map_ok h; simp
    | _ => simp only [recursiveToDicts, Except.ok.injEq] at h; subst h; simp

theorem Parts.split {Γ : Classes} {n : Nat} {ctx : Value} {all : Dict} {pre post : List Field} {f : Field}
    {ps : List Bytes} (h : Parts Γ n ctx all (pre ++ f :: post) ps) :
    ∃ as p cs, ps = as ++ p :: cs ∧ Parts Γ n ctx all pre as ∧ Part Γ n ctx all f p ∧ Parts Γ n ctx all post cs := by
  induction pre generalizing ps with
  | nil => cases h with | cons h1 h2 => exact ⟨[], _, _, rfl, .nil, h1, h2⟩
  | cons g pre ih =>
    cases h with
    | cons h1 h2 =>
      obtain ⟨as, p, cs, rfl, h3, h4, h5⟩ := ih h2
      exact ⟨_ :: as, p, cs, rfl, .cons h1 h3, h4, h5⟩

/-- The contribution of one component to a successful dump. -/
theorem structToStream_part {Γ : Classes} {n : Nat} {d : StructDesc} {vals : Dict} {ctx : Value} {bs : Bytes}
    {pre post : List Field} {f : Field} (h : structToStream Γ (n + 1) d vals ctx = (bs, .ok ()))
    (hf : d.components = pre ++ f :: post) :
    ∃ all as p cs, structToDict Γ n d vals = .ok all ∧ bs = as.flatten ++ p ++ cs.flatten ∧ Parts Γ n ctx all pre as ∧
      Part Γ n ctx all f p ∧ Parts Γ n ctx all post cs := by
  obtain ⟨-, all, ha, ps, hps, rfl⟩ := structToStream_ok_iff.1 h
  rw [hf] at hps
  obtain ⟨as, p, cs, rfl, h3, h4, h5⟩ := Parts.split hps
  exact ⟨all, as, p, cs, ha, by simp, h3, h4, h5⟩

end Verif
