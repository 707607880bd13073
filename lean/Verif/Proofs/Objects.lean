import Verif.Spec.Objects

/-! Helper lemmas: objects and references. -/

namespace Verif
open Spec

/-! ### Growing a store -/

/-- A reference is immutable, or allowed, or to an object created since. -/
def Good (P : Nat → Prop) (k : Nat) (σ : Store) (r : Ref) : Prop := ∀ l, r = .obj l → P l ∨ (k ≤ l ∧ l < σ.length)

/-- The store has grown; the new objects refer to allowed objects and to new ones only. -/
structure Grown (P : Nat → Prop) (σ₀ σ : Store) : Prop where
  pre : σ₀ <+: σ
  refs : ∀ l o, σ₀.length ≤ l → σ[l]? = some o → ∀ r ∈ refsOf o, Good P σ₀.length σ r

theorem Good.mono {P : Nat → Prop} {k : Nat} {σ τ : Store} {r : Ref} (h : Good P k σ r) (hp : σ <+: τ) : Good P k τ r := by
  intro l hl
  rcases h l hl with h | ⟨h1, h2⟩
  · exact Or.inl h
  · exact Or.inr ⟨h1, by have := hp.length_le; omega⟩

theorem Grown.refl (P : Nat → Prop) (σ : Store) : Grown P σ σ :=
  ⟨List.prefix_rfl, fun l o hl ho => by
    have := (List.getElem?_eq_some_iff.1 ho).1
    omega⟩

theorem get_of_prefix {σ τ : Store} (h : σ <+: τ) {l : Nat} (hl : l < σ.length) : τ[l]? = σ[l]? := by
  obtain ⟨x, rfl⟩ := h
  exact List.getElem?_append_left hl

theorem Grown.new {P : Nat → Prop} {σ₀ σ : Store} (h : Grown P σ₀ σ) {o : Obj} (ho : ∀ r ∈ refsOf o, Good P σ₀.length σ r) :
    Grown P σ₀ (σ.new o).1 ∧ σ <+: (σ.new o).1 ∧ Good P σ₀.length (σ.new o).1 (σ.new o).2 := by
  have hp : σ <+: σ ++ [o] := List.prefix_append _ _
  refine ⟨⟨h.pre.trans hp, ?_⟩, hp, ?_⟩
  · intro l o' hl ho' r hr
    simp only [Store.new] at ho' ⊢
    by_cases hlt : l < σ.length
    · rw [get_of_prefix hp hlt] at ho'
      exact (h.refs l o' hl ho' r hr).mono hp
    · have hle := (List.getElem?_eq_some_iff.1 ho').1
      simp at hle
      have he : l = σ.length := by omega
      subst he
      simp at ho'
      subst ho'
      exact (ho r hr).mono hp
  · intro l hl
    simp only [Store.new, Ref.obj.injEq] at hl ⊢
    subst hl
    exact Or.inr ⟨h.pre.length_le, by simp⟩

theorem mapRefs_grown {P Q : Nat → Prop} {σ₀ : Store} {g : Store → Ref → Except Err (Store × Ref)}
    (hg : ∀ σ r σ' r', Grown P σ₀ σ → (∀ l, r = .obj l → Q l) → g σ r = .ok (σ', r') →
      Grown P σ₀ σ' ∧ σ <+: σ' ∧ Good P σ₀.length σ' r') :
    ∀ rs σ σ' rs', Grown P σ₀ σ → (∀ l, .obj l ∈ rs → Q l) → mapRefs g σ rs = .ok (σ', rs') →
      Grown P σ₀ σ' ∧ σ <+: σ' ∧ ∀ r ∈ rs', Good P σ₀.length σ' r := by
  intro rs
  induction rs with
  | nil =>
    intro σ σ' rs' h _ hm
    simp only [mapRefs, Except.ok.injEq, Prod.mk.injEq] at hm
    obtain ⟨rfl, rfl⟩ := hm
    exact ⟨h, List.prefix_rfl, by simp⟩
  | cons r rs ih =>
    intro σ σ' rs' h hQ hm
    simp only [mapRefs] at hm
    split at hm
    · simp at hm
    · rename_i σ1 r1 h1
      split at hm
      · simp at hm
      · rename_i σ2 rs2 h2
        simp only [Except.ok.injEq, Prod.mk.injEq] at hm
        obtain ⟨rfl, rfl⟩ := hm
        obtain ⟨h3, h4, h5⟩ := hg σ r σ1 r1 h (fun l hl => hQ l (by simp [hl])) h1
        obtain ⟨h6, h7, h8⟩ := ih σ1 σ2 rs2 h3 (fun l hl => hQ l (by simp [hl])) h2
        refine ⟨h6, h4.trans h7, ?_⟩
        intro r' hr'
        rcases List.mem_cons.1 hr' with rfl | hr'
        · exact h5.mono h7
        · exact h8 r' hr'

/-! ### Dictionaries of references -/

theorem refSet_mem {d : List (String × Ref)} {k : String} {r : Ref} {p : String × Ref} (h : p ∈ refSet d k r) : p ∈ d ∨ p.2 = r := by
  induction d with
  | nil => simp [refSet] at h; simp [h]
  | cons q t ih =>
    obtain ⟨k', r'⟩ := q
    simp only [refSet] at h
    split at h
    · rcases List.mem_cons.1 h with rfl | h
      · exact Or.inr rfl
      · exact Or.inl (List.mem_cons_of_mem _ h)
    · rcases List.mem_cons.1 h with rfl | h
      · exact Or.inl List.mem_cons_self
      · rcases ih h with h | h
        · exact Or.inl (List.mem_cons_of_mem _ h)
        · exact Or.inr h

theorem refErase_mem {d : List (String × Ref)} {k : String} {p : String × Ref} (h : p ∈ refErase d k) : p ∈ d := (List.mem_filter.1 h).1

theorem lookup_mem {d : List (String × Ref)} {k : String} {r : Ref} (h : d.lookup k = some r) : r ∈ d.map (·.2) := by
  induction d with
  | nil => simp at h
  | cons p t ih =>
    obtain ⟨k', r'⟩ := p
    rw [List.lookup_cons] at h
    split at h
    · simp at h; subst h; simp
    · exact List.mem_map.2 (by
        obtain ⟨q, h1, h2⟩ := List.mem_map.1 (ih h)
        exact ⟨q, List.mem_cons_of_mem _ h1, h2⟩)

theorem refDefined_mem {vals : List (String × Ref)} {p : String × Ref} (h : p ∈ refDefined vals) : p ∈ vals := (List.mem_filter.1 h).1

theorem objWhatever_mem {c : ObjClass} {vals : List (String × Ref)} {S : Ref → Prop} (hv : ∀ r ∈ vals.map (·.2), S r) (hd : ∀ name, S (c.defaults name)) :
    ∀ fs acc, (∀ p ∈ acc, S p.2) → ∀ p ∈ objWhatever c vals fs acc, S p.2 := by
  intro fs
  induction fs with
  | nil => intro acc h; exact h
  | cons f fs ih =>
    intro acc h
    simp only [objWhatever]
    split
    · rename_i r hr
      refine ih _ fun p hp => ?_
      rcases refSet_mem hp with hp | hp
      · exact h p hp
      · rw [hp]
        obtain ⟨q, hq1, hq2⟩ := List.mem_map.1 (lookup_mem hr)
        exact hv r (List.mem_map.2 ⟨q, refDefined_mem hq1, hq2⟩)
    · split
      · exact ih _ h
      · refine ih _ fun p hp => ?_
        rcases refSet_mem hp with hp | hp
        · exact h p hp
        · rw [hp]; exact hd _

theorem foldl_refErase_mem {fs : List Field} : ∀ {dct : List (String × Ref)} {p : String × Ref},
    p ∈ fs.foldl (fun dct f => refErase dct f.name) dct → p ∈ dct := by
  induction fs with
  | nil => intro dct p h; exact h
  | cons f fs ih => intro dct p h; exact refErase_mem (ih h)

theorem objShallow_mem {c : ObjClass} {vals dct : List (String × Ref)} {keep : Bool} {S : Ref → Prop} (hv : ∀ r ∈ vals.map (·.2), S r)
    (hd : ∀ name, S (c.defaults name)) (h : objShallow c vals keep = .ok dct) : ∀ r ∈ dct.map (·.2), S r := by
  have hw := objWhatever_mem hv hd c.desc.components [] (by simp)
  have hc : ∀ p ∈ objChain vals (objWhatever c vals c.desc.components []), S p.2 := by
    intro p hp
    simp only [objChain, List.mem_append, List.mem_map, List.mem_filter] at hp
    rcases hp with ⟨q, hq, rfl⟩ | ⟨hp, -⟩
    · simp only
      cases hl : (objWhatever c vals c.desc.components []).lookup q.1 with
      | none => exact hv _ (List.mem_map.2 ⟨q, refDefined_mem hq, rfl⟩)
      | some r =>
        obtain ⟨p', h1, h2⟩ := List.mem_map.1 (lookup_mem hl)
        simp only [Option.getD_some, ← h2]
        exact hw p' h1
    · exact hw p hp
  simp only [objShallow] at h
  split at h
  · simp at h
  · simp only [Except.ok.injEq] at h
    subst h
    intro r hr
    obtain ⟨p, hp, rfl⟩ := List.mem_map.1 hr
    split at hp
    · exact hc p hp
    · exact hc p (foldl_refErase_mem hp)

theorem zip_snd_mem {ks : List String} {rs : List Ref} {r : Ref} (h : r ∈ (ks.zip rs).map (·.2)) : r ∈ rs := by
  obtain ⟨p, hp, rfl⟩ := List.mem_map.1 h
  exact (List.of_mem_zip hp).2

/-! ### `to_dict` -/

/-- The allowed old objects in the result of `to_dict`. -/
def OldBytes (σ₀ : Store) (Q : Nat → Prop) (l : Nat) : Prop := Q l ∧ ∃ b, σ₀[l]? = some (.bytearray b)

theorem objToDicts_grown {C : ObjClasses} {Q : Nat → Prop} {σ₀ : Store} (hin : ∀ l, Q l → l < σ₀.length)
    (hcl : ∀ l o, Q l → σ₀[l]? = some o → ∀ l', .obj l' ∈ refsOf o → Q l')
    (hd : ∀ cls c, C cls = some c → ∀ name l, c.defaults name = .obj l → Q l) :
    ∀ n σ r σ' r', Grown (OldBytes σ₀ Q) σ₀ σ → (∀ l, r = .obj l → Q l) → objToDicts C n σ r = .ok (σ', r') →
      Grown (OldBytes σ₀ Q) σ₀ σ' ∧ σ <+: σ' ∧ Good (OldBytes σ₀ Q) σ₀.length σ' r' := by
  intro n
  induction n with
  | zero => intro σ r σ' r' _ _ h; simp [objToDicts] at h
  | succ n ih =>
    intro σ r σ' r' hgr hQ h
    cases r with
    | imm v =>
      simp only [objToDicts, Except.ok.injEq, Prod.mk.injEq] at h
      obtain ⟨rfl, rfl⟩ := h
      exact ⟨hgr, List.prefix_rfl, fun l hl => by cases hl⟩
    | obj l =>
      have hql := hQ l rfl
      have hget := get_of_prefix hgr.pre (hin l hql)
      simp only [objToDicts] at h
      cases ho : σ[l]? with
      | none => rw [ho] at h; simp at h
      | some o =>
        rw [ho] at h
        rw [ho] at hget
        have hrefs := hcl l o hql hget.symm
        cases o with
        | bytearray b =>
          simp only [Except.ok.injEq, Prod.mk.injEq] at h
          obtain ⟨rfl, rfl⟩ := h
          refine ⟨hgr, List.prefix_rfl, fun l' hl' => ?_⟩
          simp only [Ref.obj.injEq] at hl'
          subst hl'
          exact Or.inl ⟨hql, b, hget.symm⟩
        | list items =>
          simp only at h
          split at h
          · simp at h
          · rename_i σ1 rs h1
            obtain ⟨h2, h3, h4⟩ := mapRefs_grown ih items σ σ1 rs hgr hrefs h1
            obtain ⟨h5, h6, h7⟩ := h2.new (o := .list rs) h4
            simp only [Except.ok.injEq] at h
            have e1 : (σ1.new (.list rs)).1 = σ' := by rw [h]
            have e2 : (σ1.new (.list rs)).2 = r' := by rw [h]
            rw [e1] at h5 h6 h7; rw [e2] at h7
            exact ⟨h5, h3.trans h6, h7⟩
        | dict items =>
          simp only at h
          split at h
          · simp at h
          · rename_i σ1 rs h1
            obtain ⟨h2, h3, h4⟩ := mapRefs_grown ih _ σ σ1 rs hgr hrefs h1
            obtain ⟨h5, h6, h7⟩ := h2.new (o := .dict ((items.map (·.1)).zip rs)) (fun r hr => h4 r (zip_snd_mem hr))
            simp only [Except.ok.injEq] at h
            have e1 : (σ1.new (.dict ((items.map (·.1)).zip rs))).1 = σ' := by rw [h]
            have e2 : (σ1.new (.dict ((items.map (·.1)).zip rs))).2 = r' := by rw [h]
            rw [e1] at h5 h6 h7; rw [e2] at h7
            exact ⟨h5, h3.trans h6, h7⟩
        | inst cls vals =>
          simp only at h
          split at h
          · simp at h
          · rename_i c hc
            split at h
            · simp at h
            · rename_i dct hs
              have hdct : ∀ l, .obj l ∈ dct.map (·.2) → Q l := by
                intro l hl
                exact objShallow_mem (S := fun r => ∀ l, r = .obj l → Q l) (fun r hr l hl => hrefs l (hl ▸ hr))
                  (fun name l hl => hd cls c hc name l hl) hs _ hl l rfl
              split at h
              · simp at h
              · rename_i σ1 rs h1
                obtain ⟨h2, h3, h4⟩ := mapRefs_grown ih _ σ σ1 rs hgr hdct h1
                obtain ⟨h5, h6, h7⟩ := h2.new (o := .dict ((dct.map (·.1)).zip rs)) (fun r hr => h4 r (zip_snd_mem hr))
                simp only [Except.ok.injEq] at h
                have e1 : (σ1.new (.dict ((dct.map (·.1)).zip rs))).1 = σ' := by rw [h]
                have e2 : (σ1.new (.dict ((dct.map (·.1)).zip rs))).2 = r' := by rw [h]
                rw [e1] at h5 h6 h7; rw [e2] at h7
                exact ⟨h5, h3.trans h6, h7⟩

theorem objToDict_grown {C : ObjClasses} {Q : Nat → Prop} {σ₀ : Store} (hin : ∀ l, Q l → l < σ₀.length)
    (hcl : ∀ l o, Q l → σ₀[l]? = some o → ∀ l', .obj l' ∈ refsOf o → Q l')
    (hd : ∀ cls c, C cls = some c → ∀ name l, c.defaults name = .obj l → Q l) {n : Nat} {c : ObjClass} {vals : List (String × Ref)} {keep : Bool}
    {σ' : Store} {r' : Ref} (hc : ∀ name l, c.defaults name = .obj l → Q l) (hv : ∀ l, .obj l ∈ vals.map (·.2) → Q l)
    (h : objToDict C n σ₀ c vals keep = .ok (σ', r')) :
    Grown (OldBytes σ₀ Q) σ₀ σ' ∧ ∃ l, r' = .obj l ∧ σ₀.length ≤ l ∧ l < σ'.length := by
  simp only [objToDict] at h
  split at h
  · simp at h
  · rename_i dct hs
    have hdct : ∀ l, .obj l ∈ dct.map (·.2) → Q l := by
      intro l hl
      exact objShallow_mem (S := fun r => ∀ l, r = .obj l → Q l) (fun r hr l hl => hv l (hl ▸ hr)) hc hs _ hl l rfl
    split at h
    · simp at h
    · rename_i σ1 rs h1
      obtain ⟨h2, h3, h4⟩ := mapRefs_grown (objToDicts_grown hin hcl hd n) _ σ₀ σ1 rs (Grown.refl _ _) hdct h1
      obtain ⟨h5, h6, h7⟩ := h2.new (o := .dict ((dct.map (·.1)).zip rs)) (fun r hr => h4 r (zip_snd_mem hr))
      simp only [Except.ok.injEq] at h
      have e1 : (σ1.new (.dict ((dct.map (·.1)).zip rs))).1 = σ' := by rw [h]
      have e2 : (σ1.new (.dict ((dct.map (·.1)).zip rs))).2 = r' := by rw [h]
      rw [e1] at h5
      refine ⟨h5, σ1.length, e2.symm, h3.length_le, ?_⟩
      rw [← e1]
      simp [Store.new]

/-! ### Building values -/

mutual
theorem build_grown {P : Nat → Prop} {σ₀ : Store} : ∀ (v : Value) (σ : Store), Grown P σ₀ σ →
    Grown P σ₀ (Store.build σ v).1 ∧ σ <+: (Store.build σ v).1 ∧ Good P σ₀.length (Store.build σ v).1 (Store.build σ v).2
  | .list l, σ, h => by
    simp only [Store.build]
    obtain ⟨h1, h2, h3⟩ := buildList_grown l σ h
    obtain ⟨h4, h5, h6⟩ := h1.new (o := .list (Store.buildList σ l).2) h3
    exact ⟨h4, h2.trans h5, h6⟩
  | .dict d, σ, h => by
    simp only [Store.build]
    obtain ⟨h1, h2, h3⟩ := buildDict_grown d σ h
    obtain ⟨h4, h5, h6⟩ := h1.new (o := .dict (Store.buildDict σ d).2) h3
    exact ⟨h4, h2.trans h5, h6⟩
  | .struct cls d, σ, h => by
    simp only [Store.build]
    obtain ⟨h1, h2, h3⟩ := buildDict_grown d σ h
    obtain ⟨h4, h5, h6⟩ := h1.new (o := .inst cls (Store.buildDict σ d).2) h3
    exact ⟨h4, h2.trans h5, h6⟩
  | .none, σ, h | .notPresent, σ, h | .undefined, σ, h | .dflt, σ, h | .int _, σ, h | .bytes _, σ, h | .str _, σ, h | .float _, σ, h
  | .uuid _, σ, h | .datetime _ _, σ, h | .iter _, σ, h => by
    simp only [Store.build]
    exact ⟨h, List.prefix_rfl, fun l hl => by cases hl⟩
theorem buildList_grown {P : Nat → Prop} {σ₀ : Store} : ∀ (vs : List Value) (σ : Store), Grown P σ₀ σ →
    Grown P σ₀ (Store.buildList σ vs).1 ∧ σ <+: (Store.buildList σ vs).1 ∧
      ∀ r ∈ (Store.buildList σ vs).2, Good P σ₀.length (Store.buildList σ vs).1 r
  | [], σ, h => by
    simp only [Store.buildList]
    exact ⟨h, List.prefix_rfl, by simp⟩
  | v :: vs, σ, h => by
    simp only [Store.buildList]
    obtain ⟨h1, h2, h3⟩ := build_grown v σ h
    obtain ⟨h4, h5, h6⟩ := buildList_grown vs _ h1
    refine ⟨h4, h2.trans h5, fun r hr => ?_⟩
    rcases List.mem_cons.1 hr with rfl | hr
    · exact h3.mono h5
    · exact h6 r hr
theorem buildDict_grown {P : Nat → Prop} {σ₀ : Store} : ∀ (vs : List (String × Value)) (σ : Store), Grown P σ₀ σ →
    Grown P σ₀ (Store.buildDict σ vs).1 ∧ σ <+: (Store.buildDict σ vs).1 ∧
      ∀ r ∈ (Store.buildDict σ vs).2.map (·.2), Good P σ₀.length (Store.buildDict σ vs).1 r
  | [], σ, h => by
    simp only [Store.buildDict]
    exact ⟨h, List.prefix_rfl, by simp⟩
  | (k, v) :: vs, σ, h => by
    simp only [Store.buildDict]
    obtain ⟨h1, h2, h3⟩ := build_grown v σ h
    obtain ⟨h4, h5, h6⟩ := buildDict_grown vs _ h1
    refine ⟨h4, h2.trans h5, fun r hr => ?_⟩
    rcases List.mem_cons.1 hr with rfl | hr
    · exact h3.mono h5
    · exact h6 r hr
end

theorem buildFields_grown {P : Nat → Prop} {σ₀ : Store} {c : ObjClass} {absent : List String} (hn : ∀ k l, c.notPresent k = .obj l → P l) :
    ∀ (vs : Dict) (σ : Store), Grown P σ₀ σ → Grown P σ₀ (Store.buildFields c absent σ vs).1 ∧ σ <+: (Store.buildFields c absent σ vs).1 ∧
      ∀ r ∈ (Store.buildFields c absent σ vs).2.map (·.2), Good P σ₀.length (Store.buildFields c absent σ vs).1 r := by
  intro vs
  induction vs with
  | nil => intro σ h; exact ⟨h, List.prefix_rfl, by simp [Store.buildFields]⟩
  | cons p vs ih =>
    intro σ h
    obtain ⟨k, v⟩ := p
    simp only [Store.buildFields]
    split
    · obtain ⟨h4, h5, h6⟩ := ih σ h
      refine ⟨h4, h5, fun r hr => ?_⟩
      rcases List.mem_cons.1 hr with rfl | hr
      · exact fun l hl => Or.inl (hn k l hl)
      · exact h6 r hr
    · obtain ⟨h1, h2, h3⟩ := build_grown v σ h
      obtain ⟨h4, h5, h6⟩ := ih _ h1
      refine ⟨h4, h2.trans h5, fun r hr => ?_⟩
      rcases List.mem_cons.1 hr with rfl | hr
      · exact h3.mono h5
      · exact h6 r hr

theorem objFromStream_grown {C : ObjClasses} {P : Nat → Prop} {n : Nat} {σ σ' : Store} {c : ObjClass} {s : Stream} {ctx : Value} {kw : Dict} {r : Ref}
    (hn : ∀ k l, c.notPresent k = .obj l → P l) (h : objFromStream C n σ c s ctx kw = .ok (σ', r)) :
    Grown P σ σ' ∧ ∃ l, r = .obj l ∧ σ.length ≤ l ∧ l < σ'.length := by
  simp only [objFromStream] at h
  split at h
  · simp at h
  · rename_i results absent _
    split at h
    · simp at h
    · rename_i vals _
      split at h
      · simp at h
      · obtain ⟨h1, h2, h3⟩ := buildFields_grown (P := P) (σ₀ := σ) (absent := absent) hn (dropDiscarded c.desc vals) σ (Grown.refl _ _)
        obtain ⟨h5, h6, h7⟩ := h1.new (o := .inst c.desc.name (Store.buildFields c absent σ (dropDiscarded c.desc vals)).2) h3
        simp only [Except.ok.injEq] at h
        have e1 := congrArg Prod.fst h
        have e2 := congrArg Prod.snd h
        simp only at e1 e2
        rw [e1] at h5
        refine ⟨h5, _, e2.symm, h2.length_le, ?_⟩
        rw [← e1]
        simp [Store.new]

/-! ### Contents -/

theorem mapM_congr {f g : Ref → Option Value} {rs : List Ref} (h : ∀ r ∈ rs, f r = g r) : rs.mapM f = rs.mapM g := by
  induction rs with
  | nil => rfl
  | cons r rs ih => rw [List.mapM_cons, List.mapM_cons, h r List.mem_cons_self, ih fun r hr => h r (List.mem_cons_of_mem _ hr)]

/-- What an object contains depends on the objects reachable from it only. -/
theorem contents_congr {σ τ : Store} {Q : Nat → Prop} (h : ∀ l, Q l → τ[l]? = σ[l]?)
    (hcl : ∀ l o, Q l → σ[l]? = some o → ∀ l', .obj l' ∈ refsOf o → Q l') :
    ∀ n r, (∀ l, r = .obj l → Q l) → contents τ n r = contents σ n r := by
  intro n
  induction n with
  | zero => intro r _; rfl
  | succ n ih =>
    intro r hr
    cases r with
    | imm v => rfl
    | obj l =>
      have hq := hr l rfl
      simp only [contents, h l hq]
      cases ho : σ[l]? with
      | none => rfl
      | some o =>
        have hrefs := hcl l o hq ho
        cases o with
        | bytearray b => rfl
        | list items =>
          simp only
          rw [mapM_congr (rs := items) (g := contents σ n) fun r hr => ih r fun l hl => hrefs l (hl ▸ hr)]
        | dict items =>
          simp only
          rw [mapM_congr (rs := items.map (·.2)) (g := contents σ n) fun r hr => ih r fun l hl => hrefs l (hl ▸ hr)]
        | inst cls vals =>
          simp only
          rw [mapM_congr (rs := vals.map (·.2)) (g := contents σ n) fun r hr => ih r fun l hl => hrefs l (hl ▸ hr)]

/-! ### Commands touch only what they are given -/

/-- A step that changes only objects reachable from `vars`, and lets them and the result refer only to such objects and to new ones. -/
structure Polite (vars : List Ref) (σ σ' : Store) (r : Ref) : Prop where
  grows : σ.length ≤ σ'.length
  frame : ∀ l, l < σ.length → ¬ Reach σ vars l → σ'[l]? = σ[l]?
  refs : ∀ l o, (Reach σ vars l ∨ σ.length ≤ l) → σ'[l]? = some o → ∀ r ∈ refsOf o, Good (Reach σ vars) σ.length σ' r
  out : Good (Reach σ vars) σ.length σ' r

theorem Polite.same {vars : List Ref} {σ : Store} {r : Ref} (hr : ∀ l, r = .obj l → Reach σ vars l) : Polite vars σ σ r where
  grows := Nat.le_refl _
  frame := fun _ _ _ => rfl
  refs := by
    intro l o hl ho r hr' l' hl'
    subst hl'
    rcases hl with hl | hl
    · exact Or.inl (.step hl ho hr')
    · have := (List.getElem?_eq_some_iff.1 ho).1; omega
  out := fun l hl => Or.inl (hr l hl)

theorem Polite.grown {vars : List Ref} {P : Nat → Prop} {σ σ' : Store} {r : Ref} (hP : ∀ l, P l → Reach σ vars l)
    (h : Grown P σ σ') (hr : Good P σ.length σ' r) : Polite vars σ σ' r where
  grows := h.pre.length_le
  frame := fun l hl _ => get_of_prefix h.pre hl
  refs := by
    intro l o hl ho r hr' l' hl'
    by_cases hlt : l < σ.length
    · rcases hl with hl | hl
      · rw [get_of_prefix h.pre hlt] at ho
        subst hl'
        exact Or.inl (.step hl ho hr')
      · omega
    · rcases h.refs l o (by omega) ho r hr' l' hl' with h | h
      · exact Or.inl (hP _ h)
      · exact Or.inr h
  out := fun l hl => (hr l hl).imp_left (hP l)

theorem Polite.new {vars : List Ref} {σ : Store} {o : Obj}
    (ho : ∀ r ∈ refsOf o, ∀ l, r = .obj l → Reach σ vars l) : Polite vars σ (σ.new o).1 (σ.new o).2 := by
  obtain ⟨h1, -, h3⟩ := (Grown.refl (Reach σ vars) σ).new (o := o) (fun r hr l hl => Or.inl (ho r hr l hl))
  exact .grown (fun _ h => h) h1 h3

theorem Polite.set {vars : List Ref} {σ : Store} {l : Nat} {o : Obj} {v : Value} (hl : Reach σ vars l)
    (ho : ∀ r ∈ refsOf o, ∀ l, r = .obj l → Reach σ vars l) : Polite vars σ (σ.set l o) (.imm v) where
  grows := by simp
  frame := by
    intro k _ hk
    rw [List.getElem?_set]
    split
    · rename_i h; subst h; exact absurd hl hk
    · rfl
  refs := by
    intro k o' hk hko r hr l' hl'
    rw [List.getElem?_set] at hko
    split at hko
    · split at hko
      · simp only [Option.some.injEq] at hko
        subst hko
        exact Or.inl (ho r hr l' hl')
      · simp at hko
    · subst hl'
      rcases hk with hk | hk
      · exact Or.inl (.step hk hko hr)
      · have := (List.getElem?_eq_some_iff.1 hko).1; omega
  out := fun l hl => by cases hl

theorem mapM_get_mem {vars rs : List Ref} {xs : List Nat} (h : xs.mapM (vars[·]?) = some rs) : ∀ r ∈ rs, r ∈ vars := by
  induction xs generalizing rs with
  | nil => simp at h; subst h; simp
  | cons x xs ih =>
    rw [List.mapM_cons] at h
    cases hx : vars[x]? with
    | none => simp [hx] at h
    | some r0 =>
      cases hxs : xs.mapM (vars[·]?) with
      | none => simp [hx, hxs] at h
      | some rs0 =>
        simp [hx, hxs] at h
        subst h
        intro r hr
        rcases List.mem_cons.1 hr with rfl | hr
        · exact List.mem_of_getElem? hx
        · exact ih hxs r hr

theorem variables_mem {vars rs : List Ref} {xs : List Nat} (h : variables vars xs = .ok rs) : ∀ r ∈ rs, r ∈ vars := by
  unfold variables at h
  split at h
  · rename_i rs0 h0
    simp only [Except.ok.injEq] at h
    subst h
    exact mapM_get_mem h0
  · simp at h

theorem objectOf_ok {σ : Store} {vars : List Ref} {x l : Nat} {o : Obj} (h : objectOf σ vars x = .ok (l, o)) : .obj l ∈ vars ∧ σ[l]? = some o := by
  unfold objectOf at h
  split at h
  · rename_i l' hx
    split at h
    · rename_i o' ho
      simp only [Except.ok.injEq, Prod.mk.injEq] at h
      obtain ⟨rfl, rfl⟩ := h
      exact ⟨List.mem_of_getElem? hx, ho⟩
    · simp at h
  · simp at h

theorem instanceOf_ok {C : ObjClasses} {σ : Store} {vars : List Ref} {x l : Nat} {cls : String} {c : ObjClass} {vals : List (String × Ref)}
    (h : instanceOf C σ vars x = .ok (l, cls, c, vals)) : .obj l ∈ vars ∧ σ[l]? = some (.inst cls vals) ∧ C cls = some c := by
  unfold instanceOf at h
  split at h
  · simp at h
  · rename_i l' cls' vals' h1
    split at h
    · simp at h
    · rename_i c' hc
      simp only [Except.ok.injEq, Prod.mk.injEq] at h
      obtain ⟨rfl, rfl, rfl, rfl⟩ := h
      obtain ⟨h2, h3⟩ := objectOf_ok h1
      exact ⟨h2, h3, hc⟩
  · simp at h

theorem bind_ok {α β : Type} {x : Except Err α} {g : α → Except Err β} {b : β} (h : (x >>= g) = .ok b) : ∃ a, x = .ok a ∧ g a = .ok b := by
  cases x with
  | error e => simp [bind, Except.bind] at h
  | ok a => exact ⟨a, rfl, h⟩

theorem headD_mem {rs : List Ref} {l : Nat} (h : rs.headD (.imm .none) = .obj l) : .obj l ∈ rs := by
  cases rs with
  | nil => cases h
  | cons r rs => simp at h; subst h; simp

theorem reach_refs {σ : Store} {vars : List Ref} {l : Nat} {o : Obj} (hl : .obj l ∈ vars) (ho : σ[l]? = some o) {r : Ref} (hr : r ∈ refsOf o) :
    ∀ l', r = .obj l' → Reach σ vars l' := fun _ h => .step (.root hl) ho (h ▸ hr)

theorem pure_ok {α : Type} {a b : α} (h : (pure a : Except Err α) = .ok b) : a = b := by
  cases h; rfl

theorem throw_ok {α : Type} {e : Err} {b : α} (h : (throw e : Except Err α) = .ok b) : False := by cases h

theorem Cmd.polite {C : ObjClasses} (hC : ImmutableDefaults C) {n : Nat} {σ σ' : Store} {vars : List Ref} {r : Ref}
    (hin : ∀ l, Reach σ vars l → l < σ.length) (cmd : Cmd) (h : cmd.run C n σ vars = .ok (σ', r)) : Polite vars σ σ' r := by
  cases cmd with
  | const v =>
    simp only [Cmd.run, Except.ok.injEq, Prod.mk.injEq] at h
    obtain ⟨rfl, rfl⟩ := h
    exact .same fun l hl => by cases hl
  | newList xs =>
    simp only [Cmd.run] at h
    obtain ⟨rs, h1, h⟩ := bind_ok h
    cases pure_ok h
    exact .new fun r hr l hl => .root (hl ▸ variables_mem h1 r hr)
  | newDict kvs =>
    simp only [Cmd.run] at h
    obtain ⟨rs, h1, h⟩ := bind_ok h
    cases pure_ok h
    exact .new fun r hr l hl => .root (hl ▸ variables_mem h1 r (zip_snd_mem hr))
  | newBytearray b =>
    simp only [Cmd.run, Except.ok.injEq] at h
    cases h
    exact .new fun r hr => by simp [refsOf] at hr
  | item x i =>
    simp only [Cmd.run] at h
    obtain ⟨⟨l, o⟩, h1, h⟩ := bind_ok h
    obtain ⟨h2, h3⟩ := objectOf_ok h1
    split at h
    · rename_i l0 items heq
      cases heq
      split at h
      · rename_i r0 hr0
        cases pure_ok h
        exact .same (reach_refs h2 h3 (List.mem_of_getElem? hr0))
      · exact (throw_ok h).elim
    · exact (throw_ok h).elim
  | entry x k =>
    simp only [Cmd.run] at h
    obtain ⟨⟨l, o⟩, h1, h⟩ := bind_ok h
    obtain ⟨h2, h3⟩ := objectOf_ok h1
    split at h
    · rename_i l0 items heq
      cases heq
      split at h
      · rename_i r0 hr0
        cases pure_ok h
        exact .same (reach_refs h2 h3 (lookup_mem hr0))
      · exact (throw_ok h).elim
    · exact (throw_ok h).elim
  | append x y =>
    simp only [Cmd.run] at h
    obtain ⟨rs, h1, h⟩ := bind_ok h
    obtain ⟨⟨l, o⟩, h4, h⟩ := bind_ok h
    obtain ⟨h2, h3⟩ := objectOf_ok h4
    split at h
    · rename_i l0 items heq
      cases heq
      cases pure_ok h
      refine .set (.root h2) fun r hr l' hl' => ?_
      rcases List.mem_append.1 hr with hr | hr
      · exact reach_refs h2 h3 hr l' hl'
      · exact .root (hl' ▸ variables_mem h1 r hr)
    · exact (throw_ok h).elim
  | setItem x i y =>
    simp only [Cmd.run] at h
    obtain ⟨rs, h1, h⟩ := bind_ok h
    obtain ⟨⟨l, o⟩, h4, h⟩ := bind_ok h
    obtain ⟨h2, h3⟩ := objectOf_ok h4
    split at h
    · rename_i l0 items heq
      cases heq
      cases pure_ok h
      refine .set (.root h2) fun r hr l' hl' => ?_
      rcases List.mem_or_eq_of_mem_set hr with hr | hr
      · exact reach_refs h2 h3 hr l' hl'
      · exact .root (variables_mem h1 _ (headD_mem (hr ▸ hl')))
    · exact (throw_ok h).elim
  | setEntry x k y =>
    simp only [Cmd.run] at h
    obtain ⟨rs, h1, h⟩ := bind_ok h
    obtain ⟨⟨l, o⟩, h4, h⟩ := bind_ok h
    obtain ⟨h2, h3⟩ := objectOf_ok h4
    split at h
    · rename_i l0 items heq
      cases heq
      cases pure_ok h
      refine .set (.root h2) fun r hr l' hl' => ?_
      obtain ⟨p, hp, rfl⟩ := List.mem_map.1 hr
      rcases refSet_mem hp with hp | hp
      · exact reach_refs h2 h3 (List.mem_map.2 ⟨p, hp, rfl⟩) l' hl'
      · exact .root (variables_mem h1 _ (headD_mem (hp ▸ hl')))
    · exact (throw_ok h).elim
  | setByte x i b =>
    simp only [Cmd.run] at h
    obtain ⟨⟨l, o⟩, h4, h⟩ := bind_ok h
    obtain ⟨h2, h3⟩ := objectOf_ok h4
    split at h
    · rename_i l0 items heq
      cases heq
      cases pure_ok h
      exact .set (.root h2) fun r hr => by simp [refsOf] at hr
    · exact (throw_ok h).elim
  | construct cls kvs =>
    simp only [Cmd.run] at h
    obtain ⟨rs, h1, h⟩ := bind_ok h
    split at h
    · exact (throw_ok h).elim
    · split at h
      · exact (throw_ok h).elim
      · cases pure_ok h
        exact .new fun r hr l hl => .root (hl ▸ variables_mem h1 r (zip_snd_mem hr))
  | get x name =>
    simp only [Cmd.run] at h
    obtain ⟨⟨l, cls, c, vals⟩, h1, h⟩ := bind_ok h
    obtain ⟨r0, h2, h⟩ := bind_ok h
    obtain ⟨h3, h4, h5⟩ := instanceOf_ok h1
    cases pure_ok h
    refine .same fun l' hl' => ?_
    simp only [objGet] at h2
    split at h2
    · cases h2
    · split at h2
      · rename_i r1 hr1
        cases h2
        exact reach_refs h3 h4 (lookup_mem hr1) l' hl'
      · split at h2
        · cases h2
        · cases h2
          obtain ⟨⟨v, hv⟩, -⟩ := hC cls c h5 name
          rw [hv] at hl'
          cases hl'
  | set x name y =>
    simp only [Cmd.run] at h
    obtain ⟨rs, h1, h⟩ := bind_ok h
    obtain ⟨⟨l, cls, c, vals⟩, h2, h⟩ := bind_ok h
    obtain ⟨vs, -, h⟩ := bind_ok h
    obtain ⟨h3, h4, h5⟩ := instanceOf_ok h2
    split at h
    · exact (throw_ok h).elim
    · split at h
      · exact (throw_ok h).elim
      · obtain ⟨_, -, h⟩ := bind_ok h
        cases pure_ok h
        refine .set (.root h3) fun r hr l' hl' => ?_
        obtain ⟨p, hp, rfl⟩ := List.mem_map.1 hr
        rcases refSet_mem hp with hp | hp
        · exact reach_refs h3 h4 (List.mem_map.2 ⟨p, hp, rfl⟩) l' hl'
        · exact .root (variables_mem h1 _ (headD_mem (hp ▸ hl')))
  | del x name =>
    simp only [Cmd.run] at h
    obtain ⟨⟨l, cls, c, vals⟩, h2, h⟩ := bind_ok h
    obtain ⟨h3, h4, h5⟩ := instanceOf_ok h2
    simp only at h
    split at h
    · exact (throw_ok h).elim
    · cases pure_ok h
      refine .set (.root h3) fun r hr l' hl' => ?_
      obtain ⟨p, hp, rfl⟩ := List.mem_map.1 hr
      exact reach_refs h3 h4 (List.mem_map.2 ⟨p, refErase_mem hp, rfl⟩) l' hl'
  | toDict x keep =>
    simp only [Cmd.run] at h
    obtain ⟨⟨l, cls, c, vals⟩, h2, h⟩ := bind_ok h
    obtain ⟨h3, h4, h5⟩ := instanceOf_ok h2
    have hd : ∀ cls c, C cls = some c → ∀ name l, c.defaults name = .obj l → Reach σ vars l := by
      intro cls c hc name l hl
      obtain ⟨⟨v, hv⟩, -⟩ := hC cls c hc name
      rw [hv] at hl
      cases hl
    obtain ⟨h6, l', rfl, h7, h8⟩ := objToDict_grown (Q := Reach σ vars) hin (fun l o hl ho l' hl' => .step hl ho hl') hd
      (hd cls c h5) (fun l' hl' => .step (.root h3) h4 hl') h
    refine .grown (P := OldBytes σ (Reach σ vars)) (fun l h => h.1) h6 fun l hl => ?_
    cases hl
    exact Or.inr ⟨h7, h8⟩
  | load cls s ctx kvs =>
    simp only [Cmd.run] at h
    obtain ⟨rs, h1, h⟩ := bind_ok h
    obtain ⟨vs, -, h⟩ := bind_ok h
    split at h
    · exact (throw_ok h).elim
    · rename_i c hc
      obtain ⟨h6, l', rfl, h7, h8⟩ := objFromStream_grown (P := fun _ => False) (fun k l hl => by
        obtain ⟨-, v, hv⟩ := hC cls c hc k
        rw [hv] at hl
        cases hl) h
      refine .grown (P := fun _ => False) (fun l h => h.elim) h6 fun l hl => ?_
      cases hl
      exact Or.inr ⟨h7, h8⟩
  | toBytes x ctx =>
    simp only [Cmd.run] at h
    obtain ⟨⟨cls, c, vals⟩, -, h⟩ := bind_ok h
    obtain ⟨b, -, h⟩ := bind_ok h
    cases pure_ok h
    exact .same fun l hl => by cases hl
  | len x =>
    simp only [Cmd.run] at h
    obtain ⟨⟨cls, c, vals⟩, -, h⟩ := bind_ok h
    obtain ⟨b, -, h⟩ := bind_ok h
    cases pure_ok h
    exact .same fun l hl => by cases hl
  | equal x y =>
    simp only [Cmd.run] at h
    obtain ⟨rs, -, h⟩ := bind_ok h
    obtain ⟨vs, -, h⟩ := bind_ok h
    obtain ⟨b, -, h⟩ := bind_ok h
    cases pure_ok h
    exact .same fun l hl => by cases hl
  | validate x =>
    simp only [Cmd.run] at h
    obtain ⟨⟨cls, c, vals⟩, -, h⟩ := bind_ok h
    obtain ⟨b, -, h⟩ := bind_ok h
    cases pure_ok h
    exact .same fun l hl => by cases hl

/-! ### Separation -/

/-- After a polite step its variables and the result reach only what they reached before, and new objects. -/
theorem Polite.reach {vars : List Ref} {σ σ' : Store} {r : Ref} (h : Polite vars σ σ' r) {l : Nat}
    (hl : Reach σ' (vars ++ [r]) l) : Reach σ vars l ∨ (σ.length ≤ l ∧ l < σ'.length) := by
  induction hl with
  | root hm =>
    rcases List.mem_append.1 hm with hm | hm
    · exact Or.inl (.root hm)
    · exact h.out _ (by simpa using (List.mem_singleton.1 hm).symm)
  | step _ ho hr ih =>
    exact h.refs _ _ (ih.imp id (·.1)) ho _ hr _ rfl

/-- Others reach what they reached before. -/
theorem Polite.others {vars others : List Ref} {σ σ' : Store} {r : Ref} (h : Polite vars σ σ' r) (hin : ∀ l, Reach σ others l → l < σ.length)
    (hap : ∀ l, Reach σ others l → ¬ Reach σ vars l) {l : Nat} (hl : Reach σ' others l) : Reach σ others l := by
  induction hl with
  | root hm => exact .root hm
  | step _ ho hr ih =>
    rw [h.frame _ (hin _ ih) (hap _ ih)] at ho
    exact .step ih ho hr

theorem exec_separate {C : ObjClasses} (hC : ImmutableDefaults C) {n : Nat} {w : World} (hw : Separate w) (p : Nat × Cmd) :
    Separate (w.exec C n p) ∧
      ∀ j, j ≠ p.1 → (w.exec C n p).vars j = w.vars j ∧ ∀ k, ∀ r ∈ w.vars j, contents (w.exec C n p).store k r = contents w.store k r := by
  unfold World.exec
  cases hrun : p.2.run C n w.store (w.vars p.1) with
  | error e => exact ⟨hw, fun j _ => ⟨rfl, fun k r _ => rfl⟩⟩
  | ok q =>
    obtain ⟨σ', r⟩ := q
    have hp := Cmd.polite hC (hw.closed p.1) p.2 hrun
    have hown : ∀ l, Reach σ' (w.vars p.1 ++ [r]) l → Reach w.store (w.vars p.1) l ∨ (w.store.length ≤ l ∧ l < σ'.length) :=
      fun l hl => hp.reach hl
    have hoth : ∀ j, j ≠ p.1 → ∀ l, Reach σ' (w.vars j) l → Reach w.store (w.vars j) l :=
      fun j hj l hl => hp.others (hw.closed j) (fun l hl => hw.apart j p.1 l hj hl) hl
    refine ⟨⟨?_, ?_⟩, ?_⟩
    · intro i l hl
      simp only at hl ⊢
      split at hl
      · rename_i hi
        subst hi
        rcases hown l hl with h | h
        · exact Nat.lt_of_lt_of_le (hw.closed _ l h) hp.grows
        · exact h.2
      · rename_i hi
        exact Nat.lt_of_lt_of_le (hw.closed i l (hoth i hi l hl)) hp.grows
    · intro i j l hij hi hj
      simp only at hi hj
      split at hi
      · rename_i hpi
        subst hpi
        rw [if_neg (fun h => hij h.symm)] at hj
        have hj' := hoth j (fun h => hij h.symm) l hj
        rcases hown l hi with h | h
        · exact hw.apart _ _ l hij h hj'
        · have := hw.closed j l hj'; omega
      · rename_i hpi
        have hi' := hoth i hpi l hi
        split at hj
        · rename_i hpj
          subst hpj
          rcases hown l hj with h | h
          · exact hw.apart _ _ l hij hi' h
          · have := hw.closed i l hi'; omega
        · rename_i hpj
          exact hw.apart _ _ l hij hi' (hoth j hpj l hj)
    · intro j hj
      refine ⟨if_neg hj, fun k r hr => ?_⟩
      refine contents_congr (Q := Reach w.store (w.vars j)) (fun l hl => hp.frame l (hw.closed j l hl) (hw.apart j p.1 l hj hl))
        (fun l o hl ho l' hl' => .step hl ho hl') k r fun l hl => .root (hl ▸ hr)

theorem execs_separate {C : ObjClasses} (hC : ImmutableDefaults C) {n : Nat} (ps : List (Nat × Cmd)) {w : World} (hw : Separate w) :
    Separate (ps.foldl (World.exec C n) w) := by
  induction ps generalizing w with
  | nil => exact hw
  | cons p ps ih => exact ih (exec_separate hC hw p).1

theorem execs_others {C : ObjClasses} (hC : ImmutableDefaults C) {n : Nat} (ps : List (Nat × Cmd)) {w : World} (hw : Separate w) {j : Nat}
    (hj : ∀ p ∈ ps, p.1 ≠ j) : (ps.foldl (World.exec C n) w).vars j = w.vars j ∧
      ∀ k, ∀ r ∈ w.vars j, contents (ps.foldl (World.exec C n) w).store k r = contents w.store k r := by
  induction ps generalizing w with
  | nil => exact ⟨rfl, fun _ _ _ => rfl⟩
  | cons p ps ih =>
    obtain ⟨h1, h2⟩ := exec_separate hC (n := n) hw p
    obtain ⟨h3, h4⟩ := h2 j (fun h => hj p List.mem_cons_self h.symm)
    obtain ⟨h5, h6⟩ := ih h1 fun q hq => hj q (List.mem_cons_of_mem _ hq)
    refine ⟨by rw [List.foldl_cons, h5, h3], fun k r hr => ?_⟩
    rw [List.foldl_cons, h6 k r (h3 ▸ hr), h4 k r hr]

end Verif
