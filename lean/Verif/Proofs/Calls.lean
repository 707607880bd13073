import Verif.Spec.Calls
import Verif.Proofs.Live

/-! # How often compute functions are called: proofs -/
namespace Verif
open Spec

variable {d : StructDesc} {formula : String → Option Formula} {vals : Dict} {rank : String → Nat} {depth : Nat}

theorem calls_stable (h : Sheet d formula vals rank depth) {n m : Nat} {k : String} (hn : rank k < n) (hm : rank k < m) :
    calls formula vals n k = calls formula vals m k := by
  induction n generalizing m k with
  | zero => omega
  | succ n ih =>
    obtain ⟨m, rfl⟩ : ∃ m', m = m' + 1 := ⟨m - 1, by omega⟩
    simp only [calls]
    split
    · rfl
    · cases hg : formula k with
      | none => rfl
      | some g =>
        simp only
        congr 2
        apply List.map_congr_left
        intro r hr
        have := (h.reads k g hg r hr).2
        exact ih (by omega) (by omega)

theorem readFields_calls {all : LiveView Nat} {cost : String → Nat} {ks : List String}
    (h : ∀ k ∈ ks, ∀ s, ∃ v, all.get k s = (.ok v, s + cost k)) (s : Nat) :
    ∃ vs, readFields all ks s = (.ok vs, s + (ks.map cost).sum) := by
  induction ks generalizing s with
  | nil => exact ⟨[], rfl⟩
  | cons k ks ih =>
    obtain ⟨v, hv⟩ := h k (List.mem_cons_self ..) s
    obtain ⟨vs, hvs⟩ := ih (fun k hk => h k (List.mem_cons_of_mem _ hk)) (s + cost k)
    refine ⟨v :: vs, ?_⟩
    simp only [readFields, Prog.andThen, hv, hvs, Prog.pure_apply, List.map_cons, List.sum_cons]
    rw [Nat.add_assoc]

theorem compute_sheet (h : Sheet d formula vals rank depth) {f : Field} (hf : f ∈ d.components) (hk : f.name ∉ Dict.keys vals)
    {all : LiveView Nat} {cost : String → Nat} {g : Formula} (hg : formula f.name = some g)
    (hc : all.contains f.name = false)
    (hall : ∀ k ∈ g.reads, ∀ s, ∃ v, all.get k s = (.ok v, s + cost k)) (ctx : Value) (s : Nat) :
    ∃ v, (sheet d formula depth).computeValueForDump f.base all ctx s = (.ok v, s + (1 + (g.reads.map cost).sum)) := by
  obtain ⟨vs, hvs⟩ := readFields_calls hall (s + 1)
  have hfn := h.fn _ g hg vs
  have hd := (h.filled f hf hk).1
  have hrun : g.run all s = (.ok (g.fn vs), s + (1 + (g.reads.map cost).sum)) := by
    simp only [Formula.run, Prog.andThen, hvs, Prog.pure_apply]
    rw [Nat.add_assoc]
  have hc' : all.contains f.base.name = false := hc
  have hg' : formula f.base.name = some g := hg
  refine ⟨g.fn vs, ?_⟩
  unfold LiveClass.computeValueForDump
  simp only [hc', Bool.false_eq_true, if_false, hd, ne_eq, not_true_eq_false, sheet, hg', Option.map_some, Prog.andThen, hrun]
  by_cases hn : g.fn vs = .notPresent
  · simp only [hn, if_true, Prog.pure_apply]
  · simp only [hn, if_false, hfn]; rfl

theorem contains_false {k : String} (h : k ∉ Dict.keys vals) : Dict.contains vals k = false := by
  rw [Bool.eq_false_iff]
  exact fun hc => h ((Dict.contains_iff _ _).1 hc)

theorem Spec.Sheet.structContains (h : Sheet d formula vals rank depth) (k : String) :
    structContains vals k = Dict.contains vals k := by
  rw [Bool.eq_iff_iff, structContains_iff h.inst.1, Dict.contains_iff]
  constructor
  · rintro ⟨v, hv, -⟩; exact Dict.get?_some_key hv
  · intro hk
    cases hg : Dict.get? vals k with
    | none => exact absurd hk ((Dict.get?_none_iff _ _).1 hg)
    | some v => exact ⟨v, rfl, h.defined (k, v) (Dict.get?_some_mem hg)⟩

theorem liveGet_calls (h : Sheet d formula vals rank depth) (n : Nat) {k : String} (hk : k ∈ names d) (hr : rank k < n) (s : Nat) :
    ∃ v, liveGet (sheet d formula depth) vals n k s = (.ok v, s + calls formula vals n k) := by
  induction n generalizing k s with
  | zero => omega
  | succ n ih =>
    obtain ⟨f, hf, rfl⟩ := List.mem_map.1 hk
    have hfind : (sheet d formula depth).desc.find? f.name = some f := find?_of_mem h.names hf
    simp only [liveGet, hfind, calls]
    cases hv : Dict.get? vals f.name with
    | some v =>
      refine ⟨v, ?_⟩
      simp only [(Dict.contains_iff vals f.name).2 (Dict.get?_some_key hv), if_true, Prog.pure_apply, Nat.add_zero]
    | none =>
      have hnk := (Dict.get?_none_iff _ _).1 hv
      obtain ⟨-, g, hg⟩ := h.filled f hf hnk
      simp only [contains_false hnk, hg]
      refine compute_sheet h hf hnk hg ?_ ?_ _ s
      · simp only [h.structContains, contains_false hnk]
      · intro r hr' s
        obtain ⟨h1, h2⟩ := h.reads _ g hg r hr'
        exact ih h1 (by omega) s

theorem liveGetItem_calls (h : Sheet d formula vals rank depth) {k : String} (hk : k ∈ names d) (s : Nat) :
    ∃ v, liveGetItem (sheet d formula depth) vals k s = (.ok v, s + calls formula vals depth k) :=
  liveGet_calls h depth hk (h.depth k hk) s

theorem computeValue_calls (h : Sheet d formula vals rank depth) {f : Field} (hf : f ∈ d.components) (s : Nat) :
    ∃ v, (sheet d formula depth).computeValueForDump f.base (liveView (sheet d formula depth) vals) .none s =
      (.ok v, s + calls formula vals depth f.name) := by
  have hfn : f.name ∈ names d := List.mem_map.2 ⟨f, hf, rfl⟩
  by_cases hk : f.name ∈ Dict.keys vals
  · obtain ⟨v, hv⟩ := liveGetItem_calls h hfn s
    have hcz : calls formula vals depth f.name = 0 := by
      cases depth with
      | zero => rfl
      | succ n => simp only [calls, (Dict.contains_iff vals f.name).2 hk, if_true]
    rw [hcz] at hv ⊢
    have hc : (liveView (sheet d formula depth) vals).contains f.base.name = true := by
      show structContains vals f.name = true
      rw [h.structContains]; exact (Dict.contains_iff _ _).2 hk
    have hget : (liveView (sheet d formula depth) vals).get f.base.name s = (.ok v, s + 0) := hv
    have hvu : v ≠ .undefined := by
      cases hg : Dict.get? vals f.name with
      | none => exact absurd hk ((Dict.get?_none_iff _ _).1 hg)
      | some w =>
        rw [liveGetItem_own hg hv]
        exact h.defined (f.name, w) (Dict.get?_some_mem hg)
    refine ⟨v, ?_⟩
    unfold LiveClass.computeValueForDump
    simp only [hc, if_true, Prog.andThen, hget]
    by_cases hn : v = .notPresent
    · simp only [hn, if_true, Prog.pure_apply]
    · simp only [hn, if_false, sheet, hvu]; rfl
  · obtain ⟨-, g, hg⟩ := h.filled f hf hk
    have hd := h.depth _ hfn
    obtain ⟨n, rfl⟩ : ∃ n, depth = n + 1 := ⟨depth - 1, by omega⟩
    have hcalls : calls formula vals (n + 1) f.name = 1 + (g.reads.map (calls formula vals (n + 1))).sum := by
      rw [calls]
      simp only [contains_false hk, hg, Bool.false_eq_true, if_false]
      congr 2
      apply List.map_congr_left
      intro r hr
      obtain ⟨h1, h2⟩ := h.reads _ g hg r hr
      exact calls_stable h (by omega) (by omega)
    rw [hcalls]
    refine compute_sheet h hf hk hg ?_ ?_ _ s
    · show structContains vals f.name = false
      rw [h.structContains, contains_false hk]
    · intro r hr s
      exact liveGetItem_calls h (h.reads _ g hg r hr).1 s

theorem validate_calls (h : Sheet d formula vals rank depth) {fs : List Field} (hfs : ∀ f ∈ fs, f ∈ d.components) {s s' : Nat}
    (hv : liveRunAll (liveValidateField (sheet d formula depth) vals) (fs.map fun f => (f.name, [])) s = (.ok (), s')) :
    s' = s + (fs.map fun f => calls formula vals depth f.name).sum := by
  induction fs generalizing s with
  | nil => simp [liveRunAll] at hv; simp [hv]
  | cons f fs ih =>
    have hf := hfs f (List.mem_cons_self ..)
    simp only [List.map_cons, liveRunAll] at hv
    obtain ⟨_, s₁, h1, h2⟩ := Prog.andThen_ok hv
    have h3 := ih (fun g hg => hfs g (List.mem_cons_of_mem _ hg)) h2
    have hfind : (sheet d formula depth).desc.find? f.name = some f := find?_of_mem h.names hf
    simp only [liveValidateField, hfind] at h1
    obtain ⟨v, s₂, h4, h5⟩ := Prog.andThen_ok h1
    obtain ⟨w, hw⟩ := liveGetItem_calls h (List.mem_map.2 ⟨f, hf, rfl⟩) s
    rw [hw] at h4
    obtain ⟨_, s₃, h6, h7⟩ := Prog.andThen_ok h5
    have e6 := (Prog.pure_ok h6).2
    have e7 := (Prog.pure_ok h7).2
    simp only [Prod.mk.injEq] at h4
    rw [h3, ← e7, ← e6, ← h4.2, List.map_cons, List.sum_cons]
    omega

theorem whatever_calls (h : Sheet d formula vals rank depth) {fs : List Field} (hfs : ∀ f ∈ fs, f ∈ d.components) (acc : Dict) (s : Nat) :
    ∃ dct, liveWhateverLoop (sheet d formula depth) vals fs acc s =
        (.ok dct, s + (fs.map fun f => calls formula vals depth f.name).sum) ∧
      (∀ k ∈ Dict.keys acc, k ∈ Dict.keys dct) ∧ ∀ f ∈ fs, f.name ∈ Dict.keys dct := by
  induction fs generalizing acc s with
  | nil => exact ⟨acc, by simp [liveWhateverLoop], fun _ hk => hk, by simp⟩
  | cons f fs ih =>
    obtain ⟨v, hv⟩ := computeValue_calls h (hfs f (List.mem_cons_self ..)) s
    obtain ⟨dct, h1, h2, h3⟩ := ih (fun g hg => hfs g (List.mem_cons_of_mem _ hg)) (acc.set f.name v)
      (s + calls formula vals depth f.name)
    have hset : ∀ k, k ∈ Dict.keys acc ∨ k = f.name → k ∈ Dict.keys (Dict.set acc f.name v) := by
      intro k hk
      rw [Dict.keys_set]
      split
      · rename_i hc
        rcases hk with hk | rfl
        · exact hk
        · exact hc
      · simpa using hk
    refine ⟨dct, ?_, fun k hk => h2 k (hset k (.inl hk)), ?_⟩
    · simp only [liveWhateverLoop, hv, h1, List.map_cons, List.sum_cons]
      rw [Nat.add_assoc]
    · intro g hg
      rcases List.mem_cons.1 hg with rfl | hg
      · exact h2 _ (hset _ (.inr rfl))
      · exact h3 g hg

variable {S : Type}

theorem chain_still {c : LiveClass S} {dct : Dict} {ks : List String} (h : ∀ k ∈ ks, k ∈ Dict.keys dct) (s : S) :
    ∃ r, liveChainLoop c vals dct ks s = (.ok r, s) ∧ Dict.keys r = ks := by
  induction ks with
  | nil => exact ⟨[], rfl, rfl⟩
  | cons k ks ih =>
    obtain ⟨r, hr, hk⟩ := ih fun k hk => h k (List.mem_cons_of_mem _ hk)
    cases hg : Dict.get? dct k with
    | none => exact absurd (h k (List.mem_cons_self ..)) ((Dict.get?_none_iff _ _).1 hg)
    | some v =>
      refine ⟨(k, v) :: r, ?_, ?_⟩
      · simp only [liveChainLoop, hg, Prog.andThen, Prog.pure_apply, hr]
      · simp only [Dict.keys, List.map_cons] at hk ⊢
        rw [hk]

theorem missing_still {c : LiveClass S} {dct : Dict} {fs : List Field} (h : ∀ f ∈ fs, f.name ∈ Dict.keys dct) (s : S) :
    liveMissingLoop c dct fs s = (.ok [], s) := by
  induction fs with
  | nil => rfl
  | cons f fs ih =>
    simp only [liveMissingLoop, (Dict.contains_iff _ _).2 (h f (List.mem_cons_self ..)), if_true]
    exact ih fun g hg => h g (List.mem_cons_of_mem _ hg)

theorem toDictShallow_calls (h : Sheet d formula vals rank depth) (s : Nat) :
    ∃ dct, liveToDictShallow (sheet d formula depth) vals s = (.ok dct, s + totalCalls d formula vals depth) ∧
      ∀ f ∈ d.components, f.name ∈ Dict.keys dct := by
  obtain ⟨raw, h1, -, h3⟩ := whatever_calls h (fun f hf => hf) [] s
  have hall : ∀ k ∈ definedKeys vals ++ (Dict.keys raw).filter (fun k => !(definedKeys vals).contains k), k ∈ Dict.keys raw := by
    intro k hk
    rcases List.mem_append.1 hk with hk | hk
    · obtain ⟨v, hv, -⟩ := (mem_definedKeys h.inst.1).1 hk
      obtain ⟨f, hf, rfl⟩ := List.mem_map.1 (h.inst.2 k (Dict.get?_some_key hv))
      exact h3 f hf
    · exact (List.mem_filter.1 hk).1
  obtain ⟨dct, h4, h5⟩ := chain_still (c := sheet d formula depth) (vals := vals) hall
    (s + (d.components.map fun f => calls formula vals depth f.name).sum)
  have hk : ∀ f ∈ d.components, f.name ∈ Dict.keys dct := by
    intro f hf
    rw [h5]
    by_cases hc : f.name ∈ definedKeys vals
    · exact List.mem_append_left _ hc
    · exact List.mem_append_right _ (List.mem_filter.2 ⟨h3 f hf, by simp [hc]⟩)
  have hnil : d.components.filter (·.base.discard) = [] := by
    rw [List.filter_eq_nil_iff]
    intro f hf; simp [h.discard f hf]
  refine ⟨dct, ?_, hk⟩
  have hw : liveWhateverPossible (sheet d formula depth) vals s = (.ok dct, s + totalCalls d formula vals depth) := by
    have h1' : liveWhateverLoop (sheet d formula depth) vals (sheet d formula depth).desc.components [] s = _ := h1
    simp only [liveWhateverPossible, Prog.andThen, h1', h4, totalCalls]
  have hm := missing_still (c := sheet d formula depth) hk (s + totalCalls d formula vals depth)
  have hm' : liveMissingLoop (sheet d formula depth) dct (sheet d formula depth).desc.components _ = _ := hm
  have hnil' : (sheet d formula depth).desc.components.filter (·.base.discard) = [] := hnil
  simp only [liveToDictShallow, Prog.andThen, hw, hm', hnil', Prog.pure_apply, Dict.update, List.foldl_nil]

/-- Turning values into dictionaries makes no calls when there are no struct classes. -/
theorem toDicts_still {C : LiveClasses S} (hC : ∀ cls, C cls = none) (n : Nat) (v : Value) (s : S) :
    (liveToDicts C n v s).2 = s := by
  have := liveToDicts_eq (C := C) (fun cls c h => by rw [hC] at h; simp at h) n v s
  rw [this]

theorem mapE_live_still {α β : Type} {G : α → Prog S β} (h : ∀ a s, (G a s).2 = s) (l : List α) (s : S) : (liveMapE G l s).2 = s := by
  induction l generalizing s with
  | nil => rfl
  | cons a l ih =>
    simp only [liveMapE, Prog.andThen]
    have h1 := h a s
    revert h1
    rcases G a s with ⟨r, s₁⟩
    intro h1
    simp only at h1
    subst h1
    cases r with
    | error e => rfl
    | ok b =>
      simp only
      have h2 := ih s₁
      revert h2
      rcases liveMapE G l s₁ with ⟨r, s₂⟩
      intro h2
      cases r <;> exact h2

theorem mapDictE_live_still {G : Value → Prog S Value} (h : ∀ a s, (G a s).2 = s) (D : Dict) (s : S) : (liveMapDictE G D s).2 = s := by
  refine mapE_live_still ?_ D s
  intro p s
  simp only [Prog.andThen]
  have h1 := h p.2 s
  revert h1
  rcases G p.2 s with ⟨r, s₁⟩
  intro h1
  cases r <;> exact h1

theorem dumpFields_still {toStream : Field → Value → W} {all : Dict} {ctx : Value} {fs : List Field}
    (h : ∀ f ∈ fs, f.name ∈ Dict.keys all) (s : Nat) :
    (liveDumpFields (sheet d formula depth) toStream all ctx fs s).2 = s := by
  induction fs generalizing s with
  | nil => rfl
  | cons f fs ih =>
    have ih' := fun s => ih (fun g hg => h g (List.mem_cons_of_mem _ hg)) s
    have hstill : ((sheet d formula depth).computeValueForDump f.base all.view.live ctx s).2 = s := by
      have hc : (all.view.live : LiveView Nat).contains f.base.name = true :=
        (Dict.contains_iff _ _).2 (h f (List.mem_cons_self ..))
      have hget : (all.view.live : LiveView Nat).get f.base.name s = (all.view.get f.base.name, s) := rfl
      unfold LiveClass.computeValueForDump
      simp only [hc, if_true, Prog.andThen, hget]
      cases all.view.get f.base.name with
      | error e => rfl
      | ok v =>
        simp only
        split <;> rfl
    simp only [liveDumpFields]
    revert hstill
    rcases (sheet d formula depth).computeValueForDump f.base all.view.live ctx s with ⟨r, s₁⟩
    intro hstill
    simp only at hstill
    subst hstill
    cases r with
    | error e => rfl
    | ok v =>
      simp only
      split
      · exact ih' _
      · rcases toStream f v with ⟨bs, r⟩
        cases r with
        | error e => rfl
        | ok _ => exact ih' _

theorem toStream_calls (h : Sheet d formula vals rank depth) {C : LiveClasses Nat} (hC : ∀ cls, C cls = none) {n s s₁ : Nat} {ctx : Value}
    (hv : liveValidate (sheet d formula depth) vals s = (.ok (), s₁)) :
    (liveToStream C n (sheet d formula depth) vals ctx s).2 = s + 2 * totalCalls d formula vals depth := by
  have hs₁ : s₁ = s + totalCalls d formula vals depth := by
    unfold liveValidate at hv
    obtain ⟨_, s₂, h1, h2⟩ := Prog.andThen_ok hv
    have h3 := validate_calls h (fun f hf => hf) h1
    have h4 := (Prog.pure_ok h2).2
    rw [← h4, h3]; rfl
  simp only [liveToStream, hv]
  obtain ⟨dct, h1, h2⟩ := toDictShallow_calls h s₁
  have hstill := mapDictE_live_still (toDicts_still hC n) dct (s₁ + totalCalls d formula vals depth)
  simp only [liveToDict, Prog.andThen, h1]
  cases hm : liveMapDictE (liveToDicts C n) dct (s₁ + totalCalls d formula vals depth) with
  | mk r s₂ =>
    rw [hm] at hstill
    simp only at hstill
    subst hstill
    cases r with
    | error e => simp only [hs₁]; omega
    | ok all =>
      have hk : Dict.keys dct = Dict.keys all := (liveMapDictE_ok hm).map_eq fun _ _ h => h.1
      simp only
      have := dumpFields_still (d := d) (formula := formula) (depth := depth)
        (toStream := fun f v => fieldToStream C.plain n f v ctx all) (ctx := ctx) (fs := d.components)
        (fun f hf => hk ▸ h2 f hf) (s₁ + totalCalls d formula vals depth)
      have e : (sheet d formula depth).desc.components = d.components := rfl
      rw [e, this, hs₁]; omega

theorem mem_le_listSum {l : List Nat} {a : Nat} (h : a ∈ l) : a ≤ l.sum := by
  induction l with
  | nil => simp at h
  | cons b l ih =>
    rw [List.sum_cons]
    rcases List.mem_cons.1 h with rfl | h
    · omega
    · have := ih h; omega

theorem listSum_eq_zero {l : List Nat} (h : ∀ a ∈ l, a = 0) : l.sum = 0 := by
  induction l with
  | nil => rfl
  | cons b l ih =>
    rw [List.sum_cons, h b (List.mem_cons_self ..), ih fun a ha => h a (List.mem_cons_of_mem _ ha)]

end Verif
