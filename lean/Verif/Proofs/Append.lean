import Verif.Spec.Append
import Verif.Proofs.Splice
import Verif.Proofs.RoundTrip
import Verif.Proofs.Robust

/-! Helper lemmas about files that grow at the end. -/

namespace Verif
open Spec

theorem haltCheck_open {name : String} {ctx : Value} {loaded : Dict} (s : Stream) (acc : List Value) :
    haltCheck name .none none ctx loaded s acc = .ok (decide (s.rest = []), acc) := by
  simp [haltCheck, shouldHalt_none, Except.map]

/-- The loop of an array without a count, started with some values. -/
theorem open_loop_acc {name : String} {ctx : Value} {loaded : Dict} {load : Stream → R Value} (xs : List Value) :
    ∀ (j : Nat) (acc : List Value) (s : Stream), arrayLoop (haltCheck name .none none ctx loaded) load j (xs ++ acc) s =
      R.map (arrayLoop (haltCheck name .none none ctx loaded) load j acc s) (xs ++ ·) := by
  intro j
  induction j with
  | zero =>
    intro acc s
    rw [arrayLoop.eq_def, arrayLoop.eq_def]
    simp only [haltCheck_open]
    cases decide (s.rest = []) with
    | true => rfl
    | false =>
      simp only
      rcases load s with ⟨r, t⟩
      cases r <;> rfl
  | succ j ih =>
    intro acc s
    rw [arrayLoop.eq_def, arrayLoop.eq_def]
    simp only [haltCheck_open]
    cases decide (s.rest = []) with
    | true => rfl
    | false =>
      simp only
      rcases load s with ⟨r, t⟩
      cases r with
      | error e => rfl
      | ok v =>
        simp only
        split
        · exact ih acc t
        · rw [List.append_assoc]; exact ih (acc ++ [v]) t

/-- What was read to the end of the data is read the same when there is more, and then reading goes on from there. -/
theorem open_loop {name : String} {ctx : Value} {loaded : Dict} {load : Stream → R Value} (hF : Forward load)
    (hL : Local true load) : ∀ (fuel : Nat) (acc : List Value) (pre data : Bytes) (l : List Value) (t : Stream),
    arrayLoop (haltCheck name .none none ctx loaded) load fuel acc ⟨pre ++ data, pre.length⟩ = (.ok l, t) →
    t = ⟨pre ++ data, pre.length + data.length⟩ ∧ ∃ xs k, l = acc ++ xs ∧ ∀ load' : Stream → R Value,
      (∀ s v t, load s = (.ok v, t) → load' s = (.ok v, t)) → ∀ extra j,
      arrayLoop (haltCheck name .none none ctx loaded) load' (k + j) acc ⟨pre ++ data ++ extra, pre.length⟩ =
        arrayLoop (haltCheck name .none none ctx loaded) load' j (acc ++ xs) ⟨pre ++ data ++ extra, pre.length + data.length⟩ := by
  intro fuel
  induction fuel with
  | zero =>
    intro acc pre data l t h
    rw [arrayLoop.eq_def] at h
    simp only [haltCheck_open, rest_mid] at h
    cases data with
    | nil =>
      simp only [decide_true, Prod.mk.injEq, Except.ok.injEq] at h
      obtain ⟨rfl, rfl⟩ := h
      exact ⟨by simp, [], 0, by simp, by simp⟩
    | cons c cs =>
      simp only [reduceCtorEq, decide_false] at h
      split at h
      · cases h
      · cases h
  | succ fuel ih =>
    intro acc pre data l t h
    rw [arrayLoop.eq_def] at h
    simp only [haltCheck_open, rest_mid] at h
    by_cases hd : data = []
    · subst hd
      simp only [decide_true, Prod.mk.injEq, Except.ok.injEq] at h
      obtain ⟨rfl, rfl⟩ := h
      exact ⟨by simp, [], 0, by simp, by simp⟩
    · simp only [hd, decide_false] at h
      cases hv : load ⟨pre ++ data, pre.length⟩ with
      | mk r u =>
        rw [hv] at h
        cases r with
        | error e => cases h
        | ok v =>
          simp only at h
          have hv' : load ⟨pre ++ data ++ [], pre.length⟩ = (.ok v, u) := by rw [List.append_nil]; exact hv
          have hu : u.pos ≤ pre.length + data.length := by
            have := hF ⟨pre ++ data, pre.length⟩ (by simp)
            rw [hv] at this
            simpa using this.2.2
          obtain ⟨u1, u2, rfl, rfl⟩ := split_used hF hv' hu
          have e1 : (⟨pre ++ (u1 ++ u2) ++ [], pre.length + u1.length⟩ : Stream) = ⟨(pre ++ u1) ++ u2, (pre ++ u1).length⟩ := by simp
          rw [e1] at h
          obtain ⟨h1, xs, k, h2, h3⟩ := ih _ _ _ _ _ h
          refine ⟨by rw [h1]; simp [Nat.add_assoc], (if v = .notPresent then [] else [v]) ++ xs, k + 1, ?_, ?_⟩
          · rw [h2]
            split <;> simp
          · intro load' hle extra j
            have hl : load ⟨pre ++ (u1 ++ u2) ++ extra, pre.length⟩ = (.ok v, ⟨pre ++ (u1 ++ u2) ++ extra, pre.length + u1.length⟩) :=
              Spec.Local.first hL hv' (Or.inr rfl) extra
            rw [show k + 1 + j = (k + j) + 1 from by omega, arrayLoop.eq_def]
            simp only [haltCheck_open, List.append_assoc pre, rest_mid]
            have hne : ¬ (u1 ++ u2 ++ extra = []) := by
              intro hx
              exact hd (List.append_eq_nil_iff.1 hx).1
            simp only [hne, decide_false]
            rw [List.append_assoc pre] at hl
            rw [hle _ _ _ hl]
            simp only
            have h4 := h3 load' hle extra j
            have e2 : (⟨pre ++ u1 ++ u2 ++ extra, (pre ++ u1).length⟩ : Stream) = ⟨pre ++ (u1 ++ u2 ++ extra), pre.length + u1.length⟩ := by simp
            have e3 : (⟨pre ++ u1 ++ u2 ++ extra, (pre ++ u1).length + u2.length⟩ : Stream) =
                ⟨pre ++ (u1 ++ u2 ++ extra), pre.length + (u1 ++ u2).length⟩ := by simp [Nat.add_assoc]
            rw [e2, e3] at h4
            rw [h4]
            congr 1
            split <;> simp

/-- What `Array.from_stream` makes of the outcome of its loop. -/
def arrayOutcome (name : String) : R (List Value) → R Value
  | (.error e, t) => (.error (setErrField name e), t)
  | (.ok l, t) => (.ok (.list l), t)

/-- `from_stream` of an array that is always there, without validators: the loop. -/
theorem open_array {Γ : Classes} {m : Nat} {b : FieldBase} {comp : Field} {count : Count} (hb : Always b ∧ b.const = .undefined ∧ b.validators = [])
    (s : Stream) (ctx : Value) (loaded : Dict) :
    fieldFromStream Γ (m + 2) (.array b comp count none) s ctx loaded =
      arrayOutcome b.name (arrayLoop (haltCheck b.name count none ctx loaded) (fun s => fieldFromStream Γ m comp s ctx loaded) m [] s) := by
  obtain ⟨⟨h1, h2⟩, h3, h4⟩ := hb
  rw [fieldFromStream]
  show fromStreamWith b _ _ _ s ctx loaded = _
  rw [fromStreamWith_plain (h1 _ _ _) (Or.inl (allowNull_false h2))]
  unfold loadAndFinish
  simp only [fieldDoLoad_array]
  rcases arrayLoop (haltCheck b.name count none ctx loaded) (fun s => fieldFromStream Γ m comp s ctx loaded) m [] s with ⟨r, t⟩
  cases r with
  | error e => rfl
  | ok l =>
    simp only [R.map, Except.map, arrayOutcome]
    rw [finishLoad_plain (Or.inl (allowNull_false h2)) (Or.inl h3) (by rw [h4]; simp)]

theorem loadFields_last {Γ : Classes} {n : Nat} {ctx : Value} {f : Field} {fs : List Field} {acc m : Dict} {s t u : Stream} {e : Err}
    (h : Loads Γ n ctx fs acc s m t) (hf : fieldFromStream Γ n f t ctx m = (.error e, u)) :
    loadFields (fun f s loaded => fieldFromStream Γ n f s ctx loaded) (fs ++ [f]) acc s = (.error e, u) := by
  induction h with
  | nil => simp [loadFields, hf]
  | cons h1 h2 ih =>
    simp only [List.cons_append, loadFields, h1]
    rw [setDefault_eq]
    exact ih hf

/-- A size field, once loaded, is not negative. -/
theorem sizes_step {Γ : Classes} {d : StructDesc} (hz : SizeFieldsNonNeg Γ d) {n : Nat} {ctx : Value} {g : Field} (hg : g ∈ d.components)
    {loaded : Dict} {s t : Stream} {v : Value} (hi : ∀ f ∈ d.components, SizesNonNeg f loaded)
    (hl : fieldFromStream Γ n g s ctx loaded = (.ok v, t)) : ∀ f ∈ d.components, SizesNonNeg f (loaded.setDefault g.name v) := by
  intro f hf r i hr hget
  rw [Dict.get?_setDefault] at hget
  split at hget
  · rename_i hk
    simp only [Option.some.injEq] at hget
    subst hget
    exact hz f hf r hr g hg hk.1 n s ctx loaded i t hl
  · exact hi f hf r i hr hget

theorem loads_sizes {Γ : Classes} {d : StructDesc} (hz : SizeFieldsNonNeg Γ d) {n : Nat} {ctx : Value} {fs : List Field}
    (hfs : ∀ f ∈ fs, f ∈ d.components) {acc r : Dict} {s t : Stream} (h : Loads Γ n ctx fs acc s r t)
    (hi : ∀ f ∈ d.components, SizesNonNeg f acc) : ∀ f ∈ d.components, SizesNonNeg f r := by
  induction h with
  | nil => exact hi
  | cons h1 h2 ih =>
    refine ih (fun f hf => hfs f (List.mem_cons_of_mem _ hf)) ?_
    rw [← setDefault_eq]
    exact sizes_step hz (hfs _ List.mem_cons_self) hi h1

/-- What is known after a class that ends in an open array was loaded. -/
structure Resumes (Γ : Classes) (header : List Field) (b : FieldBase) (comp : Field) (ctx : Value) (pre data : Bytes) (all : Dict)
    (xs : List Value) (n k : Nat) (used : Nat) : Prop where
  keys : Dict.keys all = header.map Field.name
  start : ∀ extra, Loads Γ n ctx header [] ⟨pre ++ data ++ extra, pre.length⟩ all ⟨pre ++ data ++ extra, pre.length + used⟩
  loop : ∀ N, n ≤ N → ∀ extra j, arrayLoop (haltCheck b.name .none none ctx all) (fun s => fieldFromStream Γ N comp s ctx all) (k + j) []
      ⟨pre ++ data ++ extra, pre.length + used⟩ =
    arrayLoop (haltCheck b.name .none none ctx all) (fun s => fieldFromStream Γ N comp s ctx all) j xs
      ⟨pre ++ data ++ extra, pre.length + data.length⟩

theorem openEnded_resumes {Γ : Classes} {d : StructDesc} {header : List Field} {b : FieldBase} {comp : Field} (ho : OpenEnded Γ d header b comp)
    (hΓ : Enclosed Γ) {n : Nat} {ctx : Value} {pre data : Bytes} {r : Dict} {t : Stream}
    (h : structFromStream Γ n d ⟨pre ++ data, pre.length⟩ ctx [] = (.ok r, t)) :
    t = ⟨pre ++ data, pre.length + data.length⟩ ∧ ∃ all xs n' k used, r = dropDiscarded d (all ++ [(b.name, .list xs)]) ∧
      Resumes Γ header b comp ctx pre data all xs n' k used := by
  have h := structFromStream_of_le (show n ≤ n + 2 + 1 by omega) h
  obtain ⟨results, hl, _, _, rfl⟩ := structFromStream_ok_iff.1 h
  rw [ho.components] at hl
  obtain ⟨all, t1, hl1, hl2⟩ := Spec.Loads.append.1 hl
  have hu := ho.unique
  unfold UniqueNames names at hu
  rw [ho.components, List.map_append, List.map_cons, List.map_nil] at hu
  have hk : Dict.keys all = header.map Field.name := by
    have := hl1.keys_eq (by simpa [Dict.keys] using (List.nodup_append.1 hu).1)
    simpa [Dict.keys] using this
  have hmem : ∀ f ∈ header, f ∈ d.components := by intro f hf; rw [ho.components]; simp [hf]
  have harr : Field.array b comp .none none ∈ d.components := by rw [ho.components]; simp
  have h0 : ∀ f ∈ d.components, SizesNonNeg f [] := fun f _ r i _ hg => by simp [Dict.get?] at hg
  have hF : Forward (loadFields (fun f s acc => fieldFromStream Γ (n + 2) f s ctx acc) header []) :=
    loadFields_forward (fun f hm loaded => (load_forward Γ hΓ.forward (n + 2)).1 f (ho.forward.1 f hm) ctx loaded) []
  have hloc : Local true (loadFields (fun f s acc => fieldFromStream Γ (n + 2) f s ctx acc) header []) :=
    loadFields_local (I := fun loaded => ∀ f ∈ d.components, SizesNonNeg f loaded)
      (fun g hg loaded s v t hi hload => sizes_step ho.sizes (hmem g hg) hi hload)
      (fun f hf loaded => (load_forward Γ hΓ.forward (n + 2)).1 f (ho.forward.1 f hf) ctx loaded)
      (fun f hf loaded hi => (load_local true Γ hΓ.forward hΓ.behind (fun _ => hΓ.limited) (n + 2)).1 f (ho.forward.1 f hf) (ho.behind.1 f hf)
        (fun _ => ho.limited.1 f hf) ctx loaded (fun _ => hi f (hmem f hf))) [] h0
  have hsz : SizesNonNeg comp all := fun r i hr hg => loads_sizes ho.sizes hmem hl1 h0 _ harr r i (.array hr) hg
  have hl1' := loadFields_ok_iff.2 hl1
  have hpos : t1.pos ≤ pre.length + data.length := by
    have := hF ⟨pre ++ data, pre.length⟩ (by simp)
    rw [hl1'] at this
    simpa using this.2.2
  have e0 : (⟨pre ++ data, pre.length⟩ : Stream) = ⟨pre ++ data ++ [], pre.length⟩ := by simp
  rw [e0] at hl1'
  obtain ⟨used, body, rfl, rfl⟩ := split_used hF hl1' hpos
  have hstart : ∀ extra, Loads Γ (n + 2) ctx header [] ⟨pre ++ (used ++ body) ++ extra, pre.length⟩ all
      ⟨pre ++ (used ++ body) ++ extra, pre.length + used.length⟩ :=
    fun extra => loadFields_ok_iff.1 (Spec.Local.first hloc hl1' (Or.inr rfl) extra)
  cases hl2 with
  | @cons _ _ _ _ w _ s1 _ h1 h2 =>
    cases h2
    have hnew : Dict.get? all (Field.array b comp .none none).name = none := by
      rw [Dict.get?_none_iff, hk]
      intro hc
      exact (List.nodup_append.1 hu).2.2 _ hc _ (List.mem_singleton.2 rfl) rfl
    rw [if_pos hnew] at *
    rw [open_array ho.plain] at h1
    have e1 : (⟨pre ++ (used ++ body) ++ [], pre.length + used.length⟩ : Stream) = ⟨(pre ++ used) ++ body, (pre ++ used).length⟩ := by simp
    rw [e1] at h1
    cases hv : arrayLoop (haltCheck b.name .none none ctx all) (fun s => fieldFromStream Γ n comp s ctx all) n []
        ⟨(pre ++ used) ++ body, (pre ++ used).length⟩ with
    | mk q u =>
      rw [hv] at h1
      cases q with
      | error e => cases h1
      | ok l =>
        cases h1
        have hFc := (load_forward Γ hΓ.forward n).1 comp ho.forward.2 ctx all
        have hLc := (load_local true Γ hΓ.forward hΓ.behind (fun _ => hΓ.limited) n).1 comp ho.forward.2 ho.behind.2
          (fun _ => ho.limited.2) ctx all (fun _ => hsz)
        obtain ⟨ht, xs, k, hx, hloop⟩ := open_loop hFc hLc n [] (pre ++ used) body l _ hv
        have hx : l = xs := hx
        subst hx
        refine ⟨by rw [ht]; simp [Nat.add_assoc], all, l, n + 2, k, used.length, rfl, hk, hstart, ?_⟩
        intro N hN extra j
        have h3 := hloop (fun s => fieldFromStream Γ N comp s ctx all) (fun s v t h => fieldFromStream_of_le (by omega) h) extra j
        have e2 : (⟨pre ++ used ++ body ++ extra, (pre ++ used).length⟩ : Stream) = ⟨pre ++ (used ++ body) ++ extra, pre.length + used.length⟩ := by simp
        have e3 : (⟨pre ++ used ++ body ++ extra, (pre ++ used).length + body.length⟩ : Stream) =
            ⟨pre ++ (used ++ body) ++ extra, pre.length + (used ++ body).length⟩ := by simp [Nat.add_assoc]
        rw [e2, e3] at h3
        exact h3

/-- The array, loaded from what was there before and what was added. -/
theorem Resumes.array {Γ : Classes} {header : List Field} {b : FieldBase} {comp : Field} {ctx : Value} {pre data : Bytes} {all : Dict}
    {xs : List Value} {n k used : Nat} (h : Resumes Γ header b comp ctx pre data all xs n k used)
    (hb : Always b ∧ b.const = .undefined ∧ b.validators = []) (extra : Bytes) {m : Nat} {r : Except Err Value} {u : Stream}
    (hm : fieldFromStream Γ m (.array b comp .none none) ⟨pre ++ data ++ extra, pre.length + data.length⟩ ctx all = (r, u))
    (hr : r ≠ .error .outOfFuel) :
    ∃ M, n ≤ M ∧ ∃ l : Except Err (List Value), r = (arrayOutcome b.name (l, u)).1 ∧
      fieldFromStream Γ M (.array b comp .none none) ⟨pre ++ data ++ extra, pre.length + used⟩ ctx all =
        arrayOutcome b.name (l.map (xs ++ ·), u) := by
  have h1 : fieldFromStream Γ (m + 2) (.array b comp .none none) ⟨pre ++ data ++ extra, pre.length + data.length⟩ ctx all = (r, u) := by
    rcases fieldFromStream_mono Γ (show m ≤ m + 2 by omega) (.array b comp .none none) ⟨pre ++ data ++ extra, pre.length + data.length⟩ ctx all
      with h2 | h2
    · rw [hm] at h2; exact absurd h2 hr
    · rw [← h2, hm]
  rw [open_array hb] at h1
  refine ⟨n + m + k + 2, by omega, ?_⟩
  rw [open_array hb, show n + m + k = k + (n + m) by omega, h.loop (k + (n + m)) (by omega)]
  have h3 := open_loop_acc (name := b.name) (ctx := ctx) (loaded := all) (load := fun s => fieldFromStream Γ (k + (n + m)) comp s ctx all) xs (n + m) []
    ⟨pre ++ data ++ extra, pre.length + data.length⟩
  rw [List.append_nil] at h3
  rw [h3]
  have h4 := arrayLoop_mono (halt := haltCheck b.name .none none ctx all)
    (fun s => fieldFromStream_mono Γ (show m ≤ k + (n + m) by omega) comp s ctx all) m (n + m) []
    ⟨pre ++ data ++ extra, pre.length + data.length⟩ (by omega)
  cases hv : arrayLoop (haltCheck b.name .none none ctx all) (fun s => fieldFromStream Γ m comp s ctx all) m []
      ⟨pre ++ data ++ extra, pre.length + data.length⟩ with
  | mk q v =>
    rw [hv] at h1 h4
    have hq : q ≠ .error .outOfFuel := by
      rintro rfl
      cases h1
      exact hr rfl
    have hv' : v = u := by cases q <;> exact (Prod.mk.inj h1).2
    subst hv'
    rcases h4 with h4 | h4
    · exact absurd h4 hq
    · rw [← h4]
      refine ⟨q, ?_, rfl⟩
      rw [h1]

end Verif
