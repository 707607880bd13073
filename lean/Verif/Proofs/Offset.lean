import Verif.Spec.Offset
import Verif.Proofs.Frame
import Verif.Proofs.Size
import Verif.Proofs.Locality
import Verif.Proofs.StructLoad

namespace Verif
open Spec

/-! ### Fields that do not look at others -/

theorem expectedSizeWith_off {S : String → Prop} {b : FieldBase} {sf : Value → Except Err (Option Int)}
    {nr nr' : Except Err Bytes} {a a' : Dict} (hb : BaseReadsOff S b) (hn : nr = nr') (ha : AgreeOff S a a') :
    b.expectedSizeWith sf nr a = b.expectedSizeWith sf nr' a' := by
  subst hn
  unfold FieldBase.expectedSizeWith
  cases hs : b.size with
  | fixed k => rfl
  | none =>
    have h1 : b.sizingValue a = b.sizingValue a' := by unfold FieldBase.sizingValue; rw [ha _ (hb.name hs)]
    simp only [h1]
  | ref r => simp only [sizeFromRef, ha _ (hb.size r hs)]

theorem nullReprWith_plain {b : FieldBase} (h : PlainNull b) (d d' : Value → W) (e : Except Err Int) :
    b.nullReprWith d e = b.nullReprWith d' e := by
  unfold FieldBase.nullReprWith
  rcases h with h | h | h | ⟨bs, h⟩ <;> rw [h]

theorem containerNullRepr_off {S : String → Prop} {b : FieldBase} {d d' : Value → W} {a a' : Dict} (hb : BaseReadsOff S b)
    (ha : AgreeOff S a a') (h : PlainNull b ∨ ∀ v, d v = d' v) :
    containerNullRepr b d a = containerNullRepr b d' a' := by
  have hn : ∀ e, b.nullReprWith d e = b.nullReprWith d' e := by
    intro e
    rcases h with h | h
    · exact nullReprWith_plain h _ _ _
    · rw [show d = d' from funext h]
  unfold containerNullRepr
  have he : containerExpectedSize b d a = containerExpectedSize b d' a' := by
    unfold containerExpectedSize
    exact expectedSizeWith_off hb (hn _) ha
  rw [he, hn]

theorem fromStreamWith_off {b : FieldBase} {S : String → Prop} {a a' : Dict} {eq : Value → Value → Except Err Bool}
    {n1 n2 : Except Err Bytes} {d1 d2 : Stream → R Value} (hb : BaseReadsOff S b) (ha : AgreeOff S a a') (hn : n1 = n2)
    (hd : ∀ s, d1 s = d2 s) (s : Stream) (ctx : Value) :
    fromStreamWith b eq n1 d1 s ctx a = fromStreamWith b eq n2 d2 s ctx a' := by
  subst hn
  have : d1 = d2 := funext hd
  subst this
  unfold fromStreamWith
  rw [hb.present _ _ ctx (some s) ha.view]

theorem unaware_doDump {S : String → Prop} {Γ : Classes} {n : Nat} {f : Field} (h : Unaware S f) (hl : ∀ b k, f ≠ .leaf b k)
    {a a' : Dict} (ha : AgreeOff S a a') (v ctx : Value) : fieldDoDump Γ n f v ctx a = fieldDoDump Γ n f v ctx a' := by
  cases h with
  | leaf hb hk => exact absurd rfl (hl _ _)
  | @array b comp count halt hb hc hcount =>
    simp only [fieldDoDump, containerDump]
    have h1 : (fun v => fieldToStream Γ n comp v ctx a) = fun v => fieldToStream Γ n comp v ctx a' :=
      funext fun v => hc.dump Γ n v ctx ha
    rw [h1]
    unfold arrayDump
    rw [finalElementCount_agree hcount ha]
  | nested hb => rfl
  | @union b cs ld dd hb hc hdd =>
    simp only [fieldDoDump, containerDump]
    rw [hdd v ctx a a' ha]
    split
    · rfl
    · rename_i i hi
      split
      · rfl
      · rename_i g hg
        exact (hc g (List.mem_of_getElem? hg)).dump Γ n v ctx ha
      · rfl

theorem Spec.ReadsOff.base {S : String → Prop} {f : Field} (h : ReadsOff S f) : BaseReadsOff S f.base := by
  cases h <;> assumption

theorem leafDump_off {S : String → Prop} {b : FieldBase} {k : Leaf}
    (hk : ∀ ops, k = .custom ops → ∀ v ctx a a', AgreeOff S a a' → ops.dump v ctx a = ops.dump v ctx a')
    {a a' : Dict} (ha : AgreeOff S a a') (e : Except Err Int) (v ctx : Value) :
    leafDump b k e v ctx a = leafDump b k e v ctx a' := by
  cases k <;> first | rfl | skip
  rename_i ops
  exact hk ops rfl v ctx a a' ha

theorem Spec.ReadsOff.nullRepr {S : String → Prop} {f : Field} (h : ReadsOff S f) (Γ : Classes) (n : Nat) {a a' : Dict}
    (ha : AgreeOff S a a') : fieldNullRepr Γ n f a = fieldNullRepr Γ n f a' := by
  cases h with
  | @leaf b k hb hk =>
    have hd := fun e v ctx => leafDump_off (b := b) (fun ops h => (hk ops h).2) ha e v ctx
    have he : leafExpectedSize b k a = leafExpectedSize b k a' := by
      simp only [leafExpectedSize]
      refine expectedSizeWith_off hb ?_ ha
      simp only [hd]
    simp only [fieldNullRepr, leafNullRepr, he, hd]
  | @array b comp count halt hb hc hcount hh hn =>
    simp only [fieldNullRepr]
    refine containerNullRepr_off hb ha (hn.imp id fun hu v => ?_)
    simp only [fieldDoDump, containerDump]
    have h1 : (fun v => fieldToStream Γ n comp v .none a) = fun v => fieldToStream Γ n comp v .none a' :=
      funext fun v => hu.dump Γ n v .none ha
    rw [h1]
    unfold arrayDump
    rw [finalElementCount_agree hcount ha]
  | nested hb =>
    simp only [fieldNullRepr]
    exact containerNullRepr_off hb ha (.inr fun v => rfl)
  | union hb hc hld hn =>
    simp only [fieldNullRepr]
    exact containerNullRepr_off hb ha (hn.imp id fun hu v => unaware_doDump hu (by simp) ha v .none)

/-- Loading a field that does not look at the fields in `S` does not depend on their values. -/
theorem Spec.ReadsOff.load {S : String → Prop} {f : Field} (h : ReadsOff S f) (Γ : Classes) {a a' : Dict}
    (ha : AgreeOff S a a') (n : Nat) (s : Stream) (ctx : Value) :
    fieldFromStream Γ n f s ctx a = fieldFromStream Γ n f s ctx a' ∧ fieldDoLoad Γ n f s ctx a = fieldDoLoad Γ n f s ctx a' := by
  have key : ∀ g : Field, ReadsOff S g → (∀ n s ctx, fieldDoLoad Γ n g s ctx a = fieldDoLoad Γ n g s ctx a') →
      ∀ n s ctx, fieldFromStream Γ n g s ctx a = fieldFromStream Γ n g s ctx a' := by
    intro g hg hd n s ctx
    cases n with
    | zero => rfl
    | succ n =>
      simp only [fieldFromStream]
      exact fromStreamWith_off hg.base ha (hg.nullRepr Γ n ha) (fun s => hd n s ctx) s ctx
  suffices hd : ∀ n s ctx, fieldDoLoad Γ n f s ctx a = fieldDoLoad Γ n f s ctx a' from ⟨key f h hd n s ctx, hd n s ctx⟩
  clear n s ctx
  induction h with
  | @leaf b k hb hk =>
    intro n s ctx
    cases n with
    | zero => rfl
    | succ n =>
      have hd := fun e v ctx => leafDump_off (b := b) (fun ops h => (hk ops h).2) ha e v ctx
      have he : leafExpectedSize b k a = leafExpectedSize b k a' := by
        simp only [leafExpectedSize]
        refine expectedSizeWith_off hb ?_ ha
        simp only [hd]
      simp only [fieldDoLoad]
      rw [he]
      cases k <;> first | rfl | skip
      rename_i ops
      exact (hk ops rfl).1 s ctx a a' ha
  | @array b comp count halt hb hc hcount hh hn ih =>
    intro n s ctx
    cases n with
    | zero => rfl
    | succ n =>
      simp only [fieldDoLoad, containerLoad]
      have h1 : (fun s => fieldFromStream Γ n comp s ctx a) = fun s => fieldFromStream Γ n comp s ctx a' :=
        funext fun s => key comp hc ih n s ctx
      have h2 : haltCheck b.name count halt ctx a = haltCheck b.name count halt ctx a' := by
        funext s vs
        unfold haltCheck
        cases halt with
        | none =>
          simp only
          unfold shouldHalt
          have := finalElementCount_agree hcount ha
          cases count <;> simp only [this]
        | some h => exact hh h rfl s vs ctx a a' ha
      rw [h1, h2]
  | nested hb =>
    intro n s ctx
    cases n <;> rfl
  | @union b cs ld dd hb hc hld hn ih =>
    intro n s ctx
    cases n with
    | zero => rfl
    | succ n =>
      simp only [fieldDoLoad, containerLoad]
      rw [hld s ctx a a' ha]
      split
      · rfl
      · rename_i i hi
        split
        · rfl
        · rename_i g hg
          exact ih g (List.mem_of_getElem? hg) n s ctx
        · rfl

/-! ### Fields that take a fixed number of bytes -/

/-- A field that is always present is loaded by `_do_load`, unless the bytes for `None` come next. -/
theorem fromStreamWith_always {b : FieldBase} {eq : Value → Value → Except Err Bool} {nullRepr : Except Err Bytes}
    {doLoad : Stream → R Value} {s t : Stream} {ctx v : Value} {loaded : Dict} (hb : AlwaysPresent b)
    (h : fromStreamWith b eq nullRepr doLoad s ctx loaded = (.ok v, t)) :
    (v = .none ∧ ∃ repr, nullRepr = .ok repr ∧ s.rest.take repr.length = repr ∧ t = s.seek (s.pos + repr.length)) ∨
    ∃ w, doLoad s = (.ok w, t) ∧ (v = w ∨ v = .none) := by
  have hfin : loadAndFinish b eq doLoad s = (.ok v, t) → ∃ w, doLoad s = (.ok w, t) ∧ (v = w ∨ v = .none) := by
    intro h
    unfold loadAndFinish at h
    split at h
    · simp at h
    · rename_i w u hw
      simp only [Prod.mk.injEq] at h
      obtain ⟨h1, rfl⟩ := h
      refine ⟨w, hw, ?_⟩
      unfold finishLoad at h1
      split at h1
      · simp at h1
      · rename_i isNull _
        simp only at h1
        split at h1
        · simp at h1
        · simp at h1
        · split at h1
          · simp at h1
          · cases isNull with
            | true => simp at h1; exact Or.inr h1.symm
            | false => simp at h1; exact Or.inl h1.symm
  unfold fromStreamWith at h
  rw [hb] at h
  simp only at h
  split at h
  · split at h
    · split at h
      · split at h
        · simp at h
        · exact .inr (hfin h)
      · simp at h
    · rename_i repr
      rw [peekBytes_eq] at h
      simp only at h
      split at h
      · rename_i hp
        split at h
        · simp at h
        · simp only [Prod.mk.injEq, Except.ok.injEq] at h
          exact .inl ⟨h.1.symm, repr, rfl, by simpa using hp, h.2.symm⟩
      · exact .inr (hfin h)
  · exact .inr (hfin h)

theorem leafLoad_not_notPresent {b : FieldBase} {k : Leaf} (hk : ReadsExactly k) {e : Except Err Int} {s t : Stream} {ctx : Value}
    {loaded : Dict} : leafLoad b k e s ctx loaded ≠ (.ok .notPresent, t) := by
  intro h
  cases k with
  | float fmt en =>
    simp only [leafLoad, R.andThen, Prod.mk.injEq] at h
    cases hr : (readExactSize b.name e s).1 with
    | error x => simp [hr, Except.bind] at h
    | ok x => simp only [hr, Except.bind] at h; split at h <;> simp at h
  | integer sg en =>
    simp only [leafLoad] at h
    split at h
    · rename_i m _
      simp only [R.map, Prod.mk.injEq] at h
      cases hr : (readInt s m sg en).1 <;> simp [hr, Except.map] at h
    · simp at h
  | varint enc m => exact absurd hk (by simp [ReadsExactly])
  | timestamp res tz sg en =>
    simp only [leafLoad] at h
    split at h
    · simp at h
    · rename_i m
      simp only [R.andThen, Prod.mk.injEq] at h
      cases hr : (readInt s m sg en).1 with
      | error x => simp [hr, Except.bind] at h
      | ok x =>
        simp only [hr, Except.bind] at h
        obtain ⟨y, -, hy⟩ := except_map_ok h.1
        simp at hy
  | bytes =>
    simp only [leafLoad, R.map, Prod.mk.injEq] at h
    obtain ⟨y, -, hy⟩ := except_map_ok h.1
    simp at hy
  | string c pad =>
    simp only [leafLoad, R.andThen, Prod.mk.injEq] at h
    cases hr : (readExactSize b.name e s).1 with
    | error x => simp [hr, Except.bind] at h
    | ok x =>
      simp only [hr, Except.bind] at h
      obtain ⟨y, -, hy⟩ := except_map_ok h.1
      simp at hy
  | stringz c pad => exact absurd hk (by simp [ReadsExactly])
  | uuid fmt =>
    simp only [leafLoad] at h
    split at h
    · simp at h
    · simp only [Prod.mk.injEq] at h
      obtain ⟨y, -, hy⟩ := except_map_ok h.1
      simp at hy
  | custom ops => exact absurd hk (by simp [ReadsExactly])

/-- The loop of an array with a fixed count, whose elements all take `k` bytes. -/
theorem arrayLoop_rigid {name : String} {count k : Nat} {ctx : Value} {loaded : Dict} {load : Stream → R Value}
    (hl : ∀ s v t, s.pos ≤ s.data.length → load s = (.ok v, t) →
      t.data = s.data ∧ t.pos = s.pos + k ∧ t.pos ≤ s.data.length ∧ v ≠ .notPresent)
    (fuel : Nat) (acc : List Value) (s : Stream) (hs : s.pos ≤ s.data.length) (vs : List Value) (t : Stream) (hacc : acc.length ≤ count)
    (h : arrayLoop (haltCheck name (.fixed count) none ctx loaded) load fuel acc s = (.ok vs, t)) :
    t.data = s.data ∧ t.pos = s.pos + (count - acc.length) * k ∧ t.pos ≤ s.data.length := by
  have hh : ∀ s vs, haltCheck name (.fixed count) none ctx loaded s vs = .ok (decide ((count : Int) ≤ vs.length), vs) := by
    intro s vs
    simp [haltCheck, shouldHalt, finalElementCount, Except.map]
  induction fuel generalizing acc s with
  | zero =>
    unfold arrayLoop at h
    rw [hh] at h
    by_cases hc : (count : Int) ≤ acc.length
    · simp only [hc, decide_true, Prod.mk.injEq, Except.ok.injEq] at h
      obtain ⟨-, rfl⟩ := h
      have : count - acc.length = 0 := by omega
      rw [this]; simp [hs]
    · simp only [hc, decide_false] at h
      split at h <;> simp at h
  | succ fuel ih =>
    unfold arrayLoop at h
    rw [hh] at h
    by_cases hc : (count : Int) ≤ acc.length
    · simp only [hc, decide_true, Prod.mk.injEq, Except.ok.injEq] at h
      obtain ⟨-, rfl⟩ := h
      have : count - acc.length = 0 := by omega
      rw [this]; simp [hs]
    · simp only [hc, decide_false] at h
      split at h
      · simp at h
      · rename_i v u hu
        obtain ⟨h1, h2, h3, h4⟩ := hl s v u hs hu
        rw [if_neg h4] at h
        obtain ⟨h5, h6, h7⟩ := ih (acc ++ [v]) u (by rw [h1]; exact h3) (by simp; omega) h
        refine ⟨by rw [h5, h1], ?_, by rw [← h1]; exact h7⟩
        have hsub : count - acc.length = (count - (acc ++ [v]).length) + 1 := by simp; omega
        rw [h6, h2, hsub, Nat.add_mul]
        omega

/-- A rigid field is loaded from exactly its size. -/
theorem Spec.Rigid.load {f : Field} {k : Nat} (hf : Rigid f k) {Γ : Classes} {n : Nat} {s t : Stream} {ctx v : Value} {loaded : Dict}
    (hs : s.pos ≤ s.data.length) (h : fieldFromStream Γ n f s ctx loaded = (.ok v, t)) :
    t.data = s.data ∧ t.pos = s.pos + k ∧ t.pos ≤ s.data.length ∧ v ≠ .notPresent := by
  have key : ∀ {g : Field} {j : Nat}, AlwaysPresent g.base → NullFits g → g.base.size = .fixed (j : Int) →
      (∀ n s t v, s.pos ≤ s.data.length → fieldDoLoad Γ n g s ctx loaded = (.ok v, t) →
        t.data = s.data ∧ t.pos = s.pos + j ∧ t.pos ≤ s.data.length ∧ v ≠ .notPresent) →
      ∀ n s t v, s.pos ≤ s.data.length → fieldFromStream Γ n g s ctx loaded = (.ok v, t) →
        t.data = s.data ∧ t.pos = s.pos + j ∧ t.pos ≤ s.data.length ∧ v ≠ .notPresent := by
    intro g j hp hn hsz hd n s t v hs h
    cases n with
    | zero => simp [fieldFromStream] at h
    | succ n =>
      simp only [fieldFromStream] at h
      rcases fromStreamWith_always hp h with ⟨rfl, repr, h1, h2, rfl⟩ | ⟨w, h1, h2⟩
      · have hlen := nullFits_length hn hsz h1
        have h3 := congrArg List.length h2
        simp only [List.length_take, Stream.rest, List.length_drop] at h3
        refine ⟨rfl, ?_, ?_, by simp⟩
        · simp only [Stream.seek]; omega
        · simp only [Stream.seek]; omega
      · obtain ⟨h3, h4, h5, h6⟩ := hd n s t w hs h1
        refine ⟨h3, h4, h5, ?_⟩
        rcases h2 with rfl | rfl
        · exact h6
        · simp
  suffices hall : ∀ n s t v, s.pos ≤ s.data.length → fieldFromStream Γ n f s ctx loaded = (.ok v, t) →
      t.data = s.data ∧ t.pos = s.pos + k ∧ t.pos ≤ s.data.length ∧ v ≠ .notPresent from hall n s t v hs h
  clear h hs v t s n
  induction hf with
  | @leaf b kd size hk hsz hu hp hn =>
    refine key (g := .leaf b kd) hp hn hsz fun n s t v hs h => ?_
    cases n with
    | zero => simp [fieldDoLoad] at h
    | succ n =>
      simp only [fieldDoLoad] at h
      have hm := leafLoad_moves hk hsz (by omega) (fun fmt hf => by rw [hu fmt hf]) h
      have hF := leafLoad_forward (b := b) (k := kd)
        (.leaf fun ops ho => absurd hk (by rw [ho]; simp [ReadsExactly])) (leafExpectedSize b kd loaded) ctx loaded s hs
      simp only [] at hF
      rw [h] at hF
      refine ⟨hF.1, by simpa using hm, hF.2.2, ?_⟩
      rintro rfl
      exact leafLoad_not_notPresent hk h
  | @array b comp count size hc hsz hp hn ih =>
    refine key (g := .array b comp (.fixed count) none) hp hn hsz fun n s t v hs h => ?_
    cases n with
    | zero => simp [fieldDoLoad] at h
    | succ n =>
      simp only [fieldDoLoad, containerLoad, R.map, Prod.mk.injEq] at h
      obtain ⟨vs, hvs, rfl⟩ := except_map_ok h.1
      obtain ⟨h1, h2, h3⟩ := arrayLoop_rigid (fun s v t hs hl => ih n s t v hs hl) n [] s hs vs t (by simp)
        (Prod.ext hvs h.2)
      exact ⟨h1, by simpa using h2, h3, by simp⟩

end Verif
