import Verif.Spec.Position
import Verif.Props.VarInt
import Verif.Proofs.StructLoad
import Verif.Proofs.Text
import Verif.Proofs.Container

/-! Helper lemmas: loading the same bytes at another place. -/

namespace Verif
open Spec

variable {δ : Int}

/-- The outcome of a load at another place. -/
def RMoved {α : Type} (δ : Int) (r r' : R α) : Prop := SameOutcome δ r.1 r'.1 ∧ Moved δ r.2 r'.2

theorem Spec.SameOutcome.ok {α : Type} (a : α) : SameOutcome δ (.ok a) (.ok a) := Or.inl ⟨a, rfl, rfl⟩
theorem Spec.SameOutcome.error {α : Type} (e : Err) : SameOutcome δ (.error e : Except Err α) (.error e) := Or.inr ⟨e, e, rfl, rfl, .same e⟩
theorem Spec.SameOutcome.refl {α : Type} (x : Except Err α) : SameOutcome δ x x := by
  cases x with
  | ok a => exact .ok a
  | error e => exact .error e

theorem Spec.Moved.advance {s t : Stream} (h : Moved δ s t) (k : Nat) : Moved δ ⟨s.data, s.pos + k⟩ ⟨t.data, t.pos + k⟩ := by
  obtain ⟨h1, h2⟩ := h
  refine ⟨?_, by simp only; omega⟩
  simp only [Stream.rest] at h1 ⊢
  rw [← List.drop_drop, ← List.drop_drop, h1]

theorem Spec.Moved.read {s t : Stream} (h : Moved δ s t) (n : Int) : (t.read n).1 = (s.read n).1 ∧ Moved δ (s.read n).2 (t.read n).2 := by
  have h1 : t.data.drop t.pos = s.data.drop s.pos := h.1
  have h2 : (t.read n).1 = (s.read n).1 := by simp only [Stream.read, h1]
  refine ⟨h2, ?_⟩
  have hs : (s.read n).2 = ⟨s.data, s.pos + (s.read n).1.length⟩ := rfl
  have ht : (t.read n).2 = ⟨t.data, t.pos + (t.read n).1.length⟩ := rfl
  rw [hs, ht, h2]
  exact h.advance _

theorem RMoved.map {α β : Type} {r r' : R α} (h : RMoved δ r r') (g : α → β) : RMoved δ (R.map r g) (R.map r' g) := by
  obtain ⟨x, s⟩ := r
  obtain ⟨y, t⟩ := r'
  obtain ⟨h1, h2⟩ := h
  refine ⟨?_, h2⟩
  rcases h1 with ⟨a, h, h'⟩ | ⟨e, e', h, h', he⟩
  · simp only at h h'; subst h h'; exact .ok _
  · simp only at h h'; subst h h'; exact Or.inr ⟨e, e', rfl, rfl, he⟩

theorem RMoved.andThen {α β : Type} {r r' : R α} (h : RMoved δ r r') (g : α → Except Err β) : RMoved δ (R.andThen r g) (R.andThen r' g) := by
  obtain ⟨x, s⟩ := r
  obtain ⟨y, t⟩ := r'
  obtain ⟨h1, h2⟩ := h
  refine ⟨?_, h2⟩
  rcases h1 with ⟨a, h, h'⟩ | ⟨e, e', h, h', he⟩
  · simp only at h h'; subst h h'; exact .refl _
  · simp only at h h'; subst h h'; exact Or.inr ⟨e, e', rfl, rfl, he⟩

theorem readExactSize_moved (name : String) (x : Except Err Int) {s t : Stream} (h : Moved δ s t) :
    RMoved δ (readExactSize name x s) (readExactSize name x t) := by
  cases x with
  | error e => exact ⟨.error e, h⟩
  | ok n =>
    obtain ⟨h1, h2⟩ := h.read n
    simp only [readExactSize, h1]
    split
    · exact ⟨Or.inr ⟨_, _, rfl, rfl, .eof h.2⟩, h2⟩
    · exact ⟨.ok _, h2⟩

theorem readInt_moved (n : Int) (sg : Bool) (en : Endian) {s t : Stream} (h : Moved δ s t) :
    RMoved δ (readInt s n sg en) (readInt t n sg en) := by
  obtain ⟨h1, h2⟩ := h.read n
  simp only [readInt, h1]
  split
  · exact ⟨Or.inr ⟨_, _, rfl, rfl, .eof h.2⟩, h2⟩
  · exact ⟨.ok _, h2⟩

theorem decode_moved (enc : VarIntEncoding) {s t : Stream} (h : Moved δ s t) : RMoved δ (enc.decode s) (enc.decode t) := by
  rcases C07_decode_exhaustive s with ⟨code, post, hr, hd⟩ | hh
  · rw [C07_decode_delimited enc s code post hd hr, C07_decode_delimited enc t code post hd (by rw [h.1, hr])]
    exact ⟨.ok _, h.advance _⟩
  · rw [C07_decode_truncated enc s hh, C07_decode_truncated enc t (by rw [h.1]; exact hh), h.1]
    exact ⟨Or.inr ⟨_, _, rfl, rfl, .eof (by have := h.2; omega)⟩, h.advance _⟩

theorem stringzLoop_moved (name : String) (c : CharCodec) (max : Option Int) :
    ∀ (fuel nRead : Nat) (buf : Bytes) (acc : List Nat) (s t : Stream), s.rest.length ≤ fuel → Moved δ s t →
      RMoved δ (stringzLoop name c max fuel nRead buf acc s) (stringzLoop name c max fuel nRead buf acc t) := by
  intro fuel
  induction fuel with
  | zero =>
    intro nRead buf acc s t hle h
    have hr : s.rest = [] := List.length_eq_zero_iff.1 (by omega)
    rw [stringzLoop_eof hr, stringzLoop_eof (h.1.trans hr)]
    exact ⟨.refl _, h⟩
  | succ fuel ih =>
    intro nRead buf acc s t hle h
    cases hs : zStop max nRead with
    | true =>
      rw [stringzLoop_stop hs, stringzLoop_stop hs]
      exact ⟨.refl _, h⟩
    | false =>
      cases hr : s.rest with
      | nil =>
        rw [stringzLoop_eof hr, stringzLoop_eof (h.1.trans hr)]
        exact ⟨.refl _, h⟩
      | cons x r =>
        rw [stringzLoop_step hs hr, stringzLoop_step hs (h.1.trans hr)]
        cases hf : c.feed (buf ++ [x]) with
        | error e => exact ⟨.error e, h.advance 1⟩
        | ok o =>
          obtain ⟨out, buf'⟩ := o
          simp only
          split
          · exact ⟨.ok _, h.advance 1⟩
          · refine ih _ _ _ _ _ ?_ (h.advance 1)
            have h1 : (⟨s.data, s.pos + 1⟩ : Stream).rest = r := by
              simp only [Stream.rest] at hr ⊢
              rw [← List.drop_drop, hr]; rfl
            rw [h1]; rw [hr] at hle; simp at hle; omega

theorem leafLoad_moved {b : FieldBase} {k : Leaf} (hk : ∀ ops, k = .custom ops → ∀ ctx loaded, Ahead fun s => ops.load s ctx loaded)
    (x : Except Err Int) (ctx : Value) (loaded : Dict) {s t : Stream} (h : Moved δ s t) :
    RMoved δ (leafLoad b k x s ctx loaded) (leafLoad b k x t ctx loaded) := by
  cases k with
  | float fmt en => exact (readExactSize_moved _ _ h).andThen _
  | integer sg en =>
    simp only [leafLoad]
    split
    · exact (readInt_moved _ _ _ h).map _
    · exact ⟨.error _, h⟩
  | varint enc m => exact (decode_moved enc h).map _
  | timestamp res aw sg en =>
    simp only [leafLoad]
    split
    · exact ⟨.error _, h⟩
    · exact (readInt_moved _ _ _ h).andThen _
  | bytes => exact (readExactSize_moved _ _ h).map _
  | string c p => exact (readExactSize_moved _ _ h).andThen _
  | stringz c p =>
    simp only [leafLoad]
    rw [h.1]
    split
    · exact (stringzLoop_moved _ _ _ _ _ _ _ _ _ (Nat.le_refl _) h).map _
    · exact (stringzLoop_moved _ _ _ _ _ _ _ _ _ (Nat.le_refl _) h).map _
    · exact ⟨.error _, h⟩
  | uuid fmt =>
    obtain ⟨h1, h2⟩ := h.read fmt.size
    simp only [leafLoad, h1]
    split
    · exact ⟨Or.inr ⟨_, _, rfl, rfl, .eof h2.2⟩, h2⟩
    · exact ⟨.refl _, h2⟩
  | custom ops => exact hk ops rfl ctx loaded δ s t h

theorem setErrField_moved {e e' : Err} (h : MovedErr δ e e') (name : String) : MovedErr δ (setErrField name e) (setErrField name e') := by
  cases h with
  | same => exact .same _
  | eof h => exact .eof h

theorem loadAndFinish_moved {b : FieldBase} {eq : Value → Value → Except Err Bool} {l : Stream → R Value} {s t : Stream}
    (h : RMoved δ (l s) (l t)) : RMoved δ (loadAndFinish b eq l s) (loadAndFinish b eq l t) := by
  unfold loadAndFinish
  rcases hs : l s with ⟨x, s'⟩
  rcases ht : l t with ⟨y, t'⟩
  rw [hs, ht] at h
  obtain ⟨h1, h2⟩ := h
  rcases h1 with ⟨a, h, h'⟩ | ⟨e, e', h, h', he⟩
  · simp only at h h'; subst h h'; exact ⟨.refl _, h2⟩
  · simp only at h h'; subst h h'; exact ⟨Or.inr ⟨_, _, rfl, rfl, setErrField_moved he _⟩, h2⟩

theorem fromStreamWith_moved {b : FieldBase} {eq : Value → Value → Except Err Bool} {nr : Except Err Bytes} {l : Stream → R Value}
    {ctx : Value} {loaded : Dict} {s t : Stream} (hb : ∀ w ctx, NoLookback fun s => b.present w ctx (some s)) (h : Moved δ s t)
    (hl : RMoved δ (l s) (l t)) : RMoved δ (fromStreamWith b eq nr l s ctx loaded) (fromStreamWith b eq nr l t ctx loaded) := by
  unfold fromStreamWith
  have hp : b.present loaded.view ctx (some t) = b.present loaded.view ctx (some s) := hb _ _ _ _ h.1
  rw [hp]
  split
  · exact ⟨.error _, h⟩
  · exact ⟨.ok _, h⟩
  · split
    · split
      · split
        · split
          · exact ⟨.error _, h⟩
          · exact loadAndFinish_moved hl
        · exact ⟨.error _, h⟩
      · rename_i repr
        simp only [peekBytes_eq]
        rw [h.1]
        split
        · have hk : Moved δ (s.seek (s.pos + repr.length)) (t.seek (t.pos + repr.length)) := h.advance _
          split
          · exact ⟨.error _, hk⟩
          · exact ⟨.ok _, hk⟩
        · exact loadAndFinish_moved hl
    · exact loadAndFinish_moved hl

theorem arrayLoop_moved {halt : Stream → List Value → Except Err (Bool × List Value)} {load : Stream → R Value}
    (hh : ∀ vs, NoLookback fun s => halt s vs) (hl : ∀ s t, Moved δ s t → RMoved δ (load s) (load t)) :
    ∀ (fuel : Nat) (acc : List Value) (s t : Stream), Moved δ s t → RMoved δ (arrayLoop halt load fuel acc s) (arrayLoop halt load fuel acc t) := by
  intro fuel
  induction fuel with
  | zero =>
    intro acc s t h
    have hx : halt t acc = halt s acc := hh acc _ _ h.1
    rw [arrayLoop.eq_def, arrayLoop.eq_def _ _ _ _ t]
    simp only [hx]
    split
    · exact ⟨.error _, h⟩
    · exact ⟨.ok _, h⟩
    · have hm := hl s t h
      rcases hs : load s with ⟨x, s'⟩
      rcases ht : load t with ⟨y, t'⟩
      rw [hs, ht] at hm
      obtain ⟨h1, h2⟩ := hm
      rcases h1 with ⟨a, h, h'⟩ | ⟨e, e', h, h', he⟩
      · simp only at h h'; subst h h'; exact ⟨.error _, h2⟩
      · simp only at h h'; subst h h'; exact ⟨Or.inr ⟨_, _, rfl, rfl, he⟩, h2⟩
  | succ fuel ih =>
    intro acc s t h
    have hx : halt t acc = halt s acc := hh acc _ _ h.1
    rw [arrayLoop.eq_def, arrayLoop.eq_def _ _ _ _ t]
    simp only [hx]
    split
    · exact ⟨.error _, h⟩
    · exact ⟨.ok _, h⟩
    · have hm := hl s t h
      rcases hs : load s with ⟨x, s'⟩
      rcases ht : load t with ⟨y, t'⟩
      rw [hs, ht] at hm
      obtain ⟨h1, h2⟩ := hm
      rcases h1 with ⟨a, h, h'⟩ | ⟨e, e', h, h', he⟩
      · simp only at h h'; subst h h'; exact ih _ _ _ h2
      · simp only at h h'; subst h h'; exact ⟨Or.inr ⟨_, _, rfl, rfl, he⟩, h2⟩

theorem haltCheck_noLookback {name : String} {count : Count}
    {halt : Option (Stream → List Value → Value → Dict → Except Err (Bool × List Value))} {ctx : Value} {loaded : Dict}
    (hh : ∀ h, halt = some h → ∀ values ctx loaded, NoLookback fun s => h s values ctx loaded) (vs : List Value) :
    NoLookback fun s => haltCheck name count halt ctx loaded s vs := by
  intro s t h
  cases halt with
  | some g => exact hh g rfl vs ctx loaded s t h
  | none =>
    simp only [haltCheck, shouldHalt]
    cases count with
    | none =>
      have : (s.read 1).1 = (t.read 1).1 := by
        have h' : s.data.drop s.pos = t.data.drop t.pos := h
        simp only [Stream.read, h']
      simp only [this]
    | fixed n => rfl
    | ref r => rfl

theorem loadFields_moved {load : Field → Stream → Dict → R Value} {fs : List Field}
    (hl : ∀ f ∈ fs, ∀ acc s t, Moved δ s t → RMoved δ (load f s acc) (load f t acc)) :
    ∀ acc s t, Moved δ s t → RMoved δ (loadFields load fs acc s) (loadFields load fs acc t) := by
  induction fs with
  | nil => intro acc s t h; exact ⟨.ok _, h⟩
  | cons f fs ih =>
    intro acc s t h
    simp only [loadFields]
    have hm := hl f List.mem_cons_self acc s t h
    rcases hs : load f s acc with ⟨x, s'⟩
    rcases ht : load f t acc with ⟨y, t'⟩
    rw [hs, ht] at hm
    obtain ⟨h1, h2⟩ := hm
    rcases h1 with ⟨a, h, h'⟩ | ⟨e, e', h, h', he⟩
    · simp only at h h'; subst h h'; exact ih (fun g hg => hl g (List.mem_cons_of_mem _ hg)) _ _ _ h2
    · simp only at h h'; subst h h'; exact ⟨Or.inr ⟨_, _, rfl, rfl, he⟩, h2⟩

theorem structFromStreamWith_moved {load : Field → Stream → Dict → R Value} {d : StructDesc} {kw : Dict}
    (hl : ∀ f ∈ d.components, ∀ acc s t, Moved δ s t → RMoved δ (load f s acc) (load f t acc)) {s t : Stream} (h : Moved δ s t) :
    RMoved δ (structFromStreamWith load d s kw) (structFromStreamWith load d t kw) := by
  unfold structFromStreamWith
  have hm := loadFields_moved hl kw s t h
  rcases hs : loadFields load d.components kw s with ⟨x, s'⟩
  rcases ht : loadFields load d.components kw t with ⟨y, t'⟩
  rw [hs, ht] at hm
  obtain ⟨h1, h2⟩ := hm
  rcases h1 with ⟨a, h, h'⟩ | ⟨e, e', h, h', he⟩
  · simp only at h h'; subst h h'
    simp only
    split
    · exact ⟨.error _, h2⟩
    · split
      · exact ⟨.error _, h2⟩
      · exact ⟨.ok _, h2⟩
  · simp only at h h'; subst h h'; exact ⟨Or.inr ⟨_, _, rfl, rfl, he⟩, h2⟩

theorem Spec.LooksAhead.present {f : Field} (h : LooksAhead f) (w : View) (ctx : Value) : NoLookback fun s => f.base.present w ctx (some s) := by
  cases h with
  | leaf h => exact h w ctx
  | array h => exact h w ctx
  | nested h => exact h w ctx
  | union h => exact h w ctx

theorem load_moved {Γ : Classes} (hΓ : ∀ c d, Γ c = some d → ∀ f ∈ d.components, LooksAhead f) (δ : Int) (n : Nat) :
    (∀ f, LooksAhead f → ∀ ctx loaded s t, Moved δ s t → RMoved δ (fieldFromStream Γ n f s ctx loaded) (fieldFromStream Γ n f t ctx loaded)) ∧
    (∀ f, LooksAhead f → ∀ ctx loaded s t, Moved δ s t → RMoved δ (fieldDoLoad Γ n f s ctx loaded) (fieldDoLoad Γ n f t ctx loaded)) ∧
    (∀ d, (∀ f ∈ d.components, LooksAhead f) → ∀ ctx kw s t, Moved δ s t →
      RMoved δ (structFromStream Γ n d s ctx kw) (structFromStream Γ n d t ctx kw)) := by
  induction n with
  | zero => exact ⟨fun f _ ctx l s t h => ⟨.error _, h⟩, fun f _ ctx l s t h => ⟨.error _, h⟩, fun d _ ctx kw s t h => ⟨.error _, h⟩⟩
  | succ n ih =>
    obtain ⟨ihf, ihd, ihs⟩ := ih
    have hstr : ∀ (cls : String) (ctx : Value) (s t : Stream), Moved δ s t →
        RMoved δ (loadStruct Γ (fun d s ctx => structFromStream Γ n d s ctx []) cls s ctx)
          (loadStruct Γ (fun d s ctx => structFromStream Γ n d s ctx []) cls t ctx) := by
      intro cls ctx s t h
      unfold loadStruct
      cases hd : Γ cls with
      | none => exact ⟨.error _, h⟩
      | some d => exact (ihs d (hΓ cls d hd) ctx [] s t h).map _
    refine ⟨fun f hf ctx l s t h => ?_, fun f hf ctx l s t h => ?_, fun d hd ctx kw s t h => ?_⟩
    · simp only [fieldFromStream]
      exact fromStreamWith_moved (fun w ctx => hf.present w ctx) h (ihd f hf ctx l s t h)
    · cases hf with
      | leaf hp hc => exact leafLoad_moved hc _ _ _ h
      | array hp hcomp hh =>
        rw [fieldDoLoad_array, fieldDoLoad_array]
        exact (arrayLoop_moved (haltCheck_noLookback hh) (fun s t h => ihf _ hcomp ctx l s t h) _ _ _ _ h).map _
      | nested hp => exact hstr _ _ _ _ h
      | @union b choices ld dd hp hld hch =>
        simp only [fieldDoLoad, containerLoad]
        have hx : ld t ctx l = ld s ctx l := hld ctx l _ _ h.1
        rw [hx]
        split
        · exact ⟨.error _, h⟩
        · split
          · exact ⟨.error _, h⟩
          · rename_i g hg
            exact ihd g (hch g (List.mem_of_getElem? hg)) ctx l s t h
          · exact hstr _ _ _ _ h
    · simp only [structFromStream]
      exact structFromStreamWith_moved (fun f hf acc s t h => ihf f (hd f hf) ctx acc s t h) h

end Verif
