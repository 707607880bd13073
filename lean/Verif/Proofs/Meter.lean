import Verif.Spec.Meter
import Verif.Proofs.Source
import Verif.Proofs.Locality

/-!
# How much a load asks a stream for: helper lemmas
-/

namespace Verif
open Spec

/-- A successful step goes forwards, and asks for nothing beyond where it ends. -/
def Frugal {α : Type} (m : Stream × Nat → Except Err α × (Stream × Nat)) : Prop :=
  ∀ t, t.1.pos ≤ t.1.data.length → ∀ a t', m t = (.ok a, t') →
    t'.1.data = t.1.data ∧ t.1.pos ≤ t'.1.pos ∧ t'.1.pos ≤ t.1.data.length ∧ t'.2 ≤ max t.2 t'.1.pos

theorem metered_lawful : metered.Lawful (fun _ => False) false where
  tell _ := .inl ⟨rfl, rfl⟩
  seek _ _ := .inl ⟨rfl, rfl⟩
  skip _ _ := .inl ⟨rfl, rfl⟩
  read _ _ := .inl (.inl ⟨rfl, rfl⟩)
  custom _ _ := .inl ⟨rfl, rfl⟩

theorem frugal_pure {α : Type} (r : Except Err α) : Frugal (pureResult r) := by
  intro t ht a t' h
  simp only [pureResult, Prod.mk.injEq] at h
  obtain ⟨-, rfl⟩ := h
  exact ⟨rfl, Nat.le_refl _, ht, Nat.le_max_left _ _⟩

theorem Frugal.andNext {α β : Type} {m : Stream × Nat → Except Err α × (Stream × Nat)} {f : α → Stream × Nat → Except Err β × (Stream × Nat)}
    (hm : Frugal m) (hf : ∀ a, Frugal (f a)) : Frugal (andNext m f) := by
  intro t ht b t' h
  unfold Verif.andNext at h
  rcases hmt : m t with ⟨_ | a, t1⟩ <;> rw [hmt] at h
  · simp at h
  · simp only at h
    obtain ⟨h1, h2, h3, h4⟩ := hm t ht a t1 hmt
    obtain ⟨h5, h6, h7, h8⟩ := hf a t1 (by rw [h1]; exact h3) b t' h
    refine ⟨h5.trans h1, by omega, by rw [h1] at h7; exact h7, by omega⟩

theorem Frugal.thenCalc {α β : Type} {m : Stream × Nat → Except Err α × (Stream × Nat)} (hm : Frugal m) (g : α → Except Err β) :
    Frugal (thenCalc m g) := hm.andNext fun _ => frugal_pure _

theorem frugal_tell : Frugal metered.tell := by
  intro t ht a t' h
  simp only [metered, Prod.mk.injEq] at h
  obtain ⟨-, rfl⟩ := h
  exact ⟨rfl, Nat.le_refl _, ht, Nat.le_max_left _ _⟩

theorem frugal_custom {load : Stream → R Value} (hl : Forward load) : Frugal (metered.custom load) := by
  intro t ht a t' h
  simp only [metered, Prod.mk.injEq] at h
  obtain ⟨-, rfl⟩ := h
  obtain ⟨h1, h2, h3⟩ := hl t.1 ht
  exact ⟨h1, h2, h3, by simp only; omega⟩

/-- A read after which nothing can succeed unless it got all it asked for. -/
theorem frugal_read {β : Type} {n : Int} (hn : 0 ≤ n) {F : Bytes → Stream × Nat → Except Err β × (Stream × Nat)}
    (hs : ∀ data, (data.length : Int) < n → ∀ t b t', F data t ≠ (.ok b, t')) (hF : ∀ data, Frugal (F data)) : Frugal (andNext (metered.read n) F) := by
  intro t ht b t' h
  simp only [andNext, metered] at h
  have hlen : ¬ (((t.1.read n).1.length : Int) < n) := fun hl => hs _ hl _ _ _ h
  obtain ⟨h1, h2, h3⟩ := read_forward t.1 n ht
  have hp : (t.1.read n).2.pos = t.1.pos + (t.1.read n).1.length := by simp [Stream.read]
  obtain ⟨h5, h6, h7, h8⟩ := hF _ _ (by simp only; rw [h1]; exact h3) b t' h
  simp only at h5 h6 h7 h8
  have hn' : ¬ n < 0 := by omega
  simp only [hn', if_false] at h8
  rw [h1] at h5 h7
  exact ⟨h5, by omega, h7, by omega⟩

theorem frugal_readInt {n : Int} (hn : 0 ≤ n) (sg : Bool) (en : Endian) : Frugal (metered.readInt n sg en) := by
  refine frugal_tell.andNext fun off => frugal_read hn (fun data hd t b t' h => ?_) fun data => frugal_pure _
  simp [pureResult, hd] at h

theorem frugal_readUInt8 : Frugal metered.readUInt8 := (frugal_readInt (by decide) _ _).thenCalc _

theorem frugal_readExactSize (name : String) {ex : Except Err Int} (hn : ∀ n, ex = .ok n → 0 ≤ n) : Frugal (metered.readExactSize name ex) := by
  refine frugal_tell.andNext fun off => ?_
  cases ex with
  | error e => exact frugal_pure _
  | ok n =>
    refine frugal_read (hn n rfl) (fun data hd t b t' h => ?_) fun data => frugal_pure _
    simp [pureResult, hd] at h

theorem frugal_loadUuid (name : String) (fmt : UUIDFormat) : Frugal (metered.loadUuid name fmt) := by
  refine frugal_read (by cases fmt <;> decide) (fun data hd t b t' h => ?_) fun data => ?_
  · simp [hd, andNext, pureResult, metered] at h
  · by_cases hd : (data.length : Int) < fmt.size
    · simp only [hd, if_true]; exact frugal_tell.andNext fun _ => frugal_pure _
    · simp only [hd, if_false]; exact frugal_pure _

theorem frugal_compact (fuel : Nat) : ∀ sg v, Frugal (metered.decodeCompactLoop fuel sg v) := by
  induction fuel with
  | zero => intro sg v; exact frugal_pure _
  | succ fuel ih =>
    intro sg v
    refine frugal_readUInt8.andNext fun b => ?_
    cases sg <;> simp only <;> split <;> first | exact frugal_pure _ | exact ih _ _

theorem frugal_vlq (fuel : Nat) : ∀ v, Frugal (metered.decodeVlqLoop fuel v) := by
  induction fuel with
  | zero => intro v; exact frugal_pure _
  | succ fuel ih =>
    intro v
    refine frugal_readUInt8.andNext fun b => ?_
    simp only
    split <;> first | exact frugal_pure _ | exact ih _

theorem frugal_uleb128 (fuel : Nat) : ∀ v bits, Frugal (metered.decodeUleb128Loop fuel v bits) := by
  induction fuel with
  | zero => intro v bits; exact frugal_pure _
  | succ fuel ih =>
    intro v bits
    refine frugal_readUInt8.andNext fun b => ?_
    simp only
    split <;> first | exact frugal_pure _ | exact ih _ _

theorem frugal_leb128 (fuel : Nat) : Frugal (metered.decodeLeb128 fuel) := by
  refine frugal_tell.andNext fun off => (frugal_uleb128 fuel 0 0).andNext fun v => ?_
  split
  · exact frugal_pure _
  · refine frugal_tell.andNext fun here => ?_
    simp only
    split <;> exact frugal_pure _

theorem frugal_varInt (enc : VarIntEncoding) : Frugal (metered.decodeVarInt enc) := by
  intro t
  unfold Source.decodeVarInt
  cases enc with
  | compact => exact frugal_compact _ _ _ t
  | leb128 => exact frugal_leb128 _ t
  | uleb128 => exact (frugal_uleb128 _ 0 0).thenCalc _ t
  | vlq => exact frugal_vlq _ _ t

theorem frugal_stringz (name : String) (codec : CharCodec) (mb : Option Int) (fuel : Nat) :
    ∀ nr buf acc, Frugal (metered.stringzLoop name codec mb fuel nr buf acc) := by
  have key : ∀ (buf : Bytes) (F : UInt8 → Stream × Nat → Except Err (List Nat) × (Stream × Nat)), (∀ b, Frugal (F b)) →
      Frugal (andNext (metered.read 1) fun data => match data with
        | [] => pureResult (if buf = [] then .error (.deser (some name)) else .error .unicodeErr)
        | b :: _ => F b) := by
    intro buf F hF
    refine frugal_read (by decide) (fun data hd t b t' h => ?_) fun data => ?_
    · have : data = [] := by
        cases data with
        | nil => rfl
        | cons _ _ => simp at hd; omega
      subst this
      simp only [pureResult, Prod.mk.injEq] at h
      split at h <;> simp at h
    · cases data with
      | nil => exact frugal_pure _
      | cons b _ => exact hF b
  induction fuel with
  | zero =>
    intro nr buf acc
    rw [Source.stringzLoop.eq_def]
    simp only
    have hgo := key buf (fun b => match codec.feed (buf ++ [b]) with
        | .error e => pureResult (.error e)
        | .ok (out, _) => if out = [0] then pureResult (.ok acc) else pureResult (.error .outOfFuel)) (fun b => by
      cases codec.feed (buf ++ [b]) with
      | error e => exact frugal_pure _
      | ok p => simp only; split <;> exact frugal_pure _)
    cases mb with
    | none => simp only [Bool.false_eq_true, if_false]; exact hgo
    | some m =>
      simp only [decide_eq_true_eq]
      by_cases hm : (nr : Int) ≥ m
      · simp only [hm, if_true]; exact frugal_pure _
      · simp only [hm, if_false]; exact hgo
  | succ fuel ih =>
    intro nr buf acc
    rw [Source.stringzLoop.eq_def]
    simp only
    have hgo := key buf (fun b => match codec.feed (buf ++ [b]) with
        | .error e => pureResult (.error e)
        | .ok (out, buf') => if out = [0] then pureResult (.ok acc) else metered.stringzLoop name codec mb fuel (nr + 1) buf' (acc ++ out)) (fun b => by
      cases codec.feed (buf ++ [b]) with
      | error e => exact frugal_pure _
      | ok p =>
        simp only
        split
        · exact frugal_pure _
        · exact ih _ _ _)
    cases mb with
    | none => simp only [Bool.false_eq_true, if_false]; exact hgo
    | some m =>
      simp only [decide_eq_true_eq]
      by_cases hm : (nr : Int) ≥ m
      · simp only [hm, if_true]; exact frugal_pure _
      · simp only [hm, if_false]; exact hgo

theorem frugal_leaf {b : FieldBase} {l : Leaf} (hf : LoadsForward (.leaf b l)) {loaded : Dict} (h1 : ∀ n, b.size = .fixed n → 0 ≤ n)
    (h2 : ∀ r i, b.size = .ref r → Dict.get? loaded r = some (.int i) → 0 ≤ i) (ctx : Value) :
    Frugal (metered.leafLoad b l (leafExpectedSize b l loaded) ctx loaded) := by
  have hsz : (∀ ops, l ≠ .custom ops) → ∀ n, leafExpectedSize b l loaded = .ok n → 0 ≤ n := fun hk n hn => leafExpectedSize_nonneg hk h1 h2 hn
  cases l with
  | float fmt en => exact (frugal_readExactSize _ (hsz (by simp))).thenCalc _
  | integer sg en =>
    intro t
    unfold Source.leafLoad
    cases hs : b.size with
    | fixed n => exact (frugal_readInt (h1 n hs) sg en).thenCalc _ t
    | none => exact frugal_pure _ t
    | ref r => exact frugal_pure _ t
  | varint enc m => exact (frugal_varInt enc).thenCalc _
  | timestamp res tz sg en =>
    intro t
    unfold Source.leafLoad
    simp only
    cases hx : leafExpectedSize b (.timestamp res tz sg en) loaded with
    | error e => exact frugal_pure (.error e) t
    | ok n => exact (frugal_readInt (hsz (by simp) n hx) sg en).thenCalc _ t
  | bytes => exact (frugal_readExactSize _ (hsz (by simp))).thenCalc _
  | string c p => exact (frugal_readExactSize _ (hsz (by simp))).thenCalc _
  | stringz c p =>
    intro t
    unfold Source.leafLoad
    simp only
    cases leafExpectedSize b (.stringz c p) loaded with
    | ok n => exact (frugal_stringz _ _ _ _ _ _ _).thenCalc _ t
    | error e => cases e <;> first | exact (frugal_stringz _ _ _ _ _ _ _).thenCalc _ t | exact frugal_pure (.error _) t
  | uuid fmt => exact frugal_loadUuid b.name fmt
  | custom ops =>
    cases hf with
    | leaf h => exact frugal_custom (h ops rfl ctx loaded)

theorem frugal_loadAndFinish {b : FieldBase} {eq : Value → Value → Except Err Bool} {load : Stream × Nat → Except Err Value × (Stream × Nat)}
    (hl : Frugal load) : Frugal (Source.loadAndFinish b eq load) := by
  intro t ht a t' h
  unfold Source.loadAndFinish at h
  rcases hmt : load t with ⟨_ | v, t1⟩ <;> rw [hmt] at h
  · simp at h
  · simp only [Prod.mk.injEq] at h
    obtain ⟨-, rfl⟩ := h
    exact hl t ht v _ hmt

theorem frugal_fromSource {b : FieldBase} {eq : Value → Value → Except Err Bool} {nr : Except Err Bytes}
    {load : Stream × Nat → Except Err Value × (Stream × Nat)} (hl : Frugal load)
    (hn : b.nullValue = .undefined ∨ ∀ repr t v t', nr = .ok repr → load t = (.ok v, t') → t.1.pos + repr.length ≤ t'.1.pos) (ctx : Value) (loaded : Dict) :
    Frugal (metered.fromSourceWith b eq nr load ctx loaded) := by
  intro t ht a t' h
  unfold Source.fromSourceWith at h
  have hsame : ∀ r : Except Err Value, (r, t) = (.ok a, t') →
      t'.1.data = t.1.data ∧ t.1.pos ≤ t'.1.pos ∧ t'.1.pos ≤ t.1.data.length ∧ t'.2 ≤ max t.2 t'.1.pos :=
    fun r hr => frugal_pure r t ht a t' hr
  split at h
  · exact hsame _ h
  · exact hsame _ h
  · split at h
    · rename_i hnull
      have hn' : ∀ repr t v t', nr = .ok repr → load t = (.ok v, t') → t.1.pos + repr.length ≤ t'.1.pos := by
        rcases hn with hn | hn
        · simp [FieldBase.allowNull, hn] at hnull
        · exact hn
      cases nr with
      | error e =>
        simp only at h
        split at h
        · split at h
          · exact hsame _ h
          · exact frugal_loadAndFinish hl t ht a t' h
        · exact hsame _ h
      | ok repr =>
        simp only [andNext, Source.peekBytes, tryFinally, metered, seekInt] at h
        have h0 : ¬ ((t.1.tell : Int) < 0) := by omega
        have h0' : ¬ ((repr.length : Int) < 0) := by omega
        simp only [h0, h0', if_false] at h
        have hback : ((t.1.read repr.length).2.seek (t.1.tell : Int).toNat) = t.1 := by simp [Stream.read, Stream.seek, Stream.tell]
        rw [hback] at h
        split at h
        · rename_i hpeek
          simp only [andNext, pureResult, Prod.mk.injEq] at h
          obtain ⟨-, rfl⟩ := h
          have hfw := read_forward t.1 repr.length ht
          have hp : (t.1.read repr.length).2.pos = t.1.pos + (t.1.read repr.length).1.length := by simp [Stream.read]
          rw [hpeek] at hp
          rw [hp] at hfw
          refine ⟨rfl, ?_, ?_, ?_⟩ <;> simp only [Stream.seek]
          · omega
          · exact hfw.2.2
          · simp only [Int.toNat_natCast]; omega
        · unfold Source.loadAndFinish at h
          simp only [Int.toNat_natCast] at h
          rcases hmt : load (t.1, max t.2 (t.1.pos + repr.length)) with ⟨_ | v, t1⟩ <;> rw [hmt] at h
          · simp at h
          · simp only [Prod.mk.injEq] at h
            obtain ⟨-, rfl⟩ := h
            obtain ⟨h1, h2, h3, h4⟩ := hl (t.1, max t.2 (t.1.pos + repr.length)) ht v _ hmt
            have h5 := hn' repr _ v _ rfl hmt
            simp only at h1 h2 h3 h4 h5
            exact ⟨h1, h2, h3, by omega⟩
    · exact frugal_loadAndFinish hl t ht a t' h

theorem frugal_arrayLoop {halt : List Value → Stream × Nat → Except Err (Bool × List Value) × (Stream × Nat)}
    {load : Stream × Nat → Except Err Value × (Stream × Nat)} (hh : ∀ vs, Frugal (halt vs)) (hl : Frugal load) (fuel : Nat) :
    ∀ acc, Frugal (Source.arrayLoop halt load fuel acc) := by
  induction fuel with
  | zero =>
    intro acc
    rw [Source.arrayLoop.eq_def]
    refine (hh acc).andNext fun p => ?_
    obtain ⟨stop, vs⟩ := p
    cases stop
    · exact hl.andNext fun v => frugal_pure _
    · exact frugal_pure _
  | succ fuel ih =>
    intro acc
    rw [Source.arrayLoop.eq_def]
    refine (hh acc).andNext fun p => ?_
    obtain ⟨stop, vs⟩ := p
    cases stop
    · exact hl.andNext fun v => ih _
    · exact frugal_pure _

theorem frugal_haltCheck {name : String} {count : Count} {halt} (hc : count ≠ .none ∨ halt ≠ none) (ctx : Value) (loaded : Dict) (vs : List Value) :
    Frugal (metered.haltCheck name count halt ctx loaded vs) := by
  cases halt with
  | some g => intro t; exact frugal_pure (g t.1 vs ctx loaded) t
  | none =>
    refine Frugal.thenCalc ?_ _
    cases count with
    | none => simp at hc
    | fixed n => exact frugal_pure _
    | ref r => exact frugal_pure _

theorem frugal_loadFields {load : Field → Dict → Stream × Nat → Except Err Value × (Stream × Nat)} {I : Dict → Prop} {fs : List Field}
    (hI : ∀ f ∈ fs, ∀ loaded t v t', I loaded → load f loaded t = (.ok v, t') → I (loaded.setDefault f.name v))
    (hl : ∀ f ∈ fs, ∀ loaded, I loaded → Frugal (load f loaded)) : ∀ loaded, I loaded → Frugal (Source.loadFields load fs loaded) := by
  induction fs with
  | nil => intro loaded _; exact frugal_pure _
  | cons f fs ih =>
    intro loaded hi t ht a t' h
    simp only [Source.loadFields] at h
    have := hl f List.mem_cons_self loaded hi
    unfold andNext at h
    rcases hmt : load f loaded t with ⟨_ | v, t1⟩ <;> rw [hmt] at h
    · simp at h
    · simp only at h
      obtain ⟨h1, h2, h3, h4⟩ := this t ht v t1 hmt
      obtain ⟨h5, h6, h7, h8⟩ := ih (fun g hg => hI g (List.mem_cons_of_mem _ hg)) (fun g hg => hl g (List.mem_cons_of_mem _ hg)) _
        (hI f List.mem_cons_self loaded t v t1 hi hmt) t1 (by rw [h1]; exact h3) a t' h
      exact ⟨h5.trans h1, by omega, by rw [h1] at h7; exact h7, by omega⟩

/-- What a load from a metered stream returns is what it returns from a `BytesIO`. -/
theorem metered_field {Γ : Classes} {n : Nat} {f : Field} {ctx : Value} {loaded : Dict} {t t' : Stream × Nat} {v : Value}
    (h : fieldFromSource metered Γ n f ctx loaded t = (.ok v, t')) : fieldFromStream Γ n f t.1 ctx loaded = (.ok v, t'.1) := by
  have := (source_like metered_lawful (fun _ h => h.elim) Γ (by simp) n).1 f (by simp) ctx loaded t
  rw [h] at this
  rcases this with h | ⟨e, _, h | h⟩
  · exact Prod.ext h.1.symm h.2.symm
  · exact h.elim
  · simp at h

theorem metered_doLoad {Γ : Classes} {n : Nat} {f : Field} {ctx : Value} {loaded : Dict} {t t' : Stream × Nat} {v : Value}
    (h : fieldDoLoadSource metered Γ n f ctx loaded t = (.ok v, t')) : fieldDoLoad Γ n f t.1 ctx loaded = (.ok v, t'.1) := by
  have := (source_like metered_lawful (fun _ h => h.elim) Γ (by simp) n).2.1 f (by simp) ctx loaded t
  rw [h] at this
  rcases this with h | ⟨e, _, h | h⟩
  · exact Prod.ext h.1.symm h.2.symm
  · exact h.elim
  · simp at h

/-- All three loaders are frugal. -/
theorem load_frugal (Γ : Classes) (hΓF : ∀ c d, Γ c = some d → ∀ f ∈ d.components, LoadsForward f)
    (hΓL : ∀ c d, Γ c = some d → ∀ f ∈ d.components, ShortNones Γ f)
    (hΓS : ∀ c d, Γ c = some d → (∀ f ∈ d.components, SelfLimited f) ∧ SizeFieldsNonNeg Γ d) (n : Nat) :
    (∀ f, LoadsForward f → ShortNones Γ f → SelfLimited f → ∀ ctx loaded, SizesNonNeg f loaded → Frugal (fieldFromSource metered Γ n f ctx loaded)) ∧
    (∀ f, LoadsForward f → ShortNones Γ f → SelfLimited f → ∀ ctx loaded, SizesNonNeg f loaded → Frugal (fieldDoLoadSource metered Γ n f ctx loaded)) ∧
    (∀ d, (∀ f ∈ d.components, LoadsForward f) → (∀ f ∈ d.components, ShortNones Γ f) → (∀ f ∈ d.components, SelfLimited f) → SizeFieldsNonNeg Γ d →
      ∀ ctx kw, (∀ f ∈ d.components, SizesNonNeg f kw) → Frugal (structFromSource metered Γ n d ctx kw)) := by
  induction n with
  | zero =>
    refine ⟨?_, ?_, ?_⟩ <;> intros <;> intro t <;> simp only [fieldFromSource, fieldDoLoadSource, structFromSource] <;> exact frugal_pure (.error _) t
  | succ n ih =>
    obtain ⟨ih1, ih2, ih3⟩ := ih
    have hstruct : ∀ cls ctx, Frugal (Source.loadStruct Γ (fun d ctx => structFromSource metered Γ n d ctx []) cls ctx) := by
      intro cls ctx
      unfold Source.loadStruct
      cases hd : Γ cls with
      | none => exact frugal_pure _
      | some d =>
        exact (ih3 d (hΓF cls d hd) (hΓL cls d hd) (hΓS cls d hd).1 (hΓS cls d hd).2 ctx [] (fun _ _ _ _ _ h => by simp [Dict.get?] at h)).thenCalc _
    refine ⟨fun f hf hb hl ctx loaded hz => ?_, fun f hf hb hl ctx loaded hz => ?_, fun d hd hb hl hn ctx kw hz => ?_⟩
    · have hu : ShortNone Γ f := by cases hb <;> assumption
      intro t
      rw [fieldFromSource]
      exact frugal_fromSource (ih2 f hf hb hl ctx loaded hz)
        (hu.imp id fun h repr t v t' hr hload => h n loaded repr t.1 ctx v t'.1 hr (metered_doLoad hload)) ctx loaded t
    · cases f with
      | leaf b k =>
        intro t
        simp only [fieldDoLoadSource]
        refine frugal_leaf hf ?_ (fun r i hr hg => hz r i (.leaf hr) hg) ctx t
        cases hl with
        | leaf h => exact h
      | array b comp count halt =>
        cases hb with
        | array _ hcb =>
        cases hf with
        | array hcf =>
        cases hl with
        | array hc hcl =>
        intro t
        simp only [fieldDoLoadSource, Source.containerLoad]
        exact (frugal_arrayLoop (fun vs => frugal_haltCheck hc ctx loaded vs)
          (ih1 comp hcf hcb hcl ctx loaded (fun r i hr hg => hz r i (.array hr) hg)) n []).thenCalc _ t
      | nested b cls =>
        intro t
        simp only [fieldDoLoadSource, Source.containerLoad]
        exact hstruct cls ctx t
      | union b choices ld dd =>
        cases hb with
        | union _ hcb =>
        cases hf with
        | union hcf =>
        cases hl with
        | union hcl =>
        intro t
        simp only [fieldDoLoadSource, Source.containerLoad]
        cases ld (metered.view t) ctx loaded with
        | error e => exact frugal_pure (.error e) t
        | ok i =>
          simp only
          cases hi : choices[i]? with
          | none => exact frugal_pure (.error _) t
          | some c =>
            have hm := List.mem_of_getElem? hi
            cases c with
            | inl g => exact ih2 g (hcf g hm) (hcb g hm) (hcl g hm) ctx loaded (fun r i hr hgt => hz r i (.union hm hr) hgt) t
            | inr cls => exact hstruct cls ctx t
    · intro t
      rw [structFromSource]
      refine (frugal_loadFields (I := fun loaded => ∀ f ∈ d.components, SizesNonNeg f loaded) ?_
        (fun f hf loaded hi => ih1 f (hd f hf) (hb f hf) (hl f hf) ctx loaded (hi f hf)) kw hz).thenCalc _ t
      intro g hg loaded s v t hi hload f hf r i hr hget
      rw [Dict.get?_setDefault] at hget
      split at hget
      · rename_i hk
        simp only [Option.some.injEq] at hget
        subst hget
        exact hn f hf r hr g hg hk.1 n s.1 ctx loaded i t.1 (metered_field hload)
      · exact hi f hf r i hr hget

end Verif
