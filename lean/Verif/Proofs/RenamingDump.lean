import Verif.Proofs.Renaming

namespace Verif
open Spec

theorem SameW.fail {e e' : Err} (h : e.anon = e'.anon) : SameW (W.fail e) (W.fail e') := ⟨rfl, .error h⟩

theorem SameW.refl (a : W) : SameW a a := ⟨rfl, SameE.refl _⟩

theorem SameW.ofExcept {a b : Except Err Bytes} (h : SameE a b) : SameW (W.ofExcept a) (W.ofExcept b) := by
  cases h with
  | ok h => subst h; exact SameW.refl _
  | error h => exact SameW.fail h

theorem SameW.toExcept {a b : W} (h : SameW a b) : SameE a.toExcept b.toExcept := by
  obtain ⟨a1, a2⟩ := a
  obtain ⟨b1, b2⟩ := b
  obtain ⟨h1, h2⟩ := h
  cases h2 with
  | ok h => cases h1; exact .ok rfl
  | error h => exact .error h

theorem SameW.seq {a b : W} {c d : Unit → W} (h : SameW a b) (h' : SameW (c ()) (d ())) : SameW (a.seq c) (b.seq d) := by
  obtain ⟨a1, a2⟩ := a
  obtain ⟨b1, b2⟩ := b
  obtain ⟨h1, h2⟩ := h
  cases h2 with
  | ok h =>
    simp only at h1
    subst h1
    exact ⟨congrArg (a1 ++ ·) h'.1, h'.2⟩
  | error h => exact ⟨h1, .error h⟩

theorem unserializableOnRange_names (x y : String) (r : Except Err Bytes) : SameE (unserializableOnRange x r) (unserializableOnRange y r) := by
  cases r with
  | ok b => exact .ok rfl
  | error e =>
    simp only [unserializableOnRange]
    split
    · exact .error rfl
    · exact .error rfl

theorem encodeAndResize_names (x y : String) (codec : CharCodec) (pad : Option UInt8) (s : List Nat) {r r' : Except Err Int}
    (h : SameE r r') : SameE (encodeAndResize x codec pad s r) (encodeAndResize y codec pad s r') := by
  simp only [encodeAndResize]
  cases codec.encode s with
  | error e => exact .error rfl
  | ok bs =>
    simp only
    cases h with
    | error h => exact .error h
    | ok h =>
      subst h
      simp only
      split
      · exact .error rfl
      · split
        · cases pad with
          | none => exact .error rfl
          | some p => exact .ok rfl
        · exact .ok rfl

section
variable {ρ : String → String} (hρ : Renaming ρ)

theorem leafSizeForValue_renamed {b b' : FieldBase} (hb : BaseAlike ρ b b') {k k' : Leaf} (hk : LeafRenamed ρ k k') (v : Value) :
    SameE (leafSizeForValue b k v) (leafSizeForValue b' k' v) := by
  have hd : SameE (match b.size with | .fixed n => (.ok (some n) : Except Err (Option Int)) | _ => .ok none)
      (match b'.size with | .fixed n => (.ok (some n) : Except Err (Option Int)) | _ => .ok none) := by
    rw [hb.size]
    cases b.size <;> exact .ok rfl
  cases hk with
  | same h =>
    cases k <;> first
      | exact absurd rfl (h _)
      | exact hd
      | (cases v <;> exact SameE.refl _)
  | custom h =>
    simp only [leafSizeForValue]
    have := h.sizeFor
    rename_i o o'
    generalize o.sizeFor = g at this
    generalize o'.sizeFor = g' at this
    cases this with
    | none => exact hd
    | some h => exact h v

theorem leafDump_renamed {b b' : FieldBase} (hb : BaseAlike ρ b b') {k k' : Leaf} (hk : LeafRenamed ρ k k') {r r' : Except Err Int}
    (hr : SameE r r') (v ctx : Value) (all : Dict) : SameW (leafDump b k r v ctx all) (leafDump b' k' r' v ctx (Dict.rename ρ all)) := by
  cases hk with
  | custom h => exact h.dump v ctx all
  | same h =>
    cases k with
    | custom o => exact absurd rfl (h _)
    | float fmt endian =>
      cases v <;> simp only [leafDump] <;> first
        | exact SameW.fail rfl
        | exact SameW.refl _
        | skip
      cases floatOfInt _ with
      | none => exact SameW.fail rfl
      | some bits => exact SameW.refl _
    | integer signed endian =>
      simp only [leafDump, hb.size]
      cases b.size with
      | none => exact SameW.fail rfl
      | ref x => exact SameW.fail rfl
      | fixed n =>
        cases v <;> simp only [sizeRenamed] <;> first
          | exact SameW.fail rfl
          | exact SameW.ofExcept (unserializableOnRange_names _ _ _)
    | varint enc maxBytes =>
      cases v <;> simp only [leafDump] <;> try exact SameW.fail rfl
      rename_i i
      have := unserializableOnRange_names b.name b'.name (enc.encode i)
      generalize unserializableOnRange b.name _ = q at this
      generalize unserializableOnRange b'.name _ = q' at this
      cases this with
      | error h => exact SameW.fail h
      | ok h =>
        subst h
        cases maxBytes with
        | none => exact SameW.refl _
        | some m =>
          simp only
          split
          · exact SameW.fail rfl
          · exact SameW.refl _
    | timestamp res aware signed endian =>
      cases v <;> simp only [leafDump] <;> try exact SameW.fail rfl
      cases tsDump res _ _ with
      | error e => exact SameW.fail rfl
      | ok i =>
        cases hr with
        | error h => exact SameW.fail h
        | ok h => subst h; exact SameW.ofExcept (unserializableOnRange_names _ _ _)
    | bytes =>
      cases hr with
      | error h => exact SameW.fail h
      | ok h =>
        subst h
        cases v <;> simp only [leafDump] <;> try exact SameW.fail rfl
        split
        · exact SameW.fail rfl
        · exact SameW.refl _
    | string codec pad =>
      cases v <;> simp only [leafDump] <;> try exact SameW.fail rfl
      exact SameW.ofExcept (encodeAndResize_names _ _ _ _ _ hr)
    | stringz codec pad => cases v <;> exact SameW.refl _
    | uuid fmt => cases v <;> exact SameW.refl _

theorem leafAddPadding_renamed {b b' : FieldBase} {k k' : Leaf} (hk : LeafRenamed ρ k k') (bs : Bytes) (n : Int) :
    SameE (leafAddPadding b k bs n) (leafAddPadding b' k' bs n) := by
  cases hk with
  | same h =>
    cases k with
    | custom o => exact absurd rfl (h _)
    | string c pad => cases pad <;> first | exact .error rfl | exact .ok rfl
    | stringz c pad => cases pad <;> first | exact .error rfl | exact .ok rfl
    | _ => exact .error rfl
  | custom h =>
    simp only [leafAddPadding]
    have := h.pad
    rename_i o o'
    generalize o.pad = g at this
    generalize o'.pad = g' at this
    cases this with
    | none => exact .error rfl
    | some h => exact h bs n

theorem nullReprWith_renamed {b b' : FieldBase} (hb : BaseAlike ρ b b') {dn dn' : Value → W} (hd : ∀ v, SameW (dn v) (dn' v))
    {r r' : Except Err Int} (hr : SameE r r') : SameE (b.nullReprWith dn r) (b'.nullReprWith dn' r') := by
  simp only [FieldBase.nullReprWith, hb.nullValue]
  cases b.nullValue <;> first
    | exact .error rfl
    | exact .ok rfl
    | exact SameW.toExcept (hd _)
    | (cases hr with
      | ok h => subst h; exact .ok rfl
      | @error e e' h =>
        cases e <;> cases e' <;> first
          | exact .error h
          | exact .error rfl
          | (exfalso; cases h))

include hρ in
theorem expectedSizeWith_renamed {b b' : FieldBase} (hb : BaseRenamed ρ b b') {sf sf' : Value → Except Err (Option Int)}
    (hs : ∀ v, SameE (sf v) (sf' v)) {r r' : Except Err Bytes} (hr : SameE r r') (values : Dict) :
    SameE (b.expectedSizeWith sf r values) (b'.expectedSizeWith sf' r' (Dict.rename ρ values)) := by
  simp only [FieldBase.expectedSizeWith, hb.size]
  cases b.size with
  | fixed n => exact .ok rfl
  | ref x =>
    simp only [sizeRenamed, sizeFromRef, rename_get? hρ]
    cases values.get? x with
    | none => exact .error rfl
    | some v => cases v <;> first | exact .error rfl | exact .ok rfl
  | none =>
    simp only [sizeRenamed]
    have h1 : SameE (b.sizingValue values) (b'.sizingValue (Dict.rename ρ values)) := by
      simp only [FieldBase.sizingValue, hb.name, rename_get? hρ, hb.default]
      cases values.get? b.name with
      | some v => exact .ok rfl
      | none =>
        cases b.default with
        | error e => exact .error rfl
        | ok v =>
          simp only
          split
          · exact .error rfl
          · exact .ok rfl
    generalize b.sizingValue values = q at h1
    generalize b'.sizingValue (Dict.rename ρ values) = q' at h1
    cases h1 with
    | error h => exact .error h
    | @ok v _ h =>
      subst h
      have h2 : SameE (match sf v with
          | .error e => .error e
          | .ok (some n) => (.ok n : Except Err Int)
          | .ok none => .error (.undefinedSize b.name)) (match sf' v with
          | .error e => .error e
          | .ok (some n) => (.ok n : Except Err Int)
          | .ok none => .error (.undefinedSize b'.name)) := by
        have := hs v
        generalize sf v = a at this
        generalize sf' v = a' at this
        cases this with
        | error h => exact .error h
        | @ok x _ h =>
          subst h
          cases x
          · exact .error rfl
          · exact .ok rfl
      cases v <;> try exact h2
      cases hr with
      | error h => exact .error h
      | ok h => subst h; exact .ok rfl

theorem buggy_same {α : Type} (x y : String) : SameE (.error (.buggyField x) : Except Err α) (.error (.buggyField y)) := .error rfl

include hρ in
theorem leafExpectedSize_renamed {b b' : FieldBase} (hb : BaseRenamed ρ b b') {k k' : Leaf} (hk : LeafRenamed ρ k k') (values : Dict) :
    SameE (leafExpectedSize b k values) (leafExpectedSize b' k' (Dict.rename ρ values)) :=
  expectedSizeWith_renamed hρ hb (leafSizeForValue_renamed hb.toBaseAlike hk)
    (nullReprWith_renamed hb.toBaseAlike (fun v => leafDump_renamed hb.toBaseAlike hk (buggy_same b.name b'.name) v .none values) (buggy_same b.name b'.name)) values

include hρ in
theorem leafNullRepr_renamed {b b' : FieldBase} (hb : BaseRenamed ρ b b') {k k' : Leaf} (hk : LeafRenamed ρ k k') (values : Dict) :
    SameE (leafNullRepr b k values) (leafNullRepr b' k' (Dict.rename ρ values)) :=
  nullReprWith_renamed hb.toBaseAlike (fun v => leafDump_renamed hb.toBaseAlike hk (leafExpectedSize_renamed hρ hb hk values) v .none values)
    (leafExpectedSize_renamed hρ hb hk values)

include hρ in
theorem finalElementCount_renamed (count : Count) (values : Dict) :
    SameE (finalElementCount count values) (finalElementCount (countRenamed ρ count) (Dict.rename ρ values)) := by
  cases count with
  | none => exact .ok rfl
  | fixed n => exact .ok rfl
  | ref x =>
    have : (ρ x = "") ↔ (x = "") := ⟨fun h => hρ.inj _ _ (h.trans hρ.empty.symm), fun h => by rw [h, hρ.empty]⟩
    simp only [countRenamed, finalElementCount, rename_get? hρ, this]
    split
    · exact .error rfl
    · cases values.get? x with
      | none => exact .error rfl
      | some v => cases v <;> first | exact .error rfl | exact .ok rfl

theorem dumpAll_sameW {t t' : Value → W} (h : ∀ v, SameW (t v) (t' v)) (l : List Value) : SameW (dumpAll t l) (dumpAll t' l) := by
  induction l with
  | nil => exact SameW.refl _
  | cons v l ih => exact SameW.seq (h v) ih

theorem dumpUnsized_sameW {t t' : Value → W} (h : ∀ v, SameW (t v) (t' v)) (x y : String) (n : Option Int) (i : Nat) (l : List Value) :
    SameW (dumpUnsized x t n i l) (dumpUnsized y t' n i l) := by
  induction l generalizing i with
  | nil =>
    cases n with
    | none => exact SameW.refl _
    | some n =>
      simp only [dumpUnsized]
      split
      · exact SameW.fail rfl
      · exact SameW.refl _
  | cons v l ih =>
    simp only [dumpUnsized]
    split
    · exact SameW.fail rfl
    · exact SameW.seq (h v) (ih _)

include hρ in
theorem arrayDump_renamed {t t' : Value → W} (h : ∀ v, SameW (t v) (t' v)) (x y : String) (count : Count) (v : Value) (all : Dict) :
    SameW (arrayDump x t count v all) (arrayDump y t' (countRenamed ρ count) v (Dict.rename ρ all)) := by
  have hc := finalElementCount_renamed hρ count all
  simp only [arrayDump]
  generalize finalElementCount count all = q at hc
  generalize finalElementCount (countRenamed ρ count) (Dict.rename ρ all) = q' at hc
  cases hc with
  | error h => exact SameW.fail h
  | @ok n _ hn =>
    subst hn
    simp only
    cases arrayElements v with
    | none => exact SameW.fail rfl
    | some p =>
      obtain ⟨sized, l⟩ := p
      cases sized
      · exact dumpUnsized_sameW h _ _ _ _ _
      · cases n with
        | none => exact dumpAll_sameW h l
        | some n =>
          simp only
          split
          · exact SameW.fail rfl
          · exact dumpAll_sameW h l

theorem Spec.Each.get? {α β : Type} {R : α → β → Prop} {as : List α} {bs : List β} (h : Each R as bs) (i : Nat) : Both R as[i]? bs[i]? := by
  induction h generalizing i with
  | nil => exact .none
  | cons h hs ih =>
    cases i with
    | zero => exact .some h
    | succ i => simpa using ih i

/-- How many bytes `to_stream` expects to have. -/
def FieldBase.dueSize (b : FieldBase) (es : Except Err Int) (bs : Bytes) : Except Err Int :=
  match b.size with
  | .fixed n => .ok n
  | .none => .ok bs.length
  | .ref _ => es

theorem toStreamWith_renamed {b b' : FieldBase} (hb : BaseAlike ρ b b') {dd dd' : Value → W} (hd : ∀ v, SameW (dd v) (dd' v))
    {nr nr' : Except Err Bytes} (hn : SameE nr nr') {es es' : Except Err Int} (he : SameE es es') {pad pad' : Bytes → Int → Except Err Bytes}
    (hp : ∀ bs n, SameE (pad bs n) (pad' bs n)) (v : Value) : SameW (toStreamWith b dd nr es pad v) (toStreamWith b' dd' nr' es' pad' v) := by
  simp only [toStreamWith, hb.default, hb.validators]
  cases (if v = .dflt then b.default else .ok v) with
  | error e => exact SameW.fail rfl
  | ok v =>
    simp only
    split
    · exact SameW.fail rfl
    · cases runValidators b.validators v with
      | error e => exact SameW.fail rfl
      | ok u =>
        simp only
        split
        · exact SameW.ofExcept hn
        · have h1 := SameW.toExcept (hd v)
          generalize (dd v).toExcept = q at h1
          generalize (dd' v).toExcept = q' at h1
          cases h1 with
          | error h => exact SameW.fail h
          | @ok bs _ h =>
            subst h
            have hex : SameE (b.dueSize es bs) (b'.dueSize es' bs) := by
              simp only [FieldBase.dueSize, hb.size]
              cases b.size with
              | fixed n => exact .ok rfl
              | none => exact .ok rfl
              | ref x => exact he
            have hx : ∀ (b : FieldBase) es pad, finishDump b es pad bs = match b.dueSize es bs with
                | .error e => W.fail e
                | .ok n =>
                  if (bs.length : Int) - n > 0 then W.fail (.valueSize b.name)
                  else if (bs.length : Int) - n < 0 then W.ofExcept (pad bs n)
                  else W.ok bs := fun _ _ _ => rfl
            simp only [hx]
            generalize b.dueSize es bs = a at hex ⊢
            generalize b'.dueSize es' bs = a' at hex ⊢
            cases hex with
            | error h => exact SameW.fail h
            | @ok n _ h =>
              subst h
              simp only
              split
              · exact SameW.fail rfl
              · split
                · exact SameW.ofExcept (hp bs n)
                · exact SameW.refl _

include hρ in
theorem containerNulls_renamed {b b' : FieldBase} (hb : BaseRenamed ρ b b') {dd dd' : Value → W} (hd : ∀ v, SameW (dd v) (dd' v)) (all : Dict) :
    SameE (containerExpectedSize b dd all) (containerExpectedSize b' dd' (Dict.rename ρ all)) ∧
      SameE (containerNullRepr b dd all) (containerNullRepr b' dd' (Dict.rename ρ all)) := by
  have h1 : SameE (containerExpectedSize b dd all) (containerExpectedSize b' dd' (Dict.rename ρ all)) := by
    refine expectedSizeWith_renamed hρ hb (fun v => ?_) (nullReprWith_renamed hb.toBaseAlike hd (buggy_same b.name b'.name)) all
    simp only [baseSizeForValue, hb.size]
    cases b.size <;> exact .ok rfl
  exact ⟨h1, nullReprWith_renamed hb.toBaseAlike hd h1⟩

include hρ in
theorem containerDump_renamed {Γ : Classes} {ts : Field → Value → Value → Dict → W} {ss : StructDesc → Dict → Value → W}
    (ih : ∀ f f' v c all, FieldRenamed ρ f f' → SameW (ts f v c all) (ts f' v c (Dict.rename ρ all)))
    {f f' : Field} (hf : FieldRenamed ρ f f') (v c : Value) (all : Dict) :
    SameW (containerDump Γ ts ss f v c all) (containerDump Γ ts ss f' v c (Dict.rename ρ all)) := by
  cases hf with
  | leaf => exact SameW.refl _
  | array hb hc hh => exact arrayDump_renamed hρ (fun v => ih _ _ v c all hc) _ _ _ v all
  | nested hb => exact SameW.refl _
  | @union b b' cs cs' ld ld' dd dd' hb hc hl hd =>
    have h1 := hd v c all
    simp only [containerDump]
    generalize dd v c all = q at h1
    generalize dd' v c (Dict.rename ρ all) = q' at h1
    cases h1 with
    | error h => exact SameW.fail h
    | @ok i _ h =>
      subst h
      have h2 := hc.get? i
      simp only
      generalize cs[i]? = a at h2
      generalize cs'[i]? = a' at h2
      cases h2 with
      | none => exact SameW.fail rfl
      | some h =>
        cases h with
        | field h => exact ih _ _ v c all h
        | cls x => exact SameW.refl _

include hρ in
theorem fieldToStream_renamed (Γ : Classes) (n : Nat) {f f' : Field} (hf : FieldRenamed ρ f f') (v c : Value) (all : Dict) :
    SameW (fieldToStream Γ n f v c all) (fieldToStream Γ n f' v c (Dict.rename ρ all)) := by
  induction n generalizing f f' v c all with
  | zero => exact SameW.refl _
  | succ n ih =>
    have hcd := fun {g g'} (hg : FieldRenamed ρ g g') v c all =>
      containerDump_renamed hρ (Γ := Γ) (ss := structToStream Γ n) (fun f f' v c all hf => ih hf v c all) hg v c all
    have hcont : ∀ {g g' : Field} (_ : FieldRenamed ρ g g'), SameW
        (toStreamWith g.base (fun v => containerDump Γ (fieldToStream Γ n) (structToStream Γ n) g v c all)
          (containerNullRepr g.base (fun v => containerDump Γ (fieldToStream Γ n) (structToStream Γ n) g v .none all) all)
          (containerExpectedSize g.base (fun v => containerDump Γ (fieldToStream Γ n) (structToStream Γ n) g v .none all) all)
          (fun _ _ => .error (.valueSize g.name)) v)
        (toStreamWith g'.base (fun v => containerDump Γ (fieldToStream Γ n) (structToStream Γ n) g' v c (Dict.rename ρ all))
          (containerNullRepr g'.base (fun v => containerDump Γ (fieldToStream Γ n) (structToStream Γ n) g' v .none (Dict.rename ρ all)) (Dict.rename ρ all))
          (containerExpectedSize g'.base (fun v => containerDump Γ (fieldToStream Γ n) (structToStream Γ n) g' v .none (Dict.rename ρ all)) (Dict.rename ρ all))
          (fun _ _ => .error (.valueSize g'.name)) v) := fun {g g'} hg => by
      have hz := containerNulls_renamed hρ hg.base (fun v => hcd hg v .none all) all
      exact toStreamWith_renamed hg.base.toBaseAlike (fun v => hcd hg v c all) hz.2 hz.1 (fun _ _ => .error (e := .valueSize g.name) (e' := .valueSize g'.name) rfl) v
    cases hf with
    | leaf hb hk =>
      exact toStreamWith_renamed hb.toBaseAlike (fun v => leafDump_renamed hb.toBaseAlike hk (leafExpectedSize_renamed hρ hb hk all) v c all)
        (leafNullRepr_renamed hρ hb hk all) (leafExpectedSize_renamed hρ hb hk all) (leafAddPadding_renamed hk) v
    | array hb hc hh => exact hcont (.array hb hc hh)
    | nested hb => exact hcont (.nested hb)
    | union hb hc hl hd => exact hcont (.union hb hc hl hd)

include hρ in
theorem dumpFields_renamed {ts ts' : Field → Value → W} {all : Dict} (c : Value) {fs fs' : List Field} (hfs : Each (FieldRenamed ρ) fs fs')
    (h : ∀ f f' v, FieldRenamed ρ f f' → SameW (ts f v) (ts' f' v)) : SameW (dumpFields ts all c fs) (dumpFields ts' (Dict.rename ρ all) c fs') := by
  induction hfs with
  | nil => exact SameW.refl _
  | @cons f f' fs fs' hf hs ih =>
    have hc := computeValueForDump_renamed hf.base (rename_view hρ all) c
    simp only [dumpFields]
    generalize f.base.computeValueForDump all.view c = q at hc
    generalize f'.base.computeValueForDump (Dict.rename ρ all).view c = q' at hc
    cases hc with
    | error h => exact SameW.fail h
    | @ok v _ hv =>
      subst hv
      simp only
      split
      · exact ih
      · exact SameW.seq (h _ _ v hf) ih

include hρ in
theorem structToStream_renamed (Γ : Classes) (n : Nat) {d e : StructDesc} (h : Renamed ρ d e) (vals : Dict) (c : Value) :
    SameW (structToStream Γ n d vals c) (structToStream Γ n e (Dict.rename ρ vals) c) := by
  cases n with
  | zero => exact SameW.refl _
  | succ n =>
    have hv := validateContents_renamed hρ h vals
    have hd := structToDict_renamed hρ Γ n h.components vals false
    simp only [structToStream, structToStreamWith]
    generalize validateContents d vals = q at hv
    generalize validateContents e (Dict.rename ρ vals) = q' at hv
    cases hv with
    | error h => exact SameW.fail h
    | ok _ =>
      simp only
      generalize structToDict Γ n d vals = q at hd
      generalize structToDict Γ n e (Dict.rename ρ vals) = q' at hd
      cases hd with
      | error h => exact SameW.fail h
      | ok ha =>
        subst ha
        exact dumpFields_renamed hρ c h.components fun f f' v hf => fieldToStream_renamed hρ Γ n hf v c _

end

end Verif
