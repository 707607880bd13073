import Verif.Spec.Size
import Verif.Proofs.Independent
import Verif.Proofs.ToDict
import Verif.Proofs.FuelDump
import Verif.Props.Field
import Verif.Proofs.IntCodec

/-! Sizes of dumps. -/

namespace Verif
open Spec

theorem writeInt_length {v : Int} {k : Nat} {signed : Bool} {e : Endian} {b : Bytes} (h : writeInt v k signed e = .ok b) :
    b.length = k := by
  unfold writeInt intToBytes at h
  split at h
  · simp at h
  · simp only at h
    generalize (if signed = true then _ else _ : Bool) = fits at h
    split at h
    · simp only [Except.ok.injEq] at h; subst h
      cases e <;> simp [Endian.arrange, natToLE_length]
    · simp at h

theorem unserializableOnRange_ok {name : String} {r : Except Err Bytes} {b : Bytes}
    (h : unserializableOnRange name r = .ok b) : r = .ok b := by
  cases r with
  | ok x => simpa [unserializableOnRange] using h
  | error e => simp only [unserializableOnRange] at h; split at h <;> simp at h

theorem encodeAndResize_length {name : String} {c : CharCodec} {pad : Option UInt8} {s : List Nat} {k : Int} {b : Bytes}
    (h : encodeAndResize name c pad s (.ok k) = .ok b) : (b.length : Int) = k := by
  unfold encodeAndResize at h
  split at h
  · simp at h
  · rename_i enc henc
    simp only at h
    split at h
    · simp at h
    · split at h
      · split at h
        · simp at h
        · simp at h; subst h; simp; omega
      · simp at h; subst h; omega

/-- Dumping a value without the size check, for the exact kinds. -/
theorem exactKind_doDump {Γ : Classes} {n : Nat} {f : Field} {v ctx : Value} {all : Dict} {bs : Bytes} {k : Nat}
    (hk : ExactKind f) (hs : f.base.size = .fixed k) (h : fieldDoDump Γ n f v ctx all = (bs, .ok ())) : bs.length = k := by
  cases f with
  | leaf b kd =>
    have he : leafExpectedSize b kd all = .ok (k : Int) := leafExpectedSize_declared (Or.inl hs)
    simp only [fieldDoDump, he] at h
    simp only [Field.base] at hs
    cases kd with
    | integer signed endian =>
      simp only [leafDump, hs] at h
      cases v <;> simp only [W.fail] at h <;> try (simp at h)
      exact writeInt_length (unserializableOnRange_ok (W.ofExcept_ok h))
    | timestamp res tz signed endian =>
      simp only [leafDump] at h
      cases v <;> simp only [W.fail] at h <;> try (simp at h)
      split at h
      · simp at h
      · exact writeInt_length (unserializableOnRange_ok (W.ofExcept_ok h))
    | string c pad =>
      simp only [leafDump] at h
      cases v <;> simp only [W.fail] at h <;> try (simp at h)
      exact Int.ofNat_inj.1 (encodeAndResize_length (W.ofExcept_ok h))
    | _ => exact absurd hk (by simp [ExactKind])
  | _ => exact absurd hk (by simp [ExactKind])

theorem fieldNullRepr_eq (Γ : Classes) (n : Nat) (f : Field) (all : Dict) :
    fieldNullRepr Γ n f all = f.base.nullReprWith (fun v => fieldDoDump Γ n f v .none all) (fieldExpectedSize Γ n f all) := by
  cases f <;> rfl

theorem nullFits_length {Γ : Classes} {n : Nat} {f : Field} {all : Dict} {bs : Bytes} {k : Int} (hn : NullFits f)
    (hs : f.base.size = .fixed k) (h : fieldNullRepr Γ n f all = .ok bs) : (bs.length : Int) = k := by
  rw [fieldNullRepr_eq] at h
  have he : fieldExpectedSize Γ n f all = .ok k := fieldExpectedSize_declared (Or.inl hs)
  rw [he] at h
  unfold FieldBase.nullReprWith at h
  rcases hn with hn | ⟨k', hs', hn⟩
  · rw [hn] at h; simp at h
  · rw [hs] at hs'; simp at hs'; subst hs'
    rcases hn with hn | hn | ⟨b, hn, hl⟩ | ⟨hk, hb⟩
    · rw [hn] at h; simp at h; subst h; simp
    · rw [hn] at h; simp at h; subst h; simp
    · rw [hn] at h; simp at h; subst h; simp [hl]
    · split at h
      · simp at h
      · simp at h; subst h; simp
      · simp at h; subst h; simp
      · rename_i b hb'; exact absurd hb' (hb b)
      · rw [exactKind_doDump hk hs (W.toExcept_ok h)]

/-- A field with a fixed size writes that many bytes, for `None` too. -/
theorem fixed_dump_length {Γ : Classes} {n : Nat} {f : Field} {v ctx : Value} {all : Dict} {bs : Bytes} {k : Int}
    (hs : f.base.size = .fixed k) (hp : PadsExactly f) (hn : NullFits f) (h : fieldToStream Γ n f v ctx all = (bs, .ok ())) :
    (bs.length : Int) = k := by
  cases n with
  | zero => cases f <;> simp [fieldToStream, W.fail] at h
  | succ n =>
    have h' := h
    rw [fieldToStream_succ] at h'
    obtain ⟨w, hw, -, -, -, hcase⟩ := toStreamWith_ok h'
    by_cases hwn : w = .none
    · rcases hcase with ⟨-, hr⟩ | ⟨h1, -⟩
      · exact nullFits_length hn hs hr
      · exact absurd hwn h1
    · refine C15_declared_size_written Γ (n + 1) f v w ctx all bs k (Or.inl hs) ?_ hwn hp h
      unfold Effective
      by_cases hv : v = .dflt
      · right; rw [if_pos hv] at hw; exact ⟨hv, hw⟩
      · left; rw [if_neg hv] at hw; simp at hw; exact ⟨hv, hw.symm⟩

/-- The same for a size given by another field. -/
theorem ref_dump_length {Γ : Classes} {n : Nat} {f : Field} {v ctx : Value} {all : Dict} {bs : Bytes} {name : String}
    (hs : f.base.size = .ref name) (hp : PadsExactly f) (hn : f.base.nullValue = .undefined)
    (h : fieldToStream Γ n f v ctx all = (bs, .ok ())) : Dict.get? all name = some (.int bs.length) := by
  cases n with
  | zero => cases f <;> simp [fieldToStream, W.fail] at h
  | succ n =>
    have h' := h
    rw [fieldToStream_succ] at h'
    obtain ⟨w, hw, -, -, -, hcase⟩ := toStreamWith_ok h'
    have heff : Effective f v w := by
      unfold Effective
      by_cases hv : v = .dflt
      · right; rw [if_pos hv] at hw; exact ⟨hv, hw⟩
      · left; rw [if_neg hv] at hw; simp at hw; exact ⟨hv, hw.symm⟩
    rcases hcase with ⟨-, hr⟩ | ⟨h1, ser, -, hfin⟩
    · rw [fieldNullRepr_eq] at hr; simp [FieldBase.nullReprWith, hn] at hr
    · rcases finishDump_ok hfin with ⟨hs', -⟩ | ⟨k, hk, -⟩
      · rw [hs] at hs'; simp at hs'
      · rcases hk with hk | ⟨nm, hk, he⟩
        · rw [hs] at hk; simp at hk
        · have hexp : fieldExpectedSize Γ n f all = sizeFromRef all name := by
            cases f <;>
              (simp only [Field.base] at hs
               simp [fieldExpectedSize, leafExpectedSize, containerExpectedSize, FieldBase.expectedSizeWith, hs, Field.base])
          rw [hexp] at he
          unfold sizeFromRef at he
          split at he
          · rename_i i hi
            simp at he; subst he
            rw [C15_declared_size_written Γ (n + 1) f v w ctx all bs i (Or.inr ⟨name, hs, hi⟩) heff h1 hp h, hi]
          · simp at he
          · simp at he

/-! ### Fields without a declared size -/

theorem expectedSize_none {Γ : Classes} {n : Nat} {f : Field} {values : Dict} {k : Int} (hs : f.base.size = .none)
    (hn : f.base.nullValue = .undefined) (h : fieldExpectedSize Γ n f values = .ok k) :
    ∃ b kd v, f = .leaf b kd ∧ b.sizingValue values = .ok v ∧ leafSizeForValue b kd v = .ok (some k) := by
  have key : ∀ sf r, (∀ k, r ≠ .ok k) → f.base.expectedSizeWith sf r values = .ok k →
      ∃ v, f.base.sizingValue values = .ok v ∧ sf v = .ok (some k) := by
    intro sf r hr h
    unfold FieldBase.expectedSizeWith at h
    rw [hs] at h
    simp only at h
    split at h
    · simp at h
    · cases r with
      | error e => simp [Except.map] at h
      | ok b => exact absurd rfl (hr b)
    · rename_i v _ hv
      refine ⟨v, hv, ?_⟩
      split at h
      · simp at h
      · rename_i m hm; simp at h; subst h; exact hm
      · simp at h
  cases f with
  | leaf b kd =>
    obtain ⟨v, h1, h2⟩ := key _ _ (by intro k; simp only [Field.base] at hn; simp [FieldBase.nullReprWith, hn]) h
    exact ⟨b, kd, v, rfl, h1, h2⟩
  | _ =>
    obtain ⟨v, h1, h2⟩ := key _ _ (by intro k; simp only [Field.base] at hn; simp [FieldBase.nullReprWith, hn, Field.base]) h
    simp only [Field.base] at hs
    simp [baseSizeForValue, hs, Field.base] at h2

/-- What `_size_for_value` says is what `_do_dump` writes. -/
theorem sizeForValue_length {b : FieldBase} {kd : Leaf} {v ctx : Value} {k : Int} {all : Dict} {bs : Bytes} (hs : b.size = .none)
    (hc : ∀ ops, kd ≠ .custom ops) (h : leafSizeForValue b kd v = .ok (some k)) (h' : leafDump b kd (.ok k) v ctx all = (bs, .ok ())) :
    (bs.length : Int) = k ∧ NoStruct v ∧ v ≠ .dflt ∧ v ≠ .none := by
  cases kd with
  | custom ops => exact absurd rfl (hc ops)
  | varint enc max =>
    cases v <;> simp only [leafSizeForValue] at h <;> try (simp at h)
    rename_i i
    obtain ⟨x, hx, hk⟩ := Except.map_ok h
    simp at hk; subst hk
    refine ⟨?_, .int i, by simp, by simp⟩
    simp only [leafDump, hx, unserializableOnRange] at h'
    split at h'
    · split at h'
      · simp [W.fail] at h'
      · simp [W.ok] at h'; rw [h']
    · simp [W.ok] at h'; rw [h']
  | bytes =>
    cases v <;> simp only [leafSizeForValue] at h <;> try (simp at h)
    rename_i i
    refine ⟨?_, .bytes i, by simp, by simp⟩
    simp only [leafDump] at h'
    split at h'
    · simp [W.fail] at h'
    · simp [W.ok] at h'; subst h'; exact h
  | string c pad =>
    cases v <;> simp only [leafSizeForValue] at h <;> try (simp at h)
    rename_i i
    refine ⟨?_, .str i, by simp, by simp⟩
    simp only [leafDump] at h'
    exact encodeAndResize_length (W.ofExcept_ok h')
  | stringz c pad =>
    cases v <;> simp only [leafSizeForValue] at h <;> try (simp at h)
    rename_i i
    obtain ⟨x, hx, hk⟩ := Except.map_ok h
    simp at hk; subst hk
    refine ⟨?_, .str i, by simp, by simp⟩
    simp only [leafDump, hx, W.ofExcept, W.ok] at h'
    simp at h'; rw [h']
  | _ => simp [leafSizeForValue, hs] at h

/-! ### What `len()` knows, compared with what is dumped -/

theorem current_all {Γ : Classes} {n : Nat} {d : StructDesc} {vals current all : Dict} (hd : UniqueNames d) (hi : Instance d vals)
    (hc : whateverPossible d vals = .ok current) (ha : structToDict Γ n d vals = .ok all) {f : Field} (hf : f ∈ d.components)
    {w : Value} (hw : Dict.get? all f.name = some w) :
    ∃ v, recursiveToDicts Γ n v = .ok w ∧
      ((Dict.get? current f.name = some v ∧
          (f.base.computeValueForDump (structView d vals) .none = .ok v ∨ Dict.get? vals f.name = some v)) ∨
       (Dict.get? current f.name = none ∧ f.base.computeValueForDump (Dict.view current) .none = .ok v)) := by
  obtain ⟨-, -, h1⟩ := structToDict_get hd hi ha
  obtain ⟨-, -, h2⟩ := whateverPossible_get hd hi hc
  rcases h1 f hf with ⟨-, -, h3⟩ | ⟨-, v, w', h3, h4, h5⟩
  · rw [hw] at h3; simp at h3
  · rw [hw] at h5; simp at h5; subst h5
    refine ⟨v, h4, ?_⟩
    rcases h3 with h3 | ⟨e, h3, -, ⟨h6, h7⟩ | ⟨h6, dct, h7, h8, h9⟩⟩
    · rcases h2 f hf with ⟨v', h8, h9⟩ | ⟨e, h8, -⟩
      · rw [h3] at h8; simp at h8; subst h8; exact Or.inl ⟨h9, Or.inl h3⟩
      · rw [h3] at h8; simp at h8
    · rcases h2 f hf with ⟨v', h8, -⟩ | ⟨e', -, -, ⟨-, v', h8, h9⟩ | ⟨h8, -⟩⟩
      · rw [h3] at h8; simp at h8
      · rw [h7] at h8; simp at h8; subst h8; exact Or.inl ⟨h9, Or.inr h7⟩
      · rw [h6] at h8; simp at h8
    · rw [hc] at h7; simp at h7; subst h7
      exact Or.inr ⟨h8, h9⟩

theorem recursiveToDicts_int {Γ : Classes} {n : Nat} {v : Value} {i : Int} (h : recursiveToDicts Γ n v = .ok (.int i)) :
    v = .int i := by
  cases n with
  | zero => simp [recursiveToDicts] at h
  | succ n =>
    cases v with
    | struct cls vals =>
      simp only [recursiveToDicts] at h
      split at h
      · simp at h
      · split at h
        · simp at h
        · obtain ⟨r, -, h⟩ := Except.map_ok h; simp at h
    | dict dct => simp only [recursiveToDicts] at h; obtain ⟨r, -, h⟩ := Except.map_ok h; simp at h
    | list l => simp only [recursiveToDicts] at h; obtain ⟨r, -, h⟩ := Except.map_ok h; simp at h
    | _ => simp [recursiveToDicts] at h <;> rw [h]

theorem chosen_plain {f : Field} {vals : Dict} {view : View} {v : Value} (hp : PlainSources f vals) (hfac : f.base.factory = none)
    (hv : ∀ v, view.contains f.name = true → view.get f.name = .ok v → NoStruct v) (h : Chosen f.base view v) : NoStruct v := by
  cases h with
  | explicit h1 h2 => exact hv v h1 h2
  | default _ _ h3 =>
    simp [FieldBase.default, hfac] at h3; rw [← h3]; exact hp.2.1
  | computed _ _ h3 h4 => exact hp.2.2 _ _ _ h3 h4
  | nothing => exact .undefined

theorem computed_plain {f : Field} {vals : Dict} {view : View} {ctx v : Value} (hp : PlainSources f vals) (hfac : f.base.factory = none)
    (hv : ∀ v, view.contains f.name = true → view.get f.name = .ok v → NoStruct v)
    (h : f.base.computeValueForDump view ctx = .ok v) : NoStruct v := by
  obtain ⟨u, h1, ⟨h2, -⟩ | ⟨h2, -⟩⟩ := computeValueForDump_ok h
  · rw [h2]; exact .notPresent
  · rw [h2]; exact chosen_plain hp hfac hv h1

theorem notPresent_dump {Γ : Classes} {n : Nat} {f : Field} {ctx : Value} {all : Dict} {bs : Bytes}
    (hk : Independent f ∨ (∃ b, f = .leaf b .bytes) ∨ ∃ b c pad, f = .leaf b (.string c pad))
    (h : fieldToStream Γ n f .notPresent ctx all = (bs, .ok ())) : False := by
  cases n with
  | zero => cases f <;> simp [fieldToStream, W.fail] at h
  | succ n =>
    rw [fieldToStream_succ] at h
    obtain ⟨w, hw, -, -, -, ⟨hw', -⟩ | ⟨-, ser, hs, -⟩⟩ := toStreamWith_ok h
    · simp at hw; rw [← hw] at hw'; simp at hw'
    · simp at hw; subst hw
      rcases hk with hk | ⟨b, rfl⟩ | ⟨b, c, pad, rfl⟩
      · cases hk with
        | leaf hk _ =>
          rename_i b k _
          cases k <;> simp only [fieldDoDump, leafDump] at hs <;> try (simp [W.fail] at hs)
          · split at hs <;> simp at hs
          · split at hs <;> simp at hs
          · exact hk _ rfl
        | array _ _ _ =>
          simp only [fieldDoDump, containerDump, arrayDump, arrayElements] at hs
          split at hs <;> simp [W.fail] at hs
        | nested _ => simp [fieldDoDump, containerDump, W.fail] at hs
      · simp only [fieldDoDump, leafDump] at hs
        split at hs <;> simp [W.fail] at hs
      · simp [fieldDoDump, leafDump, W.fail] at hs

theorem sizeForValue_value {b : FieldBase} {kd : Leaf} {v : Value} {k : Int} (hs : b.size = .none)
    (hc : ∀ ops, kd ≠ .custom ops) (h : leafSizeForValue b kd v = .ok (some k)) : v ≠ .dflt ∧ v ≠ .none := by
  constructor
  · rintro rfl
    cases kd <;> simp [leafSizeForValue, hs] at h
    rename_i ops; exact hc ops rfl
  · rintro rfl
    cases kd <;> simp [leafSizeForValue, hs] at h
    rename_i ops; exact hc ops rfl

theorem leafExpectedSize_value {b : FieldBase} {kd : Leaf} {v : Value} {k : Int} {values : Dict} (hs : b.size = .none)
    (hn : v ≠ .none) (hv : b.sizingValue values = .ok v) (h : leafSizeForValue b kd v = .ok (some k)) :
    leafExpectedSize b kd values = .ok k := by
  simp only [leafExpectedSize, FieldBase.expectedSizeWith, hs, hv]
  cases v <;> first | exact absurd rfl hn | simp only [h]

/-- The length `len()` computes for one field is the length of what the field contributes to the dump. -/
theorem fieldLen_part {Γ : Classes} {n : Nat} {d : StructDesc} {vals current all : Dict} (hd : UniqueNames d)
    (hi : Instance d vals) (hc : whateverPossible d vals = .ok current) (ha : structToDict Γ n d vals = .ok all) {f : Field}
    (hf : f ∈ d.components) (hm : Measurable f vals) (hskip : ¬ Skipped f all .none) {p : Bytes} (hp : Part Γ n .none all f p)
    {k : Int} (hk : fieldLen Γ n current f = .ok k) : (p.length : Int) = k := by
  rcases hp with ⟨hp, -⟩ | ⟨w, hw, hp⟩
  · exact absurd hp hskip
  rcases hm with ⟨⟨m, hs⟩, hpad, hnull⟩ | ⟨⟨name, hs⟩, hpad, hnull⟩ | ⟨hs, hdis, hfac, hnull, hkind, hplain⟩
  · unfold fieldLen at hk
    rw [hs] at hk; simp at hk; subst hk
    exact fixed_dump_length hs hpad hnull hp
  · have hlen := ref_dump_length hs hpad hnull hp
    unfold fieldLen at hk
    rw [hs] at hk
    have hexp : ∀ values, fieldExpectedSize Γ n f values = sizeFromRef values name := by
      intro values
      cases f <;>
        (simp only [Field.base] at hs
         simp [fieldExpectedSize, leafExpectedSize, containerExpectedSize, FieldBase.expectedSizeWith, hs, Field.base])
    simp only [hexp] at hk
    -- the referenced field
    have hname : name ∈ Dict.keys all := Dict.get?_some_key hlen
    obtain ⟨g, hg, hgn⟩ : ∃ g ∈ d.components, g.name = name := by
      have := (structToDict_get hd hi ha).2.1 name hname
      exact List.mem_map.1 this
    subst hgn
    obtain ⟨v, h1, h2⟩ := current_all hd hi hc ha hg hlen
    have := recursiveToDicts_int h1; subst this
    rcases h2 with ⟨h2, -⟩ | ⟨h2, -⟩
    · simp only [sizeFromRef, h2] at hk
      simpa using hk
    · simp only [sizeFromRef, h2] at hk
      simp [Err.isBinobj, Err.isSerialization] at hk
      split at hk
      · simp at hk
      · obtain ⟨b, hb, -⟩ := Except.map_ok hk
        have hb := ref_dump_length hs hpad hnull (W.toExcept_ok hb)
        simp [Dict.get?_nil] at hb
  · -- no declared size
    have hnm : f.name ∈ names d := List.mem_map.2 ⟨f, hf, rfl⟩
    obtain ⟨-, -, hget⟩ := structToDict_get hd hi ha
    obtain ⟨w', hw'⟩ : ∃ w', Dict.get? all f.name = some w' := by
      rcases hget f hf with ⟨-, h, -⟩ | ⟨-, v, w', -, -, h⟩
      · rw [hdis] at h; simp at h
      · exact ⟨w', h⟩
    have hww : w = w' := by
      refine Chosen.unique hw.1 (.explicit ?_ ?_)
      · show (Dict.view all).contains f.name = true
        simp [Dict.view, Dict.contains_eq, hw']
      · show (Dict.view all).get f.name = .ok w'
        simp [Dict.view, hw']
    subst hww
    obtain ⟨v, h1, h2⟩ := current_all hd hi hc ha hf hw'
    have hvplain : NoStruct v := by
      rcases h2 with ⟨-, h2 | h2⟩ | ⟨h3, h2⟩
      · refine computed_plain hplain hfac ?_ h2
        intro x hx hx'
        obtain ⟨y, hy, -⟩ := (structContains_iff hi.1).1 hx
        have : structGetItem d vals f.name = .ok x := hx'
        rw [structGetItem_some hnm hy] at this
        simp at this; subst this
        exact hplain.1 _ hy
      · exact hplain.1 _ h2
      · refine computed_plain hplain hfac ?_ h2
        intro x hx hx'
        have : Dict.contains current f.name = true := hx
        rw [Dict.contains_eq, h3] at this; simp at this
    have hvw : w = v := (recursiveToDicts_spec h1).2 hvplain
    subst hvw
    -- the value that is measured is the one that is dumped
    have hsizing : ∀ x, f.base.sizingValue current = .ok x → x = w := by
      intro x hx
      unfold FieldBase.sizingValue at hx
      rcases h2 with ⟨h2, -⟩ | ⟨h3, h2⟩
      · have h2' : Dict.get? current f.base.name = some w := h2
        rw [h2'] at hx; simp at hx; exact hx.symm
      · have h3' : Dict.get? current f.base.name = none := h3
        rw [h3'] at hx
        simp only [FieldBase.default, hfac] at hx
        split at hx
        · simp at hx
        · rename_i hu
          simp at hx; subst hx
          obtain ⟨u, h4, ⟨h5, -⟩ | ⟨h5, -⟩⟩ := computeValueForDump_ok h2
          · exact absurd h5 hw.2.1
          · rw [h5]
            refine Chosen.unique (.default ?_ hu (by simp [FieldBase.default, hfac])) h4
            show Dict.contains current f.base.name = false
            rw [Dict.contains_eq, h3']; rfl
    have hdump : ∀ x, fieldLen Γ n current f = .ok x →
        (∀ y, fieldExpectedSize Γ n f current ≠ .ok y) → f.base.computeValueForDump (Dict.view current) .none = .ok w ∧
          ∃ b, fieldToStream Γ n f w .none [] = (b, .ok ()) ∧ (b.length : Int) = x := by
      intro x hx hy
      unfold fieldLen at hx
      simp only [hs] at hx
      split at hx
      · rename_i y hy'; exact absurd hy' (hy y)
      · split at hx
        · split at hx
          · simp at hx
          · rename_i u hu
            obtain ⟨b, hb, hbx⟩ := Except.map_ok hx
            have huw : u = w := by
              rcases h2 with ⟨h2, -⟩ | ⟨h3, h2⟩
              · obtain ⟨u', h4, h5⟩ := computeValueForDump_ok hu
                have h6 : u' = w := Chosen.unique h4 (.explicit
                  (by show Dict.contains current f.name = true; rw [Dict.contains_eq, h2]; rfl)
                  (by show (Dict.view current).get f.name = .ok w; simp [Dict.view, h2]))
                subst h6
                rcases h5 with ⟨h5, -⟩ | ⟨h5, -⟩
                · subst h5
                  exact (notPresent_dump hkind (W.toExcept_ok hb)).elim
                · exact h5
              · rw [hu] at h2; simpa using h2
            subst huw
            exact ⟨hu, b, W.toExcept_ok hb, hbx.symm⟩
        · simp at hx
    cases hexp : fieldExpectedSize Γ n f current with
    | ok y =>
      have hky : k = y := by
        unfold fieldLen at hk
        simp only [hs, hexp] at hk
        simpa using hk.symm
      subst hky
      obtain ⟨b, kd, x, rfl, h3, h4⟩ := expectedSize_none hs hnull hexp
      have := hsizing x h3; subst this
      have hcust : ∀ ops, kd ≠ .custom ops := by
        rintro ops rfl
        rcases hkind with hkind | ⟨_, hkind⟩ | ⟨_, _, _, hkind⟩
        · cases hkind with
          | leaf h _ => exact h ops rfl
        · simp at hkind
        · simp at hkind
      simp only [Field.base] at hs
      obtain ⟨h5, h6⟩ := sizeForValue_value hs hcust h4
      have hall : leafExpectedSize b kd all = .ok k := by
        refine leafExpectedSize_value hs h6 ?_ h4
        unfold FieldBase.sizingValue
        have hw'' : Dict.get? all b.name = some x := hw'
        rw [hw'']
      cases n with
      | zero => simp [fieldToStream, W.fail] at hp
      | succ n =>
        simp only [fieldToStream, hall] at hp
        obtain ⟨w, hw1, -, -, -, hcase⟩ := toStreamWith_ok hp
        simp [h5] at hw1; subst hw1
        rcases hcase with ⟨h7, -⟩ | ⟨-, ser, hser, hfin⟩
        · exact absurd h7 h6
        · rcases finishDump_ok hfin with ⟨-, rfl⟩ | ⟨m, h8 | ⟨nm, h8, -⟩, -⟩
          · exact (sizeForValue_length hs hcust h4 hser).1
          · rw [hs] at h8; simp at h8
          · rw [hs] at h8; simp at h8
    | error e =>
      obtain ⟨h3, b, h4, h5⟩ := hdump k hk (by intro y hy; rw [hexp] at hy; simp at hy)
      rcases hkind with hkind | hkind
      · rw [hkind.dump Γ n w .none all []] at hp
        rw [hp] at h4; simp at h4; subst h4; exact h5
      · -- `Bytes`, `String`: the size would have been known
        exfalso
        have main : ∀ bb kd, f = .leaf bb kd → (∀ e, leafSizeForValue bb kd w = .error e →
            ∀ es, (leafDump bb kd es w .none []).2 ≠ .ok ()) → (leafSizeForValue bb kd w ≠ .ok none) →
            (∀ e, (leafDump bb kd (.error e) w .none []).2 ≠ .ok ()) → (∀ x, leafSizeForValue bb kd .none ≠ .ok x) →
            w ≠ .dflt → False := by
          intro bb kd hfe hm1 hm2 hm3 hm4 hm5
          subst hfe
          simp only [Field.base] at hs
          cases n with
          | zero => simp [fieldToStream, W.fail] at h4
          | succ n =>
            simp only [fieldToStream] at h4
            obtain ⟨w', hw1, -, -, -, hcase⟩ := toStreamWith_ok h4
            simp [hm5] at hw1; subst hw1
            have hwn : w ≠ .none := by
              rintro rfl
              rcases hcase with ⟨-, h7⟩ | ⟨h7, -⟩
              · simp only [Field.base] at hnull
                simp [leafNullRepr, FieldBase.nullReprWith, hnull] at h7
              · exact h7 rfl
            rcases hcase with ⟨h7, -⟩ | ⟨-, ser, hser, -⟩
            · exact hwn h7
            · -- the default exists
              cases hes : leafExpectedSize bb kd [] with
              | error e => rw [hes] at hser; exact hm3 e (by rw [hser])
              | ok m =>
                have hsz : bb.sizingValue current = .ok w := by
                  have hdef : ∃ x, bb.sizingValue [] = .ok x := by
                    simp only [leafExpectedSize, FieldBase.expectedSizeWith, hs] at hes
                    split at hes
                    · simp at hes
                    · rename_i h; exact ⟨_, h⟩
                    · rename_i h; exact ⟨_, h⟩
                  obtain ⟨x, hx⟩ := hdef
                  have : ∃ y, bb.sizingValue current = .ok y := by
                    unfold FieldBase.sizingValue at hx ⊢
                    simp only [Dict.get?_nil] at hx
                    split
                    · exact ⟨_, rfl⟩
                    · exact ⟨x, hx⟩
                  obtain ⟨y, hy⟩ := this
                  have := hsizing y hy
                  subst this; exact hy
                cases hsv : leafSizeForValue bb kd w with
                | error e => exact hm1 e hsv _ (by rw [hser])
                | ok o =>
                  cases o with
                  | none => exact hm2 hsv
                  | some m' =>
                    have := leafExpectedSize_value hs hwn hsz hsv
                    simp only [fieldExpectedSize] at hexp
                    rw [this] at hexp; simp at hexp
        have hwd : ∀ bb kd, f = .leaf bb kd → leafSizeForValue bb kd .dflt = .error .typeErr ∨
            leafSizeForValue bb kd .dflt = .error .attributeErr → w ≠ .dflt := by
          rintro bb kd rfl hsv rfl
          simp only [Field.base] at hs
          cases n with
          | zero => simp [fieldToStream, W.fail] at hp
          | succ n =>
            simp only [fieldToStream] at hp
            obtain ⟨x, hx, hx1, hx2, -⟩ := toStreamWith_ok hp
            simp only [Field.base] at hfac
            simp [FieldBase.default, hfac] at hx
            have hsz : bb.sizingValue current = .ok .dflt := by
              have : ∃ y, bb.sizingValue current = .ok y := by
                unfold FieldBase.sizingValue
                split
                · exact ⟨_, rfl⟩
                · simp [FieldBase.default, hfac, hx, hx1]
              obtain ⟨y, hy⟩ := this
              have := hsizing y hy
              subst this; exact hy
            have hee : ∃ e, leafExpectedSize bb kd current = .error e ∧ e.isBinobj = false := by
              simp only [leafExpectedSize, FieldBase.expectedSizeWith, hs, hsz]
              rcases hsv with hsv | hsv
              · simp only [hsv]; exact ⟨_, rfl, rfl⟩
              · simp only [hsv]; exact ⟨_, rfl, rfl⟩
            obtain ⟨e', he', hb'⟩ := hee
            simp [fieldLen, fieldExpectedSize, Field.base, hs, he', hb'] at hk
        rcases hkind with ⟨bb, hfe⟩ | ⟨bb, c, pad, hfe⟩
        · refine main bb _ hfe ?_ ?_ ?_ (by simp [leafSizeForValue]) (hwd bb _ hfe (by simp [leafSizeForValue]))
          · intro e' he' es
            cases w <;> simp only [leafSizeForValue] at he' <;> try (simp at he') <;>
              (simp only [leafDump]; split <;> simp [W.fail])
          · cases w <;> simp [leafSizeForValue]
          · intro e'; simp [leafDump, W.fail]
        · refine main bb _ hfe ?_ ?_ ?_ (by simp [leafSizeForValue]) (hwd bb _ hfe (by simp [leafSizeForValue]))
          · intro e' he' es
            cases w <;> simp only [leafSizeForValue] at he' <;> try (simp [leafDump, W.fail])
            rename_i s
            cases hc' : c.encode s with
            | ok x => simp [hc', Except.map] at he'
            | error x => simp [encodeAndResize, hc', W.ofExcept, W.fail]
          · cases w <;> simp [leafSizeForValue]
            rename_i s
            cases hc' : c.encode s <;> simp [Except.map]
          · intro e'
            cases w <;> simp [leafDump, W.fail]
            rename_i s
            cases hc' : c.encode s <;> simp [encodeAndResize, hc', W.ofExcept, W.fail]

/-! ### Sums -/

theorem sumSizes_parts {Γ : Classes} {n : Nat} {ctx : Value} {all : Dict} {g : Field → Except Err Int} {fs : List Field}
    {ps : List Bytes} {k : Int} (hp : Parts Γ n ctx all fs ps)
    (h : ∀ f ∈ fs, ∀ p, Part Γ n ctx all f p → ∀ k, g f = .ok k → (p.length : Int) = k) (hk : sumSizes g fs = .ok k) :
    (ps.flatten.length : Int) = k := by
  induction hp generalizing k with
  | nil => simp [sumSizes] at hk; subst hk; rfl
  | cons h1 _ ih =>
    simp only [sumSizes] at hk
    split at hk
    · simp at hk
    · rename_i a ha
      split at hk
      · simp at hk
      · rename_i r hr
        simp at hk; subst hk
        have := ih (fun f hf => h f (List.mem_cons_of_mem _ hf)) hr
        have := h _ List.mem_cons_self _ h1 _ ha
        simp at *; omega

end Verif
