import Verif.Proofs.Construct
import Verif.Props.Container
import Verif.Props.StructDump

/-!
# Constructing fields

C68.
-/

namespace Verif
open Spec

/-! ## C68: options of a field -/

/-- **C68** Passing both `default` and `factory` is rejected by every constructor. -/
theorem C68_default_and_factory_rejected (sys : Endian) (Γ : Classes) (a : FieldArgs) (r : Except Err Field)
    (h : Constructed sys Γ a r) (h1 : a.factory.isSome) (h2 : DefaultGiven a) : r = .error .configuration :=
  constructed_conflict h h1 h2

/-- **C68** A padding byte is exactly one byte, or the string field is rejected. -/
theorem C68_pad_byte (codec : CharCodec) (pad : Bytes) (a : FieldArgs) (h : pad.length ≠ 1) :
    mkString codec (some pad) a = .error .configuration ∧ mkStringZ codec (some pad) a = .error .configuration := by
  unfold mkString mkStringZ
  match pad, h with
  | [], _ => exact ⟨rfl, rfl⟩
  | [p], h => simp at h
  | p :: q :: r, _ => exact ⟨rfl, rfl⟩

/-- **C68** A constant, for which neither `default` nor `factory` is given, is what the field is dumped with when nothing was set. -/
theorem C68_const_is_default (sys : Endian) (Γ : Classes) (a : FieldArgs) (f : Field) (all : View) (ctx : Value)
    (h : Constructed sys Γ a (.ok f)) (hc : ConstGiven a) (hd : ¬ DefaultGiven a) (hf : a.factory = none)
    (hp : a.const ≠ .notPresent) (hu : Unset f all ctx) :
    f.base.default = .ok a.const ∧ f.base.required = .ok false ∧ f.base.computeValueForDump all ctx = .ok a.const := by
  have hb := constructed_carries h
  obtain ⟨h1, h2⟩ := hb.const_default hc hd
  rw [hf] at h2
  have h3 : f.base.default = .ok a.const := by simp [FieldBase.default, h2, h1]
  have h4 : f.base.const = a.const := hb.2.2.1
  refine ⟨h3, by simp only [FieldBase.required, h4]; rw [if_pos (show a.const ≠ .undefined from hc)], ?_⟩
  have h5 : Chosen f.base all a.const := .default hu.1 (by rw [h1]; exact hc) h3
  rw [computeValueForDump_of_chosen h5, hu.2]
  simp [hp, show a.const ≠ .undefined from hc]

/-- **C68** (refuted) With a `default`, the default is dumped instead of the constant, and the result cannot be loaded. -/
theorem C68_const_with_default_refuted :
    ¬ ∀ (sys : Endian) (Γ : Classes) (a : FieldArgs) (f : Field) (all : View) (ctx : Value),
      Constructed sys Γ a (.ok f) → ConstGiven a → Unset f all ctx → f.base.computeValueForDump all ctx = .ok a.const := by
  intro h
  have := h .little Sample.noClasses { name := "x", const := .int 5, dflt := .int 6 }
    (.leaf { name := "x", typeName := "UInt8", const := .int 5, dflt := .int 6, size := .fixed 1 } (.integer false .little))
    (Dict.view []) .none (.integer "UInt8" (.fixed 1) false none) (by simp [ConstGiven]) ⟨rfl, rfl⟩
  revert this
  decide

/-- **C68** (refuted) With a `factory`, the factory's value is dumped instead of the constant. -/
theorem C68_const_with_factory_refuted :
    ¬ ∀ (sys : Endian) (Γ : Classes) (a : FieldArgs) (f : Field) (all : View) (ctx : Value),
      Constructed sys Γ a (.ok f) → ConstGiven a → ¬ DefaultGiven a → Unset f all ctx →
      f.base.computeValueForDump all ctx = .ok a.const := by
  intro h
  have := h .little Sample.noClasses { name := "x", const := .int 5, factory := some (.ok (.int 6)) }
    (.leaf { name := "x", typeName := "UInt8", const := .int 5, dflt := .int 5, factory := some (.ok (.int 6)), size := .fixed 1 }
      (.integer false .little))
    (Dict.view []) .none (.integer "UInt8" (.fixed 1) false none) (by simp [ConstGiven]) (by simp [DefaultGiven]) ⟨rfl, rfl⟩
  revert this
  decide

/-- **C68** A default (not a callable) is what the field is dumped with when nothing was set; without default, const and factory the
field is required, and not setting it is an error unless it is computed. -/
theorem C68_default (sys : Endian) (Γ : Classes) (a : FieldArgs) (f : Field) (all : View) (ctx : Value)
    (h : Constructed sys Γ a (.ok f)) (hf : a.factory = none) (hfn : a.dfltFn = none) (hu : Unset f all ctx) :
    (a.dflt ≠ .undefined → a.dflt ≠ .notPresent → f.base.computeValueForDump all ctx = .ok a.dflt) ∧
    (a.dflt = .undefined → a.const = .undefined →
      f.base.required = .ok true ∧ f.base.computeValueForDump all ctx = .error (.missingRequired a.name)) := by
  obtain ⟨-, h1, h2, h3, h4, h5, -⟩ := constructed_carries h
  rw [hfn, hf] at h4
  simp at h4
  constructor
  · intro hd hp
    rw [if_neg (by simp [hd])] at h3
    have h6 : Chosen f.base all a.dflt := .default hu.1 (by rw [h3]; exact hd) (by simp [FieldBase.default, h4, h3])
    rw [computeValueForDump_of_chosen h6, hu.2]
    simp [hp, hd]
  · intro hd hc
    rw [if_neg (by simp [hc])] at h3
    have h6 : Chosen f.base all .undefined := .nothing hu.1 (by rw [h3]; exact hd) h5
    refine ⟨by simp [FieldBase.required, FieldBase.default, h2, hc, h3, h4, hd], ?_⟩
    rw [computeValueForDump_of_chosen h6, hu.2]
    simp [h1]

/-- **C68** A callable `default` acts as a factory. -/
theorem C68_callable_default (sys : Endian) (Γ : Classes) (a : FieldArgs) (f : Field) (r : Except Err Value)
    (h : Constructed sys Γ a (.ok f)) (hr : a.dfltFn = some r) : f.base.default = r := by
  obtain ⟨-, -, -, -, h4, -⟩ := constructed_carries h
  rw [hr] at h4
  simp at h4
  simp [FieldBase.default, h4]

/-- **C68** A string, byte string or variable-length integer with a constant and no size is as long as the encoding of its constant, and
dumps that encoding. -/
theorem C68_const_sizes_itself (Γ : Classes) (n : Nat) (a : FieldArgs) (limit : Option Int) (f : Field) (ctx : Value)
    (all : Dict) (h : VariableSize a limit (.ok f)) (hc : ConstGiven a) (hs : a.size = .none)
    (hv : Accepts f a.const) (hmax : ∀ k m, f.base.size = .fixed k → limit = some m → k ≤ m) :
    ∃ bs : Bytes, f.base.size = .fixed bs.length ∧ fieldToStream Γ (n + 1) f a.const ctx all = (bs, .ok ()) := by
  obtain ⟨t, k, h1, hk, hlim⟩ := variable_leaf h
  obtain ⟨b, h2, rfl⟩ := mkLeaf_ok h1
  have hb := fieldInit_ok h2
  rcases fieldInit_size h2 hc hs with ⟨h3, -⟩ | ⟨m, h3, h4⟩
  · exfalso
    rcases hk with ⟨enc, mx, rfl⟩ | rfl | ⟨c, p, rfl⟩ | ⟨c, p, rfl⟩ <;>
    · generalize a.const = v at h3
      cases v <;> simp only [constSize, leafSizeForValue] at h3 <;> first
        | (simp at h3; done)
        | (obtain ⟨x, -, hx⟩ := Except.map_ok h3; simp at hx)
  · obtain ⟨h5, h6, h7, bs, rfl, h8⟩ := constSize_dump (b := b) (ctx := ctx) (all := all) hk h3 fun enc mx he =>
      hmax m mx h4 (hlim _ _ he)
    refine ⟨bs, h4, fieldToStream_plain (f := .leaf b k) h6 h7 h5 hv (Or.inr (Or.inl h4)) ?_⟩
    have h9 : leafExpectedSize b k all = .ok (bs.length : Int) := by
      unfold leafExpectedSize FieldBase.expectedSizeWith
      rw [h4]
    simp only [fieldDoDump, h9]
    exact h8

/-- **C68** (refuted) Other fields do not get the size of their constant: the constructor fails with `AttributeError`. -/
theorem C68_const_size_refuted :
    mkInteger .little "Integer" .none true none { const := .int 5 } = .error .attributeErr ∧
    mkTimestamp .little "Timestamp" .none .s false true none { const := .datetime 0 false } = .error .attributeErr ∧
    ¬ ∃ f, mkArray (Sample.u8 "") (.fixed 2) none { const := .list [.int 1, .int 2] } = .ok f := by
  refine ⟨rfl, rfl, ?_⟩
  rintro ⟨f, h⟩
  simp [mkArray, fieldInit] at h

theorem withBase_self (f : Field) : f.withBase f.base = f := by cases f <;> rfl

/-- **C68** An array of a fixed number of elements of a fixed size has the product as its size, and every list of that many elements that
can be dumped is accepted: the size check never gets in the way. -/
theorem C68_array_size (Γ : Classes) (n : Nat) (comp f : Field) (c k : Int) (a : FieldArgs) (l : List Value) (ps : List Bytes)
    (halt : Option (Stream → List Value → (ctx : Value) → Dict → Except Err (Bool × List Value))) (ctx : Value) (all : Dict)
    (h : mkArray comp (.fixed c) halt a = .ok f) (hk : comp.base.size = .fixed k) (hpad : PadsExactly comp)
    (hl : (l.length : Int) = c) (hel : ∀ v ∈ l, v ≠ .none ∧ v ≠ .dflt) (hv : Accepts f (.list l)) (hlen : ps.length = l.length)
    (hps : ∀ i (hi : i < l.length) (hi' : i < ps.length),
      fieldToStream Γ n (comp.withBase { comp.base with name := a.name }) l[i] ctx all = (ps[i], .ok ())) :
    f.base.size = .fixed (c * k) ∧ fieldToStream Γ (n + 1) f (.list l) ctx all = (ps.flatten, .ok ()) := by
  unfold mkArray at h
  cases hb : fieldInit "Array" (fun _ => .error .attributeErr) a with
  | error e => simp [hb] at h
  | ok b =>
    simp only [hb] at h
    have hname : b.name = a.name := (fieldInit_ok hb).2.1
    have hcomp : ∀ comp', maybeAssignName comp b.name = .ok comp' → comp' = comp.withBase { comp.base with name := a.name } := by
      intro comp' hm
      unfold maybeAssignName at hm
      split at hm
      · cases hm; rw [hname]
      · split at hm
        · simp at hm
        · rename_i h2
          cases hm
          have : a.name = comp.base.name := by rw [← hname]; simpa [Field.name] using h2
          rw [this]
          exact (withBase_self comp).symm
    cases hm : maybeAssignName comp b.name with
    | error e => simp [hm] at h
    | ok comp' =>
      have hc' := hcomp comp' hm
      simp only [hm] at h
      have hk' : comp'.base.size = .fixed k := by rw [hc', withBase_base]; exact hk
      rw [hk'] at h
      simp only [Except.ok.injEq] at h
      subst h
      have hpad' : PadsExactly comp' := by
        rw [hc']
        cases comp with
        | leaf b kd => cases kd <;> exact hpad
        | _ => trivial
      have hlens : ∀ p ∈ ps, (p.length : Int) = k := by
        intro p hp
        obtain ⟨i, hi, rfl⟩ := List.getElem_of_mem hp
        have hi' : i < l.length := by omega
        have := hel l[i] (List.getElem_mem hi')
        refine C15_declared_size_written Γ n comp' l[i] l[i] ctx all ps[i] k (Or.inl hk') (Or.inl ⟨this.2, rfl⟩) this.1 hpad' ?_
        rw [hc']
        exact hps i hi' hi
      have hsum : ((ps.flatten.length : Nat) : Int) = c * k := by
        have : ∀ qs : List Bytes, (∀ p ∈ qs, (p.length : Int) = k) → ((qs.flatten.length : Nat) : Int) = qs.length * k := by
          intro qs
          induction qs with
          | nil => simp
          | cons q qs ih =>
            intro hq
            have h1 := hq q (by simp)
            have h2 := ih fun p hp => hq p (by simp [hp])
            simp only [List.flatten_cons, List.length_append, List.length_cons]
            rw [Int.natCast_add, h1, h2]
            rw [show ((qs.length + 1 : Nat) : Int) = (qs.length : Int) + 1 from rfl, Int.add_mul]
            omega
        rw [this ps hlens, hlen, hl]
      refine ⟨rfl, ?_⟩
      refine fieldToStream_plain (f := .array { b with size := .fixed (c * k) } comp' (.fixed c) halt) (by simp) (by simp) (by simp)
        hv (Or.inr (Or.inl ?_)) ?_
      · simp only [Field.base]; rw [hsum]
      · simp only [fieldDoDump, containerDump, arrayDump, finalElementCount, arrayElements]
        rw [if_neg (by simp [hl])]
        refine dumpAll_of_parts hlen ?_
        intro i hi hi'
        rw [hc']
        exact hps i hi hi'

/-- **C68** The elements must not be `None`: a null value of another length breaks the size of the array. -/
theorem C68_array_null_refuted :
    ∃ f, mkArray (Sample.upd (Sample.u8 "") ({ · with nullValue := .bytes [0xFF, 0xFF] })) (.fixed 2) none {} = .ok f ∧
      fieldToStream Sample.noClasses 2 f (.list [.int 1, .none]) .none [] = ([], .error (.valueSize "")) :=
  ⟨_, rfl, by decide⟩

/-- **C68** A constant field cannot be computed, and no field is computed twice; a computed field without a default gets the function's
value when nothing was set. -/
theorem C68_computes (sys : Endian) (Γ : Classes) (a : FieldArgs) (f f' : Field) (fn fn' : View → Except Err Value)
    (h : Constructed sys Γ a (.ok f)) (hc : fieldComputes f fn = .ok f') :
    a.const = .undefined ∧ fieldComputes f' fn' = .error .configuration ∧
    ∀ all ctx v, a.dflt = .undefined → Unset f' all ctx → fn all = .ok v → v ≠ .notPresent → v ≠ .undefined →
      f'.base.computeValueForDump all ctx = .ok v := by
  obtain ⟨-, h1, h2, h3, -⟩ := constructed_carries h
  obtain ⟨-, h4, rfl⟩ := fieldComputes_ok hc
  rw [h2] at h4
  refine ⟨h4, ?_, ?_⟩
  · unfold fieldComputes; rw [withBase_base]; simp
  · intro all ctx v hd hu hfn h5 h6
    rw [if_neg (by simp [h4])] at h3
    rw [hd] at h3
    unfold Unset Field.name at hu
    rw [withBase_base] at hu ⊢
    have h7 : Chosen { f.base with computeFn := some fn } all v := .computed hu.1 h3 rfl hfn
    rw [computeValueForDump_of_chosen h7, hu.2]
    simp [h5, h6]

/-- **C68** A compute function for a constant field is rejected. -/
theorem C68_const_not_computed (sys : Endian) (Γ : Classes) (a : FieldArgs) (f : Field) (fn : View → Except Err Value)
    (h : Constructed sys Γ a (.ok f)) (hc : ConstGiven a) : fieldComputes f fn = .error .configuration := by
  obtain ⟨-, h1, h2, h3, h4, h5, -⟩ := constructed_carries h
  unfold fieldComputes
  rw [if_neg (by simp [h5]), if_pos (by rw [h2]; exact hc)]

-- a constant string, which sizes itself, in two bytes per character
example : ∃ f, mkString utf8Codec none { name := "magic", const := .str [0xE9, 0x61] } = .ok f ∧ f.base.size = .fixed 3 ∧
    fieldToStream Sample.noClasses 1 f (.str [0xE9, 0x61]) .none [] = ([0xC3, 0xA9, 0x61], .ok ()) :=
  ⟨_, rfl, rfl, by decide⟩
example : ∃ f, mkStringZ asciiCodec none { const := .str [0x61] } = .ok f ∧ f.base.size = .fixed 2 := ⟨_, rfl, rfl⟩
example : ∃ f, mkBytes { const := .bytes [1, 2, 3] } = .ok f ∧ f.base.size = .fixed 3 := ⟨_, rfl, rfl⟩
-- a limit shorter than the constant: the field is made, but cannot be dumped
example : ∃ f, mkVarInt .vlq (some 1) { const := .int 128 } = .ok f ∧ f.base.size = .fixed 2 ∧
    (fieldToStream Sample.noClasses 1 f (.int 128) .none []).2 ≠ .ok () := ⟨_, rfl, by decide, by decide⟩
example : ∃ f, mkArray (Sample.u16 "") (.fixed 2) none { name := "xs" } = .ok f ∧ f.base.size = .fixed 4 ∧
    fieldToStream Sample.noClasses 2 f (.list [.int 1, .int 2]) .none [] = ([0, 1, 0, 2], .ok ()) := ⟨_, rfl, rfl, by decide⟩
example : mkBytes { dflt := .bytes [], factory := some (.ok (.bytes [1])) } = .error .configuration := rfl
example : ∃ f, mkBytes { name := "x", size := .fixed 1 } = .ok f ∧ ∃ f', fieldComputes f (fun _ => .ok (.bytes [1])) = .ok f' :=
  ⟨_, rfl, _, rfl⟩

end Verif
