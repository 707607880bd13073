import Verif.Spec.Construct
import Verif.Proofs.Container
import Verif.Proofs.Size

/-!
# Lemmas about the field constructors
-/

namespace Verif
open Spec

/-- What every constructor leaves in the field's attributes. -/
def Carries (a : FieldArgs) (b : FieldBase) : Prop :=
  (a.factory.isSome → ¬ DefaultGiven a) ∧ b.name = a.name ∧ b.const = a.const ∧
  b.dflt = (if a.dflt = .undefined ∧ a.dfltFn = none ∧ a.const ≠ .undefined then a.const else a.dflt) ∧
  b.factory = (if a.dfltFn.isSome then a.dfltFn else a.factory) ∧ b.computeFn = none ∧ b.validators = a.validate ∧
  b.present = a.present ∧ b.discard = a.discard ∧ b.nullValue = a.nullValue ∧ b.notPresentValue = a.notPresentValue

theorem Carries.resize {a : FieldArgs} {b : FieldBase} (h : Carries a b) (s : FSize) : Carries a { b with size := s } := h

theorem fieldInit_ok {t : String} {g : Value → Except Err (Option Int)} {a : FieldArgs} {b : FieldBase}
    (h : fieldInit t g a = .ok b) : Carries a b := by
  unfold fieldInit at h
  split at h
  · simp at h
  · rename_i hc
    have hc' : a.factory.isSome → ¬ DefaultGiven a := fun h1 h2 => hc ⟨h1, h2⟩
    simp only at h
    split at h
    · cases h; exact ⟨hc', rfl, rfl, rfl, rfl, rfl, rfl, rfl, rfl, rfl, rfl⟩
    · split at h
      · simp at h
      · cases h; exact ⟨hc', rfl, rfl, rfl, rfl, rfl, rfl, rfl, rfl, rfl, rfl⟩
      · cases h; exact ⟨hc', rfl, rfl, rfl, rfl, rfl, rfl, rfl, rfl, rfl, rfl⟩

theorem fieldInit_conflict {t : String} {g : Value → Except Err (Option Int)} {a : FieldArgs} (h1 : a.factory.isSome)
    (h2 : DefaultGiven a) : fieldInit t g a = .error .configuration := by
  unfold fieldInit
  unfold DefaultGiven at h2
  rw [if_pos ⟨h1, h2⟩]

theorem mkLeaf_ok {t : String} {k : Leaf} {a : FieldArgs} {f : Field} (h : mkLeaf t k a = .ok f) :
    ∃ b, fieldInit t (constSize k) a = .ok b ∧ f = .leaf b k := by
  unfold mkLeaf at h
  obtain ⟨b, h1, h2⟩ := Except.map_ok h
  exact ⟨b, h1, h2⟩

theorem mkLeaf_carries {t : String} {k : Leaf} {a : FieldArgs} {f : Field} (h : mkLeaf t k a = .ok f) : Carries a f.base := by
  obtain ⟨b, h1, rfl⟩ := mkLeaf_ok h
  exact fieldInit_ok h1

theorem constructed_carries {sys : Endian} {Γ : Classes} {a : FieldArgs} {f : Field}
    (h : Constructed sys Γ a (.ok f)) : Carries a f.base := by
  generalize hr : (Except.ok f : Except Err Field) = r at h
  cases h with
  | integer cls size signed endian => exact mkLeaf_carries (a := { a with size := size }) hr.symm
  | varint enc maxBytes => exact mkLeaf_carries hr.symm
  | float cls fmt endian => exact mkLeaf_carries (a := { a with size := .fixed fmt.bytes }) hr.symm
  | timestamp cls size res aware signed endian => exact mkLeaf_carries (a := { a with size := size }) hr.symm
  | bytes => exact mkLeaf_carries hr.symm
  | string codec pad =>
    unfold mkString at hr
    split at hr
    · exact mkLeaf_carries hr.symm
    · exact mkLeaf_carries hr.symm
    · simp at hr
  | stringz codec pad =>
    unfold mkStringZ at hr
    split at hr
    · exact mkLeaf_carries hr.symm
    · exact mkLeaf_carries hr.symm
    · simp at hr
  | uuid fmt => exact mkLeaf_carries (a := { a with size := .fixed fmt.size }) hr.symm
  | array component count halt =>
    unfold mkArray at hr
    split at hr
    · simp at hr
    · rename_i b hb
      split at hr
      · simp at hr
      · split at hr
        · cases hr; exact (fieldInit_ok hb).resize _
        · cases hr; exact fieldInit_ok hb
  | nested n cls =>
    unfold mkNested at hr
    split at hr
    · simp at hr
    · rename_i b hb
      split at hr
      · simp at hr
      · split at hr
        · simp at hr
        · cases hr; exact (fieldInit_ok hb).resize _
        · cases hr; exact (fieldInit_ok hb).resize _
  | union choices l w =>
    unfold mkUnion at hr
    obtain ⟨b, h1, h2⟩ := Except.map_ok hr.symm
    subst h2
    exact fieldInit_ok h1

theorem mkLeaf_conflict {t : String} {k : Leaf} {a : FieldArgs} (h1 : a.factory.isSome) (h2 : DefaultGiven a) :
    mkLeaf t k a = .error .configuration := by
  unfold mkLeaf
  rw [fieldInit_conflict h1 h2]; rfl

theorem constructed_conflict {sys : Endian} {Γ : Classes} {a : FieldArgs} {r : Except Err Field}
    (h : Constructed sys Γ a r) (h1 : a.factory.isSome) (h2 : DefaultGiven a) : r = .error .configuration := by
  cases h with
  | integer cls size signed endian => exact mkLeaf_conflict (a := { a with size := size }) h1 h2
  | varint enc maxBytes => exact mkLeaf_conflict h1 h2
  | float cls fmt endian => exact mkLeaf_conflict (a := { a with size := .fixed fmt.bytes }) h1 h2
  | timestamp cls size res aware signed endian => exact mkLeaf_conflict (a := { a with size := size }) h1 h2
  | bytes => exact mkLeaf_conflict h1 h2
  | string codec pad => unfold mkString; split <;> first | exact mkLeaf_conflict h1 h2 | rfl
  | stringz codec pad => unfold mkStringZ; split <;> first | exact mkLeaf_conflict h1 h2 | rfl
  | uuid fmt => exact mkLeaf_conflict (a := { a with size := .fixed fmt.size }) h1 h2
  | array component count halt => unfold mkArray; rw [fieldInit_conflict h1 h2]
  | nested n cls => unfold mkNested; rw [fieldInit_conflict h1 h2]
  | union choices l w => unfold mkUnion; rw [fieldInit_conflict h1 h2]; rfl

theorem fieldInit_size {t : String} {g : Value → Except Err (Option Int)} {a : FieldArgs} {b : FieldBase}
    (h : fieldInit t g a = .ok b) (hc : ConstGiven a) (hs : a.size = .none) :
    (g a.const = .ok none ∧ b.size = .none) ∨ ∃ k, g a.const = .ok (some k) ∧ b.size = .fixed k := by
  unfold ConstGiven at hc
  unfold fieldInit at h
  split at h
  · simp at h
  · simp only [hs, hc, ne_eq, not_true, or_self, if_false] at h
    split at h
    · simp at h
    · rename_i hg; cases h; exact Or.inl ⟨hg, rfl⟩
    · rename_i k hg; cases h; exact Or.inr ⟨k, hg, rfl⟩

/-- A string or byte string or variable-length integer that is as long as the size computed for it is dumped as it is. -/
theorem constSize_dump {b : FieldBase} {k : Leaf} {v ctx : Value} {all : Dict} {m : Int}
    (hk : (∃ enc mx, k = .varint enc mx) ∨ k = .bytes ∨ (∃ c p, k = .string c p) ∨ ∃ c p, k = .stringz c p)
    (hm : constSize k v = .ok (some m)) (hmax : ∀ enc mx, k = .varint enc (some mx) → m ≤ mx) :
    v ≠ .none ∧ v ≠ .dflt ∧ v ≠ .undefined ∧
      ∃ bs : Bytes, m = bs.length ∧ leafDump b k (.ok m) v ctx all = (bs, .ok ()) := by
  rcases hk with ⟨enc, mx, rfl⟩ | rfl | ⟨c, p, rfl⟩ | ⟨c, p, rfl⟩
  · cases v <;> simp only [constSize, leafSizeForValue] at hm <;> try (simp at hm)
    rename_i i
    obtain ⟨x, hx, hk⟩ := Except.map_ok hm
    simp at hk; subst hk
    refine ⟨by simp, by simp, by simp, x, rfl, ?_⟩
    simp only [leafDump, hx, unserializableOnRange]
    cases mx with
    | none => rfl
    | some mx =>
      have := hmax enc mx rfl
      simp only
      rw [if_neg (by omega)]; rfl
  · cases v <;> simp only [constSize, leafSizeForValue] at hm <;> try (simp at hm)
    rename_i x
    subst hm
    refine ⟨by simp, by simp, by simp, x, rfl, ?_⟩
    simp [leafDump, W.ok]
  · cases v <;> simp only [constSize, leafSizeForValue] at hm <;> try (simp at hm)
    rename_i i
    obtain ⟨x, hx, hk⟩ := Except.map_ok hm
    simp at hk; subst hk
    refine ⟨by simp, by simp, by simp, x, rfl, ?_⟩
    simp [leafDump, encodeAndResize, hx, W.ofExcept, W.ok]
  · cases v <;> simp only [constSize, leafSizeForValue] at hm <;> try (simp at hm)
    rename_i i
    obtain ⟨x, hx, hk⟩ := Except.map_ok hm
    simp at hk; subst hk
    refine ⟨by simp, by simp, by simp, x, rfl, ?_⟩
    simp [leafDump, hx, W.ofExcept, W.ok]

theorem variable_leaf {a : FieldArgs} {limit : Option Int} {f : Field} (h : VariableSize a limit (.ok f)) :
    ∃ t k, mkLeaf t k a = .ok f ∧
      ((∃ enc mx, k = .varint enc mx) ∨ k = .bytes ∨ (∃ c p, k = .string c p) ∨ ∃ c p, k = .stringz c p) ∧
      ∀ enc mx, k = .varint enc mx → limit = mx := by
  suffices key : ∀ r, VariableSize a limit r → r = .ok f → _ from key _ h rfl
  intro r h hr
  cases h with
  | varint enc maxBytes =>
    refine ⟨_, _, hr, Or.inl ⟨_, _, rfl⟩, ?_⟩
    intro e m h; cases h; rfl
  | bytes => exact ⟨_, _, hr, Or.inr (Or.inl rfl), by simp⟩
  | string codec pad =>
    unfold mkString at hr
    split at hr
    · exact ⟨_, _, hr, Or.inr (Or.inr (Or.inl ⟨_, _, rfl⟩)), by simp⟩
    · exact ⟨_, _, hr, Or.inr (Or.inr (Or.inl ⟨_, _, rfl⟩)), by simp⟩
    · simp at hr
  | stringz codec pad =>
    unfold mkStringZ at hr
    split at hr
    · exact ⟨_, _, hr, Or.inr (Or.inr (Or.inr ⟨_, _, rfl⟩)), by simp⟩
    · exact ⟨_, _, hr, Or.inr (Or.inr (Or.inr ⟨_, _, rfl⟩)), by simp⟩
    · simp at hr

theorem Carries.const_default {a : FieldArgs} {b : FieldBase} (h : Carries a b) (hc : ConstGiven a) (hd : ¬ DefaultGiven a) :
    b.dflt = a.const ∧ b.factory = a.factory := by
  unfold DefaultGiven at hd
  unfold ConstGiven at hc
  obtain ⟨-, -, -, h4, h5, -⟩ := h
  have h1 : a.dflt = .undefined := Classical.byContradiction fun h => hd (Or.inl h)
  have h2 : a.dfltFn = none := by
    cases hf : a.dfltFn with
    | none => rfl
    | some r => exact absurd (Or.inr (by simp [hf])) hd
  rw [if_pos ⟨h1, h2, hc⟩] at h4
  simp [h2] at h5
  exact ⟨h4, h5⟩

theorem dumpAll_of_parts {g : Value → W} {l : List Value} {ps : List Bytes} (hl : ps.length = l.length)
    (h : ∀ i (hi : i < l.length) (hi' : i < ps.length), g l[i] = (ps[i], .ok ())) : dumpAll g l = (ps.flatten, .ok ()) := by
  induction l generalizing ps with
  | nil => cases ps with
    | nil => rfl
    | cons => simp at hl
  | cons v vs ih =>
    cases ps with
    | nil => simp at hl
    | cons p ps =>
      have h0 := h 0 (by simp) (by simp)
      simp at h0
      have := ih (ps := ps) (by simpa using hl) fun i hi hi' => by
        have := h (i + 1) (by simpa using hi) (by simpa using hi')
        simpa using this
      simp [dumpAll, h0, this, W.seq]

theorem withBase_base (f : Field) (b : FieldBase) : (f.withBase b).base = b := by cases f <;> rfl

theorem fieldComputes_ok {f f' : Field} {fn : View → Except Err Value} (h : fieldComputes f fn = .ok f') :
    f.base.computeFn = none ∧ f.base.const = .undefined ∧ f' = f.withBase { f.base with computeFn := some fn } := by
  unfold fieldComputes at h
  split at h
  · simp at h
  · rename_i h1
    split at h
    · simp at h
    · rename_i h2
      cases h
      exact ⟨by simpa using h1, by simpa using h2, rfl⟩

end Verif
