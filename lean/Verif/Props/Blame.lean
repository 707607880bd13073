import Verif.Proofs.Blame
import Verif.Props.Robust

/-!
# C81: what load errors say
-/

namespace Verif
open Spec

/-- **C81** (partial: the user's callables must not raise `DeserializationError`s of their own, which are passed on as they are.)

If loading a struct raises a `DeserializationError`, then the error's `field` is the first field of the struct that cannot be loaded: the fields
before it load, and loading it raises this error.  (It is the field of the struct that was asked for, not of a struct nested in it.) -/
theorem C81_names_the_field_partial (Γ : Classes) (E : Err → Prop) (hΓ : ∀ c d, Γ c = some d → RobustClass Γ E d ∧ DiscreetClass d)
    (d : StructDesc) (hd : RobustClass Γ E d) (hq : DiscreetClass d) (n : Nat) (s t : Stream) (hs : s.pos ≤ s.data.length) (ctx : Value)
    (e : Err) (he : e.isDeserialization = true) (h : structFromStream Γ (n + 1) d s ctx [] = (.error e, t)) :
    ∃ pre f post r u, d.components = pre ++ f :: post ∧ Loads Γ n ctx pre [] s r u ∧ fieldFromStream Γ n f u ctx r = (.error e, t) ∧
      Names e f.name := by
  rcases structFromStream_blame hd hq h with h0 | ⟨pre, f, post, r, u, h1, h2, h3, h4⟩
  · rw [h0] at he; simp at he
  · refine ⟨pre, f, post, r, u, h1, h2, h4, ?_⟩
    cases n with
    | zero => simp [fieldFromStream] at h4; rw [← h4.1] at he; simp [Err.isDeserialization] at he
    | succ n =>
    have hmem : f ∈ d.components := by rw [h1]; simp
    have hlater : Later s u := later_of_loads (fun c d h => (hΓ c d h).1.forward) h2 (fun g hg => hd.forward g (by rw [h1]; simp [hg])) hs
    rcases fieldFromStream_blame (hd.fields pre f post h1) (hq.fields f hmem) h3 h4 with h5 | ⟨e', w, h5, rfl⟩
    · rw [h5] at he; simp at he
    · have := ((load_fair hΓ s.data s.pos n).2.1 pre f (hd.fields pre f post h1) (hq.fields f hmem) u ctx r h3 hlater e' w h5).2
      cases e' <;> first | exact Or.inr ⟨_, _, rfl⟩ | exact Or.inl rfl | exact absurd rfl this | simp [setErrField, Err.isDeserialization] at he

/-- **C81** (partial, as above.)  What an `UnexpectedEOFError` says is true: its offset lies in the data, not before the position at which
loading began, and fewer than `size` bytes are left there. -/
theorem C81_eof_is_true_partial (Γ : Classes) (E : Err → Prop) (hΓ : ∀ c d, Γ c = some d → RobustClass Γ E d ∧ DiscreetClass d)
    (d : StructDesc) (hd : RobustClass Γ E d) (hq : DiscreetClass d) (n : Nat) (s t : Stream) (hs : s.pos ≤ s.data.length) (ctx : Value)
    (field : Option String) (size : Int) (off : Nat) (h : structFromStream Γ n d s ctx [] = (.error (.eof field size off), t)) :
    s.pos ≤ off ∧ off ≤ s.data.length ∧ (s.data.length : Int) < off + size :=
  ((load_fair hΓ s.data s.pos n).2.2 d hd hq s ctx ⟨rfl, Nat.le_refl _, hs⟩ _ t h).1 _ _ _ rfl

/-- **C81** If a number, byte string or string of the struct itself cannot be read, the offset is where the field begins: where the fields before
it end. -/
theorem C81_eof_offset_partial (Γ : Classes) (E : Err → Prop) (d : StructDesc) (hd : RobustClass Γ E d) (n : Nat) (s u t : Stream)
    (pre post : List Field) (b : FieldBase) (k : Leaf) (hq : Discreet b) (hc : d.components = pre ++ .leaf b k :: post)
    (hk : (∃ f en, k = .float f en) ∨ (∃ sg en, k = .integer sg en) ∨ (∃ r a sg en, k = .timestamp r a sg en) ∨ k = .bytes ∨
      ∃ c p, k = .string c p) (ctx : Value) (r : Dict) (hl : Loads Γ n ctx pre [] s r u) (hu : u.pos ≤ u.data.length)
    (field : Option String) (size : Int) (off : Nat) (h : fieldFromStream Γ n (.leaf b k) u ctx r = (.error (.eof field size off), t)) :
    off = u.pos ∧ field = some b.name ∧ (u.data.length : Int) < u.pos + size := by
  cases n with
  | zero => simp [fieldFromStream] at h
  | succ n =>
  have hloaded : LoadedSoFar pre r := by
    suffices key : ∀ (mid pre0 : List Field) (acc r : Dict) (s u : Stream), (∃ post, d.components = pre0 ++ mid ++ post) →
        LoadedSoFar pre0 acc → Loads Γ (n + 1) ctx mid acc s r u → LoadedSoFar (pre0 ++ mid) r by
      simpa using key pre [] [] r s u ⟨_, by simpa using hc⟩ LoadedSoFar.nil hl
    intro mid
    induction mid with
    | nil => intro pre0 acc r s u _ hl h; cases h; simpa using hl
    | cons f fs ih =>
      intro pre0 acc r s u hp hl h
      obtain ⟨post, hp⟩ := hp
      cases h with
      | cons h1 h2 =>
        have hstep := hl.step (unique_step hd.unique (post := fs ++ post) (by simpa using hp)) h1
        rw [setDefault_eq] at hstep
        simpa using ih (pre0 ++ [f]) _ r _ u ⟨post, by simpa using hp⟩ hstep h2
  have hr := hd.fields pre _ post hc
  rcases fieldFromStream_blame hr (.leaf hq) hloaded h with h0 | ⟨e', w, h1, h2⟩
  · simp [Err.isDeserialization] at h0
  · cases n with
    | zero => simp [fieldDoLoad] at h1; rw [← h1.1] at h2; simp [setErrField] at h2
    | succ n =>
    simp only [fieldDoLoad] at h1
    obtain ⟨h3, h4⟩ := leafLoad_fair hr hloaded hu (Nat.le_refl _) h1
    have hk' : ReportsStart k := by
      rcases hk with ⟨_, _, rfl⟩ | ⟨_, _, rfl⟩ | ⟨_, _, _, _, rfl⟩ | rfl | ⟨_, _, rfl⟩ <;> trivial
    cases e' with
    | eof f' size' off' =>
      simp only [setErrField, Err.eof.injEq] at h2
      obtain ⟨rfl, rfl, rfl⟩ := h2
      obtain rfl := h4 hk' _ _ _ rfl
      exact ⟨rfl, rfl, (h3.1 _ _ _ rfl).2.2⟩
    | _ => simp [setErrField] at h2

/-! ### Refutations -/

/-- `class A(Struct): n = UInt8(); id = UUID4()` -/
def Sample.numbered : StructDesc :=
  { name := "A", components := [Sample.u8 "n", .leaf { name := "id", size := .fixed 16 } (.uuid .binaryVariant1)]
    fieldValidators := [("n", []), ("id", [])] }

/-- **C81** The offset is not always where the field begins, nor where reading began: for a UUID that is cut off it is the end of the data,
for an integer at the same place it is the position of the integer. -/
theorem C81_uuid_offset_refuted :
    (structFromStream Sample.noClasses 3 Sample.numbered ⟨[7, 1, 2, 3], 0⟩ .none []).1 = .error (.eof (some "id") 16 4) ∧
    (structFromStream Sample.noClasses 3
      { Sample.numbered with components := [Sample.u8 "n", .leaf { name := "id", size := .fixed 16 } (.integer false .big)] }
      ⟨[7, 1, 2, 3], 0⟩ .none []).1 = .error (.eof (some "id") 16 1) := by
  decide +kernel

/-- ```
class Inner(Struct): magic = UInt8(const=1)
class Outer(Struct): a = UInt8(); inner = Nested(Inner)
``` -/
def Sample.magicInner : StructDesc :=
  { name := "Inner", components := [Sample.upd (Sample.u8 "magic") ({ · with const := .int 1 })], fieldValidators := [("magic", [])] }
@[inherit_doc Sample.magicInner]
def Sample.magicOuter : StructDesc :=
  { name := "Outer", components := [Sample.u8 "a", Sample.nested "inner" "Inner"], fieldValidators := [("a", []), ("inner", [])] }

/-- **C81** For other errors this is false: the `ValidationError` of a wrong constant in a nested struct names the field of the nested struct,
while a nested struct that is cut off is reported with the field of the outer one. -/
theorem C81_validation_refuted :
    (structFromStream (Classes.add Sample.noClasses Sample.magicInner) 9 Sample.magicOuter ⟨[0, 2], 0⟩ .none []).1 = .error (.validation "magic") ∧
    (structFromStream (Classes.add Sample.noClasses Sample.magicInner) 9 Sample.magicOuter ⟨[0], 0⟩ .none []).1 =
      .error (.eof (some "inner") 1 1) ∧
    "magic" ∉ names Sample.magicOuter := by
  refine ⟨by decide +kernel, by decide +kernel, by decide⟩

/-! ### Examples -/

theorem discreet_plain {b : FieldBase} (h1 : b.present = fun _ _ _ => .ok true) (h2 : b.validators = []) : Discreet b where
  present := by simp [h1]
  validators := by simp [h2]

theorem Sample.chunk_discreet : DiscreetClass Sample.chunk where
  fields := fun f hf => by
    cases hf with
    | head => exact .leaf (discreet_plain rfl rfl)
    | tail _ hf => cases hf with
      | head => exact .leaf (discreet_plain rfl rfl)
      | tail _ hf => cases hf
  methods := by simp [Sample.chunk]
  validators := by simp [Sample.chunk]

theorem Sample.archive_discreet : DiscreetClass Sample.archive where
  fields := fun f hf => by
    have : f.base.present = (fun _ _ _ => .ok true) ∧ f.base.validators = [] := by
      simp only [Sample.archive, List.mem_cons, List.not_mem_nil, or_false] at hf
      rcases hf with rfl | rfl | rfl | rfl | rfl | rfl | rfl <;> exact ⟨rfl, rfl⟩
    simp only [Sample.archive, List.mem_cons, List.not_mem_nil, or_false] at hf
    rcases hf with rfl | rfl | rfl | rfl | rfl | rfl | rfl
    all_goals first | exact .leaf (discreet_plain this.1 this.2) | exact .array (discreet_plain rfl rfl) (.nested (discreet_plain rfl rfl))
  methods := by simp [Sample.archive]
  validators := by simp [Sample.archive]

theorem Sample.archiveClasses_discreet (c : String) (d : StructDesc) (h : Sample.archiveClasses c = some d) :
    RobustClass Sample.archiveClasses Sample.conversion d ∧ DiscreetClass d := by
  unfold Sample.archiveClasses Classes.add at h
  split at h
  · cases h; exact ⟨Sample.chunk_robust, Sample.chunk_discreet⟩
  · simp [Sample.noClasses] at h

-- whatever an archive is cut off at, the error says where and for which field
example (n : Nat) (data : Bytes) (ctx : Value) (field : Option String) (size : Int) (off : Nat) (t : Stream)
    (h : structFromStream Sample.archiveClasses n Sample.archive ⟨data, 0⟩ ctx [] = (.error (.eof field size off), t)) :
    off ≤ data.length ∧ (data.length : Int) < off + size :=
  (C81_eof_is_true_partial _ _ Sample.archiveClasses_discreet _ Sample.archive_robust Sample.archive_discreet n ⟨data, 0⟩ t (Nat.zero_le _) ctx
    field size off h).2

-- a chunk that is cut off
example : structFromStream Sample.archiveClasses 9 Sample.archive ⟨[79, 75, 0, 0, 45, 0, 0, 0, 0, 1, 7, 2, 8], 0⟩ .none [] =
    (.error (.eof (some "chunks") 2 12), ⟨[79, 75, 0, 0, 45, 0, 0, 0, 0, 1, 7, 2, 8], 13⟩) := by decide +kernel

example : ∃ pre f post r u, Sample.archive.components = pre ++ f :: post ∧
    Loads Sample.archiveClasses 8 .none pre [] ⟨[79, 75, 0, 0, 45, 0, 0, 0, 0, 1, 7, 2, 8], 0⟩ r u ∧
    fieldFromStream Sample.archiveClasses 8 f u .none r = (.error (.eof (some "chunks") 2 12), ⟨[79, 75, 0, 0, 45, 0, 0, 0, 0, 1, 7, 2, 8], 13⟩) ∧
      Names (.eof (some "chunks") 2 12) f.name :=
  C81_names_the_field_partial _ _ Sample.archiveClasses_discreet _ Sample.archive_robust Sample.archive_discreet 8 _ _ (Nat.zero_le _) .none _ rfl
    (by decide +kernel)

end Verif
