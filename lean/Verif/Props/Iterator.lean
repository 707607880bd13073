import Verif.Proofs.IteratorLook
import Verif.Spec.Samples

/-!
# C90: looking at an instance does not change it

Dumping an instance, asking for its length, comparing it, converting it or validating it shows the same every time, in every
order, as long as its values hold no one-shot iterators (generators).  With iterators the first look still shows what their
items say; but a look that iterates uses them up, and later looks show something else.
-/

namespace Verif
open Spec

/-- **C90** (partial: no iterators).  However often and in whatever order the operations are performed, each shows what it would
show on its own, and all iterators of the program are left as they were. -/
theorem C90_looks_partial (Γ : Classes) (hΓ : ∀ c d, Γ c = some d → BlindClass d) (n : Nat) (cls : String) (d : StructDesc)
    (hd : BlindClass d) (vals : Dict) (hv : IterFree (.dict vals)) (σ : Its) (hσ : Fresh σ) (looks : List Look)
    (hl : ∀ l ∈ looks, IterFreeLook l) :
    runLooks Γ n cls d vals looks σ = (looks.map (lookAlone Γ n cls d vals), σ) := by
  have hfill : fillDict σ vals = vals := fillDict_iterFree (show iteratorsDict vals = [] from hv.2)
  have hnil : iteratorsDict vals = [] := hv.2
  have one : ∀ l, IterFreeLook l → l.runS Γ n cls d vals σ = (lookAlone Γ n cls d vals l, σ) := by
    intro l hl
    cases l with
    | dump ctx =>
      have h := (refines_step hΓ n).2 d vals ctx σ hd hv.apart hσ
      rw [hfill, hnil] at h
      simp only [Look.runS, lookAlone, h.1, h.2.nil]
    | partialDump last ctx =>
      have h := structPartialDumpS_refines hΓ (n := n) hd hv.apart last ctx hσ
      rw [hfill, hnil] at h
      simp only [Look.runS, lookAlone, h.1, h.2.nil]
    | len =>
      have h := structLenS_refines hΓ (n := n) hd hv.apart hσ
      rw [hfill, hnil] at h
      simp only [Look.runS, lookAlone, h.1, h.2.nil]
    | eq other => simp only [Look.runS, lookAlone, structEqS_iterFree hΓ hv hl hσ]
    | _ => rfl
  induction looks with
  | nil => rfl
  | cons l ls ih =>
    simp only [runLooks, one l (hl l (List.mem_cons_self ..)), ih fun l' h' => hl l' (List.mem_cons_of_mem _ h'), List.map_cons]

/-- **C90** (partial: the first look).  An instance whose values hold one-shot iterators, none of them twice: the first dump,
`partial_dump` or `len` shows what it would show for values with the same items, and uses up no iterator of anybody else's. -/
theorem C90_first_look_partial (Γ : Classes) (hΓ : ∀ c d, Γ c = some d → BlindClass d) (n : Nat) (cls : String) (d : StructDesc)
    (hd : BlindClass d) (vals : Dict) (hv : Apart (.dict vals)) (σ : Its) (hσ : Fresh σ) (look : Look)
    (hl : (∃ ctx, look = .dump ctx) ∨ (∃ last ctx, look = .partialDump last ctx) ∨ look = .len) :
    (look.runS Γ n cls d vals σ).1 = lookAlone Γ n cls d (fillDict σ vals) look ∧
      ∀ k, k ∉ iteratorsDict vals → (look.runS Γ n cls d vals σ).2 k = σ k := by
  rcases hl with ⟨ctx, rfl⟩ | ⟨last, ctx, rfl⟩ | rfl
  · have h := (refines_step hΓ n).2 d vals ctx σ hd hv hσ
    exact ⟨by simp only [Look.runS, lookAlone, h.1], h.2.1⟩
  · have h := structPartialDumpS_refines hΓ (n := n) hd hv last ctx hσ
    exact ⟨by simp only [Look.runS, lookAlone, h.1], h.2.1⟩
  · have h := structLenS_refines hΓ (n := n) hd hv hσ
    exact ⟨by simp only [Look.runS, lookAlone, h.1], h.2.1⟩

/-- **C90**: comparing two instances uses up no iterators but theirs. -/
theorem C90_eq_others_partial (Γ : Classes) (hΓ : ∀ c d, Γ c = some d → BlindClass d) (n : Nat) (cls : String) (vals : Dict)
    (hv : Apart (.dict vals)) (other : Value) (ho : Apart other) (σ : Its) (hσ : Fresh σ) (k : List Value)
    (hk : k ∉ iteratorsDict vals) (hk' : k ∉ iterators other) : (structEqS Γ n cls vals other σ).2 k = σ k :=
  (structEqS_advanced hΓ hv ho hσ).1 k (by rw [List.mem_append, not_or]; exact ⟨hk, hk'⟩)

/-- **C90** is false for iterators, in general: once an array field has dumped an iterator, a second dump of the same value does
what it would do with no items at all. -/
theorem C90_used_up_refuted (Γ : Classes) (hΓ : ∀ c d, Γ c = some d → BlindClass d) (n : Nat) (b : FieldBase) (comp : Field)
    (count : Count) (halt) (hb : BlindField (.array b comp count halt)) (k : List Value) (ctx : Value) (all : Dict) (σ : Its)
    (hσ : Fresh σ) (hok : (fieldToStreamS Γ n (.array b comp count halt) (.iter k) ctx all σ).1.2 = .ok ()) :
    (fieldToStreamS Γ n (.array b comp count halt) (.iter k) ctx all σ).1 =
        fieldToStream Γ n (.array b comp count halt) (.iter (σ k)) ctx all ∧
      (fieldToStreamS Γ n (.array b comp count halt) (.iter k) ctx all
          (fieldToStreamS Γ n (.array b comp count halt) (.iter k) ctx all σ).2).1 =
        fieldToStream Γ n (.array b comp count halt) (.iter []) ctx all := by
  have hap : Apart (.iter k) := ⟨trivial, by simp [iterators]⟩
  have h1 := (refines_step hΓ n).1 _ (.iter k) ctx all σ id hb hap hσ
  have h2 := (refines_step hΓ n).1 _ (.iter k) ctx all _ id hb hap (h1.2.fresh hσ)
  rw [fillDict_id] at h1 h2
  refine ⟨h1.1, ?_⟩
  rw [h2.1]
  simp only [fill, array_exhausts hok]

/-- … and if neither size nor count says how much there should be, the second dump writes nothing, and nobody is told. -/
theorem C90_second_dump_silent_refuted (Γ : Classes) (hΓ : ∀ c d, Γ c = some d → BlindClass d) (n : Nat) (b : FieldBase)
    (comp : Field) (halt) (hb : BlindField (.array b comp .none halt)) (hs : b.size = .none)
    (hval : ∀ c ∈ b.validators, ∀ v, c v = .ok ()) (k : List Value)
    (ctx : Value) (all : Dict) (σ : Its) (hσ : Fresh σ)
    (hok : (fieldToStreamS Γ n (.array b comp .none halt) (.iter k) ctx all σ).1.2 = .ok ()) :
    (fieldToStreamS Γ n (.array b comp .none halt) (.iter k) ctx all
        (fieldToStreamS Γ n (.array b comp .none halt) (.iter k) ctx all σ).2).1 = ([], .ok ()) := by
  rw [(C90_used_up_refuted Γ hΓ n b comp .none halt hb k ctx all σ hσ hok).2]
  cases n with
  | zero => cases hok
  | succ n =>
    refine array_empty hs ?_
    generalize b.validators = cs at hval
    clear hok hb
    induction cs with
    | nil => rfl
    | cons c cs ih =>
      simp only [runValidators, hval c (List.mem_cons_self ..)]
      exact ih fun c' h' => hval c' (List.mem_cons_of_mem _ h')

/-! ### Concrete classes -/

/-- ```
class Feed(Struct):
    tag = UInt8()
    items = Array(UInt8())
``` -/
def Sample.feed : StructDesc :=
  { name := "Feed", components := [Sample.u8 "tag", Sample.upd (Sample.array "items" (Sample.u8 "") .none) ({ · with index := 1 })]
    fieldValidators := [("tag", []), ("items", [])], numOwnFields := 2 }

/-- ```
class TwoFeeds(Struct):
    a = Array(UInt8())
    b = Array(UInt8())
``` -/
def Sample.twoFeeds : StructDesc :=
  { name := "TwoFeeds"
    components := [Sample.array "a" (Sample.u8 "") .none, Sample.upd (Sample.array "b" (Sample.u8 "") .none) ({ · with index := 1 })]
    fieldValidators := [("a", []), ("b", [])], numOwnFields := 2 }

def Sample.feedClasses : Classes := Classes.add (Classes.add Sample.noClasses Sample.feed) Sample.twoFeeds

/-- The iterator called `[]`. -/
def Sample.gen : Value := .iter []
/-- It has 1, 2, 3 yet to yield; all others have 7. -/
def Sample.gens : Its := fun k => if k = [] then [.int 1, .int 2, .int 3] else [.int 7]

theorem Sample.gens_fresh : Fresh Sample.gens := by
  intro k v hv
  unfold Sample.gens at hv
  split at hv
  · simp only [List.mem_cons, List.not_mem_nil, or_false] at hv
    rcases hv with rfl | rfl | rfl <;> exact ⟨trivial, rfl⟩
  · simp only [List.mem_cons, List.not_mem_nil, or_false] at hv
    subst hv; exact ⟨trivial, rfl⟩

/-- A field without callables, defaults and null value. -/
theorem Sample.blind_plain {b : FieldBase} (h1 : b.dflt = .undefined) (h2 : b.factory = none) (h3 : b.nullValue = .undefined)
    (h4 : b.validators = []) (h5 : b.present = fun _ _ _ => .ok true) (h6 : b.computeFn = none) : BlindBase b where
  default v hv := by
    unfold FieldBase.default at hv
    rw [h2, h1] at hv; cases hv; exact ⟨trivial, rfl⟩
  null := by rw [h3]; exact ⟨trivial, rfl⟩
  validators c hc := by rw [h4] at hc; cases hc
  present σ V ctx := by rw [h5]
  compute fn hfn := by rw [h6] at hfn; cases hfn

theorem Sample.u8_blind (name : String) : BlindField (Sample.u8 name) :=
  .leaf (Sample.blind_plain rfl rfl rfl rfl rfl rfl) (fun _ h => nomatch h)

theorem Sample.feed_blind : BlindClass Sample.feed where
  unique := by unfold UniqueNames; decide
  fields f hf := by
    simp only [Sample.feed, List.mem_cons, List.not_mem_nil, or_false] at hf
    rcases hf with rfl | rfl
    · exact Sample.u8_blind _
    · exact .array (Sample.blind_plain rfl rfl rfl rfl rfl rfl) (Sample.u8_blind _)
  methods p hp m hm := by
    simp only [Sample.feed, List.mem_cons, List.not_mem_nil, or_false] at hp
    rcases hp with rfl | rfl <;> cases hm
  validators m hm := by cases hm

theorem Sample.twoFeeds_blind : BlindClass Sample.twoFeeds where
  unique := by unfold UniqueNames; decide
  fields f hf := by
    simp only [Sample.twoFeeds, List.mem_cons, List.not_mem_nil, or_false] at hf
    rcases hf with rfl | rfl
    · exact .array (Sample.blind_plain rfl rfl rfl rfl rfl rfl) (Sample.u8_blind _)
    · exact .array (Sample.blind_plain rfl rfl rfl rfl rfl rfl) (Sample.u8_blind _)
  methods p hp m hm := by
    simp only [Sample.twoFeeds, List.mem_cons, List.not_mem_nil, or_false] at hp
    rcases hp with rfl | rfl <;> cases hm
  validators m hm := by cases hm

theorem Sample.feedClasses_blind (c : String) (d : StructDesc) (h : Sample.feedClasses c = some d) : BlindClass d := by
  unfold Sample.feedClasses Classes.add at h
  split at h
  · cases h; exact Sample.twoFeeds_blind
  · split at h
    · cases h; exact Sample.feed_blind
    · cases h

/-- Instances without iterators: the hypotheses of `C90_looks_partial` hold, and the looks show something. -/
example : (runLooks Sample.feedClasses 4 "Feed" Sample.feed [("tag", .int 9), ("items", .list [.int 1, .int 2])]
      [.len, .dump .none, .eq (.dict [("tag", .int 9), ("items", .list [.int 1, .int 2])]), .dump .none] Sample.gens).1 =
    [.len (.ok 3), .wrote ([9, 1, 2], .ok ()), .truth (.ok true), .wrote ([9, 1, 2], .ok ())] := by
  rw [C90_looks_partial _ Sample.feedClasses_blind 4 "Feed" _ Sample.feed_blind _ ⟨by simp [Keyed, KeyedDict, KeyedList, Dict.keys], rfl⟩ _
    Sample.gens_fresh _ (by
      intro l hl
      simp only [List.mem_cons, List.not_mem_nil, or_false] at hl
      rcases hl with rfl | rfl | rfl | rfl <;>
        first | trivial | exact ⟨by simp [Keyed, KeyedDict, KeyedList, Dict.keys], rfl⟩)]
  rfl

/-- An instance with two iterators: the hypotheses of `C90_first_look_partial` hold, and the dump writes the items of both. -/
example : ((Look.dump .none).runS Sample.feedClasses 4 "TwoFeeds" Sample.twoFeeds [("a", Sample.gen), ("b", .iter [.none])]
      Sample.gens).1 = .wrote ([1, 2, 3, 7], .ok ()) := by
  rw [(C90_first_look_partial _ Sample.feedClasses_blind 4 "TwoFeeds" _ Sample.twoFeeds_blind _
    ⟨by simp [Keyed, KeyedDict, Dict.keys, Sample.gen], by decide⟩ _ Sample.gens_fresh _ (Or.inl ⟨_, rfl⟩)).1]
  rfl

/-- **C90** is false: after a dump, a second dump of the same instance writes less. -/
theorem C90_dump_twice_refuted :
    ∃ (Γ : Classes) (n : Nat) (d : StructDesc) (vals : Dict) (σ : Its), Fresh σ ∧ Apart (.dict vals) ∧ BlindClass d ∧
      (runLooks Γ n "Feed" d vals [.dump .none, .dump .none] σ).1 =
        [.wrote ([9, 1, 2, 3], .ok ()), .wrote ([9], .ok ())] :=
  ⟨Sample.feedClasses, 4, Sample.feed, [("tag", .int 9), ("items", Sample.gen)], Sample.gens, Sample.gens_fresh,
    ⟨by simp [Keyed, KeyedDict, Dict.keys, Sample.gen], by decide⟩, Sample.feed_blind, rfl⟩

/-- **C90** is false: `len(struct)` gives 4, and the dump after it writes 1 byte. -/
theorem C90_len_refuted :
    ∃ (Γ : Classes) (n : Nat) (d : StructDesc) (vals : Dict) (σ : Its), Fresh σ ∧ Apart (.dict vals) ∧ BlindClass d ∧
      (runLooks Γ n "Feed" d vals [.len, .dump .none, .len] σ).1 =
        [.len (.ok 4), .wrote ([9], .ok ()), .len (.ok 1)] :=
  ⟨Sample.feedClasses, 4, Sample.feed, [("tag", .int 9), ("items", Sample.gen)], Sample.gens, Sample.gens_fresh,
    ⟨by simp [Keyed, KeyedDict, Dict.keys, Sample.gen], by decide⟩, Sample.feed_blind, rfl⟩

/-- **C90** is false: so does comparing the instance, whatever with. -/
theorem C90_eq_refuted :
    ∃ (Γ : Classes) (n : Nat) (d : StructDesc) (vals : Dict) (σ : Its), Fresh σ ∧ Apart (.dict vals) ∧ BlindClass d ∧
      (runLooks Γ n "Feed" d vals [.eq .none, .dump .none] σ).1 = [.truth (.ok false), .wrote ([9], .ok ())] :=
  ⟨Sample.feedClasses, 4, Sample.feed, [("tag", .int 9), ("items", Sample.gen)], Sample.gens, Sample.gens_fresh,
    ⟨by simp [Keyed, KeyedDict, Dict.keys, Sample.gen], by decide⟩, Sample.feed_blind, rfl⟩

/-- **C90** is false: of an iterator stored in two fields, only the first field sees the items. -/
theorem C90_shared_refuted :
    ∃ (Γ : Classes) (n : Nat) (d : StructDesc) (vals : Dict) (σ : Its), Fresh σ ∧ BlindClass d ∧
      (runLooks Γ n "TwoFeeds" d vals [.dump .none] σ).1 = [.wrote ([1, 2, 3], .ok ())] ∧
      lookAlone Γ n "TwoFeeds" d (fillDict σ vals) (.dump .none) = .wrote ([1, 2, 3, 1, 2, 3], .ok ()) :=
  ⟨Sample.feedClasses, 4, Sample.twoFeeds, [("a", Sample.gen), ("b", Sample.gen)], Sample.gens, Sample.gens_fresh,
    Sample.twoFeeds_blind, rfl, rfl⟩

/-- The hypotheses of `C90_used_up_refuted` and `C90_second_dump_silent_refuted` hold for the field `items`. -/
example : (fieldToStreamS Sample.feedClasses 3 (Sample.array "items" (Sample.u8 "") .none) Sample.gen .none [] Sample.gens).1 =
      ([1, 2, 3], .ok ()) ∧
    (fieldToStreamS Sample.feedClasses 3 (Sample.array "items" (Sample.u8 "") .none) Sample.gen .none []
      (fieldToStreamS Sample.feedClasses 3 (Sample.array "items" (Sample.u8 "") .none) Sample.gen .none [] Sample.gens).2).1 =
      ([], .ok ()) :=
  ⟨rfl, C90_second_dump_silent_refuted _ Sample.feedClasses_blind 3 _ _ none
    (.array (Sample.blind_plain rfl rfl rfl rfl rfl rfl) (Sample.u8_blind _)) rfl (by intro c hc; cases hc) [] _ _ _
    Sample.gens_fresh rfl⟩

/-- … and of `C90_eq_others_partial`: comparing an instance with another that has iterators leaves the rest alone. -/
example : (structEqS Sample.feedClasses 5 "Feed" [("tag", .int 9), ("items", Sample.gen)]
      (.struct "Feed" [("tag", .int 9), ("items", .iter [.none])]) Sample.gens).2 [.int 5] = [.int 7] := by
  rw [C90_eq_others_partial _ Sample.feedClasses_blind 5 "Feed" _ ⟨by simp [Keyed, KeyedDict, Dict.keys, Sample.gen], by decide⟩ _
    ⟨by simp [Keyed, KeyedDict, Dict.keys], by decide⟩ _ Sample.gens_fresh _ (by decide) (by decide)]
  rfl

end Verif
