import Verif.Spec.Canonical
import Verif.Proofs.Schema
import Verif.Props.UUID
import Verif.Props.Timestamp

/-! Helper lemmas: dumping what was loaded. -/

namespace Verif
open Spec

theorem consumed_of_prefix {s : Stream} {bs rest : Bytes} (h : s.rest = bs ++ rest) : Consumed s ⟨s.data, s.pos + bs.length⟩ bs := by
  refine ⟨?_, rfl, rfl⟩
  have : (⟨s.data, s.pos + bs.length⟩ : Stream).rest = s.rest.drop bs.length := by simp [Stream.rest, List.drop_drop]
  rw [this, h]; simp

theorem consumed_take {s : Stream} {n : Nat} (h : n ≤ s.rest.length) : Consumed s ⟨s.data, s.pos + n⟩ (s.rest.take n) := by
  have := consumed_of_prefix (List.take_append_drop n s.rest).symm
  rwa [List.length_take, Nat.min_eq_left h] at this

theorem Spec.Consumed.trans {s t u : Stream} {a b : Bytes} (h1 : Consumed s t a) (h2 : Consumed t u b) : Consumed s u (a ++ b) :=
  ⟨by rw [h1.1, h2.1, List.append_assoc], by rw [h2.2.1, h1.2.1], by rw [h2.2.2, h1.2.2]; simp; omega⟩

/-- The values that sizes and counts are taken from. -/
def Counts (pre : List Field) (loaded : Dict) : Prop := ∀ r, Tally pre r → ∃ k : Nat, Dict.get? loaded r = some (.int k)

/-- The same sizes and counts. -/
def AgreeOn (pre : List Field) (a b : Dict) : Prop := ∀ r, Tally pre r → ∀ k : Nat, Dict.get? a r = some (.int k) → Dict.get? b r = some (.int k)

theorem natSize_expected {pre : List Field} {b : FieldBase} {k : Leaf} {loaded : Dict} (h : NatSize pre b) (hc : Counts pre loaded) :
    ∃ n : Nat, leafExpectedSize b k loaded = .ok n ∧ ∀ all, AgreeOn pre loaded all →
      leafExpectedSize b k all = .ok n ∧ DeclaredSize (.leaf b k) all n := by
  rcases h with ⟨n, h⟩ | ⟨r, hr, h⟩
  · exact ⟨n, leafSized h, fun all _ => ⟨leafSized h, Or.inl h⟩⟩
  · obtain ⟨n, hn⟩ := hc r hr
    refine ⟨n, leafExpectedSize_declared (Or.inr ⟨r, h, hn⟩), fun all ha => ?_⟩
    have := ha r hr n hn
    exact ⟨leafExpectedSize_declared (Or.inr ⟨r, h, this⟩), Or.inr ⟨r, h, this⟩⟩

theorem finishDump_exact {b : FieldBase} {k : Leaf} {all : Dict} {bs : Bytes} (p : Bytes → Int → Except Err Bytes)
    (h : b.size = .none ∨ DeclaredSize (.leaf b k) all bs.length) :
    finishDump b (leafExpectedSize b k all) p bs = (bs, .ok ()) := by
  unfold finishDump
  rcases h with hs | hs
  · simp [hs, W.ok]
  · have he := leafExpectedSize_declared hs
    rcases hs with hs | ⟨name, hs, -⟩ <;> simp only [Field.base] at hs
    · simp [hs, W.ok]
    · simp [hs, he, W.ok]

theorem readExactSize_ok {name : String} {n : Nat} {s s' : Stream} {data : Bytes}
    (h : readExactSize name (.ok n) s = (.ok data, s')) : Consumed s s' data ∧ data.length = n := by
  rw [readExactSize_nat] at h
  split at h
  · simp at h
  · rename_i hlt
    simp only [Prod.mk.injEq, Except.ok.injEq] at h
    obtain ⟨rfl, rfl⟩ := h
    exact ⟨consumed_take (by omega), by simp; omega⟩

theorem readInt_inv {n : Nat} {sg : Bool} {e : Endian} {s s' : Stream} {i : Int} (h : readInt s n sg e = (.ok i, s')) :
    ∃ bs, Consumed s s' bs ∧ bs.length = n ∧ i = intOfBytes bs e sg := by
  simp only [readInt, Stream.read_nat] at h
  split at h
  · simp at h
  · rename_i hlt
    simp only [Prod.mk.injEq, Except.ok.injEq] at h
    obtain ⟨rfl, rfl⟩ := h
    have hle : n ≤ s.rest.length := by simp at hlt; omega
    rw [Nat.min_eq_left hle]
    exact ⟨_, consumed_take hle, by simp; omega, rfl⟩

/-- Neither a struct nor a list or dictionary. -/
def Atom (v : Value) : Prop := NoStruct v ∧ (∀ x, v ≠ .list x) ∧ ∀ x, v ≠ .dict x

theorem Atom.toDicts {Γ : Classes} {v : Value} (h : Atom v) (n : Nat) : recursiveToDicts Γ (n + 1) v = .ok v := by
  obtain ⟨h1, h2, h3⟩ := h
  cases h1 with
  | list _ => exact absurd rfl (h2 _)
  | dict _ => exact absurd rfl (h3 _)
  | _ => rfl

/-- What a canonical leaf was loaded from is what it dumps. -/
theorem leaf_canonical {Γ : Classes} {pre : List Field} {b : FieldBase} {k : Leaf} {s s' : Stream} {ctx v : Value} {loaded : Dict}
    (hk : Canonical Γ pre (.leaf b k)) (hc : Counts pre loaded)
    (h : leafLoad b k (leafExpectedSize b k loaded) s ctx loaded = (.ok v, s')) :
    ∃ bs, Consumed s s' bs ∧ (∀ n : Nat, b.size = .fixed n → bs.length = n) ∧
      (v ≠ .none ∧ v ≠ .dflt ∧ v ≠ .undefined ∧ v ≠ .notPresent ∧ Atom v) ∧
      (∀ en, k = .integer false en → ∃ m : Nat, v = .int m) ∧
      ∀ all, AgreeOn pre loaded all → leafDump b k (leafExpectedSize b k all) v ctx all = (bs, .ok ()) ∧
        finishDump b (leafExpectedSize b k all) (leafAddPadding b k) bs = (bs, .ok ()) := by
  have hmap : ∀ {α : Type} {r : R α} {g : α → Value}, R.map r g = (.ok v, s') → ∃ a, r = (.ok a, s') ∧ v = g a := by
    intro α r g hr
    obtain ⟨e, t⟩ := r
    cases e with
    | error e => simp [R.map, Except.map] at hr
    | ok a => simp [R.map, Except.map] at hr; exact ⟨a, by simp [hr.2], hr.1.symm⟩
  have hthen : ∀ {α : Type} {r : R α} {g : α → Except Err Value}, R.andThen r g = (.ok v, s') → ∃ a, r = (.ok a, s') ∧ g a = .ok v := by
    intro α r g hr
    obtain ⟨e, t⟩ := r
    cases e with
    | error e => simp [R.andThen, Except.bind] at hr
    | ok a => simp only [R.andThen, Except.bind, Prod.mk.injEq] at hr; exact ⟨a, by simp [hr.2], hr.1⟩
  cases hk with
  | @integer _ sg en n hs hn =>
    simp only [leafLoad, hs] at h
    obtain ⟨i, h1, rfl⟩ := hmap h
    obtain ⟨bs, h2, h3, rfl⟩ := readInt_inv h1
    have hne : bs ≠ [] := by intro h; simp [h] at h3; omega
    obtain ⟨w, h4, h5⟩ := C10_read_write bs hne sg en [] []
    have h6 := readInt_ok [] bs [] sg en
    rw [h6] at h4
    simp only [Prod.mk.injEq, Except.ok.injEq, and_true] at h4
    subst h4
    refine ⟨bs, h2, fun m hm => ?_, ⟨by simp, by simp, by simp, by simp, by constructor, by simp, by simp⟩, ?_, fun all _ => ⟨?_, ?_⟩⟩
    · rw [hs] at hm; simp at hm; omega
    · intro en' he
      cases he
      have := intOfBytes_unsigned_nonneg bs en
      exact ⟨(intOfBytes bs en false).toNat, congrArg Value.int (Int.toNat_of_nonneg this).symm⟩
    · rw [h3] at h5
      simp only [leafDump, hs, h5, unserializableOnRange, W.ofExcept, W.ok]
    · exact finishDump_exact _ (Or.inr (Or.inl (by simp only [Field.base]; rw [hs, h3])))
  | bytes hs =>
    obtain ⟨n, h1, h2⟩ := natSize_expected (k := .bytes) hs hc
    simp only [leafLoad, h1] at h
    obtain ⟨bs, h3, rfl⟩ := hmap h
    obtain ⟨h4, h5⟩ := readExactSize_ok h3
    refine ⟨bs, h4, fun m hm => ?_, ⟨by simp, by simp, by simp, by simp, by constructor, by simp, by simp⟩, by simp, fun all ha => ?_⟩
    · have := leafSized (k := .bytes) (values := loaded) hm
      rw [h1] at this; cases this; exact h5
    · obtain ⟨h6, h7⟩ := h2 all ha
      refine ⟨by simp [leafDump, h6, h5, W.ok], finishDump_exact _ (Or.inr (h5 ▸ h7))⟩
  | @string _ c p hsup hs =>
    obtain ⟨n, h1, h2⟩ := natSize_expected (k := .string c p) hs hc
    simp only [leafLoad, h1] at h
    obtain ⟨bs, h3, h8⟩ := hthen h
    obtain ⟨t, h9, rfl⟩ := Except.map_ok h8
    obtain ⟨h4, h5⟩ := readExactSize_ok h3
    refine ⟨bs, h4, fun m hm => ?_, ⟨by simp, by simp, by simp, by simp, by constructor, by simp, by simp⟩, by simp, fun all ha => ?_⟩
    · have := leafSized (k := .string c p) (values := loaded) hm
      rw [h1] at this; cases this; exact h5
    · obtain ⟨h6, h7⟩ := h2 all ha
      refine ⟨?_, finishDump_exact _ (Or.inr (h5 ▸ h7))⟩
      simp [leafDump, encodeAndResize, C51_codec_strict c hsup t bs h9, h6, h5, W.ofExcept, W.ok]
  | @stringz _ c p hsup hs =>
    have hz : ∃ m fuel, R.map (stringzLoop b.name c m fuel 0 [] [] s) .str = (.ok v, s') := by
      simp only [leafLoad] at h
      split at h
      · exact ⟨_, _, h⟩
      · exact ⟨_, _, h⟩
      · simp at h
    obtain ⟨m, fuel, hz⟩ := hz
    obtain ⟨t, h1, rfl⟩ := hmap hz
    obtain ⟨t', used, rest, h2, -, h3, h4, rfl, -⟩ := stringzLoop_ok (supported_lawful hsup) _ _ _ _ _ _ _ (Or.inl rfl) h1
    simp only [List.nil_append] at h2 h3
    subst h2
    refine ⟨used, consumed_of_prefix h4, fun m hm => by rw [hs] at hm; simp at hm, ⟨by simp, by simp, by simp, by simp, by constructor, by simp, by simp⟩,
      by simp, fun all _ => ⟨?_, finishDump_exact (k := .stringz c p) _ (Or.inl hs)⟩⟩
    simp [leafDump, h3, W.ofExcept, W.ok]
  | @uuid _ fmt hs hfmt =>
    have hn : fmt.size = 16 := by rcases hfmt with rfl | rfl <;> rfl
    simp only [leafLoad, hn] at h
    rw [show s.read 16 = _ from Stream.read_nat s 16] at h
    simp only at h
    split at h
    · simp at h
    · rename_i hlt
      have hle : 16 ≤ s.rest.length := by simp at hlt; omega
      obtain ⟨u, h1, -, h2⟩ := C50_binary_load_dump fmt hfmt (s.rest.take 16) (by simp; omega)
      simp only [h1, Except.map, Prod.mk.injEq, Except.ok.injEq] at h
      obtain ⟨rfl, rfl⟩ := h
      rw [Nat.min_eq_left hle]
      refine ⟨s.rest.take 16, consumed_take hle, fun m hm => ?_, ⟨by simp, by simp, by simp, by simp, by constructor, by simp, by simp⟩, by simp, fun all _ => ⟨?_, ?_⟩⟩
      · rw [hs] at hm; simp at hm; simp; omega
      · simp [leafDump, h2, W.ok]
      · refine finishDump_exact (k := .uuid fmt) _ (Or.inr (Or.inl ?_))
        simp only [Field.base, hs, List.length_take, Nat.min_eq_left hle]; rfl
  | @double _ en hs =>
    have hb : binary64.bytes = 8 := by decide
    have hsz : ∀ vals, leafExpectedSize b (.float binary64 en) vals = .ok ((8 : Nat) : Int) := fun vals => leafSized hs
    simp only [leafLoad, hsz] at h
    obtain ⟨bs, h1, h2⟩ := hthen h
    obtain ⟨h4, h5⟩ := readExactSize_ok h1
    rw [if_pos (by rw [h5, hb])] at h2
    cases h2
    have hp : floatPack binary64 en (floatUnpack binary64 en bs) = some bs := by
      simp only [floatPack, floatUnpack, packBits, unpackBits, if_true, Option.map_some, arrange_natToLE (f := binary64) (h5.trans hb.symm)]
    refine ⟨bs, h4, fun m hm => ?_, ⟨by simp, by simp, by simp, by simp, by constructor, by simp, by simp⟩, by simp, fun all _ => ⟨?_, ?_⟩⟩
    · rw [hs] at hm; simp at hm; omega
    · simp only [leafDump, hp, W.ok]
    · exact finishDump_exact (k := .float binary64 en) _ (Or.inr (Or.inl (by simp only [Field.base]; rw [hs, h5]; rfl)))
  | @timestamp _ aware sg en n hs hn =>
    simp only [leafLoad, leafSized hs] at h
    obtain ⟨i, h1, h2⟩ := hthen h
    obtain ⟨bs, h3, h4, rfl⟩ := readInt_inv h1
    obtain ⟨us, h5, rfl⟩ := Except.map_ok h2
    obtain ⟨h5, hfirst⟩ := tsLoad_split h5
    obtain ⟨hr, rfl⟩ := tsLoad_inv h5
    have hne : bs ≠ [] := by intro h; subst h; simp at h4; omega
    have hdump := tsStored_whole .s (k := intOfBytes bs en sg) (by unfold datetimeMin datetimeMax at hr; omega)
      (by simp [Resolution.units]; exact Holds.small (by unfold datetimeMin datetimeMax at hr; omega)) aware
    simp only [Resolution.units, Nat.cast_one, mul_one] at hdump
    have hw := data_write bs hne sg en
    refine ⟨bs, h3, fun m hm => ?_, ⟨by simp, by simp, by simp, by simp, by constructor, by simp, by simp⟩, by simp, fun all _ => ⟨?_, ?_⟩⟩
    · rw [hs] at hm; simp at hm; omega
    · rw [h4] at hw
      simp only [leafDump, tsDump_of _ hfirst, hdump, leafSized hs, hw, unserializableOnRange, W.ofExcept, W.ok]
    · exact finishDump_exact (k := .timestamp .s aware sg en) _ (Or.inr (Or.inl (by simp only [Field.base]; rw [hs, h4])))

/-! ### Converting to dictionaries -/

theorem mapE_succeeds {α β : Type} {g : α → Except Err β} {l : List α} (h : ∀ a ∈ l, ∃ b, g a = .ok b) : ∃ r, mapE g l = .ok r := by
  induction l with
  | nil => exact ⟨[], rfl⟩
  | cons a l ih =>
    obtain ⟨b, hb⟩ := h a (by simp)
    obtain ⟨r, hr⟩ := ih fun x hx => h x (by simp [hx])
    exact ⟨b :: r, by simp [mapE, hb, hr]⟩

theorem mapE_fixed {α : Type} {g : α → Except Err α} {l : List α} (h : ∀ a ∈ l, g a = .ok a) : mapE g l = .ok l := by
  induction l with
  | nil => rfl
  | cons a l ih => simp [mapE, h a (by simp), ih fun x hx => h x (by simp [hx])]

theorem whateverLoop_succeeds {d : StructDesc} {vals : Dict} {fs : List Field} {acc : Dict}
    (h : ∀ f ∈ fs, ∃ v, f.base.computeValueForDump (structView d vals) .none = .ok v) : ∃ dct, whateverLoop d vals fs acc = .ok dct := by
  induction fs generalizing acc with
  | nil => exact ⟨acc, rfl⟩
  | cons f fs ih =>
    obtain ⟨v, hv⟩ := h f (by simp)
    simp only [whateverLoop, hv]
    exact ih fun x hx => h x (by simp [hx])

theorem chainLoop_succeeds {d : StructDesc} {vals dct : Dict} {ks : List String}
    (h : ∀ k ∈ ks, Dict.get? dct k ≠ none ∨ ∃ v, structGetItem d vals k = .ok v) : ∃ r, chainLoop d vals dct ks = .ok r := by
  induction ks with
  | nil => exact ⟨[], rfl⟩
  | cons k ks ih =>
    obtain ⟨r, hr⟩ := ih fun x hx => h x (by simp [hx])
    cases hg : Dict.get? dct k with
    | some v => exact ⟨(k, v) :: r, by simp [chainLoop, hg, hr]⟩
    | none =>
      rcases h k (by simp) with h1 | ⟨v, hv⟩
      · exact absurd hg h1
      · exact ⟨(k, v) :: r, by simp [chainLoop, hg, hv, hr]⟩

theorem missingLoop_nothing {dct : Dict} {fs : List Field} (h : ∀ f ∈ fs, Dict.get? dct f.name ≠ none) : missingLoop dct fs = .ok [] := by
  induction fs with
  | nil => rfl
  | cons f fs ih =>
    have h1 := h f (by simp)
    have : Dict.contains dct f.name = true := by
      rw [Dict.contains_eq]
      cases hg : Dict.get? dct f.name with
      | none => exact absurd hg h1
      | some v => rfl
    simp only [missingLoop, this, if_true]
    exact ih fun x hx => h x (by simp [hx])

/-- Every field of the instance is marked as left out, or has a value and is present, or is discarded and has none and can do without. -/
def Full (d : StructDesc) (vals : Dict) : Prop :=
  ∀ f ∈ d.components, (f.base.discard = false ∧ ∃ v, Dict.get? vals f.name = some v ∧
    (v = .notPresent ∨ (v ≠ .undefined ∧ f.base.present (structView d vals) .none none = .ok true))) ∨
    (f.base.discard = true ∧ Dict.get? vals f.name = none ∧ ∃ v, f.base.computeValueForDump (structView d vals) .none = .ok v)

theorem full_value {d : StructDesc} {vals : Dict} (hi : Instance d vals) {f : Field} (hf : f ∈ d.components)
    {v : Value} (hv : Dict.get? vals f.name = some v)
    (h : v = .notPresent ∨ (v ≠ .undefined ∧ f.base.present (structView d vals) .none none = .ok true)) :
    f.base.computeValueForDump (structView d vals) .none = .ok v := by
  have h1 : v ≠ .undefined := by
    rcases h with rfl | h
    · simp
    · exact h.1
  have hch : Chosen f.base (structView d vals) v := .explicit ((structContains_iff hi.1).2 ⟨v, hv, h1⟩)
    (structGetItem_some (List.mem_map.2 ⟨f, hf, rfl⟩) hv)
  rw [computeValueForDump_of_chosen hch]
  rcases h with rfl | ⟨-, h⟩
  · simp
  · rw [h]
    split
    · rename_i h2; rw [h2]
    · simp

theorem toDictShallow_full {d : StructDesc} {vals : Dict} (hu : UniqueNames d) (hi : Instance d vals) (hfull : Full d vals) :
    ∃ dct, toDictShallow d vals false = .ok dct ∧ (Dict.keys dct).Nodup ∧ (∀ k ∈ Dict.keys dct, k ∈ names d) ∧
      ∀ f ∈ d.components, Dict.get? dct f.name = Dict.get? vals f.name := by
  have hval : ∀ f ∈ d.components, ∃ v, f.base.computeValueForDump (structView d vals) .none = .ok v ∧
      (f.base.discard = false → Dict.get? vals f.name = some v) ∧ (f.base.discard = true → Dict.get? vals f.name = none) := by
    intro f hf
    rcases hfull f hf with ⟨h0, v, h1, h2⟩ | ⟨h0, h1, v, h2⟩
    · exact ⟨v, full_value hi hf h1 h2, fun _ => h1, fun h => by rw [h0] at h; simp at h⟩
    · exact ⟨v, h2, fun h => by rw [h0] at h; simp at h, fun _ => h1⟩
  obtain ⟨raw, hraw⟩ := whateverLoop_succeeds (acc := []) fun f hf => (hval f hf).imp fun _ h => h.1
  have hchain : ∃ dct, whateverPossible d vals = .ok dct := by
    simp only [whateverPossible, hraw]
    refine chainLoop_succeeds fun k hk => ?_
    rcases List.mem_append.1 hk with hk | hk
    · right
      obtain ⟨v, hv, -⟩ := (mem_definedKeys hi.1).1 hk
      exact ⟨v, structGetItem_some (hi.2 k (Dict.get?_some_key hv)) hv⟩
    · left
      intro hnone
      exact (Dict.get?_none_iff _ _).1 hnone (List.mem_filter.1 hk).1
  obtain ⟨dct, hdct⟩ := hchain
  obtain ⟨-, -, h3⟩ := whateverPossible_get hu hi hdct
  have hmiss := missingLoop_nothing (dct := dct) (fs := d.components) fun f hf => by
    rcases h3 f hf with ⟨v, -, h4⟩ | ⟨e, h4, -⟩
    · simp [h4]
    · obtain ⟨v, h5, -⟩ := hval f hf
      rw [h5] at h4; simp at h4
  have hok : ∃ r, toDictShallow d vals false = .ok r := by simp [toDictShallow, hdct, hmiss]
  obtain ⟨r, hr⟩ := hok
  obtain ⟨h5, h6, h7⟩ := toDictShallow_get hu hi hr
  refine ⟨r, hr, h5, h6, fun f hf => ?_⟩
  obtain ⟨v, h8, h9, h9'⟩ := hval f hf
  rcases h7 f hf with ⟨-, h10, h11⟩ | ⟨h12, x, h10, h11⟩
  · rw [h9' h10, h11]
  · rw [h11, h9 (by simpa using h12)]
    rcases h10 with h10 | ⟨e, h10, -⟩
    · rw [h8] at h10; cases h10; rfl
    · rw [h8] at h10; simp at h10

theorem recursiveToDicts_idem {Γ : Classes} {n : Nat} {v w : Value} (h : recursiveToDicts Γ n v = .ok w) :
    recursiveToDicts Γ n w = .ok w := by
  induction n generalizing v w with
  | zero => simp [recursiveToDicts] at h
  | succ n ih =>
    have hmap : ∀ {dct r : Dict}, mapDictE (recursiveToDicts Γ n) dct = .ok r → mapDictE (recursiveToDicts Γ n) r = .ok r := by
      intro dct r hr
      unfold mapDictE at hr ⊢
      refine mapE_fixed fun p hp => ?_
      have := mapE_forall (P := fun p => recursiveToDicts Γ n p.2 = .ok p.2) hr (fun a _ b hb => by
        obtain ⟨x, hx, rfl⟩ := Except.map_ok hb
        exact ih hx) p hp
      simp [this, Except.map]
    cases v with
    | struct cls vals =>
      simp only [recursiveToDicts] at h
      split at h
      · simp at h
      · split at h
        · simp at h
        · obtain ⟨r, hr, rfl⟩ := Except.map_ok h
          simp [recursiveToDicts, hmap hr, Except.map]
    | dict dct =>
      simp only [recursiveToDicts] at h
      obtain ⟨r, hr, rfl⟩ := Except.map_ok h
      simp [recursiveToDicts, hmap hr, Except.map]
    | list l =>
      simp only [recursiveToDicts] at h
      obtain ⟨r, hr, rfl⟩ := Except.map_ok h
      have : mapE (recursiveToDicts Γ n) r = .ok r := mapE_fixed fun x hx =>
        mapE_forall (P := fun x => recursiveToDicts Γ n x = .ok x) hr (fun a _ b hb => ih hb) x hx
      simp [recursiveToDicts, this, Except.map]
    | _ =>
      simp only [recursiveToDicts, Except.ok.injEq] at h
      subst h
      rfl

/-- A property that holds for each element from some fuel on holds for all of them from some fuel on. -/
theorem common_fuel {α : Type} {l : List α} {P : Nat → α → Prop} (hmono : ∀ {n m a}, n ≤ m → P n a → P m a)
    (h : ∀ a ∈ l, ∃ n, P n a) : ∃ n, ∀ a ∈ l, P n a := by
  induction l with
  | nil => exact ⟨0, by simp⟩
  | cons a l ih =>
    obtain ⟨n, hn⟩ := h a (by simp)
    obtain ⟨m, hm⟩ := ih fun x hx => h x (by simp [hx])
    refine ⟨max n m, fun x hx => ?_⟩
    rcases List.mem_cons.1 hx with rfl | hx
    · exact hmono (Nat.le_max_left ..) hn
    · exact hmono (Nat.le_max_right ..) (hm x hx)


theorem exists_fun_of_mem {α β : Type} [Inhabited β] {l : List α} {Q : α → β → Prop} (h : ∀ a ∈ l, ∃ b, Q a b) :
    ∃ g : α → β, ∀ a ∈ l, Q a (g a) := by
  classical
  refine ⟨fun a => if h : ∃ b, Q a b then h.choose else default, fun a ha => ?_⟩
  have := h a ha
  simp only [dif_pos this]
  exact this.choose_spec

/-- Numbers that are in `a` are in `b`. -/
def Agree (a b : Dict) : Prop := ∀ r, ∀ k : Int, Dict.get? a r = some (.int k) → Dict.get? b r = some (.int k)

theorem Agree.trans {a b c : Dict} (h1 : Agree a b) (h2 : Agree b c) : Agree a c := fun r k h => h2 r k (h1 r k h)

/-- Values of fields without children are kept, unless they are discarded. -/
def LeavesKept (pre : List Field) (a b : Dict) : Prop :=
  ∀ bb k v, Field.leaf bb k ∈ pre → bb.discard = false → Dict.get? a bb.name = some v → Dict.get? b bb.name = some v

theorem LeavesKept.agreeOn {pre : List Field} {a b : Dict} (h : LeavesKept pre a b) : AgreeOn pre a b := by
  rintro r ⟨bb, en, h1, rfl, -, h2⟩ k hk
  exact h bb _ _ h1 h2 hk

/-- All these fields have been loaded. -/
def Held (pre : List Field) (loaded : Dict) : Prop := ∀ f ∈ pre, Dict.get? loaded f.name ≠ none

/-- What is known of a value that was loaded from `p`: converted to dictionaries, it is dumped as `p`. -/
structure Redumps (Γ : Classes) (ctx : Value) (pre : List Field) (vals : Dict) (f : Field) (v : Value) (p : Bytes) : Prop where
  marks : v ≠ .dflt ∧ v ≠ .undefined ∧ v ≠ .notPresent
  extent : f.base.nullValue = .undefined → ∀ k, Extent Γ f k → p.length = k
  counter : f.base.nullValue = .undefined → ∀ b en, f = .leaf b (.integer false en) → ∃ m : Nat, v = .int m
  atom : ∀ b k, f = .leaf b k → Atom v
  dumps : ∃ m w, recursiveToDicts Γ m v = .ok w ∧ Stands v w ∧
    ∀ all, LeavesKept pre vals all → ∃ k, fieldToStream Γ k f w ctx all = (p, .ok ())

theorem Redumps.mono {Γ : Classes} {ctx : Value} {pre pre' : List Field} {vals vals' : Dict} {f : Field} {v : Value} {p : Bytes}
    (h : Redumps Γ ctx pre vals f v p) (ha : ∀ k w, Dict.get? vals k = some w → Dict.get? vals' k = some w) (hp : ∀ g ∈ pre, g ∈ pre') :
    Redumps Γ ctx pre' vals' f v p := by
  obtain ⟨h1, h2, h3, h4, m, w, h5, h6, h7⟩ := h
  exact ⟨h1, h2, h3, h4, m, w, h5, h6, fun all h' => h7 all fun b k v hb hk hv => h' b k v (hp _ hb) hk (ha _ _ hv)⟩

theorem structToStream_of_le {Γ : Classes} {n m : Nat} (h : n ≤ m) {d : StructDesc} {vals : Dict} {ctx : Value} {bs : Bytes}
    (hr : structToStream Γ n d vals ctx = (bs, .ok ())) : structToStream Γ m d vals ctx = (bs, .ok ()) := by
  rcases structToStream_mono Γ h d vals ctx with h1 | h1
  · rw [hr] at h1; simp at h1
  · rw [← h1, hr]

theorem recursiveToDicts_of_le {Γ : Classes} {n m : Nat} (h : n ≤ m) {v w : Value} (hr : recursiveToDicts Γ n v = .ok w) :
    recursiveToDicts Γ m v = .ok w := (recursiveToDicts_mono Γ h v).of_ok hr

theorem parts_of_each {Γ : Classes} {n : Nat} {ctx : Value} {all : Dict} {es : List (Field × Bytes)}
    (h : ∀ e ∈ es, Part Γ n ctx all e.1 e.2) : Parts Γ n ctx all (es.map Prod.fst) (es.map Prod.snd) := by
  induction es with
  | nil => exact .nil
  | cons e es ih => exact .cons (h e (by simp)) (ih fun x hx => h x (by simp [hx]))

/-- The same values of fields without children. -/
def SameLeaves (d : StructDesc) (a b : Dict) : Prop := ∀ bb k, Field.leaf bb k ∈ d.components → Dict.get? a bb.name = Dict.get? b bb.name

/-- A discarded field without a value of its own, which is left out, or dumped as `p` with its default. -/
def Falls (Γ : Classes) (ctx : Value) (d : StructDesc) (vals : Dict) (f : Field) (p : Bytes) : Prop :=
  f.base.discard = true ∧ Dict.get? vals f.name = none ∧ ∃ c pr, (∀ view : View, view.contains f.name = false → Chosen f.base view c) ∧
    c ≠ .notPresent ∧ f.base.present (structView d vals) .none none = .ok pr ∧
    (∀ all, SameLeaves d vals all → f.base.present all.view ctx none = .ok pr) ∧ (pr = false → p = []) ∧
    (pr = true → c ≠ .undefined ∧ ∀ all, Agree vals all → SameLeaves d vals all → ∃ k, fieldToStream Γ k f c ctx all = (p, .ok ()))

theorem structGet_set {d : StructDesc} {vals : Dict} {r : String} {v : Value} (n : Nat) (hr : r ∈ names d) (hv : Dict.get? vals r = some v) :
    structGet d vals (n + 1) r = .ok v := by
  have := structGetItem_some (d := d) hr hv
  unfold structGetItem structGet at this
  unfold structGet
  split at this
  · simp at this
  · simp only [hv]

/-- A discarded field that falls back on its default has a value for the checks. -/
theorem Falls.get {Γ : Classes} {ctx : Value} {d : StructDesc} {vals : Dict} {f : Field} {p : Bytes} (h : Falls Γ ctx d vals f p)
    (hu : UniqueNames d) (hi : Instance d vals) (hf : f ∈ d.components)
    (hdep : ∃ refs, (∀ r ∈ refs, r ∈ names d ∧ Dict.get? vals r ≠ none) ∧ DependsOn refs f.base) :
    ∃ v, structGetItem d vals f.name = .ok v := by
  obtain ⟨-, h1, c, pr, h2, h3, h4, -, -, h5⟩ := h
  obtain ⟨refs, h6, h7⟩ := hdep
  unfold structGetItem structGet
  simp only [find?_of_mem hu hf, h1]
  obtain ⟨m, hm⟩ : ∃ m, d.components.length = m + 1 := by
    cases hc : d.components with
    | nil => rw [hc] at hf; simp at hf
    | cons a l => exact ⟨l.length, by simp⟩
  have hno : structContains vals f.name = false := by
    cases hc : structContains vals f.name with
    | false => rfl
    | true => obtain ⟨x, hx, -⟩ := (structContains_iff hi.1).1 hc; rw [h1] at hx; simp at hx
  have hp : f.base.present ⟨structContains vals, structGet d vals d.components.length⟩ .none none = .ok pr := by
    rw [← h4]
    refine h7 _ _ _ _ _ _ fun r hr => ?_
    obtain ⟨h8, h9⟩ := h6 r hr
    cases hg : Dict.get? vals r with
    | none => exact absurd hg h9
    | some v =>
      show structGet d vals _ r = structGetItem d vals r
      rw [hm, structGet_set m h8 hg, structGetItem_some h8 hg]
  rw [computeValueForDump_of_chosen (h2 _ hno), hp]
  simp only [h3, if_false]
  cases pr with
  | false => exact ⟨_, rfl⟩
  | true => simp only [(h5 rfl).1, if_false]; exact ⟨_, rfl⟩

/-- A struct all of whose fields are left out or have values that are dumped as `es`, or are discarded. -/
theorem dump_values {Γ : Classes} {d : StructDesc} {ctx : Value} {vals : Dict} {es : List (Field × Bytes)} (hu : UniqueNames d)
    (hi : Instance d vals) (hval : Valid d vals)
    (hes : es.map Prod.fst = d.components)
    (hatom : ∀ b k, Field.leaf b k ∈ d.components → ∀ v, Dict.get? vals b.name = some v → NoStruct v)
    (h : ∀ e ∈ es, (e.1.base.discard = false ∧ Dict.get? vals e.1.name = some .notPresent ∧ e.2 = []) ∨
      (e.1.base.discard = false ∧ ∃ v m w, Dict.get? vals e.1.name = some v ∧ v ≠ .undefined ∧ v ≠ .notPresent ∧
        recursiveToDicts Γ m v = .ok w ∧ (∀ all, Agree vals all → SameLeaves d vals all → ∃ k, fieldToStream Γ k e.1 w ctx all = (e.2, .ok ())) ∧
        e.1.base.present (structView d vals) .none none = .ok true ∧
        ∀ all, SameLeaves d vals all → e.1.base.present all.view ctx none = .ok true) ∨ Falls Γ ctx d vals e.1 e.2) :
    ∃ n all, structToDict Γ n d vals = .ok all ∧ Instance d all ∧ Agree vals all ∧ SameLeaves d vals all ∧
      structToStream Γ (n + 1) d vals ctx = ((es.map Prod.snd).flatten, .ok ()) ∧
      (∀ f ∈ d.components, f.base.discard = true → Dict.get? all f.name = none) ∧
      ∀ f ∈ d.components, f.base.discard = false →
        ∃ v w, Dict.get? vals f.name = some v ∧ Dict.get? all f.name = some w ∧ recursiveToDicts Γ n v = .ok w := by
  have hmem : ∀ f ∈ d.components, ∃ p, (f, p) ∈ es := by
    intro f hf
    rw [← hes] at hf
    obtain ⟨e, he, rfl⟩ := List.mem_map.1 hf
    exact ⟨e.2, he⟩
  have hin : ∀ e ∈ es, e.1 ∈ d.components := fun e he => by rw [← hes]; exact List.mem_map.2 ⟨e, he, rfl⟩
  obtain ⟨dct, hdct, hnd, hks, hget⟩ := toDictShallow_full hu hi (by
    intro f hf
    obtain ⟨p, hp⟩ := hmem f hf
    rcases h _ hp with ⟨h0, h1, -⟩ | ⟨h0, v, m, w, h1, h2, h3, -, -, h4, -⟩ | ⟨h0, h1, c, pr, h2, h3, h4, -, -, h5⟩
    · exact Or.inl ⟨h0, _, h1, Or.inl rfl⟩
    · exact Or.inl ⟨h0, v, h1, Or.inr ⟨h2, h4⟩⟩
    · refine Or.inr ⟨h0, h1, ?_⟩
      have hno : (structView d vals).contains f.name = false := by
        cases hc : (structView d vals).contains f.name with
        | false => rfl
        | true =>
          obtain ⟨v, hv, -⟩ := (structContains_iff hi.1).1 hc
          have h1' : Dict.get? vals f.name = none := h1
          rw [h1'] at hv; simp at hv
      rw [computeValueForDump_of_chosen (h2 _ hno)]
      have h4' : f.base.present (structView d vals) .none none = .ok pr := h4
      rw [if_neg h3, h4']
      cases pr with
      | false => exact ⟨_, rfl⟩
      | true => simp only [if_neg (h5 rfl).1]; exact ⟨_, rfl⟩)
  obtain ⟨M, hM⟩ := common_fuel (l := es) (P := fun n e => e.1.base.discard = false → ∃ v w, Dict.get? vals e.1.name = some v ∧
      recursiveToDicts Γ n v = .ok w ∧ v ≠ .undefined ∧ ((v = .notPresent ∧ e.2 = []) ∨ (v ≠ .notPresent ∧
        (∀ all, Agree vals all → SameLeaves d vals all → ∃ k, fieldToStream Γ k e.1 w ctx all = (e.2, .ok ())) ∧
        ∀ all, SameLeaves d vals all → e.1.base.present all.view ctx none = .ok true)))
    (by
      rintro n m a hle hn hk
      obtain ⟨v, w, h1, h2, h3⟩ := hn hk
      exact ⟨v, w, h1, recursiveToDicts_of_le hle h2, h3⟩)
    (by
      intro e he
      rcases h e he with ⟨-, h1, h2⟩ | ⟨-, v, m, w, h1, h2, h3, h4, h5, -, h6⟩ | ⟨h0, -⟩
      · exact ⟨1, fun _ => ⟨_, _, h1, rfl, by simp, Or.inl ⟨rfl, h2⟩⟩⟩
      · exact ⟨m, fun _ => ⟨v, w, h1, h4, h2, Or.inr ⟨h3, h5, h6⟩⟩⟩
      · exact ⟨0, fun h => by rw [h0] at h; simp at h⟩)
  -- discarded fields have no values
  have hdisc : ∀ f ∈ d.components, f.base.discard = true → Dict.get? vals f.name = none := by
    intro f hf hk
    obtain ⟨p, hp⟩ := hmem f hf
    rcases h _ hp with ⟨h0, -⟩ | ⟨h0, -⟩ | ⟨-, h1, -⟩
    · have h0' : f.base.discard = false := h0
      rw [hk] at h0'; simp at h0'
    · have h0' : f.base.discard = false := h0
      rw [hk] at h0'; simp at h0'
    · exact h1
  have hconv : ∀ N, M ≤ N → ∃ all, structToDict Γ N d vals = .ok all := by
    intro N hN
    simp only [structToDict, hdct]
    refine mapE_succeeds fun p hp => ?_
    have hk : p.1 ∈ Dict.keys dct := List.mem_map.2 ⟨p, hp, rfl⟩
    obtain ⟨f, hf, hfn⟩ := List.mem_map.1 (hks _ hk)
    obtain ⟨q, hq⟩ := hmem f hf
    have : Dict.get? dct p.1 = some p.2 := Dict.get?_of_mem hnd hp
    rw [← hfn, hget f hf] at this
    cases hk : f.base.discard with
    | true => rw [hdisc f hf hk] at this; simp at this
    | false =>
      obtain ⟨v, w, h1, h4, -⟩ := hM _ hq hk
      rw [h1] at this
      cases this
      exact ⟨(p.1, w), by simp [recursiveToDicts_of_le hN h4, Except.map]⟩
  obtain ⟨all, hall⟩ := hconv M (Nat.le_refl _)
  have hfacts : ∀ N, structToDict Γ N d vals = .ok all → M ≤ N → (Dict.keys all = Dict.keys dct) ∧
      (∀ f ∈ d.components, f.base.discard = true → Dict.get? all f.name = none) ∧
      ∀ f ∈ d.components, f.base.discard = false →
        ∃ v w, Dict.get? vals f.name = some v ∧ Dict.get? all f.name = some w ∧ recursiveToDicts Γ N v = .ok w := by
    intro N hN hle
    simp only [structToDict, hdct] at hN
    obtain ⟨h1, h2⟩ := mapDictE_ok hN
    refine ⟨h1, fun f hf hk => ?_, fun f hf hk => ?_⟩
    · rcases h2 f.name with ⟨-, h4⟩ | ⟨v', w', h4, h5, h6⟩
      · exact h4
      · rw [hget f hf, hdisc f hf hk] at h4; simp at h4
    · obtain ⟨p, hp⟩ := hmem f hf
      obtain ⟨v, w, h3, -⟩ := hM _ hp hk
      rcases h2 f.name with ⟨h4, -⟩ | ⟨v', w', h4, h5, h6⟩
      · rw [hget f hf, h3] at h4; simp at h4
      · rw [hget f hf, h3] at h4; cases h4
        exact ⟨_, _, h3, h5, h6⟩
  obtain ⟨hkeys, hgone, hvals⟩ := hfacts M hall (Nat.le_refl _)
  have hinst : Instance d all := ⟨by rw [hkeys]; exact hnd, by rw [hkeys]; exact hks⟩
  have hagree : Agree vals all := by
    intro r k hr
    obtain ⟨f, hf, rfl⟩ := List.mem_map.1 (hi.2 r (Dict.get?_some_key hr))
    cases hk : f.base.discard with
    | true => rw [hdisc f hf hk] at hr; simp at hr
    | false =>
      obtain ⟨v, w, h1, h2, h3⟩ := hvals f hf hk
      rw [hr] at h1; cases h1
      rw [h2]
      cases M with
      | zero => simp [recursiveToDicts] at h3
      | succ M => simp [recursiveToDicts] at h3; rw [h3]
  have hleaves : SameLeaves d vals all := by
    intro b k hb
    cases hk : b.discard with
    | true =>
      have h1 : Dict.get? vals b.name = none := hdisc _ hb hk
      have h2 : Dict.get? all b.name = none := hgone _ hb hk
      rw [h1, h2]
    | false =>
      obtain ⟨v, w, h1, h2, h3⟩ := hvals _ hb hk
      have h1' : Dict.get? vals b.name = some v := h1
      have h2' : Dict.get? all b.name = some w := h2
      rw [h1', h2', (recursiveToDicts_spec h3).2 (hatom b k hb v h1)]
  obtain ⟨K, hK⟩ := common_fuel (l := es) (P := fun n e => Part Γ n ctx all e.1 e.2)
    (by
      rintro n m a hle (h1 | ⟨w, h1, h2⟩)
      · exact Or.inl h1
      · exact Or.inr ⟨w, h1, fieldToStream_of_le hle h2⟩)
    (by
      intro e he
      cases hk : e.1.base.discard with
      | true =>
        rcases h e he with ⟨h0, -⟩ | ⟨h0, -⟩ | ⟨-, h1, c, pr, h2, h3, h4, h5, h6, h7⟩
        · rw [hk] at h0; simp at h0
        · rw [hk] at h0; simp at h0
        · have hno : (Dict.view all).contains e.1.name = false := by
            show Dict.contains all e.1.name = false
            rw [Dict.contains_eq, hgone _ (hin e he) hk]; rfl
          cases pr with
          | false => exact ⟨0, Or.inl ⟨⟨c, h2 _ hno, Or.inr (h5 all hleaves)⟩, h6 rfl⟩⟩
          | true =>
            obtain ⟨h8, h9⟩ := h7 rfl
            obtain ⟨k, h10⟩ := h9 all hagree hleaves
            exact ⟨k, Or.inr ⟨c, ⟨h2 _ hno, h3, h8, h5 all hleaves⟩, h10⟩⟩
      | false =>
      obtain ⟨v, w, h1, h4, h2, h5⟩ := hM e he hk
      obtain ⟨v', w', h6, h7, h8⟩ := hvals e.1 (hin e he) hk
      rw [h1] at h6; cases h6
      rw [h4] at h8; cases h8
      have hmk := recursiveToDicts_marker h4
      have hch : Chosen e.1.base all.view w := by
        refine .explicit ?_ ?_
        · show Dict.contains all e.1.name = true
          rw [Dict.contains_eq, h7]; rfl
        · simp only [Dict.view]
          have h1' : Dict.get? all e.1.base.name = some w := h7
          rw [h1']
      rcases h5 with ⟨rfl, h5⟩ | ⟨h3, h5, h9⟩
      · have : w = .notPresent := (recursiveToDicts_spec h4).2 (by constructor)
        subst this
        exact ⟨0, Or.inl ⟨⟨_, hch, Or.inl rfl⟩, h5⟩⟩
      · obtain ⟨k, hk⟩ := h5 all hagree hleaves
        exact ⟨k, Or.inr ⟨w, ⟨hch, fun h => h3 (hmk.1 h), fun h => h2 (hmk.2.1 h), h9 all hleaves⟩, hk⟩⟩)
  refine ⟨max M K, all, (structToDict_mono Γ (Nat.le_max_left M K) d vals false).of_ok hall, hinst, hagree, hleaves, ?_, hgone, ?_⟩
  · rw [structToStream_ok_iff]
    refine ⟨hval, all, (structToDict_mono Γ (Nat.le_max_left M K) d vals false).of_ok hall, es.map Prod.snd, ?_, rfl⟩
    rw [← hes]
    refine parts_of_each fun e he => ?_
    rcases hK e he with h1 | ⟨w, h1, h2⟩
    · exact Or.inl h1
    · exact Or.inr ⟨w, h1, fieldToStream_of_le (Nat.le_max_right M K) h2⟩
  · intro f hf hk
    obtain ⟨v, w, h1, h2, h3⟩ := hvals f hf hk
    exact ⟨v, w, h1, h2, recursiveToDicts_of_le (Nat.le_max_left M K) h3⟩

/-- What is known of a struct that was loaded from `bs`. -/
structure StructRedumps (Γ : Classes) (ctx : Value) (d : StructDesc) (r : Dict) (bs : Bytes) : Prop where
  extent : (∀ f ∈ d.components, Always f.base) → ∀ ns : List Nat, ns.length = d.components.length →
    (∀ (i : Nat) (f : Field) (n : Nat), d.components[i]? = some f → ns[i]? = some n → Extent Γ f n) → bs.length = ns.sum
  dumps : ∃ n inner, structToDict Γ n d r = .ok inner ∧ Instance d inner ∧
    (∀ f ∈ d.components, f.base.discard = true → Dict.get? inner f.name = none) ∧
    (∀ f ∈ d.components, f.base.discard = false → ∃ v w, Dict.get? r f.name = some v ∧ Dict.get? inner f.name = some w ∧ Stands v w) ∧
    structToStream Γ n d r ctx = (bs, .ok ()) ∧ structToStream Γ n d inner ctx = (bs, .ok ())

theorem sum_extents {Γ : Classes} {es : List (Field × Bytes)} {ns : List Nat} (hlen : ns.length = es.length)
    (h : ∀ (i : Nat) (f : Field) (n : Nat), (es.map Prod.fst)[i]? = some f → ns[i]? = some n → Extent Γ f n)
    (he : ∀ e ∈ es, ∀ k, Extent Γ e.1 k → e.2.length = k) : (es.map Prod.snd).flatten.length = ns.sum := by
  induction es generalizing ns with
  | nil => cases ns <;> simp at hlen ⊢
  | cons e es ih =>
    cases ns with
    | nil => simp at hlen
    | cons n ns =>
      have h0 := he e (by simp) n (h 0 e.1 n (by simp) (by simp))
      have := ih (ns := ns) (by simpa using hlen) (fun i f m h1 h2 => h (i + 1) f m (by simpa using h1) (by simpa using h2))
        (fun x hx => he x (by simp [hx]))
      simp only [List.map_cons, List.flatten_cons, List.length_append, List.sum_cons, h0, this]

/-- What is known of a field of a struct that was loaded: it was not there, or its value was loaded from `e.2`. -/
def Entry (Γ : Classes) (ctx : Value) (d : StructDesc) (r : Dict) (e : Field × Bytes) : Prop :=
  (Dict.get? r e.1.name = some .notPresent ∧ e.2 = [] ∧ (∃ view c s, e.1.base.present view c s = .ok false) ∧ ∀ view c s,
    (∀ b k, Field.leaf b k ∈ d.components → b.discard = false → ∀ x, Dict.get? r b.name = some x → view.get b.name = .ok x) →
      e.1.base.present view c s = .ok false) ∨
  (∃ v, Dict.get? r e.1.name = some v ∧ Redumps Γ ctx d.components r e.1 v e.2 ∧ (e.1.base.discard = true → v = e.1.base.dflt) ∧ ∀ view c s,
    (∀ b k, Field.leaf b k ∈ d.components → b.discard = false → ∀ x, Dict.get? r b.name = some x → view.get b.name = .ok x) →
      e.1.base.present view c s = .ok true)

/-- A struct whose fields were loaded from `es`. -/
theorem struct_redumps {Γ : Classes} {d : StructDesc} {ctx : Value} {r : Dict} {es : List (Field × Bytes)}
    (hd : CanonicalClass Γ d) (hi : Instance d r) (hval : Valid d r) (hes : es.map Prod.fst = d.components)
    (h : ∀ e ∈ es, Entry Γ ctx d r e) :
    StructRedumps Γ ctx d (dropDiscarded d r) (es.map Prod.snd).flatten := by
  have hmagic : ∀ f ∈ d.components, f.base.discard = true → Magic f := by
    intro f hf hk
    obtain ⟨pre, post, hpp⟩ := List.append_of_mem hf
    rcases (hd.fields pre f post hpp).kept with h | h
    · rw [hk] at h; simp at h
    · exact h
  have hmem : ∀ f ∈ d.components, ∃ p, (f, p) ∈ es := by
    intro f hf
    rw [← hes] at hf
    obtain ⟨e, he, rfl⟩ := List.mem_map.1 hf
    exact ⟨e.2, he⟩
  have hin : ∀ e ∈ es, e.1 ∈ d.components := fun e he => by rw [← hes]; exact List.mem_map.2 ⟨e, he, rfl⟩
  have hkeep : ∀ f ∈ d.components, f.base.discard = false → Dict.get? (dropDiscarded d r) f.name = Dict.get? r f.name := fun f hf hk => by
    rw [dropDiscarded_get hd.unique r hf, hk]; simp
  have hgone : ∀ f ∈ d.components, f.base.discard = true → Dict.get? (dropDiscarded d r) f.name = none := fun f hf hk => by
    rw [dropDiscarded_get hd.unique r hf, hk]; simp
  have hi' : Instance d (dropDiscarded d r) := ⟨dropDiscarded_nodup hi.1, fun k hk => hi.2 k (dropDiscarded_keys hk)⟩
  have hatom : ∀ b k, Field.leaf b k ∈ d.components → ∀ v, Dict.get? (dropDiscarded d r) b.name = some v → NoStruct v := by
    intro b k hb v hv
    cases hk : b.discard with
    | true =>
      have := hgone _ hb hk
      rw [show (Field.leaf b k).name = b.name from rfl, hv] at this; simp at this
    | false =>
    have := hkeep _ hb hk
    rw [show (Field.leaf b k).name = b.name from rfl] at this
    rw [this] at hv
    obtain ⟨p, hp⟩ := hmem _ hb
    rcases h _ hp with ⟨h1, -⟩ | ⟨v', h1, h2, -⟩
    · have h1' : Dict.get? r b.name = some .notPresent := h1
      rw [hv] at h1'; cases h1'; constructor
    · have h1' : Dict.get? r b.name = some v' := h1
      rw [hv] at h1'; cases h1'
      exact (h2.atom b k rfl).1
  -- what fields that are not discarded look like from elsewhere
  have hsame : ∀ all, SameLeaves d (dropDiscarded d r) all → LeavesKept d.components r all := by
    intro all hs b k v hb hk hv
    have := hkeep _ hb hk
    rw [show (Field.leaf b k).name = b.name from rfl] at this
    rw [← hs b k hb, this]; exact hv
  have hview : ∀ vals', Instance d vals' → SameLeaves d (dropDiscarded d r) vals' →
      ∀ b k, Field.leaf b k ∈ d.components → b.discard = false → ∀ x, Dict.get? r b.name = some x → (structView d vals').get b.name = .ok x :=
    fun vals' _ hs b k hb hk x hx => structGetItem_some (List.mem_map.2 ⟨_, hb, rfl⟩) (hsame _ hs b k x hb hk hx)
  have hview' : ∀ vals', SameLeaves d (dropDiscarded d r) vals' →
      ∀ b k, Field.leaf b k ∈ d.components → b.discard = false → ∀ x, Dict.get? r b.name = some x → (Dict.view vals').get b.name = .ok x :=
    fun vals' hs b k hb hk x hx => view_get (hsame _ hs b k x hb hk hx)
  have hfalls : ∀ e ∈ es, e.1.base.discard = true → ∀ vals', Instance d vals' → SameLeaves d (dropDiscarded d r) vals' →
      Dict.get? vals' e.1.name = none → Falls Γ ctx d vals' e.1 e.2 := by
    intro e he hk vals' hi2 hs hn
    obtain ⟨b, k, c, hb, h1, h2, h3, h4, h5⟩ := hmagic _ (hin e he) hk
    have hc : c ≠ .undefined ∧ c ≠ .notPresent ∧ NoStruct c ∧ (∀ l, c ≠ .list l) ∧ (∀ l, c ≠ .dict l) := by
      rcases h5 with ⟨x, rfl⟩ | ⟨x, rfl⟩ | ⟨x, sg, en, rfl, -⟩ <;> exact ⟨by simp, by simp, by constructor, by simp, by simp⟩
    have hdf : e.1.base.dflt = c := by rw [hb]; exact h2
    have hch : ∀ view : View, view.contains e.1.name = false → Chosen e.1.base view c := fun view hv =>
      .default hv (by rw [hdf]; exact hc.1) (by rw [hb]; simp [FieldBase.default, Field.base, h2, h3])
    refine ⟨hk, hn, c, ?_⟩
    rcases h e he with ⟨-, h6, -, h7⟩ | ⟨v, h6, h7, h8, h9⟩
    · exact ⟨false, hch, hc.2.1, h7 _ _ _ (hview _ hi2 hs), fun all hs' => h7 _ _ _ (hview' _ fun b k hb => (hs b k hb).trans (hs' b k hb)),
        fun _ => h6, by simp⟩
    · refine ⟨true, hch, hc.2.1, h9 _ _ _ (hview _ hi2 hs), fun all hs' => h9 _ _ _ (hview' _ fun b k hb => (hs b k hb).trans (hs' b k hb)),
        by simp, fun _ => ⟨hc.1, fun all _ hs' => ?_⟩⟩
      obtain ⟨m, w, h10, -, h11⟩ := h7.dumps
      have hvc : v = c := by rw [h8 hk, hdf]
      subst hvc
      rw [(recursiveToDicts_spec h10).2 hc.2.2.1] at h11
      exact h11 all (hsame _ fun b k hb => (hs b k hb).trans (hs' b k hb))
  have hgets : ∀ vals', Instance d vals' → SameLeaves d (dropDiscarded d r) vals' →
      (∀ f ∈ d.components, f.base.discard = false → Dict.get? vals' f.name ≠ none) →
      (∀ f ∈ d.components, f.base.discard = true → Dict.get? vals' f.name = none) → ∀ f ∈ d.components, ∃ v, structGetItem d vals' f.name = .ok v := by
    intro vals' hi2 hs h1 h2 f hf
    cases hk : f.base.discard with
    | false =>
      cases hg : Dict.get? vals' f.name with
      | none => exact absurd hg (h1 f hf hk)
      | some v => exact ⟨v, structGetItem_some (List.mem_map.2 ⟨f, hf, rfl⟩) hg⟩
    | true =>
      obtain ⟨p, hp⟩ := hmem f hf
      obtain ⟨pre, post, hpre⟩ := List.append_of_mem hf
      obtain ⟨refs, h3, h4⟩ := (hd.fields pre f post hpre).optional
      refine (hfalls _ hp hk vals' hi2 hs (h2 f hf hk)).get hd.unique hi2 hf ⟨refs, fun q hq => ?_, h4⟩
      obtain ⟨b, k, hb, rfl, hkb⟩ := h3 q hq
      have hb' : Field.leaf b k ∈ d.components := by rw [hpre]; simp [hb]
      exact ⟨List.mem_map.2 ⟨_, hb', rfl⟩, h1 _ hb' hkb⟩
  refine ⟨fun hal ns hlen hns => sum_extents (Γ := Γ) (es := es) ?_ ?_ ?_, ?_⟩
  · rw [hlen, ← hes]; simp
  · rw [hes]; exact hns
  · intro e he k hk
    rcases h e he with ⟨-, -, ⟨view, c, s, h1⟩, -⟩ | ⟨v, -, h1, -⟩
    · rw [(hal _ (hin e he)).1] at h1; simp at h1
    · exact h1.extent (hal _ (hin e he)).2 k hk
  · have hvalr : Valid d (dropDiscarded d r) := by
      refine hd.checks r _ hi hi' (fun f hf hk => ?_) (hgets _ hi' (fun _ _ _ => rfl) (fun f hf hk => ?_) hgone) hval
      rotate_left
      · obtain ⟨p, hp⟩ := hmem f hf
        rw [hkeep f hf hk]
        rcases h _ hp with ⟨h6, -⟩ | ⟨v, h6, -⟩ <;> rw [h6] <;> simp
      obtain ⟨p, hp⟩ := hmem f hf
      rcases h _ hp with ⟨h6, -⟩ | ⟨v, h6, -⟩
      · exact ⟨_, _, h6, by rw [hkeep f hf hk]; exact h6, .same _⟩
      · exact ⟨_, _, h6, by rw [hkeep f hf hk]; exact h6, .same _⟩
    obtain ⟨n, inner, h1, h2, h3, h3', h4, hnone, h5⟩ := dump_values (ctx := ctx) (es := es) hd.unique hi' hvalr hes hatom (by
      intro e he
      cases hk : e.1.base.discard with
      | true => exact Or.inr (Or.inr (hfalls e he hk _ hi' (fun _ _ _ => rfl) (hgone _ (hin e he) hk)))
      | false =>
      rcases h e he with ⟨h1, h2, -⟩ | ⟨v, h1, h2, -, hpres⟩
      · exact Or.inl ⟨rfl, by rw [hkeep _ (hin e he) hk]; exact h1, h2⟩
      · obtain ⟨⟨m2, m3, m4⟩, -, -, -, m, w, h2, -, h3⟩ := h2
        exact Or.inr (Or.inl ⟨rfl, v, m, w, by rw [hkeep _ (hin e he) hk]; exact h1, m3, m4, h2, fun all _ hsl => h3 all (hsame _ hsl),
          hpres _ _ _ (hview _ hi' fun _ _ _ => rfl), fun all hall => hpres _ _ _ (hview' _ hall)⟩))
    have hst : ∀ f ∈ d.components, f.base.discard = false →
        ∃ v w, Dict.get? (dropDiscarded d r) f.name = some v ∧ Dict.get? inner f.name = some w ∧ Stands v w := by
      intro f hf hk
      obtain ⟨p, hp⟩ := hmem f hf
      obtain ⟨v', w', h9, h10, h11⟩ := h5 f hf hk
      rw [hkeep f hf hk] at h9 ⊢
      rcases h _ hp with ⟨h6, -⟩ | ⟨v, h6, h7, -⟩
      · rw [h6] at h9; cases h9
        have : w' = .notPresent := (recursiveToDicts_spec h11).2 (by constructor)
        subst this
        exact ⟨_, _, h6, h10, .same _⟩
      · obtain ⟨m, w, h7, h8, -⟩ := h7.dumps
        rw [h6] at h9
        simp only [Option.some.injEq] at h9
        subst h9
        have := recursiveToDicts_det h7 h11
        subst this
        exact ⟨_, w, h6, h10, h8⟩
    obtain ⟨n', inner', h1', -, -, -, h4', -, -⟩ := dump_values (ctx := ctx) (es := es) hd.unique h2 (hd.checks _ inner hi' h2 hst (hgets _ h2 h3' (fun f hf hk => by obtain ⟨_, _, -, h9, -⟩ := hst f hf hk; rw [h9]; simp) hnone) hvalr) hes
      (fun b k hb v hv => hatom b k hb v (by rw [h3' b k hb]; exact hv)) (by
      intro e he
      cases hk : e.1.base.discard with
      | true => exact Or.inr (Or.inr (hfalls e he hk _ h2 h3' (hnone _ (hin e he) hk)))
      | false =>
      obtain ⟨v', w', h9, h10, h11⟩ := h5 e.1 (hin e he) hk
      rw [hkeep _ (hin e he) hk] at h9
      rcases h e he with ⟨h6, h7, -⟩ | ⟨v, h6, h7, -, hpres⟩
      · rw [h6] at h9; cases h9
        have : w' = .notPresent := (recursiveToDicts_spec h11).2 (by constructor)
        subst this
        exact Or.inl ⟨rfl, h10, h7⟩
      · obtain ⟨⟨m2, m3, m4⟩, -, -, -, m, w, h7, -, h8⟩ := h7
        rw [h6] at h9
        simp only [Option.some.injEq] at h9
        subst h9
        have := recursiveToDicts_det h7 h11
        subst this
        have hmk := recursiveToDicts_marker h7
        exact Or.inr (Or.inl ⟨rfl, w, m, w, h10, fun h => m3 (hmk.2.1 h), fun h => m4 (hmk.1 h), recursiveToDicts_idem h7,
          fun all _ hsl => h8 all (hsame _ fun b k hb => (h3' b k hb).trans (hsl b k hb)), hpres _ _ _ (hview _ h2 h3'),
          fun all hall => hpres _ _ _ (hview' _ fun b k hb => (h3' b k hb).trans (hall b k hb))⟩))
    refine ⟨max (n + 1) (n' + 1), inner, (structToDict_mono Γ (by omega) d _ false).of_ok h1, h2, hnone, hst,
      structToStream_of_le (Nat.le_max_left ..) h4, structToStream_of_le (Nat.le_max_right ..) h4'⟩

theorem arrayLoop_consumed {halt : Stream → List Value → Except Err (Bool × List Value)} {load : Stream → R Value} {P : Value → Bytes → Prop}
    (hkeep : ∀ s vs b vs', halt s vs = .ok (b, vs') → vs' = vs)
    (hload : ∀ s v t, load s = (.ok v, t) → ∃ p, Consumed s t p ∧ v ≠ .notPresent ∧ P v p) {fuel : Nat} {acc l : List Value}
    {s s' : Stream} (h : arrayLoop halt load fuel acc s = (.ok l, s')) :
    ∃ es : List (Value × Bytes), l = acc ++ es.map Prod.fst ∧ Consumed s s' (es.map Prod.snd).flatten ∧ ∀ e ∈ es, P e.1 e.2 := by
  induction fuel generalizing acc s with
  | zero =>
    unfold arrayLoop at h
    split at h
    · simp at h
    · rename_i hx
      simp only [Prod.mk.injEq, Except.ok.injEq] at h
      obtain ⟨rfl, rfl⟩ := h
      exact ⟨[], by simp [hkeep _ _ _ _ hx], ⟨by simp, rfl, by simp⟩, by simp⟩
    · rename_i hx
      have hx := hkeep _ _ _ _ hx
      subst hx
      split at h <;> simp at h
  | succ fuel ih =>
    unfold arrayLoop at h
    split at h
    · simp at h
    · rename_i hx
      simp only [Prod.mk.injEq, Except.ok.injEq] at h
      obtain ⟨rfl, rfl⟩ := h
      exact ⟨[], by simp [hkeep _ _ _ _ hx], ⟨by simp, rfl, by simp⟩, by simp⟩
    · rename_i hx
      have hx := hkeep _ _ _ _ hx
      subst hx
      split at h
      · simp at h
      · rename_i v t hv
        obtain ⟨p, h1, h2, h3⟩ := hload _ _ _ hv
        simp only [if_neg h2] at h
        obtain ⟨es, rfl, h4, h5⟩ := ih h
        refine ⟨(v, p) :: es, by simp, by simpa using h1.trans h4, ?_⟩
        intro e he
        rcases List.mem_cons.1 he with rfl | he
        · exact h3
        · exact h5 e he

theorem mapE_zip {α β γ : Type} {f : α → Except Err β} {es : List γ} {a : γ → α} {g : γ → β} (h : ∀ e ∈ es, f (a e) = .ok (g e)) :
    mapE f (es.map a) = .ok (es.map g) := by
  induction es with
  | nil => rfl
  | cons e es ih => simp [mapE, h e (by simp), ih fun x hx => h x (by simp [hx])]

theorem dumpAll_zip {γ : Type} {f : Value → W} {es : List γ} {g : γ → Value} {p : γ → Bytes} (h : ∀ e ∈ es, f (g e) = (p e, .ok ())) :
    dumpAll f (es.map g) = ((es.map p).flatten, .ok ()) := by
  induction es with
  | nil => rfl
  | cons e es ih =>
    have := ih fun x hx => h x (by simp [hx])
    simp [dumpAll, h e (by simp), this, W.seq]

theorem flatten_length_const {γ : Type} {es : List γ} {p : γ → Bytes} {n : Nat} (h : ∀ e ∈ es, (p e).length = n) :
    (es.map p).flatten.length = es.length * n := by
  induction es with
  | nil => simp
  | cons e es ih =>
    have := ih fun x hx => h x (by simp [hx])
    simp only [List.map_cons, List.flatten_cons, List.length_append, h e (by simp), this, List.length_cons]
    rw [Nat.succ_mul]; omega

/-- A declared size that is right, of a container that was loaded from `bs`. -/
theorem sizeRight_declared {Γ : Classes} {f : Field} {bs : Bytes} (h : SizeRight Γ f) (he : ∀ k, Extent Γ f k → bs.length = k) (all : Dict) :
    f.base.size = .none ∨ DeclaredSize f all bs.length := by
  rcases h with h | ⟨n, h, h'⟩
  · exact Or.inl h
  · right; left; rw [h, he n h']

/-- What is known after a field was loaded: it was not there and nothing was read, or it was, and it is dumped as what was read. -/
def Outcome (Γ : Classes) (ctx : Value) (pre : List Field) (loaded : Dict) (f : Field) (s s' : Stream) (v : Value) : Prop :=
  (f.base.present loaded.view ctx (some s) = .ok false ∧ v = f.base.notPresentValue ∧ s' = s) ∨
  (f.base.present loaded.view ctx (some s) = .ok true ∧ ∃ bs, Consumed s s' bs ∧ Redumps Γ ctx pre loaded f v bs)

/-- What the fields of a struct were loaded from is what they are dumped as. -/
theorem fields_redump {Γ : Classes} {d : StructDesc} {ctx : Value} {n : Nat} (hd : CanonicalClass Γ d)
    (hfield : ∀ pre f s s' loaded v, Canonical Γ pre f → NullSafe f → Counts pre loaded → Held pre loaded →
      fieldFromStream Γ n f s ctx loaded = (.ok v, s') → Outcome Γ ctx pre loaded f s s' v)
    (hmagic : ∀ pre f s s' loaded v, Canonical Γ pre f → Magic f → Counts pre loaded → f.base.present loaded.view ctx (some s) = .ok true →
      fieldFromStream Γ n f s ctx loaded = (.ok v, s') → v = f.base.dflt)
    {done fs : List Field} {acc r : Dict} {s s' : Stream} (hl : Loads Γ n ctx fs acc s r s') (hc : d.components = done ++ fs)
    (hk : Dict.keys acc = done.map Field.name) (hcs : Counts done acc) :
    ∃ es : List (Field × Bytes), es.map Prod.fst = fs ∧ Consumed s s' (es.map Prod.snd).flatten ∧ ∀ e ∈ es, Entry Γ ctx d r e := by
  induction hl generalizing done with
  | nil acc s => exact ⟨[], rfl, ⟨by simp, rfl, by simp⟩, by simp⟩
  | @cons f fs acc r v s s1 s2 h1 h2 ih =>
    have hf := hd.fields done f fs hc
    have hout := hfield _ _ _ _ _ _ hf.kind hf.null hcs (fun g hg hnone =>
      (Dict.get?_none_iff _ _).1 hnone (by rw [hk]; exact List.mem_map.2 ⟨_, hg, rfl⟩)) h1
    have hnew : Dict.get? acc f.name = none := by
      rw [Dict.get?_none_iff, hk]
      have := hd.unique
      unfold UniqueNames names at this
      rw [hc] at this
      simp only [List.map_append, List.map_cons, List.nodup_append, List.mem_cons] at this
      intro hmem
      exact this.2.2 _ hmem _ (Or.inl rfl) rfl
    rw [if_pos hnew] at h2 ih
    have hag : ∀ k w, Dict.get? acc k = some w → Dict.get? r k = some w := by
      intro k w hw
      exact h2.mono_get (by rw [Dict.get?_append, hw]; rfl)
    have hgot : Dict.get? r f.name = some v := h2.mono_get (by rw [Dict.get?_append, hnew]; simp [Dict.get?_cons])
    obtain ⟨es, he1, he2, he3⟩ := ih (done := done ++ [f]) (by simp [hc])
      (by simp only [Dict.keys, List.map_append, List.map_cons, List.map_nil] at hk ⊢; rw [hk]) (by
        rintro k ⟨b, en, hb, rfl, hal⟩
        rcases List.mem_append.1 hb with hb | hb
        · obtain ⟨m, hm⟩ := hcs b.name ⟨b, en, hb, rfl, hal⟩
          exact ⟨m, by rw [Dict.get?_append, hm]; rfl⟩
        · simp only [List.mem_singleton] at hb
          subst hb
          rcases hout with ⟨h3, -⟩ | ⟨-, bs, -, hre⟩
          · rw [show (Field.leaf b (.integer false en)).base = b from rfl, hal.1.1] at h3; simp at h3
          · obtain ⟨m, hm⟩ := hre.counter hal.1.2 _ _ rfl
            refine ⟨m, ?_⟩
            have hnew' : Dict.get? acc b.name = none := hnew
            rw [Dict.get?_append, hnew', hm]
            simp [Dict.get?_cons, Field.name, Field.base])
    have hdepends : ∀ (view : View) (c : Value) (s' : Option Stream) (s : Option Stream),
        (∀ b k, Field.leaf b k ∈ d.components → b.discard = false → ∀ x, Dict.get? r b.name = some x → view.get b.name = .ok x) →
        f.base.present view c s' = f.base.present acc.view ctx s := by
      intro view c s' s hview
      obtain ⟨refs, hrefs, hdep⟩ := hf.optional
      refine hdep _ _ _ _ _ _ fun x hx => ?_
      obtain ⟨b, k, hb, rfl, hkb⟩ := hrefs x hx
      have hkey : b.name ∈ Dict.keys acc := by rw [hk]; exact List.mem_map.2 ⟨_, hb, rfl⟩
      cases hg : Dict.get? acc b.name with
      | none => exact absurd hkey ((Dict.get?_none_iff _ _).1 hg)
      | some y => rw [view_get hg, hview b k (by rw [hc]; simp [hb]) hkb y (hag _ _ hg)]
    rcases hout with ⟨h3, rfl, rfl⟩ | ⟨h3, bs, hcons, hre⟩
    · refine ⟨(f, []) :: es, by simp [he1], by simpa using he2, ?_⟩
      intro e he
      rcases List.mem_cons.1 he with rfl | he
      · exact Or.inl ⟨by rw [hgot, hf.omitted], rfl, ⟨_, _, _, h3⟩, fun view c s hview => by rw [← h3]; exact hdepends view c s _ hview⟩
      · exact he3 e he
    · refine ⟨(f, bs) :: es, by simp [he1], by simpa using hcons.trans he2, ?_⟩
      intro e he
      rcases List.mem_cons.1 he with rfl | he
      · refine Or.inr ⟨v, hgot, hre.mono hag (fun g hg => by rw [hc]; exact List.mem_append_left _ hg), fun hdis => ?_,
          fun view c s hview => by rw [← h3]; exact hdepends view c s _ hview⟩
        rcases hf.kept with h4 | h4
        · have hdis' : f.base.discard = true := hdis
          rw [h4] at hdis'; simp at hdis'
        · exact hmagic _ _ _ _ _ _ hf.kind h4 hcs h3 h1
      · exact he3 e he

/-- A constant that was loaded is the constant. -/
theorem magic_loaded {Γ : Classes} {ctx : Value} {n : Nat} {pre : List Field} {f : Field} {s s' : Stream} {loaded : Dict} {v : Value}
    (hcan : Canonical Γ pre f) (hm : Magic f) (hcs : Counts pre loaded) (hp : f.base.present loaded.view ctx (some s) = .ok true)
    (h : fieldFromStream Γ n f s ctx loaded = (.ok v, s')) : v = f.base.dflt := by
  obtain ⟨b, k, c, rfl, h1, h2, h3, h4, h5⟩ := hm
  show v = b.dflt
  rw [h2]
  cases n with
  | zero => simp [fieldFromStream] at h
  | succ n =>
  rw [fieldFromStream] at h
  have hnull : b.allowNull = false := allowNull_false h4
  rcases fromStreamWith_ok h with ⟨h6, -⟩ | ⟨-, -, ⟨h6, -⟩ | ⟨w, h6, h7⟩⟩
  · rw [hp] at h6; simp at h6
  · have h6' : b.allowNull = true := h6
    rw [hnull] at h6'; simp at h6'
  · obtain ⟨h8, -, h9, -⟩ := finishLoad_ok h7
    have hvw : v = w := by
      rcases h8 with h8 | ⟨-, h8, -⟩
      · exact h8
      · have h8' : b.allowNull = true := h8
        rw [hnull] at h8'; simp at h8'
    subst hvw
    cases n with
    | zero => simp [fieldDoLoad] at h6
    | succ n =>
      simp only [fieldDoLoad] at h6
      obtain ⟨bs, -, -, ⟨-, -, -, -, m5⟩, -⟩ := leaf_canonical hcan hcs h6
      have hc : c ≠ .undefined ∧ NoStruct c := by
        rcases h5 with ⟨x, rfl⟩ | ⟨x, rfl⟩ | ⟨x, sg, en, rfl, -⟩ <;> exact ⟨by simp, by constructor⟩
      have h10 : pyEq Γ (n + 1) v c = .ok true := by
        have := h9 (by show b.const ≠ _; rw [h1]; exact hc.1)
        have e : (Field.leaf b k).base.const = c := h1
        rw [e] at this; exact this
      rw [pyEq_scalar m5.1 hc.2 (fun x _ hx => absurd hx (m5.2.1 x)) (fun x _ hx => absurd hx (m5.2.2 x))] at h10
      simp only [Except.ok.injEq] at h10
      rcases h5 with ⟨x, rfl⟩ | ⟨x, rfl⟩ | ⟨x, sg, en, rfl, rfl⟩
      · cases v <;> simp_all [scalarEq]
      · cases v <;> simp_all [scalarEq]
      · have hv : ∃ m : Int, v = .int m := by
          simp only [leafLoad] at h6
          split at h6
          · generalize readInt s _ sg en = x at h6
            obtain ⟨e, t⟩ := x
            cases e with
            | error e => simp [R.map, Except.map] at h6
            | ok a => simp [R.map, Except.map] at h6; exact ⟨a, h6.1.symm⟩
          · simp at h6
        obtain ⟨m, rfl⟩ := hv
        simp_all [scalarEq]

theorem fieldFromStream_cases {Γ : Classes} {n : Nat} {f : Field} {s s' : Stream} {ctx v : Value} {loaded : Dict}
    (h : fieldFromStream Γ (n + 1) f s ctx loaded = (.ok v, s')) :
    (f.base.present loaded.view ctx (some s) = .ok false ∧ v = f.base.notPresentValue ∧ s' = s) ∨
    (f.base.present loaded.view ctx (some s) = .ok true ∧ Accepts f v ∧
      ((f.base.nullValue ≠ .undefined ∧ v = .none ∧ ∃ repr, fieldNullRepr Γ n f loaded = .ok repr ∧ Consumed s s' repr) ∨
       fieldDoLoad Γ n f s ctx loaded = (.ok v, s') ∨
       (f.base.nullValue ≠ .undefined ∧ v = .none ∧ ∃ w, fieldDoLoad Γ n f s ctx loaded = (.ok w, s') ∧
          pyEq Γ n w f.base.nullValue = .ok true))) := by
  rw [fieldFromStream] at h
  have hnull : f.base.allowNull = true → f.base.nullValue ≠ .undefined := by
    intro h1 h2; rw [allowNull_false h2] at h1; simp at h1
  rcases fromStreamWith_ok h with h1 | ⟨h1, h2, ⟨h3, h4, repr, h5, h6, rfl⟩ | ⟨w, h3, h4⟩⟩
  · exact Or.inl h1
  · refine Or.inr ⟨h1, h2, Or.inl ⟨hnull h3, h4, repr, h5, ?_⟩⟩
    exact consumed_of_prefix (rest := s.rest.drop repr.length) (by
      conv_lhs => rw [← List.take_append_drop repr.length s.rest, h6])
  · refine Or.inr ⟨h1, h2, Or.inr ?_⟩
    rcases (finishLoad_ok h4).1 with rfl | ⟨h5, h6, h7⟩
    · exact Or.inl h3
    · exact Or.inr ⟨hnull h6, h5, w, h3, h7⟩

theorem fieldToStream_null {Γ : Classes} {b : FieldBase} {k : Leaf} {ctx : Value} {all : Dict} {repr : Bytes} (hacc : Accepts (.leaf b k) .none)
    (h : leafNullRepr b k all = .ok repr) : fieldToStream Γ 1 (.leaf b k) .none ctx all = (repr, .ok ()) := by
  rw [fieldToStream_succ]
  simp only [toStreamWith, fieldNullRepr, h]
  have := (runValidators_ok_iff _ _).2 hacc
  simp [this, W.ofExcept, W.ok]

/-- Loading and dumping again, for fields and structs. -/
theorem canonical_redumps {Γ : Classes} (hΓ : ∀ c d, Γ c = some d → CanonicalClass Γ d) (ctx : Value) (n : Nat) :
    (∀ pre f s s' loaded v, Canonical Γ pre f → NullSafe f → Counts pre loaded → Held pre loaded →
      fieldFromStream Γ n f s ctx loaded = (.ok v, s') → Outcome Γ ctx pre loaded f s s' v) ∧
    (∀ d s s' r, CanonicalClass Γ d → structFromStream Γ n d s ctx [] = (.ok r, s') →
      ∃ bs, Consumed s s' bs ∧ StructRedumps Γ ctx d r bs) ∧
    (∀ pre f s s' loaded v, Canonical Γ pre f → Accepts f v → Counts pre loaded → Held pre loaded →
      fieldDoLoad Γ n f s ctx loaded = (.ok v, s') → v ≠ .none ∧ ∃ bs, Consumed s s' bs ∧ Redumps Γ ctx pre loaded f v bs) := by
  induction n using Nat.strongRecOn with
  | _ n IH =>
    cases n with
    | zero => exact ⟨fun _ _ _ _ _ _ _ _ _ _ h => by simp [fieldFromStream] at h, fun _ _ _ _ _ h => by simp [structFromStream] at h,
        fun _ _ _ _ _ _ _ _ _ _ h => by simp [fieldDoLoad] at h⟩
    | succ n =>
      refine ⟨fun pre f s s' loaded v hcan hnull hcs hheld h => ?_, fun d s s' r hd h => ?_, fun pre f s s' loaded v hcan hacc hcs hheld hload => ?_⟩
      · rcases fieldFromStream_cases h with hout | ⟨hpres, hacc, hcases⟩
        · exact Or.inl hout
        refine Or.inr ⟨hpres, ?_⟩
        clear h
        -- the ways in which `None` is loaded
        have hnone : ∀ {b : FieldBase} {k : Leaf} {repr : Bytes}, f = .leaf b k → b.nullValue ≠ .undefined → v = .none →
            (∀ values, leafNullRepr b k values = .ok repr) → Consumed s s' repr → ∃ bs, Consumed s s' bs ∧ Redumps Γ ctx pre loaded f v bs := by
          rintro b k repr rfl hne rfl hr hcons
          exact ⟨repr, hcons, ⟨by simp, fun h => absurd h hne, fun h => absurd h hne, fun _ _ _ => ⟨by constructor, by simp, by simp⟩,
            1, .none, rfl, .same _, fun all _ => ⟨1, fieldToStream_null hacc (hr all)⟩⟩⟩
        have hload : (∃ bs, Consumed s s' bs ∧ Redumps Γ ctx pre loaded f v bs) ∨ fieldDoLoad Γ n f s ctx loaded = (.ok v, s') := by
          rcases hcases with ⟨h1, h2, repr, h3, h4⟩ | h1 | ⟨h1, h2, w, h3, h4⟩
          · rcases hnull with h5 | ⟨b, k, rfl, -, repr', h6, -⟩
            · exact absurd h5 h1
            · have h3' : leafNullRepr b k loaded = .ok repr := h3
              rw [h6] at h3'; cases h3'
              exact Or.inl (hnone rfl h1 h2 h6 h4)
          · exact Or.inr h1
          · rcases hnull with h5 | ⟨b, k, rfl, h5, repr', h6, h7⟩
            · exact absurd h5 h1
            · left
              cases n with
              | zero => simp [fieldDoLoad] at h3
              | succ n =>
                simp only [fieldDoLoad] at h3
                obtain ⟨bs, h8, -, ⟨-, -, -, -, m5⟩, -, h9⟩ := leaf_canonical hcan hcs h3
                have h10 := (h9 loaded fun r _ k hk => hk).1
                have h11 : pyEq Γ (n + 1) w b.nullValue = .ok (scalarEq w b.nullValue) := pyEq_scalar m5.1 h5
                  (fun x _ hx => absurd hx (m5.2.1 x)) (fun x _ hx => absurd hx (m5.2.2 x))
                have h4' : pyEq Γ (n + 1) w b.nullValue = .ok true := h4
                rw [h11] at h4'
                simp only [Except.ok.injEq] at h4'
                have := h7 w s ctx loaded s' ctx loaded bs h3 h4' h10
                subst this
                exact hnone rfl h1 h2 h6 h8
        rcases hload with hdone | hload
        · exact hdone
        exact ((IH n (by omega)).2.2 _ _ _ _ _ _ hcan hacc hcs hheld hload).2
      · obtain ⟨results, h1, h2, h3⟩ := structFromStream_ok_iff.1 h
        obtain ⟨hval, rfl⟩ := h3
        obtain ⟨es, h4, h5, h6⟩ := fields_redump (done := []) hd (IH n (by omega)).1 (fun _ _ _ _ _ _ => magic_loaded) h1 rfl rfl (by rintro r ⟨b, en, hb, -⟩; simp at hb)
        refine ⟨_, h5, struct_redumps hd ⟨h1.nodup .nil, h2⟩ hval h4 h6⟩
      · have IHn := IH n (by omega)
        -- structs, as nested fields and choices of unions load them
        have hstruct : ∀ {cls : String} {v : Value}, loadStruct Γ (fun d s ctx => structFromStream Γ n d s ctx []) cls s ctx = (.ok v, s') →
            ∃ d r bs m inner, Γ cls = some d ∧ v = .struct cls r ∧ Consumed s s' bs ∧
              (∀ b k, Extent Γ (.nested b cls) k → bs.length = k) ∧ recursiveToDicts Γ (m + 1) (.struct cls r) = .ok (.dict inner) ∧
              Stands (.struct cls r) (.dict inner) ∧ dumpNew Γ (structToStream Γ m) cls inner ctx = (bs, .ok ()) := by
          intro cls v hload
          simp only [loadStruct] at hload
          cases hc : Γ cls with
          | none => simp [hc] at hload
          | some d =>
            simp only [hc] at hload
            have hl : ∃ r, structFromStream Γ n d s ctx [] = (.ok r, s') ∧ v = .struct cls r := by
              generalize structFromStream Γ n d s ctx [] = x at hload
              obtain ⟨e, t⟩ := x
              cases e with
              | error e => simp [R.map, Except.map] at hload
              | ok l => simp [R.map, Except.map] at hload; exact ⟨l, by simp [hload.2], hload.1.symm⟩
            obtain ⟨r, hl, rfl⟩ := hl
            obtain ⟨bs, h1, hext', m, inner, h2, h3, hgone, h4, h5, h6⟩ := IHn.2.1 _ _ _ _ (hΓ cls d hc) hl
            refine ⟨d, r, bs, m, inner, rfl, rfl, h1, fun b k hk => ?_, ?_, ?_, ?_⟩
            · cases hk with
              | nested hd' hal hlen hns =>
                rw [hc] at hd'; cases hd'
                exact hext' hal _ hlen hns
            · simp only [structToDict] at h2
              simp only [recursiveToDicts, hc]
              split at h2
              · simp at h2
              · rw [h2]; rfl
            · have hname : ∀ k y, Dict.get? inner k = some y → ∃ x, Dict.get? r k = some x ∧ Stands x y := by
                intro k y hy
                obtain ⟨f, hf, rfl⟩ := List.mem_map.1 (h3.2 k (Dict.get?_some_key hy))
                cases hk : f.base.discard with
                | true => rw [hgone f hf hk] at hy; simp at hy
                | false =>
                  obtain ⟨v, w, h7, h8, h9⟩ := h4 f hf hk
                  rw [hy] at h8; cases h8
                  exact ⟨v, h7, h9⟩
              refine .struct (fun k hk => ?_) (fun k x y hx hy => ?_)
              · cases hy : Dict.get? inner k with
                | none => exact absurd hy hk
                | some y =>
                  obtain ⟨x, hx, -⟩ := hname k y hy
                  simp [hx]
              · obtain ⟨x', hx', h7⟩ := hname k y hy
                rw [hx] at hx'; cases hx'; exact h7
            · simp only [dumpNew, hc, structInit_ok_iff.2 ⟨rfl, h3.2⟩]
              exact h6
        cases f with
        | leaf b k =>
          simp only [fieldDoLoad] at hload
          obtain ⟨bs, h1, h2, ⟨m1, m2, m3, m4, m5⟩, h3, h4⟩ := leaf_canonical hcan hcs hload
          refine ⟨m1, bs, h1, ⟨m2, m3, m4⟩, ?_, ?_, fun _ _ _ => m5, 1, v, m5.toDicts 0, .same _, fun all hag => ⟨1, ?_⟩⟩
          · intro _ k hk; cases hk; exact h2 _ (by assumption)
          · intro _ b' en he; cases he; exact h3 en rfl
          · obtain ⟨h5, h6⟩ := h4 all hag.agreeOn
            rw [fieldToStream_succ, toStreamWith_plain m2 m3 m1 hacc]
            simp only [fieldDoDump, h5, W.toExcept]
            exact h6
        | array b comp count halt =>
          cases hcan with
          | array hv hsz hcount hpc hnc hcomp =>
            rw [fieldDoLoad_array] at hload
            have hl : ∃ l, arrayLoop (haltCheck b.name count none ctx loaded) (fun s => fieldFromStream Γ n comp s ctx loaded) n [] s =
                (.ok l, s') ∧ v = .list l := by
              generalize arrayLoop _ _ _ _ _ = x at hload
              obtain ⟨e, t⟩ := x
              cases e with
              | error e => simp [R.map, Except.map] at hload
              | ok l => simp [R.map, Except.map] at hload; exact ⟨l, by simp [hload.2], hload.1.symm⟩
            obtain ⟨l, hl, rfl⟩ := hl
            obtain ⟨k, hk⟩ : ∃ k : Nat, CountIs count loaded k := by
              rcases hcount with ⟨k, rfl⟩ | ⟨r, hr, hne, rfl⟩
              · exact ⟨k, Or.inl rfl⟩
              · obtain ⟨k, hk⟩ := hcs r hr
                exact ⟨k, Or.inr ⟨r, rfl, hne, hk⟩⟩
            have hlen := arrayLoop_count hk hl (by simp)
            obtain ⟨es, hes, hcons, hel⟩ := arrayLoop_consumed (P := fun v p => Redumps Γ ctx pre loaded comp v p) haltCheck_keeps (by
              intro s v t hst
              rcases IHn.1 _ _ _ _ _ _ hcomp hnc hcs hheld hst with ⟨h1, -⟩ | ⟨-, p, h1, h2⟩
              · rw [hpc] at h1; simp at h1
              · exact ⟨p, h1, h2.marks.2.2, h2⟩) hl
            simp only [List.nil_append] at hes
            subst hes
            have hek : es.length = k := by simp at hlen; omega
            have hext : ∀ k, Extent Γ (.array b comp count none) k → (es.map Prod.snd).flatten.length = k := by
              intro k hk'
              cases hk' with
              | @array _ _ c n' hnn he =>
                have : (c : Int) = k := by
                  rcases hk with hk | ⟨r, hk, -⟩
                  · cases hk; rfl
                  · cases hk
                rw [flatten_length_const (n := n') fun e he' => (hel e he').extent hnn _ he]
                congr 1; omega
            have : ∀ e ∈ es, ∃ q : Nat × Value, recursiveToDicts Γ q.1 e.1 = .ok q.2 ∧ Stands e.1 q.2 ∧
                ∀ all, LeavesKept pre loaded all → ∃ k, fieldToStream Γ k comp q.2 ctx all = (e.2, .ok ()) := by
              intro e he
              obtain ⟨m, w, h1⟩ := (hel e he).dumps
              exact ⟨(m, w), h1⟩
            obtain ⟨g, hg⟩ := exists_fun_of_mem this
            obtain ⟨M, hM⟩ := common_fuel (l := es) (P := fun n e => recursiveToDicts Γ n e.1 = .ok (g e).2)
              (fun hle h => recursiveToDicts_of_le hle h) (fun e he => ⟨(g e).1, (hg e he).1⟩)
            have hst : Stands (.list (es.map Prod.fst)) (.list (es.map fun e => (g e).2)) := by
              refine .list (by simp) fun i x y hx hy => ?_
              simp only [List.getElem?_map, Option.map_eq_some_iff] at hx hy
              obtain ⟨e, he, rfl⟩ := hx
              obtain ⟨e', he', rfl⟩ := hy
              rw [he] at he'; cases he'
              exact (hg e (List.mem_of_getElem? he)).2.1
            refine ⟨by simp, _, hcons, ⟨by simp, by simp, by simp⟩, fun _ => hext, by simp, by simp, M + 1, .list (es.map fun e => (g e).2), ?_, hst, ?_⟩
            · simp only [recursiveToDicts]
              rw [mapE_zip (g := fun e => (g e).2) hM]; rfl
            · intro all hkept
              obtain ⟨K, hK⟩ := common_fuel (l := es) (P := fun n e => fieldToStream Γ n comp (g e).2 ctx all = (e.2, .ok ()))
                (fun hle h => fieldToStream_of_le hle h) (fun e he => (hg e he).2.2 all hkept)
              refine ⟨K + 1, fieldToStream_plain (by simp) (by simp) (by simp) (hv _ _ hst hacc)
                (sizeRight_declared hsz hext all) ?_⟩
              have hk' : CountIs count all k := by
                rcases hk with hk | ⟨r, hk, hne, hr⟩
                · exact Or.inl hk
                · refine Or.inr ⟨r, hk, hne, hkept.agreeOn r ?_ k hr⟩
                  rcases hcount with ⟨k', h4⟩ | ⟨r', h4, -, h5⟩
                  · rw [h4] at hk; simp at hk
                  · rw [h5] at hk; cases hk; exact h4
              simp only [fieldDoDump, containerDump, arrayDump, finalElementCount_of hk', arrayElements]
              rw [if_neg (by simp [hek])]
              exact dumpAll_zip hK
        | nested b cls =>
          cases hcan with
          | nested hv hsz =>
            simp only [fieldDoLoad, containerLoad] at hload
            obtain ⟨d, r, bs, m, inner, hc, rfl, h1, hext, h2, hst, h3⟩ := hstruct hload
            refine ⟨by simp, bs, h1, ⟨by simp, by simp, by simp⟩, fun _ => hext b, by simp, by simp, m + 1, .dict inner, h2, hst, ?_⟩
            intro all _
            refine ⟨m + 1, fieldToStream_plain (by simp) (by simp) (by simp) (hv _ _ hst hacc) (sizeRight_declared hsz (hext b) all) ?_⟩
            simp only [fieldDoDump, containerDump]
            exact h3
        | union b choices ld dd =>
          cases hcan with
          | union hv hsz hrefs hdec hch hcan =>
            simp only [fieldDoLoad, containerLoad] at hload
            cases hi : ld s ctx loaded with
            | error e => simp [hi] at hload
            | ok i =>
              simp only [hi] at hload
              -- dumping takes the same choice
              have hsame : ∀ w all, LeavesKept pre loaded all → dd w ctx all = .ok i := by
                intro w all hk
                rw [← hi]
                refine (hdec _ _ _ _ _ _ fun r hr => ?_).symm
                obtain ⟨bb, k, hb, rfl, hkb⟩ := hrefs r hr
                cases hg : Dict.get? loaded bb.name with
                | none => exact absurd hg (hheld _ hb)
                | some x => exact (hk bb k x hb hkb hg).symm
              cases hgi : choices[i]? with
              | none => simp [hgi] at hload
              | some c =>
                simp only [hgi] at hload
                cases c with
                | inl g =>
                  have hmem := List.mem_of_getElem? hgi
                  obtain ⟨hne, bs, h1, ⟨hm1, hm2, hm3⟩, -, -, -, m, w, h2, hst, h3⟩ := IHn.2.2 _ _ _ _ _ _ (hcan g hmem)
                    (by intro c hc; rw [(hch g hmem).2] at hc; simp at hc) hcs hheld hload
                  refine ⟨hne, bs, h1, ⟨hm1, hm2, hm3⟩, (fun _ k hk => nomatch hk), by simp, by simp, m, w, h2, hst, fun all hk => ?_⟩
                  obtain ⟨k, h4⟩ := h3 all hk
                  have hmk := recursiveToDicts_marker h2
                  refine ⟨k + 1, fieldToStream_plain (fun h => hm1 (hmk.2.2.2 h)) (fun h => hm2 (hmk.2.1 h)) (fun h => hne (hmk.2.2.1.1 h))
                    (hv _ _ hst hacc) (Or.inl hsz) ?_⟩
                  simp only [fieldDoDump, containerDump, hsame w all hk, hgi]
                  exact h4
                | inr cls =>
                  obtain ⟨d, r, bs, m, inner, hc, rfl, h1, -, h2, hst, h3⟩ := hstruct hload
                  refine ⟨by simp, bs, h1, ⟨by simp, by simp, by simp⟩, (fun _ k hk => nomatch hk), by simp, by simp, m + 1, .dict inner, h2, hst, ?_⟩
                  intro all hk
                  refine ⟨m + 1, fieldToStream_plain (by simp) (by simp) (by simp) (hv _ _ hst hacc) (Or.inl hsz) ?_⟩
                  simp only [fieldDoDump, containerDump, hsame _ all hk, hgi]
                  exact h3

end Verif
