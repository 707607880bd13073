import Verif.Spec.Chunks
import Verif.Props.Resave
import Verif.Props.OptionalRecords
import Verif.Props.Convert
import Verif.Props.Tagged

/-!
# C118: a program that does not know a chunk passes it on unchanged
-/

namespace Verif
open Verif.Spec

/-- A value that was given to a field that is always there and kept is in the dictionary. -/
theorem toDict_carried {Γ : Classes} {n : Nat} {d : StructDesc} {vals all : Dict} (hd : UniqueNames d) (hi : Instance d vals)
    {k : String} (hk : Carried d k) {w : Value} (hw : Dict.get? vals k = some w) (hu : w ≠ .undefined) (hns : NoStruct w)
    (h : structToDict Γ n d vals = .ok all) : Dict.get? all k = some w := by
  obtain ⟨f, hf, rfl, hdis, hp⟩ := hk
  obtain ⟨-, -, h3⟩ := structToDict_get hd hi h
  rcases h3 f hf with ⟨-, hx, -⟩ | ⟨-, v, w', hv, hrec, hg⟩
  · rw [hdis] at hx; simp at hx
  · have hc : f.base.computeValueForDump (structView d vals) .none = .ok w := by
      refine compute_set (hp _ _ _) ?_ ?_ hu
      · exact (structContains_iff hi.1).2 ⟨w, hw, hu⟩
      · exact structGetItem_some (List.mem_map.2 ⟨f, hf, rfl⟩) hw
    have hvw : v = w := by
      rcases hv with hv | ⟨e, hv, -⟩
      · rw [hc] at hv; cases hv; rfl
      · rw [hc] at hv; cases hv
    subst hvw
    rw [hg, (recursiveToDicts_spec hrec).2 hns]

theorem Spec.Tagged.Sound.plain {Γ : Classes} {F : ChunkFormat} {i : Tagged} (h : i.Sound Γ F) : i.tag ≠ .undefined ∧ NoStruct i.tag ∧ DictFree i.tag := by
  rcases h.tag with ⟨k, hk⟩ | ⟨k, hk⟩ | ⟨k, hk⟩ <;> rw [hk] <;>
    exact ⟨by simp, by constructor, .scalar (by simp) (by simp)⟩

/-- One envelope: what is read from it. -/
theorem envelope_read {Γ : Classes} (hΓ : ∀ c d, Γ c = some d → OptionalSchema Γ d) {F : ChunkFormat} (hF : F.Sound Γ) {n : Nat} {ctx : Value}
    {i : Tagged} (hi : i.Sound Γ F) {x bs : Bytes} (h : putBody Γ (n + 1) F ctx i.tag x = (bs, .ok ())) :
    ∃ m r, structGetItem F.envelope r F.tag = .ok i.tag ∧ structGetItem F.envelope r F.body = .ok (.bytes x) ∧
      ∀ pre rest, structFromStream Γ m F.envelope ⟨pre ++ bs ++ rest, pre.length⟩ ctx [] =
        (.ok r, ⟨pre ++ bs ++ rest, pre.length + bs.length⟩) := by
  obtain ⟨hu, hns, hdf⟩ := hi.plain
  have hb := hi.suits x
  obtain ⟨all, m, r, h1, h2, -, h4⟩ := C26_optional_round_trip Γ hΓ n F.envelope _ ctx bs hF.schema hb h
  have hne : F.tag ≠ F.body := by
    intro he
    have := hb.inst.1
    simp [Dict.keys, he] at this
  have get : ∀ k w, Carried F.envelope k → Dict.get? [(F.tag, i.tag), (F.body, .bytes x)] k = some w → w ≠ .undefined → NoStruct w → DictFree w →
      structGetItem F.envelope r k = .ok w := by
    intro k w hk hw hu hns hdf
    have h5 := toDict_carried hF.schema.unique hb.inst hk hw hu hns h1
    obtain ⟨f, hf, rfl, hdis, -⟩ := hk
    obtain ⟨v, w', h6, h7, h8, -⟩ := h2 f hf hdis
    rw [h5] at h6
    cases h6
    rw [h8.dictFree hdf] at h7
    exact structGetItem_some (List.mem_map.2 ⟨f, hf, rfl⟩) h7
  refine ⟨m, r, get _ _ hF.tag (by simp [Dict.get?]) hu hns hdf, ?_, h4⟩
  have hb2 : (F.body == F.tag) = false := by simpa using Ne.symm hne
  exact get _ _ hF.body (by simp [Dict.get?, List.lookup_cons, hb2]) (by simp) (.bytes x) (.scalar (by simp) (by simp))

theorem structToBytes_ok {Γ : Classes} {n : Nat} {d : StructDesc} {vals : Dict} {ctx : Value} {x : Bytes} :
    structToBytes Γ n d vals ctx = .ok x ↔ structToStream Γ n d vals ctx = (x, .ok ()) := by
  unfold structToBytes W.toExcept
  rcases structToStream Γ n d vals ctx with ⟨y, r | u⟩
  · simp
  · simp

/-- One chunk: what is read from it, and that writing it back gives the same bytes. -/
theorem chunk_read {Γ : Classes} (hΓ : ∀ c d, Γ c = some d → OptionalSchema Γ d) {F : ChunkFormat} (hF : F.Sound Γ) {n : Nat} {ctx : Value}
    {table : Value → Option StructDesc} {i : Tagged} (hi : i.Sound Γ F) (ht : table i.tag = none ∨ table i.tag = some i.cls) {bs : Bytes}
    (h : putChunk Γ (n + 1) F ctx i = (bs, .ok ())) :
    ∃ m c, ReadAs Γ n ctx table i c ∧ ∀ m', m ≤ m' →
      (∀ pre rest, getChunk Γ m' F table ctx ⟨pre ++ bs ++ rest, pre.length⟩ = (.ok c, ⟨pre ++ bs ++ rest, pre.length + bs.length⟩)) ∧
      putBack Γ m' F ctx c = (bs, .ok ()) := by
  unfold putChunk at h
  cases hx : structToBytes Γ (n + 1) i.cls i.vals ctx with
  | error e => simp [hx, W.fail] at h
  | ok x =>
    rw [hx] at h
    simp only at h
    have hx' := structToBytes_ok.1 hx
    obtain ⟨m1, r, h1, h2, h3⟩ := envelope_read hΓ hF hi h
    have henv : ∀ m', m1 ≤ m' → ∀ pre rest, getChunk Γ m' F table ctx ⟨pre ++ bs ++ rest, pre.length⟩ =
        (match table i.tag with
          | none => (.ok (.unknown i.tag x), ⟨pre ++ bs ++ rest, pre.length + bs.length⟩)
          | some d => ((structFromBytes Γ m' d x ctx true []).map (Chunk.known i.tag d), ⟨pre ++ bs ++ rest, pre.length + bs.length⟩)) := by
      intro m' hm pre rest
      unfold getChunk
      rw [structFromStream_of_le hm (h3 pre rest)]
      simp only [h1, h2]
      cases table i.tag <;> rfl
    have hput : ∀ m', n + 1 ≤ m' → putBody Γ m' F ctx i.tag x = (bs, .ok ()) := fun m' hm => structToStream_of_le hm h
    rcases ht with ht | ht
    · refine ⟨max m1 (n + 1), .unknown i.tag x, ⟨ht, rfl, hx'⟩, fun m' hm => ⟨fun pre rest => ?_, hput m' (by omega)⟩⟩
      rw [henv m' (by omega), ht]
    · obtain ⟨all, m2, r2, g1, g2, g3, g4⟩ := C26_optional_round_trip Γ hΓ n i.cls i.vals ctx x hi.schema hi.values hx'
      obtain ⟨m3, r3, k1, k2⟩ := C80_resave Γ hΓ n i.cls i.vals ctx x hi.schema hi.values hx'
      have hr : r3 = r2 := by
        have e1 := structFromStream_of_le (Nat.le_max_left m2 m3) (g4 [] [])
        have e2 := structFromStream_of_le (Nat.le_max_right m2 m3) (k1 [] [])
        rw [e1] at e2
        simp only [Prod.mk.injEq, Except.ok.injEq] at e2
        exact e2.1.symm
      subst hr
      refine ⟨max (max m1 (n + 1)) (max m2 m3), .known i.tag i.cls r3, ⟨ht, rfl, rfl, all, g1, ?_, g3⟩, fun m' hm => ⟨fun pre rest => ?_, ?_⟩⟩
      · intro f hf hk
        obtain ⟨v, w, a1, a2, a3, -⟩ := g2 f hf hk
        exact ⟨v, w, a1, a2, a3⟩
      · rw [henv m' (by omega), ht]
        have := structFromStream_of_le (show m2 ≤ m' by omega) (g4 [] [])
        simp only [List.nil_append, List.append_nil, List.length_nil, Nat.zero_add] at this
        simp only [structFromBytes, this, Stream.tell]
        rw [if_neg (by omega)]
        rfl
      · simp only [putBack, putChunk, structToBytes_ok.2 (structToStream_of_le (show m3 ≤ m' by omega) k2)]
        exact hput m' (by omega)

/-- **C118** A file of chunks is read by a program that knows some of the tags: it gets, in order, the structs of these, and the others as the bytes that
were written; all the bytes are read.  Written back, the file is the same. -/
theorem C118_read (Γ : Classes) (hΓ : ∀ c d, Γ c = some d → OptionalSchema Γ d) (F : ChunkFormat) (hF : F.Sound Γ) (n : Nat) (ctx : Value)
    (table : Value → Option StructDesc) (items : List Tagged) (hi : ∀ i ∈ items, i.Sound Γ F)
    (ht : ∀ i ∈ items, table i.tag = none ∨ table i.tag = some i.cls) (bs : Bytes) (h : putAll (putChunk Γ (n + 1) F ctx) items = (bs, .ok ())) :
    ∃ m out, AllReadAs Γ n ctx table items out ∧ ∀ m', m ≤ m' →
      (∀ pre rest, getChunks Γ m' F table ctx items.length ⟨pre ++ bs ++ rest, pre.length⟩ =
        (.ok out, ⟨pre ++ bs ++ rest, pre.length + bs.length⟩)) ∧
      putAll (putBack Γ m' F ctx) out = (bs, .ok ()) := by
  induction items generalizing bs with
  | nil =>
    simp only [putAll, W.ok, Prod.mk.injEq, and_true] at h
    subst h
    exact ⟨0, [], .nil, fun m' _ => ⟨by simp [getChunks], rfl⟩⟩
  | cons i items ih =>
    simp only [putAll] at h
    obtain ⟨x, y, h1, h2, rfl⟩ := W.seq_ok h
    obtain ⟨m1, c, r1, k1⟩ := chunk_read hΓ hF (hi i List.mem_cons_self) (ht i List.mem_cons_self) h1
    obtain ⟨m2, out, r2, k2⟩ := ih (fun j hj => hi j (List.mem_cons_of_mem _ hj)) (fun j hj => ht j (List.mem_cons_of_mem _ hj)) y h2
    refine ⟨max m1 m2, c :: out, .cons r1 r2, fun m' hm => ⟨fun pre rest => ?_, ?_⟩⟩
    · have a1 := (k1 m' (by omega)).1 pre (y ++ rest)
      have a2 := (k2 m' (by omega)).1 (pre ++ x) rest
      simp only [List.append_assoc, List.length_append] at a1 a2 ⊢
      simp only [List.length_cons, getChunks, a1, a2, R.map, Except.map, Nat.add_assoc]
    · simp only [putAll, (k1 m' (by omega)).2, W.seq]
      rw [(k2 m' (by omega)).2]

/-- What is written piece by piece. -/
theorem putAll_pieces {α : Type} {put : α → W} {l : List α} {bs : Bytes} (h : putAll put l = (bs, .ok ())) :
    ∃ ps : List Bytes, bs = ps.flatten ∧ ps.length = l.length ∧ ∀ (j : Nat) (a : α), l[j]? = some a → ∃ p, ps[j]? = some p ∧ put a = (p, .ok ()) := by
  induction l generalizing bs with
  | nil =>
    simp only [putAll, W.ok, Prod.mk.injEq, and_true] at h
    exact ⟨[], by simp [← h], rfl, by simp⟩
  | cons a l ih =>
    simp only [putAll] at h
    obtain ⟨x, y, h1, h2, rfl⟩ := W.seq_ok h
    obtain ⟨ps, rfl, h4, h5⟩ := ih h2
    refine ⟨x :: ps, by simp, by simp [h4], fun j b hb => ?_⟩
    cases j with
    | zero => simp only [List.getElem?_cons_zero, Option.some.injEq] at hb; subst hb; exact ⟨x, rfl, h1⟩
    | succ j => simp only [List.getElem?_cons_succ] at hb ⊢; exact h5 j b hb

theorem Spec.AllReadAs.at {Γ : Classes} {n : Nat} {ctx : Value} {table : Value → Option StructDesc} {items : List Tagged} {out : List Chunk}
    (h : AllReadAs Γ n ctx table items out) {j : Nat} {i : Tagged} (hj : items[j]? = some i) : ∃ c, out[j]? = some c ∧ ReadAs Γ n ctx table i c := by
  induction h generalizing j with
  | nil => simp at hj
  | cons h1 _ ih =>
    cases j with
    | zero => simp only [List.getElem?_cons_zero, Option.some.injEq] at hj; subst hj; exact ⟨_, rfl, h1⟩
    | succ j => simp only [List.getElem?_cons_succ] at hj ⊢; exact ih hj

theorem Spec.AllReadAs.length {Γ : Classes} {n : Nat} {ctx : Value} {table : Value → Option StructDesc} {items : List Tagged} {out : List Chunk}
    (h : AllReadAs Γ n ctx table items out) : out.length = items.length := by
  induction h with
  | nil => rfl
  | cons _ _ ih => simp [ih]

/-- **C118** The program changes what it knows, in whatever way, and leaves the rest alone; then it writes the file anew.  The chunks it does not know have
the same bytes in the new file as in the old one, at their places in the sequence. -/
theorem C118_edit (Γ : Classes) (hΓ : ∀ c d, Γ c = some d → OptionalSchema Γ d) (F : ChunkFormat) (hF : F.Sound Γ) (n : Nat) (ctx : Value)
    (table : Value → Option StructDesc) (items : List Tagged) (hi : ∀ i ∈ items, i.Sound Γ F)
    (ht : ∀ i ∈ items, table i.tag = none ∨ table i.tag = some i.cls) (bs : Bytes) (h : putAll (putChunk Γ (n + 1) F ctx) items = (bs, .ok ()))
    (edit : Chunk → Chunk) (hedit : ∀ t x, edit (.unknown t x) = .unknown t x) :
    ∃ m out, (∀ m', m ≤ m' → ∀ pre rest, getChunks Γ m' F table ctx items.length ⟨pre ++ bs ++ rest, pre.length⟩ =
        (.ok out, ⟨pre ++ bs ++ rest, pre.length + bs.length⟩)) ∧
      ∀ m' new, m ≤ m' → putAll (putBack Γ m' F ctx) (out.map edit) = (new, .ok ()) →
        ∃ ps ps' : List Bytes, bs = ps.flatten ∧ new = ps'.flatten ∧ ps.length = items.length ∧ ps'.length = items.length ∧
          ∀ (j : Nat) (i : Tagged), items[j]? = some i → table i.tag = none → ps'[j]? = ps[j]? := by
  obtain ⟨m, out, h1, h2⟩ := C118_read Γ hΓ F hF n ctx table items hi ht bs h
  refine ⟨m, out, fun m' hm => (h2 m' hm).1, fun m' new hm hnew => ?_⟩
  obtain ⟨ps, e1, e2, e3⟩ := putAll_pieces (h2 m' hm).2
  obtain ⟨ps', f1, f2, f3⟩ := putAll_pieces hnew
  refine ⟨ps, ps', e1, f1, by rw [e2, h1.length], by rw [f2, List.length_map, h1.length], fun j i hj hn => ?_⟩
  obtain ⟨c, hc, hr⟩ := h1.at hj
  cases c with
  | known t d r => have := hr.1; rw [hn] at this; cases this
  | unknown t x =>
    obtain ⟨p, a1, a2⟩ := e3 j _ hc
    obtain ⟨p', b1, b2⟩ := f3 j (.unknown t x) (by simp [hc, hedit])
    rw [a2] at b2
    cases b2
    rw [a1, b1]

/-! ### An example: parcels with moves and sayings in them, and a program that knows moves only -/

def Sample.parcels : ChunkFormat := { envelope := Sample.parcel, tag := "version", body := "data" }

theorem Sample.parcels_sound : Sample.parcels.Sound Sample.noClasses where
  schema := Sample.parcel_schema
  tag := ⟨Sample.parcelVersion, .tail _ (.head _), rfl, rfl, fun _ _ _ => rfl⟩
  body := ⟨Sample.bytesRef "data" "n", .tail _ (.tail _ (.tail _ (.tail _ (.head _)))), rfl, rfl, fun _ _ _ => rfl⟩

theorem Sample.parcels_suit (k : Int) (x : Bytes) : Bears Sample.noClasses Sample.parcel [("version", .int k), ("data", .bytes x)] where
  inst := ⟨by simp [Dict.keys], by
    simp [Dict.keys, names, Sample.parcel, Sample.bytesRef, Sample.parcelVersion, Sample.u8, Sample.upd, Field.withBase, Field.name, Field.base]⟩
  absent := by
    intro f hf h
    simp only [Sample.parcel, List.mem_cons, List.not_mem_nil, or_false] at hf
    rcases hf with rfl | rfl | rfl | rfl | rfl <;> cases h
  fits := by
    intro f hf w hw _
    simp only [Sample.parcel, List.mem_cons, List.not_mem_nil, or_false] at hf
    rcases hf with rfl | rfl | rfl | rfl | rfl <;> cases hw <;> exact .leaf trivial (Or.inl rfl) (Or.inl rfl)

def Sample.aMove : Tagged := ⟨.int 2, Sample.moved, [("number", .int 1), ("kind", .int 2), ("x", .int 5), ("y", .int (-1))]⟩
def Sample.aSaying : Tagged := ⟨.int 3, Sample.said, [("number", .int 2), ("kind", .int 1), ("text", .str [104, 105])]⟩

/-- `{2: Moved}` -/
def Sample.movesOnly : Value → Option StructDesc := fun v => if v = .int 2 then some Sample.moved else none

theorem Sample.aMove_sound : Sample.aMove.Sound Sample.noClasses Sample.parcels where
  schema := Sample.moved_schema
  values := by
    refine ⟨by unfold Instance; decide, ?_, ?_⟩
    · intro f hf h
      simp only [Sample.aMove, Sample.moved, Sample.event, List.cons_append, List.nil_append, List.mem_cons, List.not_mem_nil, or_false] at hf
      rcases hf with rfl | rfl | rfl | rfl <;> cases h
    · intro f hf w hw _
      simp only [Sample.aMove, Sample.moved, Sample.event, List.cons_append, List.nil_append, List.mem_cons, List.not_mem_nil, or_false] at hf
      rcases hf with rfl | rfl | rfl | rfl <;> cases hw <;> exact .leaf trivial (Or.inl rfl) (Or.inl rfl)
  tag := Or.inl ⟨2, rfl⟩
  suits := Sample.parcels_suit 2

theorem Sample.aSaying_sound : Sample.aSaying.Sound Sample.noClasses Sample.parcels where
  schema := Sample.said_schema
  values := by
    refine ⟨by unfold Instance; decide, ?_, ?_⟩
    · intro f hf h
      simp only [Sample.aSaying, Sample.said, Sample.event, List.cons_append, List.nil_append, List.mem_cons, List.not_mem_nil, or_false] at hf
      rcases hf with rfl | rfl | rfl <;> cases h
    · intro f hf w hw _
      simp only [Sample.aSaying, Sample.said, Sample.event, List.cons_append, List.nil_append, List.mem_cons, List.not_mem_nil, or_false] at hf
      rcases hf with rfl | rfl | rfl <;> cases hw
      · exact .leaf trivial (Or.inl rfl) (Or.inl rfl)
      · exact .leaf trivial (Or.inl rfl) (Or.inl rfl)
      · exact .leaf (by simp [Scalar]) (Or.inl rfl) (Or.inl rfl)
  tag := Or.inl ⟨3, rfl⟩
  suits := Sample.parcels_suit 3

/-- The bytes of the two chunks. -/
def Sample.parcelFile : Bytes := [80, 75, 2, 7, 0, 0, 1, 2, 5, 0, 255, 255, 80, 75, 3, 6, 0, 2, 1, 104, 105, 0]

example : putAll (putChunk Sample.noClasses 4 Sample.parcels .none) [Sample.aMove, Sample.aSaying] = W.ok Sample.parcelFile := by decide +kernel

-- the theorem on these
example : ∃ m out, AllReadAs Sample.noClasses 3 .none Sample.movesOnly [Sample.aMove, Sample.aSaying] out ∧ ∀ m', m ≤ m' →
    (∀ pre rest, getChunks Sample.noClasses m' Sample.parcels Sample.movesOnly .none 2 ⟨pre ++ Sample.parcelFile ++ rest, pre.length⟩ =
      (.ok out, ⟨pre ++ Sample.parcelFile ++ rest, pre.length + 22⟩)) ∧
    putAll (putBack Sample.noClasses m' Sample.parcels .none) out = (Sample.parcelFile, .ok ()) := by
  refine C118_read Sample.noClasses (by intro c d h; cases h) Sample.parcels Sample.parcels_sound 3 .none Sample.movesOnly
    [Sample.aMove, Sample.aSaying] ?_ ?_ Sample.parcelFile (by decide +kernel)
  · intro i hi
    simp only [List.mem_cons, List.not_mem_nil, or_false] at hi
    rcases hi with rfl | rfl
    · exact Sample.aMove_sound
    · exact Sample.aSaying_sound
  · intro i hi
    simp only [List.mem_cons, List.not_mem_nil, or_false] at hi
    rcases hi with rfl | rfl
    · exact Or.inr rfl
    · exact Or.inl rfl

-- what the program gets
example : getChunks Sample.noClasses 6 Sample.parcels Sample.movesOnly .none 2 ⟨Sample.parcelFile, 0⟩ =
    (.ok [.known (.int 2) Sample.moved [("number", .int 1), ("kind", .int 2), ("x", .int 5), ("y", .int (-1))],
      .unknown (.int 3) [0, 2, 1, 104, 105, 0]], ⟨Sample.parcelFile, 22⟩) := by rfl

/-- **C118** It is false for chunks of a class that a newer program has extended by one byte: `exact=True` does not notice the byte (see C22), and it is
lost when the file is written anew. -/
theorem C118_extended_refuted :
    ∃ (bs new : Bytes) (c : Chunk),
      getChunk Sample.noClasses 6 Sample.parcels Sample.movesOnly .none ⟨bs, 0⟩ = (.ok c, ⟨bs, bs.length⟩) ∧
      putBody Sample.noClasses 6 Sample.parcels .none (.int 2) [0, 1, 2, 5, 0, 255, 255, 77] = (bs, .ok ()) ∧
      putBack Sample.noClasses 6 Sample.parcels .none c = (new, .ok ()) ∧ 77 ∈ bs ∧ ¬ 77 ∈ new :=
  ⟨[80, 75, 2, 8, 0, 1, 2, 5, 0, 255, 255, 77], [80, 75, 2, 7, 0, 0, 1, 2, 5, 0, 255, 255],
    .known (.int 2) Sample.moved [("number", .int 1), ("kind", .int 2), ("x", .int 5), ("y", .int (-1))], rfl, by decide +kernel, by decide +kernel,
    by decide, by decide⟩

end Verif
