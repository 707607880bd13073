import Verif.Proofs.Append
import Verif.Props.Container
import Verif.Props.Envelope

/-!
# C121: files that end in an open array grow by appending

If the last field of a class is an array without a count, a file with such a structure can be extended by appending the bytes of more elements:
the structure loaded from the longer file has the values it had before, and the new elements at the end of the array (`C121_append`;
`C121_dumped` for elements that the array itself wrote).  Nothing that was in the file is read differently.  If the last element was not
written completely, loading the file fails the way loading the new elements alone fails (`C121_torn`).

With a count, appended elements go unnoticed (`C121_counted_refuted`).
-/

namespace Verif
open Spec

/-- What the load of the longer file depends on. -/
private theorem appended_load {Γ : Classes} {d : StructDesc} {header : List Field} {b : FieldBase} {comp : Field} (ho : OpenEnded Γ d header b comp)
    {ctx : Value} {pre data : Bytes} {all : Dict} {xs : List Value} {n k used : Nat} (h : Resumes Γ header b comp ctx pre data all xs n k used)
    (extra : Bytes) {m : Nat} {ys : List Value} {u : Stream}
    (hm : fieldFromStream Γ m (.array b comp .none none) ⟨pre ++ data ++ extra, pre.length + data.length⟩ ctx all = (.ok (.list ys), u)) :
    ∃ M, Loads Γ M ctx d.components [] ⟨pre ++ data ++ extra, pre.length⟩ (all ++ [(b.name, .list (xs ++ ys))]) u := by
  obtain ⟨M, hM, l, hl1, hl2⟩ := h.array ho.plain extra hm (by simp)
  cases l with
  | error e => cases hl1
  | ok l =>
    cases hl1
    refine ⟨M, ?_⟩
    rw [ho.components]
    refine Spec.Loads.append.2 ⟨all, _, (h.start extra).of_le hM, ?_⟩
    have hnew : Dict.get? all (Field.array b comp .none none).name = none := by
      rw [Dict.get?_none_iff, h.keys]
      have hu := ho.unique
      unfold UniqueNames names at hu
      rw [ho.components, List.map_append, List.map_cons, List.map_nil] at hu
      exact fun hc => (List.nodup_append.1 hu).2.2 _ hc _ (List.mem_singleton.2 rfl) rfl
    refine .cons hl2 ?_
    rw [if_pos hnew]
    exact .nil _ _

/-- The load of a file took everything, and gave the values of the header, `all`, and the elements `xs`.  Let the array be loaded from the
bytes that were appended, giving `ys`; then loading the longer file gives `all` and `xs ++ ys`, if the validators of the class accept that. -/
theorem C121_append (Γ : Classes) (d : StructDesc) (header : List Field) (b : FieldBase) (comp : Field) (ho : OpenEnded Γ d header b comp)
    (hΓ : Enclosed Γ) (n : Nat) (ctx : Value) (pre data : Bytes) (r : Dict) (t : Stream)
    (h : structFromStream Γ n d ⟨pre ++ data, pre.length⟩ ctx [] = (.ok r, t)) :
    t = ⟨pre ++ data, pre.length + data.length⟩ ∧ ∃ all xs, Dict.keys all = header.map Field.name ∧
      r = dropDiscarded d (all ++ [(b.name, .list xs)]) ∧
      ∀ extra ys m u,
        fieldFromStream Γ m (.array b comp .none none) ⟨pre ++ data ++ extra, pre.length + data.length⟩ ctx all = (.ok (.list ys), u) →
        Valid d (all ++ [(b.name, .list (xs ++ ys))]) →
        ∃ m', structFromStream Γ m' d ⟨pre ++ data ++ extra, pre.length⟩ ctx [] = (.ok (dropDiscarded d (all ++ [(b.name, .list (xs ++ ys))])), u) := by
  obtain ⟨ht, all, xs, n', k, used, hr, hres⟩ := openEnded_resumes ho hΓ h
  refine ⟨ht, all, xs, hres.keys, hr, fun extra ys m u hm hv => ?_⟩
  obtain ⟨M, hM⟩ := appended_load ho hres extra hm
  refine ⟨M + 1, structFromStream_ok_iff.2 ⟨_, hM, ?_, hv, rfl⟩⟩
  intro key hk
  have := (hM.keys key).1 hk
  simpa [Dict.keys, names] using this

/-- If the array cannot be loaded from the bytes that were appended, the longer file cannot be loaded either, with the same exception. -/
theorem C121_torn (Γ : Classes) (d : StructDesc) (header : List Field) (b : FieldBase) (comp : Field) (ho : OpenEnded Γ d header b comp)
    (hΓ : Enclosed Γ) (n : Nat) (ctx : Value) (pre data : Bytes) (r : Dict) (t : Stream)
    (h : structFromStream Γ n d ⟨pre ++ data, pre.length⟩ ctx [] = (.ok r, t)) :
    ∃ all xs, Dict.keys all = header.map Field.name ∧ r = dropDiscarded d (all ++ [(b.name, .list xs)]) ∧ ∀ extra e m u,
      fieldFromStream Γ m (.array b comp .none none) ⟨pre ++ data ++ extra, pre.length + data.length⟩ ctx all = (.error e, u) →
      e ≠ .outOfFuel → ∃ m', structFromStream Γ m' d ⟨pre ++ data ++ extra, pre.length⟩ ctx [] = (.error e, u) := by
  obtain ⟨ht, all, xs, n', k, used, hr, hres⟩ := openEnded_resumes ho hΓ h
  refine ⟨all, xs, hres.keys, hr, fun extra e m u hm he => ?_⟩
  obtain ⟨M, hM, l, hl1, hl2⟩ := hres.array ho.plain extra hm (by simpa using he)
  cases l with
  | ok l => cases hl1
  | error e' =>
    simp only [arrayOutcome, Except.error.injEq] at hl1
    refine ⟨M + 1, ?_⟩
    have hlast := loadFields_last ((hres.start extra).of_le hM) hl2
    rw [← ho.components] at hlast
    rw [structFromStream, structFromStreamWith, hlast, ← hl1]

/-- In particular, what the array itself writes for more elements can be appended, if these elements take at least one byte each and come
back from their bytes. -/
theorem C121_dumped (Γ : Classes) (d : StructDesc) (header : List Field) (b : FieldBase) (comp : Field) (ho : OpenEnded Γ d header b comp)
    (hΓ : Enclosed Γ) (hsize : b.size = .none) (n : Nat) (ctx : Value) (pre data : Bytes) (r : Dict) (t : Stream)
    (h : structFromStream Γ n d ⟨pre ++ data, pre.length⟩ ctx [] = (.ok r, t)) :
    ∃ all xs, Dict.keys all = header.map Field.name ∧ r = dropDiscarded d (all ++ [(b.name, .list xs)]) ∧ ∀ ys m,
      (∀ v ∈ ys, v ≠ .notPresent ∧ RoundTrip Γ m comp v ctx all all ∧ fieldToStream Γ m comp v ctx all ≠ ([], .ok ())) →
      Valid d (all ++ [(b.name, .list (xs ++ ys))]) →
      ∃ m' extra, fieldToStream Γ m' (.array b comp .none none) (.list ys) ctx all = (extra, .ok ()) ∧
        structFromStream Γ m' d ⟨pre ++ data ++ extra, pre.length⟩ ctx [] =
          (.ok (dropDiscarded d (all ++ [(b.name, .list (xs ++ ys))])), ⟨pre ++ data ++ extra, (pre ++ data ++ extra).length⟩) := by
  obtain ⟨ht, all, xs, h1, h2, h3⟩ := C121_append Γ d header b comp ho hΓ n ctx pre data r t h
  refine ⟨all, xs, h1, h2, fun ys m hel hv => ?_⟩
  obtain ⟨hp1, hp2⟩ := ho.plain.1
  obtain ⟨bs, hd, hl⟩ := C40_array_round_trip_unbounded Γ m b comp ys ctx all all hel
    ⟨hp1, hp2, ho.plain.2.1, by rw [ho.plain.2.2]; simp⟩ hsize
  have hl' := hl (pre ++ data)
  rw [List.length_append] at hl'
  obtain ⟨m', hm'⟩ := h3 bs ys _ _ hl' hv
  refine ⟨max m' (m + ys.length + 2), bs, fieldToStream_of_le (by omega) hd, ?_⟩
  rw [structFromStream_of_le (by omega) hm', List.length_append, List.length_append]

namespace Sample

/-- ```
class Track(Struct):
    version = UInt8()
    points = Array(Nested(Point))
``` -/
def openTrack : StructDesc :=
  { name := "Track", components := [u8 "version", array "points" (nested "" "Point") .none], fieldValidators := [("version", []), ("points", [])] }

/-- The same with a count: `n = UInt8()`, `points = Array(Nested(Point), count=n)`. -/
def countedTrack : StructDesc :=
  { name := "CountedTrack", components := [u8 "n", array "points" (nested "" "Point") (.ref "n")], fieldValidators := [("n", []), ("points", [])] }

theorem openTrack_open : OpenEnded pointOnly openTrack [u8 "version"] { name := "points", typeName := "Array" } (nested "" "Point") where
  components := rfl
  unique := by unfold UniqueNames; decide
  plain := ⟨⟨fun _ _ _ => rfl, rfl⟩, rfl, rfl⟩
  forward := ⟨by intro g hg; simp at hg; subst hg; exact .leaf (by simp), .nested⟩
  behind := ⟨by intro g hg; simp at hg; subst hg; exact .leaf ⟨fun _ _ _ _ _ => rfl, Or.inl rfl⟩ (by simp),
    .nested ⟨fun _ _ _ _ _ => rfl, Or.inl rfl⟩⟩
  limited := ⟨by intro g hg; simp at hg; subst hg; exact .leaf (by simp), .nested⟩
  sizes := by
    intro f hf r hr
    simp [openTrack, u8, array, nested] at hf
    rcases hf with rfl | rfl
    · cases hr; simp at *
    · cases hr with
      | array hr => cases hr

theorem pointOnly_enclosed : Enclosed pointOnly where
  forward c e hc g hg := by rw [pointOnly_only hc] at hg; exact (point_loads g hg).1
  behind c e hc g hg := by rw [pointOnly_only hc] at hg; exact (point_loads g hg).2.1
  limited c e hc := by rw [pointOnly_only hc]; exact ⟨fun g hg => (point_loads g hg).2.2.2, point_sizes⟩

end Sample

/-- With a count, elements that are appended are not there: the file loads as before, and they are left over. -/
theorem C121_counted_refuted :
    structFromStream Sample.pointOnly 9 Sample.countedTrack ⟨[1, 1, 0, 2, 0], 0⟩ .none [] =
      (.ok [("n", .int 1), ("points", .list [.struct "Point" [("x", .int 1), ("y", .int 2)]])], ⟨[1, 1, 0, 2, 0], 5⟩) ∧
    fieldFromStream Sample.pointOnly 9 (Sample.array "points" (Sample.nested "" "Point") .none) ⟨[3, 0, 4, 0], 0⟩ .none [] =
      (.ok (.list [.struct "Point" [("x", .int 3), ("y", .int 4)]]), ⟨[3, 0, 4, 0], 4⟩) ∧
    structFromStream Sample.pointOnly 9 Sample.countedTrack ⟨[1, 1, 0, 2, 0] ++ [3, 0, 4, 0], 0⟩ .none [] =
      (.ok [("n", .int 1), ("points", .list [.struct "Point" [("x", .int 1), ("y", .int 2)]])], ⟨[1, 1, 0, 2, 0] ++ [3, 0, 4, 0], 5⟩) := by
  decide

-- non-vacuity: a track with one point, in the middle of a file
example : structFromStream Sample.pointOnly 9 Sample.openTrack ⟨[7, 7] ++ [5, 1, 0, 2, 0], 2⟩ .none [] =
    (.ok [("version", .int 5), ("points", .list [.struct "Point" [("x", .int 1), ("y", .int 2)]])], ⟨[7, 7] ++ [5, 1, 0, 2, 0], 2 + 5⟩) := by decide

-- any points whose bytes are appended are there
example (extra : Bytes) (ys : List Value) (m : Nat) (u : Stream)
    (h : fieldFromStream Sample.pointOnly m (Sample.array "points" (Sample.nested "" "Point") .none) ⟨[7, 7] ++ [5, 1, 0, 2, 0] ++ extra, 2 + 5⟩ .none
      [("version", .int 5)] = (.ok (.list ys), u)) :
    ∃ m', structFromStream Sample.pointOnly m' Sample.openTrack ⟨[7, 7] ++ [5, 1, 0, 2, 0] ++ extra, 2⟩ .none [] =
      (.ok [("version", .int 5), ("points", .list ([.struct "Point" [("x", .int 1), ("y", .int 2)]] ++ ys))], u) := by
  obtain ⟨_, all, xs, h1, h2, h3⟩ := C121_append _ _ _ _ _ Sample.openTrack_open Sample.pointOnly_enclosed 9 .none [7, 7] [5, 1, 0, 2, 0]
    [("version", .int 5), ("points", .list [.struct "Point" [("x", .int 1), ("y", .int 2)]])] ⟨[7, 7] ++ [5, 1, 0, 2, 0], 2 + 5⟩ (by decide)
  match all, h1 with
  | [(k, v)], h1 =>
    have h2 : [("version", Value.int 5), ("points", .list [.struct "Point" [("x", .int 1), ("y", .int 2)]])] = [(k, v), ("points", .list xs)] := h2
    simp only [List.cons.injEq, Prod.mk.injEq, Value.list.injEq, true_and, and_true] at h2
    obtain ⟨⟨rfl, rfl⟩, rfl⟩ := h2
    refine h3 extra ys m u h ⟨?_, by simp [Sample.openTrack]⟩
    intro p hp
    simp only [Sample.openTrack, List.mem_cons, List.not_mem_nil, or_false] at hp
    rcases hp with rfl | rfl
    · exact ⟨_, _, rfl, rfl, by simp [Sample.u8, Field.base], by simp⟩
    · exact ⟨_, _, rfl, rfl, by simp [Sample.array, Field.base], by simp⟩

-- for instance one more point, and one that was cut off
example : structFromStream Sample.pointOnly 9 Sample.openTrack ⟨[7, 7] ++ [5, 1, 0, 2, 0] ++ [3, 0, 4, 0], 2⟩ .none [] =
    (.ok [("version", .int 5), ("points", .list [.struct "Point" [("x", .int 1), ("y", .int 2)], .struct "Point" [("x", .int 3), ("y", .int 4)]])],
      ⟨[7, 7] ++ [5, 1, 0, 2, 0] ++ [3, 0, 4, 0], 11⟩) := by decide
example : (structFromStream Sample.pointOnly 9 Sample.openTrack ⟨[7, 7] ++ [5, 1, 0, 2, 0] ++ [3, 0, 4], 2⟩ .none []).1 =
    (fieldFromStream Sample.pointOnly 9 (Sample.array "points" (Sample.nested "" "Point") .none) ⟨[7, 7] ++ [5, 1, 0, 2, 0] ++ [3, 0, 4], 2 + 5⟩ .none
      [("version", .int 5)]).1.map (fun _ => []) := by decide

end Verif
