import Verif.Proofs.Table
import Verif.Props.Optional
import Verif.Props.Size

/-!
# C106: records in a file are updated in place
-/

namespace Verif
open Spec

/-- **C106** A file whose slots have `size` bytes each, on a disk that may fail at any `write` or `seek`.  Records (of any classes) that fit
are put into slots in any order, some of these calls fail, some write only a part.  Whatever happened before and whatever was put into
the other slots afterwards: if putting a record into slot `i` returned, it is read back from there. -/
theorem C106_read_back {σ : Type} (k : Disk σ) (view : σ → Stream) (hk : InPlace k view) (Γ : Classes)
    (hΓ : ∀ c d, Γ c = some d → OptionalSchema Γ d) (n size i : Nat) (ctx : Value) (before after : List (Nat × StructDesc × Dict))
    (d : StructDesc) (vals : Dict) (hd : OptionalSchema Γ d) (hv : Bears Γ d vals) (hfit : FitsSlot Γ (n + 1) size d vals ctx)
    (hne : (structToStream Γ (n + 1) d vals ctx).1 ≠ []) (hafter : ∀ p ∈ after, p.1 ≠ i ∧ FitsSlot Γ (n + 1) size p.2.1 p.2.2 ctx)
    (start s : σ) (hput : putRecord k Γ (n + 1) size i d vals ctx (putRecords k Γ (n + 1) size ctx before start) = (.ok (), s)) :
    ∃ all m r, structToDict Γ n d vals = .ok all ∧
      (∀ f ∈ d.components, f.base.discard = false → ∃ v w, Dict.get? all f.name = some w ∧ Dict.get? r f.name = some v ∧ Stands v w) ∧
      structFromStream Γ m d ⟨(view (putRecords k Γ (n + 1) size ctx after s)).data, i * size⟩ ctx [] =
        (.ok r, ⟨(view (putRecords k Γ (n + 1) size ctx after s)).data, i * size + (structToStream Γ (n + 1) d vals ctx).1.length⟩) := by
  obtain ⟨p, -, h2, h3⟩ := putRecord_lays hk Γ (n + 1) size i d vals ctx (putRecords k Γ (n + 1) size ctx before start)
  rw [hput] at h2 h3
  have h4 := h3 rfl
  have h5 : HasAt (view s).data (i * size) p := by rw [h2]; exact hasAt_overwrite _ _ _
  unfold FitsSlot at hfit
  rw [h4] at hfit hne
  obtain ⟨h6, -⟩ := putRecords_keep hk (fun p hp => (hafter p hp).2) (fun p hp => (hafter p hp).1) hfit h5
  obtain ⟨pre, rest, h7, h8⟩ := h6.split (.inl hne)
  obtain ⟨all, m, r, h9, h10, -, h11⟩ := C26_optional_round_trip Γ hΓ n d vals ctx p hd hv h4
  refine ⟨all, m, r, h9, fun f hf hdis => ?_, ?_⟩
  · obtain ⟨v, w, a1, a2, a3, -⟩ := h10 f hf hdis
    exact ⟨v, w, a1, a2, a3⟩
  · have := h11 pre rest
    rw [h8] at this
    rw [h7, h4]
    exact this

/-- **C106** In particular the call itself leaves the other slots alone, whether it returns or raises: their bytes stay as they were. -/
theorem C106_other_slots {σ : Type} (k : Disk σ) (view : σ → Stream) (hk : InPlace k view) (Γ : Classes) (n size i : Nat) (ctx : Value)
    (d : StructDesc) (vals : Dict) (hfit : FitsSlot Γ n size d vals ctx) (s : σ) (j x : Nat) (hj : j ≠ i) (hx : x < size)
    (hin : j * size + x < (view s).data.length) :
    (view (putRecord k Γ n size i d vals ctx s).2).data[j * size + x]? = (view s).data[j * size + x]? := by
  obtain ⟨p, h1, h2, -⟩ := putRecord_lays hk Γ n size i d vals ctx s
  have h3 : p.length ≤ size := Nat.le_trans h1.length_le hfit
  rw [h2, overwrite_get]
  by_cases hp : p = []
  · rw [if_pos hp]
  · rw [if_neg hp]
    rcases slots_apart (size := size) (a := x + 1) (b := p.length) hj hx h3 with h | h
    · rw [if_neg (by omega), if_neg (by omega)]
    · rw [if_pos (show j * size + x < i * size by omega), if_pos hin]

/-- **C106** The size of a slot may be taken from `get_size()`, if no size is guessed from a default: then every record fits, also one that
fails to dump and has been written in part. -/
theorem C106_get_size (Γ : Classes) (m n size : Nat) (d : StructDesc) (vals : Dict) (ctx : Value)
    (hsz : ∀ f ∈ d.components, SizeNotGuessed f) (hf : ∀ f ∈ d.components, PadsExactly f ∧ NullFits f)
    (hnn : ∀ f ∈ d.components, ∀ k, f.base.size = .fixed k → 0 ≤ k)
    (hk : structGetSize Γ m d [] = .ok (some (size : Int))) : FitsSlot Γ n size d vals ctx := by
  unfold FitsSlot
  cases n with
  | zero => simp [structToStream, W.fail]
  | succ n =>
    rw [structGetSize_total hsz] at hk
    simp only [Except.ok.injEq] at hk
    have key : ∀ (all : Dict) (pre post : List Field) (ps : List Bytes), Parts Γ n ctx all pre ps → ∀ k : Int,
        (∀ f ∈ pre ++ post, (PadsExactly f ∧ NullFits f) ∧ ∀ k, f.base.size = .fixed k → 0 ≤ k) →
        total (sizes (pre ++ post)) = some k → (ps.flatten.length : Int) ≤ k := by
      intro all pre post ps hps
      induction hps with
      | nil =>
        intro k h hk
        simp only [List.nil_append, List.flatten_nil, List.length_nil] at hk h ⊢
        clear hf hsz hnn
        induction post generalizing k with
        | nil => simp [sizes, total] at hk; simp [← hk]
        | cons f fs ih =>
          cases hs : f.base.size with
          | fixed s =>
            simp only [sizes, List.map_cons, hs, total] at hk
            cases ht : total (sizes fs) with
            | none => simp only [sizes] at ht; rw [ht] at hk; simp at hk
            | some t =>
              have h2 := ih t (fun g hg => h g (List.mem_cons_of_mem _ hg)) ht
              have h3 := (h f List.mem_cons_self).2 s hs
              simp only [sizes] at ht
              rw [ht] at hk; simp at hk h2 ⊢
              omega
          | none => simp [sizes, hs, total] at hk
          | ref r => simp [sizes, hs, total] at hk
      | @cons f fs p ps h1 _ ih =>
        intro k h hk
        cases hs : f.base.size with
        | fixed s =>
          simp only [sizes, List.cons_append, List.map_cons, hs, total] at hk
          cases ht : total (sizes (fs ++ post)) with
          | none => simp only [sizes] at ht; rw [ht] at hk; simp at hk
          | some t =>
            have h2 := ih t (fun g hg => h g (by simp at hg ⊢; exact .inr hg)) ht
            have h0 := h f (by simp)
            simp only [sizes] at ht
            rw [ht] at hk; simp only [Option.map_some, Option.some.injEq] at hk
            have h3 : (p.length : Int) ≤ s := by
              rcases h1 with ⟨-, rfl⟩ | ⟨v, -, h1⟩
              · simpa using h0.2 s hs
              · exact Int.le_of_eq (fixed_dump_length hs h0.1.1 h0.1.2 h1)
            simp only [List.flatten_cons, List.length_append, Int.natCast_add]
            omega
        | none => simp [sizes, hs, total] at hk
        | ref r => simp [sizes, hs, total] at hk
    rcases hr : structToStream Γ (n + 1) d vals ctx with ⟨bs, r⟩
    cases r with
    | ok u =>
      obtain ⟨-, all, -, ps, hps, rfl⟩ := structToStream_ok_iff.1 hr
      have := key all d.components [] ps hps size (by simpa using fun f h => ⟨hf f h, hnn f h⟩) (by simpa using hk)
      simpa using this
    | error e =>
      rcases C29_failing_dump_prefix Γ n d vals ctx bs e hr with ⟨rfl, -⟩ | ⟨all, pre, f, post, ps, -, h1, h2, rfl, -⟩
      · simp
      · have := key all pre (f :: post) ps h2 size (by rw [← h1]; exact fun f h => ⟨hf f h, hnn f h⟩) (by rw [← h1]; exact hk)
        simpa using this

/-- The two model disks keep the rules. -/
theorem goodDisk_inPlace : InPlace goodDisk id :=
  ⟨fun chunk _ => ⟨chunk, List.prefix_refl _, rfl, fun _ => rfl⟩, fun _ _ => ⟨rfl, fun _ => rfl⟩⟩

theorem flakyDisk_inPlace : InPlace flakyDisk Prod.snd := by
  refine ⟨fun chunk s => ?_, fun _ _ => ⟨rfl, fun _ => rfl⟩⟩
  simp only [flakyDisk]
  split
  · exact ⟨chunk, List.prefix_refl _, rfl, fun _ => rfl⟩
  · exact ⟨chunk.take s.1, List.take_prefix _ _, rfl, by intro h; cases h⟩

/-- **C106** (refuted when a size is guessed from a default) `s = StringZ(default="ab")`: `get_size()` is 3, but the record in slot 0 takes 6
bytes and destroys the one in slot 1. -/
theorem C106_guessed_refuted :
    ∃ (d : StructDesc) (a b : Dict) (s s' : Stream), UniqueNames d ∧ Instance d a ∧ Instance d b ∧
      structGetSize Sample.noClasses 1 d [] = .ok (some 3) ∧
      putRecord goodDisk Sample.noClasses 3 3 1 d a .none ⟨[], 0⟩ = (.ok (), s) ∧
      (structFromStream Sample.noClasses 3 d ⟨s.data, 3⟩ .none []).1 = .ok a ∧
      putRecord goodDisk Sample.noClasses 3 3 0 d b .none s = (.ok (), s') ∧
      (structFromStream Sample.noClasses 3 d ⟨s'.data, 3⟩ .none []).1 ≠ .ok a :=
  ⟨{ name := "S", components := [Sample.upd (Sample.strz "s") ({ · with dflt := .str [0x61, 0x62] })]
     fieldValidators := [("s", [])] },
   [("s", .str [0x78, 0x79])], [("s", .str [0x61, 0x62, 0x63, 0x64])], _, _, by unfold UniqueNames; decide, by unfold Instance; decide,
   by unfold Instance; decide, by decide, rfl, by decide, rfl, by decide⟩

/-! ### Points in slots of four bytes -/

/-- `Point(x=…, y=…)` -/
def Sample.pointAt (x y : Int) : Dict := [("x", .int x), ("y", .int y)]

theorem Sample.pointAt_bears (Γ : Classes) (x y : Int) : Bears Γ Sample.point (Sample.pointAt x y) where
  inst := by unfold Instance; simp [Sample.pointAt, Sample.point, Dict.keys, names, Sample.upd, Sample.i16, Field.withBase, Field.base, Field.name]
  absent := by
    intro f hf h
    simp only [Sample.point, List.mem_cons, List.not_mem_nil, or_false] at hf
    rcases hf with rfl | rfl <;> cases h
  fits := by
    intro f hf w hw _
    simp only [Sample.point, List.mem_cons, List.not_mem_nil, or_false] at hf
    rcases hf with rfl | rfl <;> cases hw <;> exact .leaf trivial (Or.inl rfl) (Or.inl rfl)

theorem Sample.point_fits (n : Nat) (vals : Dict) (ctx : Value) : FitsSlot Sample.noClasses n 4 Sample.point vals ctx := by
  refine C106_get_size Sample.noClasses 1 n 4 Sample.point vals ctx ?_ ?_ ?_ (by decide) <;>
    (intro f hf; simp [Sample.point, Sample.upd, Sample.i16, Field.withBase, Field.base] at hf)
  · left; rcases hf with rfl | rfl <;> simp [Field.base]
  · rcases hf with rfl | rfl <;> exact ⟨trivial, Or.inl rfl⟩
  · intro k hk; rcases hf with rfl | rfl <;> (cases hk; decide)

-- a disk that fails at some time, any points (also ones that are out of range and cannot be dumped) in the other slots
example (room : Nat) (data : Bytes) (before after : List (Nat × Int × Int)) (hafter : ∀ p ∈ after, p.1 ≠ 2) (s : Nat × Stream)
    (h : putRecord flakyDisk Sample.noClasses 4 4 2 Sample.point (Sample.pointAt 5 (-6)) .none
      (putRecords flakyDisk Sample.noClasses 4 4 .none (before.map fun p => (p.1, Sample.point, Sample.pointAt p.2.1 p.2.2)) (room, ⟨data, 0⟩)) =
        (.ok (), s)) :
    ∃ m r pos, (Dict.get? r "x" = some (.int 5) ∧ Dict.get? r "y" = some (.int (-6))) ∧
      structFromStream Sample.noClasses m Sample.point ⟨(putRecords flakyDisk Sample.noClasses 4 4 .none
        (after.map fun p => (p.1, Sample.point, Sample.pointAt p.2.1 p.2.2)) s).2.data, 8⟩ .none [] = (.ok r, pos) := by
  obtain ⟨all, m, r, h1, h2, h3⟩ := C106_read_back flakyDisk Prod.snd flakyDisk_inPlace Sample.noClasses (by simp [Sample.noClasses]) 3 4 2 .none
    (before.map fun p => (p.1, Sample.point, Sample.pointAt p.2.1 p.2.2)) (after.map fun p => (p.1, Sample.point, Sample.pointAt p.2.1 p.2.2))
    Sample.point (Sample.pointAt 5 (-6)) (Sample.point_optional _) (Sample.pointAt_bears _ _ _) (Sample.point_fits _ _ _) (by decide)
    (by
      intro p hp
      obtain ⟨q, hq, rfl⟩ := List.mem_map.1 hp
      exact ⟨hafter q hq, Sample.point_fits _ _ _⟩) (room, ⟨data, 0⟩) s h
  have h4 : structToDict Sample.noClasses 3 Sample.point (Sample.pointAt 5 (-6)) = .ok (Sample.pointAt 5 (-6)) := by decide
  rw [h4] at h1; cases h1
  refine ⟨m, r, _, ⟨?_, ?_⟩, h3⟩
  · obtain ⟨v, w, h5, h6, h7⟩ := h2 _ (.head _) rfl
    cases h5
    rw [← C26_scalars v _ h7 (by simp) (by simp)]
    exact h6
  · obtain ⟨v, w, h5, h6, h7⟩ := h2 _ (.tail _ (.head _)) rfl
    cases h5
    rw [← C26_scalars v _ h7 (by simp) (by simp)]
    exact h6

-- the disk fails in the middle of the second point; the first stays, and the second is broken
example : (putRecords flakyDisk Sample.noClasses 4 4 .none
      [(0, Sample.point, Sample.pointAt 1 2), (1, Sample.point, Sample.pointAt 258 258), (2, Sample.point, Sample.pointAt 5 (-6))] (5, ⟨[], 0⟩)).2.data =
    [1, 0, 2, 0, 2, 0, 0, 0, 5, 0, 250, 255] := by decide +kernel

end Verif
