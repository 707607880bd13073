import Verif.Spec.Table
import Verif.Proofs.Sink

/-!
# Records in the slots of a file: lemmas
-/

namespace Verif
open Spec

theorem overwrite_get (data : Bytes) (pos : Nat) (p : Bytes) (i : Nat) :
    (overwrite data pos p)[i]? = if p = [] then data[i]? else if i < pos then (if i < data.length then data[i]? else some 0)
      else if i < pos + p.length then p[i - pos]? else data[i]? := by
  unfold overwrite
  split
  · rfl
  · simp only [List.getElem?_append, List.length_append, List.length_take, List.length_replicate, List.getElem?_take,
      List.getElem?_replicate, List.getElem?_drop]
    by_cases h1 : i < pos
    · simp only [h1, if_true]
      by_cases h2 : i < data.length
      · rw [if_pos (by omega), if_pos (by omega), if_pos (by omega), if_pos h2]
      · rw [if_pos (by omega), if_pos (by omega), if_neg (by omega), if_pos (by omega), if_neg h2]
    · simp only [h1, if_false]
      by_cases h2 : i < pos + p.length
      · rw [if_pos (by omega), if_neg (by omega), if_pos h2]
        congr 1; omega
      · rw [if_neg (by omega), if_neg h2]
        congr 1; omega

theorem overwrite_overwrite (data : Bytes) (pos : Nat) (p q : Bytes) :
    overwrite (overwrite data pos p) (pos + p.length) q = overwrite data pos (p ++ q) := by
  by_cases hq : q = []
  · subst hq; simp [overwrite]
  by_cases hp : p = []
  · subst hp; simp [overwrite]
  have hlen : pos + p.length ≤ (overwrite data pos p).length := by
    unfold overwrite
    rw [if_neg hp]
    simp only [List.length_append, List.length_take, List.length_replicate, List.length_drop]
    omega
  refine List.ext_getElem? fun i => ?_
  have hpq : p ++ q ≠ [] := by simp [hp]
  rw [overwrite_get, overwrite_get data pos (p ++ q), overwrite_get data pos p, if_neg hq, if_neg hpq, if_neg hp, List.length_append]
  by_cases h1 : i < pos
  · rw [if_pos (by omega), if_pos (by omega), if_pos h1, if_pos h1]
  · by_cases h2 : i < pos + p.length
    · rw [if_pos h2, if_pos (by omega), if_neg h1, if_pos h2, if_neg h1, if_pos (by omega), List.getElem?_append_left (by omega)]
    · rw [if_neg h2, if_neg h1]
      by_cases h3 : i < pos + p.length + q.length
      · rw [if_pos h3, if_neg h1, if_pos (by omega), List.getElem?_append_right (by omega)]
        congr 1; omega
      · rw [if_neg h3, if_neg h1, if_neg h2, if_neg (by omega)]

/-- A run on the file goes along with the run `w` on an `io.BytesIO`, as far as the file allows, and writes over what was there. -/
def Lays {σ : Type} (view : σ → Stream) (w : W) (s : σ) (out : Except Err Unit × σ) : Prop :=
  ∃ p, p <+: w.1 ∧ view out.2 = ⟨overwrite (view s).data (view s).pos p, (view s).pos + p.length⟩ ∧ (out.1 = .ok () → w = (p, .ok ()))

theorem lays_ok {σ : Type} (view : σ → Stream) (s : σ) : Lays view (W.ok []) s (.ok (), s) :=
  ⟨[], by simp, by simp [overwrite], fun _ => rfl⟩

theorem lays_fail {σ : Type} (view : σ → Stream) (s : σ) (e : Err) : Lays view (W.fail e) s (.error e, s) :=
  ⟨[], by simp, by simp [overwrite], (by intro h; cases h)⟩

theorem lays_seq_ok {σ : Type} {view : σ → Stream} {w : W} {w2 : Unit → W} {s s1 : σ} {out : Except Err Unit × σ}
    (h1 : Lays view w s (.ok (), s1)) (h2 : Lays view (w2 ()) s1 out) : Lays view (w.seq w2) s out := by
  obtain ⟨p, -, a1, a3⟩ := h1
  obtain ⟨q, b2, b1, b3⟩ := h2
  have hw := a3 rfl
  subst hw
  have hs : W.seq (p, .ok ()) w2 = (p ++ (w2 ()).1, (w2 ()).2) := rfl
  rw [hs]
  refine ⟨p ++ q, ?_, ?_, ?_⟩
  · obtain ⟨t, ht⟩ := b2
    exact ⟨t, by simp [← ht]⟩
  · simp only at a1
    rw [b1, a1]
    simp only [overwrite_overwrite, List.length_append, Nat.add_assoc]
  · intro h; rw [b3 h]

theorem lays_seq_error {σ : Type} {view : σ → Stream} {w : W} {w2 : Unit → W} {s s1 : σ} {e : Err}
    (h1 : Lays view w s (.error e, s1)) : Lays view (w.seq w2) s (.error e, s1) := by
  obtain ⟨p, a2, a1, -⟩ := h1
  refine ⟨p, ?_, a1, (by intro h; cases h)⟩
  rcases w with ⟨b, r⟩
  cases r with
  | ok u => exact a2.trans (List.prefix_append _ _)
  | error e => exact a2

theorem fieldToSink_lays {σ : Type} {k : Disk σ} {view : σ → Stream} (hk : InPlace k view) (Γ : Classes) (n : Nat) (f : Field)
    (v ctx : Value) (all : Dict) (s : σ) : Lays view (fieldToStream Γ n f v ctx all) s (fieldToSink k.toSink Γ n f v ctx all s) := by
  unfold fieldToSink
  cases h : (fieldToStream Γ n f v ctx all).toExcept with
  | error e =>
    have h2 := W.toExcept_error h
    have h1 := C14_field_dump_all_or_nothing Γ n f v ctx all e h2
    have : fieldToStream Γ n f v ctx all = W.fail e := Prod.ext h1 h2
    rw [this]
    exact lays_fail view s e
  | ok chunk =>
    rw [W.toExcept_ok h]
    obtain ⟨p, h1, h2, h3⟩ := hk.write chunk s
    exact ⟨p, h1, h2, fun hr => by rw [h3 hr]⟩

theorem dumpFieldsTo_lays {σ : Type} {view : σ → Stream} {toStream : Field → Value → W}
    {toSink : Field → Value → σ → Except Err Unit × σ} (h : ∀ f v s, Lays view (toStream f v) s (toSink f v s)) (all : Dict) (ctx : Value)
    (fs : List Field) (s : σ) : Lays view (dumpFields toStream all ctx fs) s (dumpFieldsTo toSink all ctx fs s) := by
  induction fs generalizing s with
  | nil => exact lays_ok view s
  | cons f fs ih =>
    simp only [dumpFields, dumpFieldsTo]
    cases hv : f.base.computeValueForDump all.view ctx with
    | error e => exact lays_fail view s e
    | ok v =>
      simp only
      split
      · exact ih s
      · have h1 := h f v s
        rcases hr : toSink f v s with ⟨r, s1⟩
        rw [hr] at h1
        cases r with
        | error e => exact lays_seq_error h1
        | ok u => exact lays_seq_ok h1 (ih s1)

theorem structToSink_lays {σ : Type} {k : Disk σ} {view : σ → Stream} (hk : InPlace k view) (Γ : Classes) (n : Nat) (d : StructDesc)
    (vals : Dict) (ctx : Value) (s : σ) : Lays view (structToStream Γ n d vals ctx) s (structToSink k.toSink Γ n d vals ctx s) := by
  cases n with
  | zero => exact lays_fail view s _
  | succ n =>
    simp only [structToStream, structToStreamWith, structToSink]
    cases validateContents d vals with
    | error e => exact lays_fail view s e
    | ok u =>
      simp only
      cases structToDict Γ n d vals with
      | error e => exact lays_fail view s e
      | ok all => exact dumpFieldsTo_lays (fun f v s => fieldToSink_lays hk Γ n f v ctx all s) all ctx d.components s

/-- `data` has the bytes `bs` at `pos`. -/
def HasAt (data : Bytes) (pos : Nat) (bs : Bytes) : Prop := ∀ i, i < bs.length → data[pos + i]? = bs[i]?

theorem hasAt_overwrite (data : Bytes) (pos : Nat) (p : Bytes) : HasAt (overwrite data pos p) pos p := by
  intro i hi
  have hp : p ≠ [] := by rintro rfl; simp at hi
  rw [overwrite_get, if_neg hp, if_neg (by omega), if_pos (by omega)]
  congr 1; omega

theorem HasAt.apart {data : Bytes} {pos q : Nat} {bs p : Bytes} (h : HasAt data pos bs)
    (hq : q + p.length ≤ pos ∨ pos + bs.length ≤ q) : HasAt (overwrite data q p) pos bs := by
  intro i hi
  have h1 := h i hi
  have h2 : pos + i < data.length := by
    rw [List.getElem?_eq_getElem hi] at h1
    exact (List.getElem?_eq_some_iff.1 h1).1
  rw [overwrite_get]
  by_cases hp : p = []
  · rw [if_pos hp]; exact h1
  · rw [if_neg hp]
    rcases hq with hq | hq
    · rw [if_neg (by omega), if_neg (by omega)]; exact h1
    · rw [if_pos (show pos + i < q by omega), if_pos h2]; exact h1

theorem HasAt.split {data : Bytes} {pos : Nat} {bs : Bytes} (h : HasAt data pos bs) (hne : bs ≠ [] ∨ pos ≤ data.length) :
    ∃ pre rest, data = pre ++ bs ++ rest ∧ pre.length = pos := by
  have hpos : pos + bs.length ≤ data.length := by
    rcases Nat.eq_zero_or_pos bs.length with h0 | h0
    · rcases hne with hne | hne
      · exact absurd (List.length_eq_zero_iff.1 h0) hne
      · omega
    · have h1 := h (bs.length - 1) (by omega)
      rw [List.getElem?_eq_getElem (l := bs) (by omega)] at h1
      have := (List.getElem?_eq_some_iff.1 h1).1
      omega
  refine ⟨data.take pos, data.drop (pos + bs.length), ?_, by simp; omega⟩
  refine List.ext_getElem? fun i => ?_
  simp only [List.getElem?_append, List.length_append, List.length_take, List.getElem?_take, List.getElem?_drop]
  rw [Nat.min_eq_left (by omega)]
  by_cases h1 : i < pos
  · rw [if_pos (by omega), if_pos h1, if_pos h1]
  · by_cases h2 : i < pos + bs.length
    · rw [if_pos h2, if_neg h1, ← h (i - pos) (by omega)]
      congr 1; omega
    · rw [if_neg h2]
      congr 1; omega

theorem slots_apart {i j size a b : Nat} (h : i ≠ j) (ha : a ≤ size) (hb : b ≤ size) : j * size + b ≤ i * size ∨ i * size + a ≤ j * size := by
  rcases Nat.lt_or_gt_of_ne h with h | h
  · have := Nat.mul_le_mul_right size h
    rw [Nat.succ_mul] at this
    omega
  · have := Nat.mul_le_mul_right size h
    rw [Nat.succ_mul] at this
    omega

theorem putRecord_lays {σ : Type} {k : Disk σ} {view : σ → Stream} (hk : InPlace k view) (Γ : Classes) (n size i : Nat) (d : StructDesc)
    (vals : Dict) (ctx : Value) (s : σ) : ∃ p, p <+: (structToStream Γ n d vals ctx).1 ∧
      (view (putRecord k Γ n size i d vals ctx s).2).data = overwrite (view s).data (i * size) p ∧
      ((putRecord k Γ n size i d vals ctx s).1 = .ok () → structToStream Γ n d vals ctx = (p, .ok ())) := by
  obtain ⟨h1, h2⟩ := hk.seek (i * size) s
  unfold putRecord
  rcases hs : k.seek (i * size) s with ⟨r, s1⟩
  rw [hs] at h1 h2
  cases r with
  | error e => exact ⟨[], by simp, by simpa [overwrite] using h1, by intro h; cases h⟩
  | ok u =>
    obtain ⟨p, h3, h4, h5⟩ := structToSink_lays hk Γ n d vals ctx s1
    refine ⟨p, h3, ?_, h5⟩
    simp only
    rw [h4]
    simp only at h1 h2
    simp only [h1, h2 trivial]

theorem putRecords_keep {σ : Type} {k : Disk σ} {view : σ → Stream} (hk : InPlace k view) {Γ : Classes} {n size : Nat} {ctx : Value}
    {ps : List (Nat × StructDesc × Dict)} {i : Nat} {bs : Bytes} (hfit : ∀ p ∈ ps, FitsSlot Γ n size p.2.1 p.2.2 ctx) (hi : ∀ p ∈ ps, p.1 ≠ i)
    (hbs : bs.length ≤ size) {s : σ} (h : HasAt (view s).data (i * size) bs) :
    HasAt (view (putRecords k Γ n size ctx ps s)).data (i * size) bs ∧ (view s).data.length ≤ (view (putRecords k Γ n size ctx ps s)).data.length := by
  induction ps generalizing s with
  | nil => exact ⟨h, Nat.le_refl _⟩
  | cons p ps ih =>
    obtain ⟨j, d, vals⟩ := p
    obtain ⟨p, h1, h2, -⟩ := putRecord_lays hk Γ n size j d vals ctx s
    have h3 : p.length ≤ size := Nat.le_trans h1.length_le (hfit (j, d, vals) (by simp))
    have h4 : HasAt (view (putRecord k Γ n size j d vals ctx s).2).data (i * size) bs := by
      rw [h2]
      exact h.apart (slots_apart (Ne.symm (hi (j, d, vals) (by simp))) hbs h3)
    have h5 : (view s).data.length ≤ (view (putRecord k Γ n size j d vals ctx s).2).data.length := by
      rw [h2]
      unfold overwrite
      split
      · exact Nat.le_refl _
      · simp only [List.length_append, List.length_take, List.length_replicate, List.length_drop]; omega
    obtain ⟨h6, h7⟩ := ih (fun p hp => hfit p (by simp [hp])) (fun p hp => hi p (by simp [hp])) h4
    exact ⟨h6, Nat.le_trans h5 h7⟩

end Verif
