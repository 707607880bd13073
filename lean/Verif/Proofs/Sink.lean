import Verif.Spec.Sink
import Verif.Props.Field
import Verif.Props.StructDump

/-!
# Dumping to arbitrary streams: lemmas
-/

namespace Verif

open Spec

/-- A run on the stream `k` goes along with the run `w` on an `io.BytesIO` as far as the stream allows. -/
def Follows {σ : Type} (k : Sink σ) (content : σ → Bytes) (w : W) (s : σ) (out : Except Err Unit × σ) : Prop :=
  ∃ p, content out.2 = content s ++ p ∧ p <+: w.1 ∧ (out.1 = .ok () → w = (p, .ok ())) ∧
    ∀ e, out.1 = .error e → w = (p, .error e) ∨ ∃ chunk st, (k.write chunk st).1 = .error e

theorem follows_ok {σ : Type} (k : Sink σ) (content : σ → Bytes) (s : σ) : Follows k content (W.ok []) s (.ok (), s) :=
  ⟨[], by simp, by simp, fun _ => rfl, fun e h => by cases h⟩

theorem follows_fail {σ : Type} (k : Sink σ) (content : σ → Bytes) (s : σ) (e : Err) : Follows k content (W.fail e) s (.error e, s) :=
  ⟨[], by simp, by simp, (by intro h; cases h), (by intro e' h; cases h; exact .inl rfl)⟩

theorem follows_seq_ok {σ : Type} {k : Sink σ} {content : σ → Bytes} {w : W} {w2 : Unit → W} {s s1 : σ} {out : Except Err Unit × σ}
    (h1 : Follows k content w s (.ok (), s1)) (h2 : Follows k content (w2 ()) s1 out) : Follows k content (w.seq w2) s out := by
  obtain ⟨p, a1, a2, a3, -⟩ := h1
  obtain ⟨q, b1, b2, b3, b4⟩ := h2
  have hw := a3 rfl
  subst hw
  have hs : W.seq (p, .ok ()) w2 = (p ++ (w2 ()).1, (w2 ()).2) := rfl
  rw [hs]
  refine ⟨p ++ q, by rw [b1, a1]; simp, ?_, ?_, ?_⟩
  · obtain ⟨t, ht⟩ := b2
    exact ⟨t, by simp [← ht]⟩
  · intro h; rw [b3 h]
  · intro e he
    rcases b4 e he with h | h
    · exact .inl (by rw [h])
    · exact .inr h

theorem follows_seq_error {σ : Type} {k : Sink σ} {content : σ → Bytes} {w : W} {w2 : Unit → W} {s s1 : σ} {e : Err}
    (h1 : Follows k content w s (.error e, s1)) : Follows k content (w.seq w2) s (.error e, s1) := by
  obtain ⟨p, a1, a2, -, a4⟩ := h1
  refine ⟨p, a1, ?_, (by intro h; cases h), ?_⟩
  · rcases w with ⟨b, r⟩
    cases r with
    | ok u => exact a2.trans (List.prefix_append _ _)
    | error e => exact a2
  · intro e' he
    rcases a4 e' he with h | h
    · subst h; exact .inl rfl
    · exact .inr h

theorem fieldToSink_follows {σ : Type} {k : Sink σ} {content : σ → Bytes} (hk : AppendOnly k content) (Γ : Classes) (n : Nat) (f : Field)
    (v ctx : Value) (all : Dict) (s : σ) : Follows k content (fieldToStream Γ n f v ctx all) s (fieldToSink k Γ n f v ctx all s) := by
  unfold fieldToSink
  cases h : (fieldToStream Γ n f v ctx all).toExcept with
  | error e =>
    have h2 := W.toExcept_error h
    have h1 := C14_field_dump_all_or_nothing Γ n f v ctx all e h2
    have : fieldToStream Γ n f v ctx all = W.fail e := Prod.ext h1 h2
    rw [this]
    exact follows_fail k content s e
  | ok chunk =>
    rw [W.toExcept_ok h]
    obtain ⟨p, h1, h2, h3⟩ := hk chunk s
    exact ⟨p, h2, h1, fun hr => by rw [h3 hr], fun e he => .inr ⟨chunk, s, he⟩⟩

theorem dumpFieldsTo_follows {σ : Type} {k : Sink σ} {content : σ → Bytes} {toStream : Field → Value → W}
    {toSink : Field → Value → σ → Except Err Unit × σ} (h : ∀ f v s, Follows k content (toStream f v) s (toSink f v s)) (all : Dict) (ctx : Value)
    (fs : List Field) (s : σ) : Follows k content (dumpFields toStream all ctx fs) s (dumpFieldsTo toSink all ctx fs s) := by
  induction fs generalizing s with
  | nil => exact follows_ok k content s
  | cons f fs ih =>
    simp only [dumpFields, dumpFieldsTo]
    cases hv : f.base.computeValueForDump all.view ctx with
    | error e => exact follows_fail k content s e
    | ok v =>
      simp only
      split
      · exact ih s
      · have h1 := h f v s
        rcases hr : toSink f v s with ⟨r, s1⟩
        rw [hr] at h1
        cases r with
        | error e => exact follows_seq_error h1
        | ok u => exact follows_seq_ok h1 (ih s1)

theorem partialDumpTo_follows {σ : Type} {k : Sink σ} {content : σ → Bytes} {toStream : Field → Value → W}
    {toSink : Field → Value → σ → Except Err Unit × σ} (h : ∀ f v s, Follows k content (toStream f v) s (toSink f v s)) (vals : Dict)
    (last : Option String) (fs : List Field) (s : σ) :
    Follows k content (partialDumpLoop toStream vals last fs) s (partialDumpTo toSink vals last fs s) := by
  induction fs generalizing s with
  | nil => exact follows_ok k content s
  | cons f fs ih =>
    have go : ∀ v, Follows k content ((toStream f v).seq fun _ => if some f.name = last then W.ok [] else partialDumpLoop toStream vals last fs) s
        (match toSink f v s with
          | (.error e, s) => (.error e, s)
          | (.ok _, s) => if some f.name = last then (.ok (), s) else partialDumpTo toSink vals last fs s) := by
      intro v
      have h1 := h f v s
      rcases hr : toSink f v s with ⟨r, s1⟩
      rw [hr] at h1
      cases r with
      | error e => exact follows_seq_error h1
      | ok u =>
        refine follows_seq_ok h1 ?_
        simp only
        split
        · exact follows_ok k content s1
        · exact ih s1
    simp only [partialDumpLoop, partialDumpTo]
    cases f.base.default with
    | error e => exact follows_fail k content s e
    | ok fallback =>
      simp only
      split
      · split
        · exact follows_ok k content s
        · cases f.base.required with
          | error e => exact follows_fail k content s e
          | ok b => cases b with
            | true => exact follows_fail k content s _
            | false => exact go _
      · exact go _

theorem structToSink_follows {σ : Type} {k : Sink σ} {content : σ → Bytes} (hk : AppendOnly k content) (Γ : Classes) (n : Nat) (d : StructDesc)
    (vals : Dict) (ctx : Value) (s : σ) : Follows k content (structToStream Γ n d vals ctx) s (structToSink k Γ n d vals ctx s) := by
  cases n with
  | zero => exact follows_fail k content s _
  | succ n =>
    simp only [structToStream, structToStreamWith, structToSink]
    cases validateContents d vals with
    | error e => exact follows_fail k content s e
    | ok u =>
      simp only
      cases structToDict Γ n d vals with
      | error e => exact follows_fail k content s e
      | ok all => exact dumpFieldsTo_follows (fun f v s => fieldToSink_follows hk Γ n f v ctx all s) all ctx d.components s

theorem bytesIO_appendOnly : AppendOnly bytesIO id := fun chunk _ => ⟨chunk, List.prefix_refl _, rfl, fun _ => rfl⟩

theorem device_appendOnly : AppendOnly device Prod.snd := by
  intro chunk s
  simp only [device]
  split
  · exact ⟨chunk, List.prefix_refl _, rfl, fun _ => rfl⟩
  · exact ⟨chunk.take s.1, List.take_prefix _ _, rfl, fun h => by cases h⟩

end Verif
