import Verif.Proofs.Locality
import Verif.Spec.Optional

/-!
# Nullable fields do not look ahead

If the bytes that stand for `None` can also be read as a value of the field, the bytes of no other value begin them.
-/

namespace Verif
open Spec

theorem read_negative {s : Stream} {n : Int} (h : n < 0) (hs : s.pos ≤ s.data.length) : (s.read n).2.pos = s.data.length := by
  simp only [Stream.read, h, if_true, List.length_drop]
  omega

/-- A negative size reads everything there is. -/
theorem leafLoad_negative {b : FieldBase} {k : Leaf} (hk : TakesSize k) {loaded : Dict} {n : Int} (hn : leafExpectedSize b k loaded = .ok n)
    (h0 : n < 0) {s t : Stream} (hs : s.pos ≤ s.data.length) {ctx v : Value}
    (h : leafLoad b k (leafExpectedSize b k loaded) s ctx loaded = (.ok v, t)) : t.pos = s.data.length := by
  have hr := read_negative h0 hs
  have h1 : ∀ sg en, (readInt s n sg en).2 = (s.read n).2 := by
    intro sg en; unfold readInt; simp only; split <;> rfl
  have h2 : (readExactSize b.name (.ok n) s).2 = (s.read n).2 := by
    unfold readExactSize; simp only; split <;> rfl
  have ht : t = (leafLoad b k (leafExpectedSize b k loaded) s ctx loaded).2 := by rw [h]
  rw [ht, ← hr]
  cases k with
  | integer sg en =>
    cases hb : b.size with
    | fixed m =>
      have hm : m = n := by simpa [leafExpectedSize, FieldBase.expectedSizeWith, hb] using hn
      subst hm
      simp only [leafLoad, hb, R.map, h1]
    | none => simp [leafLoad, hb] at h
    | ref r => simp [leafLoad, hb] at h
  | float fmt en => simp only [leafLoad, hn, R.andThen, h2]
  | timestamp res tz sg en => simp only [leafLoad, hn, R.andThen, h1]
  | bytes => simp only [leafLoad, hn, R.map, h2]
  | string c p => simp only [leafLoad, hn, R.andThen, h2]
  | _ => exact hk.elim

theorem Spec.NullReads.local {b : FieldBase} {k : Leaf} {repr : Bytes} {nv : Value} (h : NullReads b k repr nv) (hk : ∀ ops, k ≠ .custom ops)
    (ctx : Value) (loaded : Dict) : Local true fun s => leafLoad b k (leafExpectedSize b k loaded) s ctx loaded := by
  refine leafLoad_local_of (fun ops ho => absurd ho (hk ops)) (fun hz n hn => ?_) ctx
  rcases Int.lt_or_le n 0 with h0 | h0
  · have := leafLoad_negative hz hn h0 (s := ⟨[] ++ repr ++ [0], 0⟩) (by simp) (h.2.2 [] [0] ctx loaded)
    simp at this
  · exact .inl h0

/-- If the bytes for `None` would otherwise be read as a value, the bytes of no (other) value begin them. -/
theorem Spec.NullReads.unpeeking {Γ : Classes} {b : FieldBase} {k : Leaf} {repr : Bytes} {nv : Value} (h : NullReads b k repr nv)
    (hk : ∀ ops, k ≠ .custom ops) (hp : ∀ w ctx, NoLookahead fun s => b.present w ctx (some s)) : Unpeeking Γ (.leaf b k) := by
  refine ⟨hp, .inr fun n loaded repr' pre used post ctx v hr hload hpre => ?_⟩
  cases n with
  | zero => simp [fieldDoLoad] at hload
  | succ n =>
    simp only [fieldDoLoad] at hload
    simp only [fieldNullRepr, h.1 loaded, Except.ok.injEq] at hr
    subst hr
    obtain ⟨x, rfl⟩ := hpre
    have h1 := h.local hk ctx loaded pre used post v hload (.inr rfl) (x ++ [])
    have h2 := h.2.2 pre [] ctx loaded
    simp only [List.append_assoc] at h1 h2
    rw [h2] at h1
    simp only [Prod.mk.injEq, Stream.mk.injEq, List.length_append] at h1
    have : x.length = 0 := by omega
    simp [List.length_eq_zero_iff.1 this]

theorem Spec.Layout.loadsForward {earlier : List String} {f : Field} (h : Layout earlier f) : LoadsForward f := by
  induction h with
  | array _ _ _ _ _ ih => exact .array ih
  | nested => exact .nested
  | union _ _ _ _ _ ih => exact .union ih
  | _ => exact .leaf (by simp)

theorem Spec.Layout.looksBehind_of {Γ : Classes} {earlier : List String} {f : Field} (h : Layout earlier f) (ha : Unpeeking Γ f) : LooksBehind Γ f := by
  have hu : ∀ {f : Field}, Always f.base → Unpeeking Γ f :=
    fun h => ⟨fun w ctx s t _ => by simp only [h.1], .inl h.2⟩
  induction h with
  | array _ _ _ hc _ ih => exact .array ha (ih (hu hc)) (by simp)
  | nested => exact .nested ha
  | union _ _ hdec hc _ ih =>
    exact .union ha (fun c loaded s t _ => (hdec s .none c c loaded loaded fun _ _ => rfl).trans (hdec t .none c c loaded loaded fun _ _ => rfl).symm)
      fun g hg => ih g hg (hu (hc g hg))
  | _ => exact .leaf ha (by simp)

theorem Spec.Layout.looksBehind {Γ : Classes} {earlier : List String} {f : Field} (h : Layout earlier f) (ha : Always f.base) : LooksBehind Γ f :=
  h.looksBehind_of ⟨fun w ctx s t _ => by simp only [ha.1], .inl ha.2⟩

theorem Spec.Layout.not_custom {earlier : List String} {b : FieldBase} {k : Leaf} (h : Layout earlier (.leaf b k)) : ∀ ops, k ≠ .custom ops := by
  rintro ops rfl
  cases h

/-- Fields of classes with optional and nullable fields do not look ahead. -/
theorem Spec.OptionalField.looksBehind {Γ : Classes} {fields pre : List Field} {f : Field} (h : OptionalField Γ fields pre f) : LooksBehind Γ f := by
  refine h.layout.looksBehind_of ?_
  have hp : ∀ w ctx, NoLookahead fun s => f.base.present w ctx (some s) := by
    obtain ⟨refs, -, hd⟩ := h.optional
    exact fun w ctx s t _ => hd w w ctx ctx _ _ fun _ _ => rfl
  rcases h.null with hn | ⟨b, k, repr, nv, rfl, hn⟩
  · exact ⟨hp, .inl hn⟩
  · exact hn.unpeeking h.layout.not_custom hp

end Verif
