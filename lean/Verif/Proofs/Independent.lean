import Verif.Spec.Independent

namespace Verif
open Spec

theorem toStreamWith_congr {b : FieldBase} {d1 d2 : Value → W} {n1 n2 : Except Err Bytes} {e1 e2 : Except Err Int}
    {p : Bytes → Int → Except Err Bytes} (hd : ∀ v, d1 v = d2 v) (hn : n1 = n2) (hr : (∃ r, b.size = .ref r) → e1 = e2) (v : Value) :
    toStreamWith b d1 n1 e1 p v = toStreamWith b d2 n2 e2 p v := by
  have : d1 = d2 := funext hd
  subst this
  subst hn
  have hf : ∀ s, finishDump b e1 p s = finishDump b e2 p s := by
    intro s
    unfold finishDump
    cases hs : b.size with
    | fixed k => rfl
    | none => rfl
    | ref r => rw [hr ⟨r, hs⟩]
  unfold toStreamWith
  simp only [hf]

/-- The dump of an independent field does not depend on the values of other fields. -/
theorem Spec.Independent.dump {f : Field} (h : Independent f) (Γ : Classes) (n : Nat) (v ctx : Value) (all all' : Dict) :
    fieldToStream Γ n f v ctx all = fieldToStream Γ n f v ctx all' := by
  induction h generalizing n v ctx with
  | @leaf b k hk hs =>
    cases n with
    | zero => rfl
    | succ n =>
      simp only [fieldToStream]
      rcases hs with ⟨s, hs⟩ | ⟨hk', hs, hn⟩
      · have he : ∀ all, leafExpectedSize b k all = .ok s := by
          intro all
          simp [leafExpectedSize, FieldBase.expectedSizeWith, hs]
        have hd : ∀ e v ctx, leafDump b k e v ctx all = leafDump b k e v ctx all' := by
          intro e v ctx
          cases k <;> first | rfl | (rename_i ops; exact absurd rfl (hk ops))
        refine toStreamWith_congr (fun v => ?_) ?_ (fun ⟨r, hr⟩ => by rw [hs] at hr; simp at hr) v
        · rw [he, he, hd]
        · simp only [leafNullRepr, he, hd]
      · have hd : ∀ e e' v ctx, leafDump b k e v ctx all = leafDump b k e' v ctx all' := by
          intro e e' v ctx
          cases k <;> first | rfl | (simp [NeedsSize] at hk')
        refine toStreamWith_congr (fun v => hd _ _ _ _) ?_ (fun ⟨r, hr⟩ => by rw [hs] at hr; simp at hr) v
        simp only [leafNullRepr, FieldBase.nullReprWith, hn]
  | @array b comp count halt hc hcount hs ih =>
    cases n with
    | zero => rfl
    | succ n =>
      have hd : ∀ v ctx, containerDump Γ (fieldToStream Γ n) (structToStream Γ n) (.array b comp count halt) v ctx all =
          containerDump Γ (fieldToStream Γ n) (structToStream Γ n) (.array b comp count halt) v ctx all' := by
        intro v ctx
        simp only [containerDump]
        have h1 : (fun v => fieldToStream Γ n comp v ctx all) = fun v => fieldToStream Γ n comp v ctx all' :=
          funext fun v => ih n v ctx
        rw [h1]
        unfold arrayDump
        have h2 : finalElementCount count all = finalElementCount count all' := by
          cases count with
          | none => rfl
          | fixed k => rfl
          | ref r => exact absurd rfl (hcount r)
        rw [h2]
      simp only [fieldToStream]
      refine toStreamWith_congr (fun v => hd v ctx) ?_ (fun ⟨r, hr⟩ => ?_) v
      · simp only [hd]
        rcases hs with ⟨s, hs⟩ | ⟨-, hs, hn⟩
        · simp [containerNullRepr, containerExpectedSize, FieldBase.expectedSizeWith, Field.base, hs]
        · simp [containerNullRepr, FieldBase.nullReprWith, Field.base, hn]
      · simp only [Field.base] at hr
        rcases hs with ⟨s, hs⟩ | ⟨-, hs, -⟩ <;> rw [hs] at hr <;> simp at hr
  | @nested b cls hs =>
    cases n with
    | zero => rfl
    | succ n =>
      simp only [fieldToStream]
      refine toStreamWith_congr (fun v => rfl) ?_ (fun ⟨r, hr⟩ => ?_) v
      · rcases hs with ⟨s, hs⟩ | ⟨-, hs, hn⟩
        · simp [containerNullRepr, containerExpectedSize, FieldBase.expectedSizeWith, Field.base, hs, containerDump]
        · simp [containerNullRepr, FieldBase.nullReprWith, Field.base, hn]
      · simp only [Field.base] at hr
        rcases hs with ⟨s, hs⟩ | ⟨-, hs, -⟩ <;> rw [hs] at hr <;> simp at hr

end Verif
