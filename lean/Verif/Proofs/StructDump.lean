import Verif.Proofs.Field
import Verif.Proofs.Dict
import Verif.Spec.Struct

/-! Helper lemmas about dumping structs. -/

namespace Verif
open Spec

theorem computeValueForDump_ok {b : FieldBase} {all : View} {ctx w : Value}
    (h : b.computeValueForDump all ctx = .ok w) :
    ∃ v, Chosen b all v ∧
      ((w = .notPresent ∧ (v = .notPresent ∨ b.present all ctx none = .ok false)) ∨
       (w = v ∧ v ≠ .notPresent ∧ v ≠ .undefined ∧ b.present all ctx none = .ok true)) := by
  have key : ∀ r : Except Err Value, (∀ v, r = .ok v → Chosen b all v) →
      ∀ x : Except Err Value, x = (match r with
        | .error e => .error e
        | .ok v =>
          if v = .notPresent then .ok .notPresent
          else
            match b.present all ctx none with
            | .error e => .error e
            | .ok false => .ok .notPresent
            | .ok true => if v = .undefined then .error (.missingRequired b.name) else .ok v) → x = .ok w →
      ∃ v, Chosen b all v ∧
      ((w = .notPresent ∧ (v = .notPresent ∨ b.present all ctx none = .ok false)) ∨
       (w = v ∧ v ≠ .notPresent ∧ v ≠ .undefined ∧ b.present all ctx none = .ok true)) := by
    intro r hr x hx hw
    subst hx
    cases r with
    | error e => simp at hw
    | ok v =>
      refine ⟨v, hr v rfl, ?_⟩
      simp only at hw
      split at hw
      · rename_i hv; left; simp at hw; exact ⟨hw.symm, Or.inl hv⟩
      · rename_i hv
        split at hw
        · simp at hw
        · rename_i hp; left; simp at hw; exact ⟨hw.symm, Or.inr hp⟩
        · rename_i hp
          split at hw
          · simp at hw
          · rename_i hu; right; simp at hw; exact ⟨hw.symm, hv, hu, hp⟩
  unfold FieldBase.computeValueForDump at h
  refine key _ ?_ _ rfl h
  intro v hv
  split at hv
  · rename_i hc; exact .explicit hc hv
  · rename_i hc
    simp at hc
    split at hv
    · rename_i hd; exact .default hc hd hv
    · rename_i hd
      simp at hd
      split at hv
      · rename_i fn hf; exact .computed hc hd hf hv
      · rename_i hf; simp at hv; subst hv; exact .nothing hc hd hf

theorem computeValueForDump_of_chosen {b : FieldBase} {all : View} {ctx v : Value} (h : Chosen b all v) :
    b.computeValueForDump all ctx =
      if v = .notPresent then .ok .notPresent
      else
        match b.present all ctx none with
        | .error e => .error e
        | .ok false => .ok .notPresent
        | .ok true => if v = .undefined then .error (.missingRequired b.name) else .ok v := by
  unfold FieldBase.computeValueForDump
  cases h with
  | explicit h1 h2 => simp only [h1, h2, if_true]; rfl
  | default h1 h2 h3 => simp only [h1, h2, h3, if_false, if_true, Bool.false_eq_true, ne_eq, not_false_eq_true]; rfl
  | computed h1 h2 h3 h4 =>
    simp only [h1, h2, h3, h4, if_false, Bool.false_eq_true, ne_eq, not_true_eq_false]; rfl
  | nothing h1 h2 h3 => simp only [h1, h2, h3, if_false, Bool.false_eq_true, ne_eq, not_true_eq_false]; rfl

theorem Chosen.unique {b : FieldBase} {all : View} {v w : Value} (h : Chosen b all v) (h' : Chosen b all w) : v = w := by
  cases h <;> cases h' <;> simp_all

theorem computeValueForDump_skipped {f : Field} {all : Dict} {ctx : Value} (h : Skipped f all ctx) :
    f.base.computeValueForDump all.view ctx = .ok .notPresent := by
  obtain ⟨v, hv, h⟩ := h
  rw [computeValueForDump_of_chosen hv]
  by_cases hn : v = .notPresent
  · rw [if_pos hn]
  · rw [if_neg hn]
    rcases h with h | h
    · exact absurd h hn
    · rw [h]

theorem computeValueForDump_dumped {f : Field} {all : Dict} {ctx v : Value} (h : Dumped f all ctx v) :
    f.base.computeValueForDump all.view ctx = .ok v := by
  obtain ⟨hv, h1, h2, h3⟩ := h
  rw [computeValueForDump_of_chosen hv, if_neg h1, h3]
  simp [h2]

theorem part_iff {Γ : Classes} {n : Nat} {ctx : Value} {all : Dict} {f : Field} {p : Bytes} :
    Part Γ n ctx all f p ↔ ∃ v, f.base.computeValueForDump all.view ctx = .ok v ∧
      ((v = .notPresent ∧ p = []) ∨ (v ≠ .notPresent ∧ fieldToStream Γ n f v ctx all = (p, .ok ()))) := by
  constructor
  · rintro (⟨h, rfl⟩ | ⟨v, h, hp⟩)
    · exact ⟨_, computeValueForDump_skipped h, Or.inl ⟨rfl, rfl⟩⟩
    · exact ⟨v, computeValueForDump_dumped h, Or.inr ⟨h.2.1, hp⟩⟩
  · rintro ⟨v, hv, h⟩
    obtain ⟨w, hw, h'⟩ := computeValueForDump_ok hv
    rcases h with ⟨rfl, rfl⟩ | ⟨hne, hp⟩
    · left; refine ⟨⟨w, hw, ?_⟩, rfl⟩
      rcases h' with ⟨-, h'⟩ | ⟨h', h2, -⟩
      · exact h'
      · exact absurd h'.symm h2
    · right; refine ⟨v, ?_, hp⟩
      rcases h' with ⟨h', -⟩ | ⟨rfl, h'⟩
      · exact absurd h' hne
      · exact ⟨hw, h'⟩

theorem W.seq_ok {a : W} {b : Unit → W} {bs : Bytes} {u : Unit} (h : a.seq b = (bs, .ok u)) :
    ∃ x y, a = (x, .ok ()) ∧ b () = (y, .ok ()) ∧ bs = x ++ y := by
  obtain ⟨x, r⟩ := a
  cases r with
  | error e => simp [W.seq] at h
  | ok v =>
    simp only [W.seq, Prod.mk.injEq] at h
    exact ⟨x, (b ()).1, rfl, by rw [Prod.ext_iff]; exact ⟨rfl, h.2⟩, h.1.symm⟩

theorem W.seq_error {a : W} {b : Unit → W} {bs : Bytes} {e : Err} (h : a.seq b = (bs, .error e)) :
    a = (bs, .error e) ∨ ∃ x y, a = (x, .ok ()) ∧ b () = (y, .error e) ∧ bs = x ++ y := by
  obtain ⟨x, r⟩ := a
  cases r with
  | error e' => simp only [W.seq] at h; exact Or.inl h
  | ok v =>
    simp only [W.seq, Prod.mk.injEq] at h
    exact Or.inr ⟨x, (b ()).1, rfl, by rw [Prod.ext_iff]; exact ⟨rfl, h.2⟩, h.1.symm⟩

theorem dumpFields_ok {Γ : Classes} {n : Nat} {ctx : Value} {all : Dict} {fs : List Field} {bs : Bytes} {u : Unit}
    (h : dumpFields (fun f v => fieldToStream Γ n f v ctx all) all ctx fs = (bs, .ok u)) :
    ∃ ps, Parts Γ n ctx all fs ps ∧ bs = ps.flatten := by
  induction fs generalizing bs with
  | nil => simp [dumpFields, W.ok] at h; exact ⟨[], .nil, by simp [h]⟩
  | cons f fs ih =>
    simp only [dumpFields] at h
    split at h
    · simp [W.fail] at h
    · rename_i v hv
      split at h
      · rename_i hn
        obtain ⟨ps, h1, h2⟩ := ih h
        exact ⟨[] :: ps, .cons (part_iff.2 ⟨v, hv, Or.inl ⟨hn, rfl⟩⟩) h1, by simp [h2]⟩
      · rename_i hn
        obtain ⟨x, y, h1, h2, h3⟩ := W.seq_ok h
        obtain ⟨ps, h4, h5⟩ := ih h2
        exact ⟨x :: ps, .cons (part_iff.2 ⟨v, hv, Or.inr ⟨hn, h1⟩⟩) h4, by simp [h3, h5]⟩

theorem dumpFields_parts {Γ : Classes} {n : Nat} {ctx : Value} {all : Dict} {fs : List Field} {ps : List Bytes}
    (h : Parts Γ n ctx all fs ps) :
    dumpFields (fun f v => fieldToStream Γ n f v ctx all) all ctx fs = (ps.flatten, .ok ()) := by
  induction h with
  | nil => rfl
  | cons hp hps ih =>
    obtain ⟨v, hv, h⟩ := part_iff.1 hp
    simp only [dumpFields, hv]
    rcases h with ⟨hn, rfl⟩ | ⟨hn, hp⟩
    · rw [if_pos hn, ih]; simp
    · rw [if_neg hn, ih, hp]; simp [W.seq]

theorem dumpFields_error {Γ : Classes} {n : Nat} {ctx : Value} {all : Dict} {fs : List Field} {bs : Bytes} {e : Err}
    (h : dumpFields (fun f v => fieldToStream Γ n f v ctx all) all ctx fs = (bs, .error e)) :
    ∃ pre f post ps, fs = pre ++ f :: post ∧ Parts Γ n ctx all pre ps ∧ bs = ps.flatten ∧
      (f.base.computeValueForDump all.view ctx = .error e ∨
       ∃ v, Dumped f all ctx v ∧ (fieldToStream Γ n f v ctx all).2 = .error e) := by
  induction fs generalizing bs with
  | nil => simp [dumpFields, W.ok] at h
  | cons f fs ih =>
    simp only [dumpFields] at h
    split at h
    · rename_i e' hv
      simp only [W.fail, Prod.mk.injEq, Except.error.injEq] at h
      exact ⟨[], f, fs, [], rfl, .nil, by simp [h.1.symm], Or.inl (by rw [hv, h.2])⟩
    · rename_i v hv
      split at h
      · rename_i hn
        obtain ⟨pre, g, post, ps, h1, h2, h3, h4⟩ := ih h
        exact ⟨f :: pre, g, post, [] :: ps, by simp [h1], .cons (part_iff.2 ⟨v, hv, Or.inl ⟨hn, rfl⟩⟩) h2,
          by simp [h3], h4⟩
      · rename_i hn
        rcases W.seq_error h with h1 | ⟨x, y, h1, h2, h3⟩
        · have hs : (fieldToStream Γ n f v ctx all).2 = .error e := by rw [h1]
          have hb : (fieldToStream Γ n f v ctx all).1 = [] := by
            cases n with
            | zero => cases f <;> rfl
            | succ n => rw [fieldToStream_succ] at hs ⊢; exact toStreamWith_error hs
          rw [h1] at hb
          refine ⟨[], f, fs, [], rfl, .nil, hb, Or.inr ⟨v, ?_, hs⟩⟩
          obtain ⟨w, hw, h'⟩ := computeValueForDump_ok hv
          rcases h' with ⟨h', -⟩ | ⟨rfl, h'⟩
          · exact absurd h' hn
          · exact ⟨hw, h'⟩
        · obtain ⟨pre, g, post, ps, h4, h5, h6, h7⟩ := ih h2
          exact ⟨f :: pre, g, post, x :: ps, by simp [h4], .cons (part_iff.2 ⟨v, hv, Or.inr ⟨hn, h1⟩⟩) h5,
            by simp [h3, h6], h7⟩

theorem runAll_ok {α : Type} {check : α → Except Err Unit} {l : List α} {u : Unit} (h : runAll check l = .ok u) :
    ∀ a ∈ l, check a = .ok () := by
  induction l with
  | nil => simp
  | cons a r ih =>
    simp only [runAll] at h
    split at h
    · simp at h
    · rename_i hc
      intro x hx
      rcases List.mem_cons.1 hx with rfl | hx
      · exact hc
      · exact ih h x hx

theorem runAll_of {α : Type} {check : α → Except Err Unit} {l : List α} (h : ∀ a ∈ l, check a = .ok ()) :
    runAll check l = .ok () := by
  induction l with
  | nil => rfl
  | cons a r ih => simp [runAll, h a List.mem_cons_self, ih fun x hx => h x (List.mem_cons_of_mem _ hx)]

theorem validateField_ok_iff {d : StructDesc} {vals : Dict} {p : String × List (View → Value → Except Err Unit)} :
    validateField d vals p = .ok () ↔ ∃ f v, d.find? p.1 = some f ∧ structGetItem d vals p.1 = .ok v ∧
    (∀ c ∈ f.base.validators, c v = .ok ()) ∧ ∀ m ∈ p.2, m (structView d vals) v = .ok () := by
  unfold validateField
  cases hf : d.find? p.1 with
  | none => simp
  | some f =>
    simp only
    cases hv : structGetItem d vals p.1 with
    | error e => simp
    | ok v =>
      simp only
      cases hr : runValidators f.base.validators v with
      | error e =>
        constructor
        · intro h; simp at h
        · rintro ⟨f', v', h1, h2, h3, -⟩
          simp only [Option.some.injEq, Except.ok.injEq] at h1 h2
          subst h1; subst h2
          rw [(runValidators_ok_iff _ _).2 h3] at hr; simp at hr
      | ok u =>
        constructor
        · intro h; exact ⟨f, v, rfl, rfl, runValidators_unit hr, runAll_ok h⟩
        · rintro ⟨f', v', h1, h2, -, h4⟩
          simp only [Option.some.injEq, Except.ok.injEq] at h1 h2
          subst h1; subst h2
          exact runAll_of h4

theorem validateContents_ok_iff {d : StructDesc} {vals : Dict} : validateContents d vals = .ok () ↔ Valid d vals := by
  unfold validateContents Valid
  cases h : runAll (validateField d vals) d.fieldValidators with
  | error e =>
    constructor
    · intro h; simp at h
    · rintro ⟨h1, -⟩
      have := runAll_of (check := validateField d vals) (l := d.fieldValidators)
        fun p hp => validateField_ok_iff.2 (h1 p hp)
      rw [h] at this; simp at this
  | ok u =>
    constructor
    · intro h'; exact ⟨fun p hp => validateField_ok_iff.1 (runAll_ok h p hp), runAll_ok h'⟩
    · rintro ⟨-, h2⟩; exact runAll_of h2

theorem structToStream_ok_iff {Γ : Classes} {n : Nat} {d : StructDesc} {vals : Dict} {ctx : Value} {bs : Bytes} :
    structToStream Γ (n + 1) d vals ctx = (bs, .ok ()) ↔
      Valid d vals ∧ ∃ all, structToDict Γ n d vals = .ok all ∧ ∃ ps, Parts Γ n ctx all d.components ps ∧
        bs = ps.flatten := by
  simp only [structToStream, structToStreamWith]
  rw [← validateContents_ok_iff]
  cases hv : validateContents d vals with
  | error e => simp [W.fail]
  | ok u =>
    cases u
    simp only [true_and]
    cases ha : structToDict Γ n d vals with
    | error e => simp [W.fail]
    | ok all =>
      simp only [Except.ok.injEq, exists_eq_left']
      constructor
      · exact dumpFields_ok
      · rintro ⟨ps, h1, rfl⟩; exact dumpFields_parts h1

end Verif
