import Verif.Spec.Frame
import Verif.Proofs.Independent
import Verif.Proofs.StructDump
import Verif.Proofs.ToDict

namespace Verif
open Spec

theorem Spec.AgreeOff.view {S : String → Prop} {a b : Dict} (h : AgreeOff S a b) : ViewsAgreeOff S a.view b.view := by
  intro k hk
  have := h k hk
  simp only [Dict.view, Dict.contains_eq, this]
  exact ⟨trivial, trivial⟩

theorem expectedSizeWith_agree {S : String → Prop} {b : FieldBase} {sf : Value → Except Err (Option Int)}
    {nr nr' : Except Err Bytes} {a a' : Dict} (hb : BaseUnaware S b) (hn : nr = nr') (ha : AgreeOff S a a') :
    b.expectedSizeWith sf nr a = b.expectedSizeWith sf nr' a' := by
  subst hn
  have h1 : b.sizingValue a = b.sizingValue a' := by unfold FieldBase.sizingValue; rw [ha _ hb.name]
  unfold FieldBase.expectedSizeWith
  cases hs : b.size with
  | fixed k => rfl
  | none => simp only [h1]
  | ref r => simp only [sizeFromRef, ha _ (hb.size r hs)]

theorem computeValueForDump_agree {S : String → Prop} {b : FieldBase} {V V' : View} (hb : BaseUnaware S b)
    (h : ViewsAgreeOff S V V') (ctx : Value) : b.computeValueForDump V ctx = b.computeValueForDump V' ctx := by
  unfold FieldBase.computeValueForDump
  have h1 := h _ hb.name
  have h2 := hb.present V V' ctx none h
  rw [h1.1, h1.2, h2]
  cases hc : b.computeFn with
  | none => rfl
  | some fn => simp only [hb.compute fn hc V V' h]

theorem finalElementCount_agree {S : String → Prop} {count : Count} {a a' : Dict} (hc : ∀ r, count = .ref r → ¬ S r)
    (ha : AgreeOff S a a') : finalElementCount count a = finalElementCount count a' := by
  cases count with
  | none => rfl
  | fixed k => rfl
  | ref r => simp only [finalElementCount, ha _ (hc r rfl)]

theorem Spec.Unaware.base {S : String → Prop} {f : Field} (h : Unaware S f) : BaseUnaware S f.base := by
  cases h <;> assumption

theorem container_agree {S : String → Prop} {Γ : Classes} {n : Nat} {f : Field} (hb : BaseUnaware S f.base) {a a' : Dict}
    (ha : AgreeOff S a a') (hl : ∀ b k, f ≠ .leaf b k)
    (hd : ∀ v ctx, containerDump Γ (fieldToStream Γ n) (structToStream Γ n) f v ctx a =
      containerDump Γ (fieldToStream Γ n) (structToStream Γ n) f v ctx a') (v ctx : Value) :
    fieldToStream Γ (n + 1) f v ctx a = fieldToStream Γ (n + 1) f v ctx a' := by
  have he : containerExpectedSize f.base (fun v => containerDump Γ (fieldToStream Γ n) (structToStream Γ n) f v .none a) a =
      containerExpectedSize f.base (fun v => containerDump Γ (fieldToStream Γ n) (structToStream Γ n) f v .none a') a' := by
    unfold containerExpectedSize
    refine expectedSizeWith_agree hb ?_ ha
    simp only [hd]
  cases f with
  | leaf b k => exact absurd rfl (hl b k)
  | array b comp count halt =>
    simp only [fieldToStream]
    refine toStreamWith_congr (fun v => hd v ctx) ?_ (fun _ => he) v
    simp only [containerNullRepr]
    rw [he]
    simp only [hd]
  | nested b cls =>
    simp only [fieldToStream]
    refine toStreamWith_congr (fun v => hd v ctx) ?_ (fun _ => he) v
    simp only [containerNullRepr]
    rw [he]
    simp only [hd]
  | union b cs ld dd =>
    simp only [fieldToStream]
    refine toStreamWith_congr (fun v => hd v ctx) ?_ (fun _ => he) v
    simp only [containerNullRepr]
    rw [he]
    simp only [hd]

/-- The dump of a field that does not look at the fields in `S` does not depend on their values. -/
theorem Spec.Unaware.dump {S : String → Prop} {f : Field} (h : Unaware S f) (Γ : Classes) (n : Nat) (v ctx : Value) {a a' : Dict}
    (ha : AgreeOff S a a') : fieldToStream Γ n f v ctx a = fieldToStream Γ n f v ctx a' := by
  induction h generalizing n v ctx with
  | @leaf b k hb hk =>
    cases n with
    | zero => rfl
    | succ n =>
      have hd : ∀ e v ctx, leafDump b k e v ctx a = leafDump b k e v ctx a' := by
        intro e v ctx
        cases k <;> first | rfl | skip
        rename_i ops
        exact hk ops rfl v ctx a a' ha
      have he : leafExpectedSize b k a = leafExpectedSize b k a' := by
        simp only [leafExpectedSize]
        refine expectedSizeWith_agree hb ?_ ha
        simp only [hd]
      simp only [fieldToStream]
      refine toStreamWith_congr (fun v => ?_) ?_ (fun _ => he) v
      · rw [he, hd]
      · simp only [leafNullRepr, he, hd]
  | @array b comp count halt hb hc hcount ih =>
    cases n with
    | zero => rfl
    | succ n =>
      refine container_agree (f := .array b comp count halt) hb ha (by simp) ?_ v ctx
      intro v ctx
      simp only [containerDump]
      have h1 : (fun v => fieldToStream Γ n comp v ctx a) = fun v => fieldToStream Γ n comp v ctx a' :=
        funext fun v => ih n v ctx
      rw [h1]
      unfold arrayDump
      rw [finalElementCount_agree hcount ha]
  | @nested b cls hb =>
    cases n with
    | zero => rfl
    | succ n => exact container_agree (f := .nested b cls) hb ha (by simp) (fun v ctx => rfl) v ctx
  | @union b cs ld dd hb hc hdd ih =>
    cases n with
    | zero => rfl
    | succ n =>
      refine container_agree (f := .union b cs ld dd) hb ha (by simp) ?_ v ctx
      intro v ctx
      simp only [containerDump]
      rw [hdd v ctx a a' ha]
      split
      · rfl
      · rename_i i hi
        split
        · rfl
        · rename_i g hg
          exact ih g (List.mem_of_getElem? hg) n v ctx
        · rfl

theorem structContains_agree {S : String → Prop} {vals vals' : Dict} (hn : (Dict.keys vals).Nodup) (hn' : (Dict.keys vals').Nodup)
    (h : AgreeOff S vals vals') {k : String} (hk : ¬ S k) : structContains vals k = structContains vals' k := by
  rw [Bool.eq_iff_iff, structContains_iff hn, structContains_iff hn', h k hk]

theorem structGet_agree {S : String → Prop} {d : StructDesc} {vals vals' : Dict} (hs : Separated S d)
    (hn : (Dict.keys vals).Nodup) (hn' : (Dict.keys vals').Nodup) (h : AgreeOff S vals vals') (n : Nat) {k : String} (hk : ¬ S k) :
    structGet d vals n k = structGet d vals' n k := by
  induction n generalizing k with
  | zero => rfl
  | succ n ih =>
    simp only [structGet]
    cases hf : d.find? k with
    | none => rfl
    | some f =>
      obtain ⟨hm, rfl⟩ := find?_some hf
      have hu : Unaware S f := (hs f hm).resolve_left hk
      simp only [h _ hk]
      cases Dict.get? vals' f.name with
      | some v => rfl
      | none =>
        exact computeValueForDump_agree hu.base (fun k hk => ⟨structContains_agree hn hn' h hk, ih hk⟩) .none

theorem structView_agree {S : String → Prop} {d : StructDesc} {vals vals' : Dict} (hs : Separated S d)
    (hn : (Dict.keys vals).Nodup) (hn' : (Dict.keys vals').Nodup) (h : AgreeOff S vals vals') :
    ViewsAgreeOff S (structView d vals) (structView d vals') :=
  fun _ hk => ⟨structContains_agree hn hn' h hk, structGet_agree hs hn hn' h _ hk⟩

theorem mem_names {d : StructDesc} {k : String} (h : k ∈ names d) : ∃ f ∈ d.components, f.name = k := List.mem_map.1 h

/-- The same fields outside `S`. -/
def SameFieldsOff (S : String → Prop) (d d' : StructDesc) : Prop :=
  ∀ f : Field, ¬ S f.name → (f ∈ d.components ↔ f ∈ d'.components)

theorem get?_eq_of_names {d d' : StructDesc} {S : String → Prop} {a b : Dict} (hc : SameFieldsOff S d d')
    (ha : ∀ k ∈ Dict.keys a, k ∈ names d) (hb : ∀ k ∈ Dict.keys b, k ∈ names d')
    (h : ∀ f ∈ d.components, f ∈ d'.components → ¬ S f.name → Dict.get? a f.name = Dict.get? b f.name) : AgreeOff S a b := by
  intro k hk
  by_cases hm : k ∈ names d
  · obtain ⟨f, hf, rfl⟩ := mem_names hm
    exact h f hf ((hc f hk).1 hf) hk
  · have hm' : k ∉ names d' := by
      intro hx
      obtain ⟨f, hf, rfl⟩ := mem_names hx
      exact hm (List.mem_map.2 ⟨f, (hc f hk).2 hf, rfl⟩)
    rw [(Dict.get?_none_iff a k).2 fun hx => hm (ha k hx), (Dict.get?_none_iff b k).2 fun hx => hm' (hb k hx)]

/-- Two instances, of the same class or of classes with the same fields outside `S`, that agree outside `S`. -/
structure TwoRuns (S : String → Prop) (d d' : StructDesc) (vals vals' : Dict) : Prop where
  unique : UniqueNames d
  unique' : UniqueNames d'
  inst : Instance d vals
  inst' : Instance d' vals'
  fields : SameFieldsOff S d d'
  separated : Separated S d
  agree : AgreeOff S vals vals'
  views : ViewsAgreeOff S (structView d vals) (structView d' vals')

theorem whateverPossible_agree {S : String → Prop} {d d' : StructDesc} {vals vals' w w' : Dict} (h : TwoRuns S d d' vals vals')
    (hw : whateverPossible d vals = .ok w) (hw' : whateverPossible d' vals' = .ok w') : AgreeOff S w w' := by
  obtain ⟨-, h1, h2⟩ := whateverPossible_get h.unique h.inst hw
  obtain ⟨-, h3, h4⟩ := whateverPossible_get h.unique' h.inst' hw'
  refine get?_eq_of_names h.fields h1 h3 fun f hf hf' hk => ?_
  have hu : Unaware S f := (h.separated f hf).resolve_left hk
  have hc := computeValueForDump_agree hu.base h.views .none
  have hsc := (h.views f.name hk).1
  have hg := h.agree _ hk
  simp only [structView] at hsc
  rcases h2 f hf with ⟨v, a1, a2⟩ | ⟨e, a1, a2, a3⟩ <;> rcases h4 f hf' with ⟨v', b1, b2⟩ | ⟨e', b1, b2, b3⟩
  · rw [hc, b1] at a1; cases a1; rw [a2, b2]
  · rw [hc, b1] at a1; cases a1
  · rw [hc, b1] at a1; cases a1
  · rw [hsc] at a3
    rcases a3 with ⟨a3, v, a4, a5⟩ | ⟨a3, a5⟩ <;> rcases b3 with ⟨b3, v', b4, b5⟩ | ⟨b3, b5⟩
    · rw [hg, b4] at a4; cases a4; rw [a5, b5]
    · rw [a3] at b3; cases b3
    · rw [a3] at b3; cases b3
    · rw [a5, b5]

theorem DictValue_agree {S : String → Prop} {d d' : StructDesc} {vals vals' : Dict} {f : Field} {v v' : Value}
    (h : TwoRuns S d d' vals vals') (hf : f ∈ d.components) (hk : ¬ S f.name) (hv : DictValue d vals f v)
    (hv' : DictValue d' vals' f v') : v = v' := by
  have hu : Unaware S f := (h.separated f hf).resolve_left hk
  have hc := computeValueForDump_agree hu.base h.views .none
  have hsc := (h.views f.name hk).1
  have hg := h.agree _ hk
  simp only [structView] at hsc
  unfold DictValue at hv hv'
  rw [hc, hsc, hg] at hv
  rcases hv with a1 | ⟨e, a1, a2, a3⟩ <;> rcases hv' with b1 | ⟨e', b1, b2, b3⟩
  · rw [b1] at a1; cases a1; rfl
  · rw [b1] at a1; cases a1
  · rw [b1] at a1; cases a1
  · rcases a3 with ⟨a3, a4⟩ | ⟨a3, w, a4, a5, a6⟩ <;> rcases b3 with ⟨b3, b4⟩ | ⟨b3, w', b4, b5, b6⟩
    · rw [b4] at a4; cases a4; rfl
    · rw [a3] at b3; cases b3
    · rw [a3] at b3; cases b3
    · have hww := whateverPossible_agree h a4 b4
      rw [computeValueForDump_agree hu.base hww.view, b6] at a6
      cases a6; rfl

theorem structToDict_agree {S : String → Prop} {Γ : Classes} {n : Nat} {d d' : StructDesc} {vals vals' all all' : Dict}
    (h : TwoRuns S d d' vals vals') (ha : structToDict Γ n d vals = .ok all) (ha' : structToDict Γ n d' vals' = .ok all') :
    AgreeOff S all all' := by
  obtain ⟨-, h1, h2⟩ := structToDict_get h.unique h.inst ha
  obtain ⟨-, h3, h4⟩ := structToDict_get h.unique' h.inst' ha'
  refine get?_eq_of_names h.fields h1 h3 fun f hf hf' hk => ?_
  rcases h2 f hf with ⟨-, a1, a2⟩ | ⟨a1, v, w, a2, a3, a4⟩ <;> rcases h4 f hf' with ⟨-, b1, b2⟩ | ⟨b1, v', w', b2, b3, b4⟩
  · rw [a2, b2]
  · simp [a1] at b1
  · simp [b1] at a1
  · have := DictValue_agree h hf hk a2 b2
    subst this
    rw [a3] at b3; cases b3
    rw [a4, b4]

theorem TwoRuns.same {S : String → Prop} {d : StructDesc} {vals vals' : Dict} (hd : UniqueNames d) (hs : Separated S d)
    (hi : Instance d vals) (hi' : Instance d vals') (h : AgreeOff S vals vals') : TwoRuns S d d vals vals' :=
  ⟨hd, hd, hi, hi', fun _ _ => Iff.rfl, hs, h, structView_agree hs hi.1 hi'.1 h⟩

theorem Part_agree {S : String → Prop} {Γ : Classes} {n : Nat} {ctx : Value} {a a' : Dict} {f : Field} {p p' : Bytes}
    (hu : Unaware S f) (ha : AgreeOff S a a') (hp : Part Γ n ctx a f p) (hp' : Part Γ n ctx a' f p') : p = p' := by
  have h1 := computeValueForDump_agree hu.base ha.view ctx
  rcases hp with ⟨x1, rfl⟩ | ⟨v, x1, x2⟩ <;> rcases hp' with ⟨y1, rfl⟩ | ⟨v', y1, y2⟩
  · rfl
  · rw [computeValueForDump_skipped x1, computeValueForDump_dumped y1] at h1
    simp only [Except.ok.injEq] at h1
    exact absurd h1.symm y1.2.1
  · rw [computeValueForDump_dumped x1, computeValueForDump_skipped y1] at h1
    simp only [Except.ok.injEq] at h1
    exact absurd h1 x1.2.1
  · rw [computeValueForDump_dumped x1, computeValueForDump_dumped y1] at h1
    simp only [Except.ok.injEq] at h1
    subst h1
    rw [hu.dump Γ n v ctx ha, y2] at x2
    simpa using x2.symm

theorem Parts_length {Γ : Classes} {n : Nat} {ctx : Value} {all : Dict} {fs : List Field} {ps : List Bytes}
    (h : Parts Γ n ctx all fs ps) : ps.length = fs.length := by
  induction h with
  | nil => rfl
  | cons _ _ ih => simp [ih]

theorem Parts_agree {S : String → Prop} {Γ : Classes} {n : Nat} {ctx : Value} {a a' : Dict} {fs : List Field} {ps ps' : List Bytes}
    (hs : ∀ f ∈ fs, S f.name ∨ Unaware S f) (ha : AgreeOff S a a') (hp : Parts Γ n ctx a fs ps) (hp' : Parts Γ n ctx a' fs ps') :
    SameOff S fs ps ps' := by
  induction hp generalizing ps' with
  | nil => cases hp'; intro i f hf; simp at hf
  | @cons f fs p ps h1 h2 ih =>
    cases hp' with
    | cons h3 h4 =>
      intro i g hg hk
      cases i with
      | zero =>
        simp at hg; subst hg
        have hu := (hs f (by simp)).resolve_left hk
        simp [Part_agree hu ha h1 h3]
      | succ i =>
        simp only [List.getElem?_cons_succ] at hg ⊢
        exact ih (fun f hf => hs f (by simp [hf])) h4 i g hg hk

end Verif
