import Verif.Proofs.Live
import Verif.Spec.Samples

/-! # C95: a dump is the dump of one set of values, whatever the compute functions do -/
namespace Verif
open Verif.Spec

variable {S : Type}

/-- **C95**, what holds.  Let the compute functions be anything: clocks, counters, random numbers.  One call of
`s.to_stream(…)` validates, then makes one dictionary `all`, with a value for every field that is not discarded; from then on no unruly compute function
is called, and what is written is what `Cls(**all)` writes.  So everything in one dump - sizes, element counts, the values
themselves - refers to one and the same set of values.  What is missing: that `all` passes the validators (they were shown
other values), and that computed fields were computed from it; both are refuted below.  Compute functions of
discarded fields, which `all` leaves out and which are called once more while writing, must be functions. -/
theorem C95_snapshot_partial {C : LiveClasses S} {n : Nat} {c : LiveClass S} {vals all : Dict} {ctx : Value} {s s₁ s₂ : S}
    (hd : UniqueNames c.desc) (hi : Instance c.desc vals) (hdis : ∀ f ∈ c.desc.components, f.base.discard = true → ComputesAs c f)
    (hp : ∀ f ∈ c.desc.components, PresentAs c f)
    (hv : liveValidate c vals s = (.ok (), s₁)) (hall : liveToDict C n c vals s₁ = (.ok all, s₂)) :
    (∀ f ∈ c.desc.components, f.base.discard = false → ∃ v, Dict.get? all f.name = some v ∧ v ≠ .undefined) ∧
    liveToStream C n c vals ctx s =
      (dumpFields (fun f v => fieldToStream C.plain n f v ctx all) all ctx c.desc.components, s₂) ∧
    structInit c.desc all = .ok all ∧
    (StillPresent c.desc all → Recoverable c.desc all → validateContents c.desc all = .ok () →
      liveToStream C n c vals ctx s = (structToStream C.plain (n + 1) c.desc all ctx, s₂)) := by
  obtain ⟨h1, h2, h3⟩ := liveToDict_ok hd hi hall
  have hii : Instance c.desc all := ⟨h1.1, fun k hk => by
    obtain ⟨p, hp, rfl⟩ := List.mem_map.1 hk
    exact (h1.2 p hp).1⟩
  have hdump : liveToStream C n c vals ctx s =
      (dumpFields (fun f v => fieldToStream C.plain n f v ctx all) all ctx c.desc.components, s₂) := by
    simp only [liveToStream, hv, hall]
    refine liveDumpFields_eq ?_ hp s₂
    intro f hf hc
    cases hfd : f.base.discard with
    | true => exact hdis f hf hfd
    | false =>
      rw [(Dict.contains_iff all f.name).2 ((h2 f hf).2 hfd)] at hc
      simp at hc
  refine ⟨?_, hdump, ?_, ?_⟩
  · intro f hf hfd
    cases hg : Dict.get? all f.name with
    | none => exact absurd ((h2 f hf).2 hfd) ((Dict.get?_none_iff _ _).1 hg)
    | some v => exact ⟨v, rfl, (h1.2 (f.name, v) (Dict.get?_some_mem hg)).2⟩
  · have : (Dict.keys all).filter (fun k => !c.desc.has k) = [] := by
      rw [List.filter_eq_nil_iff]
      intro k hk
      simp [has_iff.2 (hii.2 k hk)]
    simp only [structInit, this, ne_eq, not_true_eq_false, if_false]
  · intro hsp hr hval
    have hs : toDictShallow c.desc all false = .ok all := by
      refine toDictShallow_self hd hii (fun p hp => (h1.2 p hp).2) ?_ hsp hr
      intro f hf
      rw [Dict.get?_none_iff, h2 f hf]
      simp
    have hst : structToDict C.plain n c.desc all = .ok all := by
      simp only [structToDict, hs]
      exact mapDictE_still (h3 _)
    rw [hdump]
    simp only [structToStream, structToStreamWith, hval, hst]

/-- When the callables are functions, all this is the model of the other claims, and the state of the world is untouched.  It
is enough that this is so of the compute functions that are called: those of the fields that have not been given a value
(a struct that was loaded has a value for every field, so dumping it again calls none). -/
theorem C95_deterministic {C : LiveClasses S} {n : Nat} {c : LiveClass S} {vals : Dict} {ctx : Value} {s : S}
    (hdet : Deterministic c fun f => structContains vals f.name = true ∧ f.base.discard = false)
    (hC : ∀ cls c', C cls = some c' → Deterministic c' fun _ => False) (hi : Instance c.desc vals) :
    liveToStream C n c vals ctx s = (structToStream C.plain (n + 1) c.desc vals ctx, s) := by
  have hc : ∀ f ∈ c.desc.components, structContains vals f.name = false → ComputesAs c f := fun f hf h =>
    hdet.compute f hf fun hx => by rw [h] at hx; simp at hx
  simp only [liveToStream, structToStream, structToStreamWith, liveValidate_eq hc hdet.present hdet.depth hdet.validate s]
  cases validateContents c.desc vals with
  | error e => rfl
  | ok _ =>
    have h1 : liveToDict C n c vals s = (structToDict C.plain n c.desc vals, s) := by
      simp only [liveToDict, structToDict, Prog.andThen, liveToDictShallow_eq hc hdet.present hdet.depth s]
      cases toDictShallow c.desc vals false with
      | error e => rfl
      | ok dct => exact liveMapDictE_eq (fun v s => liveToDicts_eq hC n v s) dct s
    simp only [h1]
    cases ha : structToDict C.plain n c.desc vals with
    | error e => rfl
    | ok all =>
      simp only
      refine liveDumpFields_eq ?_ hdet.present s
      intro f hf hn
      refine hdet.compute f hf fun hx => ?_
      rcases (structToDict_get hdet.names hi ha).2.2 f hf with ⟨-, h2, -⟩ | ⟨-, v, w, -, -, h2⟩
      · rw [hx.2] at h2; simp at h2
      · rw [(Dict.contains_iff all f.name).2 (Dict.get?_some_key h2)] at hn
        simp at hn

namespace Sample

/-- ```
class Ticket(Struct):
    nonce = UInt8()
    copy = UInt8()

    @nonce.computes
    def _nonce(self, all_fields): return next(counter)

    @copy.computes
    def _copy(self, all_fields): return all_fields["nonce"]
```
The state of the world is the next number of the counter. -/
def ticket : LiveClass Nat :=
  { desc := { name := "Ticket"
              components := [upd (u8 "nonce") ({ · with offset := some 0 }),
                upd (u8 "copy") ({ · with index := 1, offset := some 1, computeFn := some fun all => all.get "nonce" })]
              fieldValidators := [("nonce", []), ("copy", [])], numOwnFields := 2, sizeBytes := some 2 }
    compute := fun k => if k = "nonce" then some (fun _ s => (.ok (.int s), s + 1))
      else if k = "copy" then some (fun all => all.get "nonce") else none
    present := fun _ _ _ => Prog.pure (.ok true)
    fieldValidators := [("nonce", []), ("copy", [])]
    structValidators := []
    depth := 3 }

/-- ```
class Odd(Struct):
    nonce = UInt8()

    @nonce.computes
    def _nonce(self, all_fields): return next(counter)

    @validates_struct
    def _check(self): if self["nonce"] % 2 == 0: raise ValidationError
``` -/
def odd : LiveClass Nat :=
  { desc := { name := "Odd", components := [upd (u8 "nonce") ({ · with offset := some 0 })]
              fieldValidators := [("nonce", [])], numOwnFields := 1, sizeBytes := some 1
              structValidators := [fun all => (all.get "nonce").bind fun v =>
                if v = .int 1 ∨ v = .int 3 then .ok () else .error (.validation "nonce")] }
    compute := fun k => if k = "nonce" then some (fun _ s => (.ok (.int s), s + 1)) else none
    present := fun _ _ _ => Prog.pure (.ok true)
    fieldValidators := [("nonce", [])]
    structValidators := [fun all => (all.get "nonce").andThen fun v => Prog.pure
      (if v = .int 1 ∨ v = .int 3 then .ok () else .error (.validation "nonce"))]
    depth := 2 }

/-- ```
class Drawn(Struct):
    magic = UInt8(const=127, discard=True)
    nonce = UInt8()

    @nonce.computes
    def _nonce(self, all_fields): return next(counter)
``` -/
def drawn : LiveClass Nat :=
  { desc := { name := "Drawn"
              components := [upd (u8 "magic") ({ · with offset := some 0, const := .int 127, dflt := .int 127, discard := true }),
                upd (u8 "nonce") ({ · with index := 1, offset := some 1 })]
              fieldValidators := [("magic", []), ("nonce", [])], numOwnFields := 2, sizeBytes := some 2 }
    compute := fun k => if k = "nonce" then some (fun _ s => (.ok (.int s), s + 1)) else none
    present := fun _ _ _ => Prog.pure (.ok true)
    fieldValidators := [("magic", []), ("nonce", [])]
    structValidators := []
    depth := 3 }

def noLive : LiveClasses Nat := fun _ => none

end Sample

/-- **Refuted**: a computed field need not agree with the values it was computed from.  `Ticket().to_bytes()` with a counter that
starts at 0 writes `02 03`: the dictionary is made field by field, and `copy` reads `self["nonce"]`, which computes the nonce
anew.  (The documentation allows a computed field to rely on one that comes before it.) -/
theorem C95_computed_from_refuted :
    ¬ ∀ (C : LiveClasses Nat) (n : Nat) (c : LiveClass Nat) (vals all : Dict) (s s' : Nat), UniqueNames c.desc →
      Instance c.desc vals → liveToDict C n c vals s = (.ok all, s') → AsComputed c all := by
  intro h
  have := h Sample.noLive 3 Sample.ticket [] [("nonce", .int 2), ("copy", .int 3)] 2 4 (by unfold UniqueNames; decide)
    (by unfold Instance; decide) (by decide)
  obtain ⟨s, s', v, h1, h2⟩ := this (Sample.upd (Sample.u8 "copy") ({ · with index := 1, offset := some 1, computeFn := some fun all => all.get "nonce" }))
    (by simp [Sample.ticket]) (fun all => all.get "nonce") rfl rfl
  have h3 : v = .int 3 := by
    have : Dict.get? [("nonce", Value.int 2), ("copy", .int 3)] "copy" = some v := h2
    rw [show Dict.get? [("nonce", Value.int 2), ("copy", .int 3)] "copy" = some (.int 3) from by decide] at this
    simpa using this.symm
  subst h3
  have h4 : ((Dict.view [("nonce", Value.int 2), ("copy", .int 3)]).live : LiveView Nat).get "nonce" s = (.ok (.int 2), s) := rfl
  rw [h4] at h1
  simp at h1

example : liveToStream Sample.noLive 3 Sample.ticket [] .none 0 = (([2, 3], .ok ()), 4) := by decide

/-- **Refuted**: what is written need not have been seen by any validator.  `Odd().to_bytes()` with a counter that starts at 0
passes its validator, which was shown 1, and writes `02`. -/
theorem C95_validated_refuted :
    ¬ ∀ (C : LiveClasses Nat) (n : Nat) (c : LiveClass Nat) (vals all : Dict) (s s₁ s₂ : Nat), UniqueNames c.desc →
      Instance c.desc vals → ValidatesAs c → liveValidate c vals s = (.ok (), s₁) → liveToDict C n c vals s₁ = (.ok all, s₂) →
      validateContents c.desc all = .ok () := by
  intro h
  have := h Sample.noLive 3 Sample.odd [] [("nonce", .int 2)] 0 2 3 (by unfold UniqueNames; decide) (by unfold Instance; decide)
    ?_ (by decide) (by decide)
  · exact absurd this (by decide)
  · refine ⟨.cons ⟨rfl, .nil⟩ .nil, .cons ?_ .nil⟩
    intro v s
    simp only [View.live, Prog.andThen, Prog.pure_apply]
    cases v.get "nonce" <;> rfl

example : liveToStream Sample.noLive 3 Sample.odd [] .none 0 = (([2], .ok ()), 3) := by decide

/-- `Ticket()` meets the hypotheses of `C95_snapshot_partial`: it writes what `Ticket(nonce=2, copy=3)` writes. -/
example : liveToStream Sample.noLive 3 Sample.ticket [] .none 0 =
    (structToStream Sample.noLive.plain 4 Sample.ticket.desc [("nonce", .int 2), ("copy", .int 3)] .none, 4) := by
  refine (C95_snapshot_partial (s₁ := 2) (by unfold UniqueNames; decide) (by unfold Instance; decide) ?_ ?_ (by decide)
    (by decide)).2.2.2 ?_ ?_ (by decide)
  · intro f hf hfd
    simp [Sample.ticket] at hf
    rcases hf with rfl | rfl <;> cases hfd
  · intro f hf v ctx s
    simp [Sample.ticket] at hf
    rcases hf with rfl | rfl <;> rfl
  · intro f hf v hv _
    simp [Sample.ticket] at hf
    rcases hf with rfl | rfl <;> rfl
  · intro f hf hg
    simp [Sample.ticket] at hf
    rcases hf with rfl | rfl <;> cases hg

/-- `Drawn()`, with a magic number that is discarded: the dictionary has only the nonce, and all is written. -/
example : liveToStream Sample.noLive 3 Sample.drawn [] .none 0 = (([127, 1], .ok ()), 2) := by decide

example : liveToStream Sample.noLive 3 Sample.drawn [] .none 0 =
    (structToStream Sample.noLive.plain 4 Sample.drawn.desc [("nonce", .int 1)] .none, 2) := by
  refine (C95_snapshot_partial (s₁ := 1) (by unfold UniqueNames; decide) (by unfold Instance; decide) ?_ ?_ (by decide)
    (by decide)).2.2.2 ?_ ?_ (by decide)
  · intro f hf hfd
    simp [Sample.drawn] at hf
    rcases hf with rfl | rfl
    · exact ⟨fun _ => rfl, fun g hg => by cases hg⟩
    · cases hfd
  · intro f hf v ctx s
    simp [Sample.drawn] at hf
    rcases hf with rfl | rfl <;> rfl
  · intro f hf v hv _
    simp [Sample.drawn] at hf
    rcases hf with rfl | rfl <;> rfl
  · intro f hf hg
    simp [Sample.drawn] at hf
    rcases hf with rfl | rfl
    · exact ⟨.int 127, by decide⟩
    · cases hg

/-- A loaded ticket: both fields have a value, and `C95_deterministic` applies although `nonce` is drawn from a counter. -/
example : liveToStream Sample.noLive 3 Sample.ticket [("nonce", .int 7), ("copy", .int 7)] .none 0 =
    (structToStream Sample.noLive.plain 4 Sample.ticket.desc [("nonce", .int 7), ("copy", .int 7)] .none, 0) := by
  refine C95_deterministic ⟨by unfold UniqueNames; decide, ?_, ?_, ?_, rfl⟩ (by simp [Sample.noLive]) (by unfold Instance; decide)
  · intro f hf hx
    simp [Sample.ticket] at hf
    rcases hf with rfl | rfl <;> exact absurd ⟨by decide, rfl⟩ hx
  · intro f hf v ctx s
    simp [Sample.ticket] at hf
    rcases hf with rfl | rfl <;> rfl
  · exact ⟨.cons ⟨rfl, .nil⟩ (.cons ⟨rfl, .nil⟩ .nil), .nil⟩

/-- With the nonce given and `copy` computed from it, `copy` is a function of the nonce: the usual case. -/
example : Deterministic Sample.ticket (fun f => structContains [("nonce", .int 7)] f.name = true ∧ f.base.discard = false) ∧
    liveToStream Sample.noLive 3 Sample.ticket [("nonce", .int 7)] .none 0 = (([7, 7], .ok ()), 0) := by
  refine ⟨⟨by unfold UniqueNames; decide, ?_, ?_, ?_, rfl⟩, by decide⟩
  · intro f hf hx
    simp [Sample.ticket] at hf
    rcases hf with rfl | rfl
    · exact absurd ⟨by decide, rfl⟩ hx
    · refine ⟨fun h => by simp [Sample.upd, Sample.u8, Field.base, Field.withBase] at h, fun g hg => ⟨_, rfl, ?_⟩⟩
      intro v s
      have : g = fun all => all.get "nonce" := by
        have : some (fun all : View => all.get "nonce") = some g := hg
        simpa using this.symm
      subst this
      rfl
  · intro f hf v ctx s
    simp [Sample.ticket] at hf
    rcases hf with rfl | rfl <;> rfl
  · exact ⟨.cons ⟨rfl, .nil⟩ (.cons ⟨rfl, .nil⟩ .nil), .nil⟩

end Verif
