import Verif.Proofs.Versions

/-!
# Old data, new program, and the other way round

C110.
-/

namespace Verif
open Spec

/-- **C110** What version `i` of the program loads, every later version loads, up to the same place of the stream: the fields version `i` has
get the same values, the later ones are absent. -/
theorem C110_new_reads_old (Γ : Classes) (n : Nat) (vs : Nat → StructDesc) (own : Nat → List Field) (tag : String) (hv : Versions vs own tag)
    (ha : ∀ i, AcceptsAbsent (vs i) (vs (i + 1)) (own i)) (i j : Nat) (x : Int) (s s' : Stream) (ctx : Value) (r : Dict)
    (h : structFromStream Γ (n + 1) (vs i) s ctx [] = (.ok r, s')) (ht : Dict.get? r tag = some (.int x)) (hx : x ≤ i) :
    ∃ r', structFromStream Γ (n + 1) (vs (i + j)) s ctx [] = (.ok r', s') ∧ (∀ k ∈ names (vs i), Dict.get? r' k = Dict.get? r k) ∧
      ∀ f ∈ newFields own i j, Dict.get? r' f.name = if f.base.discard then none else some f.base.notPresentValue := by
  induction j with
  | zero => exact ⟨r, h, fun _ _ => rfl, by simp [newFields]⟩
  | succ j ih =>
    obtain ⟨r1, h1, h2, h3⟩ := ih
    have hin : tag ∈ names (vs i) := by
      obtain ⟨f, h4, h5, -⟩ := hv.tag_mem i
      exact List.mem_map.2 ⟨f, h4, h5⟩
    have hs : ∀ f ∈ own (i + j), ∃ m, Since tag m f.base ∧ x < m :=
      fun f hf => ⟨_, hv.since (i + j) f hf, by push_cast; omega⟩
    obtain ⟨r2, h4, h5, h6⟩ := loads_old (hv.extend (i + j)) (hv.unique (i + j + 1)) hs (ha (i + j)) h1 (by rw [h2 tag hin]; exact ht)
    have hsub := (hv.extends_to i j).names
    refine ⟨r2, h4, fun k hk => ?_, fun f hf => ?_⟩
    · rw [h5 k (by rw [hsub]; simp [hk]), h2 k hk]
    · rcases List.mem_append.1 hf with hf | hf
      · rw [h5 f.name (by rw [hsub]; exact List.mem_append_right _ (List.mem_map.2 ⟨f, hf, rfl⟩)), h3 f hf]
      · exact h6 f hf

/-- **C110** Data of version `i` or older that a later version of the program loads, version `i` loads as well, up to the same place of the
stream and with the same values. -/
theorem C110_old_reads_new (Γ : Classes) (n : Nat) (vs : Nat → StructDesc) (own : Nat → List Field) (tag : String) (hv : Versions vs own tag)
    (i j : Nat) (hn : ∀ p ∈ (vs i).fieldValidators, p.1 ∈ names (vs i)) (hl : LocalValidators (vs i))
    (x : Int) (s s' : Stream) (ctx : Value) (r' : Dict)
    (h : structFromStream Γ (n + 1) (vs (i + j)) s ctx [] = (.ok r', s')) (ht : Dict.get? r' tag = some (.int x)) (hx : x ≤ i) :
    ∃ r, structFromStream Γ (n + 1) (vs i) s ctx [] = (.ok r, s') ∧ (∀ k ∈ names (vs i), Dict.get? r k = Dict.get? r' k) ∧
      ∀ k ∈ Dict.keys r, k ∈ names (vs i) := by
  obtain ⟨r, t, seen, results, h1, h2, h3, h4, h5⟩ :=
    C72_load_base Γ n (vs i) (vs (i + j)) _ s s' ctx r' (hv.extends_to i j) (hv.unique _) hn hl h
  have hin : tag ∈ names (vs i) := by
    obtain ⟨f, h6, h7, -⟩ := hv.tag_mem i
    exact List.mem_map.2 ⟨f, h6, h7⟩
  have := loads_absent_stays h5 (h4 tag _ (by rw [h2 tag hin]; exact ht)) (hv.absent hx)
  subst this
  exact ⟨r, h1, h2, h3⟩

/-- **C110** An instance with the version number of an old format is dumped by a new version of the program to the very bytes the old version
dumps for it. -/
theorem C110_same_dump (Γ : Classes) (n : Nat) (vs : Nat → StructDesc) (own : Nat → List Field) (tag : String) (hv : Versions vs own tag)
    (i j : Nat) (vals valsb : Dict) (x : Int) (ctx : Value) (bs bsb : Bytes)
    (hi : Instance (vs (i + j)) vals) (hib : Instance (vs i) valsb) (hsame : ∀ k ∈ names (vs i), Dict.get? valsb k = Dict.get? vals k)
    (hu : ∀ f ∈ (vs i).components, Unaware (· ∈ (newFields own i j).map Field.name) f)
    (hc : ∀ f ∈ (vs i).components, CallsUnaware (fun k => k ∉ names (vs i) ∨ Dict.get? vals k = none) f.base)
    (ht : Dict.get? vals tag = some (.int x)) (hx : x ≤ i)
    (h : structToStream Γ (n + 1) (vs (i + j)) vals ctx = (bs, .ok ()))
    (hb : structToStream Γ (n + 1) (vs i) valsb ctx = (bsb, .ok ())) : bs = bsb := by
  have he := hv.extends_to i j
  obtain ⟨-, all, h1, ps, h2, rfl⟩ := structToStream_ok_iff.1 h
  obtain ⟨-, allb, h3, psb, h4, rfl⟩ := structToStream_ok_iff.1 hb
  have ha := structToDict_agree (he.twoRuns (hv.unique _) hi hib hsame hu hc) h3 h1
  obtain ⟨f, hf, rfl, hnd, hp⟩ := hv.tag_mem (i + j)
  have htag := toDict_tag (hv.unique _) hi h1 hf hnd hp ht
  rw [he.components] at h2
  have habs := hv.absent (j := j) hx
  clear h h1 h3 hb
  suffices key : ∀ (fs : List Field) (xs ys : List Bytes), (∀ f ∈ fs, Unaware (· ∈ (newFields own i j).map Field.name) f) →
      Parts Γ n ctx allb fs xs → Parts Γ n ctx all (fs ++ newFields own i j) ys → ys.flatten = xs.flatten from
    key _ psb ps hu h4 h2
  intro fs xs ys hf hx hy
  induction hx generalizing ys with
  | nil => exact parts_absent hy htag habs
  | @cons f fs p xs h5 h6 ih =>
    cases hy with
    | cons h7 h8 =>
      rw [List.flatten_cons, List.flatten_cons, Part_agree (hf f (by simp)) ha h5 h7, ih _ (fun g hg => hf g (by simp [hg])) h8]

/-- **C110** When the checks of a new version accept old data: the new class has the same validator methods, those only look at the fields of
the old class, and the validators of the new fields accept the value of an absent field. -/
theorem C110_accepts (b d : StructDesc) (own : List Field) (he : Extends b d own) (hd : UniqueNames d)
    (hn : ∀ p ∈ b.fieldValidators, p.1 ∈ names b) (hl : LocalValidators b)
    (hf : ∀ p ∈ d.fieldValidators, p ∈ b.fieldValidators ∨ ∃ f ∈ own, p = (f.name, [])) (hs : ∀ m ∈ d.structValidators, m ∈ b.structValidators)
    (hown : ∀ f ∈ own, ∀ c ∈ f.base.validators, c f.base.notPresentValue = .ok ()) : AcceptsAbsent b d own := by
  intro vals vals' hi hi' hsame hset habs hv
  have hub := he.unique hd
  have hsub : ∀ k ∈ names b, k ∈ names d := fun k hk => by rw [he.names]; exact List.mem_append_left _ hk
  have hstored : ∀ k ∈ names b, ∃ v, Dict.get? vals k = some v := by
    intro k hk
    cases hm : Dict.get? vals k with
    | none => exact absurd hm (hset k hk)
    | some v => exact ⟨v, rfl⟩
  have hviews : ViewsAgreeOff (· ∉ names b) (structView d vals') (structView b vals) := by
    intro k hk
    have hk' : k ∈ names b := Classical.not_not.1 hk
    obtain ⟨v, hv⟩ := hstored k hk'
    refine ⟨?_, ?_⟩
    · simp only [structView]
      rw [Bool.eq_iff_iff, structContains_iff hi'.1, structContains_iff hi.1, hsame k hk']
    · simp only [structView]
      rw [structGetItem_stored hk' hv, structGetItem_stored (hsub k hk') (by rw [hsame k hk']; exact hv)]
  refine ⟨fun p hp => ?_, fun m hm => ?_⟩
  · rcases hf p hp with hb | ⟨f, hfo, rfl⟩
    · obtain ⟨f, v, h1, h2, h3, h4⟩ := hv.1 p hb
      have hpn := hn p hb
      obtain ⟨g, hg, hgn⟩ := mem_names hpn
      have hfg : b.find? p.1 = some g := by rw [← hgn]; exact find?_of_mem hub hg
      rw [hfg] at h1; cases h1
      obtain ⟨w, hw⟩ := hstored p.1 hpn
      rw [structGetItem_stored hpn hw] at h2; cases h2
      refine ⟨f, v, by rw [← hgn]; exact find?_of_mem hd (by rw [he.components]; simp [hg]),
        structGetItem_stored (hsub _ hpn) (by rw [hsame _ hpn]; exact hw), h3, fun m hm => ?_⟩
      rw [hl.1 p hb m hm _ _ v hviews]
      exact h4 m hm
    · have hfd : f ∈ d.components := by rw [he.components]; simp [hfo]
      exact ⟨f, _, find?_of_mem hd hfd, structGetItem_stored (List.mem_map.2 ⟨f, hfd, rfl⟩) (habs f hfo), hown f hfo, by simp⟩
  · rw [hl.2 m (hs m hm) _ _ hviews]
    exact hv.2 m (hs m hm)

/-! ### Example: a saved game -/

namespace Sample

/-- `lambda f, *_: f["version"] >= i` -/
def sinceVersion (i : Int) : View → Value → Option Stream → Except Err Bool := fun V _ _ =>
  match V.get "version" with
  | .ok (.int x) => .ok (decide (i ≤ x))
  | .ok _ => .error .typeErr
  | .error e => .error e

/-- ```
lives = UInt8(present=lambda f, *_: f["version"] >= 1)
``` -/
def livesField : Field := upd (u8 "lives") ({ · with index := 2, present := sinceVersion 1 })
/-- ```
level = UInt16(endian="big", present=lambda f, *_: f["version"] >= 2)
``` -/
def levelField : Field := upd (u16 "level") ({ · with index := 3, present := sinceVersion 2 })

/-- ```
class Save(Struct):
    version = UInt8()
    score = UInt16(endian="big")

class Save1(Save):
    lives = UInt8(present=lambda f, *_: f["version"] >= 1)

class Save2(Save1):
    level = UInt16(endian="big", present=lambda f, *_: f["version"] >= 2)
``` -/
def saveVersions : Nat → StructDesc
  | 0 => { name := "Save", components := [upd (u8 "version") ({ · with offset := some 0 }), upd (u16 "score") ({ · with index := 1, offset := some 1 })]
           fieldValidators := [("version", []), ("score", [])], structValidators := [], numOwnFields := 2, sizeBytes := some 3 }
  | 1 => { name := "Save1", components := [upd (u8 "version") ({ · with offset := some 0 }), upd (u16 "score") ({ · with index := 1, offset := some 1 }), livesField]
           fieldValidators := [("version", []), ("score", []), ("lives", [])], structValidators := [], numOwnFields := 1, sizeBytes := none }
  | _ => { name := "Save2", components := [upd (u8 "version") ({ · with offset := some 0 }), upd (u16 "score") ({ · with index := 1, offset := some 1 }), livesField, levelField]
           fieldValidators := [("version", []), ("score", []), ("lives", []), ("level", [])], structValidators := [], numOwnFields := 1, sizeBytes := none }

def saveOwn : Nat → List Field
  | 0 => [livesField]
  | 1 => [levelField]
  | _ => []

theorem sinceVersion_since {b : FieldBase} {i : Int} (h : b.present = sinceVersion i) : Since "version" i b := by
  intro V ctx s x hx
  rw [h]; simp only [sinceVersion, hx]

theorem save_versions : Versions saveVersions saveOwn "version" := by
  refine ⟨fun i => ?_, fun i => ?_, ⟨_, by simp [saveVersions]; exact .inl rfl, rfl, rfl, rfl⟩, fun i => ?_⟩
  · match i with
    | 0 => exact ⟨rfl, fun p hp => ⟨p, by simp [saveVersions] at hp ⊢; tauto, rfl, fun _ h => h⟩, fun m hm => by simp [saveVersions] at hm⟩
    | 1 => exact ⟨rfl, fun p hp => ⟨p, by simp [saveVersions] at hp ⊢; tauto, rfl, fun _ h => h⟩, fun m hm => by simp [saveVersions] at hm⟩
    | i + 2 => exact ⟨rfl, fun p hp => ⟨p, hp, rfl, fun _ h => h⟩, fun m hm => hm⟩
  · match i with
    | 0 => unfold UniqueNames; decide
    | 1 => unfold UniqueNames; decide
    | i + 2 => show UniqueNames (saveVersions 2); unfold UniqueNames; decide
  · match i with
    | 0 => intro f hf; simp [saveOwn] at hf; subst hf; exact sinceVersion_since rfl
    | 1 => intro f hf; simp [saveOwn] at hf; subst hf; exact sinceVersion_since rfl
    | i + 2 => intro f hf; simp [saveOwn] at hf

theorem save_local (i : Nat) : LocalValidators (saveVersions i) := by
  refine ⟨fun p hp m hm => ?_, fun m hm => ?_⟩
  · match i with
    | 0 => simp [saveVersions] at hp; rcases hp with rfl | rfl <;> simp at hm
    | 1 => simp [saveVersions] at hp; rcases hp with rfl | rfl | rfl <;> simp at hm
    | i + 2 => simp [saveVersions] at hp; rcases hp with rfl | rfl | rfl | rfl <;> simp at hm
  · match i with
    | 0 => simp [saveVersions] at hm
    | 1 => simp [saveVersions] at hm
    | i + 2 => simp [saveVersions] at hm

theorem save_named (i : Nat) : ∀ p ∈ (saveVersions i).fieldValidators, p.1 ∈ names (saveVersions i) := by
  match i with
  | 0 => decide
  | 1 => decide
  | i + 2 => show ∀ p ∈ (saveVersions 2).fieldValidators, p.1 ∈ names (saveVersions 2); decide

theorem save_accepts (i : Nat) : AcceptsAbsent (saveVersions i) (saveVersions (i + 1)) (saveOwn i) := by
  refine C110_accepts _ _ _ (save_versions.extend i) (save_versions.unique (i + 1)) (save_named i) (save_local i) ?_ ?_ ?_
  · match i with
    | 0 => intro p hp; simp [saveVersions, saveOwn] at hp ⊢; rcases hp with rfl | rfl | rfl <;> simp; rfl
    | 1 => intro p hp; simp [saveVersions, saveOwn] at hp ⊢; rcases hp with rfl | rfl | rfl | rfl <;> simp; rfl
    | i + 2 => intro p hp; exact .inl hp
  · match i with
    | 0 => intro m hm; simp [saveVersions] at hm
    | 1 => intro m hm; simp [saveVersions] at hm
    | i + 2 => intro m hm; exact hm
  · match i with
    | 0 => intro f hf c hc; simp [saveOwn] at hf; subst hf; simp [livesField, upd, u8, Field.withBase, Field.base] at hc
    | 1 => intro f hf c hc; simp [saveOwn] at hf; subst hf; simp [levelField, upd, u16, Field.withBase, Field.base] at hc
    | i + 2 => intro f hf; simp [saveOwn] at hf

end Sample

/-- A game saved by the first version of the program, loaded by any version. -/
example (j : Nat) : ∃ r', structFromStream Sample.noClasses 4 (Sample.saveVersions (0 + j)) ⟨[0, 1, 44, 7], 0⟩ .none [] = (.ok r', ⟨[0, 1, 44, 7], 3⟩) ∧
    Dict.get? r' "score" = some (.int 300) := by
  obtain ⟨r', h1, h2, -⟩ := C110_new_reads_old Sample.noClasses 3 Sample.saveVersions Sample.saveOwn "version" Sample.save_versions
    Sample.save_accepts 0 j 0 ⟨[0, 1, 44, 7], 0⟩ ⟨[0, 1, 44, 7], 3⟩ .none [("version", .int 0), ("score", .int 300)] (by decide) rfl (by decide)
  exact ⟨r', h1, by rw [h2 "score" (by decide)]; rfl⟩

/-- And one that the last version wrote in the format of version 1, loaded by version 1. -/
example : ∃ r, structFromStream Sample.noClasses 4 (Sample.saveVersions 1) ⟨[1, 1, 44, 7, 9], 0⟩ .none [] = (.ok r, ⟨[1, 1, 44, 7, 9], 4⟩) ∧
    Dict.get? r "lives" = some (.int 7) := by
  obtain ⟨r, h1, h2, -⟩ := C110_old_reads_new Sample.noClasses 3 Sample.saveVersions Sample.saveOwn "version" Sample.save_versions
    1 1 (Sample.save_named 1) (Sample.save_local 1) 1 ⟨[1, 1, 44, 7, 9], 0⟩ ⟨[1, 1, 44, 7, 9], 4⟩ .none
    [("version", .int 1), ("score", .int 300), ("lives", .int 7), ("level", .notPresent)] (by decide) rfl (by decide)
  exact ⟨r, h1, by rw [h2 "lives" (by decide)]; rfl⟩

/-- The hypotheses of `C110_same_dump` hold. -/
example (bs bsb : Bytes) (v : Value)
    (h : structToStream Sample.noClasses 4 (Sample.saveVersions (0 + 2)) [("version", .int 0), ("score", .int 300), ("lives", v)] .none = (bs, .ok ()))
    (hb : structToStream Sample.noClasses 4 (Sample.saveVersions 0) [("version", .int 0), ("score", .int 300)] .none = (bsb, .ok ())) : bs = bsb := by
  refine C110_same_dump Sample.noClasses 3 Sample.saveVersions Sample.saveOwn "version" Sample.save_versions 0 2 _ _ 0 .none bs bsb
    ?_ ?_ ?_ ?_ ?_ rfl (by decide) h hb
  · exact ⟨by simp [Dict.keys], by simp [Dict.keys]; decide⟩
  · exact ⟨by simp [Dict.keys], by simp [Dict.keys]; decide⟩
  · intro k hk
    have : k = "version" ∨ k = "score" := by simpa [Spec.names, Sample.saveVersions, Sample.upd, Sample.u8, Sample.u16, Field.name, Field.base, Field.withBase] using hk
    rcases this with rfl | rfl <;> rfl
  · intro f hf
    simp only [Sample.saveVersions, List.mem_cons, List.not_mem_nil, or_false] at hf
    rcases hf with rfl | rfl
    · exact .leaf (.plain (by decide) (fun r hr => by cases hr) rfl rfl) (fun ops hx => by cases hx)
    · exact .leaf (.plain (by decide) (fun r hr => by cases hr) rfl rfl) (fun ops hx => by cases hx)
  · intro f hf
    simp only [Sample.saveVersions, List.mem_cons, List.not_mem_nil, or_false] at hf
    rcases hf with rfl | rfl
    · exact ⟨fun _ _ _ _ _ => rfl, fun fn hx => by cases hx⟩
    · exact ⟨fun _ _ _ _ _ => rfl, fun fn hx => by cases hx⟩

namespace Sample

/-- `validate=lambda v: check(v < 100)`, which raises a `TypeError` for `NOT_PRESENT < 100`. -/
def below100 : Value → Except Err Unit
  | .int x => if x < 100 then .ok () else .error (.validation "lives")
  | _ => .error .typeErr

/-- ```
class Save1(Save):
    lives = UInt8(present=lambda f, *_: f["version"] >= 1, validate=below100)
``` -/
def strictVersions : Nat → StructDesc
  | 0 => saveVersions 0
  | _ => { name := "Save1", components := [upd (u8 "version") ({ · with offset := some 0 }), upd (u16 "score") ({ · with index := 1, offset := some 1 }),
                             upd livesField ({ · with validators := [below100] })]
           fieldValidators := [("version", []), ("score", []), ("lives", [])], structValidators := [], numOwnFields := 1, sizeBytes := none }

def strictOwn : Nat → List Field
  | 0 => [upd livesField ({ · with validators := [below100] })]
  | _ => []

theorem strict_versions : Versions strictVersions strictOwn "version" := by
  refine ⟨fun i => ?_, fun i => ?_, ⟨_, by simp [strictVersions, saveVersions]; exact .inl rfl, rfl, rfl, rfl⟩, fun i => ?_⟩
  · match i with
    | 0 => exact ⟨rfl, fun p hp => ⟨p, by simp [strictVersions, saveVersions] at hp ⊢; tauto, rfl, fun _ h => h⟩,
        fun m hm => by simp [strictVersions, saveVersions] at hm⟩
    | i + 1 => exact ⟨rfl, fun p hp => ⟨p, hp, rfl, fun _ h => h⟩, fun m hm => hm⟩
  · match i with
    | 0 => unfold UniqueNames; decide
    | i + 1 => show UniqueNames (strictVersions 1); unfold UniqueNames; decide
  · match i with
    | 0 => intro f hf; simp [strictOwn] at hf; subst hf; exact sinceVersion_since rfl
    | i + 1 => intro f hf; simp [strictOwn] at hf

end Sample

/-- **Refuted**: without the condition on the checks.  The validators of a new field run on old data as well, with `NOT_PRESENT` (structures.py
342-364), so adding an optional field with a validator can make the program reject its old files. -/
theorem C110_validator_refuted :
    ¬ ∀ (Γ : Classes) (n : Nat) (vs : Nat → StructDesc) (own : Nat → List Field) (tag : String), Versions vs own tag →
      ∀ (i j : Nat) (x : Int) (s s' : Stream) (ctx : Value) (r : Dict), structFromStream Γ (n + 1) (vs i) s ctx [] = (.ok r, s') →
        Dict.get? r tag = some (.int x) → x ≤ i → ∃ r' t, structFromStream Γ (n + 1) (vs (i + j)) s ctx [] = (.ok r', t) := by
  intro h
  obtain ⟨r', t, h1⟩ := h Sample.noClasses 3 Sample.strictVersions Sample.strictOwn "version" Sample.strict_versions 0 1 0
    ⟨[0, 1, 44], 0⟩ ⟨[0, 1, 44], 3⟩ .none [("version", .int 0), ("score", .int 300)] (by decide) rfl (by decide)
  have h2 : (structFromStream Sample.noClasses 4 (Sample.strictVersions 1) ⟨[0, 1, 44], 0⟩ .none []).1 = .error .typeErr := by decide
  rw [show (3 : Nat) + 1 = 4 from rfl, show 0 + 1 = 1 from rfl] at h1
  rw [h1] at h2
  simp at h2

end Verif
