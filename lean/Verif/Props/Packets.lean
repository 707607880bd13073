import Verif.Spec.Packets
import Verif.Props.Journal
import Verif.Props.OptionalRecords

/-!
# Messages that arrive in packets

C114.
-/

namespace Verif
open Spec

/-- The beginning of a list of byte strings: some of them whole, then a part of the next. -/
theorem prefix_split (codes : List Bytes) (p : Bytes) (h : p <+: codes.flatten) :
    ∃ c₁ c₂ tail, codes = c₁ ++ c₂ ∧ p = c₁.flatten ++ tail ∧ (tail = [] ∨ ∃ b c₃, c₂ = b :: c₃ ∧ tail <+: b ∧ tail ≠ b) := by
  induction codes generalizing p with
  | nil =>
    have : p = [] := by simpa using h
    exact ⟨[], [], [], rfl, by simp [this], .inl rfl⟩
  | cons b codes ih =>
    rw [List.flatten_cons] at h
    by_cases hb : b <+: p
    · obtain ⟨q, rfl⟩ := hb
      obtain ⟨c₁, c₂, tail, h1, h2, h3⟩ := ih q ((List.prefix_append_right_inj b).1 h)
      exact ⟨b :: c₁, c₂, tail, by rw [h1]; rfl, by rw [h2]; simp, h3⟩
    · refine ⟨[], b :: codes, p, rfl, rfl, .inr ⟨b, codes, rfl, ?_, ?_⟩⟩
      · rcases Nat.le_total p.length b.length with hl | hl
        · exact List.prefix_of_prefix_length_le h (List.prefix_append _ _) hl
        · exact absurd (List.prefix_of_prefix_length_le (List.prefix_append _ _) h hl) hb
      · rintro rfl; exact hb (List.prefix_refl _)

theorem RecordedAll.split {Γ : Classes} {m : Nat} {d : StructDesc} {ctx : Value} {good : Dict → Bytes → Dict → Prop} {c₁ c₂ : List Bytes}
    {vals out : List Dict} (h : RecordedAll Γ m d ctx good vals (c₁ ++ c₂) out) :
    ∃ v₁ v₂ o₁ o₂, vals = v₁ ++ v₂ ∧ out = o₁ ++ o₂ ∧ RecordedAll Γ m d ctx good v₁ c₁ o₁ ∧ RecordedAll Γ m d ctx good v₂ c₂ o₂ := by
  induction c₁ generalizing vals out with
  | nil => exact ⟨[], vals, [], out, rfl, rfl, .nil, h⟩
  | cons b c₁ ih =>
    cases h with
    | cons hr h =>
      obtain ⟨v₁, v₂, o₁, o₂, rfl, rfl, h1, h2⟩ := ih h
      exact ⟨_ :: v₁, v₂, _ :: o₁, o₂, rfl, rfl, .cons hr h1, h2⟩

/-- What `receiveAll` returns: the records that are complete. -/
theorem receiveAll_all {Γ : Classes} {m : Nat} {d : StructDesc} {ctx : Value} {good : Dict → Bytes → Dict → Prop}
    (ht : ∀ vals bs r, good vals bs r → ∀ p, p <+: bs → p ≠ bs → ∀ pre, ∃ e, (structFromStream Γ m d ⟨pre ++ p, pre.length⟩ ctx []).1 = .error e)
    (h0 : TornOff Γ m d ctx []) (packets : List Bytes) (buffer : Bytes) (vals : List Dict) (codes : List Bytes) (out : List Dict)
    (hv : RecordedAll Γ m d ctx good vals codes out) (hp : buffer ++ packets.flatten <+: codes.flatten)
    (hb : buffer = [] ∨ ∃ b c, codes = b :: c ∧ buffer <+: b ∧ buffer ≠ b) :
    ∃ v₁ v₂ c₁ c₂ o₁ o₂, vals = v₁ ++ v₂ ∧ codes = c₁ ++ c₂ ∧ out = o₁ ++ o₂ ∧ RecordedAll Γ m d ctx good v₁ c₁ o₁ ∧ RecordedAll Γ m d ctx good v₂ c₂ o₂ ∧
      (receiveAll Γ m d ctx packets buffer).1.flatten = o₁ ∧
      buffer ++ packets.flatten = c₁.flatten ++ (receiveAll Γ m d ctx packets buffer).2 ∧
      ((receiveAll Γ m d ctx packets buffer).2 = [] ∨
        ∃ b c, c₂ = b :: c ∧ (receiveAll Γ m d ctx packets buffer).2 <+: b ∧ (receiveAll Γ m d ctx packets buffer).2 ≠ b) := by
  induction packets generalizing buffer vals codes out with
  | nil => exact ⟨[], vals, [], codes, [], out, rfl, rfl, rfl, .nil, hv, rfl, by simp [receiveAll], hb⟩
  | cons packet packets ih =>
    have hp' : buffer ++ packet <+: codes.flatten := by
      refine List.IsPrefix.trans ?_ hp
      rw [List.flatten_cons, ← List.append_assoc]
      exact List.prefix_append _ _
    obtain ⟨c₁, c₂, tail, rfl, h2, h3⟩ := prefix_split codes _ hp'
    obtain ⟨v₁, v₂, o₁, o₂, rfl, rfl, h4, h5⟩ := hv.split
    have htorn : TornOff Γ m d ctx tail := by
      rcases h3 with rfl | ⟨b, c₃, rfl, h3, h6⟩
      · exact h0
      · cases h5 with
        | cons hr _ => exact ⟨b, h3, h6, ht _ _ _ hr.1⟩
    have hnow : receive Γ m d ctx buffer packet = (o₁, tail) := by
      simp only [receive]
      rw [h2, journalRecords_all h4 htorn h0, List.drop_left]
    have hrest : tail ++ packets.flatten <+: c₂.flatten := by
      rw [List.flatten_cons, ← List.append_assoc, h2, List.flatten_append, List.append_assoc] at hp
      exact (List.prefix_append_right_inj _).1 hp
    obtain ⟨v₃, v₄, c₃, c₄, o₃, o₄, rfl, rfl, rfl, h7, h8, h9, h10, h11⟩ := ih tail v₂ c₂ o₂ h5 hrest h3
    have hall : receiveAll Γ m d ctx (packet :: packets) buffer =
        (o₁ :: (receiveAll Γ m d ctx packets tail).1, (receiveAll Γ m d ctx packets tail).2) := by
      simp only [receiveAll, hnow]
    rw [hall]
    refine ⟨v₁ ++ v₃, v₄, c₁ ++ c₃, c₄, o₁ ++ o₃, o₄, by simp, by simp, by simp, h4.append h7, h8, by simp [h9], ?_, h11⟩
    rw [List.flatten_cons, ← List.append_assoc, h2, List.append_assoc, h10]
    simp

theorem RecordedAll.lengths {Γ : Classes} {m : Nat} {d : StructDesc} {ctx : Value} {good : Dict → Bytes → Dict → Prop} {codes : List Bytes}
    {vals out : List Dict} (h : RecordedAll Γ m d ctx good vals codes out) : codes.length = out.length := by
  induction h with
  | nil => rfl
  | cons _ _ ih => simp [ih]

/-- There is only one way to split. -/
theorem split_unique {c₁ c₂ c₁' c₂' : List Bytes} {t t' : Bytes} (hne : ∀ b ∈ c₁ ++ c₂, b ≠ []) (hc : c₁ ++ c₂ = c₁' ++ c₂')
    (hp : c₁.flatten ++ t = c₁'.flatten ++ t') (ht : t = [] ∨ ∃ b c, c₂ = b :: c ∧ t <+: b ∧ t ≠ b)
    (ht' : t' = [] ∨ ∃ b c, c₂' = b :: c ∧ t' <+: b ∧ t' ≠ b) : c₁ = c₁' ∧ t = t' := by
  -- a part of a string cannot contain the whole string
  have part : ∀ (b x t : Bytes), b ≠ [] → (t = [] ∨ ∃ b' c, b :: ([] : List Bytes) ++ c = b' :: c ∧ t <+: b' ∧ t ≠ b') → b ++ x ≠ t := by
    rintro b x t hb (rfl | ⟨b', c, h1, h2, h3⟩) h
    · simp at h; exact hb h.1
    · simp only [List.cons_append, List.nil_append, List.cons.injEq, and_true] at h1
      subst h1
      subst h
      have := h2.length_le
      simp at this
      subst this
      simp at h3
  induction c₁ generalizing c₁' with
  | nil =>
    cases c₁' with
    | nil => exact ⟨rfl, by simpa using hp⟩
    | cons b c₁' =>
      exfalso
      simp only [List.nil_append] at hc
      simp only [List.flatten_nil, List.nil_append, List.flatten_cons, List.append_assoc] at hp
      refine part b _ t (hne b (by simp [hc])) ?_ hp.symm
      rcases ht with h | ⟨b', c, h1, h2⟩
      · exact .inl h
      · rw [hc] at h1; cases h1; exact .inr ⟨b, c₁' ++ c₂', rfl, h2⟩
  | cons b c₁ ih =>
    cases c₁' with
    | nil =>
      exfalso
      simp only [List.nil_append] at hc
      simp only [List.flatten_nil, List.nil_append, List.flatten_cons, List.append_assoc] at hp
      refine part b _ t' (hne b (by simp)) ?_ hp
      rcases ht' with h | ⟨b', c, h1, h2⟩
      · exact .inl h
      · rw [← hc] at h1; cases h1; exact .inr ⟨b, c₁ ++ c₂, rfl, h2⟩
    | cons b' c₁' =>
      simp only [List.cons_append, List.cons.injEq] at hc
      obtain ⟨rfl, hc⟩ := hc
      simp only [List.flatten_cons, List.append_assoc, List.append_cancel_left_eq] at hp
      obtain ⟨h1, h2⟩ := ih (fun x hx => hne x (by simp only [List.cons_append, List.mem_cons]; exact .inr hx)) hc hp
      exact ⟨by rw [h1], h2⟩

theorem recordedAll_of {Γ : Classes} {n : Nat} {d : StructDesc} {ctx : Value} {good : Dict → Bytes → Dict → Prop} (vals : List Dict) (bs : Bytes)
    (h : writeAll Γ (n + 1) ctx (vals.map fun v => (d, v)) = (bs, .ok ()))
    (hr : ∀ v ∈ vals, ∀ b, structToStream Γ (n + 1) d v ctx = (b, .ok ()) → ∃ m₀ r, ∀ m, m₀ ≤ m → Recorded Γ m d ctx good v b r) :
    ∃ m₀ codes out, bs = codes.flatten ∧ ∀ m, m₀ ≤ m → RecordedAll Γ m d ctx good vals codes out := by
  induction vals generalizing bs with
  | nil =>
    simp [writeAll, W.ok] at h
    subst h
    exact ⟨0, [], [], rfl, fun _ _ => .nil⟩
  | cons v vals ih =>
    simp only [List.map_cons, writeAll] at h
    obtain ⟨x, y, h1, h2, rfl⟩ := W.seq_ok h
    obtain ⟨m₁, r, h3⟩ := hr v (by simp) x h1
    obtain ⟨m₂, codes, out, rfl, h4⟩ := ih y h2 (fun v hv => hr v (by simp [hv]))
    exact ⟨max m₁ m₂, x :: codes, r :: out, rfl, fun m hm => .cons (h3 m (by omega)) (h4 m (by omega))⟩

/-- What the messages are written as, and read as. -/
def Sent (Γ : Classes) (n : Nat) (d : StructDesc) (ctx : Value) (v : Dict) (b : Bytes) (r : Dict) : Prop :=
  RestoredKept Γ n d v r ∧ Bears Γ d v ∧ structToStream Γ (n + 1) d v ctx = (b, .ok ())

theorem packets_core {Γ : Classes} (hΓ : ∀ c d, Γ c = some d → OptionalSchema Γ d) (hΓL : ∀ c d, Γ c = some d → Limited Γ d) {n : Nat}
    {d : StructDesc} {ctx : Value} (hd : OptionalSchema Γ d) (hl : Limited Γ d) {messages : List Dict} (hm : messages ≠ [])
    (hb : ∀ v ∈ messages, Bears Γ d v ∧ (structToStream Γ (n + 1) d v ctx).1 ≠ []) {sent : Bytes}
    (hsent : writeAll Γ (n + 1) ctx (messages.map fun v => (d, v)) = (sent, .ok ())) :
    ∃ m₀ codes out, sent = codes.flatten ∧ (∀ b ∈ codes, b ≠ []) ∧ ∀ m, m₀ ≤ m →
      RecordedAll Γ m d ctx (Sent Γ n d ctx) messages codes out ∧ TornOff Γ m d ctx [] ∧
      ∀ v b r, Sent Γ n d ctx v b r → ∀ p, p <+: b → p ≠ b → ∀ pre, ∃ e, (structFromStream Γ m d ⟨pre ++ p, pre.length⟩ ctx []).1 = .error e := by
  obtain ⟨m₀, codes, out, rfl, hall⟩ := recordedAll_of (good := Sent Γ n d ctx) messages sent hsent (fun v hv b h => by
    obtain ⟨m₀, r, h1⟩ := optional_recorded hΓ hd (hb v hv).1 h
    exact ⟨m₀, r, fun m hm => ⟨⟨(h1 m hm).1, (hb v hv).1, h⟩, (h1 m hm).2⟩⟩)
  have hne : ∀ b ∈ codes, b ≠ [] := by
    have h := hall m₀ (Nat.le_refl _)
    clear hall hm hsent
    induction h with
    | nil => simp
    | @cons v b r vals codes out hr _ ih =>
      intro x hx
      rcases List.mem_cons.1 hx with rfl | hx
      · have := (hb v List.mem_cons_self).2
        rwa [hr.1.2.2] at this
      · exact ih (fun v hv => hb v (List.mem_cons_of_mem _ hv)) x hx
  refine ⟨m₀, codes, out, rfl, hne, fun m hm' => ?_⟩
  have ht : ∀ v b r, Sent Γ n d ctx v b r → ∀ p, p <+: b → p ≠ b → ∀ pre,
      ∃ e, (structFromStream Γ m d ⟨pre ++ p, pre.length⟩ ctx []).1 = .error e :=
    fun v b r hg p hp hq pre => C78_torn_dump_partial Γ hΓ hΓL n d v ctx b hd hg.2.1 hl hg.2.2 pre p hp hq m
  refine ⟨hall m hm', ?_, ht⟩
  cases hall m hm' with
  | nil => exact absurd rfl hm
  | cons hr _ => exact ⟨_, List.nil_prefix, fun h => hne _ List.mem_cons_self h.symm, ht _ _ _ hr.1⟩

theorem sent_restored {Γ : Classes} {n m : Nat} {d : StructDesc} {ctx : Value} {vs : List Dict} {cs : List Bytes} {os : List Dict}
    (h : RecordedAll Γ m d ctx (Sent Γ n d ctx) vs cs os) :
    writeAll Γ (n + 1) ctx (vs.map fun v => (d, v)) = (cs.flatten, .ok ()) ∧ AllRestoredKept Γ n (vs.map fun v => (d, v)) os := by
  induction h with
  | nil => exact ⟨rfl, .nil⟩
  | cons hr _ ih =>
    refine ⟨?_, .cons hr.1.1 ih.2⟩
    simp only [List.map_cons, writeAll, hr.1.2.2, ih.1]
    rfl

/-! ## C114 -/

/-- **C114** Messages of one class are sent one after another, and arrive in packets of any sizes, of which some may still be on their way.
Then the messages that have been returned are the first ones that were sent, each restored; what is in the buffer is the rest of what arrived:
nothing, or the beginning of the next message, not all of it. -/
theorem C114_packets (Γ : Classes) (hΓ : ∀ c d, Γ c = some d → OptionalSchema Γ d) (hΓL : ∀ c d, Γ c = some d → Limited Γ d) (n : Nat)
    (d : StructDesc) (ctx : Value) (hd : OptionalSchema Γ d) (hl : Limited Γ d) (messages : List Dict) (hm : messages ≠ [])
    (hb : ∀ v ∈ messages, Bears Γ d v ∧ (structToStream Γ (n + 1) d v ctx).1 ≠ []) (sent : Bytes)
    (hsent : writeAll Γ (n + 1) ctx (messages.map fun v => (d, v)) = (sent, .ok ())) :
    ∃ m₀, ∀ m, m₀ ≤ m → ∀ packets : List Bytes, packets.flatten <+: sent →
      ∃ complete rest bs, messages = complete ++ rest ∧
        writeAll Γ (n + 1) ctx (complete.map fun v => (d, v)) = (bs, .ok ()) ∧
        AllRestoredKept Γ n (complete.map fun v => (d, v)) (receiveAll Γ m d ctx packets []).1.flatten ∧
        packets.flatten = bs ++ (receiveAll Γ m d ctx packets []).2 ∧
        ((receiveAll Γ m d ctx packets []).2 = [] ∨ ∃ v rest', rest = v :: rest' ∧
          (receiveAll Γ m d ctx packets []).2 <+: (structToStream Γ (n + 1) d v ctx).1 ∧
          (receiveAll Γ m d ctx packets []).2 ≠ (structToStream Γ (n + 1) d v ctx).1) := by
  obtain ⟨m₀, codes, out, rfl, -, hall⟩ := packets_core hΓ hΓL hd hl hm hb hsent
  refine ⟨m₀, fun m hm' packets hp => ?_⟩
  obtain ⟨hr, h0, ht⟩ := hall m hm'
  obtain ⟨v₁, v₂, c₁, c₂, o₁, o₂, h1, h2, -, h3, h4, h5, h6, h7⟩ :=
    receiveAll_all ht h0 packets [] messages codes out hr (by simpa using hp) (.inl rfl)
  refine ⟨v₁, v₂, c₁.flatten, h1, (sent_restored h3).1, by rw [h5]; exact (sent_restored h3).2, by simpa using h6, ?_⟩
  rcases h7 with h7 | ⟨b, c, rfl, h7, h8⟩
  · exact .inl h7
  · right
    cases h4 with
    | cons hr _ =>
      refine ⟨_, _, rfl, ?_⟩
      rw [hr.1.2.2]
      exact ⟨h7, h8⟩

/-- **C114** When everything has arrived, every message has been returned and the buffer is empty. -/
theorem C114_all_arrived (Γ : Classes) (hΓ : ∀ c d, Γ c = some d → OptionalSchema Γ d) (hΓL : ∀ c d, Γ c = some d → Limited Γ d) (n : Nat)
    (d : StructDesc) (ctx : Value) (hd : OptionalSchema Γ d) (hl : Limited Γ d) (messages : List Dict) (hm : messages ≠ [])
    (hb : ∀ v ∈ messages, Bears Γ d v ∧ (structToStream Γ (n + 1) d v ctx).1 ≠ []) (sent : Bytes)
    (hsent : writeAll Γ (n + 1) ctx (messages.map fun v => (d, v)) = (sent, .ok ())) :
    ∃ m₀, ∀ m, m₀ ≤ m → ∀ packets : List Bytes, packets.flatten = sent →
      AllRestoredKept Γ n (messages.map fun v => (d, v)) (receiveAll Γ m d ctx packets []).1.flatten ∧
        (receiveAll Γ m d ctx packets []).2 = [] := by
  obtain ⟨m₀, codes, out, rfl, hne, hall⟩ := packets_core hΓ hΓL hd hl hm hb hsent
  refine ⟨m₀, fun m hm' packets hp => ?_⟩
  obtain ⟨hr, h0, ht⟩ := hall m hm'
  obtain ⟨v₁, v₂, c₁, c₂, o₁, o₂, h1, h2, h2', h3, h4, h5, h6, h7⟩ :=
    receiveAll_all ht h0 packets [] messages codes out hr (by simp [hp]) (.inl rfl)
  have h8 : c₁ = codes ∧ (receiveAll Γ m d ctx packets []).2 = [] := by
    refine split_unique (c₂' := []) (by rwa [← h2]) (by simp [h2]) ?_ h7 (.inl rfl)
    rw [← h6, hp]; simp
  refine ⟨?_, h8.2⟩
  have h9 : c₂ = [] := by rw [h8.1] at h2; simpa using h2
  subst h9
  cases h4
  rw [List.append_nil] at h1
  subst h1
  rw [h5]
  exact (sent_restored h3).2

/-- **C114** How the bytes are cut into packets makes no difference. -/
theorem C114_any_packets (Γ : Classes) (hΓ : ∀ c d, Γ c = some d → OptionalSchema Γ d) (hΓL : ∀ c d, Γ c = some d → Limited Γ d) (n : Nat)
    (d : StructDesc) (ctx : Value) (hd : OptionalSchema Γ d) (hl : Limited Γ d) (messages : List Dict) (hm : messages ≠ [])
    (hb : ∀ v ∈ messages, Bears Γ d v ∧ (structToStream Γ (n + 1) d v ctx).1 ≠ []) (sent : Bytes)
    (hsent : writeAll Γ (n + 1) ctx (messages.map fun v => (d, v)) = (sent, .ok ())) :
    ∃ m₀, ∀ m, m₀ ≤ m → ∀ packets packets' : List Bytes, packets.flatten <+: sent → packets'.flatten = packets.flatten →
      (receiveAll Γ m d ctx packets' []).1.flatten = (receiveAll Γ m d ctx packets []).1.flatten ∧
        (receiveAll Γ m d ctx packets' []).2 = (receiveAll Γ m d ctx packets []).2 := by
  obtain ⟨m₀, codes, out, rfl, hne, hall⟩ := packets_core hΓ hΓL hd hl hm hb hsent
  refine ⟨m₀, fun m hm' packets packets' hp hpp => ?_⟩
  obtain ⟨hr, h0, ht⟩ := hall m hm'
  obtain ⟨_, _, c₁, c₂, o₁, o₂, _, h2, h2', h3, _, h5, h6, h7⟩ :=
    receiveAll_all ht h0 packets [] messages codes out hr (by simpa using hp) (.inl rfl)
  obtain ⟨_, _, c₁', c₂', o₁', o₂', _, g2, g2', g3, _, g5, g6, g7⟩ :=
    receiveAll_all ht h0 packets' [] messages codes out hr (by simpa [hpp] using hp) (.inl rfl)
  have h8 := split_unique (by rwa [← g2]) (g2.symm.trans h2) (by rw [← g6, ← h6, hpp]) g7 h7
  refine ⟨?_, h8.2⟩
  rw [g5, h5]
  have hl := h3.lengths
  have gl := g3.lengths
  rw [h8.1, hl] at gl
  exact (List.append_inj (g2'.symm.trans h2') gl.symm).1

/-- **C114** The same for plain schemas, with structs within structs and lists of them: however the bytes are cut, every message arrives. -/
theorem C114_plain_packets (Γ : Classes) (hΓ : ∀ c d, Γ c = some d → Schema Γ d) (hΓL : ∀ c d, Γ c = some d → Limited Γ d) (n : Nat)
    (d : StructDesc) (ctx : Value) (hl : Limited Γ d) (messages : List Dict) (hm : messages ≠ [])
    (hb : ∀ v ∈ messages, PlainInstance Γ d v ∧ (structToStream Γ (n + 1) d v ctx).1 ≠ []) (sent : Bytes)
    (hsent : writeAll Γ (n + 1) ctx (messages.map fun v => (d, v)) = (sent, .ok ())) :
    ∃ m₀, ∀ m, m₀ ≤ m → ∀ packets : List Bytes, packets.flatten = sent →
      AllRestored Γ n (messages.map fun v => (d, v)) (receiveAll Γ m d ctx packets []).1.flatten ∧
        (receiveAll Γ m d ctx packets []).2 = [] := by
  let good : Dict → Bytes → Dict → Prop := fun v b r =>
    Restored Γ n d v r ∧ PlainInstance Γ d v ∧ structToStream Γ (n + 1) d v ctx = (b, .ok ()) ∧ b ≠ []
  obtain ⟨m₀, codes, out, rfl, hall⟩ := recordedAll_of (good := good) messages sent hsent (fun v hv b h => by
    obtain ⟨m₀, r, h1⟩ := plain_recorded hΓ (hb v hv).1 h
    exact ⟨m₀, r, fun m hm => ⟨⟨(h1 m hm).1, (hb v hv).1, h, by have := (hb v hv).2; rwa [h] at this⟩, (h1 m hm).2⟩⟩)
  refine ⟨m₀, fun m hm' packets hp => ?_⟩
  have ht : ∀ v b r, good v b r → ∀ p, p <+: b → p ≠ b → ∀ pre, ∃ e, (structFromStream Γ m d ⟨pre ++ p, pre.length⟩ ctx []).1 = .error e :=
    fun v b r hg p hp hq pre => C78_torn_dump_plain_partial Γ hΓ hΓL n d v ctx b hg.2.1 hl hg.2.2.1 pre p hp hq m
  have hr := hall m hm'
  have hne : ∀ b ∈ codes, b ≠ [] := by
    clear hall hm hb hsent hp
    induction hr with
    | nil => simp
    | cons hr _ ih =>
      intro x hx
      rcases List.mem_cons.1 hx with rfl | hx
      · exact hr.1.2.2.2
      · exact ih x hx
  have h0 : TornOff Γ m d ctx [] := by
    cases hr with
    | nil => exact absurd rfl hm
    | cons hr _ => exact ⟨_, List.nil_prefix, fun h => hne _ List.mem_cons_self h.symm, ht _ _ _ hr.1⟩
  obtain ⟨v₁, v₂, c₁, c₂, o₁, o₂, h1, h2, -, h3, h4, h5, h6, h7⟩ :=
    receiveAll_all ht h0 packets [] messages codes out hr (by simp [hp]) (.inl rfl)
  have h8 : c₁ = codes ∧ (receiveAll Γ m d ctx packets []).2 = [] := by
    refine split_unique (c₂' := []) (by rwa [← h2]) (by simp [h2]) ?_ h7 (.inl rfl)
    rw [← h6, hp]; simp
  refine ⟨?_, h8.2⟩
  have h9 : c₂ = [] := by rw [h8.1] at h2; simpa using h2
  subst h9
  cases h4
  rw [List.append_nil] at h1
  subst h1
  rw [h5]
  clear hall hb hsent hm hp h2 h5 h6 h8 hr h7
  induction h3 with
  | nil => exact .nil
  | cons hr _ ih => exact .cons hr.1.1 ih

/-! ### Examples -/

-- two notes in three packets that have nothing to do with where the notes end
example : receiveAll Sample.noClasses 4 Sample.note .none [[2, 7], [8, 3, 1, 2], [3, 1]] [] =
    ([[], [[("n", .int 2), ("text", .bytes [7, 8])]], [[("n", .int 3), ("text", .bytes [1, 2, 3])]]], [1]) := by rfl

-- the theorem, for these notes in any packets
example : ∃ m₀, ∀ m, m₀ ≤ m → ∀ packets : List Bytes, packets.flatten = [2, 7, 8, 3, 1, 2, 3] →
      AllRestoredKept Sample.noClasses 2
        [(Sample.note, [("n", .int 2), ("text", .bytes [7, 8])]), (Sample.note, [("n", .int 3), ("text", .bytes [1, 2, 3])])]
        (receiveAll Sample.noClasses m Sample.note .none packets []).1.flatten ∧ (receiveAll Sample.noClasses m Sample.note .none packets []).2 = [] :=
  C114_all_arrived Sample.noClasses (by simp [Sample.noClasses]) (by simp [Sample.noClasses]) 2 Sample.note .none Sample.note_schema
    Sample.note_limited [[("n", .int 2), ("text", .bytes [7, 8])], [("n", .int 3), ("text", .bytes [1, 2, 3])]] (by simp)
    (by intro v hv
        simp only [List.mem_cons, List.not_mem_nil, or_false] at hv
        rcases hv with rfl | rfl
        · exact ⟨Sample.note_bears _ _, by decide⟩
        · exact ⟨Sample.note_bears _ _, by decide⟩) _ (by decide)

-- two trees, in any packets
example : ∃ m₀, ∀ m, m₀ ≤ m → ∀ packets : List Bytes,
    packets.flatten = [0, 1, 2, 1, 44, 0, 0, 7, 1, 0, 5, 0, 0, 1, 2, 1, 44, 0, 0, 7, 1, 0, 5, 0] →
      AllRestored Sample.treeClasses 8 [(Sample.tree, Sample.bigTree), (Sample.tree, Sample.bigTree)]
        (receiveAll Sample.treeClasses m Sample.tree .none packets []).1.flatten ∧
      (receiveAll Sample.treeClasses m Sample.tree .none packets []).2 = [] :=
  C114_plain_packets Sample.treeClasses Sample.treeClasses_schema
    (by intro c d hc
        simp only [Sample.treeClasses, Classes.add] at hc
        split at hc
        · cases hc; exact Sample.tree_limited
        · simp [Sample.noClasses] at hc)
    8 Sample.tree .none Sample.tree_limited [Sample.bigTree, Sample.bigTree] (by simp)
    (by intro v hv
        simp only [List.mem_cons, List.not_mem_nil, or_false, or_self] at hv
        subst hv
        exact ⟨Sample.bigTree_plain, by decide⟩) _ (by decide)

/-- **C114** refuted for classes that read to the end of the stream: `Array(UInt8())` without count takes what has arrived for the message, so
the message depends on where the packets end. -/
theorem C114_read_to_end_refuted :
    ∃ (d : StructDesc) (message : Dict) (sent : Bytes), UniqueNames d ∧ Instance d message ∧
      structToStream Sample.noClasses 6 d message .none = (sent, .ok ()) ∧
      ∃ packets packets' : List Bytes, packets.flatten = sent ∧ packets'.flatten = sent ∧
        (receiveAll Sample.noClasses 6 d .none packets []).1.flatten.head? = some message ∧
        (receiveAll Sample.noClasses 6 d .none packets' []).1.flatten.head? ≠ some message :=
  ⟨{ name := "S", components := [Sample.u8 "x", Sample.array "a" (Sample.u8 "") .none], fieldValidators := [("x", []), ("a", [])] },
    [("x", .int 9), ("a", .list [.int 1, .int 2])], [9, 1, 2], by unfold UniqueNames; decide, by unfold Instance; decide, by decide,
    [[9, 1, 2]], [[9, 1], [2]], rfl, rfl, by rfl, by decide⟩

end Verif
