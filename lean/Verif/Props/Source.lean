import Verif.Proofs.Source
import Verif.Props.Records
import Verif.Props.Size

/-!
# C86: loading from a stream that fails or gives less than it was asked for
-/

namespace Verif

/-- **C86** On an `io.BytesIO` the load that takes the stream as a parameter is the one of the other theorems: same outcome, same position. -/
theorem C86_bytesio (Γ : Classes) (n : Nat) (d : StructDesc) (ctx : Value) (kw : Dict) (s : Stream) :
    structFromSource bytesIOSource Γ n d ctx kw s = structFromStream Γ n d s ctx kw := by
  rcases (source_like bytesIOSource_lawful (fun _ h => h.elim) Γ (by simp) n).2.2 d (by simp) ctx kw s with h | ⟨e, _, h | h⟩
  · exact Prod.ext h.1 h.2
  · exact h.elim
  · simp at h

/-- **C86** A stream of any kind that does what it should (a file, a buffered connection) loads like an `io.BytesIO` with the same bytes. -/
theorem C86_well_behaved {τ : Type} (k : Source τ) (hk : k.Lawful (fun _ => False) false) (Γ : Classes) (n : Nat) (d : StructDesc) (ctx : Value) (kw : Dict)
    (t : τ) : (structFromSource k Γ n d ctx kw t).1 = (structFromStream Γ n d (k.view t) ctx kw).1 ∧
      k.view (structFromSource k Γ n d ctx kw t).2 = (structFromStream Γ n d (k.view t) ctx kw).2 := by
  rcases (source_like hk (fun _ h => h.elim) Γ (by simp) n).2.2 d (by simp) ctx kw t with h | ⟨e, _, h | h⟩
  · exact h
  · exact h.elim
  · simp at h

/-- **C86** Wherever the stream fails, the load does what it would do with an `io.BytesIO`, or the exception of the stream comes out as it is: it is never
swallowed and never turned into a value, or into an exception of binobj. -/
theorem C86_failing_stream {τ : Type} (k : Source τ) (Fault : Err → Prop) (hF : Foreign Fault) (hk : k.Lawful Fault false) (Γ : Classes) (n : Nat) (d : StructDesc)
    (ctx : Value) (kw : Dict) (t : τ) : LikeBytesIO k.view Fault (structFromSource k Γ n d ctx kw t) (structFromStream Γ n d (k.view t) ctx kw) :=
  ((source_like hk hF Γ (by simp) n).2.2 d (by simp) ctx kw t).mono fun _ h => h.elim id (by simp)

/-- **C86** The same for `partial_load`: it does not take a failure for the end of the data. -/
theorem C86_failing_stream_partial_load {τ : Type} (k : Source τ) (Fault : Err → Prop) (hF : Foreign Fault) (hk : k.Lawful Fault false) (Γ : Classes) (n : Nat)
    (d : StructDesc) (last : Option String) (ctx : Value) (t : τ) :
    LikeBytesIO k.view Fault (structPartialLoadSource k Γ n d last ctx t) (structPartialLoad Γ n d (k.view t) last ctx) :=
  (structPartialLoad_like hk hF Γ (by simp) n (by simp) (by simp) ctx t).mono fun _ h => h.elim id (by simp)

/-- **C86** The same for `get_field`. -/
theorem C86_failing_stream_get_field {τ : Type} (k : Source τ) (Fault : Err → Prop) (hF : Foreign Fault) (hk : k.Lawful Fault false) (Γ : Classes) (n : Nat)
    (d : StructDesc) (name : String) (ctx : Value) (t : τ) :
    LikeBytesIO k.view Fault (structGetFieldSource k Γ n d name ctx t) (structGetField Γ n d (k.view t) name ctx) :=
  (structGetField_like hk hF Γ (by simp) n (by simp) name ctx t).mono fun _ h => h.elim id (by simp)

/-- **C86** In particular: if some calls of the methods of an `io.BytesIO` raise exceptions, the load returns what it should or raises one of them. -/
theorem C86_scripted (script : List Event) (hno : ∀ m, .atMost m ∉ script) (hF : ∀ e, .raises e ∈ script → e.isDeserialization = false) (Γ : Classes) (n : Nat)
    (d : StructDesc) (ctx : Value) (kw : Dict) (s : Stream) :
    (structFromSource (scripted script) Γ n d ctx kw (s, 0)).1 = (structFromStream Γ n d s ctx kw).1 ∨
      ∃ e, .raises e ∈ script ∧ (structFromSource (scripted script) Γ n d ctx kw (s, 0)).1 = .error e := by
  rcases C86_failing_stream (scripted script) _ hF (scripted_lawful script false fun _ => hno) Γ n d ctx kw (s, 0) with h | ⟨e, h1, h2⟩
  · exact .inl h.1
  · exact .inr ⟨e, h2, h1⟩

/-- **C86** `get_field` puts the stream back where it was whatever happens, also if reading fails. -/
theorem C86_get_field_restores {τ : Type} (k : Source τ) (htell : ∀ t, (k.tell t).1 = .ok (k.view t).pos)
    (hseek : ∀ (p : Nat) t, (k.seek p t).1 = .ok () ∧ (k.view (k.seek p t).2).pos = p) (Γ : Classes) (n : Nat)
    (d : StructDesc) (name : String) (hname : d.find? name ≠ none) (ctx : Value) (t : τ) :
    (k.view (structGetFieldSource k Γ n d name ctx t).2).pos = (k.view t).pos := by
  have fin : ∀ {α : Type} (m : τ → Except Err α × τ) (p : Nat) (t : τ), (k.view (tryFinally m (k.seek p) t).2).pos = p := by
    intro α m p t
    unfold tryFinally
    simp only
    have := hseek p (m t).2
    rcases hr : k.seek p (m t).2 with ⟨r, t'⟩
    rw [hr] at this
    simp only at this
    rw [this.1]
    exact this.2
  unfold structGetFieldSource
  cases hf : d.find? name with
  | none => exact absurd hf hname
  | some f =>
    have ht := htell t
    rcases hr : k.tell t with ⟨r, t'⟩
    rw [hr] at ht
    simp only at ht
    subst ht
    simp only [andNext, hr]
    cases f.base.offset with
    | some off => exact fin _ _ _
    | none =>
      simp only [thenCalc, andNext]
      have := fin (structPartialLoadSource k Γ n d (some name) ctx) (k.view t).pos t'
      rcases hq : tryFinally (structPartialLoadSource k Γ n d (some name) ctx) (k.seek ((k.view t).pos : Nat)) t' with ⟨r2, t2⟩
      rw [hq] at this
      cases r2 <;> exact this

/-- **C86** Where the stream may also give fewer bytes than asked for: a load that returns returns what it would return with an `io.BytesIO`, having read as
much; otherwise it raises what it would raise then, an `UnexpectedEOFError`, or the exception of the stream.  Proved for classes in which null, where
allowed, is represented by at most one byte; it is false otherwise (`C86_short_read_refuted`). -/
theorem C86_short_reads_partial {τ : Type} (k : Source τ) (Fault : Err → Prop) (hF : Foreign Fault) (hk : k.Lawful Fault true) (Γ : Classes)
    (hΓ : BriefClasses Γ) (n : Nat) (d : StructDesc) (hd : ∀ f ∈ d.components, BriefNulls Γ f) (ctx : Value) (kw : Dict) (t : τ) :
    LikeBytesIO k.view (fun e => Fault e ∨ e.isEOF = true) (structFromSource k Γ n d ctx kw t) (structFromStream Γ n d (k.view t) ctx kw) :=
  ((source_like hk hF Γ (fun _ => hΓ) n).2.2 d (fun _ => hd) ctx kw t).mono fun _ h => h.elim .inl fun h => .inr h.2

/-- **C86** So it never returns a wrong value. -/
theorem C86_short_reads_value {τ : Type} (k : Source τ) (Fault : Err → Prop) (hF : Foreign Fault) (hk : k.Lawful Fault true) (Γ : Classes)
    (hΓ : BriefClasses Γ) (n : Nat) (d : StructDesc) (hd : ∀ f ∈ d.components, BriefNulls Γ f) (ctx : Value) (kw : Dict) (t t' : τ) (vals : Dict)
    (h : structFromSource k Γ n d ctx kw t = (.ok vals, t')) : structFromStream Γ n d (k.view t) ctx kw = (.ok vals, k.view t') := by
  have := C86_short_reads_partial k Fault hF hk Γ hΓ n d hd ctx kw t
  rw [h] at this
  rcases this with h | ⟨e, h1, _⟩
  · exact Prod.ext h.1.symm h.2.symm
  · cases h1

/-- ```
class Gap(Struct):
    x = UInt16(null_value=b"\xff\xff", endian="big")
``` -/
def Sample.gap : StructDesc :=
  { name := "Gap", components := [Sample.upd (Sample.u16 "x") ({ · with nullValue := .bytes [0xff, 0xff] })]
    fieldValidators := [("x", [])], numOwnFields := 1 }

/-- **C86** The full claim is false: if the stream gives one byte of two when asked for what might be null, and both when asked for the number, null is loaded as
65535, without an error. -/
theorem C86_short_read_refuted :
    ∃ (script : List Event) (d : StructDesc) (s : Stream) (vals vals' : Dict), (∀ e, .raises e ∉ script) ∧
      (structFromStream Sample.noClasses 4 d s .none []).1 = .ok vals ∧ (structFromSource (scripted script) Sample.noClasses 4 d .none [] (s, 0)).1 = .ok vals' ∧
      vals.get? "x" = some .none ∧ vals'.get? "x" = some (.int 65535) :=
  ⟨[.fine, .atMost 0], Sample.gap, ⟨[0xff, 0xff], 0⟩, [("x", .none)], [("x", .int 65535)], by simp, by decide +kernel, by decide +kernel, rfl, rfl⟩

/-! ## The hypotheses can be met -/

/-- A failure in the middle: the title (`StringZ`) is being read when the connection breaks. -/
example : (structFromStream Sample.noClasses 4 Sample.record ⟨[2, 7, 8, 0x61, 0], 0⟩ .none []).1 =
      .ok [("n", .int 2), ("payload", .bytes [7, 8]), ("title", .str [0x61])] ∧
    (structFromSource (scripted [.fine, .fine, .fine, .fine, .fine, .raises (.user "ConnectionResetError")]) Sample.noClasses 4 Sample.record .none []
      (⟨[2, 7, 8, 0x61, 0], 0⟩, 0)).1 = .error (.user "ConnectionResetError") := by decide +kernel

/-- A short read: one byte of two of the payload. -/
example : (structFromSource (scripted [.fine, .fine, .fine, .atMost 0]) Sample.noClasses 4 Sample.record .none [] (⟨[2, 7, 8, 0x61, 0], 0⟩, 0)).1 =
      .error (.eof (some "payload") 2 1) ∧
    (structFromSource (scripted [.fine, .atMost 0, .fine, .atMost 1, .atMost 0]) Sample.noClasses 4 Sample.record .none [] (⟨[2, 7, 8, 0x61, 0], 0⟩, 0)).1 =
      .ok [("n", .int 2), ("payload", .bytes [7, 8]), ("title", .str [0x61])] := by decide +kernel

example : BriefClasses Sample.noClasses ∧ ∀ f ∈ Sample.record.components, BriefNulls Sample.noClasses f := by
  refine ⟨fun _ _ h => by simp [Sample.noClasses] at h, fun f hf => ?_⟩
  simp only [Sample.record, List.mem_cons, List.not_mem_nil, or_false] at hf
  rcases hf with rfl | rfl | rfl <;> · simp only [Sample.u8, Sample.bytesRef, Sample.strz, BriefNulls]; intro h; simp [Field.base, FieldBase.allowNull] at h

/-- The fourth call raises, and the second may give less than asked for. -/
def Sample.trouble : List Event := [.fine, .atMost 3, .fine, .raises (.user "OSError")]

example : (scripted Sample.trouble).Lawful (fun e => .raises e ∈ Sample.trouble) true ∧ Foreign (fun e => .raises e ∈ Sample.trouble) :=
  ⟨scripted_lawful _ _ (by simp), fun e h => by simp [Sample.trouble] at h; subst h; rfl⟩

/-- An `io.BytesIO` whose `read` gives out after the first two bytes. -/
def Sample.broken : Source Stream :=
  { bytesIOSource with read := fun n s => if s.pos < 2 then (.ok (s.read n).1, (s.read n).2) else (.error (.user "OSError"), s) }

example : (∀ t, (Sample.broken.tell t).1 = .ok (Sample.broken.view t).pos) ∧
    ∀ (p : Nat) t, (Sample.broken.seek p t).1 = .ok () ∧ (Sample.broken.view (Sample.broken.seek p t).2).pos = p := by
  refine ⟨fun _ => rfl, fun p t => ?_⟩
  have h0 : ¬ ((p : Int) < 0) := by omega
  simp [Sample.broken, bytesIOSource, seekInt, h0, Stream.seek]

/-- `get_field` of the payload of the record that starts at the second byte: the number of bytes can be read, the bytes cannot. -/
example : structGetFieldSource Sample.broken Sample.noClasses 4 Sample.record "payload" .none ⟨[9, 2, 7, 8, 0x61, 0], 1⟩ =
    (.error (.user "OSError"), ⟨[9, 2, 7, 8, 0x61, 0], 1⟩) := by decide +kernel

#print axioms C86_failing_stream
#print axioms C86_short_reads_partial

end Verif
