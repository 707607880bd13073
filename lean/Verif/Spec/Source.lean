import Verif.Model.Source

/-!
# Streams that fail, or give less than they were asked for

Vocabulary for C86: what a stream may do to a caller.
-/

namespace Verif

/-- The outcome of an operation on a stream, compared with the outcome `ref` of the same operation on a `BytesIO`: it is the same outcome, leaving the stream at
the same place, or it is one of the exceptions in `Cut`. -/
def LikeBytesIO {τ α : Type} (view : τ → Stream) (Cut : Err → Prop) (out : Except Err α × τ) (ref : Except Err α × Stream) : Prop :=
  (out.1 = ref.1 ∧ view out.2 = ref.2) ∨ ∃ e, out.1 = .error e ∧ Cut e

/-- `read(n)` returned at least one byte, but fewer than `n` although more may follow: what an unbuffered file, a pipe or a socket may do. -/
def ShortRead (s : Stream) (n : Int) (data : Bytes) (s' : Stream) : Prop :=
  0 < n ∧ data ≠ [] ∧ (data.length : Int) < n ∧ data <+: s.rest ∧ s' = ⟨s.data, s.pos + data.length⟩

/-- The stream does what a `BytesIO` with the same bytes would do, except that a call may raise one of the exceptions in `Fault`, and, if `short`, that
`read` may return less than asked for.  Field types of the user are assumed to pass on what happens to them. -/
structure Source.Lawful {τ : Type} (k : Source τ) (Fault : Err → Prop) (short : Bool) : Prop where
  tell : ∀ t, LikeBytesIO k.view Fault (k.tell t) (bytesIOSource.tell (k.view t))
  seek : ∀ p t, LikeBytesIO k.view Fault (k.seek p t) (bytesIOSource.seek p (k.view t))
  skip : ∀ p t, LikeBytesIO k.view Fault (k.skip p t) (bytesIOSource.skip p (k.view t))
  read : ∀ n t, LikeBytesIO k.view Fault (k.read n t) (bytesIOSource.read n (k.view t)) ∨
    (short = true ∧ ∃ data, (k.read n t).1 = .ok data ∧ ShortRead (k.view t) n data (k.view (k.read n t).2))
  custom : ∀ load t, LikeBytesIO k.view (fun e => Fault e ∨ (short = true ∧ e.isEOF = true)) (k.custom load t) (load (k.view t))

/-- The exceptions of the stream are none of binobj's own for loading: `OSError`, `ConnectionResetError`, `io.UnsupportedOperation`, … -/
def Foreign (Fault : Err → Prop) : Prop := ∀ e, Fault e → e.isDeserialization = false

/-- Null, where it is allowed, is represented by one byte at most. -/
def BriefNull (Γ : Classes) (f : Field) : Prop :=
  f.base.allowNull = true → ∀ n loaded repr, fieldNullRepr Γ n f loaded = .ok repr → repr.length ≤ 1

mutual
/-- `BriefNull` for a field and the fields in it. -/
def BriefNulls (Γ : Classes) : Field → Prop
  | .leaf b k => BriefNull Γ (.leaf b k)
  | .array b comp count halt => BriefNull Γ (.array b comp count halt) ∧ BriefNulls Γ comp
  | .nested b cls => BriefNull Γ (.nested b cls)
  | .union b choices ld dd => BriefNull Γ (.union b choices ld dd) ∧ BriefChoices Γ choices
def BriefChoices (Γ : Classes) : List (Field ⊕ String) → Prop
  | [] => True
  | .inl g :: cs => BriefNulls Γ g ∧ BriefChoices Γ cs
  | .inr _ :: cs => BriefChoices Γ cs
end

/-- `BriefNull` for all fields of all classes. -/
def BriefClasses (Γ : Classes) : Prop := ∀ name d, Γ name = some d → ∀ f ∈ d.components, BriefNulls Γ f

/-! ## Streams with a script -/

/-- What happens at one call. -/
inductive Event where
  /-- The call does what it should. -/
  | fine
  /-- The call raises. -/
  | raises (e : Err)
  /-- `read` returns at most this many bytes, and one more. -/
  | atMost (k : Nat)

/-- A `BytesIO` with a script that says what happens at each call of one of its methods; after the end of the script, everything is fine.  The state is
the `BytesIO` and the number of calls so far. -/
def scripted (script : List Event) : Source (Stream × Nat) where
  view t := t.1
  read n t :=
    match script[t.2]? with
    | some (.raises e) => (.error e, (t.1, t.2 + 1))
    | some (.atMost k) =>
      if (k : Int) + 1 < n then (.ok (t.1.read (k + 1)).1, ((t.1.read (k + 1)).2, t.2 + 1))
      else (.ok (t.1.read n).1, ((t.1.read n).2, t.2 + 1))
    | _ => (.ok (t.1.read n).1, ((t.1.read n).2, t.2 + 1))
  tell t :=
    match script[t.2]? with
    | some (.raises e) => (.error e, (t.1, t.2 + 1))
    | _ => (.ok t.1.tell, (t.1, t.2 + 1))
  seek p t :=
    match script[t.2]? with
    | some (.raises e) => (.error e, (t.1, t.2 + 1))
    | _ => ((seekInt t.1 p).1, ((seekInt t.1 p).2, t.2 + 1))
  skip n t :=
    match script[t.2]? with
    | some (.raises e) => (.error e, (t.1, t.2 + 1))
    | _ => (.ok (), (t.1.seek (t.1.pos + n), t.2 + 1))
  custom load t := ((load t.1).1, ((load t.1).2, t.2))

end Verif
