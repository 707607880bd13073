import Verif.Spec.Formats
import Verif.Proofs.StructLoad
import Verif.Proofs.Container
import Verif.Props.IntCodec
import Verif.Props.Text
import Verif.Props.Timestamp

/-!
# Writing and reading structs with literal fields
-/

open Lean Elab Tactic Meta in
/-- `rfl`, checked by the kernel only. -/
elab "kernel_rfl" : tactic => liftMetaTactic fun g => do
  let some (_, _, rhs) := (← instantiateMVars (← g.getType)).eq? | throwError "not an equation"
  g.assign (← mkEqRefl rhs)
  return []

namespace Verif
open Spec

theorem Formats.le_natToLE (k : Nat) (i : Int) : natToLE k (i % (2 ^ (8 * k) : Int)).toNat = Formats.le k i := by
  induction k generalizing i with
  | zero => rfl
  | succ k ih =>
    simp only [natToLE, Formats.le, ← ih]
    have hp : (0 : Int) < 2 ^ (8 * k) := Int.pow_pos (by decide)
    have h2 : (2 : Int) ^ (8 * (k + 1)) = 256 * 2 ^ (8 * k) := by
      rw [show 8 * (k + 1) = 8 + 8 * k by omega, Int.pow_add]; rfl
    have h0 := Int.emod_nonneg i (show (256 * 2 ^ (8 * k) : Int) ≠ 0 by omega)
    have h3 : (i % (256 * 2 ^ (8 * k))) % 256 = i % 256 := Int.emod_emod_of_dvd _ ⟨_, rfl⟩
    have h4 : (i % (256 * 2 ^ (8 * k))) / 256 = (i / 256) % 2 ^ (8 * k) := by
      have e1 : i / 256 = 2 ^ (8 * k) * (i / 256 / 2 ^ (8 * k)) + (i / 256) % 2 ^ (8 * k) := (Int.mul_ediv_add_emod ..).symm
      have e2 : i = 256 * (i / 256) + i % 256 := (Int.mul_ediv_add_emod ..).symm
      have e3 := Int.emod_nonneg (i / 256) (Int.ne_of_gt hp)
      have e4 := Int.emod_lt_of_pos (i / 256) hp
      generalize i / 256 / 2 ^ (8 * k) = q at e1
      generalize (i / 256) % 2 ^ (8 * k) = w at *
      generalize i / 256 = u at *
      have e5 := Int.emod_nonneg i (by decide : (256 : Int) ≠ 0)
      have e6 := Int.emod_lt_of_pos i (by decide : (0 : Int) < 256)
      have : i % (256 * 2 ^ (8 * k)) = 256 * w + i % 256 := by
        have : i = 256 * w + i % 256 + 256 * 2 ^ (8 * k) * q := by
          rw [Int.mul_assoc]; omega
        conv => lhs; rw [this]
        rw [Int.add_mul_emod_self_left]
        exact Int.emod_eq_of_lt (by omega) (by omega)
      omega
    rw [h2]
    refine List.cons_eq_cons.2 ⟨?_, ?_⟩
    · congr 1; omega
    · congr 1; omega

/-! ### Writing -/

/-- Whatever `compute_value_for_dump` gives is written. -/
theorem part_of {Γ : Classes} {n : Nat} {ctx v : Value} {all : Dict} {f : Field} {p : Bytes}
    (h : f.base.computeValueForDump all.view ctx = .ok v) (hv : v ≠ .notPresent) (hp : fieldToStream Γ n f v ctx all = (p, .ok ())) :
    Part Γ n ctx all f p := part_iff.2 ⟨v, h, Or.inr ⟨hv, hp⟩⟩

theorem part_absent {Γ : Classes} {n : Nat} {ctx : Value} {all : Dict} {f : Field}
    (h : f.base.computeValueForDump all.view ctx = .ok .notPresent) : Part Γ n ctx all f [] := part_iff.2 ⟨_, h, Or.inl ⟨rfl, rfl⟩⟩

theorem part_int {Γ : Classes} {n : Nat} {ctx : Value} {all : Dict} {b : FieldBase} {sg : Bool} (k : Nat) (i : Int)
    (h : b.computeValueForDump all.view ctx = .ok (.int i)) (hs : b.size = .fixed k) (hk : 0 < k) (hv : b.validators = [])
    (hi : InRange k sg i) : Part Γ (n + 1) ctx all (.leaf b (.integer sg .little)) (Formats.le k i) := by
  refine part_of (f := .leaf b (.integer sg .little)) h (by simp) ?_
  have hw := (intToBytes_eq i k hk .little sg).1 hi
  rw [Formats.le_natToLE] at hw
  have hlen : (Formats.le k i).length = k := by
    obtain ⟨x, h1, h2⟩ := (C11_write_int_range i k hk .little sg).1 hi
    rw [writeInt, hw] at h1
    cases h1; exact h2
  apply fieldToStream_plain (f := .leaf b (.integer sg .little)) (by simp) (by simp) (by simp) (by simp [Field.base, hv])
    (Or.inr (Or.inl (by rw [hlen]; exact hs)))
  simp [fieldDoDump, leafDump, hs, writeInt, hw, unserializableOnRange, W.ofExcept, W.ok, Endian.arrange]

theorem part_bytes {Γ : Classes} {n : Nat} {ctx : Value} {all : Dict} {b : FieldBase} (x : Bytes)
    (h : b.computeValueForDump all.view ctx = .ok (.bytes x)) (hs : DeclaredSize (.leaf b .bytes) all x.length) (hv : b.validators = []) :
    Part Γ (n + 1) ctx all (.leaf b .bytes) x := by
  refine part_of (f := .leaf b .bytes) h (by simp) ?_
  apply fieldToStream_plain (f := .leaf b .bytes) (by simp) (by simp) (by simp) (by simp [Field.base, hv]) (Or.inr hs)
  have hexp : leafExpectedSize b .bytes all = .ok x.length := leafExpectedSize_declared hs
  simp [fieldDoDump, leafDump, hexp, W.ok]

/-- The dump of a struct, from its parts. -/
theorem structToStream_parts {Γ : Classes} {n : Nat} {d : StructDesc} {vals all : Dict} {ctx : Value} {ps : List Bytes}
    (hv : validateContents d vals = .ok ()) (ha : structToDict Γ n d vals = .ok all) (hp : Parts Γ n ctx all d.components ps) :
    structToStream Γ (n + 1) d vals ctx = (ps.flatten, .ok ()) :=
  structToStream_ok_iff.2 ⟨validateContents_ok_iff.1 hv, all, ha, ps, hp, rfl⟩

/-! ### Reading -/

/-- Fields loaded one after the other from their bytes. -/
inductive Reads (Γ : Classes) (n : Nat) (ctx : Value) : List Field → Dict → List Bytes → Dict → Prop where
  | nil (acc : Dict) : Reads Γ n ctx [] acc [] acc
  | cons {f : Field} {fs : List Field} {acc r : Dict} (v : Value) {p : Bytes} {ps : List Bytes} :
      Dict.get? acc f.name = none →
      (∀ pre rest, fieldFromStream Γ n f ⟨pre ++ p ++ rest, pre.length⟩ ctx acc = (.ok v, ⟨pre ++ p ++ rest, pre.length + p.length⟩)) →
      Reads Γ n ctx fs (acc ++ [(f.name, v)]) ps r → Reads Γ n ctx (f :: fs) acc (p :: ps) r

theorem Reads.loads {Γ : Classes} {n : Nat} {ctx : Value} {fs : List Field} {acc r : Dict} {ps : List Bytes} (h : Reads Γ n ctx fs acc ps r)
    (pre rest : Bytes) : Loads Γ n ctx fs acc ⟨pre ++ ps.flatten ++ rest, pre.length⟩ r
      ⟨pre ++ ps.flatten ++ rest, pre.length + ps.flatten.length⟩ := by
  induction h generalizing pre with
  | nil acc => simpa using Loads.nil acc _
  | @cons f fs acc r v p ps h0 h1 h2 ih =>
    have h3 := h1 pre (ps.flatten ++ rest)
    have h4 := ih (pre ++ p)
    have e : pre ++ p ++ (ps.flatten ++ rest) = pre ++ (p :: ps).flatten ++ rest := by simp
    have e' : pre ++ p ++ ps.flatten ++ rest = pre ++ (p :: ps).flatten ++ rest := by simp
    rw [e] at h3
    rw [e', List.length_append] at h4
    have e2 : pre.length + p.length + ps.flatten.length = pre.length + (p :: ps).flatten.length := by simp; omega
    rw [e2] at h4
    exact .cons h3 (by rw [if_pos h0]; exact h4)

theorem structFromStream_reads {Γ : Classes} {n : Nat} {ctx : Value} {d : StructDesc} {results r : Dict} {ps : List Bytes}
    (h : Reads Γ n ctx d.components [] ps results) (hk : Dict.keys results = names d) (hv : validateContents d results = .ok ())
    (hr : dropDiscarded d results = r) (pre rest : Bytes) :
    structFromStream Γ (n + 1) d ⟨pre ++ ps.flatten ++ rest, pre.length⟩ ctx [] =
      (.ok r, ⟨pre ++ ps.flatten ++ rest, pre.length + ps.flatten.length⟩) :=
  structFromStream_ok_iff.2 ⟨results, h.loads pre rest, by rw [hk]; exact fun _ h => h, validateContents_ok_iff.1 hv, hr.symm⟩

/-- A field without validators, not null, is loaded by its `_do_load`. -/
theorem read_of {Γ : Classes} {n : Nat} {ctx v : Value} {acc : Dict} {b : FieldBase} {k : Leaf} {s s' : Stream}
    (hp : b.present acc.view ctx (some s) = .ok true) (hn : b.nullValue = .undefined) (hv : b.validators = [])
    (hc : b.const = .undefined ∨ ∀ (Γ : Classes) m, pyEq Γ (m + 1) v b.const = .ok true)
    (h : leafLoad b k (leafExpectedSize b k acc) s ctx acc = (.ok v, s')) :
    fieldFromStream Γ (n + 2) (.leaf b k) s ctx acc = (.ok v, s') := by
  rw [fieldFromStream, Field.base, fromStreamWith_plain hp (Or.inl (allowNull_false hn))]
  unfold loadAndFinish
  simp only [fieldDoLoad, h]
  rw [finishLoad_plain (Or.inl (allowNull_false hn)) (hc.imp_right fun h => h Γ n) (by simp [hv])]

theorem read_int {Γ : Classes} {n : Nat} {ctx : Value} {acc : Dict} {b : FieldBase} {sg : Bool} (k : Nat) (i : Int)
    (hp : ∀ v c s, b.present v c s = .ok true) (hn : b.nullValue = .undefined) (hv : b.validators = [])
    (hc : b.const = .undefined ∨ ∀ (Γ : Classes) m, pyEq Γ (m + 1) (.int i) b.const = .ok true) (hs : b.size = .fixed k) (hk : 0 < k)
    (hi : InRange k sg i) (pre rest : Bytes) :
    fieldFromStream Γ (n + 2) (.leaf b (.integer sg .little)) ⟨pre ++ Formats.le k i ++ rest, pre.length⟩ ctx acc =
      (.ok (.int i), ⟨pre ++ Formats.le k i ++ rest, pre.length + (Formats.le k i).length⟩) := by
  have hw := (intToBytes_eq i k hk .little sg).1 hi
  rw [Formats.le_natToLE] at hw
  have hlen : (Formats.le k i).length = k := by
    obtain ⟨x, h1, h2⟩ := (C11_write_int_range i k hk .little sg).1 hi
    rw [writeInt, hw] at h1
    cases h1; exact h2
  refine read_of (hp _ _ _) hn hv hc ?_
  simp only [leafLoad, hs]
  rw [C10_write_read i k hk sg .little (Formats.le k i) pre rest hw, hlen]
  rfl

theorem read_bytes {Γ : Classes} {n : Nat} {ctx : Value} {acc : Dict} {b : FieldBase} (x : Bytes)
    (hp : ∀ c s, b.present acc.view c s = .ok true) (hn : b.nullValue = .undefined) (hv : b.validators = [])
    (hc : b.const = .undefined ∨ ∀ (Γ : Classes) m, pyEq Γ (m + 1) (.bytes x) b.const = .ok true)
    (hs : DeclaredSize (.leaf b .bytes) acc x.length) (pre rest : Bytes) :
    fieldFromStream Γ (n + 2) (.leaf b .bytes) ⟨pre ++ x ++ rest, pre.length⟩ ctx acc =
      (.ok (.bytes x), ⟨pre ++ x ++ rest, pre.length + x.length⟩) := by
  refine read_of (hp _ _) hn hv hc ?_
  have hexp : leafExpectedSize b .bytes acc = .ok x.length := leafExpectedSize_declared hs
  simp only [leafLoad, hexp, readExactSize_here, R.map]
  rfl

theorem read_absent {Γ : Classes} {n : Nat} {ctx : Value} {acc : Dict} {b : FieldBase} {k : Leaf}
    (hp : ∀ c s, b.present acc.view c s = .ok false) (pre rest : Bytes) :
    fieldFromStream Γ (n + 1) (.leaf b k) ⟨pre ++ [] ++ rest, pre.length⟩ ctx acc =
      (.ok b.notPresentValue, ⟨pre ++ [] ++ rest, pre.length + ([] : Bytes).length⟩) := by
  simp [fieldFromStream, fromStreamWith, Field.base, hp]

/-! ### Text and dates -/

theorem text_plain {b : FieldBase} (hp : ∀ v c s, b.present v c s = .ok true) (hn : b.nullValue = .undefined) (hv : b.validators = [])
    (hc : b.const = .undefined) (v : Value) : Plain b v := ⟨hp, hn, hc, by simp [hv]⟩

theorem ascii_spaces (j : Nat) : asciiCodec.encode (List.replicate j 32) = .ok (List.replicate j 32) := by
  induction j with
  | zero => rfl
  | succ j ih =>
    have h : asciiCodec.enc 32 = some [32] := rfl
    simp [List.replicate_succ, CharCodec.encode, ih, h]

/-- A string of ASCII text, filled up with spaces. -/
theorem part_padded {Γ : Classes} {n : Nat} {ctx : Value} {all : Dict} {b : FieldBase} (k : Nat) (t : List Nat) (code : Bytes)
    (h : b.computeValueForDump all.view ctx = .ok (.str t)) (hs : b.size = .fixed k) (hv : ∀ v, Plain b v)
    (hcode : asciiCodec.encode t = .ok code) (hlen : code.length ≤ k) :
    Part Γ (n + 1) ctx all (.leaf b (.string asciiCodec (some 32))) (code ++ List.replicate (k - code.length) 32) := by
  refine part_of (f := .leaf b (.string asciiCodec (some 32))) h (by simp) ?_
  have hpad := ascii_spaces (k - code.length)
  exact (C49_string_round_trip Γ n b asciiCodec 32 t _ code (k - code.length) ctx all [] .ascii (hv _) (hv _)
    (by rw [hs]; congr 1; omega) hcode hpad).1

theorem read_padded {Γ : Classes} {n : Nat} {ctx : Value} {acc : Dict} {b : FieldBase} (k : Nat) (t : List Nat) (code : Bytes)
    (hs : b.size = .fixed k) (hv : ∀ v, Plain b v) (hcode : asciiCodec.encode t = .ok code) (hlen : code.length ≤ k) (pre rest : Bytes) :
    fieldFromStream Γ (n + 2) (.leaf b (.string asciiCodec (some 32)))
        ⟨pre ++ (code ++ List.replicate (k - code.length) 32) ++ rest, pre.length⟩ ctx acc =
      (.ok (.str (t ++ List.replicate (k - code.length) 32)),
        ⟨pre ++ (code ++ List.replicate (k - code.length) 32) ++ rest,
          pre.length + (code ++ List.replicate (k - code.length) 32).length⟩) := by
  have hpad := ascii_spaces (k - code.length)
  exact (C49_string_round_trip Γ n b asciiCodec 32 t _ code (k - code.length) ctx [] acc .ascii (hv _) (hv _)
    (by rw [hs]; congr 1; omega) hcode hpad).2 pre rest

/-- A string of the right length. -/
theorem part_text {Γ : Classes} {n : Nat} {ctx : Value} {all : Dict} {b : FieldBase} {c : CharCodec} (k : Nat) (t : List Nat) (code : Bytes)
    (h : b.computeValueForDump all.view ctx = .ok (.str t)) (hs : b.size = .fixed k) (hv : b.validators = [])
    (hcode : c.encode t = .ok code) (hlen : code.length = k) :
    Part Γ (n + 1) ctx all (.leaf b (.string c none)) code := by
  refine part_of (f := .leaf b (.string c none)) h (by simp) ?_
  exact (C49_string_dump Γ n b c none t code k ctx all (by simp [Accepts, Field.base, hv]) (Or.inl hs) hcode).1 (by rw [hlen])

theorem read_text {Γ : Classes} {n : Nat} {ctx : Value} {acc : Dict} {b : FieldBase} {c : CharCodec} (hk : Supported c) (k : Nat) (t : List Nat)
    (code : Bytes) (hs : b.size = .fixed k) (hv : ∀ v, Plain b v) (hcode : c.encode t = .ok code) (hlen : code.length = k) (pre rest : Bytes) :
    fieldFromStream Γ (n + 2) (.leaf b (.string c none)) ⟨pre ++ code ++ rest, pre.length⟩ ctx acc =
      (.ok (.str t), ⟨pre ++ code ++ rest, pre.length + code.length⟩) :=
  (C49_string_load Γ n b c none code ctx acc (Or.inl (by rw [hlen]; exact hs)) pre rest).1 t (decode_encode (supported_lawful hk) hcode) (hv _)

/-- A null-terminated string in UTF-8. -/
theorem stringz_utf8 {Γ : Classes} {n : Nat} {ctx : Value} {all acc : Dict} {b : FieldBase} (t : List Nat) (code : Bytes) (hs : b.size = .none)
    (hv : ∀ v, Plain b v) (hd : b.default = .ok .undefined) (hfirst : Dict.get? acc b.name = none) (hnul : 0 ∉ t)
    (hcode : utf8Codec.encode t = .ok code) :
    fieldToStream Γ (n + 1) (.leaf b (.stringz utf8Codec none)) (.str t) ctx all = (code ++ [0], .ok ()) ∧
      ∀ pre rest, fieldFromStream Γ (n + 2) (.leaf b (.stringz utf8Codec none)) ⟨pre ++ (code ++ [0]) ++ rest, pre.length⟩ ctx acc =
        (.ok (.str t), ⟨pre ++ (code ++ [0]) ++ rest, pre.length + (code ++ [0]).length⟩) := by
  obtain ⟨term, h1, h2, h3⟩ := C45_stringz_round_trip Γ n b utf8Codec none t code ctx all acc .utf8 (hv _) hs hd hfirst hnul hcode
  have h4 : utf8Codec.encode [0] = .ok [0] := by decide
  rw [h4] at h1
  cases h1
  exact ⟨h2, h3⟩

/-- Whole seconds since the epoch. -/
theorem timestamp_le {Γ : Classes} {n : Nat} {ctx : Value} {all acc : Dict} {b : FieldBase} (k : Int) (hs : b.size = .fixed 4)
    (hv : ∀ v, Plain b v) (hk : InRange 4 true k) :
    fieldToStream Γ (n + 1) (.leaf b (.timestamp .s true true .little)) (.datetime (k * 1000000) true) ctx all = (Formats.le 4 k, .ok ()) ∧
      ∀ pre rest, fieldFromStream Γ (n + 2) (.leaf b (.timestamp .s true true .little)) ⟨pre ++ Formats.le 4 k ++ rest, pre.length⟩ ctx acc =
        (.ok (.datetime (k * 1000000) true), ⟨pre ++ Formats.le 4 k ++ rest, pre.length + (Formats.le 4 k).length⟩) := by
  have hr : datetimeFirst true ≤ k * 1000000 ∧ k * 1000000 ≤ datetimeMax := by
    have h := hk
    simp only [InRange, if_true] at h
    norm_num at h
    simp only [datetimeFirst, datetimeMin, datetimeMax]
    constructor
    · simp; omega
    · omega
  have hw := (intToBytes_eq k 4 (by decide) .little true).1 hk
  rw [Formats.le_natToLE] at hw
  obtain ⟨bs, h1, h2, h3⟩ := (C54_dump_load_partial Γ n b true true .little ctx all acc 4 (by decide) hs hv k hr).1 hk
  have hb : bs = Formats.le 4 k := by
    have hread := readInt_ok [] bs [] true .little
    have h5 := tsStored_whole .s (k := k) (by simp only [datetimeFirst, datetimeMin, datetimeMax] at hr; omega)
      (by simpa [Resolution.units] using Holds.small (by simp only [datetimeFirst, datetimeMin, datetimeMax] at hr; omega)) true
    simp only [Resolution.units, Nat.cast_one, mul_one] at h5
    rw [← tsDump_of _ hr.1] at h5
    have h6 := (timestamp_dump Γ n b .s true true .little _ true ctx all 4 (by decide) hs (hv _).2.2.2 h5).1 _ hw
    rw [h1] at h6
    cases h6
    rfl
  subst hb
  exact ⟨h1, h3⟩

end Verif
