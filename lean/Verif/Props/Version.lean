import Verif.Proofs.Version

/-!
# C120: version numbers

`binobj.VersionInfo`: `from_string` and `str()` are inverse to each other on version numbers (`C120_round_trip`, `C120_normal`), a missing patch
number is 0 and further components are ignored (`C120_shape`), and releases are ordered by their numbers
(`C120_order`), pre-releases by their numbers and then by the text of the suffix (`C120_order_suffix`).

Where the code falls short:

* `str()` of a tuple with a negative number or an empty suffix does not parse back (`C120_any_tuple_refuted`);
* the normalised form of a pre-release, which is the form that `importlib.metadata.version` reports, is refused (`C120_prerelease_refuted`):
  the library could not be imported from such a release;
* a development release is taken for the release itself (`C120_dev_refuted`);
* a release cannot be compared with a pre-release of the same number (`C120_order_refuted`).
-/

namespace Verif

/-- The decimal text of a natural number. -/
abbrev decimal (n : Nat) : List Char := Nat.toDigits 10 n

/-- A version number: its numbers are not negative, and the suffix, if there is one, is not empty. -/
def VersionInfo.Proper (v : VersionInfo) : Prop := 0 ≤ v.major ∧ 0 ≤ v.minor ∧ 0 ≤ v.patch ∧ v.suffix ≠ some []

private theorem numbers_split {a b c : List Char} (ha : Digits a) (hb : Digits b) (hc : Digits c) (r : List Char) :
    partitionAt '-' (a ++ '.' :: b ++ '.' :: c ++ '-' :: r) = (a ++ '.' :: b ++ '.' :: c, r) ∧
      partitionAt '-' (a ++ '.' :: b ++ '.' :: c) = (a ++ '.' :: b ++ '.' :: c, []) ∧
      splitAt '.' (a ++ '.' :: b ++ '.' :: c) = [a, b, c] := by
  have hm : '-' ∉ a ++ '.' :: b ++ '.' :: c := by
    have h1 := ha.not_mem (c := '-') rfl
    have h2 := hb.not_mem (c := '-') rfl
    have h3 := hc.not_mem (c := '-') rfl
    simp [h1, h2, h3]
  refine ⟨partitionAt_append hm, partitionAt_none hm, ?_⟩
  rw [List.append_assoc, List.cons_append, splitAt_append (ha.not_mem rfl), splitAt_append (hb.not_mem rfl), splitAt_none (hc.not_mem rfl)]

/-- `VersionInfo.from_string(str(v)) == v`, for every version number. -/
theorem C120_round_trip (U : CharTable) (hU : U.Standard) (v : VersionInfo) (hv : v.Proper) : VersionInfo.fromString U v.toText = .ok v := by
  obtain ⟨x, y, z, suffix⟩ := v
  obtain ⟨hx, hy, hz, hs⟩ := hv
  have hsp := numbers_split (pyStr_digits hx) (pyStr_digits hy) (pyStr_digits hz)
  cases suffix with
  | none => exact fromString_parts (hsp []).2.1 (hsp []).2.2 (pyInt_pyStr hU hx) (pyInt_pyStr hU hy) (pyInt_pyStr hU hz)
  | some s =>
    cases s with
    | nil => exact absurd rfl hs
    | cons c cs => exact fromString_parts (hsp (c :: cs)).1 (hsp []).2.2 (pyInt_pyStr hU hx) (pyInt_pyStr hU hy) (pyInt_pyStr hU hz)

/-- Whatever text `from_string` accepts, it returns a version number; so `str()` of it is a normal form of the text, and a fixed point. -/
theorem C120_normal (U : CharTable) (hU : U.Standard) (s : List Char) (v : VersionInfo) (h : VersionInfo.fromString U s = .ok v) :
    v.Proper ∧ VersionInfo.fromString U v.toText = .ok v := by
  suffices hp : v.Proper from ⟨hp, C120_round_trip U hU v hp⟩
  have hm := partitionAt_fst (sep := '-') s
  simp only [VersionInfo.fromString] at h
  generalize (partitionAt '-' s).1 = base at *
  cases hs : splitAt '.' base with
  | nil => rw [hs] at h; cases h
  | cons a l =>
    cases l with
    | nil => rw [hs] at h; cases h
    | cons b l =>
      rw [hs] at h
      simp only at h
      have hmem : ∀ p ∈ splitAt '.' base, '-' ∉ p := fun p hp hc => hm (mem_of_splitAt hp _ hc)
      rw [hs] at hmem
      have hc : '-' ∉ l.head?.getD ['0'] := by
        cases l with
        | nil => decide
        | cons c l => exact hmem c (by simp)
      cases hx : pyInt U a with
      | error e => rw [hx] at h; cases h
      | ok x =>
        rw [hx] at h
        cases hy : pyInt U b with
        | error e => rw [hy] at h; cases h
        | ok y =>
          rw [hy] at h
          cases hz : pyInt U (l.head?.getD ['0']) with
          | error e => rw [hz] at h; cases h
          | ok z =>
            rw [hz] at h
            cases h
            refine ⟨pyInt_nonneg (hmem a (by simp)) hx, pyInt_nonneg (hmem b (by simp)) hy, pyInt_nonneg hc hz, ?_⟩
            simp only
            split
            · simp
            · rename_i hne; simpa using hne

/-- Two numbers: the patch number is 0.  More than three: what follows the third is ignored.  What follows the first dash is the suffix. -/
theorem C120_shape (U : CharTable) (hU : U.Standard) (a b c : Nat) (rest suffix : List Char) (hr : '-' ∉ rest) (hs : suffix ≠ []) :
    VersionInfo.fromString U (decimal a ++ '.' :: decimal b) = .ok ⟨a, b, 0, none⟩ ∧
    VersionInfo.fromString U (decimal a ++ '.' :: decimal b ++ '-' :: suffix) = .ok ⟨a, b, 0, some suffix⟩ ∧
    VersionInfo.fromString U (decimal a ++ '.' :: decimal b ++ '.' :: decimal c) = .ok ⟨a, b, c, none⟩ ∧
    VersionInfo.fromString U (decimal a ++ '.' :: decimal b ++ '.' :: decimal c ++ '.' :: rest) = .ok ⟨a, b, c, none⟩ ∧
    VersionInfo.fromString U (decimal a ++ '.' :: decimal b ++ '.' :: decimal c ++ '.' :: rest ++ '-' :: suffix) =
      .ok ⟨a, b, c, some suffix⟩ := by
  have da := digits_toDigits a
  have db := digits_toDigits b
  have dc := digits_toDigits c
  have ha := da.not_mem (c := '-') rfl
  have hb := db.not_mem (c := '-') rfl
  have hc := dc.not_mem (c := '-') rfl
  have ha' := da.not_mem (c := '.') rfl
  have hb' := db.not_mem (c := '.') rfl
  have hc' := dc.not_mem (c := '.') rfl
  have ia := pyInt_toDigits hU a
  have ib := pyInt_toDigits hU b
  have ic := pyInt_toDigits hU c
  have i0 : pyInt U ['0'] = .ok 0 := pyInt_toDigits hU 0
  have h2 : '-' ∉ decimal a ++ '.' :: decimal b := by simp [decimal, ha, hb]
  have h3 : '-' ∉ decimal a ++ '.' :: decimal b ++ '.' :: decimal c := by simp [decimal, ha, hb, hc]
  have h4 : '-' ∉ decimal a ++ '.' :: decimal b ++ '.' :: decimal c ++ '.' :: rest := by simp [decimal, ha, hb, hc, hr]
  have s2 : splitAt '.' (decimal a ++ '.' :: decimal b) = [decimal a, decimal b] := by rw [splitAt_append ha', splitAt_none hb']
  have s3 : splitAt '.' (decimal a ++ '.' :: decimal b ++ '.' :: decimal c) = [decimal a, decimal b, decimal c] := by
    rw [List.append_assoc, List.cons_append, splitAt_append ha', splitAt_append hb', splitAt_none hc']
  have s4 : splitAt '.' (decimal a ++ '.' :: decimal b ++ '.' :: decimal c ++ '.' :: rest) =
      decimal a :: decimal b :: decimal c :: splitAt '.' rest := by
    rw [List.append_assoc, List.append_assoc, List.cons_append, List.cons_append, splitAt_append ha',
      splitAt_append hb', splitAt_append hc']
  refine ⟨?_, ?_, ?_, ?_, ?_⟩
  · exact fromString_parts (partitionAt_none h2) s2 ia ib i0
  · rw [fromString_parts (partitionAt_append h2) s2 ia ib i0, if_neg hs]
  · exact fromString_parts (partitionAt_none h3) s3 ia ib ic
  · exact fromString_parts (partitionAt_none h4) s4 ia ib ic
  · rw [fromString_parts (partitionAt_append h4) s4 ia ib ic, if_neg hs]

/-- The order of two releases: by the first number that differs. -/
def VersionInfo.Before (v w : VersionInfo) : Prop :=
  v.major < w.major ∨ (v.major = w.major ∧ (v.minor < w.minor ∨ (v.minor = w.minor ∧ v.patch < w.patch)))

instance (v w : VersionInfo) : Decidable (v.Before w) := by unfold VersionInfo.Before; infer_instance

/-- `v < w` of two releases raises nothing and is the order by numbers; of two that differ, one is before the other. -/
theorem C120_order (v w : VersionInfo) (hv : v.suffix = none) (hw : w.suffix = none) :
    v.less w = .ok (decide (v.Before w)) ∧ (v ≠ w → v.Before w ∨ w.Before v) := by
  obtain ⟨a, b, c, s⟩ := v
  obtain ⟨a', b', c', s'⟩ := w
  simp only at hv hw
  subst hv hw
  constructor
  · simp only [VersionInfo.less, VersionInfo.Before]
    by_cases h1 : a = a'
    · by_cases h2 : b = b'
      · by_cases h3 : c = c'
        · simp [h1, h2, h3]
        · simp [h1, h2, h3]
      · simp [h1, h2]
    · simp [h1]
  · intro hne
    simp only [VersionInfo.Before]
    have : ¬(a = a' ∧ b = b' ∧ c = c') := by
      rintro ⟨rfl, rfl, rfl⟩
      exact hne rfl
    omega

/-- The order of texts: one is the beginning of the other, or they differ first in a character with the smaller code. -/
def TextBefore (a b : List Char) : Prop :=
  (∃ c t, b = a ++ c :: t) ∨ ∃ p x y s t, a = p ++ x :: s ∧ b = p ++ y :: t ∧ x.toNat < y.toNat

private theorem textLess_iff : ∀ a b : List Char, textLess a b = true ↔ TextBefore a b := by
  intro a
  induction a with
  | nil =>
    intro b
    cases b with
    | nil =>
      simp only [textLess, Bool.false_eq_true, false_iff]
      rintro (⟨c, t, h⟩ | ⟨p, x, y, s, t, h, _⟩)
      · simp at h
      · simp at h
    | cons c cs => exact iff_of_true rfl (Or.inl ⟨c, cs, rfl⟩)
  | cons a as ih =>
    intro b
    cases b with
    | nil =>
      simp only [textLess, Bool.false_eq_true, false_iff]
      rintro (⟨c, t, h⟩ | ⟨p, x, y, s, t, _, h, _⟩)
      · simp at h
      · simp at h
    | cons b bs =>
      simp only [textLess]
      by_cases hab : a = b
      · subst hab
        rw [if_pos rfl, ih]
        constructor
        · rintro (⟨c, t, rfl⟩ | ⟨p, x, y, s, t, rfl, rfl, h⟩)
          · exact Or.inl ⟨c, t, rfl⟩
          · exact Or.inr ⟨a :: p, x, y, s, t, rfl, rfl, h⟩
        · rintro (⟨c, t, h⟩ | ⟨p, x, y, s, t, h1, h2, h⟩)
          · rw [List.cons_append, List.cons.injEq] at h
            exact Or.inl ⟨c, t, h.2⟩
          · cases p with
            | nil =>
              rw [List.nil_append, List.cons.injEq] at h1 h2
              rw [← h1.1, ← h2.1] at h
              omega
            | cons q p =>
              rw [List.cons_append, List.cons.injEq] at h1 h2
              exact Or.inr ⟨p, x, y, s, t, h1.2, h2.2, h⟩
      · rw [if_neg hab, decide_eq_true_eq]
        constructor
        · exact fun h => Or.inr ⟨[], a, b, as, bs, rfl, rfl, h⟩
        · rintro (⟨c, t, h⟩ | ⟨p, x, y, s, t, h1, h2, h⟩)
          · rw [List.cons_append, List.cons.injEq] at h
            exact absurd h.1.symm hab
          · cases p with
            | nil =>
              rw [List.nil_append, List.cons.injEq] at h1 h2
              rw [h1.1, h2.1]
              exact h
            | cons q p =>
              rw [List.cons_append, List.cons.injEq] at h1 h2
              exact absurd (h1.1.trans h2.1.symm) hab

/-- `v < w` of two pre-releases: by the numbers, and where these are the same by the text of the suffix. -/
theorem C120_order_suffix (v w : VersionInfo) (a b : List Char) (hv : v.suffix = some a) (hw : w.suffix = some b) :
    ∃ r, v.less w = .ok r ∧ (r = true ↔ v.Before w ∨ (v.major = w.major ∧ v.minor = w.minor ∧ v.patch = w.patch ∧ TextBefore a b)) := by
  simp only [VersionInfo.less, VersionInfo.Before, hv, hw]
  by_cases h1 : v.major = w.major
  · by_cases h2 : v.minor = w.minor
    · by_cases h3 : v.patch = w.patch
      · exact ⟨textLess a b, by simp [h1, h2, h3], by simp [h1, h2, h3, textLess_iff]⟩
      · exact ⟨decide (v.patch < w.patch), by simp [h1, h2, h3], by simp [h1, h2, h3]⟩
    · exact ⟨decide (v.minor < w.minor), by simp [h1, h2], by simp [h1, h2]⟩
  · exact ⟨decide (v.major < w.major), by simp [h1], by simp [h1]⟩

/-- A release and a pre-release with the same numbers cannot be compared: `TypeError`, whichever comes first. -/
theorem C120_order_refuted (x y z : Int) (suffix : List Char) :
    VersionInfo.less ⟨x, y, z, none⟩ ⟨x, y, z, some suffix⟩ = .error .typeErr ∧
    VersionInfo.less ⟨x, y, z, some suffix⟩ ⟨x, y, z, none⟩ = .error .typeErr := by
  simp [VersionInfo.less]

/-- Not every tuple's text parses back: a negative number makes the rest a suffix, and an empty suffix is lost. -/
theorem C120_any_tuple_refuted (U : CharTable) (hU : U.Standard) :
    VersionInfo.fromString U (VersionInfo.toText ⟨1, -2, 3, none⟩) = .error .valueErr ∧
    VersionInfo.fromString U (VersionInfo.toText ⟨1, 2, -3, none⟩) = .error .valueErr ∧
    VersionInfo.fromString U (VersionInfo.toText ⟨1, 2, 3, some []⟩) = .ok ⟨1, 2, 3, none⟩ := by
  have h1 : pyInt U ['1'] = .ok 1 := pyInt_toDigits hU 1
  have h2 : pyInt U ['2'] = .ok 2 := pyInt_toDigits hU 2
  have h3 : pyInt U ['3'] = .ok 3 := pyInt_toDigits hU 3
  have h0 : pyInt U [] = .error .valueErr := rfl
  refine ⟨?_, ?_, ?_⟩
  · show VersionInfo.fromString U ['1', '.', '-', '2', '.', '3'] = _
    simp [VersionInfo.fromString, partitionAt, splitAt, h1, h0]
  · show VersionInfo.fromString U ['1', '.', '2', '.', '-', '3'] = _
    simp [VersionInfo.fromString, partitionAt, splitAt, h1, h2, h0]
  · show VersionInfo.fromString U ['1', '.', '2', '.', '3'] = _
    simp [VersionInfo.fromString, partitionAt, splitAt, h1, h2, h3]

/-- The normalised form of a pre-release (PEP 440: `1.2.3a1`, `1.2.3b1`, `1.2.3rc1`) is refused: a letter directly after the patch number. -/
theorem C120_prerelease_refuted (U : CharTable) (hU : U.Standard) (a b c : Nat) (letter : Char) (hl : letter.isAlpha) (tail : List Char)
    (ht : ∀ d ∈ tail, d.isAlphanum) :
    VersionInfo.fromString U (decimal a ++ '.' :: decimal b ++ '.' :: (decimal c ++ letter :: tail)) = .error .valueErr := by
  have alnum : ∀ d : Char, d.isAlphanum = true → (33 ≤ d.toNat ∧ d.toNat < 128) ∧ d ≠ '-' ∧ d ≠ '.' := by
    intro d hd
    refine ⟨?_, (by rintro rfl; cases hd), (by rintro rfl; cases hd)⟩
    simp only [Char.isAlphanum, Char.isAlpha, Char.isUpper, Char.isLower, Bool.or_eq_true, Bool.and_eq_true, decide_eq_true_eq] at hd
    rcases hd with (⟨h1, h2⟩ | ⟨h1, h2⟩) | hd
    · have h1 := UInt32.le_iff_toNat_le.1 h1
      have h2 := UInt32.le_iff_toNat_le.1 h2
      exact ⟨Nat.le_trans (by decide) h1, Nat.lt_of_le_of_lt h2 (by decide)⟩
    · have h1 := UInt32.le_iff_toNat_le.1 h1
      have h2 := UInt32.le_iff_toNat_le.1 h2
      exact ⟨Nat.le_trans (by decide) h1, Nat.lt_of_le_of_lt h2 (by decide)⟩
    · have := isDigit_bounds hd
      omega
  have hall : ∀ d ∈ letter :: tail, d.isAlphanum = true := by
    intro d hd
    rcases List.mem_cons.1 hd with rfl | hd
    · simp [Char.isAlphanum, hl]
    · exact ht d hd
  have hnd : letter.isDigit = false := by
    cases hd : letter.isDigit with
    | false => rfl
    | true =>
      have hb := isDigit_bounds hd
      simp only [Char.isAlpha, Char.isUpper, Char.isLower, Bool.or_eq_true, Bool.and_eq_true, decide_eq_true_eq] at hl
      rcases hl with ⟨h1, _⟩ | ⟨h1, _⟩
      · have h1 : 65 ≤ letter.toNat := UInt32.le_iff_toNat_le.1 h1
        omega
      · have h1 : 97 ≤ letter.toNat := UInt32.le_iff_toNat_le.1 h1
        omega
  have hu : letter ≠ '_' := by rintro rfl; cases hl
  have hdash : '-' ∉ letter :: tail := fun h => (alnum _ (hall _ h)).2.1 rfl
  have hdot : '.' ∉ letter :: tail := fun h => (alnum _ (hall _ h)).2.2 rfl
  have da := digits_toDigits a
  have db := digits_toDigits b
  have dc := digits_toDigits c
  have hm : '-' ∉ decimal a ++ '.' :: decimal b ++ '.' :: (decimal c ++ letter :: tail) := by
    simp only [decimal, List.mem_append, List.mem_cons, not_or] at hdash ⊢
    exact ⟨⟨da.not_mem rfl, by decide, db.not_mem rfl⟩, by decide, dc.not_mem rfl, hdash⟩
  have hd : '.' ∉ decimal c ++ letter :: tail := by
    rw [List.mem_append, not_or]
    exact ⟨dc.not_mem rfl, hdot⟩
  have hz : pyInt U (decimal c ++ letter :: tail) = .error .valueErr := by
    rw [pyInt_digits hU c (fun d hd => (alnum d (hall d hd)).1), intDigits, if_neg hu, hU.digit letter (alnum _ (hall _ List.mem_cons_self)).1.2, hnd]
    rfl
  simp only [VersionInfo.fromString]
  rw [partitionAt_none hm]
  simp only
  rw [List.append_assoc, List.cons_append, splitAt_append (da.not_mem rfl), splitAt_append (db.not_mem rfl), splitAt_none hd]
  simp only [List.head?_cons, Option.getD_some]
  rw [pyInt_toDigits hU a, pyInt_toDigits hU b, hz]

/-- The normalised form of a development release, `1.2.3.dev4`, is taken for `1.2.3`. -/
theorem C120_dev_refuted (U : CharTable) (hU : U.Standard) (a b c n : Nat) :
    VersionInfo.fromString U (decimal a ++ '.' :: decimal b ++ '.' :: decimal c ++ '.' :: (['d', 'e', 'v'] ++ decimal n)) =
      VersionInfo.fromString U (decimal a ++ '.' :: decimal b ++ '.' :: decimal c) := by
  have hr : '-' ∉ ['d', 'e', 'v'] ++ decimal n := by
    have := (digits_toDigits n).not_mem (c := '-') rfl
    simp [decimal, this]
  have h := C120_shape U hU a b c (['d', 'e', 'v'] ++ decimal n) ['x'] hr (by simp)
  rw [h.2.2.1, h.2.2.2.1]

namespace Sample

/-- Nothing but ASCII. -/
def asciiTable : CharTable where
  digit c := if c.toNat < 128 ∧ c.isDigit then some (c.toNat - '0'.toNat) else none
  space c := decide (c = ' ' ∨ (9 ≤ c.toNat ∧ c.toNat ≤ 13))

theorem asciiTable_standard : asciiTable.Standard where
  digit c h := by simp [asciiTable, h]
  space c _ := by simp [asciiTable]

end Sample

/-- The version of this library. -/
example : VersionInfo.fromString Sample.asciiTable "0.12.0".toList = .ok ⟨0, 12, 0, none⟩ := by decide
example : VersionInfo.toText ⟨0, 12, 0, none⟩ = "0.12.0".toList := by decide
example : VersionInfo.fromString Sample.asciiTable "1.2-rc1".toList = .ok ⟨1, 2, 0, some "rc1".toList⟩ := by decide
example : VersionInfo.toText ⟨1, 2, 0, some "rc1".toList⟩ = "1.2.0-rc1".toList := by decide
example : VersionInfo.fromString Sample.asciiTable " 1_0.+2.03\n.x".toList = .ok ⟨10, 2, 3, none⟩ := by decide
example : VersionInfo.fromString Sample.asciiTable "1".toList = .error .valueErr := by decide
example : VersionInfo.fromString Sample.asciiTable "1__0.2".toList = .error .valueErr := by decide
example : VersionInfo.fromString Sample.asciiTable "1.2.3rc1".toList = .error .valueErr := by decide
example : VersionInfo.fromString Sample.asciiTable "1.2.3.dev1".toList = .ok ⟨1, 2, 3, none⟩ := by decide
example : VersionInfo.less ⟨0, 9, 0, none⟩ ⟨0, 12, 0, none⟩ = .ok true := by decide
example : VersionInfo.Proper ⟨0, 12, 0, some "rc1".toList⟩ := by unfold VersionInfo.Proper; decide
example : VersionInfo.fromString Sample.asciiTable (VersionInfo.toText ⟨0, 12, 345, some "rc1".toList⟩) = .ok ⟨0, 12, 345, some "rc1".toList⟩ :=
  C120_round_trip _ Sample.asciiTable_standard _ (by unfold VersionInfo.Proper; decide)
example : TextBefore "rc10".toList "rc9".toList := Or.inr ⟨['r', 'c'], '1', '9', ['0'], [], rfl, rfl, by decide⟩
/-- Suffixes are compared as text. -/
example : VersionInfo.less ⟨1, 0, 0, some "rc10".toList⟩ ⟨1, 0, 0, some "rc9".toList⟩ = .ok true := by decide

end Verif
