import Verif.Proofs.Container
import Verif.Spec.Sentinel

/-!
# Loops that end at a sentinel
-/

namespace Verif
open Spec

theorem ended_concat {isEnd : Value → Bool} {l : List Value} {v : Value} : Ended isEnd (l ++ [v]) ↔ isEnd v = true := by
  constructor
  · rintro ⟨m, w, h, hw⟩
    have := List.append_inj' h rfl
    simp at this
    rw [this.2]; exact hw
  · exact fun h => ⟨l, v, rfl, h⟩

theorem not_ended_nil {isEnd : Value → Bool} : ¬ Ended isEnd [] := by
  rintro ⟨m, w, h, -⟩; simp at h

/-- While no element is a sentinel, the loop goes on. -/
theorem arrayLoop_until {isEnd : Value → Bool} {halt : Stream → List Value → Except Err (Bool × List Value)} {load : Stream → R Value}
    (hgo : ∀ s values, ¬ Ended isEnd values → halt s values = .ok (false, values))
    {l : List Value} {ps : List Bytes} {acc : List Value} {pre rest : Bytes} {fuel : Nat} (hlen : ps.length = l.length)
    (hload : ∀ i (hi : i < l.length) (hi' : i < ps.length), l[i] ≠ .notPresent ∧ ∀ pre rest,
      load ⟨pre ++ ps[i] ++ rest, pre.length⟩ = (.ok l[i], ⟨pre ++ ps[i] ++ rest, pre.length + ps[i].length⟩))
    (hacc : ¬ Ended isEnd acc) (hl : ∀ v ∈ l.dropLast, isEnd v = false) :
    arrayLoop halt load (fuel + l.length) acc ⟨pre ++ ps.flatten ++ rest, pre.length⟩ =
      arrayLoop halt load fuel (acc ++ l) ⟨pre ++ ps.flatten ++ rest, pre.length + ps.flatten.length⟩ := by
  induction l generalizing ps acc pre with
  | nil =>
    have : ps = [] := List.length_eq_zero_iff.1 hlen
    subst this
    simp
  | cons v vs ih =>
    cases ps with
    | nil => simp at hlen
    | cons p ps =>
      obtain ⟨hnp, hl1⟩ := hload 0 (by simp) (by simp)
      simp only [List.getElem_cons_zero] at hnp hl1
      have hl' := hl1 pre (ps.flatten ++ rest)
      have e1 : pre ++ p ++ (ps.flatten ++ rest) = pre ++ (p :: ps).flatten ++ rest := by simp
      rw [e1] at hl'
      have hlen' : ps.length = vs.length := by simpa using hlen
      have hstep : arrayLoop halt load (fuel + (v :: vs).length) acc ⟨pre ++ (p :: ps).flatten ++ rest, pre.length⟩ =
          arrayLoop halt load (fuel + vs.length) (acc ++ [v]) ⟨pre ++ (p :: ps).flatten ++ rest, pre.length + p.length⟩ := by
        have : fuel + (v :: vs).length = (fuel + vs.length) + 1 := by simp; omega
        rw [this]
        conv => lhs; unfold arrayLoop
        rw [hgo _ _ hacc]
        simp only [hl']
        rw [if_neg hnp]
      rw [hstep]
      cases vs with
      | nil =>
        have : ps = [] := List.length_eq_zero_iff.1 (by simpa using hlen')
        subst this
        simp
      | cons w ws =>
        have hv : isEnd v = false := hl v (by simp)
        have := ih (ps := ps) (acc := acc ++ [v]) (pre := pre ++ p) hlen' (by
            intro i hi hi'
            have := hload (i + 1) (by simpa using hi) (by simpa using hi')
            simpa using this)
          (by rw [ended_concat]; simp [hv]) (fun x hx => hl x (by
            rw [List.dropLast_cons_of_ne_nil (by simp)]; simp only [List.mem_cons]; right; exact hx))
        have e2 : pre ++ p ++ ps.flatten ++ rest = pre ++ (p :: ps).flatten ++ rest := by simp
        have e3 : (pre ++ p).length = pre.length + p.length := by simp
        have e4 : pre.length + p.length + ps.flatten.length = pre.length + (p :: ps).flatten.length := by simp; omega
        rw [e2, e3, e4] at this
        rw [this]
        simp

/-- A loop that ended did so because the last value was a sentinel, and none before it was. -/
theorem arrayLoop_ended {isEnd : Value → Bool} {halt : Stream → List Value → Except Err (Bool × List Value)} {load : Stream → R Value}
    {final : List Value → List Value}
    (hstop : ∀ s values, Ended isEnd values → halt s values = .ok (true, final values))
    (hgo : ∀ s values, ¬ Ended isEnd values → halt s values = .ok (false, values)) {fuel : Nat} {acc l : List Value} {s s' : Stream}
    (h : arrayLoop halt load fuel acc s = (.ok l, s')) (hacc : ∀ v ∈ acc.dropLast, isEnd v = false) :
    ∃ m v, l = final (m ++ [v]) ∧ isEnd v = true ∧ ∀ w ∈ m, isEnd w = false := by
  induction fuel generalizing acc s with
  | zero =>
    unfold arrayLoop at h
    by_cases he : Ended isEnd acc
    · rw [hstop _ _ he] at h
      simp at h
      obtain ⟨m, v, rfl, hv⟩ := he
      exact ⟨m, v, h.1.symm, hv, by simpa using hacc⟩
    · rw [hgo _ _ he] at h
      simp only at h
      split at h <;> simp at h
  | succ fuel ih =>
    unfold arrayLoop at h
    by_cases he : Ended isEnd acc
    · rw [hstop _ _ he] at h
      simp at h
      obtain ⟨m, v, rfl, hv⟩ := he
      exact ⟨m, v, h.1.symm, hv, by simpa using hacc⟩
    · rw [hgo _ _ he] at h
      simp only at h
      split at h
      · simp at h
      · refine ih h ?_
        split
        · exact hacc
        · simp only [List.dropLast_concat]
          intro w hw
          rcases List.eq_nil_or_concat acc with rfl | ⟨m, x, rfl⟩
          · simp at hw
          · rw [List.concat_eq_append] at he hacc hw
            rw [List.dropLast_concat] at hacc
            rw [List.mem_append] at hw
            rcases hw with hw | hw
            · exact hacc w hw
            · simp at hw
              subst hw
              rw [ended_concat] at he
              simpa using he

end Verif
