import Verif.Spec.OpStack
import Verif.Lemmas.Elemental
import Verif.Lemmas.Elemental3
import Mathlib.Tactic.Ring

/-!
Block matrices on the stack: change of the memory outside of them, appending.
-/
namespace Verif.OpStack

open Verif.Dense Verif.Elemental

set_option linter.unusedSectionVars false

variable {K : Type} [CommRing K]

/-- the value depends on the starts and on the contents of the parts only -/
theorem val_congr {A B : Band K} {q f n r : Nat} (hn : n < q) (hr : r < f) (hp : B.nparts = A.nparts)
    (hrow : ∀ d, d ≤ A.nparts → B.stRow d = A.stRow d) (hcol : ∀ d, d ≤ A.nparts → B.stCol d = A.stCol d)
    (hdata : ∀ d, d < A.nparts → ∀ p,
      p < q * (A.stRow (d + 1) - A.stRow d) * ((A.stCol (d + 1) - A.stCol d) * f) → B.data d p = A.data d p) (l i : Nat) :
    B.val q l n i r = A.val q l n i r := by
  unfold Band.val
  rw [hp]
  refine Finset.sum_congr rfl (fun d hd => ?_)
  have hd' := Finset.mem_range.mp hd
  rw [hrow d (by omega), hrow (d + 1) hd', hcol d (by omega), hcol (d + 1) hd']
  by_cases h : (A.stRow d ≤ l ∧ l < A.stRow (d + 1)) ∧ (A.stCol d ≤ i ∧ i < A.stCol (d + 1))
  · rw [if_pos h, if_pos h]
    refine hdata d hd' _ ?_
    have h1 : l - A.stRow d + (A.stRow (d + 1) - A.stRow d) * n < (A.stRow (d + 1) - A.stRow d) * q :=
      rad_lt (by omega) hn
    rw [Nat.mul_comm (A.stRow (d + 1) - A.stRow d) q] at h1
    exact rad_lt h1 (rad_lt (by omega) hr)
  · rw [if_neg h, if_neg h]

theorem ok_congr {A B : Band K} {q dim nf : Nat} (ok : A.Ok q dim nf) (hp : B.nparts = A.nparts)
    (hrow : ∀ d, d ≤ A.nparts → B.stRow d = A.stRow d) (hcol : ∀ d, d ≤ A.nparts → B.stCol d = A.stCol d)
    (hn : ∀ d, d < A.nparts → B.nRow d = A.nRow d) : B.Ok q dim nf where
  row0 := by rw [hrow 0 (Nat.zero_le _), ok.row0]
  rowN := by rw [hp, hrow _ (Nat.le_refl _), ok.rowN]
  rowMono d hd := by
    rw [hp] at hd
    rw [hrow d (by omega), hrow (d + 1) hd]
    exact ok.rowMono d hd
  col0 := by rw [hcol 0 (Nat.zero_le _), ok.col0]
  colN := by rw [hp, hcol _ (Nat.le_refl _), ok.colN]
  colMono d hd := by
    rw [hp] at hd
    rw [hcol d (by omega), hcol (d + 1) hd]
    exact ok.colMono d hd
  rows d hd := by
    rw [hp] at hd
    rw [hn d hd, hrow d (by omega), hrow (d + 1) hd]
    exact ok.rows d hd

/-- one block matrix behind another -/
structure Appended (A B C : Band K) (dim nfa : Nat) : Prop where
  np : C.nparts = A.nparts + B.nparts
  rowA : ∀ d, d ≤ A.nparts → C.stRow d = A.stRow d
  colA : ∀ d, d ≤ A.nparts → C.stCol d = A.stCol d
  rowB : ∀ d, d ≤ B.nparts → C.stRow (A.nparts + d) = dim + B.stRow d
  colB : ∀ d, d ≤ B.nparts → C.stCol (A.nparts + d) = nfa + B.stCol d
  nRowA : ∀ d, d < A.nparts → C.nRow d = A.nRow d
  nRowB : ∀ d, d < B.nparts → C.nRow (A.nparts + d) = B.nRow d
  dataA : ∀ d, d < A.nparts → C.data d = A.data d
  dataB : ∀ d, d < B.nparts → C.data (A.nparts + d) = B.data d

theorem Appended.ok {A B C : Band K} {q dA nA dB nB : Nat} (h : Appended A B C dA nA) (a : A.Ok q dA nA)
    (b : B.Ok q dB nB) : C.Ok q (dA + dB) (nA + nB) where
  row0 := by rw [h.rowA 0 (Nat.zero_le _), a.row0]
  rowN := by rw [h.np, h.rowB _ (Nat.le_refl _), b.rowN]
  col0 := by rw [h.colA 0 (Nat.zero_le _), a.col0]
  colN := by rw [h.np, h.colB _ (Nat.le_refl _), b.colN]
  rowMono d hd := by
    rw [h.np] at hd
    by_cases hA : d < A.nparts
    · rw [h.rowA d (by omega), h.rowA (d + 1) hA]
      exact a.rowMono d hA
    · obtain ⟨e, rfl⟩ : ∃ e, d = A.nparts + e := ⟨d - A.nparts, by omega⟩
      rw [h.rowB e (by omega), Nat.add_assoc, h.rowB (e + 1) (by omega)]
      exact Nat.add_le_add_left (b.rowMono e (by omega)) _
  colMono d hd := by
    rw [h.np] at hd
    by_cases hA : d < A.nparts
    · rw [h.colA d (by omega), h.colA (d + 1) hA]
      exact a.colMono d hA
    · obtain ⟨e, rfl⟩ : ∃ e, d = A.nparts + e := ⟨d - A.nparts, by omega⟩
      rw [h.colB e (by omega), Nat.add_assoc, h.colB (e + 1) (by omega)]
      exact Nat.add_le_add_left (b.colMono e (by omega)) _
  rows d hd := by
    rw [h.np] at hd
    by_cases hA : d < A.nparts
    · rw [h.nRowA d hA, h.rowA d (by omega), h.rowA (d + 1) hA]
      exact a.rows d hA
    · obtain ⟨e, rfl⟩ : ∃ e, d = A.nparts + e := ⟨d - A.nparts, by omega⟩
      rw [h.nRowB e (by omega), h.rowB e (by omega), Nat.add_assoc, h.rowB (e + 1) (by omega), Nat.add_sub_add_left]
      exact b.rows e (by omega)

theorem Appended.val {A B C : Band K} {q dA nA : Nat} (h : Appended A B C dA nA) (a : A.Ok q dA nA)
    (l n i r : Nat) :
    C.val q l n i r = joinVals dA nA (A.val q) (B.val q) l n i r := by
  unfold Band.val joinVals
  rw [h.np, Finset.sum_range_add]
  have hA : ∑ d ∈ Finset.range A.nparts,
      (if (C.stRow d ≤ l ∧ l < C.stRow (d + 1)) ∧ (C.stCol d ≤ i ∧ i < C.stCol (d + 1)) then
        C.data d ((l - C.stRow d) + (C.stRow (d + 1) - C.stRow d) * n +
          q * (C.stRow (d + 1) - C.stRow d) * ((i - C.stCol d) + (C.stCol (d + 1) - C.stCol d) * r)) else 0) =
      if l < dA ∧ i < nA then A.val q l n i r else 0 := by
    by_cases hc : l < dA ∧ i < nA
    · rw [if_pos hc]
      unfold Band.val
      refine Finset.sum_congr rfl (fun d hd => ?_)
      have hd' := Finset.mem_range.mp hd
      rw [h.rowA d (by omega), h.rowA (d + 1) hd', h.colA d (by omega), h.colA (d + 1) hd', h.dataA d hd']
    · rw [if_neg hc]
      refine Finset.sum_eq_zero (fun d hd => if_neg ?_)
      have hd' := Finset.mem_range.mp hd
      rw [h.rowA d (by omega), h.rowA (d + 1) hd', h.colA d (by omega), h.colA (d + 1) hd']
      have h1 := st_mono a.rowMono (show d + 1 ≤ A.nparts from hd') (Nat.le_refl _)
      have h2 := st_mono a.colMono (show d + 1 ≤ A.nparts from hd') (Nat.le_refl _)
      rw [a.rowN] at h1
      rw [a.colN] at h2
      omega
  have hB : ∑ x ∈ Finset.range B.nparts,
      (if (C.stRow (A.nparts + x) ≤ l ∧ l < C.stRow (A.nparts + x + 1)) ∧
          (C.stCol (A.nparts + x) ≤ i ∧ i < C.stCol (A.nparts + x + 1)) then
        C.data (A.nparts + x) ((l - C.stRow (A.nparts + x)) + (C.stRow (A.nparts + x + 1) - C.stRow (A.nparts + x)) * n +
          q * (C.stRow (A.nparts + x + 1) - C.stRow (A.nparts + x)) *
            ((i - C.stCol (A.nparts + x)) + (C.stCol (A.nparts + x + 1) - C.stCol (A.nparts + x)) * r)) else 0) =
      if dA ≤ l ∧ nA ≤ i then B.val q (l - dA) n (i - nA) r else 0 := by
    by_cases hc : dA ≤ l ∧ nA ≤ i
    · rw [if_pos hc]
      unfold Band.val
      refine Finset.sum_congr rfl (fun d hd => ?_)
      have hd' := Finset.mem_range.mp hd
      rw [Nat.add_assoc, h.rowB d (by omega), h.rowB (d + 1) hd', h.colB d (by omega), h.colB (d + 1) hd', h.dataB d hd',
        Nat.add_sub_add_left, Nat.add_sub_add_left, Nat.sub_sub, Nat.sub_sub]
      by_cases hh : (B.stRow d ≤ l - dA ∧ l - dA < B.stRow (d + 1)) ∧ (B.stCol d ≤ i - nA ∧ i - nA < B.stCol (d + 1))
      · rw [if_pos hh, if_pos (by omega)]
      · rw [if_neg hh, if_neg (by omega)]
    · rw [if_neg hc]
      refine Finset.sum_eq_zero (fun d hd => if_neg ?_)
      have hd' := Finset.mem_range.mp hd
      rw [Nat.add_assoc, h.rowB d (by omega), h.rowB (d + 1) hd', h.colB d (by omega), h.colB (d + 1) hd']
      omega
  rw [hA, hB]
  by_cases h1 : l < dA ∧ i < nA
  · rw [if_pos h1, if_neg (by omega), add_zero, if_pos h1]
    rfl
  · rw [if_neg h1, zero_add, if_neg h1]
    rfl

end Verif.OpStack
