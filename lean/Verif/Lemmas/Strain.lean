import Mathlib.Analysis.SpecialFunctions.Sqrt
import Verif.Lemmas.AutoDiffFun
import Verif.Lemmas.Tensor
import Verif.Model.Strain
import Verif.Spec.Strain

/-! # Lemmas on the strain invariants: gradients and Hessians of polynomials in the entries of `C`

All objects depend on a pair of indices only through its number among the six stored entries. -/

namespace Verif.Strain

open Verif.Tensor Verif.AutoDiff Matrix

/-- The entry of the Cauchy–Green tensor. -/
theorem specC_apply (y : Ix → ℝ) (i j : Fin 3) :
    specC y i j = (if i = j then 1 else 0) + (y (i, j) + y (j, i)) := by
  simp [specC, Matrix.one_apply]

/-- The number of a pair among the stored entries. -/
def T3 : Fin 3 → Fin 3 → Fin 6 := ![![0, 1, 2], ![1, 3, 4], ![2, 4, 5]]

/-- The number of a pair of pairs among the stored entries. -/
def T6 : Fin 6 → Fin 6 → Nat := ![![0, 1, 2, 3, 4, 5], ![1, 6, 7, 8, 9, 10], ![2, 7, 11, 12, 13, 14],
  ![3, 8, 12, 15, 16, 17], ![4, 9, 13, 16, 18, 19], ![5, 10, 14, 17, 19, 20]]

/-- How often an entry occurs in `E + Eᵀ`. -/
def w6 : Fin 6 → ℝ := ![2, 1, 1, 2, 1, 2]

/-- The gradient of an entry of `C`. -/
def D6 (a b : Fin 6) : ℝ := if a = b then w6 a else 0

/-- The entries of `C`. -/
noncomputable def c6 (E : Store ℝ) : Fin 6 → ℝ :=
  ![1 + 2 * E 0, 2 * E 1, 2 * E 2, 1 + 2 * E 3, 2 * E 4, 1 + 2 * E 5]

theorem entries_tab (a : Store ℝ) (q : Ix) : entries a q = a (T3 q.1 q.2) := by
  obtain ⟨i, j⟩ := q
  have h : ∀ i j : Fin 3, symAt 3 i j = T3 i j := by decide +kernel
  simp only [entries, symGet, h]

theorem entries4_tab (a : Store ℝ) (q r : Ix) :
    entries4 a q r = a (T6 (T3 q.1 q.2) (T3 r.1 r.2)) := by
  obtain ⟨i, j⟩ := q
  obtain ⟨l, m⟩ := r
  have h : ∀ i j l m : Fin 3, bs3Pos (bsSort i j l m) = T6 (T3 i j) (T3 l m) := by decide +kernel
  simp only [entries4, bs3Get, h]

theorem specC_tab (E : Store ℝ) (i j : Fin 3) : specC (entries E) i j = c6 E (T3 i j) := by
  rw [specC_apply, entries_tab, entries_tab]
  fin_cases i <;> fin_cases j <;> simp [T3, c6] <;> ring

theorem jetC (k : Nat) (x : Ix → ℝ) (i j : Fin 3) :
    Jet k (fun y => specC y i j) x (fun q => D6 (T3 i j) (T3 q.1 q.2)) (fun _ _ => 0) := by
  have h := (jet_const k (if i = j then 1 else 0) x).add ((jet_var k (i, j) x).add (jet_var k (j, i) x))
  refine (h.congr (Filter.Eventually.of_forall fun y => specC_apply y i j)).cast (fun _ => ?_) (fun _ => ?_)
  · funext ⟨a, b⟩
    fin_cases i <;> fin_cases j <;> fin_cases a <;> fin_cases b <;> simp [D6, w6, T3] <;> norm_num
  · funext q r; simp

end Verif.Strain
