import Mathlib.Analysis.SpecialFunctions.Integrals.Basic
import Mathlib.Tactic.Ring
import Mathlib.Tactic.FieldSimp
import Mathlib.Tactic.LinearCombination
import Verif.Spec.Quadrature

/-! Integrals of monomials over the unit simplices. -/
namespace Verif.Quad

open intervalIntegral

theorem beta (s : ℝ) (a b : ℕ) :
    ∫ t in (0 : ℝ)..s, t ^ a * (s - t) ^ b = s ^ (a + b + 1) * (a.factorial * b.factorial : ℕ) / ((a + b + 1).factorial : ℕ) := by
  induction b generalizing a with
  | zero =>
    have h : ((a + 0 + 1).factorial : ℝ) = (a + 1) * a.factorial := by
      rw [Nat.add_zero, Nat.factorial_succ]; push_cast; ring
    have h0 : (a.factorial : ℝ) ≠ 0 := by exact_mod_cast Nat.factorial_ne_zero a
    simp only [pow_zero, mul_one, integral_pow, Nat.factorial_zero]
    rw [h]
    have : (a : ℝ) + 1 ≠ 0 := by positivity
    simp only [ne_eq, Nat.add_eq_zero_iff, one_ne_zero, and_false, not_false_eq_true, zero_pow, sub_zero, Nat.add_zero]
    field_simp
  | succ b ih =>
    have hd : ∀ t ∈ Set.uIcc 0 s, HasDerivAt (fun t : ℝ => t ^ (a + 1) * (s - t) ^ (b + 1))
        (((a + 1 : ℕ) : ℝ) * (t ^ a * (s - t) ^ (b + 1)) - ((b + 1 : ℕ) : ℝ) * (t ^ (a + 1) * (s - t) ^ b)) t := by
      intro t _
      have h1 : HasDerivAt (fun t : ℝ => t ^ (a + 1)) (((a + 1 : ℕ) : ℝ) * t ^ a) t := by
        simpa using hasDerivAt_pow (a + 1) t
      have h2 : HasDerivAt (fun t : ℝ => (s - t) ^ (b + 1)) (((b + 1 : ℕ) : ℝ) * (s - t) ^ b * (-1)) t := by
        have h := ((hasDerivAt_id t).const_sub s).fun_pow (b + 1)
        exact HasDerivAt.congr_deriv h (by simp)
      exact HasDerivAt.congr_deriv (h1.mul h2) (by ring)
    have hc1 : Continuous fun t : ℝ => ((a + 1 : ℕ) : ℝ) * (t ^ a * (s - t) ^ (b + 1)) := by fun_prop
    have hc2 : Continuous fun t : ℝ => ((b + 1 : ℕ) : ℝ) * (t ^ (a + 1) * (s - t) ^ b) := by fun_prop
    have hi := integral_eq_sub_of_hasDerivAt hd (Continuous.intervalIntegrable (by fun_prop) _ _)
    rw [integral_sub (hc1.intervalIntegrable _ _) (hc2.intervalIntegrable _ _),
      integral_const_mul, integral_const_mul, ih (a + 1)] at hi
    have e1 : (a + 1) + b + 1 = a + (b + 1) + 1 := by ring
    rw [e1, Nat.factorial_succ a] at hi
    simp only [sub_self, ne_eq, Nat.add_eq_zero_iff, one_ne_zero, and_false, not_false_eq_true, zero_pow, mul_zero, zero_mul,
      sub_zero] at hi
    have ha : ((a + 1 : ℕ) : ℝ) ≠ 0 := by positivity
    have hF : (((a + (b + 1) + 1).factorial : ℕ) : ℝ) ≠ 0 := by exact_mod_cast Nat.factorial_ne_zero _
    rw [Nat.factorial_succ b]
    apply mul_left_cancel₀ ha
    push_cast at hi ⊢
    linear_combination hi

variable {ι : Type} (s : Finset ι) (k : ι → ℝ) (a b c : ι → ℕ)

/-- The integral of a sum of terms `k u^a (h-u)^b v` over `0 .. h`, `v` not depending on `u`. -/
theorem integral_terms (h : ℝ) (v : ι → ℝ) :
    ∫ t in (0 : ℝ)..h, ∑ m ∈ s, v m * (t ^ a m * (h - t) ^ b m) =
      ∑ m ∈ s, v m * (h ^ (a m + b m + 1) * ((a m).factorial * (b m).factorial : ℕ) / ((a m + b m + 1).factorial : ℕ)) := by
  rw [integral_finsetSum]
  · exact Finset.sum_congr rfl fun m _ => by rw [integral_const_mul, beta]
  · intro m _
    exact Continuous.intervalIntegrable (by fun_prop) _ _

theorem meanSeg_terms : meanSeg (fun x => ∑ m ∈ s, k m * x ^ a m) =
    ∑ m ∈ s, k m * ((Nat.factorial 1 * ((a m).factorial * Nat.factorial 0 * Nat.factorial 0) : ℕ) / ((a m + 0 + 0 + 1).factorial : ℕ)) := by
  have h := integral_terms s a (fun _ => 0) 1 k
  unfold meanSeg
  simp only [pow_zero, mul_one] at h
  rw [h]
  exact Finset.sum_congr rfl fun m _ => by simp

theorem meanTri_terms : meanTri (fun x y => ∑ m ∈ s, k m * (x ^ a m * y ^ b m)) =
    ∑ m ∈ s, k m * ((Nat.factorial 2 * ((a m).factorial * (b m).factorial * Nat.factorial 0) : ℕ) /
      ((a m + b m + 0 + 2).factorial : ℕ)) := by
  unfold meanTri
  have h1 : ∀ x : ℝ, ∫ y in (0 : ℝ)..(1 - x), ∑ m ∈ s, k m * (x ^ a m * y ^ b m) =
      ∑ m ∈ s, (k m * (((b m).factorial * Nat.factorial 0 : ℕ) / ((b m + 0 + 1).factorial : ℕ))) *
        (x ^ a m * (1 - x) ^ (b m + 0 + 1)) := by
    intro x
    have h := integral_terms s b (fun _ => 0) (1 - x) (fun m => k m * x ^ a m)
    simp only [pow_zero, mul_one] at h
    simp only [mul_assoc] at h ⊢
    rw [h]
    exact Finset.sum_congr rfl fun m _ => by ring
  simp only [h1]
  have h2 := integral_terms s a (fun m => b m + 0 + 1) 1
    (fun m => k m * (((b m).factorial * Nat.factorial 0 : ℕ) / ((b m + 0 + 1).factorial : ℕ)))
  rw [h2, Finset.mul_sum]
  refine Finset.sum_congr rfl fun m _ => ?_
  have e : a m + (b m + 0 + 1) + 1 = a m + b m + 0 + 2 := by ring
  rw [e]
  have h0 : (((b m + 0 + 1).factorial : ℕ) : ℝ) ≠ 0 := by exact_mod_cast Nat.factorial_ne_zero _
  simp only [one_pow, Nat.cast_mul]
  have : ((Nat.factorial 2 : ℕ) : ℝ) = 2 := by norm_num [Nat.factorial]
  rw [this]
  field_simp

theorem meanTet_terms : meanTet (fun x y z => ∑ m ∈ s, k m * (x ^ a m * y ^ b m * z ^ c m)) =
    ∑ m ∈ s, k m * ((Nat.factorial 3 * ((a m).factorial * (b m).factorial * (c m).factorial) : ℕ) /
      ((a m + b m + c m + 3).factorial : ℕ)) := by
  unfold meanTet
  have h1 : ∀ x y : ℝ, ∫ z in (0 : ℝ)..(1 - x - y), ∑ m ∈ s, k m * (x ^ a m * y ^ b m * z ^ c m) =
      ∑ m ∈ s, (k m * (((c m).factorial * Nat.factorial 0 : ℕ) / ((c m + 0 + 1).factorial : ℕ)) * x ^ a m) *
        (y ^ b m * (1 - x - y) ^ (c m + 0 + 1)) := by
    intro x y
    have h := integral_terms s c (fun _ => 0) (1 - x - y) (fun m => k m * (x ^ a m * y ^ b m))
    simp only [pow_zero, mul_one] at h
    simp only [mul_assoc] at h ⊢
    rw [h]
    exact Finset.sum_congr rfl fun m _ => by ring
  have h2 : ∀ x : ℝ, ∫ y in (0 : ℝ)..(1 - x), ∫ z in (0 : ℝ)..(1 - x - y), ∑ m ∈ s, k m * (x ^ a m * y ^ b m * z ^ c m) =
      ∑ m ∈ s, (k m * (((c m).factorial * Nat.factorial 0 : ℕ) / ((c m + 0 + 1).factorial : ℕ)) *
        (((b m).factorial * (c m + 0 + 1).factorial : ℕ) / ((b m + (c m + 0 + 1) + 1).factorial : ℕ))) *
        (x ^ a m * (1 - x) ^ (b m + (c m + 0 + 1) + 1)) := by
    intro x
    simp only [h1]
    rw [integral_terms s b (fun m => c m + 0 + 1) (1 - x)
      (fun m => k m * (((c m).factorial * Nat.factorial 0 : ℕ) / ((c m + 0 + 1).factorial : ℕ)) * x ^ a m)]
    exact Finset.sum_congr rfl fun m _ => by ring
  simp only [h2]
  rw [integral_terms s a (fun m => b m + (c m + 0 + 1) + 1) 1, Finset.mul_sum]
  refine Finset.sum_congr rfl fun m _ => ?_
  have e : a m + (b m + (c m + 0 + 1) + 1) + 1 = a m + b m + c m + 3 := by ring
  rw [e]
  have h0 : (((c m + 0 + 1).factorial : ℕ) : ℝ) ≠ 0 := by exact_mod_cast Nat.factorial_ne_zero _
  have h0' : (((b m + (c m + 0 + 1) + 1).factorial : ℕ) : ℝ) ≠ 0 := by exact_mod_cast Nat.factorial_ne_zero _
  simp only [one_pow, Nat.cast_mul]
  have : ((Nat.factorial 3 : ℕ) : ℝ) = 6 := by norm_num [Nat.factorial]
  rw [this]
  simp only [Nat.factorial_zero, Nat.cast_one]
  field_simp

end Verif.Quad
