import Mathlib.Analysis.SpecialFunctions.ExpDeriv
import Mathlib.Analysis.SpecialFunctions.Log.Deriv
import Mathlib.Analysis.SpecialFunctions.Sqrt
import Mathlib.Analysis.SpecialFunctions.Pow.Deriv
import Mathlib.Analysis.SpecialFunctions.Trigonometric.Deriv
import Mathlib.Analysis.SpecialFunctions.Trigonometric.DerivHyp
import Mathlib.Analysis.SpecialFunctions.Trigonometric.ArctanDeriv
import Mathlib.Analysis.SpecialFunctions.Trigonometric.InverseDeriv
import Verif.Lemmas.AutoDiff

/-!
# The derivatives of the functions of one variable
-/

namespace Verif.AutoDiff

open Filter Topology

theorem dom_open (u : Un) {t : ℝ} (h : u.dom t) : ∀ᶠ s in 𝓝 t, u.dom s := by
  cases u <;> simp only [Un.dom] at h ⊢ <;> try exact Eventually.of_forall fun _ => trivial
  · exact lt_mem_nhds h
  · exact lt_mem_nhds h
  · exact lt_mem_nhds h
  · exact isOpen_ne.mem_nhds h
  · exact Real.continuous_cos.continuousAt.eventually_ne h
  · exact (lt_mem_nhds h.1).and (gt_mem_nhds h.2)
  · exact (lt_mem_nhds h.1).and (gt_mem_nhds h.2)

theorem cbrt_eq (t : ℝ) : cbrt t = Real.sign t * |t| ^ ((1 : ℝ) / 3) := by
  unfold cbrt
  rcases lt_trichotomy t 0 with h | h | h
  · rw [if_neg (by linarith), Real.sign_of_neg h, abs_of_neg h]; ring
  · subst h; norm_num
  · rw [if_pos h.le, Real.sign_of_pos h, abs_of_pos h]; ring

theorem cbrt_cube (t : ℝ) : cbrt t ^ 3 = t := by
  have key : ∀ s : ℝ, 0 ≤ s → (s ^ ((1 : ℝ) / 3)) ^ 3 = s := by
    intro s hs
    rw [← Real.rpow_natCast, ← Real.rpow_mul hs]; norm_num
  unfold cbrt
  split
  · exact key t ‹_›
  · rw [Odd.neg_pow (by decide), key _ (by linarith)]; ring

theorem cbrt_deriv {t : ℝ} (h : t ≠ 0) : HasDerivAt cbrt (1 / (3 * cbrt t * cbrt t)) t := by
  have key : ∀ s : ℝ, 0 < s →
      HasDerivAt (fun r : ℝ => r ^ ((1 : ℝ) / 3))
        (1 / (3 * s ^ ((1 : ℝ) / 3) * s ^ ((1 : ℝ) / 3))) s := by
    intro s hs
    have := Real.hasDerivAt_rpow_const (x := s) (p := (1 : ℝ) / 3) (Or.inl hs.ne')
    convert this using 1
    have e : s ^ ((1 : ℝ) / 3 - 1) = s ^ ((1 : ℝ) / 3) / s := by
      rw [Real.rpow_sub hs, Real.rpow_one]
    have e3 : (s ^ ((1 : ℝ) / 3)) ^ 3 = s := by
      rw [← Real.rpow_natCast, ← Real.rpow_mul hs.le]; norm_num
    have hp : s ^ ((1 : ℝ) / 3) ≠ 0 := (Real.rpow_pos_of_pos hs _).ne'
    rw [e]; field_simp; linarith
  rcases lt_or_gt_of_ne h with hn | hp
  · have h1 := (key (-t) (by linarith)).comp t (hasDerivAt_neg t)
    have h2 := h1.neg
    have e : cbrt =ᶠ[𝓝 t] fun r => -((fun r : ℝ => r ^ ((1 : ℝ) / 3)) ∘ Neg.neg) r := by
      filter_upwards [gt_mem_nhds hn] with r hr
      simp only [cbrt, if_neg (not_le.mpr hr), Function.comp]
    have e' : cbrt t = -(-t) ^ ((1 : ℝ) / 3) := by simp only [cbrt, if_neg (not_le.mpr hn)]
    refine (HasDerivAt.congr_of_eventuallyEq h2 e).congr_deriv ?_
    rw [e']; ring
  · have e : cbrt =ᶠ[𝓝 t] fun r : ℝ => r ^ ((1 : ℝ) / 3) := by
      filter_upwards [lt_mem_nhds hp] with r hr
      simp only [cbrt, if_pos (le_of_lt hr)]
    have e' : cbrt t = t ^ ((1 : ℝ) / 3) := by simp only [cbrt, if_pos hp.le]
    rw [e']
    exact HasDerivAt.congr_of_eventuallyEq (key t hp) e

theorem op_val (u : Un) (n : Nat) (t : ℝ) : (u.op n t).1 = u.fn t := by
  cases u <;> simp only [Un.op, Un.fn]
  · exact cbrt_eq t
  · exact Real.tan_eq_sin_div_cos t
  · exact Real.tanh_eq_sinh_div_cosh t

theorem op_d1 (u : Un) {n : Nat} (h : 1 ≤ n) (t : ℝ) : (u.op n t).2.1 = (u.op 2 t).2.1 := by
  cases u <;> simp [Un.op, h]

theorem op_d2 (u : Un) {n : Nat} (h : 2 ≤ n) (t : ℝ) : (u.op n t).2.2 = (u.op 2 t).2.2 := by
  have h1 : 1 ≤ n := by omega
  cases u <;> simp [Un.op, h, h1]

theorem fn_deriv (u : Un) {t : ℝ} (h : u.dom t) : HasDerivAt u.fn (u.op 2 t).2.1 t := by
  cases u <;> simp only [Un.dom] at h <;> simp only [Un.op, le_refl, if_true, one_le_two]
  case exp => exact Real.hasDerivAt_exp t
  case expm1 =>
    refine ((Real.hasDerivAt_exp t).sub_const 1).congr_deriv ?_
    ring
  case log =>
    refine (Real.hasDerivAt_log h.ne').congr_deriv ?_
    exact (one_div t).symm
  case log1p =>
    have h0 : (1 : ℝ) + t ≠ 0 := by linarith
    have := (hasDerivAt_id t).const_add 1 |>.log h0
    refine this.congr_deriv ?_
    simp [add_comm]
  case sqrt =>
    exact Real.hasDerivAt_sqrt h.ne'
  case cbrt =>
    have : Un.cbrt.fn = cbrt := by funext s; simp only [Un.fn]; exact (cbrt_eq s).symm
    rw [this]; exact cbrt_deriv h
  case sin => exact Real.hasDerivAt_sin t
  case cos => exact Real.hasDerivAt_cos t
  case tan =>
    have := (Real.hasDerivAt_sin t).div (Real.hasDerivAt_cos t) h
    refine this.congr_deriv ?_
    have := Real.sin_sq_add_cos_sq t
    field_simp
    linarith
  case atan =>
    refine (Real.hasDerivAt_arctan t).congr_deriv ?_
    ring
  case asin =>
    refine (Real.hasDerivAt_arcsin (by linarith [h.1]) (by linarith [h.2])).congr_deriv ?_
    rw [pow_two]
  case acos =>
    refine (Real.hasDerivAt_arccos (by linarith [h.1]) (by linarith [h.2])).congr_deriv ?_
    rw [pow_two]; ring
  case sinh => exact Real.hasDerivAt_sinh t
  case cosh => exact Real.hasDerivAt_cosh t
  case tanh =>
    have hc := (Real.cosh_pos t).ne'
    have := (Real.hasDerivAt_sinh t).div (Real.hasDerivAt_cosh t) hc
    refine this.congr_deriv ?_
    have := Real.cosh_sq_sub_sinh_sq t
    field_simp
    linarith

theorem fn_deriv2 (u : Un) {t : ℝ} (h : u.dom t) :
    HasDerivAt (fun s => (u.op 2 s).2.1) (u.op 2 t).2.2 t := by
  cases u <;> simp only [Un.dom] at h <;> simp only [Un.op, le_refl, if_true, one_le_two]
  case exp => exact Real.hasDerivAt_exp t
  case expm1 =>
    refine (((Real.hasDerivAt_exp t).sub_const 1).add_const 1).congr_deriv ?_
    ring
  case log =>
    have := (hasDerivAt_const t (1 : ℝ)).div (hasDerivAt_id t) h.ne'
    refine this.congr_deriv ?_
    simp [pow_two]
  case log1p =>
    have h0 : t + 1 ≠ 0 := by linarith
    have := (hasDerivAt_const t (1 : ℝ)).div ((hasDerivAt_id t).add_const 1) h0
    refine this.congr_deriv ?_
    simp [pow_two]
  case sqrt =>
    have hs : 0 < Real.sqrt t := Real.sqrt_pos.mpr h
    have := (hasDerivAt_const t (1 : ℝ)).div
      ((Real.hasDerivAt_sqrt h.ne').const_mul 2) (by positivity)
    refine this.congr_deriv ?_
    have e := Real.mul_self_sqrt h.le
    have h0 := hs.ne'
    field_simp
    rw [pow_two, e]; ring
  case cbrt =>
    have hs : cbrt t ≠ 0 := by
      intro e; have := cbrt_cube t; rw [e] at this; apply h; linarith
    have := (hasDerivAt_const t (1 : ℝ)).div
      (((cbrt_deriv h).const_mul 3).mul (cbrt_deriv h))
      (mul_ne_zero (mul_ne_zero three_ne_zero hs) hs)
    refine this.congr_deriv ?_
    have e := cbrt_cube t
    simp only [Pi.mul_apply]
    generalize hc : cbrt t = c at *
    rw [← e]
    field_simp
    ring
  case sin => exact Real.hasDerivAt_cos t
  case cos => exact (Real.hasDerivAt_sin t).neg
  case tan =>
    have := (hasDerivAt_const t (1 : ℝ)).div
      ((Real.hasDerivAt_cos t).mul (Real.hasDerivAt_cos t)) (mul_ne_zero h h)
    refine this.congr_deriv ?_
    rw [Real.tan_eq_sin_div_cos]
    simp only [Pi.mul_apply]
    field_simp
    ring
  case atan =>
    have h0 : 1 + t * t ≠ 0 := by nlinarith [mul_self_nonneg t]
    have := (hasDerivAt_const t (1 : ℝ)).div
      (((hasDerivAt_id t).mul (hasDerivAt_id t)).const_add 1) h0
    refine this.congr_deriv ?_
    simp only [id, Pi.mul_apply]
    field_simp
    ring
  case asin =>
    have hp : 0 < 1 - t * t := by nlinarith [h.1, h.2]
    have hs : 0 < Real.sqrt (1 - t * t) := Real.sqrt_pos.mpr hp
    have := (hasDerivAt_const t (1 : ℝ)).div
      ((((hasDerivAt_id t).mul (hasDerivAt_id t)).const_sub 1).sqrt hp.ne') hs.ne'
    refine this.congr_deriv ?_
    have e := Real.sq_sqrt hp.le
    simp only [id, Pi.mul_apply]
    rw [e]
    have h1 := hs.ne'
    have h2 := hp.ne'
    field_simp
    ring
  case acos =>
    have hp : 0 < 1 - t * t := by nlinarith [h.1, h.2]
    have hs : 0 < Real.sqrt (1 - t * t) := Real.sqrt_pos.mpr hp
    have := (hasDerivAt_const t (-1 : ℝ)).div
      ((((hasDerivAt_id t).mul (hasDerivAt_id t)).const_sub 1).sqrt hp.ne') hs.ne'
    refine this.congr_deriv ?_
    have e := Real.sq_sqrt hp.le
    simp only [id, Pi.mul_apply]
    rw [e]
    have h1 := hs.ne'
    have h2 := hp.ne'
    field_simp
    ring
  case sinh => exact Real.hasDerivAt_cosh t
  case cosh => exact Real.hasDerivAt_sinh t
  case tanh =>
    have hc := (Real.cosh_pos t).ne'
    have := (hasDerivAt_const t (1 : ℝ)).div
      ((Real.hasDerivAt_cosh t).mul (Real.hasDerivAt_cosh t)) (mul_ne_zero hc hc)
    refine this.congr_deriv ?_
    rw [Real.tanh_eq_sinh_div_cosh]
    simp only [Pi.mul_apply]
    field_simp
    ring

end Verif.AutoDiff
