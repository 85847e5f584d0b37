import Verif.Lemmas.Diverge

/-! Integrals of polynomials over a tetrahedron: linearity, sign, and mixed derivatives. -/
namespace Verif.Diverge

open MvPolynomial Finset Verif.Quad Verif.Driver Verif.Spaces Verif.Order

/-- the mean of a monomial -/
noncomputable def monMean (a : Fin 4 →₀ ℕ) : ℝ :=
  6 * ((a 0).factorial * (a 1).factorial * (a 2).factorial * (a 3).factorial) / (a 0 + a 1 + a 2 + a 3 + 3).factorial

/-- the mean as a functional of the coefficients -/
theorem meanTet_eval (s : Finset (Fin 4 →₀ ℕ)) (k : (Fin 4 →₀ ℕ) → ℝ) (g : ℝ → ℝ → ℝ → ℝ)
    (hg : ∀ x y z, g x y z = ∑ a ∈ s, k a * ∏ i, tetPt x y z i ^ a i) : meanTet g = ∑ a ∈ s, k a * monMean a := by
  have e : g = fun x y z => ∑ a ∈ s, k a * (x ^ a 0 * y ^ a 1 * z ^ a 2 * (1 - x - y - z) ^ a 3) := by
    funext x y z
    rw [hg]
    refine sum_congr rfl fun a _ => ?_
    rw [Fin.prod_univ_four]
    simp [tetPt]
  rw [e, meanTet_terms4 s k (fun a => a 0) (fun a => a 1) (fun a => a 2) (fun a => a 3)]
  rfl

theorem eval_on {s : Finset (Fin 4 →₀ ℕ)} {P : MvPolynomial (Fin 4) ℝ} (h : P.support ⊆ s) (l : Fin 4 → ℝ) :
    eval l P = ∑ a ∈ s, coeff a P * ∏ i, l i ^ a i := by
  rw [eval_eq']
  refine sum_subset h fun a _ ha => ?_
  rw [notMem_support_iff.1 ha, zero_mul]

theorem meanTet_add (P Q : MvPolynomial (Fin 4) ℝ) : meanTet (fun x y z => eval (tetPt x y z) P + eval (tetPt x y z) Q) =
    meanTet (fun x y z => eval (tetPt x y z) P) + meanTet (fun x y z => eval (tetPt x y z) Q) := by
  classical
  have h1 := fun l => eval_on (s := P.support ∪ Q.support) subset_union_left l
  have h2 := fun l => eval_on (s := P.support ∪ Q.support) subset_union_right l
  rw [meanTet_eval (P.support ∪ Q.support) (fun a => coeff a P + coeff a Q) _ fun x y z => by
      rw [h1, h2, ← sum_add_distrib]; exact sum_congr rfl fun a _ => (add_mul _ _ _).symm,
    meanTet_eval (P.support ∪ Q.support) (fun a => coeff a P) _ fun x y z => h1 _,
    meanTet_eval (P.support ∪ Q.support) (fun a => coeff a Q) _ fun x y z => h2 _, ← sum_add_distrib]
  exact sum_congr rfl fun a _ => add_mul _ _ _

theorem meanTet_smul (s : ℝ) (P : MvPolynomial (Fin 4) ℝ) : meanTet (fun x y z => s * eval (tetPt x y z) P) =
    s * meanTet (fun x y z => eval (tetPt x y z) P) := by
  rw [meanTet_eval P.support (fun a => s * coeff a P) _ fun x y z => by
      rw [eval_eq', mul_sum]; exact sum_congr rfl fun a _ => (mul_assoc _ _ _).symm,
    meanTet_eval P.support (fun a => coeff a P) _ fun x y z => eval_eq' _ _, mul_sum]
  exact sum_congr rfl fun a _ => mul_assoc _ _ _

theorem overTet_poly (T : Nat → Nat → ℝ) (Q : MvPolynomial (Fin 3) ℝ) (g : (Nat → ℝ) → ℝ) (hg : ∀ y : Nat → ℝ, g y = eval (fun i : Fin 3 => y i) Q) :
    overTet T g = volume T * meanTet fun x y z => eval (tetPt x y z) (sub4 T Q) := by
  unfold overTet
  have e : (fun x y z => g fun k => x * T 0 k + y * T 1 k + z * T 2 k + (1 - x - y - z) * T 3 k) = fun x y z => eval (tetPt x y z) (sub4 T Q) := by
    funext x y z
    rw [eval_sub4, hg]
    have : (fun i : Fin 3 => x * T 0 i + y * T 1 i + z * T 2 i + (1 - x - y - z) * T 3 i) = fun k : Fin 3 => ∑ m, tetPt x y z m * T m k := by
      funext k
      rw [Fin.sum_univ_four]
      simp [tetPt]
    rw [this]
  rw [e]

theorem overTet_add (T : Nat → Nat → ℝ) {n m : Nat} {f g : (Nat → ℝ) → ℝ} (hf : PolyLE n f) (hg : PolyLE m g) :
    overTet T (fun y => f y + g y) = overTet T f + overTet T g := by
  obtain ⟨P, -, hP⟩ := hf
  obtain ⟨Q, -, hQ⟩ := hg
  rw [overTet_poly T (P + Q) _ fun y => by rw [hP, hQ, map_add], overTet_poly T P _ hP, overTet_poly T Q _ hQ, ← mul_add, ← meanTet_add]
  simp only [map_add]

theorem overTet_smul (T : Nat → Nat → ℝ) {n : Nat} {f : (Nat → ℝ) → ℝ} (hf : PolyLE n f) (s : ℝ) :
    overTet T (fun y => s * f y) = s * overTet T f := by
  obtain ⟨P, -, hP⟩ := hf
  rw [overTet_poly T (C s * P) _ fun y => by rw [hP, map_mul, eval_C], overTet_poly T P _ hP]
  simp only [map_mul]
  have : ∀ x y z, eval (tetPt x y z) (sub4 T (C s)) = s := fun x y z => by rw [eval_sub4, eval_C]
  simp only [this]
  rw [meanTet_smul]
  ring

theorem overTet_const (T : Nat → Nat → ℝ) (s : ℝ) : overTet T (fun _ => s) = s * volume T := by
  unfold overTet
  rw [meanTet_eval {0} (fun _ => s) _ fun x y z => by simp, sum_singleton]
  have : monMean 0 = 1 := by
    unfold monMean
    norm_num [Nat.factorial]
  rw [this]
  ring

theorem polySum {m : Nat} (n : Nat) {f : Nat → (Nat → ℝ) → ℝ} (hf : ∀ k, k < n → PolyLE m (f k)) : PolyLE m fun y => ∑ k ∈ range n, f k y := by
  induction n with
  | zero => simpa using PolyLE.const m (0 : ℝ)
  | succ n ih =>
    simp only [sum_range_succ]
    exact (ih fun k hk => hf k (by omega)).add (hf n (by omega))

/-- the integral of a combination -/
theorem overTet_sum (T : Nat → Nat → ℝ) {m : Nat} (n : Nat) (v : Nat → ℝ) {f : Nat → (Nat → ℝ) → ℝ} (hf : ∀ k, k < n → PolyLE m (f k)) :
    overTet T (fun y => ∑ k ∈ range n, v k * f k y) = ∑ k ∈ range n, v k * overTet T (f k) := by
  induction n with
  | zero =>
    simp only [range_zero, sum_empty]
    have := overTet_smul T (PolyLE.const 0 (0 : ℝ)) 0
    simpa using this
  | succ n ih =>
    simp only [sum_range_succ]
    rw [overTet_add T (polySum n fun k hk => (hf k (by omega)).smul (v k)) ((hf n (by omega)).smul (v n)), ih fun k hk => hf k (by omega),
      overTet_smul T (hf n (by omega))]

/-- the integral of a function without negative values -/
theorem overTet_nonneg (T : Nat → Nat → ℝ) {f : (Nat → ℝ) → ℝ} (hf : ∀ y, 0 ≤ f y) : 0 ≤ overTet T f := by
  refine mul_nonneg (div_nonneg (abs_nonneg _) (by norm_num)) (mul_nonneg (by norm_num) ?_)
  refine intervalIntegral.integral_nonneg (by norm_num) fun x hx => ?_
  refine intervalIntegral.integral_nonneg (by linarith [hx.2]) fun y hy => ?_
  exact intervalIntegral.integral_nonneg (by linarith [hy.2]) fun z _ => hf _

/-- derivatives of polynomials commute -/
theorem pderiv_comm (i j : Fin 3) (P : MvPolynomial (Fin 3) ℝ) : pderiv i (pderiv j P) = pderiv j (pderiv i P) := by
  induction P using MvPolynomial.induction_on with
  | C a => simp
  | add p q hp hq => simp only [map_add, hp, hq]
  | mul_X p k hp =>
    simp only [Derivation.leibniz, map_add, pderiv_X, smul_eq_mul, hp, Pi.single_apply]
    have h : ∀ a b : Fin 3, pderiv (R := ℝ) a (if k = b then 1 else 0) = 0 := fun a b => by split_ifs <;> simp
    simp only [h]
    ring

/-- the derivative of a polynomial function is that of the polynomial -/
theorem partial_eq {g d : (Nat → ℝ) → ℝ} {P : MvPolynomial (Fin 3) ℝ} (hP : ∀ x : Nat → ℝ, g x = eval (fun i : Fin 3 => x i) P) {c : Nat} (hc : c < 3)
    (hd : ∀ x, HasPartial g x c (d x)) (x : Nat → ℝ) : d x = eval (fun i : Fin 3 => x i) (pderiv ⟨c, hc⟩ P) := by
  have h1 := eval_partial P x ⟨c, hc⟩
  have h2 := hd x
  rw [funext hP] at h2
  exact h2.unique h1

theorem mixed {n : Nat} {g d e d' e' : (Nat → ℝ) → ℝ} (hg : PolyLE n g) {i j : Nat} (hi : i < 3) (hj : j < 3) (h1 : ∀ x, HasPartial g x j (d x))
    (h2 : ∀ x, HasPartial d x i (e x)) (h3 : ∀ x, HasPartial g x i (d' x)) (h4 : ∀ x, HasPartial d' x j (e' x)) : e = e' := by
  obtain ⟨P, -, hP⟩ := hg
  funext x
  rw [partial_eq (partial_eq hP hj h1) hi h2 x, partial_eq (partial_eq hP hi h3) hj h4 x, pderiv_comm]

end Verif.Diverge
