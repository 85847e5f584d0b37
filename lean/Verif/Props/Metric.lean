import Verif.Lemmas.Metric

/-!
**C63**: the metric at a node.
-/
namespace Verif.Metric

open Verif.Dense Finset

theorem Metric.congr {lo hi R : ℝ} {M M' : Nat → ℝ} (h : Metric lo hi R M) (e : ∀ i, i < 3 → ∀ j, j < 3 → ent 3 M' i j = ent 3 M i j) :
    Metric lo hi R M' where
  symm i hi j hj := by rw [e i hi j hj, e j hj i hi, h.symm i hi j hj]
  lower x := by rw [quad_congr e]; exact h.lower x
  upper x := by rw [quad_congr e]; exact h.upper x
  ratio x y hxy := by rw [quad_congr e, quad_congr e]; exact h.ratio x y hxy

/-- The clamping gives a metric within the bounds, whatever the matrix was and whether or not its eigenvalues have been found. -/
theorem clampSpectrum_metric {tr : Traits} (h0 : kEps < tr.lo) (h : tr.lo ≤ tr.hi) (eps : ℝ) (A : Nat → ℝ) :
    Metric tr.lo tr.hi (max tr.rel 1) (clampSpectrum eps tr A) := by
  obtain ⟨h1, -, h2, h3⟩ := clampEvals_facts h0 h (analyze_facts eps A).1
  exact metric_reconstruct h1 (by have := le_max_right tr.rel 1; linarith) (fun i hi => (h2 i hi).1) (fun i hi => (h2 i hi).2) h3

/-- **C63**: the six numbers stored at a node are a symmetric matrix with eigenvalues between `M_lambda_min` and `M_lambda_max`, the largest at most
`M_lambda_max_rel` times the smallest: for every choice of the traits with `1e-300 < M_lambda_min ≤ M_lambda_max`, whatever the cells around the node hold. -/
theorem nodeMetric_metric {tr : Traits} (h0 : kEps < tr.lo) (h : tr.lo ≤ tr.hi) (eps : ℝ) (patch : List CellH) (any : Bool) :
    Metric tr.lo tr.hi (max tr.rel 1) (toDense (nodeMetric eps tr patch any)) := by
  obtain ⟨A, hA⟩ : ∃ A, nodeMetric eps tr patch any = toVoigt (clampSpectrum eps tr A) := ⟨_, rfl⟩
  have hm := clampSpectrum_metric h0 h eps A
  rw [hA]
  refine hm.congr fun i hi j hj => ?_
  rw [toDense_toVoigt hi hj, symPart, hm.symm j hj i hi]
  ring

-- the bounds of the library are met
example : kEps < (1 / 10 ^ 12 : ℝ) ∧ (1 / 10 ^ 12 : ℝ) ≤ 10 ^ 12 := by
  unfold kEps
  constructor
  · gcongr <;> norm_num
  · norm_num

/-- The bounds matter: with `M_lambda_min` above `M_lambda_max` nothing is left of the lower bound. -/
theorem clampAbs_wrong (tr : Traits) (h : tr.hi < tr.lo) (v : ℝ) : clampAbs tr v = tr.hi := by
  unfold clampAbs
  show (if (if v < tr.lo then tr.lo else v) > tr.hi then tr.hi else if v < tr.lo then tr.lo else v) = tr.hi
  split_ifs <;> linarith

/-! ## The absolute value of a Hessian -/

/-- the spectrum and the matrix that `spectral_abs` returns -/
theorem spectralAbs_facts (eps : ℝ) (H : Nat → ℝ) : Orthonormal 3 3 (spectralAbs eps H).2.Q ∧ Asc (spectralAbs eps H).2.eval ∧
    (∀ i, i < 3 → 0 ≤ (spectralAbs eps H).2.eval i) ∧
    (spectralAbs eps H).1 = reconstruct (spectralAbs eps H).2.eval (spectralAbs eps H).2.Q ∧
    ∀ i, i < 3 → ∀ j, j < 3 → ent 3 (spectralAbs eps H).1 i j =
      ∑ k ∈ range 3, ent 3 (analyze eps H).Q i k * |(analyze eps H).eval k| * ent 3 (analyze eps H).Q j k := by
  have hm : ∀ i, i < 3 → loop 0 3 (fun i e => wr e i |e i|) (analyze eps H).eval i = |(analyze eps H).eval i| := fun i hi => map3 (fun v => |v|) _ hi
  obtain ⟨h1, h2⟩ := sortAsc_spec (loop 0 3 (fun i e => wr e i |e i|) (analyze eps H).eval, (analyze eps H).Q)
  refine ⟨h1.orth (analyze_facts eps H).1, h2, h1.all (P := fun v => 0 ≤ v) fun i hi => ?_, rfl, fun i hi j hj => ?_⟩
  · have := abs_nonneg ((analyze eps H).eval i)
    rw [← hm i hi] at this
    exact this
  · refine (h1.reconstruct hi hj).trans ?_
    rw [reconstruct_ent _ _ hi hj]
    refine sum_congr rfl fun k hk => ?_
    show ent 3 (analyze eps H).Q i k * loop 0 3 (fun i e => wr e i |e i|) (analyze eps H).eval k * ent 3 (analyze eps H).Q j k = _
    rw [hm k (mem_range.1 hk)]

theorem quad_spectralAbs (eps : ℝ) (H x : Nat → ℝ) : quad (spectralAbs eps H).1 x =
    ∑ k ∈ range 3, |(analyze eps H).eval k| * dotp 3 (fun i => ent 3 (analyze eps H).Q i k) x ^ 2 := by
  rw [quad_congr (M' := reconstruct (fun k => |(analyze eps H).eval k|) (analyze eps H).Q) fun i hi j hj => by
    rw [(spectralAbs_facts eps H).2.2.2.2 i hi j hj, reconstruct_ent _ _ hi hj]]
  exact quad_reconstruct _ _ _

/-- **C63**: `|H|` is symmetric and its form is not negative. -/
theorem spectralAbs_psd (eps : ℝ) (H : Nat → ℝ) : Symm 3 (spectralAbs eps H).1 ∧ ∀ x, 0 ≤ quad (spectralAbs eps H).1 x := by
  refine ⟨?_, fun x => ?_⟩
  · rw [(spectralAbs_facts eps H).2.2.2.1]
    exact reconstruct_symm _ _
  · rw [quad_spectralAbs]
    exact sum_nonneg fun k _ => mul_nonneg (abs_nonneg _) (sq_nonneg _)

/-- the coordinates of a vector in an orthonormal basis -/
theorem expand {Q : Nat → ℝ} (ho : Orthonormal 3 3 Q) (x : Nat → ℝ) {i : Nat} (hi : i < 3) :
    x i = ∑ k ∈ range 3, dotp 3 (fun i => ent 3 Q i k) x * ent 3 Q i k := by
  have : ∀ k, dotp 3 (fun i => ent 3 Q i k) x * ent 3 Q i k = ∑ t ∈ range 3, x t * (ent 3 Q t k * ent 3 Q i k) := by
    intro k
    unfold dotp
    rw [sum_mul]
    exact sum_congr rfl fun t _ => by ring
  simp only [this]
  rw [sum_comm, sum_congr rfl fun t ht => by rw [← mul_sum, ho.rows (mem_range.1 ht) hi]]
  simp [hi]

theorem dotp_comm' {n : Nat} (x y : Nat → ℝ) : dotp n x y = dotp n y x := by
  unfold dotp
  exact sum_congr rfl fun i _ => mul_comm _ _

/-- the form of a matrix by its images of the basis -/
theorem quad_basis {Q : Nat → ℝ} (ho : Orthonormal 3 3 Q) (A x : Nat → ℝ) : quad A x =
    ∑ k ∈ range 3, dotp 3 (fun i => ent 3 Q i k) x * dotp 3 x (mulV 3 3 A (fun t => ent 3 Q t k)) := by
  have h : ∀ i, mulV 3 3 A x i = ∑ k ∈ range 3, dotp 3 (fun i => ent 3 Q i k) x * mulV 3 3 A (fun t => ent 3 Q t k) i := by
    intro i
    unfold mulV
    rw [sum_congr rfl fun t ht => by rw [expand ho x (mem_range.1 ht)]]
    simp only [mul_sum]
    rw [sum_comm]
    exact sum_congr rfl fun k _ => sum_congr rfl fun t _ => by ring
  unfold quad
  rw [dotp]
  simp only [h, mul_sum]
  rw [sum_comm]
  refine sum_congr rfl fun k _ => ?_
  rw [dotp_comm' x, dotp.eq_1 3 (mulV 3 3 A fun t => ent 3 Q t k), mul_sum]
  exact sum_congr rfl fun i _ => by ring

theorem cauchy3 (x y : Nat → ℝ) : dotp 3 x y ^ 2 ≤ len2 3 x * len2 3 y := by
  unfold dotp len2
  exact sum_mul_sq_le_sq_mul_sq _ _ _

/-- **C63**: the form of `|H|` is at least the absolute value of the form of `H`, up to the tolerance of the eigenvalues. -/
theorem spectralAbs_dominates {eps : ℝ} (he : 0 ≤ eps) {H : Nat → ℝ} (h : (symEigen3 eps H).isSome) (x : Nat → ℝ) :
    |quad H x| ≤ quad (spectralAbs eps H).1 x + 180 * eps * len2 3 x := by
  obtain ⟨ho, -, -⟩ := analyze_facts eps H
  rw [← quad_symmetrize, quad_basis ho, quad_spectralAbs]
  obtain ⟨y, hy⟩ : ∃ y : Nat → ℝ, ∀ k, y k = dotp 3 (fun i => ent 3 (analyze eps H).Q i k) x := ⟨_, fun _ => rfl⟩
  obtain ⟨r, hr⟩ : ∃ r : Nat → Nat → ℝ, ∀ k i, r k i = mulV 3 3 (symmetrize H) (fun t => ent 3 (analyze eps H).Q t k) i -
      (analyze eps H).eval k * ent 3 (analyze eps H).Q i k := ⟨_, fun _ _ => rfl⟩
  have hl : 0 ≤ len2 3 x := sum_nonneg fun i _ => sq_nonneg _
  have hrk : ∀ k, k < 3 → |dotp 3 x (r k)| ≤ 90 * eps * √(len2 3 x) := fun k hk => by
    have h1 := analyze_vectors h hk
    have h2 : len2 3 (r k) ≤ (90 * eps) ^ 2 := by
      refine le_trans (le_of_eq ?_) h1
      unfold len2
      exact sum_congr rfl fun i _ => by rw [hr]
    have h3 := (cauchy3 x (r k)).trans (mul_le_mul_of_nonneg_left h2 hl)
    rw [← Real.sqrt_sq_eq_abs]
    refine (Real.sqrt_le_sqrt h3).trans (le_of_eq ?_)
    rw [Real.sqrt_mul hl, Real.sqrt_sq (by positivity), mul_comm]
  have hk : ∀ k ∈ range 3, dotp 3 (fun i => ent 3 (analyze eps H).Q i k) x * dotp 3 x (mulV 3 3 (symmetrize H) (fun t => ent 3 (analyze eps H).Q t k)) =
      (analyze eps H).eval k * y k ^ 2 + y k * dotp 3 x (r k) := fun k _ => by
    have : dotp 3 x (mulV 3 3 (symmetrize H) (fun t => ent 3 (analyze eps H).Q t k)) = (analyze eps H).eval k * y k + dotp 3 x (r k) := by
      rw [hy]
      unfold dotp
      rw [mul_sum, ← sum_add_distrib]
      exact sum_congr rfl fun i _ => by rw [hr]; ring
    rw [this, ← hy]
    ring
  rw [sum_congr rfl hk, sum_add_distrib]
  refine (abs_add_le _ _).trans (add_le_add ?_ ?_)
  · refine (abs_sum_le_sum_abs _ _).trans (le_of_eq (sum_congr rfl fun k _ => ?_))
    rw [abs_mul, abs_of_nonneg (sq_nonneg (y k)), hy]
  · have hs : y 0 ^ 2 + y 1 ^ 2 + y 2 ^ 2 = len2 3 x := by
      rw [← ho.len x]
      simp only [sum_range_succ, range_zero, sum_empty, zero_add, hy]
      rfl
    have hsum : |y 0| + |y 1| + |y 2| ≤ 2 * √(len2 3 x) := by
      refine abs_le_of_sq_le_sq' ?_ (by positivity) |>.2
      rw [mul_pow, Real.sq_sqrt hl, ← hs, ← sq_abs (y 0), ← sq_abs (y 1), ← sq_abs (y 2)]
      nlinarith [sq_nonneg (|y 0| - |y 1|), sq_nonneg (|y 1| - |y 2|), sq_nonneg (|y 0| - |y 2|), sq_nonneg (|y 0|), sq_nonneg (|y 1|), sq_nonneg (|y 2|)]
    refine (abs_sum_le_sum_abs _ _).trans ?_
    have : ∀ k ∈ range 3, |y k * dotp 3 x (r k)| ≤ |y k| * (90 * eps * √(len2 3 x)) := fun k hk => by
      rw [abs_mul]
      exact mul_le_mul_of_nonneg_left (hrk k (mem_range.1 hk)) (abs_nonneg _)
    refine (sum_le_sum this).trans ?_
    rw [← sum_mul]
    simp only [sum_range_succ, range_zero, sum_empty, zero_add]
    have h4 : 0 ≤ 90 * eps * √(len2 3 x) := by positivity
    refine (mul_le_mul_of_nonneg_right hsum h4).trans (le_of_eq ?_)
    calc 2 * √(len2 3 x) * (90 * eps * √(len2 3 x)) = 180 * eps * (√(len2 3 x) * √(len2 3 x)) := by ring
      _ = _ := by rw [Real.mul_self_sqrt hl]

/-- with exact eigenvectors the matrix is rebuilt -/
theorem analyze_exact {A : Nat → ℝ} (h : (symEigen3 0 A).isSome) {i j : Nat} (hi : i < 3) (hj : j < 3) :
    symPart A i j = ∑ k ∈ range 3, ent 3 (analyze 0 A).Q i k * (analyze 0 A).eval k * ent 3 (analyze 0 A).Q j k := by
  obtain ⟨ho, -, -⟩ := analyze_facts 0 A
  have hv : ∀ k, k < 3 → ∀ i, i < 3 → mulV 3 3 (symmetrize A) (fun t => ent 3 (analyze 0 A).Q t k) i = (analyze 0 A).eval k * ent 3 (analyze 0 A).Q i k := by
    intro k hk i hi
    have h0 := analyze_vectors h hk
    rw [mul_zero, zero_pow two_ne_zero] at h0
    unfold len2 at h0
    have := (sum_eq_zero_iff_of_nonneg (fun i _ => sq_nonneg _)).1 (le_antisymm h0 (sum_nonneg fun i _ => sq_nonneg _)) i (mem_range.2 hi)
    have := pow_eq_zero_iff (two_ne_zero) |>.1 this
    linarith
  have : ∀ k ∈ range 3, ent 3 (analyze 0 A).Q i k * (analyze 0 A).eval k * ent 3 (analyze 0 A).Q j k =
      ∑ t ∈ range 3, symPart A i t * (ent 3 (analyze 0 A).Q t k * ent 3 (analyze 0 A).Q j k) := fun k hk => by
    rw [mul_comm (ent 3 (analyze 0 A).Q i k), ← hv k (mem_range.1 hk) i hi, mulV, sum_mul]
    exact sum_congr rfl fun t ht => by rw [symmetrize_ent A hi (mem_range.1 ht)]; ring
  rw [sum_congr rfl this, sum_comm, sum_congr rfl fun t ht => by rw [← mul_sum, ho.rows (mem_range.1 ht) hj]]
  simp [hj]

/-- the square of a rebuilt matrix -/
theorem mul3_reconstruct {Q : Nat → ℝ} (ho : Orthonormal 3 3 Q) (e : Nat → ℝ) {i j : Nat} (hi : i < 3) (hj : j < 3) :
    mul3 (reconstruct e Q) (reconstruct e Q) i j = ∑ k ∈ range 3, ent 3 Q i k * e k ^ 2 * ent 3 Q j k := by
  unfold mul3
  rw [sum_congr rfl fun t ht => by rw [reconstruct_ent e Q hi (mem_range.1 ht), reconstruct_ent e Q (mem_range.1 ht) hj, sum_mul_sum]]
  rw [sum_comm]
  refine sum_congr rfl fun k hk => ?_
  rw [sum_comm]
  have : ∀ l ∈ range 3, ∑ t ∈ range 3, ent 3 Q i k * e k * ent 3 Q t k * (ent 3 Q t l * e l * ent 3 Q j l) =
      if k = l then ent 3 Q i k * e k * (e l * ent 3 Q j l) else 0 := fun l hl => by
    have := ho k (mem_range.1 hk) l (mem_range.1 hl)
    unfold dotp at this
    rw [← mul_one (ent 3 Q i k * e k * (e l * ent 3 Q j l)), ← mul_zero (ent 3 Q i k * e k * (e l * ent 3 Q j l)), ← mul_ite, ← this, mul_sum]
    exact sum_congr rfl fun t _ => by ring
  rw [sum_congr rfl this, sum_ite_eq, if_pos hk]
  ring

/-- **C63**: with exact eigenvalues `|H|` is the spectral absolute value: it is symmetric, its form is not negative (`spectralAbs_psd`) and its square
is the square of (the symmetric part of) `H`. -/
theorem spectralAbs_square {H : Nat → ℝ} (h : (symEigen3 0 H).isSome) {i j : Nat} (hi : i < 3) (hj : j < 3) :
    mul3 (spectralAbs 0 H).1 (spectralAbs 0 H).1 i j = ∑ t ∈ range 3, symPart H i t * symPart H t j := by
  obtain ⟨ho, -, -⟩ := analyze_facts 0 H
  have e1 : mul3 (spectralAbs 0 H).1 (spectralAbs 0 H).1 i j =
      mul3 (reconstruct (fun k => |(analyze 0 H).eval k|) (analyze 0 H).Q) (reconstruct (fun k => |(analyze 0 H).eval k|) (analyze 0 H).Q) i j := by
    unfold mul3
    refine sum_congr rfl fun t ht => ?_
    rw [(spectralAbs_facts 0 H).2.2.2.2 i hi t (mem_range.1 ht), (spectralAbs_facts 0 H).2.2.2.2 t (mem_range.1 ht) j hj,
      reconstruct_ent _ _ hi (mem_range.1 ht), reconstruct_ent _ _ (mem_range.1 ht) hj]
  have e2 : ∑ t ∈ range 3, symPart H i t * symPart H t j = mul3 (reconstruct (analyze 0 H).eval (analyze 0 H).Q) (reconstruct (analyze 0 H).eval (analyze 0 H).Q) i j := by
    unfold mul3
    refine sum_congr rfl fun t ht => ?_
    rw [analyze_exact h hi (mem_range.1 ht), analyze_exact h (mem_range.1 ht) hj, reconstruct_ent _ _ hi (mem_range.1 ht), reconstruct_ent _ _ (mem_range.1 ht) hj]
  rw [e1, e2, mul3_reconstruct ho _ hi hj, mul3_reconstruct ho _ hi hj]
  exact sum_congr rfl fun k _ => by rw [sq_abs]

end Verif.Metric
