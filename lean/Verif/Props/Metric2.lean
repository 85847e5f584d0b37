import Verif.Props.Metric
import Verif.Props.Jacobi
import Mathlib.Data.List.Perm.Basic

/-!
**C63**: the choice of the metric from the cells around a node.
-/
namespace Verif.Metric

open Verif.Dense Finset

/-- the matrix that the found values and vectors make up is the symmetric part, up to the tolerance -/
theorem analyze_near {eps : ℝ} (he : 0 ≤ eps) {A : Nat → ℝ} (h : (symEigen3 eps A).isSome) {i j : Nat} (hi : i < 3) (hj : j < 3) :
    |symPart A i j - ∑ k ∈ range 3, ent 3 (analyze eps A).Q i k * (analyze eps A).eval k * ent 3 (analyze eps A).Q j k| ≤ 180 * eps := by
  obtain ⟨ho, -, -⟩ := analyze_facts eps A
  obtain ⟨r, hr⟩ : ∃ r : Nat → ℝ, ∀ k, r k = mulV 3 3 (symmetrize A) (fun t => ent 3 (analyze eps A).Q t k) i -
      (analyze eps A).eval k * ent 3 (analyze eps A).Q i k := ⟨_, fun _ => rfl⟩
  have e1 : symPart A i j = ∑ k ∈ range 3, mulV 3 3 (symmetrize A) (fun t => ent 3 (analyze eps A).Q t k) i * ent 3 (analyze eps A).Q j k := by
    unfold mulV
    simp only [sum_mul]
    rw [sum_comm]
    have : ∀ t ∈ range 3, ∑ k ∈ range 3, ent 3 (symmetrize A) i t * ent 3 (analyze eps A).Q t k * ent 3 (analyze eps A).Q j k =
        if t = j then symPart A i t else 0 := fun t ht => by
      have := ho.rows (mem_range.1 ht) hj
      rw [← mul_one (symPart A i t), ← mul_zero (symPart A i t), ← mul_ite, ← this, mul_sum]
      exact sum_congr rfl fun k _ => by rw [symmetrize_ent A hi (mem_range.1 ht)]; ring
    rw [sum_congr rfl this, sum_ite_eq', if_pos (mem_range.2 hj)]
  have e2 : symPart A i j - ∑ k ∈ range 3, ent 3 (analyze eps A).Q i k * (analyze eps A).eval k * ent 3 (analyze eps A).Q j k =
      dotp 3 r (fun k => ent 3 (analyze eps A).Q j k) := by
    rw [e1, ← sum_sub_distrib]
    exact sum_congr rfl fun k _ => by rw [hr]; ring
  have hrk : ∀ k, k < 3 → r k ^ 2 ≤ (90 * eps) ^ 2 := fun k hk => by
    refine le_trans ?_ (analyze_vectors h hk)
    rw [hr]
    exact single_le_sum (f := fun i => (mulV 3 3 (symmetrize A) (fun t => ent 3 (analyze eps A).Q t k) i -
      (analyze eps A).eval k * ent 3 (analyze eps A).Q i k) ^ 2) (fun i _ => sq_nonneg _) (mem_range.2 hi)
  have hq : len2 3 (fun k => ent 3 (analyze eps A).Q j k) = 1 := by
    have := ho.rows hj hj
    rw [if_pos rfl] at this
    rw [← this]
    exact sum_congr rfl fun k _ => sq _
  have hl : len2 3 r ≤ 3 * (90 * eps) ^ 2 := by
    unfold len2
    have := sum_le_sum fun k hk => hrk k (mem_range.1 hk)
    rw [sum_const, card_range, nsmul_eq_mul] at this
    exact_mod_cast this
  rw [e2]
  refine abs_le_of_sq_le_sq ?_ (by positivity)
  refine (cauchy3 _ _).trans ?_
  rw [hq, mul_one]
  nlinarith [sq_nonneg eps]

/-- the values lie between the bounds of the form, however accurate they are -/
theorem Metric.eval {lo hi R : ℝ} {A : Nat → ℝ} (hA : Metric lo hi R A) (eps : ℝ) :
    (∀ k, k < 3 → lo ≤ (analyze eps A).eval k ∧ (analyze eps A).eval k ≤ hi) ∧ (analyze eps A).eval 2 ≤ R * (analyze eps A).eval 0 := by
  have hl : ∀ k, k < 3 → len2 3 (fun i => ent 3 (analyze eps A).Q i k) = 1 := fun k hk => by
    have := (analyze_facts eps A).1 k hk k hk
    rw [if_pos rfl] at this
    rw [← this]
    exact sum_congr rfl fun k _ => sq _
  refine ⟨fun k hk => ?_, ?_⟩
  · rw [analyze_rayleigh eps A hk]
    have h1 := hA.lower fun i => ent 3 (analyze eps A).Q i k
    have h2 := hA.upper fun i => ent 3 (analyze eps A).Q i k
    rw [hl k hk, mul_one] at h1 h2
    exact ⟨h1, h2⟩
  · rw [analyze_rayleigh eps A (j := 2) (by omega), analyze_rayleigh eps A (j := 0) (by omega)]
    exact hA.ratio _ _ (by rw [hl 2 (by omega), hl 0 (by omega)])

/-- values within the bounds are only sorted -/
theorem clampEvals_id {tr : Traits} (h0 : 0 < tr.lo) {s : Spectrum} (hs : ∀ k, k < 3 → tr.lo ≤ s.eval k ∧ s.eval k ≤ tr.hi)
    (ha : Asc s.eval) (hr : s.eval 2 ≤ max tr.rel 1 * s.eval 0) {i j : Nat} (hi : i < 3) (hj : j < 3) :
    ent 3 (reconstruct (clampEvals tr s).eval (clampEvals tr s).Q) i j = ent 3 (reconstruct s.eval s.Q) i j := by
  obtain ⟨e, he⟩ : ∃ e, e = loop 0 3 (fun i e => wr e i (clampAbs tr (e i))) s.eval := ⟨_, rfl⟩
  have hev : ∀ k, k < 3 → e k = s.eval k := fun k hk => by
    rw [he, map3 (clampAbs tr) _ hk]
    unfold clampAbs
    show (if (if s.eval k < tr.lo then tr.lo else s.eval k) > tr.hi then tr.hi else if s.eval k < tr.lo then tr.lo else s.eval k) = _
    rw [if_neg (not_lt.2 (hs k hk).1), if_neg (not_lt.2 (hs k hk).2)]
  obtain ⟨hx, hasc⟩ := sortAsc_spec (e, s.Q)
  have hsame : ∀ k, k < 3 → (sortAsc (e, s.Q)).1 k = s.eval k := by
    have h3 : e 0 ≤ e 1 ∧ e 1 ≤ e 2 := by rw [hev 0 (by omega), hev 1 (by omega), hev 2 (by omega)]; exact ha
    have : sortAsc (e, s.Q) = (e, s.Q) := by
      have hb : ∀ i, i < 3 → ascBest i e = i := by
        intro i hi
        unfold ascBest
        interval_cases i
        · show (if e 2 < e (if e 1 < e 0 then 1 else 0) then 2 else if e 1 < e 0 then 1 else 0) = 0
          rw [if_neg (not_lt.2 h3.1), if_neg (not_lt.2 (h3.1.trans h3.2))]
        · show (if e 2 < e 1 then 2 else 1) = 1
          rw [if_neg (not_lt.2 h3.2)]
        · rfl
      unfold sortAsc
      rw [loop3]
      simp only [hb 0 (by omega), hb 1 (by omega), hb 2 (by omega), if_true]
    rw [this]
    exact hev
  have hno : ¬ ((sortAsc (e, s.Q)).1 0 > kEps ∧ (sortAsc (e, s.Q)).1 2 / (sortAsc (e, s.Q)).1 0 > max tr.rel 1) := by
    rw [hsame 0 (by omega), hsame 2 (by omega)]
    rintro ⟨-, h⟩
    have hp : 0 < s.eval 0 := lt_of_lt_of_le h0 (hs 0 (by omega)).1
    have := (lt_div_iff₀ hp).1 h
    linarith
  have : (clampEvals tr s).eval = (sortAsc (e, s.Q)).1 ∧ (clampEvals tr s).Q = (sortAsc (e, s.Q)).2 := by
    unfold clampEvals
    rw [← he]
    simp only [if_neg hno]
    exact ⟨rfl, rfl⟩
  rw [this.1, this.2, hx.reconstruct hi hj, reconstruct_ent _ _ hi hj, reconstruct_ent _ _ hi hj]
  exact sum_congr rfl fun k hk => by
    show ent 3 s.Q i k * e k * ent 3 s.Q j k = _
    rw [hev k (mem_range.1 hk)]

/-- **C63**: a matrix that is within the bounds already is not changed by more than the tolerance of the eigenvalues. -/
theorem clampSpectrum_id {tr : Traits} {eps : ℝ} (he : 0 ≤ eps) (h0 : 0 < tr.lo) {A : Nat → ℝ} (hA : Metric tr.lo tr.hi (max tr.rel 1) A)
    (h : (symEigen3 eps A).isSome) {i j : Nat} (hi : i < 3) (hj : j < 3) : |ent 3 A i j - ent 3 (clampSpectrum eps tr A) i j| ≤ 180 * eps := by
  have e1 : ent 3 (clampSpectrum eps tr A) i j = ent 3 (reconstruct (analyze eps A).eval (analyze eps A).Q) i j :=
    clampEvals_id h0 (hA.eval eps).1 (analyze_facts eps A).2.1 (hA.eval eps).2 hi hj
  have e2 : ent 3 A i j = symPart A i j := by
    rw [symPart, hA.symm j hj i hi]
    ring
  rw [e1, e2, reconstruct_ent _ _ hi hj]
  exact analyze_near he h hi hj

/-- **C63**: a metric stored at a node and clamped again is the same metric, up to the tolerance. -/
theorem nodeMetric_stable {tr : Traits} {eps : ℝ} (he : 0 ≤ eps) (h0 : kEps < tr.lo) (hb : tr.lo ≤ tr.hi) (patch : List CellH) (any : Bool)
    (h : (symEigen3 eps (toDense (nodeMetric eps tr patch any))).isSome) {i j : Nat} (hi : i < 3) (hj : j < 3) :
    |ent 3 (toDense (nodeMetric eps tr patch any)) i j - ent 3 (clampSpectrum eps tr (toDense (nodeMetric eps tr patch any))) i j| ≤ 180 * eps :=
  clampSpectrum_id he (kEps_pos.trans h0) (nodeMetric_metric h0 hb eps patch any) h hi hj

/-! ## Diagonal matrices: the eigenvalues are found without a rotation -/

/-- the values of a matrix without entries outside of the diagonal are found, whatever the tolerance -/
theorem symEigen3_diag (eps : ℝ) {A : Nat → ℝ} (h : A 1 = 0 ∧ A 2 = 0 ∧ A 3 = 0 ∧ A 5 = 0 ∧ A 6 = 0 ∧ A 7 = 0) : (symEigen3 eps A).isSome := by
  have hz : ∀ i j, i < 3 → j < 3 → i ≠ j → symmetrize A (i + j * 3) = 0 := fun i j hi hj hij => by
    rw [show symmetrize A (i + j * 3) = symPart A i j from symmetrize_ent A hi hj]
    obtain ⟨h1, h2, h3, h4, h5, h6⟩ := h
    interval_cases i <;> interval_cases j <;> first | exact absurd rfl hij | simp [symPart, ent, *]
  have hoff : jacobiOff 3 (symmetrize A) = 0 := by
    show (0 + symmetrize A 3 * symmetrize A 3 + symmetrize A 6 * symmetrize A 6 + symmetrize A 7 * symmetrize A 7 : ℝ) = 0
    rw [hz 0 1 (by omega) (by omega) (by omega), hz 0 2 (by omega) (by omega) (by omega), hz 1 2 (by omega) (by omega) (by omega)]
    ring
  unfold symEigen3 jacobiEigen
  have : jacobiRun (jacobiTol eps 3) 3 50 ⟨symmetrize A, identFill 3 (fun _ => 0)⟩ = (false, ⟨symmetrize A, identFill 3 (fun _ => 0)⟩) := by
    rw [jacobiRun.eq_2, if_pos (by rw [hoff]; exact mul_self_nonneg _)]
  simp only [this]
  rfl

-- a diagonal matrix with values of both signs: `spectralAbs_square` and `spectralAbs_dominates` apply to it
example : (symEigen3 0 (wr (wr (wr (fun _ => 0) 0 3) 4 (-1)) 8 2)).isSome :=
  symEigen3_diag 0 (by simp [wr, Function.update])

/-! ## The metric of a cell -/

/-- **C63**: the metric of a cell is `(det |H|)^(-1/5) |H|` for the clamped Hessian, in which `M_lambda_min` must not be so small that its cube
is below `kEigenEps`; its determinant is `(det |H|)^(2/5)`. -/
theorem absHToM_law {tr : Traits} (h0 : kEps < tr.lo) (h3 : kEps < tr.lo ^ 3) (h : tr.lo ≤ tr.hi) (eps : ℝ) (A : Nat → ℝ) :
    0 < det3 (clampSpectrum eps tr A) ∧
    (∀ i, i < 3 → ∀ j, j < 3 → ent 3 (absHToM eps tr A) i j = ent 3 (clampSpectrum eps tr A) i j * det3 (clampSpectrum eps tr A) ^ (-(1 / 5) : ℝ)) ∧
    det3 (absHToM eps tr A) = det3 (clampSpectrum eps tr A) ^ (2 / 5 : ℝ) := by
  obtain ⟨ho, ha, hb, -⟩ := clampEvals_facts h0 h (analyze_facts eps A).1
  have hk := kEps_pos
  obtain ⟨s, hs⟩ : ∃ s, s = clampEvals tr (analyze eps A) := ⟨_, rfl⟩
  rw [← hs] at ho ha hb
  have hc : clampSpectrum eps tr A = reconstruct s.eval s.Q := by rw [hs]; rfl
  have hdet : det3 (clampSpectrum eps tr A) = s.eval 0 * s.eval 1 * s.eval 2 := by rw [hc]; exact det_reconstruct ho _
  have hd : s.det = s.eval 0 * s.eval 1 * s.eval 2 := by
    rw [hs]
    rfl
  have hlo : tr.lo ^ 3 ≤ s.det := by
    rw [hd]
    have hl : 0 ≤ tr.lo := by linarith
    have h1 := mul_le_mul (hb 0 (by omega)).1 (hb 1 (by omega)).1 hl (hl.trans (hb 0 (by omega)).1)
    have h2 := mul_le_mul h1 (hb 2 (by omega)).1 hl ((mul_nonneg hl hl).trans h1)
    linarith [show tr.lo ^ 3 = tr.lo * tr.lo * tr.lo by ring]
  have hpos : 0 < s.det := by linarith
  have hM : absHToM eps tr A = scaleM (clampSpectrum eps tr A) (s.det ^ (-(1 / 5) : ℝ)) := by
    unfold absHToM buildM
    rw [hc]
    simp only [← hs]
    rw [if_neg (not_not.2 (by linarith : s.det > kEps))]
  rw [hd, ← hdet] at hM hpos
  refine ⟨hpos, fun i hi j hj => by rw [hM, scaleM_ent _ _ hi hj], ?_⟩
  rw [hM, det_scaleM, ← Real.rpow_natCast, ← Real.rpow_mul hpos.le]
  conv_lhs => rw [← Real.rpow_one (det3 (clampSpectrum eps tr A))]
  rw [Real.rpow_one, mul_comm]
  conv_lhs => enter [1]; rw [← Real.rpow_one (det3 (clampSpectrum eps tr A))]
  rw [← Real.rpow_add hpos]
  norm_num

-- the default bounds meet the hypotheses
example : kEps < (1 / 10 ^ 12 : ℝ) ^ 3 := by
  unfold kEps
  rw [div_pow, one_pow, ← pow_mul]
  gcongr <;> norm_num

/-! ## Multiples of the identity -/

theorem analyze_eye (eps c : ℝ) {k : Nat} (hk : k < 3) : (analyze eps (eye c)).eval k = c := by
  rw [analyze_rayleigh eps _ hk]
  have h1 := (analyze_facts eps (eye c)).1 k hk k hk
  rw [if_pos rfl] at h1
  unfold quad
  have : ∀ x i, i < 3 → mulV 3 3 (eye c) x i = c * x i := fun x i hi => by
    unfold mulV
    rw [sum_congr rfl fun t ht => by rw [eye_ent c hi (mem_range.1 ht)]]
    simp [hi]
  calc _ = ∑ i ∈ range 3, c * (ent 3 (analyze eps (eye c)).Q i k * ent 3 (analyze eps (eye c)).Q i k) := by
        unfold dotp
        exact sum_congr rfl fun i hi => by rw [this _ i (mem_range.1 hi)]; ring
    _ = c := by rw [← mul_sum]; unfold dotp at h1; rw [h1, mul_one]

theorem clampEvals_eye {tr : Traits} (h0 : kEps < tr.lo) (h : tr.lo ≤ tr.hi) (eps c : ℝ) {k : Nat} (hk : k < 3) :
    (clampEvals tr (analyze eps (eye c))).eval k = clampAbs tr c := by
  obtain ⟨e, he⟩ : ∃ e, e = loop 0 3 (fun i e => wr e i (clampAbs tr (e i))) (analyze eps (eye c)).eval := ⟨_, rfl⟩
  have hev : ∀ k, k < 3 → e k = clampAbs tr c := fun k hk => by rw [he, map3 (clampAbs tr) _ hk, analyze_eye eps c hk]
  have hall := (sortAsc_spec (e, (analyze eps (eye c)).Q)).1.all (P := fun v => v = clampAbs tr c) hev
  have hpos : 0 < clampAbs tr c := kEps_pos.trans (h0.trans_le (clampAbs_mem h c).1)
  have hno : ¬ ((sortAsc (e, (analyze eps (eye c)).Q)).1 0 > kEps ∧
      (sortAsc (e, (analyze eps (eye c)).Q)).1 2 / (sortAsc (e, (analyze eps (eye c)).Q)).1 0 > max tr.rel 1) := by
    rw [hall 0 (by omega), hall 2 (by omega), div_self hpos.ne']
    rintro ⟨-, h⟩
    have := le_max_right tr.rel 1
    linarith
  unfold clampEvals
  rw [← he]
  simp only [if_neg hno]
  exact hall k hk

/-- **C63**: a multiple of the identity stays one and its factor is clamped. -/
theorem clampSpectrum_eye {tr : Traits} (h0 : kEps < tr.lo) (h : tr.lo ≤ tr.hi) (eps c : ℝ) {i j : Nat} (hi : i < 3) (hj : j < 3) :
    ent 3 (clampSpectrum eps tr (eye c)) i j = if i = j then max tr.lo (min c tr.hi) else 0 := by
  have hv : clampAbs tr c = max tr.lo (min c tr.hi) := by
    unfold clampAbs
    show (if (if c < tr.lo then tr.lo else c) > tr.hi then tr.hi else if c < tr.lo then tr.lo else c) = _
    by_cases h1 : c < tr.lo
    · rw [if_pos h1, if_neg (by linarith), min_eq_left (by linarith), max_eq_left h1.le]
    · rw [if_neg h1]
      have h1 := not_lt.1 h1
      split_ifs with h2
      · rw [min_eq_right h2.le, max_eq_right h]
      · rw [min_eq_left (not_lt.1 h2), max_eq_right h1]
  obtain ⟨ho, -, -, -⟩ := clampEvals_facts h0 h (analyze_facts eps (eye c)).1
  show ent 3 (reconstruct (clampEvals tr (analyze eps (eye c))).eval (clampEvals tr (analyze eps (eye c))).Q) i j = _
  rw [reconstruct_ent _ _ hi hj, sum_congr rfl fun k hk => by rw [clampEvals_eye h0 h eps c (mem_range.1 hk), hv, mul_right_comm],
    ← sum_mul, ho.rows hi hj, ite_mul, one_mul, zero_mul]

/-- With a smaller `M_lambda_min` a metric of small values is lost: for `M_lambda_min = 1e-101`, which is above `kEigenEps`, the Hessian with the three
values `1e-101` gives the metric `c I` for a mesh without a Hessian instead of its own. -/
theorem absHToM_small_wrong {tr : Traits} (hlo : tr.lo = 1 / 10 ^ 101) (hhi : tr.lo ≤ tr.hi) (eps : ℝ) :
    absHToM eps tr (eye tr.lo) = eye tr.iso := by
  have hk : kEps < tr.lo := by
    rw [hlo]
    unfold kEps
    gcongr <;> norm_num
  have hv : ∀ k, k < 3 → (clampEvals tr (analyze eps (eye tr.lo))).eval k = tr.lo := fun k hk' => by
    rw [clampEvals_eye hk hhi eps tr.lo hk']
    unfold clampAbs
    show (if (if tr.lo < tr.lo then tr.lo else tr.lo) > tr.hi then tr.hi else if tr.lo < tr.lo then tr.lo else tr.lo) = _
    rw [ite_self, if_neg (not_lt.2 hhi)]
  have hd : (clampEvals tr (analyze eps (eye tr.lo))).det = tr.lo * tr.lo * tr.lo := by
    conv_rhs => rw [← hv 2 (by omega)]
    conv_rhs => enter [1]; rw [hv 2 (by omega), ← hv 1 (by omega)]
    conv_rhs => enter [1, 1]; rw [hv 1 (by omega), ← hv 0 (by omega)]
    rfl
  unfold absHToM buildM
  simp only [hd]
  rw [if_pos]
  rw [not_lt, hlo]
  unfold kEps
  rw [div_mul_div_comm, div_mul_div_comm, one_mul, one_mul, ← pow_add, ← pow_add]
  gcongr <;> norm_num

/-- The tolerance of the eigenvalues is not relative: the Hessian with `90 eps` outside of the diagonal and zero on it, whose eigenvalues are `180 eps`
and `-90 eps`, is taken for zero. -/
theorem spectralAbs_idle_wrong {eps : ℝ} (he : 0 < eps) :
    let H : Nat → ℝ := fun p => if p % 4 = 0 then 0 else 90 * eps
    (∀ i, i < 3 → mulV 3 3 H (fun _ => 1) i = 180 * eps) ∧ ∀ i, i < 3 → ∀ j, j < 3 → ent 3 (spectralAbs eps H).1 i j = 0 := by
  intro H
  have ht : 10 * ((3 : Nat) : ℝ) * (3 : Nat) * eps = 90 * eps := by norm_num
  have hent : ∀ i, i < 3 → ∀ j, j < 3 → i ≠ j → ent 3 (symmetrize H) i j = 90 * eps := fun i hi j hj hij => by
    rw [symmetrize_ent H hi hj]
    simp only [symPart, ent, H]
    interval_cases i <;> interval_cases j <;> first | exact absurd rfl hij | (norm_num)
  have hnone : symEigen3 eps H = none := by
    refine eigen_idle_wrong _ _ (fun p hp q hpq hq => ?_) ?_
    · rw [ht, hent p hp q hq (by omega), abs_of_pos (by positivity)]
    · rw [ht, sum_congr rfl fun p hp => sum_congr rfl fun q hq => by
        rw [hent p (mem_range.1 hp) q (mem_Ico.1 hq).2 (by have := (mem_Ico.1 hq).1; omega)]]
      simp only [sum_const, Nat.card_Ico, sum_range_succ, range_zero, sum_empty]
      norm_num
      nlinarith [mul_pos he he]
  have hz : ∀ k, k < 3 → (analyze eps H).eval k = 0 := by
    refine (sortAsc_spec (eigenOrDiag eps H)).1.all (P := fun v => v = 0) fun k hk => ?_
    unfold eigenOrDiag
    rw [hnone]
    show wr (wr (wr (fun _ => 0) 0 (H 0)) 1 (H 4)) 2 (H 8) k = 0
    interval_cases k <;> simp [wr, Function.update, H]
  refine ⟨fun i hi => ?_, fun i hi j hj => ?_⟩
  · simp only [mulV, ent, H, sum_range_succ, range_zero, sum_empty]
    interval_cases i <;> norm_num <;> ring
  · rw [(spectralAbs_facts eps H).2.2.2.2 i hi j hj]
    exact sum_eq_zero fun k hk => by rw [hz k (mem_range.1 hk)]; simp

/-! ## The choice among the cells -/

/-- the cells that take part -/
def eligible (only : Bool) (v : CellH) : Prop := only = true → v.degenerate = false

/-- a fold that keeps the best so far ends with one that is nowhere exceeded -/
theorem fold_best {α β γ : Type} [LinearOrder γ] (key : β → γ) (val : α → β) (use : α → Prop) (step : Option β → α → Option β)
    (hskip : ∀ b v, ¬ use v → step b v = b) (hnone : ∀ v, use v → step none v = some (val v))
    (hlt : ∀ b v, use v → key b < key (val v) → step (some b) v = some (val v))
    (hge : ∀ b v, use v → ¬ key b < key (val v) → step (some b) v = some b) (l : List α) (b : Option β) :
    (∀ x ∈ l.foldl step b, x ∈ b ∨ ∃ v ∈ l, use v ∧ x = val v) ∧ (∀ x ∈ b, ∃ y ∈ l.foldl step b, key x ≤ key y) ∧
    ∀ v ∈ l, use v → ∃ y ∈ l.foldl step b, key (val v) ≤ key y := by
  induction l generalizing b with
  | nil => exact ⟨fun x hx => Or.inl hx, fun x hx => ⟨x, hx, le_rfl⟩, fun v hv => by simp at hv⟩
  | cons v l ih =>
    obtain ⟨h1, h2, h3⟩ := ih (step b v)
    rw [List.foldl_cons]
    have k1 : ∀ x ∈ step b v, x ∈ b ∨ (use v ∧ x = val v) := by
      intro x hx
      by_cases hu : use v
      · cases b with
        | none => rw [hnone v hu] at hx; exact Or.inr ⟨hu, (Option.some.inj hx).symm⟩
        | some c =>
          by_cases hc : key c < key (val v)
          · rw [hlt c v hu hc] at hx; exact Or.inr ⟨hu, (Option.some.inj hx).symm⟩
          · rw [hge c v hu hc] at hx; exact Or.inl hx
      · rw [hskip b v hu] at hx; exact Or.inl hx
    have k2 : ∀ x ∈ b, ∃ y ∈ step b v, key x ≤ key y := by
      intro x hx
      by_cases hu : use v
      · rw [Option.mem_def] at hx
        rw [hx]
        by_cases hc : key x < key (val v)
        · exact ⟨_, hlt x v hu hc, hc.le⟩
        · exact ⟨_, hge x v hu hc, le_rfl⟩
      · rw [hskip b v hu]; exact ⟨x, hx, le_rfl⟩
    have k3 : use v → ∃ y ∈ step b v, key (val v) ≤ key y := by
      intro hu
      cases b with
      | none => exact ⟨_, hnone v hu, le_rfl⟩
      | some c =>
        by_cases hc : key c < key (val v)
        · exact ⟨_, hlt c v hu hc, le_rfl⟩
        · exact ⟨_, hge c v hu hc, not_lt.1 hc⟩
    refine ⟨fun x hx => ?_, fun x hx => ?_, fun w hw hu => ?_⟩
    · rcases h1 x hx with h | ⟨w, hw, hu⟩
      · rcases k1 x h with h | h
        · exact Or.inl h
        · exact Or.inr ⟨v, List.mem_cons_self, h⟩
      · exact Or.inr ⟨w, List.mem_cons_of_mem _ hw, hu⟩
    · obtain ⟨y, hy, hxy⟩ := k2 x hx
      obtain ⟨z, hz, hyz⟩ := h2 y hy
      exact ⟨z, hz, hxy.trans hyz⟩
    · rcases List.mem_cons.1 hw with rfl | hw
      · obtain ⟨y, hy, hxy⟩ := k3 hu
        obtain ⟨z, hz, hyz⟩ := h2 y hy
        exact ⟨z, hz, hxy.trans hyz⟩
      · exact h3 w hw hu

/-- **C63**: the first strategy takes the metric of a cell around the node with the largest product of the values, among those that are not degenerate
if asked for. -/
theorem pickMaxDet_best {eps : ℝ} {patch : List CellH} {only : Bool} {tr : Traits} (h : ∃ v ∈ patch, eligible only v) :
    ∃ v ∈ patch, eligible only v ∧ pickMaxDet eps patch only tr = absHToM eps tr v.absH ∧
      ∀ w ∈ patch, eligible only w → w.s 0 * w.s 1 * w.s 2 ≤ v.s 0 * v.s 1 * v.s 2 := by
  have hel : ∀ v, eligible only v ↔ ¬ (only && v.degenerate) = true := fun v => by
    unfold eligible
    cases only <;> cases v.degenerate <;> simp
  obtain ⟨h1, -, h3⟩ := fold_best (fun x : ℝ × CellH => x.1) (fun v => (v.s 0 * v.s 1 * v.s 2, v)) (eligible only) (pickStep only)
    (fun b v hv => by rw [hel, not_not] at hv; unfold pickStep; rw [if_pos hv])
    (fun v hv => by rw [hel] at hv; unfold pickStep; rw [if_neg hv])
    (fun b v hv hc => by rw [hel] at hv; unfold pickStep; rw [if_neg hv]; exact if_pos hc)
    (fun b v hv hc => by rw [hel] at hv; unfold pickStep; rw [if_neg hv]; exact if_neg hc) patch none
  obtain ⟨v, hv, he⟩ := h
  obtain ⟨y, hy, -⟩ := h3 v hv he
  obtain ⟨u, hu, hue, rfl⟩ := (h1 y hy).resolve_left (by simp)
  refine ⟨u, hu, hue, ?_, fun w hw hew => ?_⟩
  · unfold pickMaxDet
    rw [Option.mem_def] at hy
    rw [hy]
  · obtain ⟨z, hz, hwz⟩ := h3 w hw hew
    rw [Option.mem_def] at hy hz
    rw [hy] at hz
    rw [← Option.some.inj hz] at hwz
    exact hwz

-- two cells, of which the second is degenerate and has the larger product
example : ∃ v ∈ [CellH.mk (eye 1) (fun _ => 1) false 1, CellH.mk (eye 2) (fun _ => 2) true 1], eligible true v :=
  ⟨_, List.mem_cons_self, fun _ => rfl⟩

end Verif.Metric
