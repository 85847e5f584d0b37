import Verif.Props.Metric2
import Mathlib.Data.Prod.Lex

/-!
**C63**: the geometric mean, nodes with degenerate cells only, and the Hessian of a cell.
-/
namespace Verif.Metric

open Verif.Dense Finset

/-! ## The geometric mean -/

/-- **C63**: the second strategy does not depend on the order of the cells. -/
theorem geomMean_perm {eps : ℝ} {p q : List CellH} (h : p.Perm q) (only : Bool) (tr : Traits) : geomMean eps p only tr = geomMean eps q only tr := by
  have hadd : ∀ A B C : Nat → ℝ, addM (addM A B) C = addM (addM A C) B := by
    have hoff : ∀ (A B : Nat → ℝ) i, ¬ i < 9 → addM A B i = A i := fun A B i hi => by
      unfold addM
      exact loop_off fun j t hj h => wr_ne _ _ (by omega)
    have hon : ∀ (A B : Nat → ℝ) i, i < 9 → addM A B i = A i + B i := fun A B i hi => by
      unfold addM
      exact loop_at (fun v => v + B i) (Nat.zero_le _) hi (fun t => wr_same _ _ _) fun k t _ _ h => wr_ne _ _ (Ne.symm h)
    intro A B C
    funext i
    by_cases hi : i < 9
    · rw [hon _ _ i hi, hon _ _ i hi, hon _ _ i hi, hon _ _ i hi]; ring
    · rw [hoff _ _ i hi, hoff _ _ i hi, hoff _ _ i hi, hoff _ _ i hi]
  have : p.foldl (geomStep eps only tr) (fun _ => 0, 0) = q.foldl (geomStep eps only tr) (fun _ => 0, 0) := by
    refine h.foldl_eq' ?_ _
    intro x _ y _ z
    generalize hLx : matrixLog eps (absHToM eps tr x.absH) = Lx
    generalize hLy : matrixLog eps (absHToM eps tr y.absH) = Ly
    by_cases hx : (only && x.degenerate) = true <;> by_cases hy : (only && y.degenerate) = true
    · simp only [geomStep, if_pos hx, if_pos hy]
    · simp only [geomStep, if_pos hx, if_neg hy]
    · simp only [geomStep, if_neg hx, if_pos hy]
    · simp only [geomStep, if_neg hx, if_neg hy, hLx, hLy]
      exact Prod.ext (hadd _ _ _) rfl
  unfold geomMean
  rw [this]

/-- the trace of a matrix made from values and orthonormal vectors -/
theorem trace_reconstruct {Q : Nat → ℝ} (ho : Orthonormal 3 3 Q) (e : Nat → ℝ) : trace3 (reconstruct e Q) = e 0 + e 1 + e 2 := by
  have h : trace3 (reconstruct e Q) = ∑ i ∈ range 3, ent 3 (reconstruct e Q) i i := by
    simp [trace3, sum_range_succ]
  rw [h, sum_congr rfl fun i hi => reconstruct_ent e Q (mem_range.1 hi) (mem_range.1 hi), sum_comm]
  have : ∀ k ∈ range 3, ∑ i ∈ range 3, ent 3 Q i k * e k * ent 3 Q i k = e k := fun k hk => by
    have := ho k (mem_range.1 hk) k (mem_range.1 hk)
    rw [if_pos rfl] at this
    unfold dotp at this
    calc _ = ∑ i ∈ range 3, e k * (ent 3 Q i k * ent 3 Q i k) := sum_congr rfl fun i _ => by ring
      _ = e k := by rw [← mul_sum, this, mul_one]
  rw [sum_congr rfl this]
  simp [sum_range_succ]

/-- **C63**: the exponential of a symmetric matrix has the determinant `exp (trace)`, with the eigenvalues as they are found. -/
theorem matrixExp_det (eps : ℝ) (S : Nat → ℝ) : det3 (matrixExp eps S) = Real.exp (trace3 S) := by
  obtain ⟨ho, -, ht⟩ := analyze_facts eps S
  unfold matrixExp
  simp only []
  rw [det_reconstruct ho, map3 Real.exp _ (by omega), map3 Real.exp _ (by omega), map3 Real.exp _ (by omega), ← Real.exp_add, ← Real.exp_add, ht]

/-- **C63**: the trace of the logarithm is the sum of the logarithms of the values. -/
theorem matrixLog_trace (eps : ℝ) (M : Nat → ℝ) : trace3 (matrixLog eps M) =
    Real.log (max ((analyze eps M).eval 0) kEps) + Real.log (max ((analyze eps M).eval 1) kEps) + Real.log (max ((analyze eps M).eval 2) kEps) := by
  obtain ⟨ho, -, ht⟩ := analyze_facts eps M
  unfold matrixLog
  simp only []
  rw [trace_reconstruct ho, map3 (fun v => Real.log (max v kEps)) _ (by omega), map3 (fun v => Real.log (max v kEps)) _ (by omega),
    map3 (fun v => Real.log (max v kEps)) _ (by omega)]

/-- with exact values, all at least `kEigenEps`, the logarithm has the trace `log (det)` -/
theorem matrixLog_trace_exact {M : Nat → ℝ} (hs : Symm 3 M) (h : (symEigen3 0 M).isSome) (hk : ∀ k, k < 3 → kEps ≤ (analyze 0 M).eval k) :
    trace3 (matrixLog 0 M) = Real.log (det3 M) := by
  obtain ⟨ho, -, -⟩ := analyze_facts 0 M
  have hp := kEps_pos
  have hd : det3 M = (analyze 0 M).eval 0 * (analyze 0 M).eval 1 * (analyze 0 M).eval 2 := by
    rw [← det_reconstruct ho]
    refine det3_congr fun i hi j hj => ?_
    rw [reconstruct_ent _ _ hi hj, ← analyze_exact h hi hj, symPart, hs j hj i hi]
    ring
  have h0 := (hp.trans_le (hk 0 (by omega))).ne'
  have h1 := (hp.trans_le (hk 1 (by omega))).ne'
  have h2 := (hp.trans_le (hk 2 (by omega))).ne'
  rw [matrixLog_trace, max_eq_left (hk 0 (by omega)), max_eq_left (hk 1 (by omega)), max_eq_left (hk 2 (by omega)), hd,
    Real.log_mul (mul_ne_zero h0 h1) h2, Real.log_mul h0 h1]

theorem trace_addM (A B : Nat → ℝ) : trace3 (addM A B) = trace3 A + trace3 B := by
  unfold trace3
  rw [addM_ent A B (by omega) (by omega), addM_ent A B (by omega) (by omega), addM_ent A B (by omega) (by omega)]
  ring

theorem trace_scaleM (A : Nat → ℝ) (s : ℝ) : trace3 (scaleM A s) = trace3 A * s := by
  unfold trace3
  rw [scaleM_ent A s (by omega) (by omega), scaleM_ent A s (by omega) (by omega), scaleM_ent A s (by omega) (by omega)]
  ring

theorem geom_fold (eps : ℝ) (only : Bool) (tr : Traits) (patch : List CellH) (x : (Nat → ℝ) × Nat) :
    trace3 (patch.foldl (geomStep eps only tr) x).1 = trace3 x.1 +
      ((patch.filter fun v => !(only && v.degenerate)).map fun v => trace3 (matrixLog eps (absHToM eps tr v.absH))).sum ∧
    (patch.foldl (geomStep eps only tr) x).2 = x.2 + (patch.filter fun v => !(only && v.degenerate)).length := by
  induction patch generalizing x with
  | nil => simp
  | cons v l ih =>
    obtain ⟨h1, h2⟩ := ih (geomStep eps only tr x v)
    rw [List.foldl_cons, h1, h2]
    by_cases hd : (only && v.degenerate) = true
    · rw [List.filter_cons_of_neg (by simp [hd])]
      unfold geomStep
      rw [if_pos hd]
      exact ⟨rfl, rfl⟩
    · rw [List.filter_cons_of_pos (by simp [hd])]
      unfold geomStep
      rw [if_neg hd]
      simp only [List.map_cons, List.sum_cons, List.length_cons, trace_addM]
      exact ⟨by ring, by omega⟩

/-- **C63**: the determinant of the second strategy is the geometric mean of the determinants of the metrics of the cells that take part.  Partial: the
eigenvalues must be exact and at least `kEigenEps`. -/
theorem geomMean_det_partial {patch : List CellH} {only : Bool} {tr : Traits} {used : List CellH}
    (hu : used = patch.filter fun v => !(only && v.degenerate)) (hne : used ≠ [])
    (hs : ∀ v ∈ used, Symm 3 (absHToM 0 tr v.absH)) (hx : ∀ v ∈ used, (symEigen3 0 (absHToM 0 tr v.absH)).isSome)
    (hk : ∀ v ∈ used, ∀ k, k < 3 → kEps ≤ (analyze 0 (absHToM 0 tr v.absH)).eval k) :
    det3 (geomMean 0 patch only tr) = Real.exp ((used.map fun v => Real.log (det3 (absHToM 0 tr v.absH))).sum / used.length) := by
  obtain ⟨h1, h2⟩ := geom_fold 0 only tr patch (fun _ => 0, 0)
  rw [← hu] at h1 h2
  have hz : trace3 (fun _ => (0 : ℝ)) = 0 := by simp [trace3, ent]
  simp only [hz, zero_add] at h1 h2
  have hl : used.length ≠ 0 := by rwa [Ne, List.length_eq_zero_iff]
  have hmap : (used.map fun v => trace3 (matrixLog 0 (absHToM 0 tr v.absH))) = used.map fun v => Real.log (det3 (absHToM 0 tr v.absH)) :=
    List.map_congr_left fun v hv => matrixLog_trace_exact (hs v hv) (hx v hv) (hk v hv)
  unfold geomMean
  simp only []
  rw [if_neg (by rw [h2]; exact hl), matrixExp_det, trace_scaleM, h1, h2, hmap, mul_one_div]

-- a cell with `|H| = I` and the default bounds
example : let tr : Traits := ⟨true, 1, 1 / 10 ^ 12, 10 ^ 12, 100, 10 ^ 7, 101 / 100, 1⟩
    let M := absHToM 0 tr (eye 1)
    Symm 3 M ∧ (symEigen3 0 M).isSome ∧ ∀ k, k < 3 → kEps ≤ (analyze 0 M).eval k := by
  intro tr M
  have h0 : kEps < tr.lo := by
    show kEps < 1 / 10 ^ 12
    unfold kEps
    gcongr <;> norm_num
  have h3 : kEps < tr.lo ^ 3 := by
    show kEps < (1 / 10 ^ 12) ^ 3
    unfold kEps
    rw [div_pow, one_pow, ← pow_mul]
    gcongr <;> norm_num
  have hb : tr.lo ≤ tr.hi := by
    show (1 / 10 ^ 12 : ℝ) ≤ 10 ^ 12
    norm_num
  have hc : ∀ i, i < 3 → ∀ j, j < 3 → ent 3 (clampSpectrum 0 tr (eye 1)) i j = ent 3 (eye 1) i j := fun i hi j hj => by
    rw [clampSpectrum_eye h0 hb 0 1 hi hj, eye_ent 1 hi hj]
    have : max tr.lo (min 1 tr.hi) = 1 := by
      show max (1 / 10 ^ 12 : ℝ) (min 1 (10 ^ 12)) = 1
      rw [min_eq_left (by norm_num), max_eq_right (by norm_num)]
    rw [this]
  have hd : det3 (clampSpectrum 0 tr (eye 1)) = 1 := by
    rw [det3_congr hc]
    unfold det3
    rw [Matrix.det_fin_three]
    simp [ent, eye, wr, Function.update]
  have hM : ∀ i, i < 3 → ∀ j, j < 3 → ent 3 M i j = ent 3 (eye 1) i j := fun i hi j hj => by
    rw [(absHToM_law h0 h3 hb 0 (eye 1)).2.1 i hi j hj, hd, Real.one_rpow, mul_one, hc i hi j hj]
  have hz : ∀ i j, i < 3 → j < 3 → i ≠ j → M (i + j * 3) = 0 := fun i j hi hj hij => by
    have := hM i hi j hj
    rw [eye_ent 1 hi hj, if_neg hij] at this
    exact this
  refine ⟨fun i hi j hj => ?_, symEigen3_diag 0 ⟨hz 1 0 (by omega) (by omega) (by omega), hz 2 0 (by omega) (by omega) (by omega),
    hz 0 1 (by omega) (by omega) (by omega), hz 2 1 (by omega) (by omega) (by omega), hz 0 2 (by omega) (by omega) (by omega),
    hz 1 2 (by omega) (by omega) (by omega)⟩, fun k hk => ?_⟩
  · rw [hM i hi j hj, hM j hj i hi, eye_ent 1 hi hj, eye_ent 1 hj hi]
    by_cases hij : i = j
    · rw [if_pos hij, if_pos hij.symm]
    · rw [if_neg hij, if_neg (Ne.symm hij)]
  · have hsum := (analyze_facts 0 M).1 k hk k hk
    rw [if_pos rfl] at hsum
    have hq : quad (eye 1) (fun i => ent 3 (analyze 0 M).Q i k) = 1 := by
      refine Eq.trans ?_ hsum
      unfold quad dotp mulV
      refine sum_congr rfl fun i hi => ?_
      rw [sum_congr rfl fun t ht => by rw [eye_ent 1 (mem_range.1 hi) (mem_range.1 ht)]]
      rw [show (∑ t ∈ range 3, (if i = t then (1 : ℝ) else 0) * ent 3 (analyze 0 M).Q t k) = ent 3 (analyze 0 M).Q i k by
        rw [sum_congr rfl fun t _ => by rw [ite_mul, one_mul, zero_mul], sum_ite_eq, if_pos hi]]
    rw [analyze_rayleigh 0 M hk, quad_congr hM, hq]
    unfold kEps
    rw [div_le_one (by positivity)]
    exact one_le_pow₀ (by norm_num)

/-! ## Nodes all of whose cells are degenerate -/

/-- **C63**: among degenerate cells the one with the most values above the threshold is taken, and of those the one with the largest product. -/
theorem bestDegenerate_best {patch : List CellH} (h : patch ≠ []) (thr : ℝ) : ∃ v ∈ patch, bestDegenerate patch thr = some (countAbove v.s thr, prodAbove v.s thr, v) ∧
    ∀ w ∈ patch, countAbove w.s thr < countAbove v.s thr ∨ (countAbove w.s thr = countAbove v.s thr ∧ prodAbove w.s thr ≤ prodAbove v.s thr) := by
  obtain ⟨h1, -, h3⟩ := fold_best (fun x : Nat × ℝ × CellH => toLex (x.1, x.2.1)) (fun v => (countAbove v.s thr, prodAbove v.s thr, v)) (fun _ => True)
    (degStep thr) (fun b v hv => absurd trivial hv) (fun v _ => rfl)
    (fun b v _ hc => by
      rw [Prod.Lex.toLex_lt_toLex] at hc
      unfold degStep
      exact if_pos (hc.imp id fun h => ⟨h.1.symm, h.2⟩))
    (fun b v _ hc => by
      rw [Prod.Lex.toLex_lt_toLex] at hc
      unfold degStep
      exact if_neg fun h => hc (h.imp id fun h => ⟨h.1.symm, h.2⟩)) patch none
  obtain ⟨v, hv⟩ := List.exists_mem_of_ne_nil _ h
  obtain ⟨y, hy, -⟩ := h3 v hv trivial
  obtain ⟨u, hu, -, rfl⟩ := (h1 y hy).resolve_left (by simp)
  refine ⟨u, hu, hy, fun w hw => ?_⟩
  obtain ⟨z, hz, hwz⟩ := h3 w hw trivial
  rw [Option.mem_def] at hy hz
  rw [hy] at hz
  rw [← Option.some.inj hz, Prod.Lex.toLex_le_toLex] at hwz
  exact hwz

/-- the number of the values above the threshold -/
theorem countAbove_eq (s : Nat → ℝ) (thr : ℝ) : countAbove s thr = ((range 3).filter fun i => thr < s i).card := by
  unfold countAbove
  rw [loop3, show range 3 = {0, 1, 2} from rfl, filter_insert, filter_insert, filter_singleton]
  split_ifs <;> simp

theorem weighted_bound {lo : ℝ} (patch : List CellH) (hv : ∀ v ∈ patch, 0 ≤ v.vol ∧ v.s 2 ≤ lo) (x : ℝ × ℝ) (hx : x.2 ≤ lo * x.1) :
    (patch.foldl weightStep x).2 ≤ lo * (patch.foldl weightStep x).1 := by
  induction patch generalizing x with
  | nil => exact hx
  | cons v l ih =>
    rw [List.foldl_cons]
    refine ih (fun w hw => hv w (List.mem_cons_of_mem _ hw)) _ ?_
    unfold weightStep
    split_ifs
    · have h := hv v List.mem_cons_self
      have := mul_le_mul_of_nonneg_left h.2 h.1
      simp only
      nlinarith
    · exact hx

/-- The "volume-weighted" metric of a node without a value above `M_lambda_min` has no effect: the weighted value is at most `M_lambda_min` then, and the
clamping makes `M_lambda_min I` of it, whatever the volumes and the values are. -/
theorem weighted_useless_wrong {tr : Traits} (h0 : kEps < tr.lo) (hb : tr.lo ≤ tr.hi) (eps : ℝ) {patch : List CellH} (hne : patch ≠ [])
    (hd : ∀ v ∈ patch, v.degenerate = true) (hv : ∀ v ∈ patch, 0 ≤ v.vol ∧ ∀ i, i < 3 → v.s i ≤ tr.lo) (hw : 0 < (weighted patch).1)
    {i j : Nat} (hi : i < 3) (hj : j < 3) : ent 3 (toDense (nodeMetric eps tr patch true)) i j = if i = j then tr.lo else 0 := by
  obtain ⟨v, hvp, hbest, -⟩ := bestDegenerate_best hne tr.lo
  have hcount : countAbove v.s tr.lo = 0 := by
    rw [countAbove_eq, card_eq_zero, filter_eq_empty_iff]
    exact fun k hk => not_lt.2 ((hv v hvp).2 k (mem_range.1 hk))
  have hproj : projectDegenerate eps patch true tr = eye ((weighted patch).2 / (weighted patch).1) := by
    unfold projectDegenerate
    simp only [hbest, hcount]
    rw [if_neg (by omega), if_neg (by simp), if_pos hw]
  have hle : (weighted patch).2 / (weighted patch).1 ≤ tr.lo := by
    rw [div_le_iff₀ hw]
    exact weighted_bound patch (fun v h => ⟨(hv v h).1, (hv v h).2 2 (by omega)⟩) (0, 0) (by simp)
  have hn : nodeMetric eps tr patch true = toVoigt (clampSpectrum eps tr (eye ((weighted patch).2 / (weighted patch).1))) := by
    unfold nodeMetric
    have he : patch.isEmpty = false := by cases patch <;> simp_all
    have hc : patch.countP (fun v => !v.degenerate) = 0 := by
      rw [List.countP_eq_zero]
      intro v h
      simp [hd v h]
    simp only [he, hc]
    rw [if_neg (by simp), if_neg (by omega), hproj]
  rw [hn, toDense_toVoigt hi hj, symPart, clampSpectrum_eye h0 hb eps _ hi hj, clampSpectrum_eye h0 hb eps _ hj hi,
    min_eq_left (hle.trans hb), max_eq_left hle]
  by_cases hij : i = j
  · rw [if_pos hij, if_pos hij.symm]; ring
  · rw [if_neg hij, if_neg (Ne.symm hij)]; ring

-- a cell with the values `1e-13` and the volume 1
example : let v : CellH := ⟨eye (1 / 10 ^ 13), fun _ => 1 / 10 ^ 13, true, 1⟩
    0 < (weighted [v]).1 ∧ ∀ i, v.s i ≤ 1 / 10 ^ 12 := by
  intro v
  have : kEps < 1 / 10 ^ 13 := by
    unfold kEps
    gcongr <;> norm_num
  refine ⟨?_, fun i => ?_⟩
  · show 0 < (if (1 / 10 ^ 13 : ℝ) > kEps then ((0 : ℝ) + 1, (0 : ℝ) + 1 * (1 / 10 ^ 13)) else (0, 0)).1
    rw [if_pos this]
    norm_num
  · show (1 / 10 ^ 13 : ℝ) ≤ 1 / 10 ^ 12
    gcongr <;> norm_num

/-- **C63**: when a value is above the threshold the lifted matrix is symmetric and its form is above the threshold. -/
theorem liftZero_above {eps thr : ℝ} {absH : Nat → ℝ} (h : ∃ k, k < 3 ∧ thr < (analyze eps absH).eval k) :
    Symm 3 (liftZero eps absH thr) ∧ ∀ x, thr * len2 3 x ≤ quad (liftZero eps absH thr) x := by
  obtain ⟨e, he⟩ : ∃ e, e = (analyze eps absH).eval := ⟨_, rfl⟩
  obtain ⟨m, hm, hmt⟩ : ∃ m, minAbove e thr = some m ∧ thr < m := by
    obtain ⟨k, hk, hlt⟩ := h
    rw [← he] at hlt
    have := loop_ind (fun n (m : Option ℝ) => (∀ v ∈ m, thr < v) ∧ ∀ l, l < n → thr < e l → m ≠ none) (a := 0) (b := 3)
      (f := fun i (m : Option ℝ) => if e i > thr then some (match m with | none => e i | some m => min m (e i)) else m) (s := none) (by omega)
      ⟨by simp, fun l hl => by omega⟩ fun i m _ _ ⟨h1, h2⟩ => by
        by_cases hc : e i > thr
        · rw [if_pos hc]
          refine ⟨fun v hv => ?_, fun _ _ _ => by simp⟩
          rw [← Option.some.inj hv]
          cases m with
          | none => exact hc
          | some m => exact lt_min (h1 m rfl) hc
        · rw [if_neg hc]
          refine ⟨h1, fun l hl hlt => ?_⟩
          rcases Nat.lt_succ_iff_lt_or_eq.1 hl with h | h
          · exact h2 l h hlt
          · rw [h] at hlt; exact absurd hlt hc
    obtain ⟨m, hm⟩ := Option.ne_none_iff_exists'.1 (this.2 k hk hlt)
    exact ⟨m, hm, this.1 m hm⟩
  unfold liftZero
  simp only [← he, hm]
  obtain ⟨hs, -⟩ := sortAsc_spec (loop 0 3 (fun i e => if ¬ e i > thr then wr e i m else e) e, (analyze eps absH).Q)
  refine ⟨reconstruct_symm _ _, fun x => ?_⟩
  have hle : ∀ i, i < 3 → thr ≤ loop 0 3 (fun i e => if ¬ e i > thr then wr e i m else e) e i := fun i hi => by
    have : loop 0 3 (fun i e => if ¬ e i > thr then wr e i m else e) e i = if ¬ e i > thr then m else e i := by
      refine loop_at (fun v => if ¬ v > thr then m else v) (Nat.zero_le _) hi (fun t => ?_) fun j t _ _ hji => ?_
      · split_ifs
        · rfl
        · exact wr_same _ _ _
      · split_ifs
        · rfl
        · exact wr_ne _ _ (Ne.symm hji)
    rw [this]
    split_ifs with hc
    · exact le_of_lt hc
    · exact hmt.le
  have ho := hs.orth (analyze_facts eps absH).1
  have hall := hs.all (P := fun v => thr ≤ v) hle
  rw [quad_reconstruct, ← ho.len, mul_sum]
  exact sum_le_sum fun k hk => mul_le_mul_of_nonneg_right (hall k (mem_range.1 hk)) (sq_nonneg _)

-- a matrix with one value above the threshold
example : ∃ k, k < 3 ∧ (1 : ℝ) < (analyze 0 (eye 2)).eval k := ⟨0, by omega, by rw [analyze_eye 0 2 (by omega)]; norm_num⟩

/-! ## The Hessian of a cell -/

theorem sumAbs_eq (n : Nat) (d : Nat → ℝ) : sumAbs n d = ∑ k ∈ range n, |d k| := by
  unfold sumAbs
  rw [loop_sum, zero_add]

/-- **C63**: with the heuristics the error `d' B d` of the cell is split among its coefficients: the parts are not negative, proportional to the
`|d k|` and their sum is `|d' B d|`. -/
theorem fillAlpha_split (B d : Nat → ℝ) (n : Nat) (alpha : Nat → ℝ) :
    (∀ k, k < n → 0 ≤ fillAlpha true B d n (sumAbs n d) alpha k) ∧
    (∀ k, k < n → fillAlpha true B d n (sumAbs n d) alpha k * ∑ l ∈ range n, |d l| = |d k| * |∑ i ∈ range n, ∑ j ∈ range n, d i * ent n B i j * d j|) ∧
    ∑ k ∈ range n, fillAlpha true B d n (sumAbs n d) alpha k = |∑ i ∈ range n, ∑ j ∈ range n, d i * ent n B i j * d j| := by
  have hn : 0 ≤ sumAbs n d := by rw [sumAbs_eq]; exact sum_nonneg fun k _ => abs_nonneg _
  by_cases hs : sumAbs n d > 0
  · have hB : loop 0 n (fun i x => x + d i * loop 0 n (fun j b => b + B (i + n * j) * d j) 0) 0 =
        ∑ i ∈ range n, ∑ j ∈ range n, d i * ent n B i j * d j := by
      rw [loop_sum n (fun i => d i * loop 0 n (fun j b => b + B (i + n * j) * d j) 0), zero_add]
      refine sum_congr rfl fun i _ => ?_
      rw [loop_sum n (fun j => B (i + n * j) * d j), zero_add, mul_sum]
      exact sum_congr rfl fun j _ => by rw [ent, mul_comm n j]; ring
    have hk : ∀ k, k < n → fillAlpha true B d n (sumAbs n d) alpha k =
        |d k| * |∑ i ∈ range n, ∑ j ∈ range n, d i * ent n B i j * d j| / sumAbs n d := fun k hk => by
      unfold fillAlpha
      rw [if_neg (by simp), if_neg (not_not.2 hs)]
      simp only [hB]
      exact loop_at (fun _ => |d k| * |∑ i ∈ range n, ∑ j ∈ range n, d i * ent n B i j * d j| / sumAbs n d) (Nat.zero_le _) hk
        (fun t => wr_same _ _ _) fun j t _ _ h => wr_ne _ _ (Ne.symm h)
    refine ⟨fun k h => ?_, fun k h => ?_, ?_⟩
    · rw [hk k h]; positivity
    · rw [hk k h, ← sumAbs_eq, div_mul_cancel₀ _ hs.ne']
    · rw [sum_congr rfl fun k h => hk k (mem_range.1 h), ← sum_div, ← sum_mul, ← sumAbs_eq, mul_div_assoc, mul_comm, div_mul_cancel₀ _ hs.ne']
  · have hz : sumAbs n d = 0 := le_antisymm (not_lt.1 hs) hn
    have hd : ∀ k, k < n → d k = 0 := fun k hk => by
      rw [sumAbs_eq] at hz
      exact abs_eq_zero.1 ((sum_eq_zero_iff_of_nonneg fun k _ => abs_nonneg _).1 hz k (mem_range.2 hk))
    have hk : ∀ k, k < n → fillAlpha true B d n (sumAbs n d) alpha k = 0 := fun k hk => by
      unfold fillAlpha
      rw [if_neg (by simp), if_pos hs]
      exact loop_at (fun _ => 0) (Nat.zero_le _) hk (fun t => wr_same _ _ _) fun j t _ _ h => wr_ne _ _ (Ne.symm h)
    have hB : ∑ i ∈ range n, ∑ j ∈ range n, d i * ent n B i j * d j = 0 :=
      sum_eq_zero fun i hi => sum_eq_zero fun j _ => by rw [hd i (mem_range.1 hi)]; ring
    refine ⟨fun k h => (hk k h).ge, fun k h => by rw [hk k h, hB, zero_mul, abs_zero, mul_zero], ?_⟩
    rw [sum_eq_zero fun k h => hk k (mem_range.1 h), hB, abs_zero]

/-- **C63**: the place of the boosted coefficient is that of the largest one. -/
theorem imax_max {n : Nat} (hn : 0 < n) (d : Nat → ℝ) : imax n d < n ∧ ∀ k, k < n → |d k| ≤ |d (imax n d)| := by
  have := loop_ind (fun m (x : Nat × ℝ) => x.1 < n ∧ x.2 = |d x.1| ∧ ∀ k, k < m → |d k| ≤ x.2)
    (a := 1) (b := n) (f := fun k (x : Nat × ℝ) => if |d k| > x.2 then (k, |d k|) else x) (s := (0, |d 0|)) hn
    ⟨hn, rfl, fun k hk => by rw [show k = 0 by omega]⟩ fun i x h1 h2 ⟨h3, h4, h5⟩ => by
      split_ifs with hc
      · exact ⟨h2, rfl, fun k hk => by
          rcases Nat.lt_succ_iff_lt_or_eq.1 hk with h | h
          · exact (h5 k h).trans hc.le
          · rw [h]⟩
      · exact ⟨h3, h4, fun k hk => by
          rcases Nat.lt_succ_iff_lt_or_eq.1 hk with h | h
          · exact h5 k h
          · rw [h]; exact not_lt.1 hc⟩
  exact ⟨this.1, fun k hk => by rw [imax, ← this.2.1]; exact this.2.2 k hk⟩

/-- a spectrum that is not degenerate -/
theorem not_degenerate {eval Q : Nat → ℝ} {hrel : ℝ} (h : isDegenerate (finish eval Q) hrel = false) :
    kEps < eval 0 ∧ eval 2 ≤ hrel * eval 0 := by
  unfold isDegenerate at h
  change (if ¬ eval 0 > kEps then true else match (finish eval Q).ratio with | none => true | some r => decide (r > hrel)) = false at h
  by_cases h0 : kEps < eval 0
  · refine ⟨h0, ?_⟩
    have hp : 0 < eval 0 := kEps_pos.trans h0
    rw [if_neg (not_not.2 h0)] at h
    have hr : (finish eval Q).ratio = some (eval 2 / eval 0) := by
      show (if |eval 0| > kEps then some (eval 2 / eval 0) else none) = _
      rw [if_pos (by rw [abs_of_pos hp]; exact h0)]
    rw [hr] at h
    have := of_decide_eq_false h
    rwa [gt_iff_lt, not_lt, div_le_iff₀ hp] at this
  · rw [if_pos h0] at h
    cases h

/-- **C63**: what is stored for a cell: a symmetric matrix with a form that is not negative, its values in ascending order, and unless the cell is marked
as degenerate the smallest value is above `kEigenEps` and the largest is at most `H_lambda_max_rel` times the smallest. -/
theorem cellHessian_facts (eps : ℝ) (tr : Traits) (n : Nat) (B : Nat → ℝ) (hess : (Nat → ℝ) → Nat → ℝ) (d alpha v2 : Nat → ℝ) :
    let r := cellHessian eps tr n B hess d alpha v2
    Symm 3 r.1 ∧ (∀ x, 0 ≤ quad r.1 x) ∧ Asc r.2.1 ∧ 0 ≤ r.2.1 0 ∧ trace3 r.1 = r.2.1 0 + r.2.1 1 + r.2.1 2 ∧ det3 r.1 = r.2.1 0 * r.2.1 1 * r.2.1 2 ∧
    (r.2.2 = false → kEps < r.2.1 0 ∧ r.2.1 2 ≤ tr.hrel * r.2.1 0) := by
  intro r
  have key : ∀ H, Symm 3 (spectralAbs eps H).1 ∧ (∀ x, 0 ≤ quad (spectralAbs eps H).1 x) ∧ Asc (spectralAbs eps H).2.eval ∧
      0 ≤ (spectralAbs eps H).2.eval 0 ∧
      trace3 (spectralAbs eps H).1 = (spectralAbs eps H).2.eval 0 + (spectralAbs eps H).2.eval 1 + (spectralAbs eps H).2.eval 2 ∧
      det3 (spectralAbs eps H).1 = (spectralAbs eps H).2.eval 0 * (spectralAbs eps H).2.eval 1 * (spectralAbs eps H).2.eval 2 := fun H => by
    obtain ⟨h1, h2, h3, h4, -⟩ := spectralAbs_facts eps H
    refine ⟨(spectralAbs_psd eps H).1, (spectralAbs_psd eps H).2, h2, h3 0 (by omega), ?_, ?_⟩
    · conv_lhs => rw [h4]
      exact trace_reconstruct h1 _
    · conv_lhs => rw [h4]
      exact det_reconstruct h1 _
  have hz : ∀ i j, ent 3 (fun _ => (0 : ℝ)) i j = 0 := fun _ _ => rfl
  obtain ⟨x, hx⟩ : ∃ x, x = evalAbsH eps tr n B hess d alpha v2 := ⟨_, rfl⟩
  obtain ⟨y, hy⟩ : ∃ y, y = evalAbsH eps tr n B hess (wr d (imax n d) (d (imax n d) * tr.boost)) alpha v2 := ⟨_, rfl⟩
  have hr : r = if ¬ sumAbs n d > 0 then (fun _ => 0, fun _ => 0, true)
      else if isDegenerate x.2 tr.hrel then (if isDegenerate y.2 tr.hrel then (x.1, x.2.eval, true) else (y.1, y.2.eval, false))
      else (x.1, x.2.eval, false) := by
    rw [hx, hy]
    rfl
  rw [hr]
  obtain ⟨a1, a2, a3, a4, a5, a6⟩ := key (hess (loop 0 n (fun k v => wr v k (-(1 / 2) * fillAlpha tr.distrib B d n (sumAbs n d) alpha k)) v2))
  rw [show spectralAbs eps (hess (loop 0 n (fun k v => wr v k (-(1 / 2) * fillAlpha tr.distrib B d n (sumAbs n d) alpha k)) v2)) = x from hx.symm] at a1 a2 a3 a4 a5 a6
  have hfx : ∃ e q, x.2 = finish e q := by rw [hx]; exact ⟨_, _, rfl⟩
  have hfy : ∃ e q, y.2 = finish e q := by rw [hy]; exact ⟨_, _, rfl⟩
  have hyk : ∃ H, y = spectralAbs eps H := by rw [hy]; exact ⟨_, rfl⟩
  by_cases c1 : ¬ sumAbs n d > 0
  · rw [if_pos c1]
    refine ⟨fun i _ j _ => rfl, fun x => ?_, ⟨le_rfl, le_rfl⟩, le_rfl, ?_, ?_, fun h => by cases h⟩
    · simp [quad, mulV, dotp, hz]
    · simp [trace3, hz]
    · unfold det3
      rw [Matrix.det_fin_three]
      simp [hz]
  rw [if_neg c1]
  by_cases c2 : isDegenerate x.2 tr.hrel = true
  · rw [if_pos c2]
    by_cases c3 : isDegenerate y.2 tr.hrel = true
    · rw [if_pos c3]
      exact ⟨a1, a2, a3, a4, a5, a6, fun h => by cases h⟩
    rw [if_neg c3]
    obtain ⟨H, rfl⟩ := hyk
    obtain ⟨b1, b2, b3, b4, b5, b6⟩ := key H
    obtain ⟨e, q, hf⟩ := hfy
    rw [hf] at c3
    refine ⟨b1, b2, b3, b4, b5, b6, fun _ => ?_⟩
    have := not_degenerate (Bool.eq_false_iff.2 c3)
    rw [hf]
    exact this
  · rw [if_neg c2]
    obtain ⟨e, q, hf⟩ := hfx
    rw [hf] at c2
    refine ⟨a1, a2, a3, a4, a5, a6, fun _ => ?_⟩
    have := not_degenerate (Bool.eq_false_iff.2 c2)
    rw [hf]
    exact this

/-- **C63**: the ten numbers stored on a cell bring back the matrix, the values and the flag of the cell. -/
theorem loadCell_storeCell {absH s : Nat → ℝ} (hs : Symm 3 absH) (flag : Bool) (hf : flag = false → kEps < s 0) (vol : ℝ) :
    (∀ i, i < 3 → ∀ j, j < 3 → ent 3 (loadCell (storeCell absH s flag) vol).absH i j = ent 3 absH i j) ∧
    (∀ i, i < 3 → (loadCell (storeCell absH s flag) vol).s i = s i) ∧
    (loadCell (storeCell absH s flag) vol).degenerate = flag ∧ (loadCell (storeCell absH s flag) vol).vol = vol := by
  refine ⟨fun i hi j hj => ?_, fun i hi => ?_, ?_, rfl⟩
  · have : ent 3 (loadCell (storeCell absH s flag) vol).absH i j = ent 3 (toDense (toVoigt absH)) i j := by
      show toDense (storeCell absH s flag) (i + j * 3) = toDense (toVoigt absH) (i + j * 3)
      have : ∀ p, p < 6 → storeCell absH s flag p = toVoigt absH p := fun p hp => by
        unfold storeCell
        rw [wr_ne _ _ (by omega), wr_ne _ _ (by omega), wr_ne _ _ (by omega), wr_ne _ _ (by omega)]
      interval_cases i <;> interval_cases j <;> exact this _ (by omega)
    rw [this, toDense_toVoigt hi hj, symPart, hs j hj i hi]
    ring
  · interval_cases i <;> simp [loadCell, storeCell, wr, Function.update]
  · cases flag
    · have := hf rfl
      simp [loadCell, storeCell, wr, Function.update, this]
    · simp [loadCell, storeCell, wr, Function.update]
      norm_num

end Verif.Metric
