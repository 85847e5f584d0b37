import Verif.Model.Metric
import Verif.Spec.Metric
import Verif.Lemmas.SVD
import Verif.Lemmas.Loops
import Verif.Props.Jacobi
import Mathlib.LinearAlgebra.Matrix.NonsingularInverse

/-!
Sorting, rebuilding and analysing symmetric 3x3 matrices (adapt_mesh.cpp).
-/
namespace Verif.Metric

open Verif.Dense Finset

/-- The pairs of values and columns of the second are those of the first in another order. -/
def Shuffled (x y : (Nat → ℝ) × (Nat → ℝ)) : Prop :=
  ∃ π, PermOn 3 π ∧ ∀ j, j < 3 → y.1 j = x.1 (π j) ∧ ∀ i, i < 3 → ent 3 y.2 i j = ent 3 x.2 i (π j)

theorem ascBest_spec {i : Nat} (hi : i < 3) (e : Nat → ℝ) :
    i ≤ ascBest i e ∧ ascBest i e < 3 ∧ ∀ j, i ≤ j → j < 3 → e (ascBest i e) ≤ e j := by
  unfold ascBest
  refine loop_ind (fun m b => i ≤ b ∧ b < 3 ∧ ∀ j, i ≤ j → j < m → e b ≤ e j) hi ?_ ?_
  · exact ⟨le_rfl, hi, fun j h1 h2 => by rw [show j = i by omega]⟩
  · intro j b h1 h2 ⟨h3, h4, h5⟩
    split
    · rename_i h
      refine ⟨by omega, h2, fun j' h6 h7 => ?_⟩
      by_cases e' : j' = j
      · rw [e']
      · exact h.le.trans (h5 j' h6 (by omega))
    · rename_i h
      refine ⟨h3, h4, fun j' h6 h7 => ?_⟩
      by_cases e' : j' = j
      · rw [e']; exact not_lt.1 h
      · exact h5 j' h6 (by omega)

theorem sortAsc_spec (x : (Nat → ℝ) × (Nat → ℝ)) : Shuffled x (sortAsc x) ∧ Asc (sortAsc x).1 := by
  have := loop_ind (fun k (y : (Nat → ℝ) × (Nat → ℝ)) =>
      Shuffled x y ∧ ∀ a b, a < k → a ≤ b → b < 3 → y.1 a ≤ y.1 b)
    (a := 0) (b := 3) (f := fun i x =>
    let best := ascBest i x.1
    if best = i then x
    else (swapAt x.1 i best, loop 0 3 (fun k e => swapAt e (k + i * 3) (k + best * 3)) x.2)) (s := x) (Nat.zero_le 3)
    ⟨⟨id, PermOn.id 3, fun j _ => ⟨rfl, fun _ _ => rfl⟩⟩, fun a b h => by omega⟩ ?_
  · exact ⟨this.1, this.2 0 1 (by omega) (by omega) (by omega), this.2 1 2 (by omega) (by omega) (by omega)⟩
  · intro i y _ hi ⟨⟨π, hπ, hy⟩, hd⟩
    have hb := ascBest_spec hi y.1
    simp only []
    generalize ascBest i y.1 = best at hb
    obtain ⟨h1, h2, h3⟩ := hb
    split
    · rename_i e
      subst e
      refine ⟨⟨π, hπ, hy⟩, fun a b h4 h5 h6 => ?_⟩
      by_cases e : a = best
      · rw [e]; exact h3 b (by omega) h6
      · exact hd a b (by omega) h5 h6
    · refine ⟨⟨swapAt π i best, hπ.swap hi h2, fun j hj => ?_⟩, fun a b h4 h5 h6 => ?_⟩
      · have hs := sw_lt hi h2 hj
        rw [swapAt_sw]
        refine ⟨?_, fun r hr => ?_⟩
        · show swapAt y.1 i best j = _
          rw [swapAt_sw]; exact (hy _ hs).1
        · have : ent 3 (loop 0 3 (fun k e => swapAt e (k + i * 3) (k + best * 3)) y.2) r j = ent 3 y.2 r (sw i best j) :=
            swapCols_ent hi h2 y.2 hr hj
          rw [this]
          exact (hy _ hs).2 r hr
      · show swapAt y.1 i best a ≤ swapAt y.1 i best b
        rw [swapAt_sw, swapAt_sw]
        by_cases e : a = i
        · subst e
          have : sw a best a = best := by unfold sw; rw [if_pos rfl]
          rw [this]
          exact h3 _ ((sw_ge h1).2 h5) (sw_lt hi h2 h6)
        · have ha : a < i := by omega
          rw [sw_of_lt h1 ha]
          refine hd a _ ha ?_ (sw_lt hi h2 h6)
          by_cases hb : b < i
          · rw [sw_of_lt h1 hb]; exact h5
          · have := (sw_ge h1 (z := b)).2 (by omega); omega

theorem Shuffled.orth {x y : (Nat → ℝ) × (Nat → ℝ)} (h : Shuffled x y) (ho : Orthonormal 3 3 x.2) : Orthonormal 3 3 y.2 := by
  obtain ⟨π, ⟨π', hπ⟩, hs⟩ := h
  intro p hp q hq
  have := ho (π p) (hπ p hp).1 (π q) (hπ q hq).1
  have e : π p = π q ↔ p = q := by
    constructor
    · intro e; rw [← (hπ p hp).2.2.1, ← (hπ q hq).2.2.1, e]
    · rintro rfl; rfl
  rw [if_congr e rfl rfl] at this
  rw [← this]
  exact dotp_congr (fun i hi => (hs p hp).2 i hi) fun i hi => (hs q hq).2 i hi

theorem Shuffled.all {x y : (Nat → ℝ) × (Nat → ℝ)} (h : Shuffled x y) {P : ℝ → Prop} (hP : ∀ i, i < 3 → P (x.1 i)) : ∀ i, i < 3 → P (y.1 i) := by
  obtain ⟨π, ⟨π', hπ⟩, hs⟩ := h
  intro i hi
  rw [(hs i hi).1]
  exact hP _ (hπ i hi).1

theorem Shuffled.sum {x y : (Nat → ℝ) × (Nat → ℝ)} (h : Shuffled x y) (f : ℝ → (Nat → ℝ) → ℝ)
    (hf : ∀ e c c', (∀ i, i < 3 → c i = c' i) → f e c = f e c') :
    ∑ k ∈ range 3, f (y.1 k) (fun i => ent 3 y.2 i k) = ∑ k ∈ range 3, f (x.1 k) (fun i => ent 3 x.2 i k) := by
  obtain ⟨π, hπ, hs⟩ := h
  rw [← PermOn.sum hπ fun k => f (x.1 k) (fun i => ent 3 x.2 i k)]
  refine sum_congr rfl fun k hk => ?_
  rw [(hs k (mem_range.1 hk)).1]
  exact hf _ _ _ fun i hi => (hs k (mem_range.1 hk)).2 i hi

/-- an entry of a rebuilt matrix -/
theorem reconstruct_ent (e Q : Nat → ℝ) {i j : Nat} (hi : i < 3) (hj : j < 3) :
    ent 3 (reconstruct e Q) i j = ∑ k ∈ range 3, ent 3 Q i k * e k * ent 3 Q j k := by
  have hstep : ∀ (k : Nat) (A : Nat → ℝ), loop 0 3 (fun j A => loop 0 3 (fun i A =>
      wr A (i + 3 * j) (A (i + 3 * j) + Q (i + 3 * k) * e k * Q (j + 3 * k))) A) A (i + 3 * j) =
      A (i + 3 * j) + Q (i + 3 * k) * e k * Q (j + 3 * k) := by
    intro k A
    refine loop_at (fun v => v + Q (i + 3 * k) * e k * Q (j + 3 * k)) (Nat.zero_le j) hj (fun t => ?_) fun j' t _ h1 h2 => ?_
    · refine loop_at (fun v => v + Q (i + 3 * k) * e k * Q (j + 3 * k)) (Nat.zero_le i) hi (fun t => ?_) fun i' t _ h1 h2 => ?_
      · exact wr_same _ _ _
      · exact wr_ne _ _ (by omega)
    · exact loop_off fun i' t _ h3 => wr_ne _ _ (by omega)
  have : ∀ s : Nat → ℝ, ent 3 s i j = s (i + 3 * j) := fun s => by rw [ent, Nat.mul_comm]
  rw [this]
  unfold reconstruct
  have h3 : ∀ (g : Nat → (Nat → ℝ) → Nat → ℝ) (s : Nat → ℝ), loop 0 3 g s = g 2 (g 1 (g 0 s)) := fun g s => rfl
  rw [h3, hstep, hstep, hstep]
  simp only [sum_range_succ, range_zero, sum_empty, ent, zero_add, Nat.mul_comm _ 3]

theorem reconstruct_symm (e Q : Nat → ℝ) : Symm 3 (reconstruct e Q) := by
  intro i hi j hj
  rw [reconstruct_ent e Q hi hj, reconstruct_ent e Q hj hi]
  exact sum_congr rfl fun k _ => by ring

/-- values in the order of the first do not matter -/
theorem Shuffled.reconstruct {x y : (Nat → ℝ) × (Nat → ℝ)} (h : Shuffled x y) {i j : Nat} (hi : i < 3) (hj : j < 3) :
    ent 3 (Metric.reconstruct y.1 y.2) i j = ent 3 (Metric.reconstruct x.1 x.2) i j := by
  rw [reconstruct_ent _ _ hi hj, reconstruct_ent _ _ hi hj]
  exact h.sum (fun e c => c i * e * c j) fun e c c' hc => by rw [hc i hi, hc j hj]

/-- the quadratic form of a rebuilt matrix -/
theorem quad_reconstruct (e Q x : Nat → ℝ) : quad (reconstruct e Q) x = ∑ k ∈ range 3, e k * dotp 3 (fun i => ent 3 Q i k) x ^ 2 := by
  unfold quad dotp mulV
  have : ∀ i ∈ range 3, x i * ∑ t ∈ range 3, ent 3 (reconstruct e Q) i t * x t =
      x i * ∑ t ∈ range 3, (∑ k ∈ range 3, ent 3 Q i k * e k * ent 3 Q t k) * x t := fun i hi => by
    rw [sum_congr rfl fun t ht => by rw [reconstruct_ent e Q (mem_range.1 hi) (mem_range.1 ht)]]
  rw [sum_congr rfl this]
  simp only [sum_range_succ, range_zero, sum_empty, zero_add]
  ring

theorem quad_congr {M M' : Nat → ℝ} (h : ∀ i, i < 3 → ∀ j, j < 3 → ent 3 M i j = ent 3 M' i j) (x : Nat → ℝ) : quad M x = quad M' x := by
  unfold quad dotp mulV
  refine sum_congr rfl fun i hi => ?_
  congr 1
  exact sum_congr rfl fun t ht => by rw [h i (mem_range.1 hi) t (mem_range.1 ht)]

/-- a rebuilt matrix with values in bounds -/
theorem metric_reconstruct {e Q : Nat → ℝ} (ho : Orthonormal 3 3 Q) {lo hi R : ℝ} (hR : 0 ≤ R) (h1 : ∀ i, i < 3 → lo ≤ e i) (h2 : ∀ i, i < 3 → e i ≤ hi)
    (h3 : ∀ i, i < 3 → ∀ j, j < 3 → e i ≤ R * e j) : Metric lo hi R (reconstruct e Q) where
  symm := reconstruct_symm e Q
  lower x := by
    rw [quad_reconstruct, ← ho.len, mul_sum]
    exact sum_le_sum fun k hk => mul_le_mul_of_nonneg_right (h1 k (mem_range.1 hk)) (sq_nonneg _)
  upper x := by
    rw [quad_reconstruct, ← ho.len, mul_sum]
    exact sum_le_sum fun k hk => mul_le_mul_of_nonneg_right (h2 k (mem_range.1 hk)) (sq_nonneg _)
  ratio x y h := by
    obtain ⟨k, hk, hm⟩ : ∃ k, k < 3 ∧ ∀ i, i < 3 → e k ≤ e i := by
      obtain ⟨k, hk, hm⟩ := exists_min_image (range 3) e ⟨0, by simp⟩
      exact ⟨k, mem_range.1 hk, fun i hi => hm i (mem_range.2 hi)⟩
    have h4 : quad (reconstruct e Q) x ≤ R * e k * len2 3 x := by
      rw [quad_reconstruct, ← ho.len, mul_sum]
      exact sum_le_sum fun i hi => mul_le_mul_of_nonneg_right (h3 i (mem_range.1 hi) k hk) (sq_nonneg _)
    have h5 : e k * len2 3 y ≤ quad (reconstruct e Q) y := by
      rw [quad_reconstruct, ← ho.len, mul_sum]
      exact sum_le_sum fun i hi => mul_le_mul_of_nonneg_right (hm i (mem_range.1 hi)) (sq_nonneg _)
    rw [h, mul_assoc] at h4
    exact h4.trans (mul_le_mul_of_nonneg_left h5 hR)

/-! ## The analysis of a matrix -/

theorem loop3 {S : Type} (g : Nat → S → S) (s : S) : loop 0 3 g s = g 2 (g 1 (g 0 s)) := rfl

/-- a function applied to the three values -/
theorem map3 (f : ℝ → ℝ) (e : Nat → ℝ) {j : Nat} (hj : j < 3) : loop 0 3 (fun i e => wr e i (f (e i))) e j = f (e j) := by
  refine loop_at f (Nat.zero_le j) hj (fun t => wr_same _ _ _) fun i t _ _ h => wr_ne _ _ (Ne.symm h)

theorem eye_ent (s : ℝ) {i j : Nat} (hi : i < 3) (hj : j < 3) : ent 3 (eye s) i j = if i = j then s else 0 := by
  interval_cases i <;> interval_cases j <;> simp [ent, eye, wr, Function.update]

theorem eye_orth : Orthonormal 3 3 (eye 1) := by
  intro a ha b hb
  rw [dotp_congr (fun i hi => eye_ent 1 hi ha) (fun i hi => eye_ent 1 hi hb)]
  unfold dotp
  simp only [mul_ite, mul_one, mul_zero, sum_ite_eq', mem_range, hb, if_true]
  exact if_congr eq_comm rfl rfl

theorem symmetrize_ent (A : Nat → ℝ) {i j : Nat} (hi : i < 3) (hj : j < 3) : ent 3 (symmetrize A) i j = symPart A i j := by
  interval_cases i <;> interval_cases j <;> simp [ent, symmetrize, symPart, wr, Function.update] <;> ring

theorem symmetrize_symm (A : Nat → ℝ) : Symm 3 (symmetrize A) := by
  intro i hi j hj
  rw [symmetrize_ent A hi hj, symmetrize_ent A hj hi, symPart, symPart, add_comm]

/-- the columns are orthonormal and the values ascend, whether or not the eigenvalues have been found -/
theorem analyze_facts (eps : ℝ) (A : Nat → ℝ) : Orthonormal 3 3 (analyze eps A).Q ∧ Asc (analyze eps A).eval ∧
    (analyze eps A).eval 0 + (analyze eps A).eval 1 + (analyze eps A).eval 2 = trace3 A := by
  obtain ⟨x, hx⟩ : ∃ x, x = eigenOrDiag eps A := ⟨_, rfl⟩
  have ho : Orthonormal 3 3 x.2 ∧ ∑ k ∈ range 3, x.1 k = trace3 A := by
    unfold eigenOrDiag at hx
    cases h : symEigen3 eps A with
    | none =>
      rw [h] at hx
      subst hx
      exact ⟨eye_orth, by simp [sum_range_succ, wr, Function.update, trace3, ent]⟩
    | some y =>
      rw [h] at hx
      subst hx
      refine ⟨eigen_orthonormal (symmetrize_symm A) h, ?_⟩
      rw [eigen_trace (symmetrize_symm A) h, sum_congr rfl fun j hj => symmetrize_ent A (mem_range.1 hj) (mem_range.1 hj)]
      simp only [sum_range_succ, range_zero, sum_empty, symPart, trace3]
      ring
  unfold analyze
  rw [← hx]
  obtain ⟨h1, h2⟩ := sortAsc_spec x
  refine ⟨h1.orth ho.1, h2, ?_⟩
  have := h1.sum (fun e _ => e) fun _ _ _ _ => rfl
  rw [ho.2] at this
  rw [← this]
  simp [sum_range_succ, finish]

/-- the columns are eigenvectors of the symmetric part up to the tolerance, when the eigenvalues have been found -/
theorem analyze_vectors {eps : ℝ} {A : Nat → ℝ} (h : (symEigen3 eps A).isSome) {j : Nat} (hj : j < 3) :
    len2 3 (fun i => mulV 3 3 (symmetrize A) (fun t => ent 3 (analyze eps A).Q t j) i -
      (analyze eps A).eval j * ent 3 (analyze eps A).Q i j) ≤ (90 * eps) ^ 2 := by
  obtain ⟨x, hx⟩ := Option.isSome_iff_exists.1 h
  unfold analyze eigenOrDiag
  rw [hx]
  obtain ⟨⟨π, ⟨π', hπ⟩, hs⟩, h2⟩ := sortAsc_spec x
  have := eigen_vectors (symmetrize_symm A) hx (hπ j hj).1
  refine le_trans (le_of_eq ?_) (this.trans (le_of_eq (by norm_num)))
  unfold len2
  refine sum_congr rfl fun i hi => ?_
  show (_ - (sortAsc x).1 j * ent 3 (sortAsc x).2 i j) ^ 2 = _
  rw [(hs j hj).1, (hs j hj).2 i (mem_range.1 hi)]
  congr 2
  exact mulV_congr _ (fun t ht => (hs j hj).2 t ht) i

theorem quad_symmetrize (A x : Nat → ℝ) : quad (symmetrize A) x = quad A x := by
  unfold quad dotp mulV
  have : ∀ i ∈ range 3, x i * ∑ t ∈ range 3, ent 3 (symmetrize A) i t * x t = x i * ∑ t ∈ range 3, symPart A i t * x t := fun i hi => by
    rw [sum_congr rfl fun t ht => by rw [symmetrize_ent A (mem_range.1 hi) (mem_range.1 ht)]]
  rw [sum_congr rfl this]
  simp only [sum_range_succ, range_zero, sum_empty, zero_add, symPart]
  ring

/-- every value is the quadratic form at its column -/
theorem analyze_rayleigh (eps : ℝ) (A : Nat → ℝ) {j : Nat} (hj : j < 3) :
    (analyze eps A).eval j = quad A (fun i => ent 3 (analyze eps A).Q i j) := by
  have hx : ∀ k, k < 3 → (eigenOrDiag eps A).1 k = quad A (fun i => ent 3 (eigenOrDiag eps A).2 i k) := by
    intro k hk
    unfold eigenOrDiag
    cases h : symEigen3 eps A with
    | none =>
      simp only []
      have : quad A (fun i => ent 3 (eye 1) i k) = quad A (fun i => if i = k then 1 else 0) := by
        unfold quad
        rw [dotp_congr (fun i hi => eye_ent 1 hi hk) (fun i hi => mulV_congr A (fun t ht => eye_ent 1 ht hk) i)]
      rw [this]
      unfold quad dotp mulV
      interval_cases k <;> simp [sum_range_succ, wr, Function.update, ent]
    | some y =>
      obtain ⟨x, hx, _, hV, he⟩ := eigen_state (symmetrize_symm A) h
      simp only []
      rw [he k hk, hx.form k hk k hk, ← quad_symmetrize, hV]
      rfl
  unfold analyze
  obtain ⟨⟨π, ⟨π', hπ⟩, hs⟩, h2⟩ := sortAsc_spec (eigenOrDiag eps A)
  show (sortAsc (eigenOrDiag eps A)).1 j = quad A fun i => ent 3 (sortAsc (eigenOrDiag eps A)).2 i j
  rw [(hs j hj).1, hx _ (hπ j hj).1]
  unfold quad
  exact dotp_congr (fun i hi => ((hs j hj).2 i hi).symm) fun i _ => mulV_congr A (fun t ht => ((hs j hj).2 t ht).symm) i

/-! ## Determinants -/

theorem det_reconstruct {Q : Nat → ℝ} (ho : Orthonormal 3 3 Q) (e : Nat → ℝ) : det3 (reconstruct e Q) = e 0 * e 1 * e 2 := by
  let P : Matrix (Fin 3) (Fin 3) ℝ := fun a b => ent 3 Q a b
  have h1 : P.transpose * P = 1 := by
    ext a b
    rw [Matrix.mul_apply, Matrix.one_apply]
    have := ho a a.2 b b.2
    unfold dotp at this
    rw [sum_range] at this
    rw [show (if a = b then (1 : ℝ) else 0) = if (a : Nat) = b then 1 else 0 by simp [Fin.ext_iff], ← this]
    rfl
  have h2 : (Matrix.of fun i j : Fin 3 => ent 3 (reconstruct e Q) i j) = P * Matrix.diagonal (fun k : Fin 3 => e k) * P.transpose := by
    ext i j
    rw [Matrix.of_apply, reconstruct_ent e Q i.2 j.2, Matrix.mul_apply, sum_range]
    refine sum_congr rfl fun k _ => ?_
    rw [Matrix.mul_diagonal]
    rfl
  have h3 : P.det * P.det = 1 := by
    have := congrArg Matrix.det h1
    rwa [Matrix.det_mul, Matrix.det_transpose, Matrix.det_one] at this
  unfold det3
  rw [h2, Matrix.det_mul, Matrix.det_mul, Matrix.det_transpose, Matrix.det_diagonal, Fin.prod_univ_three]
  calc P.det * (e 0 * e 1 * e 2) * P.det = P.det * P.det * (e 0 * e 1 * e 2) := by ring
    _ = _ := by rw [h3, one_mul]

theorem det3_congr {M M' : Nat → ℝ} (h : ∀ i, i < 3 → ∀ j, j < 3 → ent 3 M i j = ent 3 M' i j) : det3 M = det3 M' := by
  unfold det3
  congr 1
  ext i j
  exact h i i.2 j j.2

theorem scaleM_ent (A : Nat → ℝ) (s : ℝ) {i j : Nat} (hi : i < 3) (hj : j < 3) : ent 3 (scaleM A s) i j = ent 3 A i j * s := by
  unfold ent scaleM
  exact loop_at (fun v => v * s) (Nat.zero_le _) (by omega) (fun t => wr_same _ _ _) fun k t _ _ h => wr_ne _ _ (Ne.symm h)

theorem addM_ent (A B : Nat → ℝ) {i j : Nat} (hi : i < 3) (hj : j < 3) : ent 3 (addM A B) i j = ent 3 A i j + ent 3 B i j := by
  unfold ent addM
  exact loop_at (fun v => v + B (i + j * 3)) (Nat.zero_le _) (by omega) (fun t => wr_same _ _ _) fun k t _ _ h => wr_ne _ _ (Ne.symm h)

theorem det_scaleM (A : Nat → ℝ) (s : ℝ) : det3 (scaleM A s) = s ^ 3 * det3 A := by
  unfold det3
  rw [Matrix.det_fin_three, Matrix.det_fin_three]
  have h := fun i j : Fin 3 => scaleM_ent A s i.2 j.2
  simp only [Matrix.of_apply, h]
  ring

/-! ## Bounds of the values -/

theorem clampAbs_mem {tr : Traits} (h : tr.lo ≤ tr.hi) (v : ℝ) : tr.lo ≤ clampAbs tr v ∧ clampAbs tr v ≤ tr.hi := by
  unfold clampAbs
  show tr.lo ≤ (if (if v < tr.lo then tr.lo else v) > tr.hi then tr.hi else if v < tr.lo then tr.lo else v) ∧
    (if (if v < tr.lo then tr.lo else v) > tr.hi then tr.hi else if v < tr.lo then tr.lo else v) ≤ tr.hi
  split_ifs <;> constructor <;> linarith

theorem kEps_pos : 0 < kEps := by unfold kEps; positivity

theorem compress_mem {tr : Traits} (h0 : 0 < tr.lo) (h : tr.lo ≤ tr.hi) {R : ℝ} (hR : 1 ≤ R) {e : Nat → ℝ} (he : ∀ i, i < 3 → 0 < e i) :
    (∀ i, i < 3 → tr.lo ≤ compress tr R e i ∧ compress tr R e i ≤ tr.hi) ∧
    ∀ i, i < 3 → ∀ j, j < 3 → compress tr R e i ≤ R * compress tr R e j := by
  have hs : 0 < √R := Real.sqrt_pos.2 (by linarith)
  have hss : √R * √R = R := Real.mul_self_sqrt (by linarith)
  have hg : 0 < (e 0 * e 1 * e 2) ^ (1 / 3 : ℝ) := Real.rpow_pos_of_pos (mul_pos (mul_pos (he 0 (by omega)) (he 1 (by omega))) (he 2 (by omega))) _
  obtain ⟨g, hge⟩ : ∃ g, g = (e 0 * e 1 * e 2) ^ (1 / 3 : ℝ) := ⟨_, rfl⟩
  rw [← hge] at hg
  obtain ⟨y, hy⟩ : ∃ y : Nat → ℝ, y = fun i => g * min (√R) (max (1 / √R) (e i / g)) := ⟨_, rfl⟩
  have hc : ∀ i, i < 3 → compress tr R e i = min tr.hi (max tr.lo (y i)) := by
    intro i hi
    unfold compress
    rw [map3 (fun v => min tr.hi (max tr.lo v)) _ hi, map3 (fun v => _ * min (√R) (max (1 / √R) (v / _))) _ hi, hy, hge]
  have hle : 1 / √R ≤ √R := by
    rw [div_le_iff₀ hs, hss]
    exact hR
  have hy1 : ∀ i, g * (1 / √R) ≤ y i := fun i => by
    rw [hy]
    exact mul_le_mul_of_nonneg_left (le_min hle (le_max_left _ _)) hg.le
  have hy2 : ∀ i, y i ≤ g * √R := fun i => by
    rw [hy]
    exact mul_le_mul_of_nonneg_left (min_le_left _ _) hg.le
  have hy3 : ∀ i j, y i ≤ R * y j := fun i j => by
    refine (hy2 i).trans (le_trans (le_of_eq ?_) (mul_le_mul_of_nonneg_left (hy1 j) (by linarith : (0 : ℝ) ≤ R)))
    have : R * (g * (1 / √R)) = g * (√R * √R) / √R := by rw [hss]; ring
    rw [this, mul_div_assoc, mul_div_assoc, div_self hs.ne', mul_one]
  refine ⟨fun i hi => ?_, fun i hi j hj => ?_⟩
  · rw [hc i hi]
    exact ⟨le_min h (le_max_left _ _), min_le_left _ _⟩
  · rw [hc i hi, hc j hj]
    rcases le_total tr.hi (max tr.lo (y j)) with h1 | h1
    · rw [min_eq_left h1]
      refine (min_le_left _ _).trans ?_
      nlinarith
    · rw [min_eq_right h1]
      refine (min_le_right _ _).trans (max_le ?_ ?_)
      · have := le_max_left tr.lo (y j)
        nlinarith
      · exact (hy3 i j).trans (mul_le_mul_of_nonneg_left (le_max_right _ _) (by linarith))

/-- what the clamping leaves -/
theorem clampEvals_facts {tr : Traits} (h0 : kEps < tr.lo) (h : tr.lo ≤ tr.hi) {s : Spectrum} (ho : Orthonormal 3 3 s.Q) :
    Orthonormal 3 3 (clampEvals tr s).Q ∧ Asc (clampEvals tr s).eval ∧
    (∀ i, i < 3 → tr.lo ≤ (clampEvals tr s).eval i ∧ (clampEvals tr s).eval i ≤ tr.hi) ∧
    ∀ i, i < 3 → ∀ j, j < 3 → (clampEvals tr s).eval i ≤ max tr.rel 1 * (clampEvals tr s).eval j := by
  have hk := kEps_pos
  have hR : (1 : ℝ) ≤ max tr.rel 1 := le_max_right _ _
  unfold clampEvals
  simp only []
  obtain ⟨h1, h2⟩ := sortAsc_spec (loop 0 3 (fun i e => wr e i (clampAbs tr (e i))) s.eval, s.Q)
  generalize hx : sortAsc (loop 0 3 (fun i e => wr e i (clampAbs tr (e i))) s.eval, s.Q) = x at h1 h2
  have hb : ∀ i, i < 3 → tr.lo ≤ x.1 i ∧ x.1 i ≤ tr.hi := h1.all (P := fun v => tr.lo ≤ v ∧ v ≤ tr.hi) fun i hi => by
    have e := map3 (clampAbs tr) s.eval hi
    have := clampAbs_mem h (s.eval i)
    rw [← e] at this
    exact this
  have hxo := h1.orth ho
  split
  · rename_i hc
    obtain ⟨g1, g2⟩ := sortAsc_spec (compress tr (max tr.rel 1) x.1, x.2)
    obtain ⟨c1, c2⟩ := compress_mem (hk.trans h0) h hR (e := x.1) fun i hi => (hk.trans h0).trans_le (hb i hi).1
    refine ⟨g1.orth hxo, g2, g1.all (P := fun v => tr.lo ≤ v ∧ v ≤ tr.hi) c1, ?_⟩
    have := g1.all (P := fun v => ∀ j, j < 3 → v ≤ max tr.rel 1 * compress tr (max tr.rel 1) x.1 j) c2
    exact fun i hi => g1.all (P := fun w => (sortAsc (compress tr (max tr.rel 1) x.1, x.2)).1 i ≤ max tr.rel 1 * w) (this i hi)
  · rename_i hc
    refine ⟨hxo, h2, hb, ?_⟩
    have hp : 0 < x.1 0 := (hk.trans h0).trans_le (hb 0 (by omega)).1
    have hr : x.1 2 ≤ max tr.rel 1 * x.1 0 := by
      by_contra hcon
      exact hc ⟨h0.trans_le (hb 0 (by omega)).1, by rw [gt_iff_lt, lt_div_iff₀ hp]; linarith⟩
    intro i hi j hj
    have h3 : x.1 i ≤ x.1 2 := by
      obtain ⟨a, b⟩ := h2
      interval_cases i <;> linarith
    have h4 : x.1 0 ≤ x.1 j := by
      obtain ⟨a, b⟩ := h2
      interval_cases j <;> linarith
    exact h3.trans (hr.trans (mul_le_mul_of_nonneg_left h4 (by linarith)))

/-! ## The six numbers -/

theorem toDense_toVoigt {A : Nat → ℝ} {i j : Nat} (hi : i < 3) (hj : j < 3) : ent 3 (toDense (toVoigt A)) i j = symPart A i j := by
  interval_cases i <;> interval_cases j <;> simp [ent, toDense, toVoigt, symPart] <;> ring

end Verif.Metric
