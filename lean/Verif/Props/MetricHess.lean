import Verif.Model.MetricHess
import Verif.Lemmas.Diverge2
import Verif.Props.Metric3
import Verif.Props.Driver3

/-!
**C64**: the Hessian of a cell, computed from integrals over its sides, is the mean over the cell of the second derivatives.
-/
namespace Verif.Metric

open Verif.Dense Finset Verif.Driver Verif.Spaces Verif.Order Verif.Diverge

theorem fv_eq {face t : Nat} (hf : face < 4) (ht : t < 4) : fv face t = (face + t) % 4 := by
  interval_cases face <;> interval_cases t <;> rfl

theorem sideVec_eq (nfa : Nat) (A v2 : Nat → ℝ) {j : Nat} (hj : j < 3) : sideVec nfa A v2 j = ∑ k ∈ range nfa, A (j + 3 * k) * v2 k := by
  unfold sideVec
  rw [loop_add_at nfa (fun k => A (j + 3 * k) * v2 k), zero_add]
  intro k t
  interval_cases j <;> simp [wr, Function.update]

theorem addOuter_eq (n I H : Nat → ℝ) {i j : Nat} (hi : i < 3) (hj : j < 3) : addOuter n I H (i + 3 * j) = H (i + 3 * j) + n i * I j := by
  unfold addOuter
  simp only [loop3]
  interval_cases i <;> interval_cases j <;> simp [wr, Function.update]

/-- the sum over the sides before the scaling -/
theorem sidesSum_eq (T : Nat → Nat → ℝ) (A : Nat → Nat → ℝ) (nfa : Nat) (v2 : Nat → ℝ) {i j : Nat} (hi : i < 3) (hj : j < 3) :
    sidesSum T A nfa v2 (i + 3 * j) = ∑ f ∈ range 4, (Geometry.faceNormal Real.sqrt (T f) (T ((f + 1) % 4)) (T ((f + 2) % 4)) (T ((f + 3) % 4))).2 i *
      ∑ k ∈ range nfa, A f (j + 3 * k) * v2 k := by
  have : sidesSum T A nfa v2 = addOuter (Geometry.faceNormal Real.sqrt (T 3) (T 0) (T 1) (T 2)).2 (sideVec nfa (A 3) v2)
      (addOuter (Geometry.faceNormal Real.sqrt (T 2) (T 3) (T 0) (T 1)).2 (sideVec nfa (A 2) v2)
      (addOuter (Geometry.faceNormal Real.sqrt (T 1) (T 2) (T 3) (T 0)).2 (sideVec nfa (A 1) v2)
      (addOuter (Geometry.faceNormal Real.sqrt (T 0) (T 1) (T 2) (T 3)).2 (sideVec nfa (A 0) v2) fun _ => 0))) := rfl
  rw [this, addOuter_eq _ _ _ hi hj, addOuter_eq _ _ _ hi hj, addOuter_eq _ _ _ hi hj, addOuter_eq _ _ _ hi hj, sideVec_eq _ _ _ hj, sideVec_eq _ _ _ hj,
    sideVec_eq _ _ _ hj, sideVec_eq _ _ _ hj]
  simp only [sum_range_succ (n := 3), sum_range_succ (n := 2), sum_range_succ (n := 1), sum_range_succ (n := 0), range_zero, sum_empty,
    Nat.reduceAdd, Nat.reduceMod]

/-- the normals which the code computes -/
theorem normals {T : Nat → Nat → ℝ} (hv : Nondeg T) {f : Nat} (hf : f < 4) :
    IsNormal (Geometry.faceNormal Real.sqrt (T f) (T ((f + 1) % 4)) (T ((f + 2) % 4)) (T ((f + 3) % 4))).2 (T f) (T ((f + 1) % 4)) (T ((f + 2) % 4))
      (T ((f + 3) % 4)) := by
  have hvf : Geometry.vol6 (T f) (T ((f + 1) % 4)) (T ((f + 2) % 4)) (T ((f + 3) % 4)) ≠ 0 := by
    rw [vol6_cyc T hf]
    exact mul_ne_zero (by split_ifs <;> norm_num) hv
  obtain ⟨h1, h2, h3, h4, -⟩ := Geometry.faceNormal_correct (sqrt := Real.sqrt) (fun _ hx => ⟨Real.sqrt_nonneg _, Real.mul_self_sqrt hx⟩) _ _ _ _ hvf
  exact ⟨h1, h2, h3, h4⟩

theorem normal_le {ν p0 p1 p2 p3 : Nat → ℝ} (h : IsNormal ν p0 p1 p2 p3) {i : Nat} (hi : i < 3) : |ν i| ≤ 1 := by
  have h3 := h.2.2.1
  unfold Geometry.dot at h3
  rw [← sq_le_one_iff_abs_le_one]
  interval_cases i <;> nlinarith [sq_nonneg (ν 0), sq_nonneg (ν 1), sq_nonneg (ν 2)]

/-- The basis functions of the cell with their first and second derivatives. -/
structure Twice (nfa n : Nat) (φ : Nat → (Nat → ℝ) → ℝ) (d : Nat → Nat → (Nat → ℝ) → ℝ) (dd : Nat → Nat → Nat → (Nat → ℝ) → ℝ) : Prop where
  poly : ∀ k, k < nfa → PolyLE n (φ k)
  first : ∀ k, k < nfa → ∀ j, j < 3 → ∀ x, HasPartial (φ k) x j (d k j x)
  second : ∀ k, k < nfa → ∀ j, j < 3 → ∀ i, i < 3 → ∀ x, HasPartial (d k j) x i (dd k i j x)

section
variable {T : Nat → Nat → ℝ} {nfa n : Nat} {φ : Nat → (Nat → ℝ) → ℝ} {d : Nat → Nat → (Nat → ℝ) → ℝ} {dd : Nat → Nat → Nat → (Nat → ℝ) → ℝ}

/-- The mean over the cell of the second derivative of `∑ v k * φ k`. -/
noncomputable def meanSecond (T : Nat → Nat → ℝ) (nfa : Nat) (dd : Nat → Nat → Nat → (Nat → ℝ) → ℝ) (v : Nat → ℝ) (i j : Nat) : ℝ :=
  overTet T (fun y => ∑ k ∈ range nfa, v k * dd k i j y) / volume T

/-- **C64**: when the matrices of the sides hold the integrals of the gradients of the basis functions with the errors at most `e`, the result is the
mean over the cell of the second derivatives of the function with the coefficients `v`, with the error of a half of the sum of `|v k| (e f k i + e f k j)`
over the volume. -/
theorem hessian_near (hv : Nondeg T) (S : Twice nfa n φ d dd) {A : Nat → Nat → ℝ} {a : Nat → ℝ} {e : Nat → Nat → Nat → ℝ}
    (ha : ∀ f, f < 4 → IsArea (a f) (T f) (T ((f + 1) % 4)) (T ((f + 2) % 4)))
    (hA : ∀ f, f < 4 → ∀ k, k < nfa → ∀ j, j < 3 → |A f (j + 3 * k) - overTri (a f) (T f) (T ((f + 1) % 4)) (T ((f + 2) % 4)) (d k j)| ≤ e f k j)
    (v : Nat → ℝ) {i j : Nat} (hi : i < 3) (hj : j < 3) :
    |ent 3 (hessian T A nfa (volume T) v) i j - meanSecond T nfa dd v i j| ≤
      (∑ f ∈ range 4, ∑ k ∈ range nfa, |v k| * (e f k i + e f k j)) / (2 * volume T) := by
  have hV : 0 < volume T := div_pos (abs_pos.2 hv) (by norm_num)
  -- the entries before the symmetrization
  have one : ∀ {i j : Nat}, i < 3 → j < 3 → |sidesSum T A nfa v (i + 3 * j) - overTet T (fun y => ∑ k ∈ range nfa, v k * dd k i j y)| ≤
      ∑ f ∈ range 4, ∑ k ∈ range nfa, |v k| * e f k j := by
    intro i j hi hj
    have hd : ∀ k, k < nfa → PolyLE (n - 1) (d k j) := fun k hk => (S.poly k hk).der hj (S.first k hk j hj)
    have hdiv : ∀ k ∈ range nfa, ∑ f ∈ range 4, (Geometry.faceNormal Real.sqrt (T f) (T ((f + 1) % 4)) (T ((f + 2) % 4)) (T ((f + 3) % 4))).2 i *
        overTri (a f) (T f) (T ((f + 1) % 4)) (T ((f + 2) % 4)) (d k j) = overTet T (dd k i j) := fun k hk => by
      have hk := mem_range.1 hk
      exact divergence (ν := fun f => (Geometry.faceNormal Real.sqrt (T f) (T ((f + 1) % 4)) (T ((f + 2) % 4)) (T ((f + 3) % 4))).2) hv (hd k hk) hi
        (S.second k hk j hj i hi) ha fun f hf => normals hv hf
    rw [sidesSum_eq T A nfa v hi hj, overTet_sum T nfa v fun k hk => (hd k hk).der hi (S.second k hk j hj i hi)]
    have : ∑ k ∈ range nfa, v k * overTet T (dd k i j) = ∑ f ∈ range 4,
        (Geometry.faceNormal Real.sqrt (T f) (T ((f + 1) % 4)) (T ((f + 2) % 4)) (T ((f + 3) % 4))).2 i *
        ∑ k ∈ range nfa, overTri (a f) (T f) (T ((f + 1) % 4)) (T ((f + 2) % 4)) (d k j) * v k := by
      rw [sum_congr rfl fun k hk => by rw [← hdiv k hk]]
      simp only [mul_sum]
      rw [sum_comm]
      exact sum_congr rfl fun f _ => sum_congr rfl fun k _ => by ring
    rw [this, ← sum_sub_distrib]
    refine (abs_sum_le_sum_abs _ _).trans (sum_le_sum fun f hf => ?_)
    have hf := mem_range.1 hf
    rw [← mul_sub, ← sum_sub_distrib, abs_mul]
    refine (mul_le_of_le_one_left (abs_nonneg _) (normal_le (normals hv hf) hi)).trans ((abs_sum_le_sum_abs _ _).trans (sum_le_sum fun k hk => ?_))
    rw [← sub_mul, abs_mul, mul_comm]
    exact mul_le_mul_of_nonneg_left (hA f hf k (mem_range.1 hk) j hj) (abs_nonneg _)
  -- the mixed derivatives
  have hmix : overTet T (fun y => ∑ k ∈ range nfa, v k * dd k j i y) = overTet T (fun y => ∑ k ∈ range nfa, v k * dd k i j y) := by
    congr 1
    funext y
    refine sum_congr rfl fun k hk => ?_
    have hk := mem_range.1 hk
    rw [mixed (S.poly k hk) hj hi (S.first k hk i hi) (S.second k hk i hi j hj) (S.first k hk j hj) (S.second k hk j hj i hi)]
  have h1 := one hi hj
  have h2 := one hj hi
  rw [hmix] at h2
  unfold hessian meanSecond
  rw [if_neg (not_not.2 hV), symmetrize_ent _ hi hj, symPart, scaleM_ent _ _ hi hj, scaleM_ent _ _ hj hi, ent, ent, mul_comm j 3, mul_comm i 3]
  generalize overTet T (fun y => ∑ k ∈ range nfa, v k * dd k i j y) = I at *
  generalize sidesSum T A nfa v (i + 3 * j) = p at *
  generalize sidesSum T A nfa v (j + 3 * i) = q at *
  have e1 : (p * (1 / volume T) + q * (1 / volume T)) / 2 - I / volume T = ((p - I) + (q - I)) / (2 * volume T) := by field_simp; ring
  rw [e1, abs_div, abs_of_pos (by positivity : 0 < 2 * volume T)]
  refine div_le_div_of_nonneg_right ((abs_add_le _ _).trans ((add_le_add h1 h2).trans (le_of_eq ?_))) (by positivity)
  rw [← sum_add_distrib]
  refine sum_congr rfl fun f _ => ?_
  rw [← sum_add_distrib]
  exact sum_congr rfl fun k _ => by ring

/-- **C64**: with exact matrices of the sides the result is exactly the mean of the second derivatives. -/
theorem hessian_exact (hv : Nondeg T) (S : Twice nfa n φ d dd) {A : Nat → Nat → ℝ} {a : Nat → ℝ}
    (ha : ∀ f, f < 4 → IsArea (a f) (T f) (T ((f + 1) % 4)) (T ((f + 2) % 4)))
    (hA : ∀ f, f < 4 → ∀ k, k < nfa → ∀ j, j < 3 → A f (j + 3 * k) = overTri (a f) (T f) (T ((f + 1) % 4)) (T ((f + 2) % 4)) (d k j))
    (v : Nat → ℝ) {i j : Nat} (hi : i < 3) (hj : j < 3) : ent 3 (hessian T A nfa (volume T) v) i j = meanSecond T nfa dd v i j := by
  have h := hessian_near (A := A) hv S (e := fun _ _ _ => 0) ha (fun f hf k hk j hj => by rw [hA f hf k hk j hj, sub_self, abs_zero]) v hi hj
  simp only [add_zero, mul_zero, sum_const_zero, zero_div] at h
  exact sub_eq_zero.1 (abs_eq_zero.1 (le_antisymm h (abs_nonneg _)))

/-- **C64**: the result for a function whose second derivatives are constant, in particular for the functions of degree one it is zero. -/
theorem hessian_constant (hv : Nondeg T) (S : Twice nfa n φ d dd) {A : Nat → Nat → ℝ} {a : Nat → ℝ}
    (ha : ∀ f, f < 4 → IsArea (a f) (T f) (T ((f + 1) % 4)) (T ((f + 2) % 4)))
    (hA : ∀ f, f < 4 → ∀ k, k < nfa → ∀ j, j < 3 → A f (j + 3 * k) = overTri (a f) (T f) (T ((f + 1) % 4)) (T ((f + 2) % 4)) (d k j))
    (v : Nat → ℝ) {i j : Nat} (hi : i < 3) (hj : j < 3) {c : ℝ} (hc : ∀ y, ∑ k ∈ range nfa, v k * dd k i j y = c) :
    ent 3 (hessian T A nfa (volume T) v) i j = c := by
  have hV : 0 < volume T := div_pos (abs_pos.2 hv) (by norm_num)
  rw [hessian_exact hv S ha hA v hi hj, meanSecond, funext hc, overTet_const, mul_div_cancel_right₀ _ hV.ne']

/-- **C64**: a cell with a volume that is not positive gets a zero matrix; every result is symmetric. -/
theorem hessian_zero (A : Nat → Nat → ℝ) {vol : ℝ} (h : ¬ 0 < vol) (v : Nat → ℝ) : hessian T A nfa vol v = fun _ => 0 := by
  unfold hessian
  rw [if_pos h]

theorem hessian_symm (A : Nat → Nat → ℝ) (vol : ℝ) (v : Nat → ℝ) : Symm 3 (hessian T A nfa vol v) := by
  unfold hessian
  split_ifs
  · exact symmetrize_symm _
  · intro i _ j _
    rfl

/-! ### The matrix of the heuristics -/

theorem scaleB_eq {vol : ℝ} (h : 0 < vol) (B : Nat → ℝ) {i j : Nat} (hi : i < nfa) (hj : j < nfa) : ent nfa (scaleB nfa vol B) i j = ent nfa B i j / vol := by
  unfold scaleB ent
  rw [if_pos h, div_eq_mul_one_div (B _) vol]
  have hl : i + j * nfa < nfa * nfa := by nlinarith
  exact loop_at (f := fun i B => wr B i (B i * (1 / vol))) (s := B) (fun x => x * (1 / vol)) (Nat.zero_le _) hl (fun t => wr_same _ _ _)
    fun k t _ _ h => wr_ne _ _ (Ne.symm h)

/-- **C64**: when the matrix of `fem3Dtet` holds the integrals of the products of the gradients, the number that is split among the coefficients (C63) is
the mean over the cell of the square of the gradient of the function with the coefficients `v`; so the parts are not negative and have this sum. -/
theorem alpha_mean (hv : Nondeg T) (S : Twice nfa n φ d dd) {B : Nat → ℝ}
    (hB : ∀ i, i < nfa → ∀ j, j < nfa → ent nfa B j i = overTet T fun y => ∑ c ∈ range 3, d i c y * d j c y) (v alpha : Nat → ℝ) :
    ∑ k ∈ range nfa, fillAlpha true (scaleB nfa (volume T) B) v nfa (sumAbs nfa v) alpha k =
      overTet T (fun y => ∑ c ∈ range 3, (∑ k ∈ range nfa, v k * d k c y) ^ 2) / volume T := by
  have hV : 0 < volume T := div_pos (abs_pos.2 hv) (by norm_num)
  have hd : ∀ k, k < nfa → ∀ c, c < 3 → PolyLE (n - 1) (d k c) := fun k hk c hc => (S.poly k hk).der hc (S.first k hk c hc)
  rw [(fillAlpha_split _ v nfa alpha).2.2]
  have e : (fun y => ∑ c ∈ range 3, (∑ k ∈ range nfa, v k * d k c y) ^ 2) =
      fun y => ∑ i ∈ range nfa, v i * ∑ j ∈ range nfa, v j * ∑ c ∈ range 3, d j c y * d i c y := by
    funext y
    simp only [sq, mul_sum, sum_mul]
    rw [sum_comm]
    refine sum_congr rfl fun i _ => ?_
    rw [sum_comm]
    exact sum_congr rfl fun j _ => sum_congr rfl fun c _ => by ring
  have hp : ∀ i, i < nfa → ∀ j, j < nfa → PolyLE (n - 1 + (n - 1)) fun y => ∑ c ∈ range 3, d j c y * d i c y := fun i hi j hj =>
    polySum 3 fun c hc => (hd j hj c hc).mul (hd i hi c hc)
  have hI : overTet T (fun y => ∑ c ∈ range 3, (∑ k ∈ range nfa, v k * d k c y) ^ 2) = ∑ i ∈ range nfa, ∑ j ∈ range nfa, v i * ent nfa B i j * v j := by
    rw [e, overTet_sum T nfa v (m := n - 1 + (n - 1)) fun i hi => polySum nfa fun j hj => (hp i hi j hj).smul (v j)]
    refine sum_congr rfl fun i hi => ?_
    have hi := mem_range.1 hi
    rw [overTet_sum T nfa v fun j hj => hp i hi j hj, mul_sum]
    refine sum_congr rfl fun j hj => ?_
    rw [hB j (mem_range.1 hj) i hi]
    ring
  have h0 : 0 ≤ overTet T (fun y => ∑ c ∈ range 3, (∑ k ∈ range nfa, v k * d k c y) ^ 2) := overTet_nonneg T fun y => sum_nonneg fun c _ => sq_nonneg _
  have : ∑ i ∈ range nfa, ∑ j ∈ range nfa, v i * ent nfa (scaleB nfa (volume T) B) i j * v j =
      overTet T (fun y => ∑ c ∈ range 3, (∑ k ∈ range nfa, v k * d k c y) ^ 2) / volume T := by
    rw [hI, sum_div]
    refine sum_congr rfl fun i hi => ?_
    rw [sum_div]
    refine sum_congr rfl fun j hj => ?_
    rw [scaleB_eq hV B (mem_range.1 hi) (mem_range.1 hj)]
    ring
  rw [this, abs_of_nonneg (div_nonneg h0 hV.le)]

/-! ### With the matrices of the drivers -/

/-- the functions of the test space are the unit vectors -/
theorem unit_vectors {ψ : Field} {j : Nat} (hj : j < 3) (h : SpaceOp.Nth T (.vec 3 (.leaf .p0)) j ψ) (x : Nat → ℝ) {k : Nat} (hk : k < 3) :
    ψ x k = if k = j then 1 else 0 := by
  simp only [SpaceOp.Nth, SpaceOp.nfa, dim] at h
  obtain ⟨t, η, ht, hη, c, hc, e, hx⟩ := h
  have ht0 : t = 0 := by
    have : t < 1 := ht
    omega
  subst ht0
  have hcj : j = c := by
    have : j = 1 * c + 0 := e
    omega
  subst hcj
  have hx := hx x k (by show k < 3 * 1; omega)
  rw [hx]
  obtain ⟨m, U, s, n, hs, hn, -, -, hk⟩ := hη x
  have h1 := hk 0 (by omega)
  rw [place1, p0Iden_at _ _ hs hn] at h1
  show (if k / 1 = j then η x (k % 1) else 0) = _
  rw [Nat.div_one, Nat.mod_one, h1]

/-- the bilinear form of the sides is the derivative of the basis function -/
theorem side_form {F : Fem} (hF : dim F = 1) {φ ψ : Nat → Nat → Field} {α β : Nat → Nat → Nat → (Nat → ℝ) → ℝ}
    (S : Setting 1 (fun _ => T) .grad .iden F (.vec 3 (.leaf .p0)) φ ψ α β) {k j : Nat} (hj : j < 3) :
    form (opDim .grad (dim F)) (opDim .iden (dim (.vec 3 (.leaf .p0))))
      (tensorAt (opDim .iden (dim (.vec 3 (.leaf .p0)))) (opDim .grad (dim F)) (fun _ _ => (.null, fun _ => 0)) 0) (α 0 k) (β 0 j) =
      α 0 k j := by
  have hd : opDim .iden (dim (.vec 3 (.leaf .p0))) = 3 := by simp only [dim]; rfl
  have hd' : opDim .grad (dim F) = 3 := by rw [hF]; rfl
  have hn : SpaceOp.nfa (.vec 3 (.leaf .p0)) = 3 := by simp only [SpaceOp.nfa]; rfl
  rw [hd, hd']
  funext y
  have hβ : ∀ l, l < 3 → β 0 j l y = if l = j then 1 else 0 := fun l hl => by
    have h := S.entryB 0 Nat.one_pos j (by omega) l (by omega) y
    have h : β 0 j l y = ψ 0 j y l := h
    rw [h, unit_vectors hj (S.basisB 0 Nat.one_pos j (by omega)) y hl]
  unfold form tensorAt Elemental.tensor
  simp only [if_true]
  rw [sum_congr rfl fun l hl => by rw [hβ l (mem_range.1 hl)]]
  simp only [sum_range_succ, range_zero, sum_empty, zero_add]
  interval_cases j <;> simp

/-- **C64**: the matrices which the driver `fem3Dface` computes with a formula of sufficient order give the mean of the second derivatives, up to the accuracy
of the tables (10⁻⁴⁸ of the area of the sides and of the coefficients of the first derivatives). -/
theorem hessian_driver_partial {F : Fem} (hF : dim F = 1) {φ ψ : Nat → Nat → Field} {α β : Nat → Nat → Nat → (Nat → ℝ) → ℝ}
    (S : Setting 1 (fun _ => T) .grad .iden F (.vec 3 (.leaf .p0)) φ ψ α β) {tr : Elemental.Traits}
    (D : Tensor false 3 3 (SpaceOp.nfa F) 1 tr (fun _ _ => (.null, fun _ => 0)))
    (hdd : ∀ k, k < SpaceOp.nfa F → ∀ j, j < 3 → ∀ i, i < 3 → ∀ x, HasPartial (α 0 k j) x i (dd k i j x))
    {order : Int} (h0 : 0 ≤ order) (h1 : order ≤ 20) (hm : degree .grad F ≤ order.toNat) (arr : Arr ℝ) :
    ∃ Fm, Quad.triangle order = some Fm ∧ ∃ (a : Nat → ℝ) (P : Nat → MvPolynomial (Fin 3) ℝ),
      (∀ f, f < 4 → IsArea (a f) (T f) (T ((f + 1) % 4)) (T ((f + 2) % 4))) ∧
      (∀ k, k < SpaceOp.nfa F → ∀ y : Nat → ℝ, φ 0 k y 0 = MvPolynomial.eval (fun i : Fin 3 => y i) (P k)) ∧
      ∀ E : Nat → Nat → ℝ, (∀ f, f < 4 → Output (setFace Real.sqrt (Rule.of Fm) f 1 (fun _ => T) arr) false .grad .iden F (.vec 3 (.leaf .p0)) tr
        (fun _ _ => (.null, fun _ => 0)) (E f)) →
      ∀ (v : Nat → ℝ) (i j : Fin 3), |ent 3 (hessian T E (SpaceOp.nfa F) (volume T) v) i j - meanSecond T (SpaceOp.nfa F) dd v i j| ≤
        (∑ f ∈ range 4, ∑ k ∈ range (SpaceOp.nfa F), |v k| *
          (1 / 10 ^ 48 * a f * Quad.size (MvPolynomial.bind₁ (bary 2 fun t => T ((f + t) % 4)) (MvPolynomial.pderiv i (P k))) +
           1 / 10 ^ 48 * a f * Quad.size (MvPolynomial.bind₁ (bary 2 fun t => T ((f + t) % 4)) (MvPolynomial.pderiv j (P k))))) / (2 * volume T) := by
  have hv : Nondeg T := S.nondeg 0 Nat.one_pos
  have hd : opDim .iden (dim (.vec 3 (.leaf .p0))) = 3 := by simp only [dim]; rfl
  have hd' : opDim .grad (dim F) = 3 := by rw [hF]; rfl
  have hn : SpaceOp.nfa (.vec 3 (.leaf .p0)) = 3 := by simp only [SpaceOp.nfa]; rfl
  have D' : Tensor false (opDim .iden (dim (.vec 3 (.leaf .p0)))) (opDim .grad (dim F)) (SpaceOp.nfa F) 1 tr
    (fun _ _ => (.null, fun _ => 0)) := by rw [hd, hd']; exact D
  have hdeg : degree .iden (.vec 3 (.leaf .p0)) + (0 + degree .grad F) ≤ order.toNat := by
    have : degree .iden (.vec 3 (.leaf .p0)) = 0 := by simp [degree, rtIden, idenOrder]
    omega
  have hpoly : ∀ k, ∃ P : MvPolynomial (Fin 3) ℝ, k < SpaceOp.nfa F → P.totalDegree ≤ rtIden F ∧
      ∀ y : Nat → ℝ, φ 0 k y 0 = MvPolynomial.eval (fun i : Fin 3 => y i) P := fun k => by
    by_cases hk : k < SpaceOp.nfa F
    · obtain ⟨P, h⟩ := nth_poly hv F S.spaceA k hk _ (S.basisA 0 Nat.one_pos k hk) 0 (by omega)
      exact ⟨P, fun _ => h⟩
    · exact ⟨0, fun h => absurd h hk⟩
  choose P hP using hpoly
  have hα : ∀ k, k < SpaceOp.nfa F → ∀ j, j < 3 → ∀ x, HasPartial (fun y => φ 0 k y 0) x j (α 0 k j x) := fun k hk j hj x => by
    have h := S.entryA 0 Nat.one_pos k hk j (by omega) x
    have h : HasPartial (fun y => φ 0 k y (j / 3)) x (j % 3) (α 0 k j x) := h
    rwa [Nat.div_eq_of_lt hj, Nat.mod_eq_of_lt hj] at h
  obtain ⟨Fm, hFm, -⟩ := fem3Dface_exact_partial (fn := fun _ _ => (.null, fun _ => 0)) S D' h0 h1 nofun nofun (δ := 0) (fun r _ k _ l _ => PolyLE.const 0 _) hdeg (face := 0) (by omega) arr
  have hall : ∀ f, ∃ a : ℝ, f < 4 → IsArea a (T f) (T ((f + 1) % 4)) (T ((f + 2) % 4)) ∧
      ∀ E', Output (setFace Real.sqrt (Rule.of Fm) f 1 (fun _ => T) arr) false .grad .iden F (.vec 3 (.leaf .p0)) tr (fun _ _ => (.null, fun _ => 0)) E' →
      ∀ k, k < SpaceOp.nfa F → ∀ j, j < 3 → Near 2 order.toNat a (fun v => T ((f + v) % 4)) (α 0 k j) (E' (j + 3 * k))
          (overTri a (T f) (T ((f + 1) % 4)) (T ((f + 2) % 4)) (α 0 k j)) := fun f => by
    by_cases hf : f < 4
    · obtain ⟨Fm', h2, a, ha, h3⟩ := fem3Dface_exact_partial (fn := fun _ _ => (.null, fun _ => 0)) S D' h0 h1 nofun nofun (δ := 0) (fun r _ k _ l _ => PolyLE.const 0 _) hdeg (face := f) hf arr
      rw [hFm, Option.some.injEq] at h2
      subst h2
      refine ⟨a 0, fun _ => ⟨ha 0 Nat.one_pos, fun E' O k hk j hj => ?_⟩⟩
      have h4 := h3 E' O 0 Nat.one_pos k hk j (by omega)
      simp only [hn, Nat.mul_zero, Nat.add_zero] at h4
      rw [side_form hF S hj] at h4
      exact h4
    · exact ⟨0, fun h => absurd h hf⟩
  choose a ha using hall
  refine ⟨Fm, hFm, a, P, fun f hf => (ha f hf).1, fun k hk => (hP k hk).2, fun E O v i j => ?_⟩
  have St : Twice (SpaceOp.nfa F) (rtIden F) (fun k y => φ 0 k y 0) (α 0) dd := ⟨fun k hk => ⟨P k, hP k hk⟩, hα, hdd⟩
  have hder : ∀ k, k < SpaceOp.nfa F → ∀ (j : Nat) (hj : j < 3) (y : Nat → ℝ), α 0 k j y =
      MvPolynomial.eval (fun i : Fin 3 => y i) (MvPolynomial.pderiv ⟨j, hj⟩ (P k)) := fun k hk j hj y => partial_eq (hP k hk).2 hj (hα k hk j hj) y
  refine (hessian_near hv St (A := E) (a := a) (e := fun f k c => if h : c < 3 then
      1 / 10 ^ 48 * a f * Quad.size (MvPolynomial.bind₁ (bary 2 fun t => T ((f + t) % 4)) (MvPolynomial.pderiv ⟨c, h⟩ (P k))) else 0)
    (fun f hf => (ha f hf).1) (fun f hf k hk c hc => ?_) v i.2 j.2).trans (le_of_eq ?_)
  · rw [dif_pos hc]
    obtain ⟨Q, -, hQ, hb⟩ := (ha f hf).2 (E f) (O f hf) k hk c hc
    have : Q = MvPolynomial.pderiv ⟨c, hc⟩ (P k) := by
      refine MvPolynomial.funext fun x => ?_
      have e1 := hQ fun t => if h : t < 3 then x ⟨t, h⟩ else 0
      have e2 := hder k hk c hc fun t => if h : t < 3 then x ⟨t, h⟩ else 0
      simpa using e1.symm.trans e2
    rw [← this]
    exact hb
  · simp only [Fin.is_lt, dif_pos]

end

section Examples

/-- the functions `y 0 * y 1` and `y 2 * y 2` with their derivatives -/
theorem sample_twice : Twice 2 2 (fun k y => if k = 0 then y 0 * y 1 else y 2 * y 2)
    (fun k j y => if k = 0 then (if j = 0 then y 1 else if j = 1 then y 0 else 0) else (if j = 2 then 2 * y 2 else 0))
    (fun k i j _ => if k = 0 then (if i = 0 ∧ j = 1 ∨ i = 1 ∧ j = 0 then 1 else 0) else (if i = 2 ∧ j = 2 then 2 else 0)) where
  poly k hk := by
    interval_cases k
    · simpa using (PolyLE.coord (k := 0) (by omega)).mul (PolyLE.coord (k := 1) (by omega))
    · simpa using (PolyLE.coord (k := 2) (by omega)).mul (PolyLE.coord (k := 2) (by omega))
  first k hk j hj x := by
    unfold HasPartial
    have lin : ∀ c : Nat, HasDerivAt (fun t : ℝ => x c + t * if c = j then 1 else 0) (if c = j then 1 else 0) 0 := fun c => by
      simpa using ((hasDerivAt_id (0 : ℝ)).mul_const (if c = j then (1 : ℝ) else 0)).const_add (x c)
    interval_cases k <;> interval_cases j
    · simpa using (lin 0).fun_mul (lin 1)
    · simpa using (lin 0).fun_mul (lin 1)
    · simpa using (lin 0).fun_mul (lin 1)
    · simpa using (lin 2).fun_mul (lin 2)
    · simpa using (lin 2).fun_mul (lin 2)
    · have := (lin 2).fun_mul (lin 2)
      simp only [if_true, one_ne_zero, if_false, mul_one, one_mul, zero_mul, add_zero] at this ⊢
      rwa [two_mul]
  second k hk j hj i hi x := by
    unfold HasPartial
    have lin : ∀ c : Nat, HasDerivAt (fun t : ℝ => x c + t * if c = i then 1 else 0) (if c = i then 1 else 0) 0 := fun c => by
      simpa using ((hasDerivAt_id (0 : ℝ)).mul_const (if c = i then (1 : ℝ) else 0)).const_add (x c)
    interval_cases k <;> interval_cases j <;> interval_cases i <;> simp only [if_true, one_ne_zero, if_false, OfNat.ofNat_ne_zero, OfNat.ofNat_ne_one,
      OfNat.zero_ne_ofNat, OfNat.one_ne_ofNat, zero_ne_one, and_self, and_true, true_and, and_false, false_and, or_self, or_false, false_or] <;>
      first
      | exact hasDerivAt_const _ _
      | simpa using lin 0
      | simpa using lin 1
      | simpa using (lin 2).const_mul 2

-- the function 3 y₀ y₁ + 5 y₂² on a tetrahedron
example (a : Nat → ℝ) (ha : ∀ f, f < 4 → IsArea (a f) (sampleT f) (sampleT ((f + 1) % 4)) (sampleT ((f + 2) % 4))) :
    let A : Nat → Nat → ℝ := fun f p => overTri (a f) (sampleT f) (sampleT ((f + 1) % 4)) (sampleT ((f + 2) % 4))
      (if p / 3 = 0 then (fun y => if p % 3 = 0 then y 1 else if p % 3 = 1 then y 0 else 0) else fun y => if p % 3 = 2 then 2 * y 2 else 0)
    let H := hessian sampleT A 2 (volume sampleT) fun k => if k = 0 then 3 else 5
    ent 3 H 0 1 = 3 ∧ ent 3 H 2 2 = 10 ∧ ent 3 H 0 0 = 0 := by
  intro A H
  have hA : ∀ f, f < 4 → ∀ k, k < 2 → ∀ j, j < 3 → A f (j + 3 * k) = overTri (a f) (sampleT f) (sampleT ((f + 1) % 4)) (sampleT ((f + 2) % 4))
      fun y => if k = 0 then (if j = 0 then y 1 else if j = 1 then y 0 else 0) else (if j = 2 then 2 * y 2 else 0) := fun f _ k hk j hj => by
    simp only [A]
    rw [show (j + 3 * k) / 3 = k by omega, show (j + 3 * k) % 3 = j by omega]
    congr 1
    split_ifs <;> rfl
  have h := fun (i j : Nat) (hi : i < 3) (hj : j < 3) (c : ℝ) => hessian_constant sampleT_nondeg sample_twice ha hA (fun k => if k = 0 then 3 else 5) hi hj (c := c)
  exact ⟨h 0 1 (by omega) (by omega) 3 fun y => by norm_num [sum_range_succ], h 2 2 (by omega) (by omega) 10 fun y => by norm_num [sum_range_succ],
    h 0 0 (by omega) (by omega) 0 fun y => by norm_num [sum_range_succ]⟩

-- the setting of the driver for P2
example (arr : Arr ℝ) : ∃ φ ψ α β, Setting 1 (fun _ => sampleT) .grad .iden (.leaf .p2) (.vec 3 (.leaf .p0)) φ ψ α β ∧
    ∃ dd : Nat → Nat → Nat → (Nat → ℝ) → ℝ, (∀ k, k < 10 → ∀ j, j < 3 → ∀ i, i < 3 → ∀ x, HasPartial (α 0 k j) x i (dd k i j x)) ∧
    ∃ Fm, Quad.triangle 5 = some Fm := by
  have hn : SpaceOp.nfa (.leaf .p2) = 10 := by rw [SpaceOp.nfa]; rfl
  have hd : dim (.leaf .p2) = 1 := by rw [dim]; rfl
  obtain ⟨φ, ψ, α, β, S⟩ := setting_exists (f := 1) (T := fun _ => sampleT) (opa := .grad) (opb := .iden) (F := .leaf .p2) (H := .vec 3 (.leaf .p0))
    nofun nofun (by simp [Wf]) (by simp [Wf]) (by rw [hn]; omega) (by omega) (fun _ _ => sampleT_nondeg) (by simp) (by simp)
  have hdd : ∀ k i j, ∃ e : (Nat → ℝ) → ℝ, k < 10 → j < 3 → i < 3 → ∀ x, HasPartial (α 0 k j) x i (e x) := fun k i j => by
    by_cases h : k < 10 ∧ j < 3 ∧ i < 3
    · have hα : ∀ x, HasPartial (fun y => φ 0 k y 0) x j (α 0 k j x) := fun x => by
        have h1 := S.entryA 0 Nat.one_pos k (by omega) j (by rw [hd]; exact h.2.1) x
        have h1 : HasPartial (fun y => φ 0 k y (j / 3)) x (j % 3) (α 0 k j x) := h1
        rwa [Nat.div_eq_of_lt h.2.1, Nat.mod_eq_of_lt h.2.1] at h1
      have hp := nth_poly sampleT_nondeg (.leaf .p2) (by simp [Wf]) k (by omega) _ (S.basisA 0 Nat.one_pos k (by omega)) 0 (by omega)
      obtain ⟨e, he⟩ := (hp.der h.2.1 hα).hasDer h.2.2
      exact ⟨e, fun _ _ _ => he⟩
    · exact ⟨fun _ => 0, fun h1 h2 h3 => absurd ⟨h1, h2, h3⟩ h⟩
  choose e he using hdd
  refine ⟨φ, ψ, α, β, S, e, fun k hk j hj i hi => he k i j hk hj hi, ?_⟩
  obtain ⟨Fm, h, -⟩ := hessian_driver_partial hd S (tr := .constNull) ⟨nofun, fun _ => by simp [Elemental.Traits.Holds], fun _ _ _ => Or.inl rfl⟩
    (fun k hk j hj i hi => he k i j (by omega) hj hi) (order := 5) (by omega) (by omega) (by simp [degree, rtIden, idenOrder]) arr
  exact ⟨Fm, h⟩

end Examples

end Verif.Metric
