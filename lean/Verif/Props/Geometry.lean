import Verif.Spec.Geometry
import Verif.Model.Geometry
import Mathlib.LinearAlgebra.Matrix.NonsingularInverse
import Mathlib.Analysis.Real.Sqrt
import Mathlib.Tactic.FieldSimp
import Mathlib.Tactic.Ring
import Mathlib.Tactic.Linarith
import Mathlib.Tactic.LinearCombination
import Mathlib.Tactic.NormNum

/-!
Properties C18 and C42: small dense geometry and barycentric coordinates are exact.
-/
namespace Verif.Geometry

variable {K : Type} [Field K]

section General

/-- **C18**: `inverse3x3` returns the determinant of the matrix. -/
theorem inverse_det (m inv0 : Nat → K) : (inverse3x3 m inv0).1 = (toMat m).det := by
  rw [Matrix.det_fin_three]
  simp only [inverse3x3, toMat, Matrix.of_apply]
  norm_num
  ring

/-- the entries of the inverse, all at once -/
theorem inverse_entries (m inv0 : Nat → K) : ∃ D : K, D = (toMat m).det ∧
    (inverse3x3 m inv0).2 0 = (m 4 * m 8 - m 7 * m 5) / D ∧ (inverse3x3 m inv0).2 1 = (m 7 * m 2 - m 1 * m 8) / D ∧
    (inverse3x3 m inv0).2 2 = (m 1 * m 5 - m 4 * m 2) / D ∧ (inverse3x3 m inv0).2 3 = (m 5 * m 6 - m 8 * m 3) / D ∧
    (inverse3x3 m inv0).2 4 = (m 8 * m 0 - m 2 * m 6) / D ∧ (inverse3x3 m inv0).2 5 = (m 2 * m 3 - m 5 * m 0) / D ∧
    (inverse3x3 m inv0).2 6 = (m 3 * m 7 - m 6 * m 4) / D ∧ (inverse3x3 m inv0).2 7 = (m 6 * m 1 - m 0 * m 7) / D ∧
    (inverse3x3 m inv0).2 8 = (m 0 * m 4 - m 3 * m 1) / D := by
  refine ⟨(inverse3x3 m inv0).1, inverse_det m inv0, ?_⟩
  simp [inverse3x3, invLoop, wr, Function.update]

theorem det_entries (m : Nat → K) : (toMat m).det =
    m 0 * (m 4 * m 8 - m 7 * m 5) + m 3 * (m 7 * m 2 - m 1 * m 8) + m 6 * (m 1 * m 5 - m 4 * m 2) := by
  rw [Matrix.det_fin_three]
  simp only [toMat, Matrix.of_apply]
  norm_num
  ring

theorem inverse_left (m inv0 : Nat → K) (h : (toMat m).det ≠ 0) :
    toMat (inverse3x3 m inv0).2 * toMat m = 1 := by
  obtain ⟨D, hD, h0, h1, h2, h3, h4, h5, h6, h7, h8⟩ := inverse_entries m inv0
  rw [← hD] at h
  rw [det_entries] at hD
  ext i j
  fin_cases i <;> fin_cases j <;>
    simp [toMat, Matrix.mul_apply, Fin.sum_univ_three, h0, h1, h2, h3, h4, h5, h6, h7, h8] <;>
    field_simp <;> (try rw [hD]) <;> ring

/-- **C18**: with a nonzero determinant the result of `inverse3x3` is a two-sided inverse. -/
theorem inverse_correct (m inv0 : Nat → K) (h : (toMat m).det ≠ 0) :
    toMat m * toMat (inverse3x3 m inv0).2 = 1 ∧ toMat (inverse3x3 m inv0).2 * toMat m = 1 := by
  have h1 := inverse_left m inv0 h
  exact ⟨mul_eq_one_comm.mp h1, h1⟩

/-- **C18**: only the nine positions of the result are written. -/
theorem inverse_frame (m inv0 : Nat → K) (p : Nat) (h : 9 ≤ p) : (inverse3x3 m inv0).2 p = inv0 p := by
  simp [inverse3x3, invLoop, wr, Function.update, show p ≠ 0 by omega, show p ≠ 1 by omega, show p ≠ 2 by omega,
    show p ≠ 3 by omega, show p ≠ 4 by omega, show p ≠ 5 by omega, show p ≠ 6 by omega, show p ≠ 7 by omega,
    show p ≠ 8 by omega]

example : (toMat (fun k => ([2, 0, 1, 1, 3, 0, 0, 1, 1] : List ℚ).getD k 0)).det ≠ 0 := by
  rw [det_entries]; norm_num

/-- **C18**: the cross product is orthogonal to both arguments. -/
theorem cross_orthogonal (a b : Nat → K) : dot (cross a b) a = 0 ∧ dot (cross a b) b = 0 := by
  constructor <;> simp only [dot, cross] <;> ring

/-- **C18**: its square is the Gram determinant of the arguments, its sign follows the right hand rule. -/
theorem cross_norm (a b : Nat → K) : dot (cross a b) (cross a b) = dot a a * dot b b - dot a b * dot a b := by
  simp only [dot, cross]; ring

/-- **C18**: the scalar triple product of the cross product is the determinant with columns `a`, `b`, `c`. -/
theorem cross_triple (a b c : Nat → K) : dot (cross a b) c =
    (Matrix.of fun (i j : Fin 3) => if j = 0 then a i.val else if j = 1 then b i.val else c i.val).det := by
  rw [Matrix.det_fin_three]
  simp [dot, cross]
  ring

/-- **C18**: the three point variant is the cross product of the edge vectors from the third point. -/
theorem cross3_eq (p0 p1 p2 : Nat → K) : Same3 (cross3 p0 p1 p2) (cross (diff p0 p2) (diff p1 p2)) := by
  intro i hi
  match i, hi with
  | 0, _ => rfl
  | 1, _ => rfl
  | 2, _ => rfl

theorem vol6_eq (p0 p1 p2 p3 : Nat → K) :
    vol6 p0 p1 p2 p3 = dot (cross (diff p1 p0) (diff p2 p0)) (diff p3 p0) := by
  rw [vol6, Matrix.det_fin_three]
  simp [dot, cross, diff]
  ring

end General

section Ordered

variable [LinearOrder K] [IsStrictOrderedRing K]

theorem dot_self_nonneg (a : Nat → K) : 0 ≤ dot a a := by
  have := mul_self_nonneg (a 0); have := mul_self_nonneg (a 1); have := mul_self_nonneg (a 2)
  unfold dot; linarith

theorem dot_self_eq_zero {a : Nat → K} (h : dot a a = 0) : Same3 a (fun _ => 0) := by
  have h0 := mul_self_nonneg (a 0); have h1 := mul_self_nonneg (a 1); have h2 := mul_self_nonneg (a 2)
  unfold dot at h
  intro i hi
  match i, hi with
  | 0, _ => exact mul_self_eq_zero.mp (by linarith)
  | 1, _ => exact mul_self_eq_zero.mp (by linarith)
  | 2, _ => exact mul_self_eq_zero.mp (by linarith)

/-- **C18**: the triangle area is half of the norm of the cross product of two edge vectors: it is nonnegative and four
times its square is the Gram determinant. -/
theorem triArea_correct {sqrt : K → K} (hs : IsSqrt sqrt) (p0 p1 p2 : Nat → K) :
    0 ≤ triArea sqrt p0 p1 p2 ∧
      4 * (triArea sqrt p0 p1 p2 * triArea sqrt p0 p1 p2) =
        dot (cross (diff p0 p2) (diff p1 p2)) (cross (diff p0 p2) (diff p1 p2)) := by
  have h := hs _ (dot_self_nonneg (cross (diff p0 p2) (diff p1 p2)))
  have e : triArea sqrt p0 p1 p2 =
      sqrt (dot (cross (diff p0 p2) (diff p1 p2)) (cross (diff p0 p2) (diff p1 p2))) / 2 := rfl
  rw [e]
  refine ⟨div_nonneg h.1 (by norm_num), ?_⟩
  have h2 := h.2
  linear_combination h2

omit [IsStrictOrderedRing K] in
theorem faceNormal_eq (sqrt : K → K) (p0 p1 p2 p3 : Nat → K) :
    ∃ d : K, d = (if 0 < vol6 p0 p1 p2 p3 then -1 else 1) *
        sqrt (dot (cross (diff p1 p0) (diff p2 p0)) (cross (diff p1 p0) (diff p2 p0))) ∧
      (faceNormal sqrt p0 p1 p2 p3).1 =
        sqrt (dot (cross (diff p1 p0) (diff p2 p0)) (cross (diff p1 p0) (diff p2 p0))) / 2 ∧
      ∀ i, i < 3 → (faceNormal sqrt p0 p1 p2 p3).2 i = cross (diff p1 p0) (diff p2 p0) i / d := by
  refine ⟨_, rfl, rfl, ?_⟩
  rw [vol6_eq]
  intro i hi
  have e : ∀ (c : Prop) [Decidable c] (l : K), (if c then (-1 : K) else 1) * l = if c then -l else l := by
    intro c _ l; split <;> ring
  rw [e]
  match i, hi with
  | 0, _ => rfl
  | 1, _ => rfl
  | 2, _ => rfl

/-- **C18**: the normal of a face of a nondegenerate tetrahedron is orthogonal to the face, of unit length and points
away from the opposite vertex; the returned number is the area of the face.  Nothing is assumed about the orientation
of the vertices. -/
theorem faceNormal_correct {sqrt : K → K} (hs : IsSqrt sqrt) (p0 p1 p2 p3 : Nat → K) (hv : vol6 p0 p1 p2 p3 ≠ 0) :
    let n := (faceNormal sqrt p0 p1 p2 p3).2
    let area := (faceNormal sqrt p0 p1 p2 p3).1
    dot n (diff p1 p0) = 0 ∧ dot n (diff p2 p0) = 0 ∧ dot n n = 1 ∧ dot n (diff p3 p0) < 0 ∧
      0 < area ∧ 4 * (area * area) = dot (diff p1 p0) (diff p1 p0) * dot (diff p2 p0) (diff p2 p0) -
        dot (diff p1 p0) (diff p2 p0) * dot (diff p1 p0) (diff p2 p0) := by
  obtain ⟨d, hd, ha, hn⟩ := faceNormal_eq sqrt p0 p1 p2 p3
  intro n area
  have h0 := hn 0 (by omega); have h1 := hn 1 (by omega); have h2 := hn 2 (by omega)
  have vo := cross_orthogonal (diff p1 p0) (diff p2 p0)
  have hve := vol6_eq p0 p1 p2 p3
  rw [← cross_norm]
  generalize hc : cross (diff p1 p0) (diff p2 p0) = c at *
  have hcc := hs _ (dot_self_nonneg c)
  generalize sqrt (dot c c) = len at *
  have hlen : len ≠ 0 := by
    intro h
    rw [h] at hcc
    have hz := dot_self_eq_zero (hcc.2.symm.trans (mul_zero 0))
    apply hv
    rw [hve]
    unfold dot
    rw [hz 0 (by omega), hz 1 (by omega), hz 2 (by omega)]
    ring
  have hpos : 0 < len := lt_of_le_of_ne hcc.1 (Ne.symm hlen)
  have hdd : d * d = dot c c := by
    rw [hd, ← hcc.2]; split <;> ring
  have hd0 : d ≠ 0 := by
    intro h; rw [h, mul_zero] at hdd; exact hlen (mul_self_eq_zero.mp (hcc.2.trans hdd.symm))
  have hdot : ∀ v, dot n v = dot c v / d := by
    intro v
    unfold dot
    show (faceNormal sqrt p0 p1 p2 p3).2 0 * _ + (faceNormal sqrt p0 p1 p2 p3).2 1 * _ +
      (faceNormal sqrt p0 p1 p2 p3).2 2 * _ = _
    rw [h0, h1, h2]
    ring
  have hcn : dot c n = dot c c / d := by
    unfold dot
    show _ * (faceNormal sqrt p0 p1 p2 p3).2 0 + _ * (faceNormal sqrt p0 p1 p2 p3).2 1 +
      _ * (faceNormal sqrt p0 p1 p2 p3).2 2 = _
    rw [h0, h1, h2]
    ring
  refine ⟨by rw [hdot, vo.1, zero_div], by rw [hdot, vo.2, zero_div], ?_, ?_, ?_, ?_⟩
  · rw [hdot, hcn, ← hdd]; field_simp
  · rw [hdot, ← hve]
    by_cases h : 0 < vol6 p0 p1 p2 p3
    · rw [if_pos h] at hd
      exact div_neg_of_pos_of_neg h (by rw [hd]; linarith)
    · rw [if_neg h] at hd
      exact div_neg_of_neg_of_pos (lt_of_le_of_ne (not_lt.mp h) hv) (by rw [hd]; linarith)
  · show 0 < (faceNormal sqrt p0 p1 p2 p3).1
    rw [ha]; linarith
  · show 4 * ((faceNormal sqrt p0 p1 p2 p3).1 * (faceNormal sqrt p0 p1 p2 p3).1) = _
    rw [ha]; linear_combination hcc.2

/-- The outward unit normal of a face is determined by its properties: any two agree. -/
theorem outward_unique {p0 p1 p2 p3 n m : Nat → K} (hv : vol6 p0 p1 p2 p3 ≠ 0)
    (n1 : dot n (diff p1 p0) = 0) (n2 : dot n (diff p2 p0) = 0) (nn : dot n n = 1) (n3 : dot n (diff p3 p0) < 0)
    (m1 : dot m (diff p1 p0) = 0) (m2 : dot m (diff p2 p0) = 0) (mm : dot m m = 1) (m3 : dot m (diff p3 p0) < 0) :
    Same3 n m := by
  have key : ∀ u : Nat → K, dot u (diff p1 p0) = 0 → dot u (diff p2 p0) = 0 → ∀ i, i < 3 →
      vol6 p0 p1 p2 p3 * u i = dot u (diff p3 p0) * cross (diff p1 p0) (diff p2 p0) i := by
    intro u u1 u2 i hi
    rw [vol6_eq]
    have e : ∀ i, i < 3 → dot (cross (diff p1 p0) (diff p2 p0)) (diff p3 p0) * u i =
        dot u (diff p1 p0) * cross (diff p2 p0) (diff p3 p0) i + dot u (diff p2 p0) * cross (diff p3 p0) (diff p1 p0) i +
          dot u (diff p3 p0) * cross (diff p1 p0) (diff p2 p0) i := by
      intro i hi
      match i, hi with
      | 0, _ => simp only [dot, cross]; ring
      | 1, _ => simp only [dot, cross]; ring
      | 2, _ => simp only [dot, cross]; ring
    rw [e i hi, u1, u2]; ring
  have sq : ∀ u : Nat → K, dot u (diff p1 p0) = 0 → dot u (diff p2 p0) = 0 → dot u u = 1 →
      vol6 p0 p1 p2 p3 * vol6 p0 p1 p2 p3 = dot u (diff p3 p0) * dot u (diff p3 p0) *
        dot (cross (diff p1 p0) (diff p2 p0)) (cross (diff p1 p0) (diff p2 p0)) := by
    intro u u1 u2 uu
    have k0 := key u u1 u2 0 (by omega); have k1 := key u u1 u2 1 (by omega); have k2 := key u u1 u2 2 (by omega)
    generalize vol6 p0 p1 p2 p3 = V at *
    generalize cross (diff p1 p0) (diff p2 p0) = c at *
    generalize dot u (diff p3 p0) = w at *
    have : V * V = V * V * dot u u := by rw [uu, mul_one]
    rw [this]
    have : V * V * dot u u = (V * u 0) * (V * u 0) + (V * u 1) * (V * u 1) + (V * u 2) * (V * u 2) := by
      unfold dot; ring
    rw [this, k0, k1, k2]; unfold dot; ring
  have hn := sq n n1 n2 nn
  have hm := sq m m1 m2 mm
  have hC : dot (cross (diff p1 p0) (diff p2 p0)) (cross (diff p1 p0) (diff p2 p0)) ≠ 0 := by
    intro h; rw [h, mul_zero] at hn; exact hv (mul_self_eq_zero.mp hn)
  have hww : dot n (diff p3 p0) * dot n (diff p3 p0) = dot m (diff p3 p0) * dot m (diff p3 p0) :=
    mul_right_cancel₀ hC (hn.symm.trans hm)
  have hw : dot n (diff p3 p0) = dot m (diff p3 p0) := by
    rcases mul_self_eq_mul_self_iff.mp hww with h | h
    · exact h
    · linarith
  intro i hi
  have e1 := key n n1 n2 i hi
  have e2 := key m m1 m2 i hi
  rw [hw, ← e2] at e1
  exact mul_left_cancel₀ hv e1

/-- **C18**: the normal and the area do not depend on the order in which the vertices of the face are given. -/
theorem faceNormal_order {sqrt : K → K} (hs : IsSqrt sqrt) (p0 p1 p2 p3 : Nat → K) (hv : vol6 p0 p1 p2 p3 ≠ 0) :
    (Same3 (faceNormal sqrt p0 p2 p1 p3).2 (faceNormal sqrt p0 p1 p2 p3).2 ∧
      (faceNormal sqrt p0 p2 p1 p3).1 = (faceNormal sqrt p0 p1 p2 p3).1) ∧
    (Same3 (faceNormal sqrt p1 p0 p2 p3).2 (faceNormal sqrt p0 p1 p2 p3).2 ∧
      (faceNormal sqrt p1 p0 p2 p3).1 = (faceNormal sqrt p0 p1 p2 p3).1) := by
  have hv1 : vol6 p0 p2 p1 p3 ≠ 0 := by
    intro h; apply hv
    rw [vol6_eq] at h ⊢
    simp only [dot, cross, diff] at h ⊢
    linear_combination -h
  have hv2 : vol6 p1 p0 p2 p3 ≠ 0 := by
    intro h; apply hv
    rw [vol6_eq] at h ⊢
    simp only [dot, cross, diff] at h ⊢
    linear_combination -h
  obtain ⟨a1, a2, a3, a4, a5, a6⟩ := faceNormal_correct hs p0 p1 p2 p3 hv
  obtain ⟨b1, b2, b3, b4, b5, b6⟩ := faceNormal_correct hs p0 p2 p1 p3 hv1
  obtain ⟨c1, c2, c3, c4, c5, c6⟩ := faceNormal_correct hs p1 p0 p2 p3 hv2
  refine ⟨⟨outward_unique hv b2 b1 b3 b4 a1 a2 a3 a4, ?_⟩, ⟨outward_unique hv ?_ ?_ c3 ?_ a1 a2 a3 a4, ?_⟩⟩
  · have : (faceNormal sqrt p0 p2 p1 p3).1 * (faceNormal sqrt p0 p2 p1 p3).1 =
        (faceNormal sqrt p0 p1 p2 p3).1 * (faceNormal sqrt p0 p1 p2 p3).1 := by
      simp only [dot, diff] at a6 b6
      linear_combination (b6 - a6) / 4
    rcases mul_self_eq_mul_self_iff.mp this with h | h
    · exact h
    · linarith
  · simp only [dot, diff] at c1 ⊢; linear_combination -c1
  · simp only [dot, diff] at c1 c2 ⊢; linear_combination c2 - c1
  · simp only [dot, diff] at c1 c4 ⊢; linear_combination c4 - c1
  · have : (faceNormal sqrt p1 p0 p2 p3).1 * (faceNormal sqrt p1 p0 p2 p3).1 =
        (faceNormal sqrt p0 p1 p2 p3).1 * (faceNormal sqrt p0 p1 p2 p3).1 := by
      simp only [dot, diff] at a6 c6
      linear_combination (c6 - a6) / 4
    rcases mul_self_eq_mul_self_iff.mp this with h | h
    · exact h
    · linarith

/-- the unit tetrahedron, given with negative orientation, over the reals -/
def ux : Nat → ℝ := fun i => if i = 0 then 1 else 0
def uy : Nat → ℝ := fun i => if i = 1 then 1 else 0
def uz : Nat → ℝ := fun i => if i = 2 then 1 else 0

example : IsSqrt Real.sqrt ∧ vol6 (fun _ => 0) uy ux uz ≠ 0 := by
  refine ⟨fun x hx => ⟨Real.sqrt_nonneg x, Real.mul_self_sqrt hx⟩, ?_⟩
  rw [vol6_eq]
  simp [dot, cross, diff, ux, uy, uz]

end Ordered

section Bary

/-- Barycentric coordinates with respect to a nondegenerate tetrahedron are unique. -/
theorem bary_unique {p0 p1 p2 p3 x l k : Nat → K} (hv : vol6 p0 p1 p2 p3 ≠ 0) (hl : IsBary p0 p1 p2 p3 x l)
    (hk : IsBary p0 p1 p2 p3 x k) : ∀ i, i < 4 → l i = k i := by
  obtain ⟨ls, lx⟩ := hl
  obtain ⟨ks, kx⟩ := hk
  have e0 := (lx 0 (by omega)).trans (kx 0 (by omega)).symm
  have e1 := (lx 1 (by omega)).trans (kx 1 (by omega)).symm
  have e2 := (lx 2 (by omega)).trans (kx 2 (by omega)).symm
  have hs : l 0 - k 0 = -(l 1 - k 1) - (l 2 - k 2) - (l 3 - k 3) := by linear_combination ls - ks
  -- Cramer's rule for the three differences
  have c : ∀ i, i < 3 → (l 1 - k 1) * diff p1 p0 i + (l 2 - k 2) * diff p2 p0 i + (l 3 - k 3) * diff p3 p0 i = 0 := by
    intro i hi
    have h := (lx i hi).trans (kx i hi).symm
    unfold diff
    linear_combination h - hs * p0 i
  have c0 := c 0 (by omega); have c1 := c 1 (by omega); have c2 := c 2 (by omega)
  rw [vol6_eq] at hv
  have d3 : l 3 - k 3 = 0 := by
    have : dot (cross (diff p1 p0) (diff p2 p0)) (diff p3 p0) * (l 3 - k 3) = 0 := by
      simp only [dot, cross]
      linear_combination c0 * (diff p1 p0 1 * diff p2 p0 2 - diff p1 p0 2 * diff p2 p0 1) + c1 * (diff p1 p0 2 * diff p2 p0 0 - diff p1 p0 0 * diff p2 p0 2) +
        c2 * (diff p1 p0 0 * diff p2 p0 1 - diff p1 p0 1 * diff p2 p0 0)
    exact (mul_eq_zero.mp this).resolve_left hv
  have d2 : l 2 - k 2 = 0 := by
    have : dot (cross (diff p1 p0) (diff p2 p0)) (diff p3 p0) * (l 2 - k 2) = 0 := by
      simp only [dot, cross]
      linear_combination c0 * (diff p3 p0 1 * diff p1 p0 2 - diff p3 p0 2 * diff p1 p0 1) + c1 * (diff p3 p0 2 * diff p1 p0 0 - diff p3 p0 0 * diff p1 p0 2) +
        c2 * (diff p3 p0 0 * diff p1 p0 1 - diff p3 p0 1 * diff p1 p0 0)
    exact (mul_eq_zero.mp this).resolve_left hv
  have d1 : l 1 - k 1 = 0 := by
    have : dot (cross (diff p1 p0) (diff p2 p0)) (diff p3 p0) * (l 1 - k 1) = 0 := by
      simp only [dot, cross]
      linear_combination c0 * (diff p2 p0 1 * diff p3 p0 2 - diff p2 p0 2 * diff p3 p0 1) + c1 * (diff p2 p0 2 * diff p3 p0 0 - diff p2 p0 0 * diff p3 p0 2) +
        c2 * (diff p2 p0 0 * diff p3 p0 1 - diff p2 p0 1 * diff p3 p0 0)
    exact (mul_eq_zero.mp this).resolve_left hv
  intro i hi
  match i, hi with
  | 0, _ => linear_combination hs - d1 - d2 - d3
  | 1, _ => linear_combination d1
  | 2, _ => linear_combination d2
  | 3, _ => linear_combination d3

/-- a two-sided inverse undoes the product with the matrix, entry by entry -/
theorem inverse_mulVec (m junk dr : Nat → K) (h : (toMat m).det ≠ 0) (i : Nat) (hi : i < 3) :
    m i * mulVec3 (inverse3x3 m junk).2 dr 0 + m (i + 3) * mulVec3 (inverse3x3 m junk).2 dr 1 +
      m (i + 6) * mulVec3 (inverse3x3 m junk).2 dr 2 = dr i := by
  have e := (inverse_correct m junk h).1
  have e' : ∀ a b : Fin 3, (toMat m * toMat (inverse3x3 m junk).2) a b = (1 : Matrix (Fin 3) (Fin 3) K) a b := by
    intro a b; rw [e]
  simp only [toMat, Matrix.mul_apply, Fin.sum_univ_three, Matrix.of_apply] at e'
  generalize (inverse3x3 m junk).2 = T at *
  simp only [mulVec3]
  match i, hi with
  | 0, _ =>
    have e0 := e' 0 0; have e1 := e' 0 1; have e2 := e' 0 2
    simp at e0 e1 e2 ⊢; linear_combination e0 * dr 0 + e1 * dr 1 + e2 * dr 2
  | 1, _ =>
    have e0 := e' 1 0; have e1 := e' 1 1; have e2 := e' 1 2
    simp at e0 e1 e2 ⊢; linear_combination e0 * dr 0 + e1 * dr 1 + e2 * dr 2
  | 2, _ =>
    have e0 := e' 2 0; have e1 := e' 2 1; have e2 := e' 2 2
    simp at e0 e1 e2 ⊢; linear_combination e0 * dr 0 + e1 * dr 1 + e2 * dr 2

/-- **C42**: the first variant computes the barycentric coordinates of the point. -/
theorem baryCoord_correct (p0 p1 p2 p3 x junk : Nat → K) (hv : vol6 p0 p1 p2 p3 ≠ 0) :
    IsBary p0 p1 p2 p3 x (baryCoord p0 p1 p2 p3 x junk) := by
  have hd : (toMat fun k => if k / 3 = 0 then p0 (k % 3) - p3 (k % 3) else if k / 3 = 1 then p1 (k % 3) - p3 (k % 3)
    else p2 (k % 3) - p3 (k % 3)).det ≠ 0 := by
    intro h
    apply hv
    rw [det_entries] at h
    rw [vol6_eq]
    simp [dot, cross, diff] at h ⊢
    linear_combination -h
  have key := inverse_mulVec _ junk (fun i => x i - p3 i) hd
  refine ⟨?_, ?_⟩
  · simp only [baryCoord]; ring
  · intro i hi
    have k := key i hi
    simp only [baryCoord]
    match i, hi with
    | 0, _ => simp at k ⊢; linear_combination k
    | 1, _ => simp at k ⊢; linear_combination k
    | 2, _ => simp at k ⊢; linear_combination k

/-- **C42**: conversely the physical point computed from barycentric coordinates has these coordinates. -/
theorem physPoint_correct [LinearOrder K] (p0 p1 p2 p3 l junk : Nat → K) (hl : l 0 + l 1 + l 2 + l 3 = 1) :
    IsBary p0 p1 p2 p3 (physPoint p0 (tetGeom p0 p1 p2 p3 junk).xyp l) l := by
  refine ⟨hl, ?_⟩
  intro i hi
  match i, hi with
  | 0, _ => simp [physPoint, tetGeom]; linear_combination p0 0 * hl
  | 1, _ => simp [physPoint, tetGeom]; linear_combination p0 1 * hl
  | 2, _ => simp [physPoint, tetGeom]; linear_combination p0 2 * hl

/-- **C42**: determinant and measure of the prepared geometry. -/
theorem tetGeom_measure [LinearOrder K] (p0 p1 p2 p3 junk : Nat → K) :
    (tetGeom p0 p1 p2 p3 junk).det = vol6 p0 p1 p2 p3 ∧ (tetGeom p0 p1 p2 p3 junk).mes = |vol6 p0 p1 p2 p3| / 6 := by
  have h : (tetGeom p0 p1 p2 p3 junk).det = vol6 p0 p1 p2 p3 := by
    simp only [tetGeom]
    rw [inverse_det, det_entries, vol6_eq]
    simp [dot, cross, diff]
    ring
  refine ⟨h, ?_⟩
  show |(tetGeom p0 p1 p2 p3 junk).det| / 6 = _
  rw [h]

/-- **C42**: the second variant, which uses the inverse prepared for the tetrahedron, computes the barycentric
coordinates too. -/
theorem baryCoordPsi_correct [LinearOrder K] (p0 p1 p2 p3 x junk : Nat → K) (hv : vol6 p0 p1 p2 p3 ≠ 0) :
    IsBary p0 p1 p2 p3 x (baryCoordPsi p0 x (tetGeom p0 p1 p2 p3 junk).psi) := by
  have hm : (tetGeom p0 p1 p2 p3 junk).psi = (inverse3x3 (fun k => (tetGeom p0 p1 p2 p3 junk).xyp (3 + k)) junk).2 := rfl
  have hd : (toMat fun k => (tetGeom p0 p1 p2 p3 junk).xyp (3 + k)).det ≠ 0 := by
    rw [← inverse_det _ junk]
    exact fun h => hv ((tetGeom_measure p0 p1 p2 p3 junk).1.symm.trans h)
  have key := inverse_mulVec _ junk (fun i => x i - p0 i) hd
  rw [hm]
  refine ⟨?_, ?_⟩
  · simp only [baryCoordPsi]; ring
  · intro i hi
    have k := key i hi
    generalize (inverse3x3 (fun k => (tetGeom p0 p1 p2 p3 junk).xyp (3 + k)) junk).2 = T at k ⊢
    simp only [baryCoordPsi]
    match i, hi with
    | 0, _ => simp [tetGeom] at k ⊢; linear_combination k
    | 1, _ => simp [tetGeom] at k ⊢; linear_combination k
    | 2, _ => simp [tetGeom] at k ⊢; linear_combination k

/-- **C42**: both variants agree. -/
theorem bary_variants_agree [LinearOrder K] (p0 p1 p2 p3 x junk junk' : Nat → K) (hv : vol6 p0 p1 p2 p3 ≠ 0) :
    ∀ i, i < 4 → baryCoord p0 p1 p2 p3 x junk i = baryCoordPsi p0 x (tetGeom p0 p1 p2 p3 junk').psi i :=
  bary_unique hv (baryCoord_correct _ _ _ _ _ _ hv) (baryCoordPsi_correct _ _ _ _ _ _ hv)

/-- **C42**: from barycentric coordinates to the point and back. -/
theorem bary_roundtrip [LinearOrder K] (p0 p1 p2 p3 l junk junk' : Nat → K) (hv : vol6 p0 p1 p2 p3 ≠ 0)
    (hl : l 0 + l 1 + l 2 + l 3 = 1) :
    ∀ i, i < 4 → baryCoord p0 p1 p2 p3 (physPoint p0 (tetGeom p0 p1 p2 p3 junk).xyp l) junk' i = l i :=
  bary_unique hv (baryCoord_correct _ _ _ _ _ _ hv) (physPoint_correct _ _ _ _ _ _ hl)

example : vol6 (fun _ => (0 : ℚ)) (fun i => if i = 0 then 2 else 0) (fun i => if i = 1 then 1 else 0)
      (fun i => if i = 2 then 1 else 5) ≠ 0 ∧ (1 / 2 : ℚ) + 1 / 4 + 1 / 4 + 0 = 1 := by
  rw [vol6_eq]
  norm_num [dot, cross, diff]

end Bary
end Verif.Geometry
