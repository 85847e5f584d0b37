import Verif.Lemmas.QuadIntegral
import Verif.Lemmas.Order
import Verif.Spec.Driver
import Verif.Props.Geometry
import Mathlib.Algebra.MvPolynomial.PDeriv

/-! The divergence theorem for polynomials on a tetrahedron. -/
namespace Verif.Quad

open intervalIntegral

variable {ι : Type} (s : Finset ι) (k : ι → ℝ) (a b c d : ι → ℕ)

theorem fact_ne (n : ℕ) : ((n.factorial : ℕ) : ℝ) ≠ 0 := by exact_mod_cast Nat.factorial_ne_zero _

/-- the mean over the triangle of terms in all three barycentric coordinates -/
theorem meanTri_terms3 : meanTri (fun x y => ∑ m ∈ s, k m * (x ^ a m * y ^ b m * (1 - x - y) ^ c m)) =
    ∑ m ∈ s, k m * (2 * ((a m).factorial * (b m).factorial * (c m).factorial) / (a m + b m + c m + 2).factorial) := by
  unfold meanTri
  have h1 : ∀ x : ℝ, ∫ y in (0 : ℝ)..(1 - x), ∑ m ∈ s, k m * (x ^ a m * y ^ b m * (1 - x - y) ^ c m) =
      ∑ m ∈ s, (k m * (((b m).factorial * (c m).factorial : ℕ) / ((b m + c m + 1).factorial : ℕ))) * (x ^ a m * (1 - x) ^ (b m + c m + 1)) := by
    intro x
    have h := integral_terms s b c (1 - x) (fun m => k m * x ^ a m)
    simp only [mul_assoc] at h ⊢
    rw [h]
    exact Finset.sum_congr rfl fun m _ => by ring
  simp only [h1]
  rw [integral_terms s a (fun m => b m + c m + 1) 1, Finset.mul_sum]
  refine Finset.sum_congr rfl fun m _ => ?_
  rw [show a m + (b m + c m + 1) + 1 = a m + b m + c m + 2 by ring]
  have h0 := fact_ne (b m + c m + 1)
  simp only [one_pow, Nat.cast_mul]
  field_simp

/-- the mean over the tetrahedron of terms in all four barycentric coordinates -/
theorem meanTet_terms4 : meanTet (fun x y z => ∑ m ∈ s, k m * (x ^ a m * y ^ b m * z ^ c m * (1 - x - y - z) ^ d m)) =
    ∑ m ∈ s, k m * (6 * ((a m).factorial * (b m).factorial * (c m).factorial * (d m).factorial) / (a m + b m + c m + d m + 3).factorial) := by
  unfold meanTet
  have h1 : ∀ x y : ℝ, ∫ z in (0 : ℝ)..(1 - x - y), ∑ m ∈ s, k m * (x ^ a m * y ^ b m * z ^ c m * (1 - x - y - z) ^ d m) =
      ∑ m ∈ s, (k m * (((c m).factorial * (d m).factorial : ℕ) / ((c m + d m + 1).factorial : ℕ)) * x ^ a m) *
        (y ^ b m * (1 - x - y) ^ (c m + d m + 1)) := by
    intro x y
    have h := integral_terms s c d (1 - x - y) (fun m => k m * (x ^ a m * y ^ b m))
    simp only [mul_assoc] at h ⊢
    rw [h]
    exact Finset.sum_congr rfl fun m _ => by ring
  have h2 : ∀ x : ℝ, ∫ y in (0 : ℝ)..(1 - x), ∫ z in (0 : ℝ)..(1 - x - y), ∑ m ∈ s, k m * (x ^ a m * y ^ b m * z ^ c m * (1 - x - y - z) ^ d m) =
      ∑ m ∈ s, (k m * (((c m).factorial * (d m).factorial : ℕ) / ((c m + d m + 1).factorial : ℕ)) *
        (((b m).factorial * (c m + d m + 1).factorial : ℕ) / ((b m + (c m + d m + 1) + 1).factorial : ℕ))) *
        (x ^ a m * (1 - x) ^ (b m + (c m + d m + 1) + 1)) := by
    intro x
    simp only [h1]
    rw [integral_terms s b (fun m => c m + d m + 1) (1 - x)
      (fun m => k m * (((c m).factorial * (d m).factorial : ℕ) / ((c m + d m + 1).factorial : ℕ)) * x ^ a m)]
    exact Finset.sum_congr rfl fun m _ => by ring
  simp only [h2]
  rw [integral_terms s a (fun m => b m + (c m + d m + 1) + 1) 1, Finset.mul_sum]
  refine Finset.sum_congr rfl fun m _ => ?_
  rw [show a m + (b m + (c m + d m + 1) + 1) + 1 = a m + b m + c m + d m + 3 by ring]
  have h0 := fact_ne (c m + d m + 1)
  have h0' := fact_ne (b m + (c m + d m + 1) + 1)
  simp only [one_pow, Nat.cast_mul]
  field_simp

end Verif.Quad

namespace Verif.Diverge

open MvPolynomial Finset Verif.Quad

/-- the four barycentric coordinates of a point of the tetrahedron -/
def tetPt (x y z : ℝ) : Fin 4 → ℝ := ![x, y, z, 1 - x - y - z]

/-- the four barycentric coordinates of a point of the side opposite to the vertex `m` -/
def triPt (m : Fin 4) (x y : ℝ) : Fin 4 → ℝ := fun i => if i = m then 0 else if i = m + 1 then x else if i = m + 2 then y else 1 - x - y

/-- a monomial and its coefficient in the derivative -/
theorem eval_pderiv (P : MvPolynomial (Fin 4) ℝ) (m : Fin 4) (l : Fin 4 → ℝ) :
    eval l (pderiv m P) = ∑ a ∈ P.support, coeff a P * a m * ∏ i, l i ^ (a i - if i = m then 1 else 0) := by
  conv_lhs => rw [P.as_sum, map_sum, map_sum]
  refine sum_congr rfl fun a _ => ?_
  rw [pderiv_monomial, eval_monomial, Finsupp.prod_fintype _ _ (fun i => pow_zero _)]
  congr 1
  refine prod_congr rfl fun i _ => ?_
  rw [Finsupp.tsub_apply, Finsupp.single_apply]
  simp [eq_comm]

/-- the mean over the tetrahedron of a combination of derivatives is given by the means over the sides -/
theorem mean_div (P : MvPolynomial (Fin 4) ℝ) (w : Fin 4 → ℝ) (hw : w 0 + w 1 + w 2 + w 3 = 0) :
    meanTet (fun x y z => ∑ m, w m * eval (tetPt x y z) (pderiv m P)) = -3 * ∑ m, w m * meanTri fun x y => eval (triPt m x y) P := by
  have e1 : (fun x y z => ∑ m, w m * eval (tetPt x y z) (pderiv m P)) = fun x y z => ∑ q ∈ univ ×ˢ P.support,
      (w q.1 * (coeff q.2 P * q.2 q.1)) * (x ^ (q.2 0 - if 0 = q.1 then 1 else 0) * y ^ (q.2 1 - if 1 = q.1 then 1 else 0) *
        z ^ (q.2 2 - if 2 = q.1 then 1 else 0) * (1 - x - y - z) ^ (q.2 3 - if 3 = q.1 then 1 else 0)) := by
    funext x y z
    rw [sum_product]
    refine sum_congr rfl fun m _ => ?_
    rw [eval_pderiv, mul_sum]
    refine sum_congr rfl fun a _ => ?_
    rw [Fin.prod_univ_four]
    simp only [tetPt, Matrix.cons_val]
    ring
  have e2 : ∀ m : Fin 4, (fun x y => eval (triPt m x y) P) = fun x y => ∑ a ∈ P.support,
      (coeff a P * 0 ^ a m) * (x ^ a (m + 1) * y ^ a (m + 2) * (1 - x - y) ^ a (m + 3)) := by
    intro m
    funext x y
    rw [eval_eq']
    refine sum_congr rfl fun a _ => ?_
    rw [Fin.prod_univ_four]
    fin_cases m <;> simp [triPt] <;> ring
  rw [e1, meanTet_terms4 (univ ×ˢ P.support) (fun q => w q.1 * (coeff q.2 P * q.2 q.1)) (fun q => q.2 0 - if 0 = q.1 then 1 else 0)
    (fun q => q.2 1 - if 1 = q.1 then 1 else 0) (fun q => q.2 2 - if 2 = q.1 then 1 else 0) (fun q => q.2 3 - if 3 = q.1 then 1 else 0)]
  simp only [e2]
  have e3 := fun m : Fin 4 => meanTri_terms3 P.support (fun a => coeff a P * 0 ^ a m) (fun a => a (m + 1)) (fun a => a (m + 2)) (fun a => a (m + 3))
  simp only [e3]
  rw [sum_product_right]
  simp only [mul_sum]
  rw [sum_comm (s := univ) (t := P.support)]
  refine sum_congr rfl fun a _ => ?_
  have key : ∀ m : Fin 4, w m * (coeff a P * a m) * (6 * (((a 0 - if 0 = m then 1 else 0).factorial : ℝ) * (a 1 - if 1 = m then 1 else 0).factorial *
      (a 2 - if 2 = m then 1 else 0).factorial * (a 3 - if 3 = m then 1 else 0).factorial) /
      (((a 0 - if 0 = m then 1 else 0) + (a 1 - if 1 = m then 1 else 0) + (a 2 - if 2 = m then 1 else 0) + (a 3 - if 3 = m then 1 else 0) + 3).factorial : ℕ)) =
      coeff a P * (6 * ((a 0).factorial * (a 1).factorial * (a 2).factorial * (a 3).factorial) / (a 0 + a 1 + a 2 + a 3 + 2).factorial) *
        (if a m = 0 then 0 else w m) := by
    intro m
    by_cases h0 : a m = 0
    · rw [if_pos h0, h0]; simp
    · rw [if_neg h0]
      obtain ⟨n, hn⟩ := Nat.exists_eq_succ_of_ne_zero h0
      have hf : ((a m).factorial : ℝ) = a m * ((a m - 1).factorial : ℕ) := by
        rw [hn, Nat.succ_sub_one, Nat.factorial_succ]; push_cast; ring
      fin_cases m
      all_goals
        simp only [Fin.zero_eta, Fin.mk_one, Fin.reduceFinMk, Fin.isValue, if_true, Fin.reduceEq, if_false, Nat.sub_zero] at *
      · rw [show a 0 - 1 + a 1 + a 2 + a 3 + 3 = a 0 + a 1 + a 2 + a 3 + 2 by omega, hf]; ring
      · rw [show a 0 + (a 1 - 1) + a 2 + a 3 + 3 = a 0 + a 1 + a 2 + a 3 + 2 by omega, hf]; ring
      · rw [show a 0 + a 1 + (a 2 - 1) + a 3 + 3 = a 0 + a 1 + a 2 + a 3 + 2 by omega, hf]; ring
      · rw [show a 0 + a 1 + a 2 + (a 3 - 1) + 3 = a 0 + a 1 + a 2 + a 3 + 2 by omega, hf]; ring
  have key2 : ∀ m : Fin 4, -3 * (w m * (coeff a P * 0 ^ a m * (2 * (((a (m + 1)).factorial : ℝ) * (a (m + 2)).factorial * (a (m + 3)).factorial) /
      ((a (m + 1) + a (m + 2) + a (m + 3) + 2).factorial : ℕ)))) =
      -(coeff a P * (6 * ((a 0).factorial * (a 1).factorial * (a 2).factorial * (a 3).factorial) / (a 0 + a 1 + a 2 + a 3 + 2).factorial) *
        (if a m = 0 then w m else 0)) := by
    intro m
    by_cases h0 : a m = 0
    · rw [if_pos h0, h0, pow_zero]
      fin_cases m
      all_goals
        simp only [Fin.zero_eta, Fin.mk_one, Fin.reduceFinMk, Fin.isValue, Fin.reduceAdd] at *
        simp only [h0, Nat.factorial_zero, Nat.cast_one]
      · rw [show 0 + a 1 + a 2 + a 3 + 2 = a 1 + a 2 + a 3 + 2 by ring]; ring
      · rw [show a 2 + a 3 + a 0 + 2 = a 0 + 0 + a 2 + a 3 + 2 by ring]; ring
      · rw [show a 3 + a 0 + a 1 + 2 = a 0 + a 1 + 0 + a 3 + 2 by ring]; ring
      · rw [show a 0 + a 1 + a 2 + 2 = a 0 + a 1 + a 2 + 0 + 2 by ring]; ring
    · rw [if_neg h0, zero_pow h0]; ring
  simp only [key, key2]
  rw [sum_neg_distrib, eq_neg_iff_add_eq_zero, ← mul_sum, ← mul_sum, ← mul_add, ← sum_add_distrib]
  have : ∑ m, ((if a m = 0 then 0 else w m) + if a m = 0 then w m else 0) = 0 := by
    refine Eq.trans ?_ hw
    rw [← Fin.sum_univ_four w]
    exact sum_congr rfl fun m _ => by split_ifs <;> ring
  rw [this, mul_zero]

/-- the barycentric coordinates put into a polynomial -/
noncomputable def sub4 (T : Nat → Nat → ℝ) : MvPolynomial (Fin 3) ℝ →ₐ[ℝ] MvPolynomial (Fin 4) ℝ := bind₁ fun k : Fin 3 => ∑ m : Fin 4, C (T m k) * X m

theorem eval_sub4 (T : Nat → Nat → ℝ) (Q : MvPolynomial (Fin 3) ℝ) (l : Fin 4 → ℝ) :
    eval l (sub4 T Q) = eval (fun k : Fin 3 => ∑ m, l m * T m k) Q := by
  unfold sub4
  rw [← coe_aeval_eq_eval, ← coe_aeval_eq_eval]
  simp only [RingHom.coe_coe, aeval_bind₁]
  congr 2
  funext k
  simp only [map_sum, map_mul, aeval_C, aeval_X, Algebra.algebraMap_self, RingHom.id_apply]
  exact sum_congr rfl fun m _ => mul_comm _ _

theorem pderiv_sub4 (T : Nat → Nat → ℝ) (Q : MvPolynomial (Fin 3) ℝ) (m : Fin 4) :
    pderiv m (sub4 T Q) = ∑ k : Fin 3, C (T m k) * sub4 T (pderiv k Q) := by
  induction Q using MvPolynomial.induction_on with
  | C a => simp [sub4]
  | add p q hp hq => simp only [map_add, hp, hq, mul_add, sum_add_distrib]
  | mul_X p i hp =>
    rw [map_mul, Derivation.leibniz, hp]
    have h1 : pderiv m (sub4 T (X i)) = C (T m i) := by
      simp [sub4, pderiv_X, Pi.single_apply]
    rw [h1]
    have h2 : ∀ k : Fin 3, sub4 T (pderiv k (p * X i)) = sub4 T p * (if k = i then 1 else 0) + sub4 T (X i) * sub4 T (pderiv k p) := by
      intro k
      rw [Derivation.leibniz, map_add, smul_eq_mul, smul_eq_mul, map_mul, map_mul, pderiv_X, Pi.single_apply]
      congr 2
      split_ifs with h h' h'
      · exact map_one _
      · exact absurd h.symm h'
      · exact absurd h'.symm h
      · exact map_zero _
    simp only [h2, smul_eq_mul, mul_add, sum_add_distrib, mul_ite, mul_one, mul_zero, sum_ite_eq', mem_univ, if_true, mul_sum]
    congr 1
    · ring
    · exact sum_congr rfl fun k _ => by ring

/-! ### The geometry of a tetrahedron -/

open Verif.Geometry Verif.Driver Verif.Spaces

/-- the area times the normal of a side is the cross product of two sides of it, with the sign that directs it outwards -/
theorem area_normal {p0 p1 p2 p3 ν : Nat → ℝ} {A : ℝ} (hv : vol6 p0 p1 p2 p3 ≠ 0) (hA : IsArea A p0 p1 p2) (hν : IsNormal ν p0 p1 p2 p3)
    {i : Nat} (hi : i < 3) : A * ν i = -(|vol6 p0 p1 p2 p3| / 2) * (cross (diff p1 p0) (diff p2 p0) i / vol6 p0 p1 p2 p3) := by
  obtain ⟨hA0, hA⟩ := hA
  obtain ⟨h1, h2, h3, h4⟩ := hν
  rw [← cross_norm] at hA
  obtain ⟨c, hc⟩ : ∃ c, c = cross (diff p1 p0) (diff p2 p0) := ⟨_, rfl⟩
  obtain ⟨r, hr⟩ : ∃ r, r = dot ν c := ⟨_, rfl⟩
  have hcr : ∀ i, i < 3 → c i = r * ν i := by
    intro i hi
    have e : c i = dot ν ν * c i := by rw [h3, one_mul]
    rw [e, hr, hc]
    simp only [dot] at h1 h2 ⊢
    interval_cases i <;> simp only [cross]
    · linear_combination -(-ν 1 * diff p2 p0 2 + ν 2 * diff p2 p0 1) * h1 - (ν 1 * diff p1 p0 2 - ν 2 * diff p1 p0 1) * h2
    · linear_combination -(ν 0 * diff p2 p0 2 - ν 2 * diff p2 p0 0) * h1 - (-ν 0 * diff p1 p0 2 + ν 2 * diff p1 p0 0) * h2
    · linear_combination -(-ν 0 * diff p2 p0 1 + ν 1 * diff p2 p0 0) * h1 - (ν 0 * diff p1 p0 1 - ν 1 * diff p1 p0 0) * h2
  have hW : vol6 p0 p1 p2 p3 = r * dot ν (diff p3 p0) := by
    rw [vol6_eq, ← hc]
    simp only [dot]
    rw [hcr 0 (by omega), hcr 1 (by omega), hcr 2 (by omega)]
    ring
  rw [← hc] at hA ⊢
  have hrr : r * r = 4 * (A * A) := by
    rw [hA]
    have : dot c c = r * r * dot ν ν := by
      simp only [dot]
      rw [hcr 0 (by omega), hcr 1 (by omega), hcr 2 (by omega)]
      ring
    rw [this, h3, mul_one]
  have hr0 : r ≠ 0 := fun h => hv (by rw [hW, h, zero_mul])
  have habs : |r| = 2 * A := by
    rw [← abs_of_nonneg (by positivity : 0 ≤ 2 * A)]
    exact (sq_eq_sq_iff_abs_eq_abs _ _).1 (by linear_combination hrr)
  rw [hW, hcr i hi, abs_mul, habs, abs_of_neg h4, mul_div_mul_left _ _ hr0]
  have := h4.ne
  field_simp

/-- the gradient of the barycentric coordinate of the vertex opposite to the side `f`, `f + 1`, `f + 2` -/
noncomputable def gam (T : Nat → Nat → ℝ) (f i : Nat) : ℝ :=
  cross (diff (T ((f + 1) % 4)) (T f)) (diff (T ((f + 2) % 4)) (T f)) i / vol6 (T f) (T ((f + 1) % 4)) (T ((f + 2) % 4)) (T ((f + 3) % 4))

theorem vol6_cyc (T : Nat → Nat → ℝ) {f : Nat} (hf : f < 4) : vol6 (T f) (T ((f + 1) % 4)) (T ((f + 2) % 4)) (T ((f + 3) % 4)) =
    (if f % 2 = 0 then 1 else -1) * vol6 (T 0) (T 1) (T 2) (T 3) := by
  interval_cases f <;> simp only [vol6_eq, dot, cross, diff, Nat.reduceAdd, Nat.reduceMod, if_true, if_false, one_ne_zero] <;> ring

theorem gam_eq (T : Nat → Nat → ℝ) {f : Nat} (hf : f < 4) (i : Nat) : gam T f i =
    (if f % 2 = 0 then 1 else -1) * (cross (diff (T ((f + 1) % 4)) (T f)) (diff (T ((f + 2) % 4)) (T f)) i / vol6 (T 0) (T 1) (T 2) (T 3)) := by
  unfold gam
  rw [vol6_cyc T hf]
  split_ifs
  · rw [one_mul, one_mul]
  · rw [neg_one_mul, neg_one_mul, div_neg]

theorem gam_zero {T : Nat → Nat → ℝ} {i : Nat} (hi : i < 3) : gam T 0 i + gam T 1 i + gam T 2 i + gam T 3 i = 0 := by
  rw [gam_eq T (by omega), gam_eq T (by omega), gam_eq T (by omega), gam_eq T (by omega)]
  interval_cases i <;> simp only [cross, diff, Nat.reduceAdd, Nat.reduceMod, if_true, if_false, one_ne_zero] <;> ring

theorem gam_dual {T : Nat → Nat → ℝ} (hv : Nondeg T) {i k : Nat} (hi : i < 3) (hk : k < 3) :
    gam T 0 i * T 3 k + gam T 1 i * T 0 k + gam T 2 i * T 1 k + gam T 3 i * T 2 k = if i = k then 1 else 0 := by
  rw [gam_eq T (by omega), gam_eq T (by omega), gam_eq T (by omega), gam_eq T (by omega)]
  unfold Nondeg at hv
  have hV := vol6_eq (T 0) (T 1) (T 2) (T 3)
  generalize vol6 (T 0) (T 1) (T 2) (T 3) = V at *
  simp only [dot, cross, diff] at hV
  have t : ∀ a b c d x y z w s : ℝ, a * x - b * y + c * z - d * w = s * V →
      1 * (a / V) * x + -1 * (b / V) * y + 1 * (c / V) * z + -1 * (d / V) * w = s := by
    intro a b c d x y z w s h
    field_simp
    linarith
  interval_cases i <;> interval_cases k <;>
    simp only [cross, diff, Nat.reduceAdd, Nat.reduceMod, if_true, if_false, one_ne_zero, Nat.reduceEqDiff] <;>
    (apply t; rw [hV]; ring)

/-- **C64**: the divergence theorem on a tetrahedron, for the function `g` and the coordinate `c`: the integral of the derivative is the sum over the sides of
the integral of `g` times the coordinate of the outer normal. -/
theorem divergence {T : Nat → Nat → ℝ} (hv : Nondeg T) {n : Nat} {g d : (Nat → ℝ) → ℝ} (hg : Order.PolyLE n g) {c : Nat} (hc : c < 3)
    (hd : ∀ x, HasPartial g x c (d x)) {A : Nat → ℝ} {ν : Nat → Nat → ℝ}
    (hA : ∀ f, f < 4 → IsArea (A f) (T f) (T ((f + 1) % 4)) (T ((f + 2) % 4)))
    (hν : ∀ f, f < 4 → IsNormal (ν f) (T f) (T ((f + 1) % 4)) (T ((f + 2) % 4)) (T ((f + 3) % 4))) :
    ∑ f ∈ range 4, ν f c * overTri (A f) (T f) (T ((f + 1) % 4)) (T ((f + 2) % 4)) g = overTet T d := by
  obtain ⟨Q, -, hQ⟩ := hg
  have hdQ : ∀ x, d x = eval (fun i : Fin 3 => x i) (pderiv ⟨c, hc⟩ Q) := fun x => by
    have h1 := Order.eval_partial Q x ⟨c, hc⟩
    have h2 := hd x
    rw [show g = fun y => eval (fun i : Fin 3 => y i) Q from funext hQ] at h2
    exact h2.unique h1
  have hV : 0 ≤ volume T := div_nonneg (abs_nonneg _) (by norm_num)
  -- the sides
  have hside : ∀ f, f < 4 → ν f c * overTri (A f) (T f) (T ((f + 1) % 4)) (T ((f + 2) % 4)) g =
      -(3 * volume T) * (gam T f c * meanTri fun x y => g fun k => x * T f k + y * T ((f + 1) % 4) k + (1 - x - y) * T ((f + 2) % 4) k) := fun f hf => by
    have hvf : vol6 (T f) (T ((f + 1) % 4)) (T ((f + 2) % 4)) (T ((f + 3) % 4)) ≠ 0 := by
      rw [vol6_cyc T hf]
      exact mul_ne_zero (by split_ifs <;> norm_num) hv
    have h := area_normal hvf (hA f hf) (hν f hf) hc
    have habs : |vol6 (T f) (T ((f + 1) % 4)) (T ((f + 2) % 4)) (T ((f + 3) % 4))| = 6 * volume T := by
      rw [vol6_cyc T hf, abs_mul, volume]
      split_ifs <;> norm_num <;> ring
    unfold overTri
    rw [← mul_assoc, mul_comm (ν f c), h, habs]
    unfold gam
    ring
  simp only [sum_range_succ, range_zero, sum_empty, zero_add]
  rw [hside 0 (by omega), hside 1 (by omega), hside 2 (by omega), hside 3 (by omega)]
  -- the polynomials of the barycentric coordinates
  have hm := mean_div (sub4 T Q) ![gam T 1 c, gam T 2 c, gam T 3 c, gam T 0 c] (by
    have := gam_zero (T := T) hc
    simp only [Matrix.cons_val]
    linarith)
  have e1 : (fun x y z => ∑ m, (![gam T 1 c, gam T 2 c, gam T 3 c, gam T 0 c] : Fin 4 → ℝ) m * eval (tetPt x y z) (pderiv m (sub4 T Q))) =
      fun x y z => d fun k => x * T 0 k + y * T 1 k + z * T 2 k + (1 - x - y - z) * T 3 k := by
    funext x y z
    rw [hdQ]
    have hp : (fun i : Fin 3 => x * T 0 i + y * T 1 i + z * T 2 i + (1 - x - y - z) * T 3 i) = fun k : Fin 3 => ∑ m, tetPt x y z m * T m k := by
      funext k
      rw [Fin.sum_univ_four]
      simp [tetPt]
    rw [hp]
    simp only [pderiv_sub4, map_sum, map_mul, eval_C, eval_sub4]
    obtain ⟨q, hq⟩ : ∃ q : Fin 3 → ℝ, ∀ k, q k = eval (fun k : Fin 3 => ∑ m, tetPt x y z m * T m k) (pderiv k Q) := ⟨_, fun _ => rfl⟩
    simp only [← hq]
    have hdual := fun k : Fin 3 => gam_dual hv hc k.2
    rw [Fin.sum_univ_four]
    simp only [Matrix.cons_val, Fin.sum_univ_three]
    have d0 := hdual 0; have d1 := hdual 1; have d2 := hdual 2
    simp only [Fin.val_zero, Fin.val_one, Fin.val_two, Fin.isValue] at d0 d1 d2 ⊢
    have e : q ⟨c, hc⟩ = q 0 * (if c = 0 then 1 else 0) + q 1 * (if c = 1 then 1 else 0) + q 2 * (if c = 2 then 1 else 0) := by
      interval_cases c <;> simp
    rw [e, ← d0, ← d1, ← d2]
    simp only [show ((3 : Fin 4) : Nat) = 3 from rfl, show ((2 : Fin 4) : Nat) = 2 from rfl]
    ring
  have e2 : ∀ m : Fin 4, (fun x y => eval (triPt m x y) (sub4 T Q)) = fun x y => g fun k =>
      x * T ((m + 1) % 4) k + y * T ((m + 2) % 4) k + (1 - x - y) * T ((m + 3) % 4) k := by
    intro m
    funext x y
    rw [eval_sub4, hQ]
    congr 2
    funext k
    rw [Fin.sum_univ_four]
    fin_cases m <;> simp [triPt] <;> ring
  rw [e1] at hm
  simp only [e2] at hm
  unfold overTet
  rw [hm, Fin.sum_univ_four]
  simp only [Matrix.cons_val, Fin.val_zero, Fin.val_one, Fin.val_two, Fin.isValue, show ((3 : Fin 4) : Nat) = 3 from rfl, Nat.reduceAdd, Nat.reduceMod]
  ring

end Verif.Diverge
