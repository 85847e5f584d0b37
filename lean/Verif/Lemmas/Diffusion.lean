import Verif.Lemmas.Diverge2
import Verif.Spec.Diffusion
import Mathlib.Data.Fintype.Perm
import Mathlib.Algebra.BigOperators.Fin

/-! Integrals over the sides of a tetrahedron: linear, and independent of the order of the vertices. -/
namespace Verif.Diffusion

open MvPolynomial Verif.Spaces Verif.Order Verif.Driver Verif.Quad Verif.Diverge Finset

/-- the barycentric coordinates of a triangle put into a polynomial -/
noncomputable def sub3 (p : Fin 3 → Nat → ℝ) : MvPolynomial (Fin 3) ℝ →ₐ[ℝ] MvPolynomial (Fin 3) ℝ := bind₁ fun k : Fin 3 => ∑ m : Fin 3, C (p m k) * X m

theorem eval_sub3 (p : Fin 3 → Nat → ℝ) (Q : MvPolynomial (Fin 3) ℝ) (l : Fin 3 → ℝ) :
    eval l (sub3 p Q) = eval (fun k : Fin 3 => ∑ m, l m * p m k) Q := by
  unfold sub3
  rw [← coe_aeval_eq_eval, ← coe_aeval_eq_eval]
  simp only [RingHom.coe_coe, aeval_bind₁]
  congr 2
  funext k
  simp only [map_sum, map_mul, aeval_C, aeval_X, Algebra.algebraMap_self, RingHom.id_apply]
  exact sum_congr rfl fun m _ => mul_comm _ _

/-- the mean of a monomial of the barycentric coordinates -/
noncomputable def triW (m : Fin 3 →₀ ℕ) : ℝ := 2 * ((∏ j, (m j).factorial : ℕ) : ℝ) / ((∑ j, m j + 2).factorial : ℕ)

theorem eval_supp {s : Finset (Fin 3 →₀ ℕ)} {P : MvPolynomial (Fin 3) ℝ} (h : P.support ⊆ s) (l : Fin 3 → ℝ) :
    eval l P = ∑ m ∈ s, coeff m P * ∏ j, l j ^ m j := by
  rw [eval_eq']
  refine sum_subset h fun m _ hm => ?_
  rw [notMem_support_iff.1 hm, zero_mul]

/-- the mean over a triangle whose vertices are in any order -/
theorem meanTri_perm (p : Fin 3 → Nat → ℝ) (π : Equiv.Perm (Fin 3)) (Q : MvPolynomial (Fin 3) ℝ) {s : Finset (Fin 3 →₀ ℕ)}
    (hs : (sub3 p Q).support ⊆ s) :
    meanTri (fun x y => eval (fun k : Fin 3 => onTri (p (π 0)) (p (π 1)) (p (π 2)) x y k) Q) = ∑ m ∈ s, coeff m (sub3 p Q) * triW m := by
  have e : (fun x y => eval (fun k : Fin 3 => onTri (p (π 0)) (p (π 1)) (p (π 2)) x y k) Q) = fun x y : ℝ =>
      ∑ m ∈ s, coeff m (sub3 p Q) * (x ^ m (π 0) * y ^ m (π 1) * (1 - x - y) ^ m (π 2)) := by
    funext x y
    have h1 : (fun k : Fin 3 => onTri (p (π 0)) (p (π 1)) (p (π 2)) x y k) = fun k : Fin 3 => ∑ m, (fun j => (![x, y, 1 - x - y] : Fin 3 → ℝ) (π.symm j)) m * p m k := by
      funext k
      rw [← Equiv.sum_comp π, Fin.sum_univ_three]
      simp [onTri]
    rw [h1, ← eval_sub3, eval_supp hs]
    refine sum_congr rfl fun m _ => ?_
    rw [← Equiv.prod_comp π, Fin.prod_univ_three]
    simp
  rw [e, meanTri_terms3]
  refine sum_congr rfl fun m _ => ?_
  unfold triW
  rw [← Equiv.prod_comp π (fun j => (m j).factorial), ← Equiv.sum_comp π (fun j => m j), Fin.prod_univ_three, Fin.sum_univ_three]
  push_cast
  rfl

/-- the order of the vertices does not matter -/
theorem overTri_perm (A : ℝ) (p : Fin 3 → Nat → ℝ) (π : Equiv.Perm (Fin 3)) {n : Nat} {g : (Nat → ℝ) → ℝ} (hg : PolyLE n g) :
    overTri A (p (π 0)) (p (π 1)) (p (π 2)) g = overTri A (p 0) (p 1) (p 2) g := by
  obtain ⟨Q, -, hQ⟩ := hg
  have h1 := meanTri_perm p π Q (Finset.Subset.refl _)
  have h2 := meanTri_perm p 1 Q (Finset.Subset.refl _)
  unfold overTri
  congr 1
  simp only [hQ]
  exact h1.trans h2.symm

/-- the values on the plane of the triangle decide -/
theorem overTri_agree (A : ℝ) {p0 p1 p2 : Nat → ℝ} {g h : (Nat → ℝ) → ℝ} (e : AgreeOn p0 p1 p2 g h) : overTri A p0 p1 p2 g = overTri A p0 p1 p2 h := by
  unfold overTri
  congr 2
  funext x y
  exact e x y

/-- the integral of a combination -/
theorem overTri_add (A : ℝ) (p0 p1 p2 : Nat → ℝ) {n m : Nat} {f g : (Nat → ℝ) → ℝ} (hf : PolyLE n f) (hg : PolyLE m g) (a b : ℝ) :
    overTri A p0 p1 p2 (fun y => a * f y + b * g y) = a * overTri A p0 p1 p2 f + b * overTri A p0 p1 p2 g := by
  obtain ⟨P, -, hP⟩ := hf
  obtain ⟨Q, -, hQ⟩ := hg
  set p : Fin 3 → Nat → ℝ := ![p0, p1, p2] with hp
  set s := (sub3 p P).support ∪ ((sub3 p Q).support ∪ (sub3 p (C a * P + C b * Q)).support) with hs
  have h1 := meanTri_perm p 1 P (s := s) (by rw [hs]; exact subset_union_left)
  have h2 := meanTri_perm p 1 Q (s := s) (by rw [hs]; exact subset_union_left.trans subset_union_right)
  have h3 := meanTri_perm p 1 (C a * P + C b * Q) (s := s) (by rw [hs]; exact subset_union_right.trans subset_union_right)
  have e1 : meanTri (fun x y => f fun k => x * p0 k + y * p1 k + (1 - x - y) * p2 k) = ∑ m ∈ s, coeff m (sub3 p P) * triW m := by
    simp only [hP]; exact h1
  have e2 : meanTri (fun x y => g fun k => x * p0 k + y * p1 k + (1 - x - y) * p2 k) = ∑ m ∈ s, coeff m (sub3 p Q) * triW m := by
    simp only [hQ]; exact h2
  have e3 : meanTri (fun x y => (fun y => a * f y + b * g y) fun k => x * p0 k + y * p1 k + (1 - x - y) * p2 k) =
      ∑ m ∈ s, coeff m (sub3 p (C a * P + C b * Q)) * triW m := by
    rw [← h3]
    congr 1
    funext x y
    simp only [hP, hQ, map_add, map_mul, eval_C]
    rfl
  unfold overTri
  rw [e1, e2, e3]
  have hC : ∀ r : ℝ, sub3 p (C r) = C r := fun r => by simp [sub3]
  simp only [map_add, map_mul, hC, coeff_add, coeff_C_mul, mul_sum]
  rw [← sum_add_distrib]
  exact sum_congr rfl fun m _ => by ring

theorem overTri_zero (A : ℝ) (p0 p1 p2 : Nat → ℝ) : overTri A p0 p1 p2 (fun _ => 0) = 0 := by
  have := overTri_add A p0 p1 p2 (PolyLE.const 0 (0 : ℝ)) (PolyLE.const 0 (0 : ℝ)) 0 0
  simpa using this

theorem overTri_sum (A : ℝ) (p0 p1 p2 : Nat → ℝ) {m : Nat} (n : Nat) (v : Nat → ℝ) {f : Nat → (Nat → ℝ) → ℝ} (hf : ∀ k, k < n → PolyLE m (f k)) :
    overTri A p0 p1 p2 (fun y => ∑ k ∈ range n, v k * f k y) = ∑ k ∈ range n, v k * overTri A p0 p1 p2 (f k) := by
  induction n with
  | zero => simpa using overTri_zero A p0 p1 p2
  | succ n ih =>
    simp only [sum_range_succ]
    rw [← ih fun k hk => hf k (by omega)]
    have := overTri_add A p0 p1 p2 (polySum n fun k hk => (hf k (by omega)).smul (v k)) (hf n (by omega)) 1 (v n)
    simpa using this

/-- the area does not depend on the order of the vertices -/
theorem area_perm {A A' : ℝ} {p : Fin 3 → Nat → ℝ} (π : Equiv.Perm (Fin 3)) (h : IsArea A (p 0) (p 1) (p 2)) (h' : IsArea A' (p (π 0)) (p (π 1)) (p (π 2))) : A = A' := by
  have hπ : ∀ π : Equiv.Perm (Fin 3), (π 0 = 0 ∧ π 1 = 1 ∧ π 2 = 2) ∨ (π 0 = 0 ∧ π 1 = 2 ∧ π 2 = 1) ∨ (π 0 = 1 ∧ π 1 = 0 ∧ π 2 = 2) ∨
      (π 0 = 1 ∧ π 1 = 2 ∧ π 2 = 0) ∨ (π 0 = 2 ∧ π 1 = 0 ∧ π 2 = 1) ∨ (π 0 = 2 ∧ π 1 = 1 ∧ π 2 = 0) := by decide +kernel
  have hs : A * A = A' * A' := by
    have h1 := h.2
    have h2 := h'.2
    rcases hπ π with ⟨a, b, c⟩ | ⟨a, b, c⟩ | ⟨a, b, c⟩ | ⟨a, b, c⟩ | ⟨a, b, c⟩ | ⟨a, b, c⟩ <;> rw [a, b, c] at h2 <;>
      simp only [Geometry.dot, Geometry.diff] at h1 h2 <;> linarith
  rcases mul_self_eq_mul_self_iff.1 hs with e | e
  · exact e
  · linarith [h.1, h'.1]

end Verif.Diffusion
