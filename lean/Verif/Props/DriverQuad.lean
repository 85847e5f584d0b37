import Verif.Spec.Driver
import Verif.Props.Order
import Verif.Props.Quadrature

/-!
**C54**: the outputs of the library as sums and as integrals.
-/
namespace Verif.Driver

open Verif.Dense Verif.Spaces Verif.Order Verif.SpaceOp

/-! ### The formulas as the drivers see them -/

theorem sum_getD {β : Type} (g : β → ℝ) : ∀ l : List β, (l.map g).sum = ∑ n ∈ Finset.range l.length, (l.map g).getD n 0
  | [] => rfl
  | b :: l => by
    rw [List.map_cons, List.sum_cons, List.length_cons, Finset.sum_range_succ', sum_getD g l, add_comm]
    rfl

theorem mapM_length {β γ : Type} (get : β → Option γ) : ∀ (l : List β) (R : List γ), l.mapM get = some R → R.length = l.length
  | [], R, h => by
    rw [List.mapM_nil] at h
    cases h
    rfl
  | b :: l, R, h => by
    rw [List.mapM_cons] at h
    simp only [Option.bind_eq_bind, Option.bind_eq_some_iff, Option.pure_def, Option.some.injEq] at h
    obtain ⟨c, -, R', h', rfl⟩ := h
    rw [List.length_cons, List.length_cons, mapM_length get l R' h']

theorem points_length {get : Nat → Option (QPoint ℚ)} {np : Nat} {R : List (QPoint ℚ)} (h : Quad.points get np = some R) : R.length = np :=
  (mapM_length get _ R h).trans List.length_range

section
variable {d : Nat} {tol : ℚ} {sizes : List Nat} {Fm : Quad.Formula} {R : List (QPoint ℚ)}

theorem rule_at (h : Quad.Fine d tol sizes Fm R) {n : Nat} (hn : n < R.length) : (Rule.of Fm : Rule ℝ).w n = ((R[n]).w : ℝ) ∧
    ∀ k, k ≤ d → (Rule.of Fm : Rule ℝ).p ((d + 1) * n + k) = ((R[n]).p k : ℝ) := by
  constructor
  · change ((Fm.w.getD n 0 : ℚ) : ℝ) = _
    rw [h.weights, List.getD_eq_getElem?_getD, List.getElem?_map, List.getElem?_eq_getElem hn]
    rfl
  · intro k hk
    change ((Fm.p.getD ((d + 1) * n + k) 0 : ℚ) : ℝ) = _
    rw [List.getD_eq_getElem?_getD, h.stored n _ (List.getElem?_eq_getElem hn) k hk]
    rfl

/-- the sum over the points of the driver is the rule of C37 -/
theorem rule_sum (h : Quad.Fine d tol sizes Fm R) (hl : R.length = Fm.np) (g : (Nat → ℝ) → ℝ)
    (hg : ∀ p p' : Nat → ℝ, (∀ k, k ≤ d → p k = p' k) → g p = g p') :
    ∑ n ∈ Finset.range Fm.np, (Rule.of Fm : Rule ℝ).w n * g (fun k => (Rule.of Fm : Rule ℝ).p ((d + 1) * n + k)) = Quad.apply R g := by
  unfold Quad.apply
  rw [sum_getD, hl]
  refine Finset.sum_congr rfl fun n hn => ?_
  have hn := (Finset.mem_range.1 hn).trans_eq hl.symm
  obtain ⟨h1, h2⟩ := rule_at h hn
  rw [h1, List.getD_eq_getElem?_getD, List.getElem?_map, List.getElem?_eq_getElem hn]
  change _ = _ * _
  rw [hg _ _ h2]

theorem rule_one (h : Quad.Fine d tol sizes Fm R) (hl : R.length = Fm.np) {n : Nat} (hn : n < Fm.np) :
    ∑ k ∈ Finset.range (d + 1), (Rule.of Fm : Rule ℝ).p ((d + 1) * n + k) = 1 := by
  have hn := hn.trans_eq hl.symm
  have h1 := h.proper.one (R[n]) (List.getElem_mem hn)
  have h2 : ((List.range (d + 1)).map (R[n]).p).sum = ∑ k ∈ Finset.range (d + 1), (R[n]).p k := (Finset.sum_list_map_count _ _).trans (by
    rw [List.toFinset_range]
    exact Finset.sum_congr rfl fun k hk => by
      rw [List.count_eq_one_of_mem List.nodup_range (List.mem_range.2 (Finset.mem_range.1 hk)), one_smul])
  rw [Finset.sum_congr rfl fun k hk => (rule_at h hn).2 k (by have := Finset.mem_range.1 hk; omega)]
  rw [h2] at h1
  exact_mod_cast congrArg (fun t : ℚ => (t : ℝ)) h1

theorem rule_pos (h : Quad.Fine d tol sizes Fm R) (hl : R.length = Fm.np) : 0 < Fm.np :=
  hl ▸ List.length_pos_iff.2 h.proper.nonempty

end

/-! ### Polynomials in barycentric coordinates -/

theorem bary_degree (d : Nat) (V : Nat → Nat → ℝ) (c : Fin 3) : (bary d V c).totalDegree ≤ 1 := by
  have hX : (∑ i : Fin d, (MvPolynomial.X i : MvPolynomial (Fin d) ℝ)).totalDegree ≤ 1 :=
    MvPolynomial.totalDegree_finsetSum_le fun i _ => (MvPolynomial.totalDegree_X i).le
  have hC : ∀ (s : ℝ) (p : MvPolynomial (Fin d) ℝ), p.totalDegree ≤ 1 → (MvPolynomial.C s * p).totalDegree ≤ 1 := fun s p hp =>
    (MvPolynomial.totalDegree_mul _ _).trans (by rw [MvPolynomial.totalDegree_C]; omega)
  refine (MvPolynomial.totalDegree_add _ _).trans (max_le (MvPolynomial.totalDegree_finsetSum_le fun i _ => hC _ _ (MvPolynomial.totalDegree_X i).le)
    (hC _ _ ((MvPolynomial.totalDegree_sub _ _).trans (max_le ?_ hX))))
  rw [MvPolynomial.totalDegree_one]
  omega

theorem bind_bary_degree (d : Nat) (V : Nat → Nat → ℝ) (Q : MvPolynomial (Fin 3) ℝ) :
    (MvPolynomial.bind₁ (bary d V) Q).totalDegree ≤ Q.totalDegree := by
  rw [MvPolynomial.bind₁, MvPolynomial.aeval_def, MvPolynomial.eval₂_eq']
  refine MvPolynomial.totalDegree_finsetSum_le fun m hm => ?_
  refine (MvPolynomial.totalDegree_mul _ _).trans ?_
  rw [MvPolynomial.algebraMap_eq, MvPolynomial.totalDegree_C, Nat.zero_add]
  refine (MvPolynomial.totalDegree_finsetProd _ _).trans ?_
  have h := Quad.deg_le (le_refl Q.totalDegree) hm
  refine (Finset.sum_le_sum fun i _ => ?_).trans h
  exact (MvPolynomial.totalDegree_pow _ _).trans (by have := Nat.mul_le_mul_left (m i) (bary_degree d V i); omega)

theorem bary_eval (d : Nat) (V : Nat → Nat → ℝ) (Q : MvPolynomial (Fin 3) ℝ) (l : Fin d → ℝ) :
    MvPolynomial.eval l (MvPolynomial.bind₁ (bary d V) Q) =
      MvPolynomial.eval (fun c : Fin 3 => (∑ i, l i * V i c) + (1 - ∑ i, l i) * V d c) Q := by
  rw [← MvPolynomial.coe_aeval_eq_eval, ← MvPolynomial.coe_aeval_eq_eval]
  simp only [RingHom.coe_coe, MvPolynomial.aeval_bind₁]
  congr 2
  funext c
  simp only [bary, map_add, map_sum, map_mul, map_sub, map_one, MvPolynomial.aeval_C, MvPolynomial.aeval_X, Algebra.algebraMap_self, RingHom.id_apply]
  congr 1
  · exact Finset.sum_congr rfl fun i _ => mul_comm _ _
  · exact mul_comm _ _

/-- a formula that is good for polynomials is good on a simplex -/
theorem near_of {d n : Nat} {A : ℝ} (hA : 0 ≤ A) {V : Nat → Nat → ℝ} {g : (Nat → ℝ) → ℝ} (hg : PolyLE n g) {s I : ℝ}
    (h : ∀ Q : MvPolynomial (Fin 3) ℝ, Q.totalDegree ≤ n → (∀ y : Nat → ℝ, g y = MvPolynomial.eval (fun i : Fin 3 => y i) Q) →
      |s - I| ≤ 1 / 10 ^ 48 * Quad.size (MvPolynomial.bind₁ (bary d V) Q)) : Near d n A V g (A * s) (A * I) := by
  obtain ⟨Q, h1, h2⟩ := hg
  refine ⟨Q, h1, h2, ?_⟩
  rw [← mul_sub, abs_mul, abs_of_nonneg hA, mul_comm (1 / 10 ^ 48) A, mul_assoc]
  exact mul_le_mul_of_nonneg_left (h Q h1 h2) hA

/-- **C54** the formula of C37 of an order, for a tetrahedron, as the driver uses it -/
theorem tet_formula {order : Int} (h0 : 0 ≤ order) (h1 : order ≤ 20) : ∃ Fm, Quad.tetrahedron order = some Fm ∧ 0 < Fm.np ∧
    (∀ n, n < Fm.np → (Rule.of Fm : Rule ℝ).p (4 * n) + (Rule.of Fm : Rule ℝ).p (4 * n + 1) + (Rule.of Fm : Rule ℝ).p (4 * n + 2) +
      (Rule.of Fm : Rule ℝ).p (4 * n + 3) = 1) ∧
    ∀ (T : Nat → Nat → ℝ) (g : (Nat → ℝ) → ℝ), PolyLE order.toNat g → Near 3 order.toNat (volume T) T g
      (∑ n ∈ Finset.range Fm.np, (Rule.of Fm : Rule ℝ).w n * volume T * g (mix T fun c => (Rule.of Fm : Rule ℝ).p (4 * n + c))) (overTet T g) := by
  obtain ⟨Fm, R, a, b, h, hP⟩ := Quad.tetrahedron_all h0 h1
  have hl := points_length b
  refine ⟨Fm, a, rule_pos h hl, fun n hn => ?_, fun T g hg => ?_⟩
  · have := rule_one h hl hn
    simpa only [Finset.sum_range_succ, Finset.sum_range_zero, zero_add, Nat.add_zero] using this
  · have e : ∑ n ∈ Finset.range Fm.np, (Rule.of Fm : Rule ℝ).w n * volume T * g (mix T fun c => (Rule.of Fm : Rule ℝ).p (4 * n + c)) =
        volume T * Quad.apply R fun p => g (mix T p) := by
      rw [← rule_sum h hl (fun p => g (mix T p)) fun p p' hp => congrArg g (funext fun k => by
        rw [mix, mix, hp 0 (by omega), hp 1 (by omega), hp 2 (by omega), hp 3 (by omega)]), Finset.mul_sum]
      exact Finset.sum_congr rfl fun n _ => by ring
    rw [e]
    refine near_of (div_nonneg (abs_nonneg _) (by norm_num)) hg fun Q hQ hgQ => ?_
    have key := hP (MvPolynomial.bind₁ (bary 3 T) Q) ((bind_bary_degree 3 T Q).trans hQ)
    have ev : ∀ x y z : ℝ, MvPolynomial.eval ![x, y, z] (MvPolynomial.bind₁ (bary 3 T) Q) =
        g fun k => x * T 0 k + y * T 1 k + z * T 2 k + (1 - x - y - z) * T 3 k := by
      intro x y z
      rw [bary_eval, hgQ]
      congr 2
      funext c
      simp [Fin.sum_univ_succ]
      ring
    have e1 : Quad.apply R (fun p => MvPolynomial.eval ![p 0, p 1, p 2] (MvPolynomial.bind₁ (bary 3 T) Q)) = Quad.apply R fun p => g (mix T p) := by
      unfold Quad.apply
      refine congrArg List.sum (List.map_congr_left fun q hq => ?_)
      simp only [ev]
      have h1 := h.proper.one q hq
      simp only [List.range_succ, List.range_zero, List.nil_append, List.map_append, List.map_cons, List.map_nil, List.sum_append,
        List.sum_cons, List.sum_nil, add_zero] at h1
      have h2 : (1 : ℝ) - (q.p 0 : ℝ) - (q.p 1 : ℝ) - (q.p 2 : ℝ) = (q.p 3 : ℝ) := by
        have : ((q.p 0 + q.p 1 + q.p 2 + q.p 3 : ℚ) : ℝ) = 1 := by
          rw [show q.p 0 + q.p 1 + q.p 2 + q.p 3 = 1 by linarith]
          norm_num
        push_cast at this
        linarith
      rw [h2]
      rfl
    rw [e1] at key
    simp only [ev] at key
    exact key

/-- **C54** the same for a triangle; `V` are its vertices -/
theorem tri_formula {order : Int} (h0 : 0 ≤ order) (h1 : order ≤ 20) : ∃ Fm, Quad.triangle order = some Fm ∧ 0 < Fm.np ∧
    (∀ n, n < Fm.np → (Rule.of Fm : Rule ℝ).p (3 * n) + (Rule.of Fm : Rule ℝ).p (3 * n + 1) + (Rule.of Fm : Rule ℝ).p (3 * n + 2) = 1) ∧
    ∀ (A : ℝ) (V : Nat → Nat → ℝ) (g : (Nat → ℝ) → ℝ), 0 ≤ A → PolyLE order.toNat g → Near 2 order.toNat A V g
      (∑ n ∈ Finset.range Fm.np, (Rule.of Fm : Rule ℝ).w n * A * g (fun k => (Rule.of Fm : Rule ℝ).p (3 * n) * V 0 k +
        (Rule.of Fm : Rule ℝ).p (3 * n + 1) * V 1 k + (Rule.of Fm : Rule ℝ).p (3 * n + 2) * V 2 k)) (overTri A (V 0) (V 1) (V 2) g) := by
  obtain ⟨Fm, R, a, b, h, hP⟩ := Quad.triangle_all h0 h1
  have hl := points_length b
  refine ⟨Fm, a, rule_pos h hl, fun n hn => ?_, fun A V g hA hg => ?_⟩
  · have := rule_one h hl hn
    simpa only [Finset.sum_range_succ, Finset.sum_range_zero, zero_add, Nat.add_zero] using this
  · have e : ∑ n ∈ Finset.range Fm.np, (Rule.of Fm : Rule ℝ).w n * A * g (fun k => (Rule.of Fm : Rule ℝ).p (3 * n) * V 0 k +
        (Rule.of Fm : Rule ℝ).p (3 * n + 1) * V 1 k + (Rule.of Fm : Rule ℝ).p (3 * n + 2) * V 2 k) =
        A * Quad.apply R fun p => g fun k => p 0 * V 0 k + p 1 * V 1 k + p 2 * V 2 k := by
      rw [← rule_sum h hl (fun p => g fun k => p 0 * V 0 k + p 1 * V 1 k + p 2 * V 2 k) fun p p' hp => congrArg g (funext fun k => by
        rw [hp 0 (by omega), hp 1 (by omega), hp 2 (by omega)]), Finset.mul_sum]
      exact Finset.sum_congr rfl fun n _ => by simp only [Nat.add_zero]; ring
    rw [e]
    refine near_of hA hg fun Q hQ hgQ => ?_
    have key := hP (MvPolynomial.bind₁ (bary 2 V) Q) ((bind_bary_degree 2 V Q).trans hQ)
    have ev : ∀ x y : ℝ, MvPolynomial.eval ![x, y] (MvPolynomial.bind₁ (bary 2 V) Q) =
        g fun k => x * V 0 k + y * V 1 k + (1 - x - y) * V 2 k := by
      intro x y
      rw [bary_eval, hgQ]
      congr 2
      funext c
      simp only [Fin.sum_univ_two, Fin.isValue, Matrix.cons_val_zero, Matrix.cons_val_one, Fin.val_zero, Fin.val_one]
      ring
    have e1 : Quad.apply R (fun p => MvPolynomial.eval ![p 0, p 1] (MvPolynomial.bind₁ (bary 2 V) Q)) =
        Quad.apply R fun p => g fun k => p 0 * V 0 k + p 1 * V 1 k + p 2 * V 2 k := by
      unfold Quad.apply
      refine congrArg List.sum (List.map_congr_left fun q hq => ?_)
      simp only [ev]
      have h1 := h.proper.one q hq
      simp only [List.range_succ, List.range_zero, List.nil_append, List.map_append, List.map_cons, List.map_nil, List.sum_append,
        List.sum_cons, List.sum_nil, add_zero] at h1
      have h2 : (1 : ℝ) - (q.p 0 : ℝ) - (q.p 1 : ℝ) = (q.p 2 : ℝ) := by
        have : ((q.p 0 + q.p 1 + q.p 2 : ℚ) : ℝ) = 1 := by
          rw [show q.p 0 + q.p 1 + q.p 2 = 1 by linarith]
          norm_num
        push_cast at this
        linarith
      rw [h2]
    rw [e1] at key
    simp only [ev] at key
    exact key

/-- **C54** the same for a segment -/
theorem seg_formula {order : Int} (h0 : 0 ≤ order) (h1 : order ≤ 21) : ∃ Fm, Quad.segment order = some Fm ∧ 0 < Fm.np ∧
    (∀ n, n < Fm.np → (Rule.of Fm : Rule ℝ).p (2 * n) + (Rule.of Fm : Rule ℝ).p (2 * n + 1) = 1) ∧
    ∀ (A : ℝ) (V : Nat → Nat → ℝ) (g : (Nat → ℝ) → ℝ), 0 ≤ A → PolyLE order.toNat g → Near 1 order.toNat A V g
      (∑ n ∈ Finset.range Fm.np, (Rule.of Fm : Rule ℝ).w n * A * g (fun k => (Rule.of Fm : Rule ℝ).p (2 * n) * V 0 k +
        (Rule.of Fm : Rule ℝ).p (2 * n + 1) * V 1 k)) (overSeg A (V 0) (V 1) g) := by
  obtain ⟨Fm, R, a, b, h, hP⟩ := Quad.segment_all h0 h1
  have hl := points_length b
  refine ⟨Fm, a, rule_pos h hl, fun n hn => ?_, fun A V g hA hg => ?_⟩
  · have := rule_one h hl hn
    simpa only [Finset.sum_range_succ, Finset.sum_range_zero, zero_add, Nat.add_zero] using this
  · have e : ∑ n ∈ Finset.range Fm.np, (Rule.of Fm : Rule ℝ).w n * A * g (fun k => (Rule.of Fm : Rule ℝ).p (2 * n) * V 0 k +
        (Rule.of Fm : Rule ℝ).p (2 * n + 1) * V 1 k) = A * Quad.apply R fun p => g fun k => p 0 * V 0 k + p 1 * V 1 k := by
      rw [← rule_sum h hl (fun p => g fun k => p 0 * V 0 k + p 1 * V 1 k) fun p p' hp => congrArg g (funext fun k => by
        rw [hp 0 (by omega), hp 1 (by omega)]), Finset.mul_sum]
      exact Finset.sum_congr rfl fun n _ => by simp only [Nat.add_zero]; ring
    rw [e]
    refine near_of hA hg fun Q hQ hgQ => ?_
    have key := hP (MvPolynomial.bind₁ (bary 1 V) Q) ((bind_bary_degree 1 V Q).trans hQ)
    have ev : ∀ x : ℝ, MvPolynomial.eval ![x] (MvPolynomial.bind₁ (bary 1 V) Q) = g fun k => x * V 0 k + (1 - x) * V 1 k := by
      intro x
      rw [bary_eval, hgQ]
      congr 2
      funext c
      simp
    have e1 : Quad.apply R (fun p => MvPolynomial.eval ![p 0] (MvPolynomial.bind₁ (bary 1 V) Q)) =
        Quad.apply R fun p => g fun k => p 0 * V 0 k + p 1 * V 1 k := by
      unfold Quad.apply
      refine congrArg List.sum (List.map_congr_left fun q hq => ?_)
      simp only [ev]
      have h1 := h.proper.one q hq
      simp only [List.range_succ, List.range_zero, List.nil_append, List.map_append, List.map_cons, List.map_nil, List.sum_append,
        List.sum_cons, List.sum_nil, add_zero] at h1
      have h2 : (1 : ℝ) - (q.p 0 : ℝ) = (q.p 1 : ℝ) := by
        have : ((q.p 0 + q.p 1 : ℚ) : ℝ) = 1 := by
          rw [show q.p 0 + q.p 1 = 1 by linarith]
          norm_num
        push_cast at this
        linarith
      rw [h2]
    rw [e1] at key
    simp only [ev] at key
    exact key

end Verif.Driver
