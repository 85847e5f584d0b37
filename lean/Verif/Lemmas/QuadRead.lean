import Mathlib.Tactic.IntervalCases
import Mathlib.Algebra.Order.BigOperators.Group.Finset
import Mathlib.Algebra.BigOperators.Fin
import Mathlib.Algebra.MvPolynomial.Eval
import Verif.Lemmas.QuadSound
import Verif.Lemmas.QuadIntegral

/-! Reading the points of a formula, and the passage from moments to polynomials. -/
namespace Verif.Quad

/-- The point of a segment formula given by a row. -/
def Row.q1 (r : Row ℚ) : Spaces.QPoint ℚ := ⟨fun k => [r.x, 1 - r.x].getD k 0, r.w⟩
/-- The point of a triangle formula given by a row. -/
def Row.q2 (r : Row ℚ) : Spaces.QPoint ℚ := ⟨fun k => [r.x, r.y, 1 - r.x - r.y].getD k 0, r.w⟩
/-- The point of a tetrahedron formula given by a row. -/
def Row.q3 (r : Row ℚ) : Spaces.QPoint ℚ := ⟨fun k => [r.x, r.y, r.z, 1 - r.x - r.y - r.z].getD k 0, r.w⟩

theorem mapM_some {α β : Type} (f : α → Option β) (g : α → β) (l : List α) (h : ∀ i ∈ l, f i = some (g i)) :
    l.mapM f = some (l.map g) := by
  induction l with
  | nil => rfl
  | cons a l ih =>
    rw [List.mapM_cons, h a List.mem_cons_self, ih fun i hi => h i (List.mem_cons_of_mem _ hi)]
    rfl

theorem points_eq {get : Nat → Option (Spaces.QPoint ℚ)} (L : List (Spaces.QPoint ℚ)) (h : ∀ i < L.length, get i = L[i]?) :
    points get L.length = some L := by
  unfold points
  rcases L with _ | ⟨q, L⟩
  · rfl
  rw [mapM_some get (fun i => (q :: L).getD i q)]
  · congr 1
    refine List.ext_getElem (by simp) fun i h1 h2 => ?_
    simp only [List.getElem_map, List.getElem_range]
    rw [List.getD_eq_getElem?_getD, List.getElem?_eq_getElem (by simpa using h2), Option.getD_some]
  · intro i hi
    have hi' := List.mem_range.1 hi
    rw [h i hi', List.getD_eq_getElem?_getD, List.getElem?_eq_getElem hi', Option.getD_some]

theorem rows1_get {A : Type} (z : A) (ws mem : List A) (h : mem.length = 2 * ws.length) :
    (rows1 z ws mem).length = ws.length ∧ ∀ i < ws.length, ∃ w x y, ws[i]? = some w ∧ mem[2 * i + 0]? = some x ∧
      mem[2 * i + 1]? = some y ∧ (rows1 z ws mem)[i]? = some ⟨w, x, z, z⟩ := by
  induction ws generalizing mem with
  | nil => exact ⟨by rcases mem with _ | ⟨_, _ | ⟨_, _⟩⟩ <;> rfl, fun i hi => absurd hi (by simp)⟩
  | cons w ws ih =>
    rcases mem with _ | ⟨x, _ | ⟨y, r⟩⟩
    · simp at h
    · simp at h; omega
    · have hr : r.length = 2 * ws.length := by simp only [List.length_cons] at h; omega
      obtain ⟨h1, h2⟩ := ih r hr
      refine ⟨by simp [rows1, h1], fun i hi => ?_⟩
      rcases i with _ | i
      · exact ⟨w, x, y, rfl, rfl, rfl, rfl⟩
      · obtain ⟨w', x', y', a, b, c, d⟩ := h2 i (by simpa using hi)
        exact ⟨w', x', y', a, b, c, d⟩

theorem rows2_get {A : Type} (z : A) (ws mem : List A) (h : mem.length = 3 * ws.length) :
    (rows2 z ws mem).length = ws.length ∧ ∀ i < ws.length, ∃ w x y u, ws[i]? = some w ∧ mem[3 * i + 0]? = some x ∧
      mem[3 * i + 1]? = some y ∧ mem[3 * i + 2]? = some u ∧ (rows2 z ws mem)[i]? = some ⟨w, x, y, z⟩ := by
  induction ws generalizing mem with
  | nil => exact ⟨by rcases mem with _ | ⟨_, _ | ⟨_, _ | ⟨_, _⟩⟩⟩ <;> rfl, fun i hi => absurd hi (by simp)⟩
  | cons w ws ih =>
    rcases mem with _ | ⟨x, _ | ⟨y, _ | ⟨u, r⟩⟩⟩
    · simp at h
    · simp at h; omega
    · simp at h; omega
    · have hr : r.length = 3 * ws.length := by simp only [List.length_cons] at h; omega
      obtain ⟨h1, h2⟩ := ih r hr
      refine ⟨by simp [rows2, h1], fun i hi => ?_⟩
      rcases i with _ | i
      · exact ⟨w, x, y, u, rfl, rfl, rfl, rfl, rfl⟩
      · exact h2 i (by simpa using hi)

theorem rows3_get {A : Type} (ws mem : List A) (h : mem.length = 4 * ws.length) :
    (rows3 ws mem).length = ws.length ∧ ∀ i < ws.length, ∃ w x y z u, ws[i]? = some w ∧ mem[4 * i + 0]? = some x ∧
      mem[4 * i + 1]? = some y ∧ mem[4 * i + 2]? = some z ∧ mem[4 * i + 3]? = some u ∧
      (rows3 ws mem)[i]? = some ⟨w, x, y, z⟩ := by
  induction ws generalizing mem with
  | nil => exact ⟨by rcases mem with _ | ⟨_, _ | ⟨_, _ | ⟨_, _ | ⟨_, _⟩⟩⟩⟩ <;> rfl, fun i hi => absurd hi (by simp)⟩
  | cons w ws ih =>
    rcases mem with _ | ⟨x, _ | ⟨y, _ | ⟨z, _ | ⟨u, r⟩⟩⟩⟩
    · simp at h
    · simp at h; omega
    · simp at h; omega
    · simp at h; omega
    · have hr : r.length = 4 * ws.length := by simp only [List.length_cons] at h; omega
      obtain ⟨h1, h2⟩ := ih r hr
      refine ⟨by simp [rows3, h1], fun i hi => ?_⟩
      rcases i with _ | i
      · exact ⟨w, x, y, z, u, rfl, rfl, rfl, rfl, rfl, rfl⟩
      · exact h2 i (by simpa using hi)

theorem seg_points (f : Formula) (hl : f.p.length = 2 * f.w.length) (hn : f.np = f.w.length) :
    points (segPoint f) f.np = some ((rows1 0 f.w f.p).map Row.q1) := by
  obtain ⟨h1, h2⟩ := rows1_get (0 : ℚ) f.w f.p hl
  have hL : f.np = ((rows1 0 f.w f.p).map Row.q1).length := by rw [List.length_map, h1, hn]
  rw [hL]
  refine points_eq _ fun i hi => ?_
  rw [← hL] at hi
  obtain ⟨w, x, y, a, b, c, d⟩ := h2 i (hn ▸ hi)
  simp only [segPoint, guard, hi, if_true, a, b, List.getElem?_map, d]
  rfl

theorem tri_points (f : Formula) (hl : f.p.length = 3 * f.w.length) (hn : f.np = f.w.length) :
    points (triPoint f) f.np = some ((rows2 0 f.w f.p).map Row.q2) := by
  obtain ⟨h1, h2⟩ := rows2_get (0 : ℚ) f.w f.p hl
  have hL : f.np = ((rows2 0 f.w f.p).map Row.q2).length := by rw [List.length_map, h1, hn]
  rw [hL]
  refine points_eq _ fun i hi => ?_
  rw [← hL] at hi
  obtain ⟨w, x, y, u, a, b, c, e, d⟩ := h2 i (hn ▸ hi)
  simp only [triPoint, guard, hi, if_true, a, b, c, List.getElem?_map, d]
  rfl

theorem tet_points (f : Formula) (hl : f.p.length = 4 * f.w.length) (hn : f.np = f.w.length) :
    points (tetPoint f) f.np = some ((rows3 f.w f.p).map Row.q3) := by
  obtain ⟨h1, h2⟩ := rows3_get f.w f.p hl
  have hL : f.np = ((rows3 f.w f.p).map Row.q3).length := by rw [List.length_map, h1, hn]
  rw [hL]
  refine points_eq _ fun i hi => ?_
  rw [← hL] at hi
  obtain ⟨w, x, y, z, u, a, b, c, e, g, d⟩ := h2 i (hn ▸ hi)
  simp only [tetPoint, guard, hi, if_true, a, b, c, e, List.getElem?_map, d]
  rfl

/-! ### From moments to polynomials -/

theorem cast_total (R : List (Row ℚ)) (a b c : Nat) :
    ((total R fun x y z => x ^ a * y ^ b * z ^ c : ℚ) : ℝ) =
      (R.map fun r => (r.w : ℝ) * ((r.x : ℝ) ^ a * (r.y : ℝ) ^ b * (r.z : ℝ) ^ c)).sum := by
  induction R with
  | nil => simp [total]
  | cons r R ih =>
    have : total (r :: R) (fun x y z => x ^ a * y ^ b * z ^ c) =
      r.w * (r.x ^ a * r.y ^ b * r.z ^ c) + total R (fun x y z => x ^ a * y ^ b * z ^ c) := rfl
    rw [this, List.map_cons, List.sum_cons, ← ih]
    push_cast
    ring

theorem sum_terms {ι : Type} (s : Finset ι) (k : ι → ℝ) (R : List (Row ℚ)) (t : ι → Row ℚ → ℝ) :
    (R.map fun r => (r.w : ℝ) * ∑ m ∈ s, k m * t m r).sum = ∑ m ∈ s, k m * (R.map fun r => (r.w : ℝ) * t m r).sum := by
  induction R with
  | nil => simp
  | cons r R ih =>
    rw [List.map_cons, List.sum_cons, ih, Finset.mul_sum, ← Finset.sum_add_distrib]
    refine Finset.sum_congr rfl fun m _ => ?_
    rw [List.map_cons, List.sum_cons]
    ring

/-- The difference of two sums with the same coefficients. -/
theorem close_terms {ι : Type} (s : Finset ι) (k u v : ι → ℝ) (tol : ℝ) (h : ∀ m ∈ s, |u m - v m| ≤ tol) :
    |∑ m ∈ s, k m * u m - ∑ m ∈ s, k m * v m| ≤ tol * ∑ m ∈ s, |k m| := by
  rw [← Finset.sum_sub_distrib, Finset.mul_sum]
  refine (Finset.abs_sum_le_sum_abs _ _).trans (Finset.sum_le_sum fun m hm => ?_)
  rw [← mul_sub, abs_mul, mul_comm]
  exact mul_le_mul_of_nonneg_right (h m hm) (abs_nonneg _)

/-- The value the moment `a, b, c` should have. -/
def target (d a b c : Nat) : ℚ :=
  (d.factorial * (a.factorial * b.factorial * c.factorial) : ℕ) / ((a + b + c + d).factorial : ℕ)

theorem cast_close {R : List (Row ℚ)} {d a b c : Nat}
    (h : |total R (fun x y z => x ^ a * y ^ b * z ^ c) - target d a b c| ≤ 1 / 10 ^ 48) :
    |(R.map fun r => (r.w : ℝ) * ((r.x : ℝ) ^ a * (r.y : ℝ) ^ b * (r.z : ℝ) ^ c)).sum -
      (d.factorial * (a.factorial * b.factorial * c.factorial) : ℕ) / ((a + b + c + d).factorial : ℕ)| ≤ 1 / 10 ^ 48 := by
  rw [← cast_total]
  have := (Rat.cast_le (K := ℝ)).2 h
  rw [Rat.cast_abs, Rat.cast_sub] at this
  unfold target at this
  push_cast at this ⊢
  exact this

theorem deg_le {n : Nat} {P : MvPolynomial (Fin n) ℝ} {N : Nat} (h : P.totalDegree ≤ N) {m : Fin n →₀ ℕ} (hm : m ∈ P.support) :
    ∑ i, m i ≤ N := by
  have := (MvPolynomial.le_totalDegree hm).trans h
  rwa [Finsupp.sum_fintype _ _ (fun _ => rfl)] at this

theorem tet_poly {R : List (Row ℚ)} {n : Nat}
    (h : ∀ a b c, a + b + c ≤ n → |total R (fun x y z => x ^ a * y ^ b * z ^ c) - target 3 a b c| ≤ 1 / 10 ^ 48)
    (P : MvPolynomial (Fin 3) ℝ) (hP : P.totalDegree ≤ n) :
    |apply (R.map Row.q3) (fun p => P.eval ![p 0, p 1, p 2]) - meanTet (fun x y z => P.eval ![x, y, z])| ≤ 1 / 10 ^ 48 * size P := by
  have e1 : apply (R.map Row.q3) (fun p => P.eval ![p 0, p 1, p 2]) =
      ∑ m ∈ P.support, P.coeff m * (R.map fun r => (r.w : ℝ) * ((r.x : ℝ) ^ m 0 * (r.y : ℝ) ^ m 1 * (r.z : ℝ) ^ m 2)).sum := by
    rw [← sum_terms, apply, List.map_map]
    refine congrArg List.sum (List.map_congr_left fun r _ => ?_)
    simp only [Function.comp_apply, MvPolynomial.eval_eq', Fin.prod_univ_three]
    rfl
  have e2 : meanTet (fun x y z => P.eval ![x, y, z]) = ∑ m ∈ P.support, P.coeff m * _ :=
    Eq.trans (by simp only [MvPolynomial.eval_eq', Fin.prod_univ_three]; rfl)
      (meanTet_terms P.support P.coeff (fun m => m 0) (fun m => m 1) (fun m => m 2))
  rw [e1, e2]
  refine close_terms _ _ _ _ _ fun m hm => cast_close (h _ _ _ ?_)
  have := deg_le hP hm
  rwa [Fin.sum_univ_three] at this

theorem tri_poly {R : List (Row ℚ)} {n : Nat}
    (h : ∀ a b, a + b ≤ n → |total R (fun x y z => x ^ a * y ^ b * z ^ 0) - target 2 a b 0| ≤ 1 / 10 ^ 48)
    (P : MvPolynomial (Fin 2) ℝ) (hP : P.totalDegree ≤ n) :
    |apply (R.map Row.q2) (fun p => P.eval ![p 0, p 1]) - meanTri (fun x y => P.eval ![x, y])| ≤ 1 / 10 ^ 48 * size P := by
  have e1 : apply (R.map Row.q2) (fun p => P.eval ![p 0, p 1]) =
      ∑ m ∈ P.support, P.coeff m * (R.map fun r => (r.w : ℝ) * ((r.x : ℝ) ^ m 0 * (r.y : ℝ) ^ m 1 * (r.z : ℝ) ^ 0)).sum := by
    rw [← sum_terms, apply, List.map_map]
    refine congrArg List.sum (List.map_congr_left fun r _ => ?_)
    simp only [Function.comp_apply, MvPolynomial.eval_eq', Fin.prod_univ_two, pow_zero, mul_one]
    rfl
  have e2 : meanTri (fun x y => P.eval ![x, y]) = ∑ m ∈ P.support, P.coeff m * _ :=
    Eq.trans (by simp only [MvPolynomial.eval_eq', Fin.prod_univ_two]; rfl)
      (meanTri_terms P.support P.coeff (fun m => m 0) (fun m => m 1))
  rw [e1, e2]
  refine close_terms _ _ _ _ _ fun m hm => cast_close (h _ _ ?_)
  have := deg_le hP hm
  rwa [Fin.sum_univ_two] at this

theorem seg_poly {R : List (Row ℚ)} {n : Nat}
    (h : ∀ a, a ≤ n → |total R (fun x y z => x ^ a * y ^ 0 * z ^ 0) - target 1 a 0 0| ≤ 1 / 10 ^ 48)
    (P : MvPolynomial (Fin 1) ℝ) (hP : P.totalDegree ≤ n) :
    |apply (R.map Row.q1) (fun p => P.eval ![p 0]) - meanSeg (fun x => P.eval ![x])| ≤ 1 / 10 ^ 48 * size P := by
  have e1 : apply (R.map Row.q1) (fun p => P.eval ![p 0]) =
      ∑ m ∈ P.support, P.coeff m * (R.map fun r => (r.w : ℝ) * ((r.x : ℝ) ^ m 0 * (r.y : ℝ) ^ 0 * (r.z : ℝ) ^ 0)).sum := by
    rw [← sum_terms, apply, List.map_map]
    refine congrArg List.sum (List.map_congr_left fun r _ => ?_)
    simp only [Function.comp_apply, MvPolynomial.eval_eq', Fin.prod_univ_one, pow_zero, mul_one]
    rfl
  have e2 : meanSeg (fun x => P.eval ![x]) = ∑ m ∈ P.support, P.coeff m * _ :=
    Eq.trans (by simp only [MvPolynomial.eval_eq', Fin.prod_univ_one]; rfl)
      (meanSeg_terms P.support P.coeff (fun m => m 0))
  rw [e1, e2]
  refine close_terms _ _ _ _ _ fun m hm => cast_close (h _ ?_)
  have := deg_le hP hm
  rwa [Fin.sum_univ_one] at this

end Verif.Quad
