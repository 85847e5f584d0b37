import Verif.Props.Spaces

/-!
Property C36: `Basis::eval` and the operator IDEN.
-/
namespace Verif.Spaces
open Verif.Geometry

set_option linter.unusedSectionVars false

section Scalar
variable {K : Type} [Field K] [CharZero K] (m : Mem K) (U : Nat → K) {r n : Nat} (hr : r < m.f) (hn : n < m.q)
include hr hn

/-- **C36** for P0: `eval` at the barycentric coordinates of the point gives the list of values of IDEN. -/
theorem p0_eval : p0Eval (fun a => m.xyl (a + 4 * n)) = (List.range 1).map fun i => p0Iden m U (place m 1 1 r i n 0) := by
  rw [show List.range 1 = [0] from rfl, List.map_singleton, place1, p0Iden_at _ _ hr hn]; rfl

/-- **C36** for P1. -/
theorem p1_eval : p1Eval (fun a => m.xyl (a + 4 * n)) = (List.range 4).map fun i => p1Iden m U (place m 1 4 r i n 0) :=
  List.map_congr_left fun _ hi => (p1Iden_val hr (List.mem_range.mp hi) hn).symm

/-- **C36** for P2. -/
theorem p2_eval : p2Eval (fun a => m.xyl (a + 4 * n)) = (List.range 10).map fun i => p2Iden m U (place m 1 10 r i n 0) := by
  rw [List.map_congr_left fun i hi => p2Iden_val (U := U) hr (List.mem_range.mp hi) hn]
  generalize (fun a => m.xyl (a + 4 * n)) = l
  simp [p2Eval, from', List.range', p2v, show List.range 10 = [0, 1, 2, 3, 4, 5, 6, 7, 8, 9] from rfl,
    show List.range 4 = [0, 1, 2, 3] from rfl, tI, tJ]
  refine ⟨?_, ?_, ?_, ?_⟩ <;> ring

/-- **C36** for the edge bubbles. -/
theorem b2_eval : b2Eval (fun a => m.xyl (a + 4 * n)) = (List.range 6).map fun i => b2Iden m U (place m 1 6 r i n 0) := by
  rw [List.map_congr_left fun i hi => b2Iden_val (U := U) hr (List.mem_range.mp hi) hn]
  generalize (fun a => m.xyl (a + 4 * n)) = l
  simp [b2Eval, from', List.range', b2v, show List.range 6 = [0, 1, 2, 3, 4, 5] from rfl,
    show List.range 4 = [0, 1, 2, 3] from rfl, tI, tJ]

/-- **C36** for the cell bubble. -/
theorem b4_eval : b4Eval (fun a => m.xyl (a + 4 * n)) = (List.range 1).map fun i => b4Iden m U (place m 1 1 r i n 0) := by
  rw [show List.range 1 = [0] from rfl, List.map_singleton, b4Iden_val hr hn]; rfl

/-- **C36** for CR1. -/
theorem cr1_eval : cr1Eval (fun a => m.xyl (a + 4 * n)) =
    (List.range 4).map fun i => cr1Iden m U (place m 1 4 r i n 0) := by
  rw [List.map_congr_left fun i hi => cr1Iden_val (U := U) hr (List.mem_range.mp hi) hn]
  rfl

theorem p3Eval_get (l : Nat → K) {i : Nat} (hi : i < 20) :
    (p3Eval l)[i]? = some (p3v l (if i = 17 then 19 else if i = 19 then 17 else i)) := by
  have e : p3Eval l = [1 / 2 * l 0 * (3 * l 0 - 1) * (3 * l 0 - 2), 1 / 2 * l 1 * (3 * l 1 - 1) * (3 * l 1 - 2),
      1 / 2 * l 2 * (3 * l 2 - 1) * (3 * l 2 - 2), 1 / 2 * l 3 * (3 * l 3 - 1) * (3 * l 3 - 2),
      9 / 2 * l 0 * l 1 * (3 * l 0 - 1), 9 / 2 * l 0 * l 1 * (3 * l 1 - 1), 9 / 2 * l 0 * l 2 * (3 * l 0 - 1),
      9 / 2 * l 0 * l 2 * (3 * l 2 - 1), 9 / 2 * l 0 * l 3 * (3 * l 0 - 1), 9 / 2 * l 0 * l 3 * (3 * l 3 - 1),
      9 / 2 * l 1 * l 2 * (3 * l 1 - 1), 9 / 2 * l 1 * l 2 * (3 * l 2 - 1), 9 / 2 * l 1 * l 3 * (3 * l 1 - 1),
      9 / 2 * l 1 * l 3 * (3 * l 3 - 1), 9 / 2 * l 2 * l 3 * (3 * l 2 - 1), 9 / 2 * l 2 * l 3 * (3 * l 3 - 1),
      27 * l 0 * l 1 * l 2, 27 * l 0 * l 1 * l 3, 27 * l 0 * l 2 * l 3, 27 * l 1 * l 2 * l 3] := rfl
  rw [e]
  interval_cases i <;> simp [p3v, tI, tJ, ipf] <;> ring

/-- **C36** for P3, all functions except 17 and 19 (what is missing: the functions of the faces opposite to nodes 0 and 2
are interchanged in `eval`, see `p3_eval_wrong`). -/
theorem p3_eval_partial {i : Nat} (hi : i < 20) (h17 : i ≠ 17) (h19 : i ≠ 19) :
    (p3Eval fun a => m.xyl (a + 4 * n))[i]? = some (p3Iden m U (place m 1 20 r i n 0)) := by
  rw [p3Eval_get m hr hn _ hi, if_neg h17, if_neg h19, p3Iden_val hr hi hn]

/-- **C36**: `eval` of P3 has exactly the functions 17 and 19 of IDEN interchanged. -/
theorem p3_eval_swapped : (p3Eval fun a => m.xyl (a + 4 * n))[17]? = some (p3Iden m U (place m 1 20 r 19 n 0)) ∧
    (p3Eval fun a => m.xyl (a + 4 * n))[19]? = some (p3Iden m U (place m 1 20 r 17 n 0)) := by
  rw [p3Eval_get m hr hn _ (by omega), p3Eval_get m hr hn _ (by omega), p3Iden_val hr (by omega) hn,
    p3Iden_val hr (by omega) hn]
  exact ⟨rfl, rfl⟩

/-- **C36** fails for P3: at every point where the coordinates of nodes 0 and 2 differ and those of nodes 1 and 3 do not
vanish, the value 17 of `eval` is not the value 17 of IDEN. -/
theorem p3_eval_wrong (h1 : m.xyl (1 + 4 * n) ≠ 0) (h3 : m.xyl (3 + 4 * n) ≠ 0)
    (h02 : m.xyl (0 + 4 * n) ≠ m.xyl (2 + 4 * n)) :
    (p3Eval fun a => m.xyl (a + 4 * n))[17]? ≠ some (p3Iden m U (place m 1 20 r 17 n 0)) := by
  rw [(p3_eval_swapped m U hr hn).1, p3Iden_val hr (by omega) hn, p3Iden_val hr (by omega) hn]
  intro h
  have h := Option.some.inj h
  have h : 27 * m.xyl (0 + 4 * n) * m.xyl (1 + 4 * n) * m.xyl (3 + 4 * n) =
    27 * m.xyl (1 + 4 * n) * m.xyl (2 + 4 * n) * m.xyl (3 + 4 * n) := h
  rw [Nat.zero_add] at h
  have : 27 * m.xyl (1 + 4 * n) * m.xyl (3 + 4 * n) * (m.xyl (4 * n) - m.xyl (2 + 4 * n)) = 0 := by
    linear_combination h
  rw [mul_eq_zero, mul_eq_zero, mul_eq_zero] at this
  rw [Nat.zero_add] at h02
  rcases this with ((h | h) | h) | h
  · norm_num at h
  · exact h1 h
  · exact h3 h
  · exact h02 (sub_eq_zero.mp h)

end Scalar

/-! ### RT0 and ND0 -/

section Vector
variable {K : Type} [Field K] [LinearOrder K] [IsStrictOrderedRing K]

/-- **C36** fails for RT0: `eval` throws for every matrix of gradients of every shape, so no value is ever obtained. -/
theorem rt0_eval_wrong (sqrt : K → K) (l : Nat → K) (g : Expr K) : rt0Eval sqrt l g = none := by
  have : gradDet g = none := by
    unfold gradDet Expr.col
    by_cases h0 : 0 < g.cols <;> by_cases h1 : 1 < g.cols <;> by_cases h2 : 2 < g.cols <;>
      simp [h0, h1, h2, vertcat3, Expr.det3x3]
  rw [rt0Eval, this]; rfl

/-- **C36** fails for ND0 in the same way. -/
theorem nd0_eval_wrong (sqrt : K → K) (l : Nat → K) (g : Expr K) : nd0Eval sqrt l g = none := by
  have : gradDet g = none := by
    unfold gradDet Expr.col
    by_cases h0 : 0 < g.cols <;> by_cases h1 : 1 < g.cols <;> by_cases h2 : 2 < g.cols <;>
      simp [h0, h1, h2, vertcat3, Expr.det3x3]
  rw [nd0Eval, this]; rfl

/-- **C36** fails for ND0 also with a correct determinant: for the functions 4 and 5 the table is read outside its
bounds. -/
theorem nd0_eval_range_wrong (sqrt : K → K) (V : K) (l : Nat → K) (g : Nat → Nat → K) {i : Nat} (hi : 4 ≤ i) (k : Nat) :
    nd0EvalWith sqrt V l g i k = none := by
  have : iprAt (6 * i + 3) = none := List.getElem?_eq_none (by simp only [List.length_cons, List.length_nil]; omega)
  unfold nd0EvalWith
  rcases h0 : iprAt (6 * i + 0) with _ | a
  · rfl
  · rcases h1 : iprAt (6 * i + 1) with _ | b
    · rfl
    · rcases h2 : iprAt (6 * i + 2) with _ | c
      · rfl
      · rw [this]; rfl

variable {m : Mem K} {r : Nat} {T : Nat → Nat → K}

/-- the gradients by cofactors -/
theorem grad_cof (hv : Nondeg T) (h : AtTet m r T) : ∀ k, k < 3 →
    m.det r * gradL m r 1 k = cross (diff (T 2) (T 0)) (diff (T 3) (T 0)) k ∧
    m.det r * gradL m r 2 k = cross (diff (T 3) (T 0)) (diff (T 1) (T 0)) k ∧
    m.det r * gradL m r 3 k = cross (diff (T 1) (T 0)) (diff (T 2) (T 0)) k := by
  have e : ∀ a, a < 4 → ∀ b, b < 4 → dot (fun k => m.det r * gradL m r a k) (diff (T b) (T 0)) =
      m.det r * ((if a = b then 1 else 0) - (if a = 0 then 1 else 0)) := by
    intro a ha b hb
    rw [← grad_dot h ha hb]; simp only [dot]; ring
  intro k hk
  refine ⟨?_, ?_, ?_⟩ <;> refine eq_of_dots (p0 := T 0) (p1 := T 1) (p2 := T 2) (p3 := T 3)
      (u := fun k => m.det r * gradL m r _ k) hv ?_ ?_ ?_ k hk <;>
    rw [e _ (by omega) _ (by omega), h.2.1, vol6_eq] <;> simp [dot, cross, diff] <;> ring

/-- the vector product of two gradients is an edge divided by the determinant -/
theorem grad_cross (hv : Nondeg T) (h : AtTet m r T) {k : Nat} (hk : k < 3) :
    m.det r * cross (gradL m r 1) (gradL m r 2) k = T 3 k - T 0 k ∧
    m.det r * cross (gradL m r 2) (gradL m r 3) k = T 1 k - T 0 k ∧
    m.det r * cross (gradL m r 3) (gradL m r 1) k = T 2 k - T 0 k := by
  have hd : m.det r ≠ 0 := by rw [h.2.1]; exact hv
  have c0 := grad_cof hv h 0 (by omega)
  have c1 := grad_cof hv h 1 (by omega)
  have c2 := grad_cof hv h 2 (by omega)
  have hD : m.det r = dot (cross (diff (T 1) (T 0)) (diff (T 2) (T 0))) (diff (T 3) (T 0)) := by rw [h.2.1, vol6_eq]
  have key : ∀ a b, ∀ k, k < 3 → m.det r * (m.det r * cross (gradL m r a) (gradL m r b) k) =
      cross (fun c => m.det r * gradL m r a c) (fun c => m.det r * gradL m r b c) k := by
    intro a b k hk
    interval_cases k <;> simp only [cross] <;> ring
  have cg : ∀ (u u' v v' : Nat → K), Same3 u u' → Same3 v v' → cross u v k = cross u' v' k := by
    intro u u' v v' hu hv
    interval_cases k <;> simp only [cross, hu 0 (show 0 < 3 by omega), hu 1 (show 1 < 3 by omega), hu 2 (show 2 < 3 by omega),
      hv 0 (show 0 < 3 by omega), hv 1 (show 1 < 3 by omega), hv 2 (show 2 < 3 by omega)]
  have s1 : Same3 (fun c => m.det r * gradL m r 1 c) (cross (diff (T 2) (T 0)) (diff (T 3) (T 0))) :=
    fun c hc => (grad_cof hv h c hc).1
  have s2 : Same3 (fun c => m.det r * gradL m r 2 c) (cross (diff (T 3) (T 0)) (diff (T 1) (T 0))) :=
    fun c hc => (grad_cof hv h c hc).2.1
  have s3 : Same3 (fun c => m.det r * gradL m r 3 c) (cross (diff (T 1) (T 0)) (diff (T 2) (T 0))) :=
    fun c hc => (grad_cof hv h c hc).2.2
  refine ⟨?_, ?_, ?_⟩ <;> refine mul_left_cancel₀ hd ?_ <;> rw [key _ _ k hk]
  · rw [cg _ _ _ _ s1 s2, hD]
    interval_cases k <;> simp only [dot, cross, diff] <;> ring
  · rw [cg _ _ _ _ s2 s3, hD]
    interval_cases k <;> simp only [dot, cross, diff] <;> ring
  · rw [cg _ _ _ _ s3 s1, hD]
    interval_cases k <;> simp only [dot, cross, diff] <;> ring

theorem grad_zero (m : Mem K) (r k : Nat) : gradL m r 0 k = -gradL m r 1 k - gradL m r 2 k - gradL m r 3 k := by
  linear_combination grad_sum m r k

/-- **C36** for RT0 would also fail with the intended determinant: the function `i` of `eval` then is the function of IDEN
up to the sign `-(-1)^i` times the orientation of the tetrahedron. -/
theorem rt0_eval_sign {sqrt : K → K} (hs : IsSqrt sqrt) (hv : Nondeg T) (h : AtTet m r T) (U : Nat → K) {n i k : Nat}
    (hr : r < m.f) (hn : n < m.q) (hi : i < 4) (hk : k < 3) :
    rt0EvalDet sqrt (1 / m.det r) (fun a => m.xyl (a + 4 * n)) (gradL m r) i k =
      (if (i % 2 = 1 ↔ 0 < m.det r) then 1 else -1) * rt0Iden sqrt m U (place m 3 4 r i n k) := by
  have hd : m.det r ≠ 0 := by rw [h.2.1]; exact hv
  -- the norm of the gradient opposite to the face
  have hN : sqrt (dot (gradL m r ((i + 3) % 4)) (gradL m r ((i + 3) % 4))) =
      2 * triArea sqrt (rtNode m r i 0) (rtNode m r i 1) (rtNode m r i 2) / |m.det r| := by
    have h1 := hs _ (dot_self_nonneg (gradL m r ((i + 3) % 4)))
    obtain ⟨h2, h3⟩ := triArea_correct hs (rtNode m r i 0) (rtNode m r i 1) (rtNode m r i 2)
    generalize sqrt (dot (gradL m r ((i + 3) % 4)) (gradL m r ((i + 3) % 4))) = a at *
    generalize triArea sqrt (rtNode m r i 0) (rtNode m r i 1) (rtNode m r i 2) = b at *
    have hdd : (0 : K) < |m.det r| := abs_pos.mpr hd
    have hb : 0 ≤ 2 * b / |m.det r| := by positivity
    have hsq : a * a = (2 * b / |m.det r|) * (2 * b / |m.det r|) := by
      have e1 : (2 * b / |m.det r|) * (2 * b / |m.det r|) = 4 * (b * b) / (m.det r * m.det r) := by
        rw [← abs_mul_abs_self (m.det r)]; field_simp; ring
      rw [e1, h1.2, h3, eq_div_iff (mul_ne_zero hd hd)]
      have e2 : dot (gradL m r ((i + 3) % 4)) (gradL m r ((i + 3) % 4)) * (m.det r * m.det r) =
          dot (fun c => m.det r * gradL m r ((i + 3) % 4) c) (fun c => m.det r * gradL m r ((i + 3) % 4) c) := by
        simp only [dot]; ring
      rw [e2]
      have hnn : ∀ a k, k < 3 → rtNode m r i a k = T (ipf (4 * i + a)) k - T 0 k := fun a k hk => node_eq h (ipf_lt _) hk
      have c0 := grad_cof hv h 0 (by omega)
      have c1 := grad_cof hv h 1 (by omega)
      have c2 := grad_cof hv h 2 (by omega)
      have z : ∀ c, m.det r * gradL m r 0 c = -(m.det r * gradL m r 1 c) - m.det r * gradL m r 2 c - m.det r * gradL m r 3 c := by
        intro c; rw [grad_zero]; ring
      simp only [dot]
      interval_cases i <;>
        simp only [Nat.reduceAdd, Nat.reduceMod, Nat.reduceMul, z, c0.1, c0.2.1, c0.2.2, c1.1, c1.2.1, c1.2.2, c2.1, c2.2.1,
          c2.2.2, cross, diff, hnn _ 0 (show 0 < 3 by omega), hnn _ 1 (show 1 < 3 by omega), hnn _ 2 (show 2 < 3 by omega)] <;>
        simp [ipf] <;> ring
    rcases mul_self_eq_mul_self_iff.mp hsq with e | e
    · exact e
    · have := h1.1
      linarith
  rw [rt0EvalDet, rt0EvalWith]
  have hN' : sqrt (gradL m r ((i + 3) % 4) 0 * gradL m r ((i + 3) % 4) 0 + gradL m r ((i + 3) % 4) 1 * gradL m r ((i + 3) % 4) 1 +
      gradL m r ((i + 3) % 4) 2 * gradL m r ((i + 3) % 4) 2) =
      2 * triArea sqrt (rtNode m r i 0) (rtNode m r i 1) (rtNode m r i 2) / |m.det r| := hN
  simp only [hN']
  rw [place_eq, rt0Iden_at _ _ _ hr hi hn hk, rt0Sqr]
  generalize triArea sqrt (rtNode m r i 0) (rtNode m r i 1) (rtNode m r i 2) = A
  have hnn : ∀ a, rtNode m r i a k = T (ipf (4 * i + a)) k - T 0 k := fun a => node_eq h (ipf_lt _) hk
  simp only [hnn]
  obtain ⟨g12, g23, g31⟩ := grad_cross hv h hk
  have cz : ∀ a, cross (gradL m r 0) (gradL m r a) k = -cross (gradL m r 1) (gradL m r a) k -
      cross (gradL m r 2) (gradL m r a) k - cross (gradL m r 3) (gradL m r a) k := by
    intro a; interval_cases k <;> simp only [cross, grad_zero] <;> ring
  have cz' : ∀ a, cross (gradL m r a) (gradL m r 0) k = -cross (gradL m r a) (gradL m r 1) k -
      cross (gradL m r a) (gradL m r 2) k - cross (gradL m r a) (gradL m r 3) k := by
    intro a; interval_cases k <;> simp only [cross, grad_zero] <;> ring
  have ca : ∀ a b, cross (gradL m r a) (gradL m r b) k = -cross (gradL m r b) (gradL m r a) k := by
    intro a b; interval_cases k <;> simp only [cross] <;> ring
  have cs : ∀ a, cross (gradL m r a) (gradL m r a) k = 0 := by
    intro a; interval_cases k <;> simp only [cross] <;> ring
  have hk12 : cross (gradL m r 1) (gradL m r 2) k = (T 3 k - T 0 k) / m.det r := by rw [← g12]; field_simp
  have hk23 : cross (gradL m r 2) (gradL m r 3) k = (T 1 k - T 0 k) / m.det r := by rw [← g23]; field_simp
  have hk31 : cross (gradL m r 3) (gradL m r 1) k = (T 2 k - T 0 k) / m.det r := by rw [← g31]; field_simp
  have hk21 := ca 2 1
  have hk32 := ca 3 2
  have hk13 := ca 1 3
  rw [hk12] at hk21
  rw [hk23] at hk32
  rw [hk31] at hk13
  have habs : |1 / m.det r| = 1 / |m.det r| := by rw [abs_div, abs_one]
  rw [habs]
  rcases lt_or_gt_of_ne hd with hneg | hpos
  · have hnp : ¬ 0 < m.det r := not_lt.mpr hneg.le
    rw [abs_of_neg hneg]
    interval_cases i <;>
      simp [ipf, cz, cz', cs, hk12, hk23, hk31, hk21, hk32, hk13, hnp] <;> field_simp <;> ring
  · rw [abs_of_pos hpos]
    interval_cases i <;>
      simp [ipf, cz, cz', cs, hk12, hk23, hk31, hk21, hk32, hk13, hpos] <;> field_simp <;> ring

/-- **C36** for ND0 would also fail with the intended determinant: already the function 0 of `eval` is six times the
function of IDEN. -/
theorem nd0_eval_factor {sqrt : K → K} (hv : Nondeg T) (h : AtTet m r T) (U : Nat → K) {n k : Nat}
    (hr : r < m.f) (hn : n < m.q) (hk : k < 3) :
    nd0EvalWith sqrt (1 / m.det r) (fun a => m.xyl (a + 4 * n)) (gradL m r) 0 k =
      some (6 * nd0Iden sqrt m U (place m 3 6 r 0 n k)) := by
  have hd : m.det r ≠ 0 := by rw [h.2.1]; exact hv
  have he : ∀ k, k < 3 → cross (gradL m r 2) (gradL m r 3) k / (1 / m.det r) = T 1 k - T 0 k := by
    intro k hk
    rw [← (grad_cross hv h hk).2.1]; field_simp
  obtain ⟨hN, hM⟩ := nd0_vectors hv h (show 0 < 6 by omega)
  have e1 : nd0EvalWith sqrt (1 / m.det r) (fun a => m.xyl (a + 4 * n)) (gradL m r) 0 k =
      some (6 * sqrt (cross (gradL m r 2) (gradL m r 3) 0 / (1 / m.det r) * (cross (gradL m r 2) (gradL m r 3) 0 / (1 / m.det r)) +
        cross (gradL m r 2) (gradL m r 3) 1 / (1 / m.det r) * (cross (gradL m r 2) (gradL m r 3) 1 / (1 / m.det r)) +
        cross (gradL m r 2) (gradL m r 3) 2 / (1 / m.det r) * (cross (gradL m r 2) (gradL m r 3) 2 / (1 / m.det r))) *
        (m.xyl (0 + 4 * n) * gradL m r 1 k - m.xyl (1 + 4 * n) * gradL m r 0 k)) := rfl
  rw [e1, place_eq, nd0Iden_at _ _ _ hr (by omega) hn hk, hN k hk, hM k hk, he 0 (by omega), he 1 (by omega), he 2 (by omega)]
  congr 1
  have e2 : nd0Sqr sqrt m r 0 = sqrt ((T 1 0 - T 0 0) * (T 1 0 - T 0 0) + (T 1 1 - T 0 1) * (T 1 1 - T 0 1) +
      (T 1 2 - T 0 2) * (T 1 2 - T 0 2)) / m.det r := by
    rw [nd0Sqr, fold3]
    have : ∀ k, k < 3 → (node m r (ipr (4 * 0)) k - node m r (ipr (4 * 0 + 1)) k) * (node m r (ipr (4 * 0)) k - node m r (ipr (4 * 0 + 1)) k) =
        (T 1 k - T 0 k) * (T 1 k - T 0 k) := by
      intro k hk; rw [node_eq h (ipr_lt _) hk, node_eq h (ipr_lt _) hk]; simp [ipr]; ring
    simp only [this 0 (by omega), this 1 (by omega), this 2 (by omega)]
  rw [e2]
  simp [ipr]
  field_simp
  ring

end Vector

/-! ### Cases meeting the hypotheses -/

example : let l : Nat → ℚ := fun a => (a + 1) / 10
    l 1 ≠ 0 ∧ l 3 ≠ 0 ∧ l 0 ≠ l 2 ∧ l 0 + l 1 + l 2 + l 3 = 1 := by
  refine ⟨?_, ?_, ?_, ?_⟩ <;> norm_num

example : AtTet (single sampleT (fun _ => 1 / 4) fun _ => 0) 0 sampleT := single_atTet _ _ _ sampleT_nondeg

end Verif.Spaces
