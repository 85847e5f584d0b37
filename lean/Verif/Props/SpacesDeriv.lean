import Verif.Props.Spaces
import Mathlib.Analysis.Calculus.Deriv.Mul
import Mathlib.Analysis.Calculus.Deriv.Add

/-!
Property C35: GRAD, DIV, CURL and DUDX, DUDY, DUDZ are derivatives of IDEN.
-/
namespace Verif.Spaces
open Verif.Geometry

/-! ### Helpers -/

theorem HasGradient.partial {F : (Nat → ℝ) → ℝ} {x G : Nat → ℝ} (h : HasGradient F x G) {c : Nat} (hc : c < 3) :
    HasPartial F x c (G c) := by
  have e := h fun k => if k = c then 1 else 0
  have : dot G (fun k => if k = c then (1 : ℝ) else 0) = G c := by interval_cases c <;> simp [dot]
  rwa [this] at e

/-- the derivatives are determined by the function -/
theorem HasGradient.unique {F : (Nat → ℝ) → ℝ} {x G G' : Nat → ℝ} (h : HasGradient F x G) (h' : HasGradient F x G') :
    Same3 G G' := fun _ hk => (h.partial hk).unique (h'.partial hk)

theorem HasGradient.congr {F : (Nat → ℝ) → ℝ} {x G G' : Nat → ℝ} (h : HasGradient F x G) (e : Same3 G G') :
    HasGradient F x G' := by
  intro v
  have := h v
  rw [dot, e 0 (by omega), e 1 (by omega), e 2 (by omega)] at this
  exact this

theorem line_deriv (l g : ℝ) : HasDerivAt (fun t : ℝ => l + t * g) g 0 := by
  have := ((hasDerivAt_id (0 : ℝ)).mul_const g).const_add l
  simpa using this

theorem scalar_grad {iden grad : Mem ℝ → (Nat → ℝ) → Nat → ℝ} {nfa i : Nat} {T : Nat → Nat → ℝ}
    {val : (Nat → ℝ) → ℝ} {d : (Nat → ℝ) → (Nat → ℝ) → ℝ}
    (hval : ∀ (m : Mem ℝ) U r n, r < m.f → n < m.q → iden m U (place m 1 nfa r i n 0) = val fun a => m.xyl (a + 4 * n))
    (hcong : ∀ l l' : Nat → ℝ, (∀ a, a < 4 → l a = l' a) → val l = val l')
    (hgrad : ∀ (m : Mem ℝ) U r n k, r < m.f → n < m.q → k < 3 →
      grad m U (place m 3 nfa r i n k) = d (fun a => m.xyl (a + 4 * n)) (fun a => gradL m r a k))
    (hlin : ∀ l (G : Nat → Nat → ℝ) v, d l (fun a => G a 0) * v 0 + d l (fun a => G a 1) * v 1 + d l (fun a => G a 2) * v 2 =
      d l (fun a => dot (G a) v))
    (hder : ∀ l g : Nat → ℝ, HasDerivAt (fun t => val fun a => l a + t * g a) (d l g) 0)
    (hv : Nondeg T) {φ : (Nat → ℝ) → Nat → ℝ} (hφ : IsBasis iden 1 nfa i T φ) {x g : Nat → ℝ}
    (hg : Computed grad 3 nfa i T x g) : HasGradient (fun y => φ y 0) x g := by
  obtain ⟨m, U, r, n, hr, hn, ht, hp, hk⟩ := hg
  intro v
  have e : ∀ t : ℝ, φ (fun k => x k + t * v k) 0 = val fun a => m.xyl (a + 4 * n) + t * dot (gradL m r a) v := fun t =>
    scalar_value hval hcong hv (hφ _) (bary_line hv ht hp v t)
  have h1 := hder (fun a => m.xyl (a + 4 * n)) (fun a => dot (gradL m r a) v)
  rw [← hlin, ← hgrad m U r n 0 hr hn (by omega), ← hgrad m U r n 1 hr hn (by omega), ← hgrad m U r n 2 hr hn (by omega),
    ← hk 0 (by omega), ← hk 1 (by omega), ← hk 2 (by omega)] at h1
  have e' : (fun t : ℝ => φ (fun k => x k + t * v k) 0) = fun t => val fun a => m.xyl (a + 4 * n) + t * dot (gradL m r a) v :=
    funext e
  rw [e']
  exact h1

theorem p2_der (i : Nat) (l g : Nat → ℝ) : HasDerivAt (fun t => p2v (fun a => l a + t * g a) i) (p2d l g i) 0 := by
  have h := fun a => line_deriv (l a) (g a)
  unfold p2v p2d
  split
  · have := (h i).mul (((h i).const_mul 2).sub_const 1)
    refine HasDerivAt.congr_deriv this ?_
    simp only [zero_mul, add_zero]; ring
  · have := ((h (tI (i - 4))).const_mul 4).mul (h (tJ (i - 4)))
    refine HasDerivAt.congr_deriv this ?_
    simp only [zero_mul, add_zero]; ring

theorem p3_der (i : Nat) (l g : Nat → ℝ) : HasDerivAt (fun t => p3v (fun a => l a + t * g a) i) (p3d l g i) 0 := by
  have h := fun a => line_deriv (l a) (g a)
  unfold p3v p3d
  split
  · have := (((h i).mul (((h i).const_mul 3).sub_const 1)).mul (((h i).const_mul 3).sub_const 2)).div_const 2
    refine HasDerivAt.congr_deriv this ?_
    simp only [zero_mul, add_zero, Pi.mul_apply]; ring
  · split
    · simp only []
      generalize tI ((i - 4) / 2) = I
      generalize tJ ((i - 4) / 2) = J
      split
      · have := (((h I).mul (((h I).const_mul 3).sub_const 1)).mul (h J)).mul_const (9 / 2)
        refine HasDerivAt.congr_deriv this ?_
        simp only [zero_mul, add_zero, Pi.mul_apply]; ring
      · have := (((h I).mul (((h J).const_mul 3).sub_const 1)).mul (h J)).mul_const (9 / 2)
        refine HasDerivAt.congr_deriv this ?_
        simp only [zero_mul, add_zero, Pi.mul_apply]; ring
    · simp only [Nat.zero_add]
      generalize ipf (4 * (i - 16)) = a
      generalize ipf (1 + 4 * (i - 16)) = b
      generalize ipf (2 + 4 * (i - 16)) = c
      have := (((h a).const_mul 27).mul (h b)).mul (h c)
      refine HasDerivAt.congr_deriv this ?_
      simp only [zero_mul, add_zero, Pi.mul_apply]; ring

theorem b2_der (i : Nat) (l g : Nat → ℝ) : HasDerivAt (fun t => b2v (fun a => l a + t * g a) i) (b2d l g i) 0 := by
  have h := fun a => line_deriv (l a) (g a)
  have := ((h (tI i)).const_mul 4).mul (h (tJ i))
  unfold b2v b2d
  refine HasDerivAt.congr_deriv this ?_
  simp only [zero_mul, add_zero]; ring

theorem b4_der (l g : Nat → ℝ) : HasDerivAt (fun t => b4v (fun a => l a + t * g a)) (b4d l g) 0 := by
  have h := fun a => line_deriv (l a) (g a)
  have := ((((h 0).const_mul 256).mul (h 1)).mul (h 2)).mul (h 3)
  unfold b4v b4d
  refine HasDerivAt.congr_deriv this ?_
  simp only [zero_mul, add_zero, Pi.mul_apply]; ring

theorem cr1_der (i : Nat) (l g : Nat → ℝ) : HasDerivAt (fun t => cr1v (fun a => l a + t * g a) i) (cr1d g i) 0 := by
  have h := fun a => line_deriv (l a) (g a)
  have := ((h (ipf3 i)).const_mul 3).const_sub 1
  unfold cr1v cr1d
  refine HasDerivAt.congr_deriv this ?_
  ring

/-! ### Scalar spaces -/

section Scalar
variable {T : Nat → Nat → ℝ} (hv : Nondeg T) {φ : (Nat → ℝ) → Nat → ℝ} {x g : Nat → ℝ}
include hv

/-- **C35** for P0. -/
theorem p0_grad (hφ : IsBasis p0Iden 1 1 0 T φ) (hg : Computed p0Grad 3 1 0 T x g) : HasGradient (fun y => φ y 0) x g := by
  refine scalar_grad (val := fun _ => 1) (d := fun _ _ => 0) ?_ (fun _ _ _ => rfl) ?_ ?_ ?_ hv hφ hg
  · intro m U r n hr hn; rw [place1, p0Iden_at _ _ hr hn]
  · intro m U r n k hr hn hk; rw [place_eq, p0Grad_at _ _ hr hn hk]
  · intros; ring
  · exact fun _ _ => hasDerivAt_const 0 1

/-- **C35** for P1. -/
theorem p1_grad {i : Nat} (hi : i < 4) (hφ : IsBasis p1Iden 1 4 i T φ) (hg : Computed p1Grad 3 4 i T x g) :
    HasGradient (fun y => φ y 0) x g :=
  scalar_grad (val := fun l => l i) (d := fun _ g => g i) (fun _ _ _ _ hr hn => p1Iden_val hr hi hn)
    (fun _ _ h => h i hi) (fun _ _ _ _ _ hr hn hk => p1Grad_val hr hi hn hk) (fun _ _ _ => rfl)
    (fun l g => line_deriv (l i) (g i)) hv hφ hg

/-- **C35** for DUDX, DUDY, DUDZ of P1. -/
theorem p1_dudx {i c : Nat} (hi : i < 4) (hc : c < 3) (hφ : IsBasis p1Iden 1 4 i T φ)
    (hg : Computed (p1Dudx c) 1 4 i T x g) : HasPartial (fun y => φ y 0) x c (g 0) := by
  obtain ⟨m, U, r, n, hr, hn, ht, hp, hk⟩ := hg
  have e : g 0 = gradL m r i c := by rw [hk 0 (by omega), p1Dudx_val hr hi hn hc]
  have hG : Computed p1Grad 3 4 i T x (fun k => p1Grad m U (place m 3 4 r i n k)) :=
    ⟨m, U, r, n, hr, hn, ht, hp, fun _ _ => rfl⟩
  have := (p1_grad hv hi hφ hG).partial hc
  rwa [p1Grad_val hr hi hn hc, ← e] at this

/-- **C35** for DUDX, DUDY, DUDZ of P0. -/
theorem p0_dudx {c : Nat} (hc : c < 3) (hφ : IsBasis p0Iden 1 1 0 T φ) (hg : Computed (p0Dudx c) 1 1 0 T x g) :
    HasPartial (fun y => φ y 0) x c (g 0) := by
  obtain ⟨m, U, r, n, hr, hn, ht, hp, hk⟩ := hg
  have e : g 0 = 0 := by rw [hk 0 (by omega), place1, p0Dudx_at _ _ _ hr hn]
  have hG : Computed p0Grad 3 1 0 T x (fun k => p0Grad m U (place m 3 1 r 0 n k)) :=
    ⟨m, U, r, n, hr, hn, ht, hp, fun _ _ => rfl⟩
  have := (p0_grad hv hφ hG).partial hc
  rwa [place_eq, p0Grad_at _ _ hr hn hc, ← e] at this

/-- **C35** for P2, whatever the content of the work memory. -/
theorem p2_grad (E : Nat → ℝ) {i : Nat} (hi : i < 10) (hφ : IsBasis p2Iden 1 10 i T φ)
    (hg : Computed (p2Grad E) 3 10 i T x g) : HasGradient (fun y => φ y 0) x g := by
  refine scalar_grad (val := fun l => p2v l i) (d := fun l g => p2d l g i) (fun _ _ _ _ hr hn => p2Iden_val hr hi hn)
    (p2v_congr i) (fun _ _ _ _ _ hr hn hk => p2Grad_val E hr hi hn hk) ?_ (p2_der i) hv hφ hg
  intro l G v
  simp only [p2d, dot]
  split <;> ring

/-- **C35** for P3. -/
theorem p3_grad (E : Nat → ℝ) {i : Nat} (hi : i < 20) (hφ : IsBasis p3Iden 1 20 i T φ)
    (hg : Computed (p3Grad E) 3 20 i T x g) : HasGradient (fun y => φ y 0) x g := by
  refine scalar_grad (val := fun l => p3v l i) (d := fun l g => p3d l g i) (fun _ _ _ _ hr hn => p3Iden_val hr hi hn)
    (p3v_congr i) (fun _ _ _ _ _ hr hn hk => p3Grad_val E hr hi hn hk) ?_ (p3_der i) hv hφ hg
  intro l G v
  simp only [p3d, dot]
  split
  · ring
  · split
    · split <;> ring
    · ring

/-- **C35** for the edge bubbles. -/
theorem b2_grad (E : Nat → ℝ) {i : Nat} (hi : i < 6) (hφ : IsBasis b2Iden 1 6 i T φ)
    (hg : Computed (b2Grad E) 3 6 i T x g) : HasGradient (fun y => φ y 0) x g := by
  refine scalar_grad (val := fun l => b2v l i) (d := fun l g => b2d l g i) (fun _ _ _ _ hr hn => b2Iden_val hr hi hn)
    (b2v_congr i) (fun _ _ _ _ _ hr hn hk => b2Grad_val E hr hi hn hk) ?_ (b2_der i) hv hφ hg
  intro l G v
  simp only [b2d, dot]
  ring

/-- **C35** for the cell bubble. -/
theorem b4_grad (E : Nat → ℝ) (hφ : IsBasis b4Iden 1 1 0 T φ) (hg : Computed (b4Grad E) 3 1 0 T x g) :
    HasGradient (fun y => φ y 0) x g := by
  refine scalar_grad (val := fun l => b4v l) (d := fun l g => b4d l g) (fun _ _ _ _ hr hn => b4Iden_val hr hn)
    b4v_congr (fun _ _ _ _ _ hr hn hk => b4Grad_val E hr hn hk) ?_ b4_der hv hφ hg
  intro l G v
  simp only [b4d, dot]
  ring

/-- **C35** for CR1. -/
theorem cr1_grad {i : Nat} (hi : i < 4) (hφ : IsBasis cr1Iden 1 4 i T φ) (hg : Computed cr1Grad 3 4 i T x g) :
    HasGradient (fun y => φ y 0) x g := by
  refine scalar_grad (val := fun l => cr1v l i) (d := fun _ g => cr1d g i) (fun _ _ _ _ hr hn => cr1Iden_val hr hi hn)
    (cr1v_congr i) (fun _ _ _ _ _ hr hn hk => cr1Grad_val hr hi hn hk) ?_ (cr1_der i) hv hφ hg
  intro l G v
  simp only [cr1d, dot]
  ring

end Scalar

/-! ### RT0 -/

section RT0
variable {sqrt : ℝ → ℝ} {T : Nat → Nat → ℝ} (hv : Nondeg T) {φ : (Nat → ℝ) → Nat → ℝ} {x g : Nat → ℝ} {i : Nat} (hi : i < 4)
  (hφ : IsBasis (rt0Iden sqrt) 3 4 i T φ)
include hv hi

theorem rt0GradVal_eq {m : Mem ℝ} {r : Nat} (ht : AtTet m r T) {j k : Nat} (hj : j < 3) (hk : k < 3) :
    rt0GradVal sqrt m r i j k = rt0Sqr sqrt m r i * if j = k then 1 else 0 := by
  have e1 := grad_repr hv ht (fun c => if c = k then 1 else 0) hj
  have e2 : ∀ a, dot (gradL m r a) (fun c => if c = k then (1 : ℝ) else 0) = gradL m r a k := by
    intro a; interval_cases k <;> simp [dot]
  simp only [e2] at e1
  have e3 := grad_sum m r k
  rw [rt0GradVal]
  have hnn : ∀ a, rtNode m r i a j = T (ipf (4 * i + a)) j - T 0 j := fun a => node_eq ht (ipf_lt _) hj
  simp only [hnn]
  congr 1
  interval_cases i <;> simp [ipf] <;>
    first
    | linear_combination e1 - T 3 j * e3
    | linear_combination e1 - T 0 j * e3
    | linear_combination e1 - T 1 j * e3
    | linear_combination e1 - T 2 j * e3

include hφ

theorem rt0_derivative {m : Mem ℝ} {r : Nat} (ht : AtTet m r T) {j : Nat} (hj : j < 3) :
    HasGradient (fun y => φ y j) x (fun k => rt0GradVal sqrt m r i j k) := by
  intro v
  have e : (fun t : ℝ => φ (fun k => x k + t * v k) j) = fun t =>
      rt0Sqr sqrt m r i * ((x j - T ((i + 3) % 4) j) + t * v j) := by
    funext t
    rw [rt0_value hi (hφ _) ht hj]; ring
  have h := (line_deriv (x j - T ((i + 3) % 4) j) (v j)).const_mul (rt0Sqr sqrt m r i)
  rw [show (fun t => (fun y => φ y j) fun k => x k + t * v k) = fun t : ℝ => φ (fun k => x k + t * v k) j from rfl, e]
  refine HasDerivAt.congr_deriv h ?_
  simp only [dot, rt0GradVal_eq hv hi ht hj (show 0 < 3 by omega), rt0GradVal_eq hv hi ht hj (show 1 < 3 by omega),
    rt0GradVal_eq hv hi ht hj (show 2 < 3 by omega)]
  interval_cases j <;> simp

/-- **C35** for GRAD of RT0: entry `k + 3*j` is the derivative of component `j` with respect to coordinate `k`. -/
theorem rt0_grad (hg : Computed (rt0Grad sqrt) 9 4 i T x g) {j : Nat} (hj : j < 3) :
    HasGradient (fun y => φ y j) x (fun k => g (k + 3 * j)) := by
  obtain ⟨m, U, r, n, hr, hn, ht, hp, hk⟩ := hg
  refine (rt0_derivative hv hi hφ ht hj).congr fun k hk3 => ?_
  rw [hk (k + 3 * j) (by omega), place_eq, rt0Grad_at _ _ _ hr hi hn hj hk3]

/-- **C35** for DIV of RT0: the divergence is the sum of the derivatives. -/
theorem rt0_div (hg : Computed (rt0Div sqrt) 1 4 i T x g) {G : Nat → Nat → ℝ}
    (hG : ∀ j, j < 3 → HasGradient (fun y => φ y j) x (G j)) : g 0 = G 0 0 + G 1 1 + G 2 2 := by
  obtain ⟨m, U, r, n, hr, hn, ht, hp, hk⟩ := hg
  have e := fun j hj => (hG j hj).unique (rt0_derivative hv hi hφ ht hj)
  rw [hk 0 (by omega), place1, rt0Div_at _ _ _ hr hi hn, e 0 (by omega) 0 (by omega), e 1 (by omega) 1 (by omega),
    e 2 (by omega) 2 (by omega)]
  simp only [rt0DivVal, rt0GradVal]
  rw [fold3]
  ring

/-- **C35** for CURL of RT0. -/
theorem rt0_curl (hg : Computed rt0Curl 3 4 i T x g) {G : Nat → Nat → ℝ}
    (hG : ∀ j, j < 3 → HasGradient (fun y => φ y j) x (G j)) :
    g 0 = G 2 1 - G 1 2 ∧ g 1 = G 0 2 - G 2 0 ∧ g 2 = G 1 0 - G 0 1 := by
  obtain ⟨m, U, r, n, hr, hn, ht, hp, hk⟩ := hg
  have e : ∀ j k, j < 3 → k < 3 → G j k = rt0GradVal sqrt m r i j k := fun j k hj hk =>
    (hG j hj).unique (rt0_derivative hv hi hφ ht hj) k hk
  have e' : ∀ j k, j < 3 → k < 3 → j ≠ k → G j k = 0 := by
    intro j k hj hk hne
    rw [e j k hj hk, rt0GradVal_eq hv hi ht hj hk, if_neg hne, mul_zero]
  have z : ∀ k, k < 3 → g k = 0 := by
    intro k hk3
    rw [hk k hk3, place_eq, rt0Curl_at _ _ hr hi hn hk3]
  rw [z 0 (by omega), z 1 (by omega), z 2 (by omega), e' 2 1 (by omega) (by omega) (by omega),
    e' 1 2 (by omega) (by omega) (by omega), e' 0 2 (by omega) (by omega) (by omega),
    e' 2 0 (by omega) (by omega) (by omega), e' 1 0 (by omega) (by omega) (by omega),
    e' 0 1 (by omega) (by omega) (by omega)]
  simp

end RT0

/-! ### ND0 -/

section ND0
variable {sqrt : ℝ → ℝ} {T : Nat → Nat → ℝ} (hv : Nondeg T) {φ : (Nat → ℝ) → Nat → ℝ} {x g : Nat → ℝ} {i : Nat} (hi : i < 6)
  (hφ : IsBasis (nd0Iden sqrt) 3 6 i T φ)
include hv hi hφ

/-- the derivative of component `j` with respect to coordinate `k` -/
theorem nd0_derivative {m : Mem ℝ} {r n : Nat} (ht : AtTet m r T) (hp : AtPoint m n T x) {j : Nat} (hj : j < 3) :
    HasGradient (fun y => φ y j) x (fun k => nd0Sqr sqrt m r i *
      (nd0N m r i j * gradL m r (ipr (4 * i)) k + nd0M m r i j * gradL m r (ipr (4 * i + 1)) k)) := by
  intro v
  have e : (fun t : ℝ => φ (fun k => x k + t * v k) j) = fun t => nd0Sqr sqrt m r i *
      (nd0N m r i j * (m.xyl (ipr (4 * i) + 4 * n) + t * dot (gradL m r (ipr (4 * i))) v) +
        nd0M m r i j * (m.xyl (ipr (4 * i + 1) + 4 * n) + t * dot (gradL m r (ipr (4 * i + 1))) v)) := by
    funext t
    exact nd0_value hv hi (hφ _) ht (bary_line hv ht hp v t) hj
  have h := ((line_deriv (m.xyl (ipr (4 * i) + 4 * n)) (dot (gradL m r (ipr (4 * i))) v)).const_mul (nd0N m r i j)).add
    ((line_deriv (m.xyl (ipr (4 * i + 1) + 4 * n)) (dot (gradL m r (ipr (4 * i + 1))) v)).const_mul (nd0M m r i j))
      |>.const_mul (nd0Sqr sqrt m r i)
  rw [show (fun t => (fun y => φ y j) fun k => x k + t * v k) = fun t : ℝ => φ (fun k => x k + t * v k) j from rfl, e]
  refine HasDerivAt.congr_deriv h ?_
  simp only [dot]; ring

/-- **C35** for DIV of ND0. -/
theorem nd0_div (hg : Computed nd0Div 1 6 i T x g) {G : Nat → Nat → ℝ}
    (hG : ∀ j, j < 3 → HasGradient (fun y => φ y j) x (G j)) : g 0 = G 0 0 + G 1 1 + G 2 2 := by
  obtain ⟨m, U, r, n, hr, hn, ht, hp, hk⟩ := hg
  have e := fun j hj => (hG j hj).unique (nd0_derivative hv hi hφ ht hp hj)
  rw [hk 0 (by omega), place1, nd0Div_at _ _ hr hi hn, e 0 (by omega) 0 (by omega), e 1 (by omega) 1 (by omega),
    e 2 (by omega) 2 (by omega)]
  obtain ⟨hN, hM⟩ := nd0_vectors hv ht hi
  simp only [hN 0 (by omega), hN 1 (by omega), hN 2 (by omega), hM 0 (by omega), hM 1 (by omega), hM 2 (by omega)]
  ring

/-- **C35** for CURL of ND0, written from any position of the memory on. -/
theorem nd0_curl {off : Nat} (hg : ∃ (m : Mem ℝ) (U : Nat → ℝ) (r n : Nat), r < m.f ∧ n < m.q ∧ AtTet m r T ∧
      AtPoint m n T x ∧ ∀ k, k < 3 → g k = nd0Curl sqrt off m U (off + place m 3 6 r i n k)) {G : Nat → Nat → ℝ}
    (hG : ∀ j, j < 3 → HasGradient (fun y => φ y j) x (G j)) :
    g 0 = G 2 1 - G 1 2 ∧ g 1 = G 0 2 - G 2 0 ∧ g 2 = G 1 0 - G 0 1 := by
  obtain ⟨m, U, r, n, hr, hn, ht, hp, hk⟩ := hg
  have e := fun j hj k hk => (hG j hj).unique (nd0_derivative hv hi hφ ht hp hj) k hk
  have z : ∀ k, k < 3 → g k = nd0CurlVal sqrt m r i k := by
    intro k hk3
    rw [hk k hk3, place_eq, nd0Curl_at _ _ _ _ hr hi hn hk3]
  rw [z 0 (by omega), z 1 (by omega), z 2 (by omega)]
  simp only [e 0 (by omega) 1 (by omega), e 0 (by omega) 2 (by omega), e 1 (by omega) 0 (by omega),
    e 1 (by omega) 2 (by omega), e 2 (by omega) 0 (by omega), e 2 (by omega) 1 (by omega), nd0CurlVal]
  refine ⟨?_, ?_, ?_⟩ <;> simp <;> ring

/-- **C35** for GRAD of ND0 (computed in place from the curl): entry `k + 3*j` is the derivative of component `j` with
respect to coordinate `k`. -/
theorem nd0_grad (hg : Computed (nd0Grad sqrt) 9 6 i T x g) {j : Nat} (hj : j < 3) :
    HasGradient (fun y => φ y j) x (fun k => g (k + 3 * j)) := by
  obtain ⟨m, U, r, n, hr, hn, ht, hp, hk⟩ := hg
  refine (nd0_derivative hv hi hφ ht hp hj).congr fun k hk3 => ?_
  rw [hk (k + 3 * j) (by omega), place_eq, nd0Grad_at _ _ _ hr hi hn (by omega)]
  obtain ⟨hN, hM⟩ := nd0_vectors hv ht hi
  interval_cases j <;> interval_cases k <;>
    simp [skew, nd0CurlVal, hN 0 (show 0 < 3 by omega), hN 1 (show 1 < 3 by omega), hN 2 (show 2 < 3 by omega),
      hM 0 (show 0 < 3 by omega), hM 1 (show 1 < 3 by omega), hM 2 (show 2 < 3 by omega)] <;> ring_nf <;> simp

end ND0

/-! ### Cases meeting the hypotheses -/

example (U : Nat → ℝ) (junk : Nat → ℝ) (x : Nat → ℝ) : Computed (nd0Grad Real.sqrt) 9 6 3 sampleT x fun k =>
    let m := single sampleT (baryCoord (sampleT 0) (sampleT 1) (sampleT 2) (sampleT 3) x junk) junk
    nd0Grad Real.sqrt m U (place m 9 6 0 3 0 k) := basis_exists _ _ _ _ _ _ _ sampleT_nondeg x

end Verif.Spaces
