import Verif.Spec.Order
import Verif.Props.SpacesDeriv
import Mathlib.Algebra.MvPolynomial.PDeriv
import Mathlib.Algebra.MvPolynomial.Funext
import Mathlib.RingTheory.Polynomial.Basic
import Mathlib.Analysis.Calculus.Deriv.Add
import Mathlib.Analysis.Calculus.Deriv.Mul
import Mathlib.Tactic.ComputeDegree

/-!
Polynomials of bounded degree: sums, products, restriction to a line, derivatives.
-/
namespace Verif.Order

open Verif.Spaces Verif.Geometry MvPolynomial

/-! ### Sums and products -/

theorem PolyLE.mono {n m : Nat} (h : n ≤ m) {ψ : (Nat → ℝ) → ℝ} (hψ : PolyLE n ψ) : PolyLE m ψ := by
  obtain ⟨p, hp, e⟩ := hψ
  exact ⟨p, hp.trans h, e⟩

theorem PolyLE.const (n : Nat) (c : ℝ) : PolyLE n fun _ => c :=
  ⟨C c, by rw [totalDegree_C]; exact Nat.zero_le _, fun x => by rw [eval_C]⟩

theorem PolyLE.add {n : Nat} {φ ψ : (Nat → ℝ) → ℝ} (hφ : PolyLE n φ) (hψ : PolyLE n ψ) : PolyLE n fun x => φ x + ψ x := by
  obtain ⟨p, hp, e⟩ := hφ
  obtain ⟨q, hq, e'⟩ := hψ
  exact ⟨p + q, (totalDegree_add p q).trans (max_le hp hq), fun x => by simp only [e, e', map_add]⟩

theorem PolyLE.mul {n m : Nat} {φ ψ : (Nat → ℝ) → ℝ} (hφ : PolyLE n φ) (hψ : PolyLE m ψ) : PolyLE (n + m) fun x => φ x * ψ x := by
  obtain ⟨p, hp, e⟩ := hφ
  obtain ⟨q, hq, e'⟩ := hψ
  exact ⟨p * q, (totalDegree_mul p q).trans (add_le_add hp hq), fun x => by simp only [e, e', map_mul]⟩

theorem PolyLE.smul {n : Nat} (c : ℝ) {φ : (Nat → ℝ) → ℝ} (hφ : PolyLE n φ) : PolyLE n fun x => c * φ x := by
  have := (PolyLE.const 0 c).mul hφ
  rwa [Nat.zero_add] at this

theorem PolyLE.sub {n : Nat} {φ ψ : (Nat → ℝ) → ℝ} (hφ : PolyLE n φ) (hψ : PolyLE n ψ) : PolyLE n fun x => φ x - ψ x := by
  have := hφ.add (hψ.smul (-1))
  refine cast (congrArg (PolyLE n) (funext fun x => ?_)) this
  ring

theorem PolyLE.coord {k : Nat} (hk : k < 3) : PolyLE 1 fun x => x k :=
  ⟨X ⟨k, hk⟩, (totalDegree_X _).le, fun x => by rw [eval_X]⟩

theorem PolyLE.congr {n : Nat} {φ ψ : (Nat → ℝ) → ℝ} (h : ∀ x, φ x = ψ x) (hψ : PolyLE n ψ) : PolyLE n φ := by
  obtain ⟨p, hp, e⟩ := hψ
  exact ⟨p, hp, fun x => (h x).trans (e x)⟩

/-! ### Derivatives -/

theorem eval_partial (p : MvPolynomial (Fin 3) ℝ) (x : Nat → ℝ) (c : Fin 3) :
    HasPartial (fun y => eval (fun i : Fin 3 => y i) p) x c (eval (fun i : Fin 3 => x i) (pderiv c p)) := by
  unfold HasPartial
  induction p using MvPolynomial.induction_on with
  | C a => simpa using hasDerivAt_const (0 : ℝ) a
  | add p q hp hq =>
    have h := hp.add hq
    rw [map_add, map_add]
    refine HasDerivAt.congr_of_eventuallyEq h (Filter.Eventually.of_forall fun t => ?_)
    simp only [Pi.add_apply, map_add]
  | mul_X p i hp =>
    have h1 : HasDerivAt (fun t : ℝ => x i + t * if (i : Nat) = c then 1 else 0) (if (i : Nat) = c then 1 else 0) 0 :=
      line_deriv _ _
    have h2 := hp.mul h1
    rw [Derivation.leibniz, pderiv_X]
    simp only [map_mul, eval_X]
    refine HasDerivAt.congr_deriv h2 ?_
    simp only [zero_mul, add_zero, smul_eq_mul, map_add, map_mul, eval_X, Pi.single_apply, Fin.ext_iff]
    by_cases h : (i : Nat) = c
    · rw [if_pos h, if_pos h]; simp; ring
    · rw [if_neg h, if_neg (fun e => h e)]; simp; ring

theorem poly_eq {p q : MvPolynomial (Fin 3) ℝ} (h : ∀ x : Nat → ℝ, eval (fun i : Fin 3 => x i) p = eval (fun i : Fin 3 => x i) q) :
    p = q := by
  refine MvPolynomial.funext fun y => ?_
  have := h fun k => if hk : k < 3 then y ⟨k, hk⟩ else 0
  have e : (fun i : Fin 3 => (fun k => if hk : k < 3 then y ⟨k, hk⟩ else 0) (i : Nat)) = y := by
    funext i
    simp
  rw [← e]
  exact this

theorem card_add_single (s : Fin 3 →₀ ℕ) (c : Fin 3) :
    ((s + Finsupp.single c 1).sum fun _ e => e) = (s.sum fun _ e => e) + 1 := by
  rw [Finsupp.sum_add_index' (fun _ => rfl) (fun _ _ _ => rfl), Finsupp.sum_single_index rfl]

theorem totalDegree_pderiv_le (p : MvPolynomial (Fin 3) ℝ) (c : Fin 3) : (pderiv c p).totalDegree ≤ p.totalDegree - 1 := by
  refine Finset.sup_le fun s hs => ?_
  rw [mem_support_iff, coeff_pderiv] at hs
  have h := le_totalDegree (mem_support_iff.2 (left_ne_zero_of_mul hs))
  rw [card_add_single] at h
  omega

/-- a polynomial whose derivatives have degree at most `m` has degree at most `m + 1` -/
theorem totalDegree_le_of_pderiv {p : MvPolynomial (Fin 3) ℝ} {m : Nat} (h : ∀ c, (pderiv c p).totalDegree ≤ m) :
    p.totalDegree ≤ m + 1 := by
  refine Finset.sup_le fun s hs => ?_
  by_cases h0 : s = 0
  · rw [h0, Finsupp.sum_zero_index]; exact Nat.zero_le _
  obtain ⟨c, hc⟩ := Finsupp.ne_iff.1 h0
  have hle : Finsupp.single c 1 ≤ s := by
    rw [Finsupp.single_le_iff]
    exact Nat.one_le_iff_ne_zero.2 hc
  have e : s - Finsupp.single c 1 + Finsupp.single c 1 = s := tsub_add_cancel_of_le hle
  have hne : coeff (s - Finsupp.single c 1) (pderiv c p) ≠ 0 := by
    rw [coeff_pderiv, e]
    exact mul_ne_zero (mem_support_iff.1 hs) (by positivity)
  have := (le_totalDegree (mem_support_iff.2 hne)).trans (h c)
  rw [← e, card_add_single]
  omega

/-- the derivative of a polynomial function of degree at most `n` has degree at most `n - 1` -/
theorem PolyLE.der {n : Nat} {φ g : (Nat → ℝ) → ℝ} (h : PolyLE n φ) {c : Nat} (hc : c < 3) (hg : ∀ x, HasPartial φ x c (g x)) :
    PolyLE (n - 1) g := by
  obtain ⟨p, hp, e⟩ := h
  refine ⟨pderiv ⟨c, hc⟩ p, (totalDegree_pderiv_le p _).trans (by omega), fun x => ?_⟩
  have h1 := eval_partial p x ⟨c, hc⟩
  have h2 := hg x
  rw [show φ = fun y => eval (fun i : Fin 3 => y i) p from funext e] at h2
  exact h2.unique h1

/-- a polynomial function has derivatives -/
theorem PolyLE.hasDer {n : Nat} {φ : (Nat → ℝ) → ℝ} (h : PolyLE n φ) {c : Nat} (hc : c < 3) :
    ∃ g : (Nat → ℝ) → ℝ, ∀ x, HasPartial φ x c (g x) := by
  obtain ⟨p, hp, e⟩ := h
  refine ⟨fun x => eval (fun i : Fin 3 => x i) (pderiv ⟨c, hc⟩ p), fun x => ?_⟩
  rw [show φ = fun y => eval (fun i : Fin 3 => y i) p from funext e]
  exact eval_partial p x ⟨c, hc⟩

/-- a polynomial function whose derivatives have degree at most `m` has degree at most `m + 1` -/
theorem PolyLE.ofDer {n m : Nat} {φ : (Nat → ℝ) → ℝ} (h : PolyLE n φ)
    (hd : ∀ c, c < 3 → ∀ g, (∀ x, HasPartial φ x c (g x)) → PolyLE m g) : PolyLE (m + 1) φ := by
  obtain ⟨p, hp, e⟩ := h
  refine ⟨p, totalDegree_le_of_pderiv fun c => ?_, e⟩
  obtain ⟨q, hq, e'⟩ := hd c c.2 (fun x => eval (fun i : Fin 3 => x i) (pderiv c p)) fun x => by
    rw [show φ = fun y => eval (fun i : Fin 3 => y i) p from funext e]
    exact eval_partial p x c
  rw [poly_eq e']
  exact hq

/-! ### Restriction to a line -/

theorem PolyLE.line {n : Nat} {φ : (Nat → ℝ) → ℝ} (h : PolyLE n φ) (x v : Nat → ℝ) :
    ∃ P : Polynomial ℝ, P.natDegree ≤ n ∧ ∀ t, φ (fun k => x k + t * v k) = P.eval t := by
  obtain ⟨p, hp, e⟩ := h
  refine ⟨aeval (fun i : Fin 3 => Polynomial.C (x i) + Polynomial.X * Polynomial.C (v i)) p, ?_, fun t => ?_⟩
  · refine (aeval_natDegree_le p (m := n) hp _ (n := 1) fun i => ?_).trans (by omega)
    compute_degree
  · rw [e]
    clear e hp
    induction p using MvPolynomial.induction_on with
    | C a => simp
    | add p q hp hq => rw [map_add, map_add, Polynomial.eval_add, hp, hq]
    | mul_X p i hp =>
      rw [map_mul, map_mul, Polynomial.eval_mul, hp]
      simp only [eval_X, aeval_X, Polynomial.eval_add, Polynomial.eval_C, Polynomial.eval_mul, Polynomial.eval_X]

/-! ### Barycentric coordinates -/

/-- the barycentric coordinates of the point are polynomials of degree one -/
theorem bary_poly {T : Nat → Nat → ℝ} (hv : Nondeg T) : ∃ L : Nat → (Nat → ℝ) → ℝ, (∀ a, PolyLE 1 (L a)) ∧
    ∀ x, IsBary (T 0) (T 1) (T 2) (T 3) x fun a => L a x := by
  let m := single T (fun _ => 0) (fun _ => 0)
  have ht : AtTet m 0 T := single_atTet _ _ _ hv
  let l0 := baryCoord (T 0) (T 1) (T 2) (T 3) (fun _ => 0) fun _ => 0
  have h0 : IsBary (T 0) (T 1) (T 2) (T 3) (fun _ => 0) l0 := baryCoord_correct _ _ _ _ _ _ hv
  refine ⟨fun a x => l0 a + 1 * dot (gradL m 0 a) x, fun a => ?_, fun x => ?_⟩
  · refine (PolyLE.const 1 _).add (PolyLE.smul 1 ?_)
    exact (((PolyLE.coord (by omega)).smul _).add ((PolyLE.coord (by omega)).smul _)).add ((PolyLE.coord (by omega)).smul _)
  · have := bary_line hv ht h0 x 1
    simpa using this

/-- the point with given barycentric coordinates -/
def atBary (T : Nat → Nat → ℝ) (l : Nat → ℝ) (k : Nat) : ℝ := l 0 * T 0 k + l 1 * T 1 k + l 2 * T 2 k + l 3 * T 3 k

theorem atBary_isBary (T : Nat → Nat → ℝ) {l : Nat → ℝ} (h : l 0 + l 1 + l 2 + l 3 = 1) :
    IsBary (T 0) (T 1) (T 2) (T 3) (atBary T l) l := ⟨h, fun _ _ => rfl⟩

/-- a polynomial function of degree at most `m` that is, on a line given by barycentric coordinates, a polynomial of degree `n` of
the parameter -/
theorem degree_le_of_line {T : Nat → Nat → ℝ} {m : Nat} {φ : (Nat → ℝ) → ℝ} (h : PolyLE m φ) (a b : Nat → ℝ)
    (Q : Polynomial ℝ) (hQ : ∀ t, φ (atBary T fun c => a c + t * b c) = Q.eval t) : Q.natDegree ≤ m := by
  obtain ⟨P, hP, e⟩ := h.line (atBary T a) (atBary T b)
  have : P = Q := by
    refine Polynomial.funext fun t => ?_
    rw [← e, ← hQ]
    congr 1
    funext k
    simp only [atBary]; ring
  rwa [← this]

end Verif.Order
