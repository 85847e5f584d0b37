import Verif.Lemmas.Order
import Verif.Props.Trace2

/-!
The degrees of the functions of the simple spaces.
-/
namespace Verif.Order

open Verif.Spaces Verif.Geometry

variable {T : Nat → Nat → ℝ} (hv : Nondeg T)
include hv

/-- the function of a scalar space is its formula in barycentric coordinates -/
theorem scalar_poly {op : Mem ℝ → (Nat → ℝ) → Nat → ℝ} {nfa i n : Nat} {val : (Nat → ℝ) → ℝ}
    (hval : ∀ (m : Mem ℝ) U r n, r < m.f → n < m.q → op m U (place m 1 nfa r i n 0) = val fun a => m.xyl (a + 4 * n))
    (hcong : ∀ l l' : Nat → ℝ, (∀ a, a < 4 → l a = l' a) → val l = val l')
    (hp : ∀ L : Nat → (Nat → ℝ) → ℝ, (∀ a, PolyLE 1 (L a)) → PolyLE n fun x => val fun a => L a x)
    {φ : Field} (hφ : IsBasis op 1 nfa i T φ) : PolyLE n fun x => φ x 0 := by
  obtain ⟨L, hL, hb⟩ := bary_poly hv
  exact (hp L hL).congr fun x => scalar_value hval hcong hv (hφ x) (hb x)

/-- the value of a function of a scalar space at the point with given barycentric coordinates -/
theorem scalar_line {op : Mem ℝ → (Nat → ℝ) → Nat → ℝ} {nfa i m : Nat} {val : (Nat → ℝ) → ℝ}
    (hval : ∀ (m : Mem ℝ) U r n, r < m.f → n < m.q → op m U (place m 1 nfa r i n 0) = val fun a => m.xyl (a + 4 * n))
    (hcong : ∀ l l' : Nat → ℝ, (∀ a, a < 4 → l a = l' a) → val l = val l')
    (h : ∀ φ : Field, IsBasis op 1 nfa i T φ → PolyLE m fun x => φ x 0) (a b : Nat → ℝ) (ha : a 0 + a 1 + a 2 + a 3 = 1)
    (hb : b 0 + b 1 + b 2 + b 3 = 0) (Q : Polynomial ℝ) (hQ : ∀ t, val (fun c => a c + t * b c) = Q.eval t) : Q.natDegree ≤ m := by
  have hφ := basis_exists op 1 nfa i T (fun _ => 0) (fun _ => 0) hv
  refine degree_le_of_line (T := T) (h _ hφ) a b Q fun t => ?_
  rw [← hQ]
  refine scalar_value hval hcong hv (hφ _) (atBary_isBary T ?_)
  linear_combination ha + t * hb

omit hv in
theorem p1_poly (L : Nat → (Nat → ℝ) → ℝ) (hL : ∀ a, PolyLE 1 (L a)) (i : Nat) : PolyLE 1 fun x => L i x := hL i

omit hv in
theorem p2_poly (i : Nat) (L : Nat → (Nat → ℝ) → ℝ) (hL : ∀ a, PolyLE 1 (L a)) : PolyLE 2 fun x => p2v (fun a => L a x) i := by
  unfold p2v
  split
  · exact (hL i).mul (((hL i).smul 2).sub (PolyLE.const 1 1))
  · exact ((hL _).smul 4).mul (hL _)

omit hv in
theorem p3_poly (i : Nat) (L : Nat → (Nat → ℝ) → ℝ) (hL : ∀ a, PolyLE 1 (L a)) : PolyLE 3 fun x => p3v (fun a => L a x) i := by
  unfold p3v
  split
  · exact (((hL i).mul (((hL i).smul 3).sub (PolyLE.const 1 1))).mul (((hL i).smul 3).sub (PolyLE.const 1 2))).smul (1 / 2)
      |>.congr fun x => by ring
  · split
    · simp only []
      split
      · exact (((hL _).mul (((hL _).smul 3).sub (PolyLE.const 1 1))).mul (hL _)).mul (PolyLE.const 0 (9 / 2))
      · exact (((hL _).mul (((hL _).smul 3).sub (PolyLE.const 1 1))).mul (hL _)).mul (PolyLE.const 0 (9 / 2))
    · exact (((hL _).smul 27).mul (hL _)).mul (hL _)

omit hv in
theorem b2_poly (i : Nat) (L : Nat → (Nat → ℝ) → ℝ) (hL : ∀ a, PolyLE 1 (L a)) : PolyLE 2 fun x => b2v (fun a => L a x) i := by
  unfold b2v
  exact ((hL _).smul 4).mul (hL _)

omit hv in
theorem b4_poly (L : Nat → (Nat → ℝ) → ℝ) (hL : ∀ a, PolyLE 1 (L a)) : PolyLE 4 fun x => b4v (fun a => L a x) := by
  unfold b4v
  exact ((((hL 0).smul 256).mul (hL 1)).mul (hL 2)).mul (hL 3)

omit hv in
theorem cr1_poly (i : Nat) (L : Nat → (Nat → ℝ) → ℝ) (hL : ∀ a, PolyLE 1 (L a)) : PolyLE 1 fun x => cr1v (fun a => L a x) i := by
  unfold cr1v
  exact (PolyLE.const 1 1).sub ((hL _).smul 3)

/-- the functions of a simple space have at most the declared degree -/
theorem leaf_upper (s : Space) {φ : Field} (hφ : φ ∈ leafFns T s) {k : Nat} (hk : k < leafDim s) :
    PolyLE (idenOrder s) fun x => φ x k := by
  cases s <;> obtain ⟨i, hi, hφ⟩ := hφ <;> simp only [leafDim] at hk
  · obtain rfl : k = 0 := by omega
    obtain rfl : i = 0 := by omega
    refine scalar_poly hv (val := fun _ => 1) ?_ (fun _ _ _ => rfl) (fun _ _ => PolyLE.const 0 1) hφ
    intro m U r n hr hn; rw [place1, p0Iden_at _ _ hr hn]
  · obtain rfl : k = 0 := by omega
    exact scalar_poly hv (val := fun l => l i) (fun _ _ _ _ hr hn => p1Iden_val hr hi hn) (fun _ _ h => h i hi)
      (fun L hL => hL i) hφ
  · obtain rfl : k = 0 := by omega
    exact scalar_poly hv (val := fun l => p2v l i) (fun _ _ _ _ hr hn => p2Iden_val hr hi hn) (p2v_congr i) (p2_poly i) hφ
  · obtain rfl : k = 0 := by omega
    exact scalar_poly hv (val := fun l => p3v l i) (fun _ _ _ _ hr hn => p3Iden_val hr hi hn) (p3v_congr i) (p3_poly i) hφ
  · obtain rfl : k = 0 := by omega
    exact scalar_poly hv (val := fun l => b2v l i) (fun _ _ _ _ hr hn => b2Iden_val hr hi hn) (b2v_congr i) (b2_poly i) hφ
  · obtain rfl : k = 0 := by omega
    obtain rfl : i = 0 := by omega
    exact scalar_poly hv (val := fun l => b4v l) (fun _ _ _ _ hr hn => b4Iden_val hr hn) b4v_congr b4_poly hφ
  · obtain rfl : k = 0 := by omega
    exact scalar_poly hv (val := fun l => cr1v l i) (fun _ _ _ _ hr hn => cr1Iden_val hr hi hn) (cr1v_congr i) (cr1_poly i) hφ
  · have ht : AtTet (single T (fun _ => 0) (fun _ => 0)) 0 T := single_atTet _ _ _ hv
    exact (((PolyLE.coord hk).sub (PolyLE.const 1 (T ((i + 3) % 4) k))).smul _).congr fun x => rt0_value hi (hφ x) ht hk
  · have ht : AtTet (single T (fun _ => 0) (fun _ => 0)) 0 T := single_atTet _ _ _ hv
    obtain ⟨L, hL, hb⟩ := bary_poly hv
    exact ((((hL (ipr (4 * i))).smul _).add ((hL (ipr (4 * i + 1))).smul _)).smul _).congr
      fun x => nd0_value hv hi (hφ x) ht (hb x) hk

omit hv in
/-- a polynomial of degree zero is constant -/
theorem PolyLE.isConst {φ : (Nat → ℝ) → ℝ} (h : PolyLE 0 φ) (x y : Nat → ℝ) : φ x = φ y := by
  obtain ⟨p, hp, e⟩ := h
  rw [e, e, MvPolynomial.totalDegree_eq_zero_iff_eq_C.1 (Nat.le_zero.1 hp), MvPolynomial.eval_C, MvPolynomial.eval_C]

/-- the declared degree of a simple space is reached -/
theorem leaf_lower (s : Space) {m : Nat} (h : ∀ φ ∈ leafFns T s, ∀ k, k < leafDim s → PolyLE m fun x => φ x k) :
    idenOrder s ≤ m := by
  cases s
  · exact Nat.zero_le m
  · have := scalar_line hv (val := fun l => l 0) (fun _ _ _ _ hr hn => p1Iden_val hr (by omega) hn) (fun _ _ h => h 0 (by omega))
      (fun φ hφ => h φ ⟨0, by omega, hφ⟩ 0 (by decide)) (fun c => if c = 1 then 1 else 0)
      (fun c => if c = 0 then 1 else if c = 1 then -1 else 0) (by simp) (by simp) Polynomial.X (by simp)
    simpa [idenOrder] using this
  · have := scalar_line hv (val := fun l => p2v l 0) (fun _ _ _ _ hr hn => p2Iden_val hr (by omega) hn) (p2v_congr 0)
      (fun φ hφ => h φ ⟨0, by omega, hφ⟩ 0 (by decide)) (fun c => if c = 1 then 1 else 0)
      (fun c => if c = 0 then 1 else if c = 1 then -1 else 0) (by simp) (by simp)
      (Polynomial.X * (2 * Polynomial.X - 1)) (by intro t; simp [p2v])
    rwa [show (Polynomial.X * (2 * Polynomial.X - 1) : Polynomial ℝ).natDegree = 2 by compute_degree!] at this
  · have := scalar_line hv (val := fun l => p3v l 0) (fun _ _ _ _ hr hn => p3Iden_val hr (by omega) hn) (p3v_congr 0)
      (fun φ hφ => h φ ⟨0, by omega, hφ⟩ 0 (by decide)) (fun c => if c = 1 then 1 else 0)
      (fun c => if c = 0 then 1 else if c = 1 then -1 else 0) (by simp) (by simp)
      (Polynomial.C (1 / 2) * Polynomial.X * (3 * Polynomial.X - 1) * (3 * Polynomial.X - 2))
      (by intro t; simp [p3v]; ring)
    rwa [show (Polynomial.C (1 / 2) * Polynomial.X * (3 * Polynomial.X - 1) * (3 * Polynomial.X - 2) : Polynomial ℝ).natDegree = 3
      by compute_degree!] at this
  · have := scalar_line hv (val := fun l => b2v l 0) (fun _ _ _ _ hr hn => b2Iden_val hr (by omega) hn) (b2v_congr 0)
      (fun φ hφ => h φ ⟨0, by omega, hφ⟩ 0 (by decide)) (fun c => if c = 1 then 1 else 0)
      (fun c => if c = 0 then 1 else if c = 1 then -1 else 0) (by simp) (by simp)
      (4 * Polynomial.X * (1 - Polynomial.X)) (by intro t; simp [b2v, tI, tJ]; exact Or.inl (by ring))
    rwa [show (4 * Polynomial.X * (1 - Polynomial.X) : Polynomial ℝ).natDegree = 2 by compute_degree!] at this
  · have := scalar_line hv (val := fun l => b4v l) (fun _ _ _ _ hr hn => b4Iden_val hr hn) b4v_congr
      (fun φ hφ => h φ ⟨0, by omega, hφ⟩ 0 (by decide)) (fun c => if c = 3 then 1 else 0)
      (fun c => if c = 3 then -3 else 1) (by norm_num) (by norm_num)
      (256 * Polynomial.X * Polynomial.X * Polynomial.X * (1 - 3 * Polynomial.X)) (by intro t; simp [b4v]; exact Or.inl (by ring))
    rwa [show (256 * Polynomial.X * Polynomial.X * Polynomial.X * (1 - 3 * Polynomial.X) : Polynomial ℝ).natDegree = 4
      by compute_degree!] at this
  · have := scalar_line hv (val := fun l => cr1v l 1) (fun _ _ _ _ hr hn => cr1Iden_val hr (by omega) hn) (cr1v_congr 1)
      (fun φ hφ => h φ ⟨1, by omega, hφ⟩ 0 (by decide)) (fun c => if c = 1 then 1 else 0)
      (fun c => if c = 0 then 1 else if c = 1 then -1 else 0) (by simp) (by simp)
      (1 - 3 * Polynomial.X) (by intro t; simp [cr1v, ipf3])
    rwa [show (1 - 3 * Polynomial.X : Polynomial ℝ).natDegree = 1 by compute_degree!] at this
  · by_contra hm
    obtain rfl : m = 0 := by simp only [idenOrder] at hm; omega
    obtain ⟨φ, hφ⟩ : ∃ φ, IsBasis (rt0Iden Real.sqrt) 3 4 0 T φ := ⟨_, basis_exists _ 3 4 0 T (fun _ => 0) (fun _ => 0) hv⟩
    have hc : ∀ k, k < 3 → ∀ x y, φ x k = φ y k := fun k hk => (h _ ⟨0, by omega, hφ⟩ k hk).isConst
    have ht : AtTet (single T (fun _ => 0) (fun _ => 0)) 0 T := single_atTet _ _ _ hv
    have z : ∀ x k, k < 3 → φ x k = 0 := by
      intro x k hk
      rw [hc k hk x (T 3), rt0_value (by omega) (hφ _) ht hk]
      simp
    have hd := rt0_dual (fun _ hx => ⟨Real.sqrt_nonneg _, Real.mul_self_sqrt hx⟩) hv φ 0 (i := 0) (j := 0) (by omega) (by omega)
      [⟨fun c => if c = 0 then 1 else 0, 1⟩] (by intro q hq; rw [List.mem_singleton.1 hq]; simp [List.range_succ]) (by simp [weight])
      (cast (by simp) hφ)
    simp [rt0Dof, quad, z, delta] at hd
  · by_contra hm
    obtain rfl : m = 0 := by simp only [idenOrder] at hm; omega
    obtain ⟨φ, hφ⟩ : ∃ φ, IsBasis (nd0Iden Real.sqrt) 3 6 0 T φ := ⟨_, basis_exists _ 3 6 0 T (fun _ => 0) (fun _ => 0) hv⟩
    have hc : ∀ k, k < 3 → ∀ x y, φ x k = φ y k := fun k hk => (h _ ⟨0, by omega, hφ⟩ k hk).isConst
    have e := fun (l : Nat → ℝ) hl => Verif.Trace.nd0_along hv (j := 0) (by omega) (hφ (atBary T l)) (atBary_isBary T hl)
      (τ := fun c => if c = 0 then -1 else if c = 1 then 1 else 0) (t := fun k => T 1 k - T 0 k) (by simp) (by intros; simp; ring)
    have e1 := e (fun c => if c = 0 then 1 else 0) (by simp)
    have e2 := e (fun c => if c = 2 then 1 else 0) (by simp)
    have e3 : ∀ x y, dot (φ x) (fun k => T 1 k - T 0 k) = dot (φ y) (fun k => T 1 k - T 0 k) := by
      intro x y
      simp only [dot]
      rw [hc 0 (by decide) x y, hc 1 (by decide) x y, hc 2 (by decide) x y]
    rw [e3 _ (atBary T fun c => if c = 2 then 1 else 0), e2] at e1
    have e1 : Real.sqrt (dot (diff (T 0) (T 1)) (diff (T 0) (T 1))) = 0 := by
      simpa [Verif.Trace.form, Verif.Trace.ends, eq_comm] using e1
    have hs : 0 ≤ dot (diff (T 0) (T 1)) (diff (T 0) (T 1)) := by
      simp only [dot]; nlinarith [sq_nonneg (diff (T 0) (T 1) 0), sq_nonneg (diff (T 0) (T 1) 1), sq_nonneg (diff (T 0) (T 1) 2)]
    have h0 : dot (diff (T 0) (T 1)) (diff (T 0) (T 1)) = 0 := by
      have := Real.mul_self_sqrt hs
      rw [e1, mul_zero] at this
      exact this.symm
    simp only [dot] at h0
    have d0 : diff (T 0) (T 1) 0 = 0 := by nlinarith [sq_nonneg (diff (T 0) (T 1) 0), sq_nonneg (diff (T 0) (T 1) 1), sq_nonneg (diff (T 0) (T 1) 2)]
    have d1 : diff (T 0) (T 1) 1 = 0 := by nlinarith [sq_nonneg (diff (T 0) (T 1) 0), sq_nonneg (diff (T 0) (T 1) 1), sq_nonneg (diff (T 0) (T 1) 2)]
    have d2 : diff (T 0) (T 1) 2 = 0 := by nlinarith [sq_nonneg (diff (T 0) (T 1) 0), sq_nonneg (diff (T 0) (T 1) 1), sq_nonneg (diff (T 0) (T 1) 2)]
    have hvv := hv
    unfold Nondeg at hvv
    rw [vol6_eq] at hvv
    simp only [diff] at d0 d1 d2
    apply hvv
    simp only [dot, cross, diff]
    rw [show T 1 0 - T 0 0 = 0 by linarith, show T 1 1 - T 0 1 = 0 by linarith, show T 1 2 - T 0 2 = 0 by linarith]
    simp

end Verif.Order
