import Mathlib.Analysis.Calculus.Deriv.Pi
import Mathlib.Analysis.Calculus.FDeriv.Symmetric
import Verif.Lemmas.AutoDiffFun

/-!
# C56: automatic differentiation gives the value, the gradient and the Hessian

For every expression that is smooth at a point the object computed there should carry the value, the
gradient and the Hessian of the function (`Right`).  `run_right_partial` proves it for all
expressions that satisfy `Sound`: at order 2 the State of a denominator declares a second derivative
if it declares a first one, a `hypot` of one argument has a positive argument, and the first
argument of a longer `hypot` carries the orders that are asked for.  The three conditions are
needed: `div_wrong`, `hypot_one_wrong`, `hypot_first_wrong`.
-/

namespace Verif.AutoDiff

open Filter Topology

variable {ι : Type} [Fintype ι] [DecidableEq ι]

/-- The conditions, beyond smoothness, under which the code is right. -/
def Expr.Sound (k : Nat) (x : ι → ℝ) : Expr ι → Prop
  | .ext _ _ => True
  | .const _ => True
  | .var _ _ => True
  | .copy a => a.Sound k x
  | .shell a => a.Sound k x
  | .neg a => a.Sound k x
  | .add a b => a.Sound k x ∧ b.Sound k x
  | .sub a b => a.Sound k x ∧ b.Sound k x
  | .mul a b => a.Sound k x ∧ b.Sound k x
  | .div a b => a.Sound k x ∧ b.Sound k x ∧
      (2 ≤ k → (b.run x).nd = true → (b.run x).ns = true)
  | .powR a _ => a.Sound k x
  | .powZ a _ => a.Sound k x
  | .pow a b => a.Sound k x ∧ b.Sound k x
  | .sq a => a.Sound k x
  | .cube a => a.Sound k x
  | .un _ a => a.Sound k x
  | .atan2 y z => y.Sound k x ∧ z.Sound k x
  | .hypot nd _ n e => (∀ m, (e m).Sound k x) ∧ (n = 1 → ∀ m, 0 < (e m).fn x) ∧
      (2 ≤ n → nd = true → ∀ m : Fin n, m.val = 0 → k ≤ ((e m).run x).dif)
  | .abs a => a.Sound k x
  | .sign a => a.Sound k x
  | .min a b => a.Sound k x ∧ b.Sound k x
  | .max a b => a.Sound k x ∧ b.Sound k x

/-- What an expression computes is right to the order `k`: the value, the gradient (`k ≥ 1`) and the
Hessian (`k ≥ 2`) of the function that it denotes. -/
theorem run_right_partial (k : Nat) (x : ι → ℝ) (e : Expr ι) (hg : e.Given k x)
    (hs : e.Smooth k x) (hq : e.Sound k x) : Right k e.fn x (e.run x) := by
  induction e with
  | ext a f => exact hg
  | const c => exact param_right k c x
  | var i n =>
    refine var_right i x n ?_
    obtain ⟨h1, h2⟩ := hs
    simp only [u8]; omega
  | copy a iha => exact makeADVal_right (iha hg hs hq)
  | shell a iha => exact makeShell_right (iha hg hs hq)
  | neg a iha => exact neg_right (iha hg hs hq)
  | add a b iha ihb => exact add_right (iha hg.1 hs.1 hq.1) (ihb hg.2 hs.2 hq.2)
  | sub a b iha ihb => exact sub_right (iha hg.1 hs.1 hq.1) (ihb hg.2 hs.2 hq.2)
  | mul a b iha ihb => exact mul_right (iha hg.1 hs.1 hq.1) (ihb hg.2 hs.2 hq.2)
  | div a b iha ihb =>
    exact div_right_flat (iha hg.1 hs.1 hq.1) (ihb hg.2 hs.2.1 hq.2.1) hs.2.2 hq.2.2
  | powR a q iha => exact powR_right q (iha hg hs.1 hq) hs.2
  | powZ a q iha => exact powZ_right q (iha hg hs.1 hq) hs.2
  | pow a b iha ihb => exact pow_right (iha hg.1 hs.1 hq.1) (ihb hg.2 hs.2.1 hq.2) hs.2.2
  | sq a iha => exact sq_right (iha hg hs hq)
  | cube a iha => exact cube_right (iha hg hs hq)
  | un u a iha => exact unary_right u (iha hg hs.1 hq) hs.2
  | atan2 y z ihy ihz =>
    exact atan2_right (ihy hg.1 hs.1 hq.1) (ihz hg.2 hs.2.1 hq.2) hs.2.2
  | hypot nd ns n e ih =>
    exact hypot_right (f := fun m => (e m).fn) (fun m => ih m (hg m).1 (hs.1 m) (hq.1 m)) (fun m => (hg m).2.1)
      (fun m => (hg m).2.2) hq.2.1 (fun h => hs.2 (by omega)) hq.2.2
  | abs a iha => exact abs_right (iha hg hs.1 hq) hs.2
  | sign a iha => exact sign_right (iha hg hs.1 hq) hs.2
  | min a b iha ihb => exact min_right (iha hg.1 hs.1 hq.1) (ihb hg.2 hs.2.1 hq.2) hs.2.2
  | max a b iha ihb => exact max_right (iha hg.1 hs.1 hq.1) (ihb hg.2 hs.2.1 hq.2) hs.2.2

theorem IsGrad.part {f : (ι → ℝ) → ℝ} {y d} (i : ι) (h : IsGrad f y d) :
    HasDerivAt (fun s => f (Function.update y i s)) (d i) (y i) := by
  have hf : HasFDerivAt f (lin d) (Function.update y i (y i)) := by
    rw [Function.update_eq_self]; exact h
  refine (hf.comp_hasDerivAt (y i) (hasDerivAt_update y i (y i))).congr_deriv ?_
  rw [lin_apply]
  simp [Pi.single_apply]

/-- The entry `i` of the gradient is the partial derivative. -/
theorem run_deriv_partial (x : ι → ℝ) (e : Expr ι) (hg : e.Given 1 x) (hs : e.Smooth 1 x)
    (hq : e.Sound 1 x) (i : ι) :
    HasDerivAt (fun t => e.fn (Function.update x i t)) ((e.run x).d i) (x i) := by
  exact IsGrad.part i ((run_right_partial 1 x e hg hs hq).grad le_rfl)

/-- The entry `i`, `j` of the Hessian is the second partial derivative. -/
theorem run_deriv2_partial (x : ι → ℝ) (e : Expr ι) (hg : e.Given 2 x) (hs : e.Smooth 2 x)
    (hq : e.Sound 2 x) (i j : ι) :
    HasDerivAt (fun t => deriv (fun s => e.fn (Function.update (Function.update x j t) i s))
      (Function.update x j t i)) ((e.run x).dd i j) (x j) := by
  obtain ⟨g, hg1, hg2⟩ := (run_right_partial 2 x e hg hs hq).hess le_rfl
  refine (IsGrad.part j (hg2 i)).congr_of_eventuallyEq ?_
  have hc : ContinuousAt (fun t => Function.update x j t) (x j) :=
    (continuous_const.update j continuous_id).continuousAt
  have hc' : Tendsto (fun t => Function.update x j t) (𝓝 (x j)) (𝓝 x) := by
    have := hc.tendsto
    rwa [Function.update_eq_self] at this
  filter_upwards [hc'.eventually hg1] with t ht
  exact (IsGrad.part i ht).deriv

/-- The Hessian is symmetric, as its packed storage needs. -/
theorem run_symm_partial (x : ι → ℝ) (e : Expr ι) (hg : e.Given 2 x) (hs : e.Smooth 2 x)
    (hq : e.Sound 2 x) (i j : ι) : (e.run x).dd i j = (e.run x).dd j i := by
  obtain ⟨g, hg1, hg2⟩ := (run_right_partial 2 x e hg hs hq).hess le_rfl
  have hF : HasFDerivAt (fun y => lin (g y))
      (∑ i, (lin ((e.run x).dd i)).smulRight
        (ContinuousLinearMap.proj (R := ℝ) (φ := fun _ : ι => ℝ) i)) x := by
    have : (fun y => lin (g y)) = fun y => ∑ i, g y i • ContinuousLinearMap.proj i := rfl
    rw [this]
    refine HasFDerivAt.fun_sum fun i _ => ?_
    exact HasFDerivAt.smul_const (c := fun y => g y i) (hg2 i)
      (ContinuousLinearMap.proj (R := ℝ) (φ := fun _ : ι => ℝ) i)
  have := second_derivative_symmetric_of_eventually hg1 hF (Pi.single i 1) (Pi.single j 1)
  simp [lin_apply, Pi.single_apply] at this
  exact this.symm

/-- Example: exp(x₀·x₁) + x₀/(1 + x₁²) − atan2(x₁, x₀) at (1, 2), to the order 2. -/
noncomputable def sample : Expr (Fin 2) :=
  .sub (.add (.un .exp (.mul (.var 0 2) (.var 1 2)))
      (.div (.var 0 2) (.add (.const 1) (.sq (.var 1 2)))))
    (.atan2 (.var 1 2) (.var 0 2))

theorem sample_ok : sample.Given 2 ![1, 2] ∧ sample.Smooth 2 ![1, 2] ∧ sample.Sound 2 ![1, 2] := by
  refine ⟨by simp [sample, Expr.Given], ?_, ?_⟩
  · simp [sample, Expr.Smooth, Expr.fn, Un.dom]; norm_num
  · simp [sample, Expr.Sound, Expr.run, add, sq, param, var]

example : Right 2 sample.fn ![1, 2] (sample.run ![1, 2]) :=
  run_right_partial 2 _ _ sample_ok.1 sample_ok.2.1 sample_ok.2.2

omit [DecidableEq ι] in
/-- A division by an object whose State declares a first but no second derivative (a variable, `I1`,
`I4fs`, a sum of such) gives a Hessian that lacks the term 2 f g'⊗g'/g³. -/
theorem div_wrong {f g : (ι → ℝ) → ℝ} {x : ι → ℝ} {a b : Ex ι} (ha : Right 2 f x a)
    (hb : Right 2 g x b) (h0 : g x ≠ 0) (hd : 2 ≤ Max.max a.dif b.dif) (hs : b.ns = false) :
    IsHess (fun y => f y / g y) x fun i j =>
      (div a b).dd i j + 2 * f x / g x ^ 3 * (b.d i * b.d j) := by
  have hj := (jet_div ha.jet hb.jet h0).hess le_rfl
  rw [div_dd ha.state hb.state hd]
  convert hj using 3
  rw [hs, ha.val, hb.val]
  field_simp
  simp
  ring

/-- 1/x for a variable x: the computed second derivative is 0, the true one is 2/x³. -/
theorem div_var_wrong (x : Fin 1 → ℝ) (hx : x 0 ≠ 0) :
    ((Expr.div (.const 1) (.var 0 2) : Expr (Fin 1)).run x).dd 0 0 = 0 ∧
    ∀ dd, IsHess (Expr.div (.const 1) (.var 0 2) : Expr (Fin 1)).fn x dd → dd 0 0 = 2 / x 0 ^ 3 := by
  have h0 : ((Expr.div (.const 1) (.var 0 2) : Expr (Fin 1)).run x).dd 0 0 = 0 := by
    simp [Expr.run, div, param, var, gt0, ht0, u8]
  refine ⟨h0, fun dd hdd => ?_⟩
  have ha : Right 2 (fun _ : Fin 1 → ℝ => (1 : ℝ)) x (param 1) := param_right 2 1 x
  have hb : Right 2 (fun y : Fin 1 → ℝ => y 0) x (var 0 (x 0) 2) := var_right 0 x 2 (by decide)
  have hw := div_wrong ha hb hx (by simp [var, u8]) rfl
  obtain ⟨g, hg1, hg2⟩ := hw
  obtain ⟨g', hg1', hg2'⟩ := hdd
  have : ∀ᶠ y in 𝓝 x, g y 0 = g' y 0 := by
    filter_upwards [hg1, hg1'] with y a b
    exact congrFun (IsGrad.unique a b) 0
  have e := (hg2 0).unique ((hg2' 0).congr this)
  have e := congrFun e 0
  rw [← e]
  beta_reduce
  have h1 : (div (param 1) (var 0 (x 0) 2) : Ex (Fin 1)).dd 0 0 = 0 := h0
  rw [h1]
  simp [var]

/-- `hypot` of one argument returns the argument: for a negative one the value has the wrong sign. -/
theorem hypot_one_wrong (x : Fin 1 → ℝ) (hx : x 0 < 0) :
    ((Expr.hypot true false 1 fun _ => .var 0 2 : Expr (Fin 1)).run x).v ≠
      (Expr.hypot true false 1 fun _ => .var 0 2 : Expr (Fin 1)).fn x := by
  have : Real.sqrt (x 0 ^ 2) = -x 0 := by rw [Real.sqrt_sq_eq_abs, abs_of_neg hx]
  simp [Expr.run, hypot, var, Expr.fn, this]
  linarith

/-- `hypot` takes the number of orders from its first argument: where max(x₀, 0) is the constant 0 it
loses the gradient of √(max(x₀, 0)² + max(x₁, 0)²). -/
theorem hypot_first_wrong (x : Fin 2 → ℝ) (h0 : x 0 < 0) (h1 : 0 < x 1) :
    let e : Expr (Fin 2) := .hypot true false 2 fun m => .max (.var m 2) (.const 0)
    (e.run x).d = 0 ∧ ∀ d, IsGrad e.fn x d → d = fun i => if i = 1 then 1 else 0 := by
  intro e
  constructor
  · simp [e, Expr.run, hypot, max, var, param, take, not_le.mpr h0]
    rfl
  · intro d hd
    have hv : IsGrad (fun y : Fin 2 → ℝ => y 1) x (fun i => if i = 1 then 1 else 0) :=
      (var_right (1 : Fin 2) x 1 (by decide : 1 ≤ u8 1)).grad le_rfl
    refine hd.unique (hv.congr ?_)
    have c0 : ∀ᶠ y : Fin 2 → ℝ in 𝓝 x, y 0 < 0 :=
      (continuous_apply 0).continuousAt.eventually (gt_mem_nhds h0)
    have c1 : ∀ᶠ y : Fin 2 → ℝ in 𝓝 x, 0 < y 1 :=
      (continuous_apply 1).continuousAt.eventually (lt_mem_nhds h1)
    filter_upwards [c0, c1] with y a b
    simp [e, Expr.fn, max_eq_right a.le, max_eq_left b.le, Real.sqrt_sq b.le]

end Verif.AutoDiff
