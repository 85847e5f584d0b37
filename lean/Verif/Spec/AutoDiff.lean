import Mathlib.Analysis.Calculus.FDeriv.Pi
import Mathlib.Data.Real.Sign
import Verif.Model.AutoDiff

/-!
# Specification of the automatic differentiation

The real function that an expression denotes, its gradient and its Hessian.  The specification uses
Mathlib's derivative; from the model it takes only the syntax of expressions.
-/

namespace Verif.AutoDiff

variable {ι : Type}

/-- The linear form with the coefficients `d`. -/
noncomputable def lin [Fintype ι] (d : ι → ℝ) : (ι → ℝ) →L[ℝ] ℝ :=
  ∑ i, d i • ContinuousLinearMap.proj i

/-- `d` is the gradient of `f` at `x`. -/
def IsGrad [Fintype ι] (f : (ι → ℝ) → ℝ) (x : ι → ℝ) (d : ι → ℝ) : Prop :=
  HasFDerivAt f (lin d) x

/-- `dd` is the Hessian of `f` at `x`: near `x` the function has a gradient, and row `i` of `dd` is the
gradient at `x` of entry `i` of that gradient. -/
def IsHess [Fintype ι] (f : (ι → ℝ) → ℝ) (x : ι → ℝ) (dd : ι → ι → ℝ) : Prop :=
  ∃ g : (ι → ℝ) → ι → ℝ, (∀ᶠ y in nhds x, IsGrad f y (g y)) ∧
    ∀ i, IsGrad (fun y => g y i) x (dd i)

/-- The real functions of one variable. -/
noncomputable def Un.fn : Un → ℝ → ℝ
  | .exp, t => Real.exp t
  | .expm1, t => Real.exp t - 1
  | .log, t => Real.log t
  | .log1p, t => Real.log (1 + t)
  | .sqrt, t => Real.sqrt t
  | .cbrt, t => Real.sign t * |t| ^ ((1 : ℝ) / 3)
  | .sin, t => Real.sin t
  | .cos, t => Real.cos t
  | .tan, t => Real.sin t / Real.cos t
  | .atan, t => Real.arctan t
  | .asin, t => Real.arcsin t
  | .acos, t => Real.arccos t
  | .sinh, t => Real.sinh t
  | .cosh, t => Real.cosh t
  | .tanh, t => Real.sinh t / Real.cosh t

/-- Where they are smooth. -/
def Un.dom : Un → ℝ → Prop
  | .exp, _ => True
  | .expm1, _ => True
  | .log, t => 0 < t
  | .log1p, t => -1 < t
  | .sqrt, t => 0 < t
  | .cbrt, t => t ≠ 0
  | .sin, _ => True
  | .cos, _ => True
  | .tan, t => Real.cos t ≠ 0
  | .atan, _ => True
  | .asin, t => -1 < t ∧ t < 1
  | .acos, t => -1 < t ∧ t < 1
  | .sinh, _ => True
  | .cosh, _ => True
  | .tanh, _ => True

/-- The function that an expression denotes. -/
noncomputable def Expr.fn : Expr ι → (ι → ℝ) → ℝ
  | .ext _ f, x => f x
  | .const c, _ => c
  | .var i _, x => x i
  | .copy a, x => a.fn x
  | .shell a, x => a.fn x
  | .neg a, x => -a.fn x
  | .add a b, x => a.fn x + b.fn x
  | .sub a b, x => a.fn x - b.fn x
  | .mul a b, x => a.fn x * b.fn x
  | .div a b, x => a.fn x / b.fn x
  | .powR a q, x => a.fn x ^ q
  | .powZ a q, x => a.fn x ^ q
  | .pow a b, x => a.fn x ^ b.fn x
  | .sq a, x => a.fn x ^ 2
  | .cube a, x => a.fn x ^ 3
  | .un u a, x => u.fn (a.fn x)
  | .atan2 y z, x => Complex.arg ⟨z.fn x, y.fn x⟩
  | .hypot _ _ _ e, x => Real.sqrt (∑ k, (e k).fn x ^ 2)
  | .abs a, x => |a.fn x|
  | .sign a, x => Real.sign (a.fn x)
  | .min a b, x => Min.min (a.fn x) (b.fn x)
  | .max a b, x => Max.max (a.fn x) (b.fn x)

/-- Near `x` every function in the expression is differentiable `k` times, and the variables ask for at
least `k` derivatives. -/
def Expr.Smooth (k : Nat) (x : ι → ℝ) : Expr ι → Prop
  | .ext _ _ => True
  | .const _ => True
  | .var _ n => (k : Int) ≤ n ∧ n ≤ 255
  | .copy a => a.Smooth k x
  | .shell a => a.Smooth k x
  | .neg a => a.Smooth k x
  | .add a b => a.Smooth k x ∧ b.Smooth k x
  | .sub a b => a.Smooth k x ∧ b.Smooth k x
  | .mul a b => a.Smooth k x ∧ b.Smooth k x
  | .div a b => a.Smooth k x ∧ b.Smooth k x ∧ b.fn x ≠ 0
  | .powR a q => a.Smooth k x ∧ (q = 0 ∨ 0 < a.fn x)
  | .powZ a q => a.Smooth k x ∧ (q < 0 → a.fn x ≠ 0)
  | .pow a b => a.Smooth k x ∧ b.Smooth k x ∧ 0 < a.fn x
  | .sq a => a.Smooth k x
  | .cube a => a.Smooth k x
  | .un u a => a.Smooth k x ∧ u.dom (a.fn x)
  | .atan2 y z => y.Smooth k x ∧ z.Smooth k x ∧ (0 < z.fn x ∨ y.fn x ≠ 0)
  | .hypot _ _ n e => (∀ m, (e m).Smooth k x) ∧ (0 < n → 0 < ∑ m, (e m).fn x ^ 2)
  | .abs a => a.Smooth k x ∧ a.fn x ≠ 0
  | .sign a => a.Smooth k x ∧ a.fn x ≠ 0
  | .min a b => a.Smooth k x ∧ b.Smooth k x ∧ a.fn x ≠ b.fn x
  | .max a b => a.Smooth k x ∧ b.Smooth k x ∧ a.fn x ≠ b.fn x

/-- An object carries the State that its type promises: a part that is declared trivial is zero. -/
structure StateOk (a : Ex ι) : Prop where
  nv : a.nv = true
  nd : a.nd = false → a.d = 0 ∧ a.dd = 0
  ns : a.ns = false → a.dd = 0

/-- The object `a` is right to the order `k` (0, 1 or 2) for the function `f` at the point `x`: it has
the value, for `k ≥ 1` the gradient and for `k ≥ 2` the Hessian of `f`; and either it announces
`k` orders or it is a constant. -/
structure Right [Fintype ι] (k : Nat) (f : (ι → ℝ) → ℝ) (x : ι → ℝ) (a : Ex ι) : Prop where
  val : a.v = f x
  grad : 1 ≤ k → IsGrad f x a.d
  hess : 2 ≤ k → IsHess f x a.dd
  dif : k ≤ a.dif ∨ (a.d = 0 ∧ a.dd = 0)
  state : StateOk a

/-- The objects of the user in the expression are right, and the arguments of every `hypot` are of one
type. -/
def Expr.Given [Fintype ι] [DecidableEq ι] (k : Nat) (x : ι → ℝ) : Expr ι → Prop
  | .ext a f => Right k f x a
  | .const _ => True
  | .var _ _ => True
  | .copy a => a.Given k x
  | .shell a => a.Given k x
  | .neg a => a.Given k x
  | .add a b => a.Given k x ∧ b.Given k x
  | .sub a b => a.Given k x ∧ b.Given k x
  | .mul a b => a.Given k x ∧ b.Given k x
  | .div a b => a.Given k x ∧ b.Given k x
  | .powR a _ => a.Given k x
  | .powZ a _ => a.Given k x
  | .pow a b => a.Given k x ∧ b.Given k x
  | .sq a => a.Given k x
  | .cube a => a.Given k x
  | .un _ a => a.Given k x
  | .atan2 y z => y.Given k x ∧ z.Given k x
  | .hypot nd ns _ e =>
    ∀ m, (e m).Given k x ∧ ((e m).run x).nd = nd ∧ ((e m).run x).ns = ns
  | .abs a => a.Given k x
  | .sign a => a.Given k x
  | .min a b => a.Given k x ∧ b.Given k x
  | .max a b => a.Given k x ∧ b.Given k x

end Verif.AutoDiff
