import Mathlib.Analysis.SpecialFunctions.Pow.Real
import Mathlib.Analysis.SpecialFunctions.Complex.Arg
import Mathlib.Analysis.SpecialFunctions.Trigonometric.Arctan
import Mathlib.Analysis.SpecialFunctions.Trigonometric.Inverse
import Mathlib.Analysis.SpecialFunctions.Arsinh

/-!
# Model of the automatic differentiation (anifem++/autodiff/autodiff.h, autodiff.inl)

An object of the library (`ADVal`, `Param`, `Var`) is a value, a gradient, a Hessian and the number
`m_dif` of orders that are computed.  Its C++ type carries the `State`: three Booleans that say
which of the three parts may be non-trivial.  Here the State is kept beside the numbers.

Real numbers stand for `double`: rounding, infinities and NaN are not modelled.  A division by zero
has in the model the value zero; the theorems ask for non-zero denominators.

The gradient type `GT` is modelled as a function of an index, the Hessian type `HT` as a function
of two indices.  The packed storage of these tensors is not modelled here.
-/

namespace Verif.AutoDiff

/-- An object of the automatic differentiation: `State` (`nv` = NotTrivialValue, `nd` =
NotTrivialDeriv, `ns` = NotTrivialSecondDeriv), `m_dif`, `m_v`, `m_d`, `m_dd`.
autodiff.h:14-19 (State), 57-76 (ADVal).  `m_dif` is an `unsigned char`; it is a natural number
here and is only made by `u8`, by `max` or by a constant. -/
structure Ex (ι : Type) where
  nv : Bool
  nd : Bool
  ns : Bool
  dif : Nat
  v : ℝ
  d : ι → ℝ
  dd : ι → ι → ℝ

variable {ι : Type}

/-- The conversion of `int` to `unsigned char`: autodiff.h:72, 124. -/
def u8 (n : Int) : Nat := (n % 256).toNat

/-- The value of `GT()`, all entries zero: physical_tensors.h:19, 79, 187. -/
def gt0 : ι → ℝ := fun _ => 0

/-- The value of `HT()`, all entries zero: physical_tensors.h:79, 307, 438. -/
def ht0 : ι → ι → ℝ := fun _ _ => 0

/-- `HT::TensorSquare(s)`: physical_tensors.inl:418-426 and its sisters. -/
def tensorSquare (s : ι → ℝ) : ι → ι → ℝ := fun i j => s i * s j

/-- `HT::TensorSymMul2(f, s)`: physical_tensors.inl:409-417 and its sisters. -/
def tensorSymMul2 (f s : ι → ℝ) : ι → ι → ℝ := fun i j => f i * s j + f j * s i

/-- `Param`: autodiff.h:91-109. -/
def param (c : ℝ) : Ex ι := ⟨true, false, false, 0, c, gt0, ht0⟩

/-- `Var`: autodiff.h:111-130; `x` is the value given to the constructor, `i` the number of the
variable. -/
def var [DecidableEq ι] (i : ι) (x : ℝ) (numdif : Int) : Ex ι :=
  ⟨true, true, false, u8 numdif, x, fun j => if j = i then 1 else 0, ht0⟩

/-- `ADVal(numdif, val, d, dd)` of full State: autodiff.h:72. -/
def adval (numdif : Int) (v : ℝ) (d : ι → ℝ) (dd : ι → ι → ℝ) : Ex ι :=
  ⟨true, true, true, u8 numdif, v, d, dd⟩

/-- `make_ADVal`, result type `CopVal`: autodiff.inl:17-29. -/
def makeADVal (a : Ex ι) : Ex ι :=
  { a with
    d := if a.nd then a.d else gt0
    dd := if a.ns then a.dd else ht0 }

/-- `make_shell`: autodiff.inl:31-52.  The local variable `dif` is changed in the code but
`a.m_dif` is returned. -/
def makeShell (a : Ex ι) : Ex ι :=
  ⟨true, true, true, a.dif, a.v,
    if a.nd ∧ 1 ≤ a.dif then a.d else gt0,
    if a.nd ∧ 1 ≤ a.dif ∧ a.ns ∧ 2 ≤ a.dif then a.dd else ht0⟩

/-- Unary minus: autodiff.inl:53-68. -/
def neg (a : Ex ι) : Ex ι :=
  { a with
    v := -a.v
    d := if a.nd ∧ 1 ≤ a.dif then fun i => -a.d i else gt0
    dd := if a.ns ∧ 2 ≤ a.dif then fun i j => -a.dd i j else ht0 }

/-- `operator+`, result type `UnionVal`: autodiff.inl:69-88, autodiff.h:141-147. -/
def add (a b : Ex ι) : Ex ι :=
  let dif := max a.dif b.dif
  { nv := a.nv || b.nv, nd := a.nd || b.nd, ns := a.ns || b.ns, dif := dif, v := a.v + b.v
    d := if (a.nd || b.nv) ∧ 1 ≤ dif then
          if a.nd && b.nv then fun i => a.d i + b.d i
          else if a.nd then a.d
          else if b.nd then b.d else gt0
        else gt0
    dd := if (a.ns || b.ns) ∧ 2 ≤ dif then
          if a.ns && b.ns then fun i j => a.dd i j + b.dd i j
          else if a.ns then a.dd
          else if b.ns then b.dd else ht0
        else ht0 }

/-- `operator-`, result type `UnionVal`: autodiff.inl:89-108. -/
def sub (a b : Ex ι) : Ex ι :=
  let dif := max a.dif b.dif
  { nv := a.nv || b.nv, nd := a.nd || b.nd, ns := a.ns || b.ns, dif := dif, v := a.v - b.v
    d := if (a.nd || b.nv) ∧ 1 ≤ dif then
          if a.nd && b.nv then fun i => a.d i - b.d i
          else if a.nd then a.d
          else if b.nd then fun i => gt0 i - b.d i else gt0
        else gt0
    dd := if (a.ns || b.ns) ∧ 2 ≤ dif then
          if a.ns && b.ns then fun i j => a.dd i j - b.dd i j
          else if a.ns then a.dd
          else if b.ns then fun i j => ht0 i j - b.dd i j else ht0
        else ht0 }

/-- `operator*`, result type `MulVal`: autodiff.inl:109-137, autodiff.h:148-155. -/
def mul (a b : Ex ι) : Ex ι :=
  let dif := max a.dif b.dif
  let on : Prop := (a.nd || b.nv) ∧ 1 ≤ dif
  let am : ι → ℝ := if on ∧ a.nd then a.d else gt0
  let bm : ι → ℝ := if on ∧ b.nd then b.d else gt0
  let m0 : ι → ℝ := if on ∧ a.nd then fun i => gt0 i + b.v * am i else gt0
  let m : ι → ℝ := if on ∧ b.nd then fun i => m0 i + a.v * bm i else m0
  let on2 : Prop := (a.ns || b.ns || (a.nd && b.nv)) ∧ 2 ≤ dif
  let r0 : ι → ι → ℝ :=
    if on2 ∧ (a.nd && b.nv) then fun i j => ht0 i j + tensorSymMul2 am bm i j else ht0
  let r1 : ι → ι → ℝ := if on2 ∧ a.ns then fun i j => r0 i j + b.v * a.dd i j else r0
  let r : ι → ι → ℝ := if on2 ∧ b.ns then fun i j => r1 i j + a.v * b.dd i j else r1
  { nv := a.nv || b.nv, nd := a.nd || b.nd, ns := a.ns || b.ns || (a.nd && b.nd), dif := dif
    v := a.v * b.v, d := m, dd := r }

/-- `operator/`, result type `MulVal`: autodiff.inl:138-170.  The last term of the Hessian stands
under the condition `EX2::State::NotTrivialSecondDeriv` (line 163). -/
noncomputable def div (a b : Ex ι) : Ex ι :=
  let dif := max a.dif b.dif
  let on : Prop := (a.nd || b.nv) ∧ 1 ≤ dif
  let am : ι → ℝ := if on ∧ a.nd then a.d else gt0
  let bm : ι → ℝ := if on ∧ b.nd then b.d else gt0
  let m0 : ι → ℝ := if on ∧ a.nd then fun i => gt0 i + am i / b.v else gt0
  let m : ι → ℝ := if on ∧ b.nd then fun i => m0 i - a.v / (b.v * b.v) * bm i else m0
  let on2 : Prop := (a.ns || b.ns || (a.nd && b.nv)) ∧ 2 ≤ dif
  let r0 : ι → ι → ℝ :=
    if on2 ∧ (a.nd && b.nv) then
      fun i j => ht0 i j - (1 / (b.v * b.v)) * tensorSymMul2 am bm i j
    else ht0
  let r1 : ι → ι → ℝ := if on2 ∧ a.ns then fun i j => r0 i j + a.dd i j / b.v else r0
  let r : ι → ι → ℝ :=
    if on2 ∧ b.ns then
      fun i j => r1 i j + a.v / (b.v * b.v) * ((2 / b.v) * tensorSquare bm i j - b.dd i j)
    else r1
  { nv := a.nv || b.nv, nd := a.nd || b.nd, ns := a.ns || b.ns || (a.nd && b.nd), dif := dif
    v := a.v / b.v, d := m, dd := r }

open Classical in
/-- `pow(EX1 a, VT q)`, result type `FuncVal`: autodiff.inl:172-194, autodiff.h:158-159.
`MathOps::pow` is `Real.rpow`. -/
noncomputable def powR (a : Ex ι) (q : ℝ) : Ex ι :=
  if q = 0 then ⟨true, a.nd, a.nd, 0, 1, gt0, ht0⟩
  else
    let v := a.v ^ q
    if a.nd = false then ⟨true, a.nd, a.nd, a.dif, v, gt0, ht0⟩
    else
      let am : ι → ℝ := if 1 ≤ a.dif then a.d else gt0
      let m : ι → ℝ := if 1 ≤ a.dif then fun i => (q * v / a.v) * am i else gt0
      let r0 : ι → ι → ℝ :=
        if 2 ≤ a.dif then
          fun i j => ht0 i j +
            (if a.v ≠ 0 then q * (q - 1) * v / (a.v * a.v) else 0) * tensorSquare am i j
        else ht0
      let r : ι → ι → ℝ :=
        if 2 ≤ a.dif ∧ a.ns then
          fun i j => r0 i j + (if a.v ≠ 0 then q * v / a.v else 0) * a.dd i j
        else r0
      ⟨true, a.nd, a.nd, a.dif, v, m, r⟩

/-- The loop of `pow(EX1 a, long q)`: autodiff.inl:205-209; the state is (v, vm1, vm2). -/
def powLoop (pv : ℝ) : Nat → ℝ × ℝ × ℝ → ℝ × ℝ × ℝ
  | 0, s => s
  | n + 1, (v, vm1, _) => powLoop pv n (v * pv, v, vm1)

/-- The three powers of `pow(EX1 a, long q)` before the derivatives: autodiff.inl:201-210. -/
noncomputable def powTriple (av : ℝ) (q : Int) : ℝ × ℝ × ℝ :=
  let pv := if 0 < q then av else 1 / av
  let s := if q ≠ 1 then (pv * pv, pv, 1) else (pv, 1, 0)
  let qp : Int := if 0 < q then q - 2 else -q
  let t := powLoop pv qp.toNat s
  if q < 0 then (t.2.2, t.2.1, t.1) else t

/-- `pow(EX1 a, long q)`, result type `FuncVal`: autodiff.inl:195-228.  The product `q * (q - 1)` of
two `long` numbers is taken without overflow. -/
noncomputable def powZ (a : Ex ι) (q : Int) : Ex ι :=
  if q = 0 then ⟨true, a.nd, a.nd, 0, 1, gt0, ht0⟩
  else
    let t := powTriple a.v q
    if a.nd = false then ⟨true, a.nd, a.nd, a.dif, t.1, gt0, ht0⟩
    else
      let am : ι → ℝ := if 1 ≤ a.dif then a.d else gt0
      let m : ι → ℝ :=
        if 1 ≤ a.dif then (if q = 1 then am else fun i => ((q : ℝ) * t.2.1) * am i) else gt0
      let r0 : ι → ι → ℝ :=
        if 2 ≤ a.dif ∧ q ≠ 1 then
          fun i j => ht0 i j + (((q * (q - 1) : Int) : ℝ) * t.2.2) * tensorSquare am i j
        else ht0
      let r : ι → ι → ℝ :=
        if 2 ≤ a.dif ∧ a.ns then fun i j => r0 i j + ((q : ℝ) * t.2.1) * a.dd i j else r0
      ⟨true, a.nd, a.nd, a.dif, t.1, m, r⟩

/-- `sq`, result type `FuncVal`: autodiff.inl:230-252. -/
def sq (a : Ex ι) : Ex ι :=
  if a.nd = false then ⟨true, a.nd, a.nd, a.dif, a.v * a.v, gt0, ht0⟩
  else
    let am : ι → ℝ := if 1 ≤ a.dif then a.d else gt0
    let m : ι → ℝ := if 1 ≤ a.dif then fun i => (2 * a.v) * am i else gt0
    let r0 : ι → ι → ℝ :=
      if 2 ≤ a.dif then fun i j => ht0 i j + 2 * tensorSquare am i j else ht0
    let r : ι → ι → ℝ :=
      if 2 ≤ a.dif ∧ a.ns then fun i j => r0 i j + (2 * a.v) * a.dd i j else r0
    ⟨true, a.nd, a.nd, a.dif, a.v * a.v, m, r⟩

/-- `cube`: autodiff.h:218-219. -/
noncomputable def cube (a : Ex ι) : Ex ι := powZ a 3

/-- `unary_operation`, result type `FuncVal`: autodiff.inl:369-390; `op` gives the value, the first
and the second derivative. -/
def unary (a : Ex ι) (op : Nat → ℝ → ℝ × ℝ × ℝ) : Ex ι :=
  let vs := op a.dif a.v
  if a.nd = false then ⟨true, a.nd, a.nd, a.dif, vs.1, gt0, ht0⟩
  else
    let am : ι → ℝ := if 1 ≤ a.dif then a.d else gt0
    let m : ι → ℝ := if 1 ≤ a.dif then fun i => vs.2.1 * am i else gt0
    let r0 : ι → ι → ℝ :=
      if 2 ≤ a.dif then fun i j => vs.2.2 * tensorSquare am i j else ht0
    let r : ι → ι → ℝ :=
      if 2 ≤ a.dif ∧ a.ns then fun i j => r0 i j + vs.2.1 * a.dd i j else r0
    ⟨true, a.nd, a.nd, a.dif, vs.1, m, r⟩

/-- The functions that are given to `unary_operation`: autodiff.h:223-252. -/
inductive Un where
  | exp | expm1 | log | log1p | sqrt | cbrt | sin | cos | tan | atan | asin | acos
  | sinh | cosh | tanh

/-- `MathOps::cbrt`, the real cube root, also of negative numbers: autodiff.h:30. -/
noncomputable def cbrt (a : ℝ) : ℝ :=
  if 0 ≤ a then a ^ ((1 : ℝ) / 3) else -(-a) ^ ((1 : ℝ) / 3)

/-- The lambda functions given to `unary_operation`: autodiff.h:224 (exp), 226 (expm1), 228 (log),
230 (log1p), 232 (sqrt), 234 (cbrt), 236 (sin), 238 (cos), 240 (tan), 242 (atan), 244 (asin), 246
(acos), 248 (sinh), 250 (cosh), 252 (tanh). -/
noncomputable def Un.op : Un → Nat → ℝ → ℝ × ℝ × ℝ
  | .exp, _, a => let v := Real.exp a; (v, v, v)
  | .expm1, _, a => let v := Real.exp a - 1; (v, v + 1, v + 1)
  | .log, _, a => (Real.log a, 1 / a, -1 / (a * a))
  | .log1p, _, a => (Real.log (1 + a), 1 / (a + 1), -1 / ((a + 1) * (a + 1)))
  | .sqrt, dif, a =>
    let v := Real.sqrt a
    (v, if 1 ≤ dif then 1 / (2 * v) else 0, if 2 ≤ dif then -1 / (4 * v * a) else 0)
  | .cbrt, dif, a =>
    let v := AutoDiff.cbrt a
    (v, if 1 ≤ dif then 1 / (3 * v * v) else 0, if 2 ≤ dif then -2 / (9 * v * v * a) else 0)
  | .sin, dif, a =>
    let v := Real.sin a
    (v, if 1 ≤ dif then Real.cos a else 0, -v)
  | .cos, dif, a =>
    let v := Real.cos a
    (v, if 1 ≤ dif then -Real.sin a else 0, -v)
  | .tan, dif, a =>
    let v := Real.tan a
    let q := if 1 ≤ dif then Real.cos a else 1
    let t := q * q
    (v, if 1 ≤ dif then 1 / t else 0, if 2 ≤ dif then 2 * v / t else 0)
  | .atan, dif, a =>
    (Real.arctan a, if 1 ≤ dif then 1 / (1 + a * a) else 0,
      if 2 ≤ dif then -2 * a / ((1 + a * a) * (1 + a * a)) else 0)
  | .asin, dif, a =>
    let t := if 1 ≤ dif then Real.sqrt (1 - a * a) else 1
    (Real.arcsin a, if 1 ≤ dif then 1 / t else 0, if 2 ≤ dif then a / ((1 - a * a) * t) else 0)
  | .acos, dif, a =>
    let t := if 1 ≤ dif then Real.sqrt (1 - a * a) else 1
    (Real.arccos a, if 1 ≤ dif then -1 / t else 0, if 2 ≤ dif then -a / ((1 - a * a) * t) else 0)
  | .sinh, dif, a =>
    let v := Real.sinh a
    (v, if 1 ≤ dif then Real.cosh a else 0, v)
  | .cosh, dif, a =>
    let v := Real.cosh a
    (v, if 1 ≤ dif then Real.sinh a else 0, v)
  | .tanh, dif, a =>
    let v := Real.tanh a
    let q := if 1 ≤ dif then Real.cosh a else 1
    let t := q * q
    (v, if 1 ≤ dif then 1 / t else 0, if 2 ≤ dif then -2 * v / t else 0)

/-- `exp(MathOps::log(a()) * b)`: the case of `EvalPow` with a trivial base, autodiff.inl:292-295,
autodiff.h:193-194. -/
noncomputable def powBaseConst (a b : Ex ι) : Ex ι :=
  unary (mul (param (Real.log a.v)) b) Un.exp.op

/-- The general case of `EvalPow`: autodiff.inl:254-283. -/
noncomputable def powGen (a b : Ex ι) : Ex ι :=
  let dif := max a.dif b.dif
  let v := a.v ^ b.v
  if dif = 0 then ⟨true, true, true, 0, v, gt0, ht0⟩
  else
    let am := a.d
    let bm := b.d
    let lna := Real.log a.v
    let m : ι → ℝ := fun i => v * (lna * bm i + (b.v / a.v) * am i)
    let ar : ι → ι → ℝ := if a.ns then a.dd else ht0
    let br : ι → ι → ℝ := if b.ns then b.dd else ht0
    let c1 := v * lna * lna
    let c2 := v * (b.v * lna + 1) / a.v
    let c3 := v * b.v * (b.v - 1) / (a.v * a.v)
    let c4 := v * lna
    let c5 := v * b.v / a.v
    let r : ι → ι → ℝ :=
      if 2 ≤ dif then
        fun i j => c1 * bm i * bm j + c2 * (bm i * am j + am i * bm j) + c3 * am i * am j
          + c4 * br i j + c5 * ar i j
      else ht0
    ⟨true, true, true, dif, v, m, r⟩

/-- `pow(EX1 a, EX2 b)`, the choice of the case of `EvalPow`: autodiff.inl:255, 284-298. -/
noncomputable def pow (a b : Ex ι) : Ex ι :=
  match a.nd, b.nd with
  | false, false => param (a.v ^ b.v)
  | true, false => powR a b.v
  | false, true => powBaseConst a b
  | true, true => powGen a b

/-- `atan2(y, x)`, result type `FuncVal` of `UnionVal`: autodiff.inl:300-339.  `MathOps::atan2(y, x)` is
the argument of the complex number x + i y. -/
noncomputable def atan2 (y x : Ex ι) : Ex ι :=
  let dif := max y.dif x.dif
  let v := Complex.arg ⟨x.v, y.v⟩
  let r2 := y.v * y.v + x.v * x.v
  let c1 := x.v / r2
  let c2 := y.v / r2
  let on : Prop := (y.nd || x.nv) ∧ 1 ≤ dif
  let my : ι → ℝ := if on ∧ y.nd then y.d else gt0
  let mx : ι → ℝ := if on ∧ x.nd then x.d else gt0
  let m : ι → ℝ :=
    if on then
      if y.nd && x.nv then fun i => c1 * my i - c2 * mx i
      else if y.nd then fun i => c1 * my i
      else if x.nd then fun i => -c2 * mx i else gt0
    else gt0
  let ry : ι → ι → ℝ := if y.ns then y.dd else ht0
  let rx : ι → ι → ℝ := if x.ns then x.dd else ht0
  let c3 := (y.v * y.v - x.v * x.v) / (r2 * r2)
  let c4 := 2 * x.v * y.v / (r2 * r2)
  let r : ι → ι → ℝ :=
    if 2 ≤ dif then
      fun i j => c1 * ry i j - c2 * rx i j + c3 * (mx i * my j + my i * mx j)
        - c4 * (my i * my j - mx i * mx j)
    else ht0
  ⟨true, y.nd || x.nd, y.nd || x.nd, dif, v, m, r⟩

/-- `std::accumulate` over the arguments of `hypot`: autodiff.inl:349, 357, 360, 361. -/
def accum {K : Type} [Zero K] [Add K] (n : Nat) (f : Fin n → K) : K :=
  (List.finRange n).foldl (fun s i => s + f i) 0

/-- `hypot(vec, nvec)`, result type `FuncVal`: autodiff.inl:341-367.  All arguments have the same type,
so they have the same State: `nd` and `ns` are those of the type (they are needed when there are no
arguments). `MathOps::hypot(x, y)` is the square root of x² + y². -/
noncomputable def hypot (nd ns : Bool) : (n : Nat) → (Fin n → Ex ι) → Ex ι
  | 0, _ => ⟨true, nd, nd, 255, 0, gt0, ht0⟩
  | 1, e => ⟨true, nd, nd, (e 0).dif, (e 0).v, (e 0).d, (e 0).dd⟩
  | n + 2, e =>
    let v2 := if n = 0 then (e 0).v * (e 0).v + (e 1).v * (e 1).v
      else accum (n + 2) fun k => (e k).v * (e k).v
    let v := Real.sqrt v2
    let dif := (e 0).dif
    let m : ι → ℝ :=
      if nd ∧ 1 ≤ dif then fun i => (accum (n + 2) fun k => (e k).v * (e k).d i) / v else gt0
    let r0 : ι → ι → ℝ :=
      if ns then fun i j => accum (n + 2) fun k => (e k).v * (e k).dd i j else ht0
    let r1 : ι → ι → ℝ := fun i j => r0 i j + accum (n + 2) fun k => tensorSquare (e k).d i j
    let r : ι → ι → ℝ :=
      if nd ∧ 2 ≤ dif then fun i j => (r1 i j - tensorSquare m i j) / v else ht0
    ⟨true, nd, nd, dif, v, m, r⟩

open Classical in
/-- `abs`: autodiff.h:254-255. -/
noncomputable def abs (a : Ex ι) : Ex ι := if 0 ≤ a.v then makeADVal a else neg a

open Classical in
/-- `sign`: autodiff.h:256-257. -/
noncomputable def sign (a : Ex ι) : Ex ι :=
  ⟨true, false, false, a.dif, (if 0 < a.v then 1 else 0) - (if a.v < 0 then 1 else 0), gt0, ht0⟩

/-- What `min` and `max` take from the chosen argument: autodiff.inl:398-405, 407-414, 424-431,
433-440. -/
def take (s a : Ex ι) : Ex ι :=
  { s with
    dif := a.dif
    v := a.v
    d := if a.nd ∧ 1 ≤ a.dif then a.d else gt0
    dd := if a.ns ∧ 2 ≤ a.dif then a.dd else ht0 }

/-- The State of the result of `min` and `max`, `UnionVal`: autodiff.h:141-147; the numbers are those
of a fresh object, autodiff.h:65-68. -/
def union (a b : Ex ι) : Ex ι :=
  ⟨a.nv || b.nv, a.nd || b.nd, a.ns || b.ns, 255, 0, gt0, ht0⟩

open Classical in
/-- `min`: autodiff.inl:392-417. -/
noncomputable def min (a b : Ex ι) : Ex ι :=
  if a.v ≤ b.v then take (union a b) a else take (union a b) b

open Classical in
/-- `max`: autodiff.inl:418-443. -/
noncomputable def max (a b : Ex ι) : Ex ι :=
  if b.v ≤ a.v then take (union a b) a else take (union a b) b

/-- A program that computes with the objects: every operation of autodiff.h:165-273.  `ext` is any
other object (an `ADVal` filled by the caller, autodiff.h:72, or an object of
cauchy_strain_autodiff.h) together with the function it stands for; the function is not used by
`run`.  An operation with a plain number is the operation with a `Param` (autodiff.h:181-198, 215). -/
inductive Expr (ι : Type) where
  | ext (a : Ex ι) (f : (ι → ℝ) → ℝ)
  | const (c : ℝ)
  | var (i : ι) (numdif : Int)
  | copy (a : Expr ι)
  | shell (a : Expr ι)
  | neg (a : Expr ι)
  | add (a b : Expr ι)
  | sub (a b : Expr ι)
  | mul (a b : Expr ι)
  | div (a b : Expr ι)
  | powR (a : Expr ι) (q : ℝ)
  | powZ (a : Expr ι) (q : Int)
  | pow (a b : Expr ι)
  | sq (a : Expr ι)
  | cube (a : Expr ι)
  | un (u : Un) (a : Expr ι)
  | atan2 (y x : Expr ι)
  | hypot (nd ns : Bool) (n : Nat) (e : Fin n → Expr ι)
  | abs (a : Expr ι)
  | sign (a : Expr ι)
  | min (a b : Expr ι)
  | max (a b : Expr ι)

/-- What a program computes when its variables have the values `x`: autodiff.h:165-273. -/
noncomputable def Expr.run [DecidableEq ι] (x : ι → ℝ) : Expr ι → Ex ι
  | .ext a _ => a
  | .const c => param c
  | .var i numdif => AutoDiff.var i (x i) numdif
  | .copy a => makeADVal (a.run x)
  | .shell a => makeShell (a.run x)
  | .neg a => AutoDiff.neg (a.run x)
  | .add a b => AutoDiff.add (a.run x) (b.run x)
  | .sub a b => AutoDiff.sub (a.run x) (b.run x)
  | .mul a b => AutoDiff.mul (a.run x) (b.run x)
  | .div a b => AutoDiff.div (a.run x) (b.run x)
  | .powR a q => AutoDiff.powR (a.run x) q
  | .powZ a q => AutoDiff.powZ (a.run x) q
  | .pow a b => AutoDiff.pow (a.run x) (b.run x)
  | .sq a => AutoDiff.sq (a.run x)
  | .cube a => AutoDiff.cube (a.run x)
  | .un u a => unary (a.run x) u.op
  | .atan2 y z => AutoDiff.atan2 (y.run x) (z.run x)
  | .hypot nd ns n e => AutoDiff.hypot nd ns n fun k => (e k).run x
  | .abs a => AutoDiff.abs (a.run x)
  | .sign a => AutoDiff.sign (a.run x)
  | .min a b => AutoDiff.min (a.run x) (b.run x)
  | .max a b => AutoDiff.max (a.run x) (b.run x)

end Verif.AutoDiff
