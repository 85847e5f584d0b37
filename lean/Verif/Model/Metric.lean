import Mathlib.Analysis.SpecialFunctions.Pow.Real
import Mathlib.Analysis.SpecialFunctions.Log.Basic
import Verif.Model.Decomp

/-!
# Model of the construction of a metric, `anifem++/utils/adapt_mesh.cpp`

The functions on 3x3 matrices, the choice of the metric at a node from the Hessians of its cells and the choice of the Hessian of a cell.
Real numbers stand for the scalars, so that nothing is infinite or not a number; where the code has an infinite value, the model has `none`.
The build without Eigen is modelled.  Matrices of nine numbers are stored column by column, the six numbers of a symmetric one are
`XX YY ZZ XY YZ XZ`.
-/
namespace Verif.Metric

open Verif.Dense

/-- The traits that enter the computation. (adapt_mesh.h:16-31 `MetricsConstructTraits`; `verbosity` is left out) -/
structure Traits where
  /-- `distrib_heuristics` -/
  distrib : Bool
  /-- `vertex_projection_strategy`, 0 or 1 -/
  strategy : Nat
  /-- `M_lambda_min` -/
  lo : ℝ
  /-- `M_lambda_max` -/
  hi : ℝ
  /-- `M_lambda_max_rel` -/
  rel : ℝ
  /-- `H_lambda_max_rel` -/
  hrel : ℝ
  /-- `alpha_boost` -/
  boost : ℝ
  /-- `isotropic_fallback` -/
  iso : ℝ

/-- `kEigenEps`. (adapt_mesh.cpp:23) -/
noncomputable def kEps : ℝ := 1 / 10 ^ 300

/-- adapt_mesh.cpp:30-35 `voigt_to_dense`; the nine positions are all written. -/
def toDense (v : Nat → ℝ) : Nat → ℝ
  | 0 => v 0 | 4 => v 1 | 8 => v 2
  | 1 => v 3 | 3 => v 3
  | 5 => v 4 | 7 => v 4
  | 2 => v 5 | 6 => v 5
  | _ => 0

/-- adapt_mesh.cpp:37-44 `dense_to_voigt`. -/
noncomputable def toVoigt (A : Nat → ℝ) : Nat → ℝ
  | 0 => A 0 | 1 => A 4 | 2 => A 8
  | 3 => 1 / 2 * (A 1 + A 3)
  | 4 => 1 / 2 * (A 5 + A 7)
  | 5 => 1 / 2 * (A 2 + A 6)
  | _ => 0

/-- adapt_mesh.cpp:50-53 `dense_set_scaled_eye`. -/
def eye (s : ℝ) : Nat → ℝ := wr (wr (wr (fun _ => 0) 8 s) 4 s) 0 s

/-- adapt_mesh.cpp:55-58 `dense_add` with the scale 1. -/
def addM (A B : Nat → ℝ) : Nat → ℝ := loop 0 9 (fun i A => wr A i (A i + B i)) A

/-- adapt_mesh.cpp:60-63 `dense_scale`. -/
def scaleM (A : Nat → ℝ) (s : ℝ) : Nat → ℝ := loop 0 9 (fun i A => wr A i (A i * s)) A

/-- `SpectrumInfo`; `ratio` is `none` when infinite. (adapt_mesh.cpp:71-75) -/
structure Spectrum where
  eval : Nat → ℝ
  Q : Nat → ℝ
  lmin : ℝ
  lmax : ℝ
  ratio : Option ℝ
  det : ℝ

/-- adapt_mesh.cpp:79-82: the place of the smallest value from `i` on. -/
noncomputable def ascBest (i : Nat) (eval : Nat → ℝ) : Nat :=
  loop (i + 1) 3 (fun j best => if eval j < eval best then j else best) i

/-- adapt_mesh.cpp:77-89 `sort_eigen_asc`. -/
noncomputable def sortAsc (x : (Nat → ℝ) × (Nat → ℝ)) : (Nat → ℝ) × (Nat → ℝ) :=
  loop 0 3 (fun i x =>
    let best := ascBest i x.1
    if best = i then x
    else (swapAt x.1 i best, loop 0 3 (fun k e => swapAt e (k + i * 3) (k + best * 3)) x.2)) x

/-- adapt_mesh.cpp:91-97 `reconstruct_from_eigen`. -/
def reconstruct (eval Q : Nat → ℝ) : Nat → ℝ :=
  loop 0 3 (fun k A => loop 0 3 (fun j A => loop 0 3 (fun i A =>
    wr A (i + 3 * j) (A (i + 3 * j) + Q (i + 3 * k) * eval k * Q (j + 3 * k))) A) A) (fun _ => 0)

/-- adapt_mesh.cpp:99-105 `finish_spectrum`. -/
noncomputable def finish (eval Q : Nat → ℝ) : Spectrum where
  eval := eval
  Q := Q
  lmin := eval 0
  lmax := eval 2
  det := eval 0 * eval 1 * eval 2
  ratio := if |eval 0| > kEps then some (eval 2 / eval 0) else none

/-- adapt_mesh.cpp:108-112 and 265-267: the pairs of entries outside of the diagonal are replaced by their means. -/
noncomputable def symmetrize (A : Nat → ℝ) : Nat → ℝ :=
  let A := wr (wr A 3 (1 / 2 * (A 1 + A 3))) 1 (1 / 2 * (A 1 + A 3))
  let A := wr (wr A 6 (1 / 2 * (A 2 + A 6))) 2 (1 / 2 * (A 2 + A 6))
  wr (wr A 7 (1 / 2 * (A 5 + A 7))) 5 (1 / 2 * (A 5 + A 7))

/-- adapt_mesh.cpp:107-128 `sym_eigen3`, without Eigen; `eval` and `Q` are zero before (71-73). -/
noncomputable def symEigen3 (eps : ℝ) (A : Nat → ℝ) : Option ((Nat → ℝ) × (Nat → ℝ)) :=
  jacobiEigen eps 3 (symmetrize A) (fun _ => 0) (fun _ => 0)

/-- adapt_mesh.cpp:132-137: the values and vectors, or the diagonal when they have not been found. -/
noncomputable def eigenOrDiag (eps : ℝ) (A : Nat → ℝ) : (Nat → ℝ) × (Nat → ℝ) :=
  match symEigen3 eps A with
  | some x => x
  | none => (wr (wr (wr (fun _ => 0) 0 (A 0)) 1 (A 4)) 2 (A 8), eye 1)

/-- adapt_mesh.cpp:130-141 `analyze_sym`. -/
noncomputable def analyze (eps : ℝ) (A : Nat → ℝ) : Spectrum :=
  let x := sortAsc (eigenOrDiag eps A)
  finish x.1 x.2

/-- adapt_mesh.cpp:144-153 `spectral_abs`: the matrix and the spectrum. -/
noncomputable def spectralAbs (eps : ℝ) (H : Nat → ℝ) : (Nat → ℝ) × Spectrum :=
  let s := analyze eps H
  let x := sortAsc (loop 0 3 (fun i e => wr e i |e i|) s.eval, s.Q)
  (reconstruct x.1 x.2, finish x.1 x.2)

/-- adapt_mesh.cpp:155-160 `matrix_log_spd`. -/
noncomputable def matrixLog (eps : ℝ) (M : Nat → ℝ) : Nat → ℝ :=
  let s := analyze eps M
  reconstruct (loop 0 3 (fun i e => wr e i (Real.log (max (e i) kEps))) s.eval) s.Q

/-- adapt_mesh.cpp:162-167 `matrix_exp_sym`. -/
noncomputable def matrixExp (eps : ℝ) (S : Nat → ℝ) : Nat → ℝ :=
  let s := analyze eps S
  reconstruct (loop 0 3 (fun i e => wr e i (Real.exp (e i))) s.eval) s.Q

/-- adapt_mesh.cpp:172-183: the absolute bounds. -/
noncomputable def clampAbs (tr : Traits) (v : ℝ) : ℝ :=
  let v := if v < tr.lo then tr.lo else v
  if v > tr.hi then tr.hi else v

/-- adapt_mesh.cpp:188-199: the values are brought to the cube root `g` of their product by at most the square root of `R`.  `cbrt` is called with
a positive argument only. -/
noncomputable def compress (tr : Traits) (R : ℝ) (e : Nat → ℝ) : Nat → ℝ :=
  let g := (e 0 * e 1 * e 2) ^ (1 / 3 : ℝ)
  let lo := 1 / √R
  let hi := √R
  let e := loop 0 3 (fun i e => wr e i (g * min hi (max lo (e i / g)))) e
  loop 0 3 (fun i e => wr e i (min tr.hi (max tr.lo (e i)))) e

/-- adapt_mesh.cpp:170-203 `clamp_evals`; the returned flag is only counted. -/
noncomputable def clampEvals (tr : Traits) (s : Spectrum) : Spectrum :=
  let e := loop 0 3 (fun i e => wr e i (clampAbs tr (e i))) s.eval
  let x := sortAsc (e, s.Q)
  let R := max tr.rel 1
  let x := if x.1 0 > kEps ∧ x.1 2 / x.1 0 > R then sortAsc (compress tr R x.1, x.2) else x
  finish x.1 x.2

/-- adapt_mesh.cpp:205-210 `clamp_spectrum`. -/
noncomputable def clampSpectrum (eps : ℝ) (tr : Traits) (A : Nat → ℝ) : Nat → ℝ :=
  let s := clampEvals tr (analyze eps A)
  reconstruct s.eval s.Q

/-- adapt_mesh.cpp:212-216 `h2_is_degenerate`. -/
noncomputable def isDegenerate (s : Spectrum) (hrel : ℝ) : Bool :=
  if ¬ s.lmin > kEps then true
  else match s.ratio with
    | none => true
    | some r => decide (r > hrel)

/-- adapt_mesh.cpp:271-280 `build_M_from_spectrum`; a real determinant is finite. -/
noncomputable def buildM (s : Spectrum) (absH : Nat → ℝ) (iso : ℝ) : Nat → ℝ :=
  if ¬ s.det > kEps then eye iso else scaleM absH (s.det ^ (-(1 / 5) : ℝ))

/-- adapt_mesh.cpp:283-289 `absH_to_M_clamped`. -/
noncomputable def absHToM (eps : ℝ) (tr : Traits) (absH : Nat → ℝ) : Nat → ℝ :=
  let s := clampEvals tr (analyze eps absH)
  buildM s (reconstruct s.eval s.Q) tr.iso

/-! ## From the cells to a node -/

/-- `CellHView`. (adapt_mesh.cpp:293-298) -/
structure CellH where
  absH : Nat → ℝ
  s : Nat → ℝ
  degenerate : Bool
  vol : ℝ

/-- adapt_mesh.cpp:314-321 `store_cell_H`: the ten numbers of a cell. -/
noncomputable def storeCell (absH s : Nat → ℝ) (degenerate : Bool) : Nat → ℝ :=
  wr (wr (wr (wr (toVoigt absH) 6 (s 0)) 7 (s 1)) 8 (s 2)) 9 (if degenerate then 1 else 0)

/-- adapt_mesh.cpp:300-312 `load_cell_H`. -/
noncomputable def loadCell (arr : Nat → ℝ) (vol : ℝ) : CellH where
  absH := toDense arr
  s := wr (wr (wr (fun _ => 0) 0 (arr 6)) 1 (arr 7)) 2 (arr 8)
  degenerate := decide (arr 9 > 1 / 2) || decide (¬ arr 6 > kEps)
  vol := vol

/-- adapt_mesh.cpp:323-329 `count_svals_above`. -/
noncomputable def countAbove (s : Nat → ℝ) (thr : ℝ) : Nat := loop 0 3 (fun i n => if s i > thr then n + 1 else n) 0

/-- adapt_mesh.cpp:331-340 `product_svals_above`. -/
noncomputable def prodAbove (s : Nat → ℝ) (thr : ℝ) : ℝ :=
  let x := loop 0 3 (fun i (x : ℝ × Bool) => if s i > thr then (x.1 * s i, true) else x) (1, false)
  if x.2 then x.1 else 0

/-- adapt_mesh.cpp:342-348 `min_sval_above`; `none` is infinity. -/
noncomputable def minAbove (s : Nat → ℝ) (thr : ℝ) : Option ℝ :=
  loop 0 3 (fun i (m : Option ℝ) => if s i > thr then some (match m with | none => s i | some m => min m (s i)) else m) none

/-- adapt_mesh.cpp:351-362 `lift_zero_svals`; the values `s` are not used afterwards. -/
noncomputable def liftZero (eps : ℝ) (absH : Nat → ℝ) (thr : ℝ) : Nat → ℝ :=
  let info := analyze eps absH
  match minAbove info.eval thr with
  | none => absH
  | some m =>
    let x := sortAsc (loop 0 3 (fun i e => if ¬ e i > thr then wr e i m else e) info.eval, info.Q)
    reconstruct x.1 x.2

/-- adapt_mesh.cpp:395-404: one cell in the search for the largest determinant; `best_det` is kept with `best`. -/
noncomputable def pickStep (onlyNonsing : Bool) (best : Option (ℝ × CellH)) (v : CellH) : Option (ℝ × CellH) :=
  if onlyNonsing && v.degenerate then best
  else match best with
    | none => some (v.s 0 * v.s 1 * v.s 2, v)
    | some b => if b.1 < v.s 0 * v.s 1 * v.s 2 then some (v.s 0 * v.s 1 * v.s 2, v) else best

/-- adapt_mesh.cpp:391-409 `pick_max_det_M`. -/
noncomputable def pickMaxDet (eps : ℝ) (patch : List CellH) (onlyNonsing : Bool) (tr : Traits) : Nat → ℝ :=
  match patch.foldl (pickStep onlyNonsing) none with
  | none => eye tr.iso
  | some b => absHToM eps tr b.2.absH

/-- adapt_mesh.cpp:416-424: one cell in the sum of the logarithms. -/
noncomputable def geomStep (eps : ℝ) (onlyNonsing : Bool) (tr : Traits) (x : (Nat → ℝ) × Nat) (v : CellH) : (Nat → ℝ) × Nat :=
  if onlyNonsing && v.degenerate then x else (addM x.1 (matrixLog eps (absHToM eps tr v.absH)), x.2 + 1)

/-- adapt_mesh.cpp:411-431 `geom_mean_M`. -/
noncomputable def geomMean (eps : ℝ) (patch : List CellH) (onlyNonsing : Bool) (tr : Traits) : Nat → ℝ :=
  let x := patch.foldl (geomStep eps onlyNonsing tr) (fun _ => 0, 0)
  if x.2 = 0 then eye tr.iso else matrixExp eps (scaleM x.1 (1 / (x.2 : ℝ)))

/-- adapt_mesh.cpp:440-448: one cell in the search for the most values above the threshold, then for the largest product of them. -/
noncomputable def degStep (thr : ℝ) (best : Option (Nat × ℝ × CellH)) (v : CellH) : Option (Nat × ℝ × CellH) :=
  match best with
  | none => some (countAbove v.s thr, prodAbove v.s thr, v)
  | some b => if countAbove v.s thr > b.1 ∨ (countAbove v.s thr = b.1 ∧ prodAbove v.s thr > b.2.1) then
      some (countAbove v.s thr, prodAbove v.s thr, v) else best

/-- adapt_mesh.cpp:437-448: the cell with the most values above the threshold, then with the largest product of them. -/
noncomputable def bestDegenerate (patch : List CellH) (thr : ℝ) : Option (Nat × ℝ × CellH) := patch.foldl (degStep thr) none

/-- adapt_mesh.cpp:466-471: one cell in the sums of the volumes and of the volumes times the largest value. -/
noncomputable def weightStep (x : ℝ × ℝ) (v : CellH) : ℝ × ℝ := if v.s 2 > kEps then (x.1 + v.vol, x.2 + v.vol * v.s 2) else x

/-- adapt_mesh.cpp:465-471: the sums over the cells of the volumes and of the volumes times the largest value. -/
noncomputable def weighted (patch : List CellH) : ℝ × ℝ := patch.foldl weightStep (0, 0)

/-- adapt_mesh.cpp:434-473 `project_all_degenerate`. -/
noncomputable def projectDegenerate (eps : ℝ) (patch : List CellH) (anyNonzero : Bool) (tr : Traits) : Nat → ℝ :=
  let rest := if ¬ anyNonzero then eye tr.iso
    else
      let w := weighted patch
      eye (if w.1 > 0 then w.2 / w.1 else tr.iso)
  match bestDegenerate patch tr.lo with
  | none => rest
  | some b => if b.1 > 0 then absHToM eps tr (liftZero eps b.2.2.absH tr.lo) else rest

/-- adapt_mesh.cpp:792-821 (`node_body`): the six numbers of a node, from the views of the cells around it that are not hidden. -/
noncomputable def nodeMetric (eps : ℝ) (tr : Traits) (patch : List CellH) (anyNonzero : Bool) : Nat → ℝ :=
  let M := if patch.isEmpty then eye tr.iso
    else if patch.countP (fun v => !v.degenerate) > 0 then
      if tr.strategy = 0 then pickMaxDet eps patch true tr else geomMean eps patch true tr
    else projectDegenerate eps patch anyNonzero tr
  toVoigt (clampSpectrum eps tr M)

/-! ## The Hessian of a cell -/

/-- adapt_mesh.cpp:365-387 `fill_alpha_from_d`; `B` has `nfa` rows, `sumAbs` is the sum of the `|d k|`. -/
noncomputable def fillAlpha (heur : Bool) (B d : Nat → ℝ) (nfa : Nat) (sumAbs : ℝ) (alpha : Nat → ℝ) : Nat → ℝ :=
  if heur = false then loop 0 nfa (fun k a => wr a k (d k)) alpha
  else if ¬ sumAbs > 0 then loop 0 nfa (fun k a => wr a k 0) alpha
  else
    let Bdd := loop 0 nfa (fun i x => x + d i * loop 0 nfa (fun j b => b + B (i + nfa * j) * d j) 0) 0
    loop 0 nfa (fun k a => wr a k (|d k| * |Bdd| / sumAbs)) alpha

/-- adapt_mesh.cpp:664-666 and 722-724: the sum of the absolute values. -/
noncomputable def sumAbs (nfa : Nat) (d : Nat → ℝ) : ℝ := loop 0 nfa (fun k s => s + |d k|) 0

/-- adapt_mesh.cpp:712-720: the place of the largest absolute value. -/
noncomputable def imax (nfa : Nat) (d : Nat → ℝ) : Nat :=
  (loop 1 nfa (fun k (x : Nat × ℝ) => if |d k| > x.2 then (k, |d k|) else x) (0, |d 0|)).1

/-- adapt_mesh.cpp:693-699 (`eval_absH`) with 688-691 before it: the absolute Hessian for the coefficients `d`; `hess` is `compute_H2_from_v2` as a
function of the coefficients `v2`. -/
noncomputable def evalAbsH (eps : ℝ) (tr : Traits) (nfa : Nat) (B : Nat → ℝ) (hess : (Nat → ℝ) → Nat → ℝ) (d alpha v2 : Nat → ℝ) :
    (Nat → ℝ) × Spectrum :=
  let alpha := fillAlpha tr.distrib B d nfa (sumAbs nfa d) alpha
  let v2 := loop 0 nfa (fun k v => wr v k (-(1 / 2) * alpha k)) v2
  spectralAbs eps (hess v2)

/-- adapt_mesh.cpp:664-738 (`cell_body`): the absolute Hessian, its values and the flag of a cell, from the coefficients `d` gathered on it. -/
noncomputable def cellHessian (eps : ℝ) (tr : Traits) (nfa : Nat) (B : Nat → ℝ) (hess : (Nat → ℝ) → Nat → ℝ) (d alpha v2 : Nat → ℝ) :
    (Nat → ℝ) × (Nat → ℝ) × Bool :=
  if ¬ sumAbs nfa d > 0 then (fun _ => 0, fun _ => 0, true)
  else
    let x := evalAbsH eps tr nfa B hess d alpha v2
    if isDegenerate x.2 tr.hrel then
      let k := imax nfa d
      let y := evalAbsH eps tr nfa B hess (wr d k (d k * tr.boost)) alpha v2
      if isDegenerate y.2 tr.hrel then (x.1, x.2.eval, true) else (y.1, y.2.eval, false)
    else (x.1, x.2.eval, false)

end Verif.Metric
