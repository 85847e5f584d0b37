import Verif.Model.Metric
import Verif.Model.Geometry

/-!
# Model of the Hessian of a cell, `compute_H2_from_v2` of `anifem++/utils/adapt_mesh.cpp`

The matrix that `fem3Dface` writes for the side `face` is the argument `A face`: its entry in the row `j` and the column `k` is `A face (j + 3 * k)`.
-/
namespace Verif.Metric

open Verif.Dense

/-- The table `fv` of the vertices of the sides. (adapt_mesh.cpp:237-242) -/
def fv (face t : Nat) : Nat :=
  (([[0, 1, 2, 3], [1, 2, 3, 0], [2, 3, 0, 1], [3, 0, 1, 2]].getD face []).getD t 0)

/-- adapt_mesh.cpp:252-258: the vector `I`, the matrix of the side applied to the coefficients. -/
def sideVec (nfa : Nat) (A v2 : Nat → ℝ) : Nat → ℝ :=
  loop 0 nfa (fun k I =>
    let vk := v2 k
    let I := wr I 0 (I 0 + A (0 + 3 * k) * vk)
    let I := wr I 1 (I 1 + A (1 + 3 * k) * vk)
    wr I 2 (I 2 + A (2 + 3 * k) * vk)) (fun _ => 0)

/-- adapt_mesh.cpp:260-262: the product of the normal and `I` added to `H`. -/
def addOuter (n I H : Nat → ℝ) : Nat → ℝ :=
  loop 0 3 (fun i H => loop 0 3 (fun j H => wr H (i + 3 * j) (H (i + 3 * j) + n i * I j)) H) H

/-- adapt_mesh.cpp:244-263: the loop over the sides. -/
noncomputable def sidesSum (T : Nat → Nat → ℝ) (A : Nat → Nat → ℝ) (nfa : Nat) (v2 : Nat → ℝ) : Nat → ℝ :=
  loop 0 4 (fun face H =>
    addOuter (Geometry.faceNormal Real.sqrt (T (fv face 0)) (T (fv face 1)) (T (fv face 2)) (T (fv face 3))).2 (sideVec nfa (A face) v2) H) (fun _ => 0)

/-- adapt_mesh.cpp:224-268 `compute_H2_from_v2`. -/
noncomputable def hessian (T : Nat → Nat → ℝ) (A : Nat → Nat → ℝ) (nfa : Nat) (vol : ℝ) (v2 : Nat → ℝ) : Nat → ℝ :=
  if ¬ vol > 0 then fun _ => 0 else symmetrize (scaleM (sidesSum T A nfa v2) (1 / vol))

/-- adapt_mesh.cpp:681-685: the matrix of `fem3Dtet` divided by the volume, when it is positive. -/
noncomputable def scaleB (nfa : Nat) (vol : ℝ) (B : Nat → ℝ) : Nat → ℝ :=
  if vol > 0 then loop 0 (nfa * nfa) (fun i B => wr B i (B i * (1 / vol))) B else B

end Verif.Metric
