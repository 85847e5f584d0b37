import Mathlib.Algebra.Order.Field.Basic
import Mathlib.Logic.Function.Basic

/-!
Model of the small dense geometry of `anifem++/fem/geometry.h` and of the barycentric coordinates of
`anifem++/fem/operations/core.inl`.

Scalars are an arbitrary field (ordered where the code compares), i.e. rounding is not modelled; the square root is a
parameter.  Memory is a function from positions to values: every array here has a fixed size known to the reader.
-/
namespace Verif.Geometry

variable {K : Type} [Field K]

/-- A write `mem[p] = v`. (used for the assignments of geometry.h:25-45) -/
def wr (mem : Nat → K) (p : Nat) (v : K) : Nat → K := Function.update mem p v

/-- The positions `(i, j)` of the double loop geometry.h:38-39 (`i = 1, 2`, `j = 0, 1, 2`). -/
def invLoop : List (Nat × Nat) := [(1, 0), (1, 1), (1, 2), (2, 0), (2, 1), (2, 2)]

/-- geometry.h:25-45 `inverse3x3`: the determinant and the memory `inv` afterwards (`inv0` before).  Division by a zero
determinant gives zeros here and infinities in the code: theorems about `inv` assume a nonzero determinant. -/
def inverse3x3 (m inv0 : Nat → K) : K × (Nat → K) :=
  let M := fun i j => m (i + 3 * j)
  let da := M 1 1 * M 2 2 - M 1 2 * M 2 1
  let db := M 1 2 * M 2 0 - M 1 0 * M 2 2
  let dc := M 1 0 * M 2 1 - M 1 1 * M 2 0
  let det := M 0 0 * da + M 0 1 * db + M 0 2 * dc
  let inv := wr inv0 (0 + 3 * 0) (da / det)
  let inv := wr inv (1 + 3 * 0) (db / det)
  let inv := wr inv (2 + 3 * 0) (dc / det)
  let inv := invLoop.foldl (fun inv ij =>
    let i := ij.1
    let j := ij.2
    wr inv (j + 3 * i) ((M ((i + 1) % 3) ((j + 1) % 3) * M ((i + 2) % 3) ((j + 2) % 3) -
      M ((i + 1) % 3) ((j + 2) % 3) * M ((i + 2) % 3) ((j + 1) % 3)) / det)) inv
  (det, inv)

/-- geometry.h:48-53 `cross(a, b, axb)`; the result is a fresh vector (the code must not be called with `axb` aliasing
an argument). -/
def cross (a b : Nat → K) : Nat → K
  | 0 => a 1 * b 2 - a 2 * b 1
  | 1 => -a 0 * b 2 + a 2 * b 0
  | 2 => a 0 * b 1 - a 1 * b 0
  | _ => 0

/-- geometry.h:56-63 `cross(p0, p1, p2, axb)`: cross product of `p0 - p2` and `p1 - p2`. -/
def cross3 (p0 p1 p2 : Nat → K) : Nat → K :=
  let a := fun i => p0 i - p2 i
  let b := fun i => p1 i - p2 i
  fun
  | 0 => a 1 * b 2 - a 2 * b 1
  | 1 => -a 0 * b 2 + a 2 * b 0
  | 2 => a 0 * b 1 - a 1 * b 0
  | _ => 0

/-- geometry.h:66-72 `tri_area`. -/
def triArea (sqrt : K → K) (p0 p1 p2 : Nat → K) : K :=
  let a := fun i => p0 i - p2 i
  let b := fun i => p1 i - p2 i
  let c0 := a 1 * b 2 - a 2 * b 1
  let c1 := -a 0 * b 2 + a 2 * b 0
  let c2 := a 0 * b 1 - a 1 * b 0
  sqrt (c0 * c0 + c1 * c1 + c2 * c2) / 2

/-- geometry.h:76-93 `face_normal`: the area of the face `p0 p1 p2` and the vector written to `normal`. -/
def faceNormal [LinearOrder K] (sqrt : K → K) (p0 p1 p2 p3 : Nat → K) : K × (Nat → K) :=
  let a := fun i => p1 i - p0 i
  let b := fun i => p2 i - p0 i
  let n0 := a 1 * b 2 - a 2 * b 1
  let n1 := -a 0 * b 2 + a 2 * b 0
  let n2 := a 0 * b 1 - a 1 * b 0
  let len := sqrt (n0 * n0 + n1 * n1 + n2 * n2)
  let area := len / 2
  let a := fun i => p3 i - p0 i
  let vol := n0 * a 0 + n1 * a 1 + n2 * a 2
  let d := if 0 < vol then -len else len
  (area, fun
    | 0 => n0 / d
    | 1 => n1 / d
    | 2 => n2 / d
    | _ => 0)

/-- The loop `for j < 3, for i < 3: out[off + i] += T[i + 3*j] * dr[j]` of core.inl:111-113 and core.inl:130-132, on an
`out` set to zero before (`SetZero`): the value of `out[off + i]`, in the order of the additions. -/
def mulVec3 (T dr : Nat → K) (i : Nat) : K := 0 + T (i + 3 * 0) * dr 0 + T (i + 3 * 1) * dr 1 + T (i + 3 * 2) * dr 2

/-- core.inl:94-117 `getBaryCoord(XY0, XY1, XY2, XY3, X, XYL)`: the four coordinates written for one point `X`
(the loop over `n` treats the points independently; `Tinv` starts uninitialised, here `junk`). -/
def baryCoord (p0 p1 p2 p3 x junk : Nat → K) : Nat → K :=
  let T := fun k => if k / 3 = 0 then p0 (k % 3) - p3 (k % 3) else if k / 3 = 1 then p1 (k % 3) - p3 (k % 3)
    else p2 (k % 3) - p3 (k % 3)
  let Tinv := (inverse3x3 T junk).2
  let dr := fun i => x i - p3 i
  let l := mulVec3 Tinv dr
  fun
  | 0 => l 0
  | 1 => l 1
  | 2 => l 2
  | _ => 1 - l 0 - l 1 - l 2

/-- core.inl:217-247 `internalFem3DtetGeomInit_Tet`, one tetrahedron (the loop over `r` treats the tetrahedrons
independently): the edge vectors `XYP` (twelve numbers), the determinant, the inverse `PSI` (of unspecified content
before) and the measure. -/
structure TetGeom (K : Type) where
  xyp : Nat → K
  det : K
  psi : Nat → K
  mes : K

/-- core.inl:230-242, see `TetGeom`. -/
def tetGeom [LinearOrder K] (p0 p1 p2 p3 junk : Nat → K) : TetGeom K :=
  let xyp := fun k => if k / 3 = 0 then 0 else if k / 3 = 1 then p1 (k % 3) - p0 (k % 3)
    else if k / 3 = 2 then p2 (k % 3) - p0 (k % 3) else p3 (k % 3) - p0 (k % 3)
  let r := inverse3x3 (fun k => xyp (3 + k)) junk
  ⟨xyp, r.1, r.2, |r.1| / 6⟩

/-- core.inl:119-137 `getBaryCoord(XY0, .., XYL, PSI)`, one point. -/
def baryCoordPsi (p0 x psi : Nat → K) : Nat → K :=
  let dr := fun i => x i - p0 i
  let l := mulVec3 psi dr
  fun
  | 0 => 1 - l 0 - l 1 - l 2
  | 1 => l 0
  | 2 => l 1
  | _ => l 2

/-- core.inl:249-269 `internalFem3DtetGeomInit_XYG`, one point: coordinate `k` of the physical point with barycentric
coordinates `xyl`. -/
def physPoint (p0 xyp xyl : Nat → K) (k : Nat) : K :=
  p0 k + xyl (0 + 1) * xyp (k + 3 * (0 + 1)) + xyl (1 + 1) * xyp (k + 3 * (1 + 1)) + xyl (2 + 1) * xyp (k + 3 * (2 + 1))

end Verif.Geometry
