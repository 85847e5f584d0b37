import Verif.Model.SpaceOpRt
import Verif.Model.Geometry
import Verif.Spec.CtOp
import Verif.Spec.OpStack
import Verif.Model.Quadrature
import Mathlib.Data.Real.Sqrt

/-!
Model of the integration drivers of `anifem++/fem/operations`: `fem3Dtet`, `fem3Dface`, `fem3DfaceN`, `fem3Dedge`, `fem3Dnode`, `fem3DpntL`,
`fem3DpntX` (`int_tet.inl`, `int_face.inl`, `int_edge.inl`, `int_pnt.inl`) with the geometry they prepare (`core.inl:217-275`).

Scalars are a field (rounding is not modelled), sizes and indices are natural numbers.  Every array of `AniMemory` is a function from
positions to values; `U`, `V` and `extraR` lie in one memory (as in `CtOp`, `OpStack`), the other arrays in memories of their own.
-/
namespace Verif.Driver

open Verif.Dense

section
variable {K : Type}

/-- fem_memory.h:196-212 `AniMemory`: the numbers of points and tetrahedrons and the arrays filled before the operators are applied. -/
structure Arr (K : Type) where
  q : Nat
  f : Nat
  xyl : Nat → K
  wg : Nat → K
  xyp : Nat → K
  psi : Nat → K
  det : Nat → K
  mes : Nat → K
  nrm : Nat → K
  xyg : Nat → K

/-- The part read by the operators of the spaces. (fem_memory.h:196-212) -/
def Arr.mem (a : Arr K) : Spaces.Mem K := ⟨a.q, a.f, a.xyl, a.psi, a.xyp, a.det⟩

/-- A quadrature formula as the drivers see it: `GetNumPoints()`, `p`, `w`. (quadrature_formulas.h:25-54, 86-116, 148-178) -/
structure Rule (K : Type) where
  q : Nat
  p : Nat → K
  w : Nat → K

/-- The same as arrays of numbers; reads past the end are zero here.  (quadrature_formulas.h:25-54, 86-116, 148-178) -/
def Rule.of [DivisionRing K] (F : Quad.Formula) : Rule K := ⟨F.np, fun i => ((F.p.getD i 0 : ℚ) : K), fun i => ((F.w.getD i 0 : ℚ) : K)⟩

/-- `std::copy(src, src + n, dst)`. (int_tet.inl:22-23, 50-51, int_face.inl:39) -/
def copyN (n : Nat) (src dst : Nat → K) : Nat → K := loop 0 n (fun i m => wr m i (src i)) dst

/-- `std::fill(dst, dst + n, v)`. (int_edge.inl:23, int_pnt.inl:23, 27) -/
def fillN (n : Nat) (v : K) (dst : Nat → K) : Nat → K := loop 0 n (fun i m => wr m i v) dst

end

section
variable {K : Type} [Field K] [LinearOrder K]

/-- core.inl:231-242, the body of the loop of `internalFem3DtetGeomInit_Tet` for tetrahedron `r`; `XY r a i` stands for `XYa(i, r)`. -/
def tetStep (XY : Nat → Nat → Nat → K) (r : Nat) (a : Arr K) : Arr K :=
  let xyp := loop 0 3 (fun i m => wr m (i + 12 * r) 0) a.xyp
  let xyp := loop 0 3 (fun i m => wr m (i + 3 + 12 * r) (XY r 1 i - XY r 0 i)) xyp
  let xyp := loop 0 3 (fun i m => wr m (i + 6 + 12 * r) (XY r 2 i - XY r 0 i)) xyp
  let xyp := loop 0 3 (fun i m => wr m (i + 9 + 12 * r) (XY r 3 i - XY r 0 i)) xyp
  let inv := Geometry.inverse3x3 fun t => xyp (3 + 12 * r + t)
  let det := wr a.det r (inv fun t => a.psi (9 * r + t)).1
  { a with
    xyp := xyp
    psi := SpaceOp.inArray (9 * r) (fun m => (inv m).2) a.psi
    det := det
    mes := wr a.mes r (|det r| / 6) }

/-- core.inl:217-247 `internalFem3DtetGeomInit_Tet`. -/
def initTet (XY : Nat → Nat → Nat → K) (a : Arr K) : Arr K := loop 0 a.f (tetStep XY) a

omit [LinearOrder K] in
/-- core.inl:249-269 `internalFem3DtetGeomInit_XYG`. -/
def initXYG (XY : Nat → Nat → Nat → K) (a : Arr K) : Arr K :=
  { a with xyg := loop 0 a.f (fun r m => loop 0 a.q (fun n m => loop 0 3 (fun k m =>
      wr m (k + 3 * (n + a.q * r))
        (loop 0 3 (fun l s => s + a.xyl (l + 1 + 4 * n) * a.xyp (k + 3 * (l + 1) + 12 * r)) (XY r 0 k))) m) m) a.xyg }

/-- core.inl:271-275 `internalFem3DtetGeomInit`. -/
def initGeom (XY : Nat → Nat → Nat → K) (a : Arr K) : Arr K := initXYG XY (initTet XY a)

/-- int_tet.inl:14-25, 37-55: the arrays of `fem3Dtet`.  The version which points `XYL` and `WG` at the formula reads the same numbers. -/
def setTet (F : Rule K) (f : Nat) (XY : Nat → Nat → Nat → K) (a : Arr K) : Arr K :=
  initGeom XY { a with q := F.q, f := f, xyl := copyN (4 * F.q) F.p a.xyl, wg := copyN F.q F.w a.wg }

omit [LinearOrder K] in
/-- int_face.inl:33-38, 71-76, 108-113, 143-148, 177-182: the barycentric coordinates of the points of a face. -/
def faceXYL (F : Rule K) (face : Nat) (xyl : Nat → K) : Nat → K :=
  loop 0 F.q (fun n m =>
    let m := wr m (4 * n + face) (F.p (3 * n + 0))
    let m := wr m (4 * n + (face + 1) % 4) (F.p (3 * n + 1))
    let m := wr m (4 * n + (face + 2) % 4) (F.p (3 * n + 2))
    wr m (4 * n + (face + 3) % 4) 0) xyl

/-- int_face.inl:31-42, 69-80, 99-117, 134-152, 173-184: the part common to `fem3Dface` and `fem3DfaceN`. -/
def setFace0 (F : Rule K) (face f : Nat) (XY : Nat → Nat → Nat → K) (a : Arr K) : Arr K :=
  initGeom XY { a with q := F.q, f := f, xyl := faceXYL F face a.xyl, wg := copyN F.q F.w a.wg }

/-- int_face.inl:31-46, 99-121, 173-189: the arrays of `fem3Dface`. -/
def setFace (sqrt : K → K) (F : Rule K) (face f : Nat) (XY : Nat → Nat → Nat → K) (a : Arr K) : Arr K :=
  let a := setFace0 F face f XY a
  { a with mes := loop 0 f (fun r m =>
      let x := fun v i => a.xyp (3 * v + i + 12 * r)
      wr m r (Geometry.triArea sqrt (x face) (x ((face + 1) % 4)) (x ((face + 2) % 4)))) a.mes }

/-- int_face.inl:69-86, 134-158, 173-196: the arrays of `fem3DfaceN`, with the normals. -/
def setFaceN (sqrt : K → K) (F : Rule K) (face f : Nat) (XY : Nat → Nat → Nat → K) (a : Arr K) : Arr K :=
  let a := setFace0 F face f XY a
  let s := loop 0 f (fun r s =>
    let x := fun v i => a.xyp (3 * v + i + 12 * r)
    let d := Geometry.faceNormal sqrt (x face) (x ((face + 1) % 4)) (x ((face + 2) % 4)) (x ((face + 3) % 4))
    (wr s.1 r d.1, loop 0 3 (fun i m => wr m (i + 3 * r) (d.2 i)) s.2)) (a.mes, a.nrm)
  { a with mes := s.1, nrm := s.2 }

/-- int_edge.inl:24 `lookup1`. -/
def lookup1 (e : Nat) : Nat := [0, 0, 0, 1, 1, 2].getD e 0
/-- int_edge.inl:24 `lookup2`. -/
def lookup2 (e : Nat) : Nat := [1, 2, 3, 2, 3, 3].getD e 0

omit [LinearOrder K] in
/-- int_edge.inl:23-28, 60-65, 94-99: the barycentric coordinates of the points of an edge. -/
def edgeXYL (F : Rule K) (edge : Nat) (xyl : Nat → K) : Nat → K :=
  loop 0 F.q (fun n m => wr (wr m (4 * n + lookup1 edge) (F.p (2 * n + 0))) (4 * n + lookup2 edge) (F.p (2 * n + 1))) (fillN (4 * F.q) 0 xyl)

/-- int_edge.inl:21-38, 50-75, 90-107: the arrays of `fem3Dedge`. -/
def setEdge (sqrt : K → K) (F : Rule K) (edge f : Nat) (XY : Nat → Nat → Nat → K) (a : Arr K) : Arr K :=
  let a := initGeom XY { a with q := F.q, f := f, xyl := edgeXYL F edge a.xyl, wg := copyN F.q F.w a.wg }
  let sq := fun x : K => x * x
  { a with mes := loop 0 f (fun r m =>
      let x := fun i => a.xyp (12 * r + i)
      let x1 := fun i => x (3 * lookup1 edge + i)
      let x2 := fun i => x (3 * lookup2 edge + i)
      wr m r (sqrt (sq (x1 0 - x2 0) + sq (x1 1 - x2 1) + sq (x1 2 - x2 2)))) a.mes }

/-- int_pnt.inl:23-27, 40-53, 174-182: the arrays of `fem3Dnode`. -/
def setNode (node f : Nat) (XY : Nat → Nat → Nat → K) (a : Arr K) : Arr K :=
  let a := initGeom XY { a with q := 1, f := f, xyl := wr (fillN 4 0 a.xyl) node 1, wg := wr a.wg 0 1 }
  { a with mes := fillN f 1 a.mes }

/-- int_pnt.inl:66, 74-78 (stack memory), 91, 99-104 (`plain`: memory of the user), 197-203 (run-time operators): the arrays of `fem3DpntL` for
`nl` numbers `L` of barycentric coordinates and `nw` weights `W`.  `none`: a weight is read outside its array. -/
def setPntL (plain : Bool) (L W : Nat → K) (nl nw f : Nat) (XY : Nat → Nat → Nat → K) (a : Arr K) : Option (Arr K) :=
  let q := if plain then nl / 4 else min (nl / 4) nw
  if q ≤ nw then
    let a := initGeom XY { a with q := q, f := f, xyl := L, wg := W }
    some { a with mes := fillN f 1 a.mes }
  else none

omit [LinearOrder K] in
/-- core.inl:119-137 `getBaryCoord(XY0, .., X, XYL, PSI)` for `nx` points and an array `XYL` of `sz` numbers in `cap` of memory; `none`: a number
is written past the memory. -/
def baryAll (p0 X : Nat → K) (nx sz cap : Nat) (psi xyl : Nat → K) : Option (Nat → K) :=
  if 4 * nx ≤ cap then
    some (loop 0 nx (fun n m =>
      let dr := fun i => X (i + 3 * n) - p0 i
      let m := loop 0 3 (fun j m => loop 0 3 (fun i m => wr m (4 * n + i + 1) (m (4 * n + i + 1) + psi (i + 3 * j) * dr j)) m) m
      let m := wr m (4 * n + 0) 1
      loop 0 3 (fun i m => wr m (4 * n + 0) (m (4 * n + 0) - m (4 * n + i + 1))) m) (fillN sz 0 xyl))
  else none

/-- int_pnt.inl:117-132 (`stack`), 141-158, 210-224: the arrays of `fem3DpntX` for `nx` points `X` and `nw` weights `W`.  In the first version
`XYL` lies in an array of 96 numbers, in the others in the memory of the user, where it has `4 * q`. -/
def setPntX (stack : Bool) (X W : Nat → K) (nx nw : Nat) (XY : Nat → Nat → Nat → K) (a : Arr K) : Option (Arr K) :=
  let q := min nx nw
  if stack = true ∧ 24 < q then none
  else
    let a := initTet XY { a with q := q, f := 1, wg := W }
    (baryAll (XY 0 0) X nx (4 * q) (if stack then 96 else 4 * q) a.psi a.xyl).map fun xyl =>
      let a := initXYG XY { a with xyl := xyl }
      { a with mes := fillN 1 1 a.mes }

end

section
open SpaceOp Order

/-- core.inl:139-185 `fem3Dtet_init_animem_from_plain_memory`, the arrays `U`, `V`, `DU`, `DIFF`, `extraR` behind the others: the addresses of `U`,
`V` and `extraR`.  For equal operators there is no `V` (a null pointer, which is not used); here it is the end of the memory. -/
def layout (same : Bool) (base usz vsz du diff exr : Nat) : Nat × Nat × Nat :=
  if same then (base, base + usz + du + diff + exr, base + usz + du + diff)
  else (base, base + usz, base + usz + vsz + du + diff)

/-- The end of the drivers for compile-time operators: the operators applied in the prepared memory `mem` and the elemental matrix.
`base` numbers lie before `U`; `same`: the two operators are the same type.  (core.inl:139-185, 277-367) -/
noncomputable def runCt (a : Arr ℝ) (normal : Bool) (opa opb : OpT) (F H : Fem) (same : Bool) (base : Nat) (tr : Elemental.Traits)
    (fn : Elemental.UserD ℝ) (mem D DU DIFF extraR E : Nat → ℝ) : Option (Nat → ℝ) := do
  let A ← ctOp Real.sqrt a.mem opa F
  let B ← ctOp Real.sqrt a.mem opb H
  let nD := if normal then 3 else 1
  let es := if same then A.exr else max A.exr B.exr
  let l := layout same base A.usz B.usz (nD * B.dim * a.q * A.nfa * a.f) (B.dim * max (nD * A.dim) A.nfa * a.q * a.f) es
  let s ← CtOp.applyTwo same A B l.1 l.2.1 l.2.2 es mem
  Elemental.fem3Dtet (fun x DU => Elemental.applyDU tr fn x D DU) (s.2.1.band s.1) (s.2.2.band s.1) A.dim B.dim A.nfa B.nfa a.q a.f a.wg a.mes
    a.xyg (if normal then some a.nrm else none) DU DIFF extraR E

/-- The end of the drivers for run-time operators; `st` is the stack of the operators and the memory; here `DU` and `DIFF` lie before `U`.
(core.inl:406-475, 606-660) -/
noncomputable def runRt (a : Arr ℝ) (normal : Bool) (opa opb : OpT) (F H : Fem) (same : Bool) (base : Nat) (tr : Elemental.Traits)
    (fn : Elemental.UserD ℝ) (st : OpStack.St ℝ) (D DU DIFF extraR E : Nat → ℝ) : Option (Nat → ℝ) := do
  let A ← rtOp Real.sqrt a.mem F opa
  let B ← rtOp Real.sqrt a.mem H opb
  let nD := if normal then 3 else 1
  let es := if same then A.exr else max A.exr B.exr
  let l := layout same (base + B.dim * nD * a.q * A.nfa * a.f + B.dim * max (A.dim * nD) A.nfa * a.q * a.f) A.usz B.usz 0 0 es
  let s ← OpStack.applyTwo same A B l.1 l.2.1 l.2.2 es st
  Elemental.fem3Dtet (fun x DU => Elemental.applyDU tr fn x D DU) (s.1.band s.2.1) (s.1.band s.2.2) A.dim B.dim A.nfa B.nfa a.q a.f a.wg a.mes
    a.xyg (if normal then some a.nrm else none) DU DIFF extraR E

end

end Verif.Driver
