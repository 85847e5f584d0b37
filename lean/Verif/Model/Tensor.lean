import Mathlib.Algebra.Field.Defs
import Mathlib.Algebra.Field.Rat
import Mathlib.Logic.Function.Basic
import Mathlib.Order.Lattice

/-!
# Model of the packed tensors (anifem++/autodiff/physical_tensors.h, .inl, physical_tensors_3d.inl)

The storage `m_dat` is a function of the position.  The C++ arrays are finite; that only positions
inside of the array are used is part of the theorems.  A field stands for `double`.  The numbers of
type `std::size_t` are natural numbers: the sizes of the arrays keep them far below overflow.  The
iterators are modelled by the position that they hold.
-/

namespace Verif.Tensor

/-- The array `m_dat`: physical_tensors.h:79, 187, 247, 307, 438. -/
abbrev Store (K : Type) := Nat → K

variable {K : Type}

/-- The initial state of `m_dat`, all zero: physical_tensors.h:79, 187, 247, 307, 438. -/
def zeros [Zero K] : Store K := fun _ => 0

/-- A loop that stores a value at a position in every step: for example
physical_tensors.inl:23-25, 89-92, 97-100. -/
def writes (L : List (Nat × K)) (d : Store K) : Store K :=
  L.foldl (fun d w => Function.update d w.1 w.2) d

/-- A loop that adds a value at a position in every step (`+=`): physical_tensors.inl:71-73, 302-305,
311-314, 545-548. -/
def adds [Add K] (L : List (Nat × K)) (d : Store K) : Store K :=
  L.foldl (fun d w => Function.update d w.1 (d w.1 + w.2)) d

/-- A loop that sums up (`v += ...`): physical_tensors.inl:49-51, 56-58, 63-65, 284-287. -/
def total [Zero K] [Add K] (L : List K) : K := L.foldl (fun v w => v + w) 0

/-- The loops `for i < N, for j = i; j < N`: physical_tensors.h:67-68, physical_tensors.inl:23-24. -/
def upper (N : Nat) : List (Nat × Nat) :=
  (List.range N).flatMap fun i => (List.range' i (N - i)).map fun j => (i, j)

/-- The loops `for i < N, for j < N`: physical_tensors.inl:71-72, 285-286. -/
def square (N : Nat) : List (Nat × Nat) :=
  (List.range N).flatMap fun i => (List.range N).map fun j => (i, j)

/-- The loops `for i < N, for j < N, for k < N`: physical_tensors.inl:302-304, 545-547, 554-556. -/
def cube (N : Nat) : List (Nat × Nat × Nat) :=
  (List.range N).flatMap fun i => (List.range N).flatMap fun j => (List.range N).map fun k => (i, j, k)

/-! ## Symmetric matrices -/

/-- The constructor `SymMtx::Index(i, j)`: physical_tensors.h:61, physical_tensors_3d.inl:23. -/
def symSort (i j : Nat) : Nat × Nat := if j < i then (j, i) else (i, j)

/-- `SymMtx::continuous_index`, also the positions in `IndexMap`: physical_tensors.h:69-70, 77. -/
def symPosGen (N : Nat) (q : Nat × Nat) : Nat := (2 * N - 1 - q.1) * q.1 / 2 + q.2

/-- `IndexMap::imap`: physical_tensors.h:66-72. -/
def imap (N : Nat) : Nat → Nat :=
  writes ((upper N).map fun q => (symPosGen N q, q.1)) fun _ => 0

/-- `IndexMap::jmap`: physical_tensors.h:66-72. -/
def jmap (N : Nat) : Nat → Nat :=
  writes ((upper N).map fun q => (symPosGen N q, q.2)) fun _ => 0

/-- `SymMtx::index`: physical_tensors.h:76. -/
def symIndexGen (N c : Nat) : Nat × Nat := symSort (imap N c) (jmap N c)

/-- `SymMtx<3>::index`: physical_tensors_3d.inl:28-35.  A position outside of the table has here the
index (0, 0). -/
def sym3Index (c : Nat) : Nat × Nat :=
  [(0, 0), (0, 1), (0, 2), (1, 1), (1, 2), (2, 2)].getD (c % 256) (0, 0)

/-- `SymMtx<3>::continuous_index`: physical_tensors_3d.inl:36. -/
def sym3Pos (q : Nat × Nat) : Nat := q.1 + q.2 + if q.1 ≠ 0 then 1 else 0

/-- `index` of the matrix type that is chosen for `N`: physical_tensors.h:76,
physical_tensors_3d.inl:28-35. -/
def symIndex (N c : Nat) : Nat × Nat := if N = 3 then sym3Index c else symIndexGen N c

/-- `continuous_index` of the matrix type that is chosen for `N`: physical_tensors.h:77,
physical_tensors_3d.inl:36. -/
def symPos (N : Nat) (q : Nat × Nat) : Nat := if N = 3 then sym3Pos q else symPosGen N q

/-- `continuous_size`: physical_tensors.h:81, physical_tensors_3d.inl:40. -/
def symSize (N : Nat) : Nat := if N = 3 then 6 else N * (N + 1) / 2

/-- `index_duplication`: physical_tensors.h:82, physical_tensors_3d.inl:41-44. -/
def symDup (N c : Nat) : Nat :=
  if N = 3 then [1, 2, 2, 1, 2, 1].getD c 0 else if imap N c ≠ jmap N c then 2 else 1

/-- The position of `operator()(i, j)`: physical_tensors.h:137, 142-143,
physical_tensors_3d.inl:103-104. -/
def symAt (N i j : Nat) : Nat :=
  if N = 3 then i + j + if min i j ≠ 0 then 1 else 0 else symPosGen N (symSort i j)

/-- `operator()(i, j)`: physical_tensors.h:143, physical_tensors_3d.inl:104. -/
def symGet (N : Nat) (a : Store K) (i j : Nat) : K := a (symAt N i j)

/-- The loop over all entries that stores a function of the index: physical_tensors.inl:39-43, 88-92,
118-122, 411-415, 420-424, physical_tensors_3d.inl:316-320, 226-230. -/
def symFill [Zero K] (N : Nat) (g : Nat × Nat → K) : Store K :=
  writes ((List.range (symSize N)).map fun c => (c, g (symIndex N c))) zeros

/-- The constructor from the rows of the lower triangle: physical_tensors.inl:28-36. -/
def symOfLower [Zero K] (N : Nat) (arr : Store K) : Store K :=
  writes ((List.range N).flatMap fun i => (List.range (i + 1)).map fun j =>
    ((2 * N - 1 - j) * j / 2 + i, arr (i * (i + 1) / 2 + j))) zeros

section Sym
variable [Field K]

/-- `SymMtx::TensorSquare`: physical_tensors.inl:419-426, physical_tensors_3d.inl:225-232. -/
def symTensorSquare (N : Nat) (s : Store K) : Store K := symFill N fun q => s q.1 * s q.2

/-- `SymMtx::TensorSymMul2`: physical_tensors.inl:410-417. -/
def symTensorSymMul2 (N : Nat) (f s : Store K) : Store K :=
  symFill N fun q => f q.1 * s q.2 + f q.2 * s q.1

/-- `SymMtx<3>::TensorSymMul2`: physical_tensors_3d.inl:217-223. -/
def sym3TensorSymMul2 (f s : Store K) : Store K :=
  writes [(0, 2 * f 0 * s 0), (1, f 1 * s 0 + f 0 * s 1), (2, f 2 * s 0 + f 0 * s 2),
    (3, 2 * f 1 * s 1), (4, f 1 * s 2 + f 2 * s 1), (5, 2 * f 2 * s 2)] zeros

/-- `SymMtx::Dot(b)`, `internal::Dot`: physical_tensors.inl:61-67, 259. -/
def symDot (N : Nat) (a b : Store K) : K :=
  total ((List.range (symSize N)).map fun c => a c * b c * (symDup N c : K))

/-- `SymMtx::SquareFrobNorm`, `internal::SquareFrobNorm`: physical_tensors.inl:54-60, 255. -/
def symFrob (N : Nat) (a : Store K) : K :=
  total ((List.range (symSize N)).map fun c => a c * a c * (symDup N c : K))

/-- `SymMtx<3>::Dot(b)`: physical_tensors_3d.inl:193-196. -/
def sym3Dot (a b : Store K) : K :=
  a 0 * b 0 + a 3 * b 3 + a 5 * b 5 + 2 * (a 1 * b 1 + a 2 * b 2 + a 4 * b 4)

/-- `SymMtx<3>::SquareFrobNorm`: physical_tensors_3d.inl:153-156. -/
def sym3Frob (a : Store K) : K :=
  a 0 * a 0 + a 3 * a 3 + a 5 * a 5 + 2 * (a 1 * a 1 + a 2 * a 2 + a 4 * a 4)

/-- `SymMtx::Dot(f, s)`: physical_tensors.inl:291-298. -/
def symDotVec (N : Nat) (a f s : Store K) : K :=
  total ((List.range (symSize N)).map fun c =>
    let q := symIndex N c
    a c * if q.1 ≠ q.2 then f q.1 * s q.2 + f q.2 * s q.1 else f q.1 * s q.1)

/-- `SymMtx<3>::Dot(f, s)`: physical_tensors_3d.inl:198-202. -/
def sym3DotVec (a f s : Store K) : K :=
  a 0 * f 0 * s 0 + a 3 * f 1 * s 1 + a 5 * f 2 * s 2
    + a 1 * (f 1 * s 0 + f 0 * s 1) + a 2 * (f 2 * s 0 + f 0 * s 2) + a 4 * (f 2 * s 1 + f 1 * s 2)

/-- `SymMtx::Trace`, `internal::Trace`: physical_tensors.inl:47-53, 264. -/
def symTrace (N : Nat) (a : Store K) : K := total ((List.range N).map fun i => symGet N a i i)

/-- `SymMtx<3>::Trace`: physical_tensors_3d.inl:148-151. -/
def sym3Trace (a : Store K) : K := a 0 + a 3 + a 5

/-- `SymMtx::Mul`, `internal::Mul`: physical_tensors.inl:68-75, 270, 272. -/
def symMul (N : Nat) (a v : Store K) : Store K :=
  adds ((square N).map fun q => (q.1, symGet N a q.1 q.2 * v q.2)) zeros

/-- `SymMtx<3>::Mul`: physical_tensors_3d.inl:178-191. -/
def sym3Mul (a v : Store K) : Store K :=
  writes [(0, symGet 3 a 0 0 * v 0 + symGet 3 a 0 1 * v 1 + symGet 3 a 0 2 * v 2),
    (1, symGet 3 a 1 0 * v 0 + symGet 3 a 1 1 * v 1 + symGet 3 a 1 2 * v 2),
    (2, symGet 3 a 2 0 * v 0 + symGet 3 a 2 1 * v 1 + symGet 3 a 2 2 * v 2)] zeros

/-- `SymMtx::Identity`: physical_tensors.h:157. -/
def symIdentity (N : Nat) (val : K) : Store K :=
  writes ((List.range N).map fun i => (symAt N i i, val)) zeros

/-- `SymMtx<3>::Identity`: physical_tensors_3d.inl:119. -/
def sym3Identity (val : K) : Store K := writes [(5, val), (3, val), (0, val)] zeros

/-- `SymMtx::operator*(SymMtx)`: physical_tensors.inl:309-316. -/
def symProd (N : Nat) (b a : Store K) : Store K :=
  adds ((upper N).flatMap fun q => (List.range N).map fun k =>
    (symAt N q.1 q.2, symGet N b q.1 k * symGet N a q.2 k)) zeros

/-- `SymMtx<3>::operator*(SymMtx)`: physical_tensors_3d.inl:204-214. -/
def sym3Prod (b a : Store K) : Store K :=
  let e := fun i j => symGet 3 b i 0 * symGet 3 a 0 j + symGet 3 b i 1 * symGet 3 a 1 j
    + symGet 3 b i 2 * symGet 3 a 2 j
  writes [(symAt 3 0 0, e 0 0), (symAt 3 1 0, e 1 0), (symAt 3 1 1, e 1 1), (symAt 3 2 0, e 2 0),
    (symAt 3 2 1, e 2 1), (symAt 3 2 2, e 2 2)] zeros

/-- `SymMtx<3>::Det`: physical_tensors_3d.inl:143-146. -/
def sym3Det (a : Store K) : K :=
  a 0 * a 3 * a 5 + 2 * a 1 * a 2 * a 4 - (a 1 * a 1 * a 5 + a 2 * a 2 * a 3 + a 4 * a 4 * a 0)

/-- `SymMtx<3>::Adj`: physical_tensors_3d.inl:158-168. -/
def sym3Adj (a : Store K) : Store K :=
  let m := symGet 3 a
  writes [(symAt 3 0 0, m 1 1 * m 2 2 - m 1 2 * m 1 2), (symAt 3 0 1, m 1 2 * m 2 0 - m 1 0 * m 2 2),
    (symAt 3 0 2, m 1 0 * m 1 2 - m 1 1 * m 2 0), (symAt 3 1 1, m 2 2 * m 0 0 - m 2 0 * m 2 0),
    (symAt 3 1 2, m 2 0 * m 1 0 - m 1 2 * m 0 0), (symAt 3 2 2, m 0 0 * m 1 1 - m 0 1 * m 0 1)] zeros

/-- `SymMtx<3>::Inv`: physical_tensors_3d.inl:170-176. -/
def sym3Inv (a : Store K) : Store K :=
  let m := symGet 3 a
  let r := sym3Adj a
  let det := m 0 0 * symGet 3 r 0 0 + m 0 1 * symGet 3 r 0 1 + m 0 2 * symGet 3 r 0 2
  writes ((List.range 6).map fun c => (c, r c / det)) r

end Sym

/-! ## General matrices -/

/-- `PhysMtx::operator()(i, j)`: physical_tensors.h:200, physical_tensors_3d.inl:254. -/
def mtxGet (N : Nat) (a : Store K) (i j : Nat) : K := a (N * i + j)

section Mtx
variable [Field K]

/-- The constructor `PhysMtx(src, row_major)`: physical_tensors.inl:13-20,
physical_tensors_3d.inl:300-307. -/
def mtxOf (N : Nat) (src : Store K) (rowMajor : Bool) : Store K :=
  if rowMajor then writes ((List.range (N * N)).map fun c => (c, src c)) zeros
  else writes ((square N).map fun q => (N * q.1 + q.2, src (q.1 + N * q.2))) zeros

/-- `PhysMtx::Transpose`: physical_tensors.h:222, physical_tensors_3d.inl:277. -/
def mtxTranspose (N : Nat) (a : Store K) : Store K := mtxOf N a false

/-- The constructor `PhysMtx(SymMtx)`: physical_tensors.inl:22-26, physical_tensors_3d.inl:309-313. -/
def mtxOfSym (N : Nat) (r : Store K) : Store K :=
  writes ((upper N).flatMap fun q =>
    [(N * q.2 + q.1, symGet N r q.1 q.2), (N * q.1 + q.2, symGet N r q.1 q.2)]) zeros

/-- `PhysMtx::Sym`: physical_tensors.inl:38-45, physical_tensors_3d.inl:315-322. -/
def mtxSym (N : Nat) (a : Store K) : Store K :=
  symFill N fun q => (mtxGet N a q.1 q.2 + mtxGet N a q.2 q.1) / 2

/-- `Tensor_convert` from `PhysMtx` to `SymMtx`: physical_tensors.inl:87-94; the same from an array of
N² numbers: 117-124. -/
def mtxToSym (N : Nat) (a : Store K) : Store K := symFill N fun q => mtxGet N a q.1 q.2

/-- `Tensor_convert` from `SymMtx` to `PhysMtx`: physical_tensors.inl:95-102; the same to an array of
N² numbers: 125-132. -/
def symToMtx (N : Nat) (v : Store K) : Store K :=
  writes ((List.range (symSize N)).flatMap fun c =>
    let q := symIndex N c
    [(N * q.2 + q.1, v c), (N * q.1 + q.2, v c)]) zeros

/-- `PhysMtx::Trace`: physical_tensors.inl:47-53, 262. -/
def mtxTrace (N : Nat) (a : Store K) : K := total ((List.range N).map fun i => mtxGet N a i i)

/-- `PhysMtx<3>::Trace`: physical_tensors_3d.inl:324. -/
def mtx3Trace (a : Store K) : K := mtxGet 3 a 0 0 + mtxGet 3 a 1 1 + mtxGet 3 a 2 2

/-- `PhysMtx::Dot(b)`: physical_tensors.inl:61-67, 257, physical_tensors_3d.inl:382-387. -/
def mtxDot (N : Nat) (a b : Store K) : K := total ((List.range (N * N)).map fun c => a c * b c * 1)

/-- `PhysMtx::SquareFrobNorm`: physical_tensors.inl:54-60, 253, physical_tensors_3d.inl:334-339. -/
def mtxFrob (N : Nat) (a : Store K) : K := total ((List.range (N * N)).map fun c => a c * a c * 1)

/-- `PhysMtx::Dot(f, s)`: physical_tensors.inl:283-289, physical_tensors_3d.inl:389-395. -/
def mtxDotVec (N : Nat) (a f s : Store K) : K :=
  total ((square N).map fun q => mtxGet N a q.1 q.2 * f q.1 * s q.2)

/-- `PhysMtx::Mul`: physical_tensors.inl:68-75, 266, 268. -/
def mtxMul (N : Nat) (a v : Store K) : Store K :=
  adds ((square N).map fun q => (q.1, mtxGet N a q.1 q.2 * v q.2)) zeros

/-- `PhysMtx<3>::Mul`: physical_tensors_3d.inl:366-380. -/
def mtx3Mul (a v : Store K) : Store K :=
  writes ((List.range 3).map fun i =>
    (i, mtxGet 3 a i 0 * v 0 + mtxGet 3 a i 1 * v 1 + mtxGet 3 a i 2 * v 2)) zeros

/-- `PhysMtx::operator*`: physical_tensors.inl:300-307. -/
def mtxProd (N : Nat) (b a : Store K) : Store K :=
  adds ((cube N).map fun q => (N * q.1 + q.2.1, mtxGet N b q.1 q.2.2 * mtxGet N a q.2.2 q.2.1)) zeros

/-- `PhysMtx<3>::operator*`: physical_tensors_3d.inl:397-404. -/
def mtx3Prod (m a : Store K) : Store K :=
  writes ((square 3).map fun q => (3 * q.1 + q.2, mtxGet 3 m q.1 0 * mtxGet 3 a 0 q.2
    + mtxGet 3 m q.1 1 * mtxGet 3 a 1 q.2 + mtxGet 3 m q.1 2 * mtxGet 3 a 2 q.2)) zeros

/-- `operator*(PhysMtx, SymMtx)`: physical_tensors.inl:543-550. -/
def mtxProdSym (N : Nat) (a b : Store K) : Store K :=
  adds ((cube N).map fun q => (N * q.1 + q.2.1, mtxGet N a q.1 q.2.2 * symGet N b q.2.2 q.2.1)) zeros

/-- `operator*(SymMtx, PhysMtx)`: physical_tensors.inl:552-559. -/
def symProdMtx (N : Nat) (a b : Store K) : Store K :=
  adds ((cube N).map fun q => (N * q.1 + q.2.1, symGet N a q.1 q.2.2 * mtxGet N b q.2.2 q.2.1)) zeros

/-- The loop of `operator+` and `operator-` between the two kinds of matrices:
physical_tensors.inl:562-568, 574-580, 584-590. -/
def mixed (N : Nat) (g : Nat → Nat → Nat → K) : Store K :=
  writes ((List.range (symSize N)).flatMap fun c =>
    let q := symIndex N c
    (N * q.1 + q.2, g c q.1 q.2) :: if q.2 ≠ q.1 then [(N * q.2 + q.1, g c q.2 q.1)] else []) zeros

/-- `operator+(PhysMtx, SymMtx)` and, with exchanged arguments, `operator+(SymMtx, PhysMtx)`:
physical_tensors.inl:561-571. -/
def mtxAddSym (N : Nat) (a b : Store K) : Store K := mixed N fun c i j => mtxGet N a i j + b c

/-- `operator-(PhysMtx, SymMtx)`: physical_tensors.inl:573-581. -/
def mtxSubSym (N : Nat) (a b : Store K) : Store K := mixed N fun c i j => mtxGet N a i j - b c

/-- `operator-(SymMtx, PhysMtx)`: physical_tensors.inl:583-591. -/
def symSubMtx (N : Nat) (a b : Store K) : Store K := mixed N fun c i j => a c - mtxGet N b i j

/-- `PhysMtx::TensorSquare`: physical_tensors.inl:401-407, physical_tensors_3d.inl:406-412. -/
def mtxTensorSquare (N : Nat) (s : Store K) : Store K :=
  writes ((upper N).flatMap fun q =>
    [(N * q.2 + q.1, s q.1 * s q.2), (N * q.1 + q.2, s q.1 * s q.2)]) zeros

/-- `PhysMtx::TensorSymMul2`: physical_tensors.inl:393-399, physical_tensors_3d.inl:414-420. -/
def mtxTensorSymMul2 (N : Nat) (f s : Store K) : Store K :=
  writes ((upper N).flatMap fun q => [(N * q.2 + q.1, f q.1 * s q.2 + f q.2 * s q.1),
    (N * q.1 + q.2, f q.1 * s q.2 + f q.2 * s q.1)]) zeros

/-- `PhysMtx::Identity`: physical_tensors.h:221, physical_tensors_3d.inl:276. -/
def mtxIdentity (N : Nat) (val : K) : Store K :=
  writes ((List.range N).map fun i => (N * i + i, val)) zeros

/-- `PhysMtx<3>::Det`: physical_tensors_3d.inl:326-332. -/
def mtx3Det (a : Store K) : K :=
  let m := mtxGet 3 a
  let da := m 1 1 * m 2 2 - m 1 2 * m 2 1
  let db := m 1 2 * m 2 0 - m 1 0 * m 2 2
  let dc := m 1 0 * m 2 1 - m 1 1 * m 2 0
  m 0 0 * da + m 0 1 * db + m 0 2 * dc

/-- The cofactor in `PhysMtx<3>::Adj` and `Inv`: physical_tensors_3d.inl:346-347, 361-362. -/
def cof3 (a : Store K) (i j : Nat) : K :=
  mtxGet 3 a ((i + 1) % 3) ((j + 1) % 3) * mtxGet 3 a ((i + 2) % 3) ((j + 2) % 3)
    - mtxGet 3 a ((i + 1) % 3) ((j + 2) % 3) * mtxGet 3 a ((i + 2) % 3) ((j + 1) % 3)

/-- `PhysMtx<3>::Adj`: physical_tensors_3d.inl:341-349. -/
def mtx3Adj (a : Store K) : Store K :=
  writes ((square 3).map fun q => (3 * q.2 + q.1, cof3 a q.1 q.2)) zeros

/-- `PhysMtx<3>::Inv`: physical_tensors_3d.inl:351-364. -/
def mtx3Inv (a : Store K) : Store K :=
  let m := mtxGet 3 a
  let da := m 1 1 * m 2 2 - m 1 2 * m 2 1
  let db := m 1 2 * m 2 0 - m 1 0 * m 2 2
  let dc := m 1 0 * m 2 1 - m 1 1 * m 2 0
  let det := m 0 0 * da + m 0 1 * db + m 0 2 * dc
  writes ([(0, da / det), (3, db / det), (6, dc / det)] ++
    ([1, 2] : List Nat).flatMap fun i => (List.range 3).map fun j => (3 * j + i, cof3 a i j / det)) zeros

end Mtx

/-! ## Tensors of rank 4 -/

/-- `Tensor4Rank::operator()(i, j, k, l)`: physical_tensors.h:259. -/
def tenGet (N : Nat) (a : Store K) (i j k l : Nat) : K := a (l + N * (k + N * (j + N * i)))

/-- The constructor `SymTensor4Rank::Index(i, j, k, l)`: physical_tensors.h:300. -/
def stSort (N i j k l : Nat) : Nat × Nat × Nat × Nat :=
  if l + k * N < j + i * N then (k, l, i, j) else (i, j, k, l)

/-- `SymTensor4Rank::index`: physical_tensors.h:304. -/
def stIndex (N c : Nat) : Nat × Nat × Nat × Nat :=
  let q := symIndex (N * N) c
  stSort N (q.1 / N) (q.1 % N) (q.2 / N) (q.2 % N)

/-- `SymTensor4Rank::continuous_index`: physical_tensors.h:305. -/
def stPos (N : Nat) (q : Nat × Nat × Nat × Nat) : Nat :=
  symPos (N * N) (symSort (q.2.1 + N * q.1) (q.2.2.2 + N * q.2.2.1))

/-- `SymTensor4Rank::operator()(i, j, k, l)`: physical_tensors.h:370. -/
def stGet (N : Nat) (a : Store K) (i j k l : Nat) : K := a (stPos N (stSort N i j k l))

/-- `SymTensor4Rank::continuous_size`: physical_tensors.h:313. -/
def stSize (N : Nat) : Nat := N * N * (N * N + 1) / 2

/-- `SymTensor4Rank::index_duplication`: physical_tensors.h:314. -/
def stDup (N c : Nat) : Nat := if imap (N * N) c ≠ jmap (N * N) c then 2 else 1

/-- The loop over all entries that stores a function of the index: physical_tensors.inl:157-160,
484-488, 493-497, 502-506, 511-515. -/
def stFill [Zero K] (N : Nat) (g : Nat × Nat × Nat × Nat → K) : Store K :=
  writes ((List.range (stSize N)).map fun c => (c, g (stIndex N c))) zeros

/-- The constructor `BiSymTensor4Rank::Index(i, j, k, l)`: physical_tensors.h:403-408,
physical_tensors_3d.inl:429-434. -/
def bsSort (i j k l : Nat) : Nat × Nat × Nat × Nat :=
  let p := symSort i j
  let q := symSort k l
  if q.1 < p.1 ∨ (p.1 = q.1 ∧ q.2 < p.2) then (q.1, q.2, p.1, p.2) else (p.1, p.2, q.1, q.2)

/-- `BiSymTensor4Rank::index`, any N but 3: physical_tensors.h:427-431; the last index is that of the
code, `tj.i`. -/
def bsIndexGen (N c : Nat) : Nat × Nat × Nat × Nat :=
  let q := symIndex (N * (N + 1) / 2) c
  let ti := symIndex N q.1
  let tj := symIndex N q.2
  bsSort ti.1 ti.2 tj.1 tj.1

/-- `BiSymTensor4Rank::continuous_index`, any N but 3: physical_tensors.h:432-436. -/
def bsPosGen (N : Nat) (q : Nat × Nat × Nat × Nat) : Nat :=
  let I := symPos N (symSort q.1 q.2.1)
  let J := symPos N (symSort q.2.2.1 q.2.2.2)
  symPos (N * (N + 1) / 2) (symSort I J)

/-- `BiSymTensor4Rank::continuous_size`: physical_tensors.h:444. -/
def bsSize (N : Nat) : Nat := N * (N + 1) / 2 * (N * (N + 1) / 2 + 1) / 2

/-- The constructor from an index and the order of the table in `BiSymTensor4Rank<3>::index`:
physical_tensors_3d.inl:438-448.  A position outside of the table has here the index 0. -/
def bs3Index (c : Nat) : Nat × Nat × Nat × Nat :=
  [bsSort 0 0 0 0, bsSort 0 0 0 1, bsSort 0 0 0 2, bsSort 0 0 1 1, bsSort 0 0 1 2, bsSort 0 0 2 2,
    bsSort 0 1 0 1, bsSort 0 1 0 2, bsSort 0 1 1 1, bsSort 0 1 1 2, bsSort 0 1 2 2,
    bsSort 0 2 0 2, bsSort 0 2 1 1, bsSort 0 2 1 2, bsSort 0 2 2 2,
    bsSort 1 1 1 1, bsSort 1 1 1 2, bsSort 1 1 2 2,
    bsSort 1 2 1 2, bsSort 1 2 2 2,
    bsSort 2 2 2 2].getD (c % 256) (0, 0, 0, 0)

/-- `BiSymTensor4Rank<3>::continuous_index`: physical_tensors_3d.inl:449-451. -/
def bs3Pos (q : Nat × Nat × Nat × Nat) : Nat :=
  let I := q.1 + q.2.1 + if q.1 ≠ 0 then 1 else 0
  let J := q.2.2.1 + q.2.2.2 + if q.2.2.1 ≠ 0 then 1 else 0
  (2 * 6 - 1 - I) * I / 2 + J

/-- `BiSymTensor4Rank<3>::operator()(i, j, k, l)`: physical_tensors_3d.inl:526. -/
def bs3Get (a : Store K) (i j k l : Nat) : K := a (bs3Pos (bsSort i j k l))

/-- `BiSymTensor4Rank<3>::index_duplication`: physical_tensors_3d.inl:460-470. -/
def bs3Dup (c : Nat) : Nat :=
  [1, 4, 4, 2, 4, 2, 4, 8, 4, 8, 4, 4, 4, 8, 4, 1, 4, 2, 4, 4, 1].getD c 0

/-- The loop over all entries that stores a function of the index: physical_tensors_3d.inl:568-571,
577-580, physical_tensors.inl:181-184, 205-208. -/
def bs3Fill [Zero K] (g : Nat × Nat × Nat × Nat → K) : Store K :=
  writes ((List.range 21).map fun c => (c, g (bs3Index c))) zeros

section Ten
variable [Field K]

/-- `Tensor4Rank::TensorSquare` of matrices and of symmetric matrices and, with another function, the
two `TensorSymMul2`: physical_tensors.inl:439-469; `g I J` is what is stored at `J + N*N*I` and at
`I + N*N*J`. -/
def tenPairs (N : Nat) (g : Nat → Nat → K) : Store K :=
  writes ((upper (N * N)).flatMap fun q =>
    [(q.1 + N * N * q.2, g q.1 q.2), (q.2 + N * N * q.1, g q.1 q.2)]) zeros

/-- `Tensor4Rank::TensorSquare(PhysMtx)`: physical_tensors.inl:439-445. -/
def tenSquare (N : Nat) (s : Store K) : Store K := tenPairs N fun I J => s I * s J

/-- `Tensor4Rank::TensorSymMul2(PhysMtx, PhysMtx)`: physical_tensors.inl:447-453. -/
def tenSymMul2 (N : Nat) (f s : Store K) : Store K := tenPairs N fun I J => f I * s J + s I * f J

/-- `Tensor4Rank::TensorSquare(SymMtx)`: physical_tensors.inl:455-461. -/
def tenSquareSym (N : Nat) (s : Store K) : Store K :=
  tenPairs N fun I J => symGet N s (I / N) (I % N) * symGet N s (J / N) (J % N)

/-- `Tensor4Rank::TensorSymMul2(SymMtx, SymMtx)`: physical_tensors.inl:463-469. -/
def tenSymMul2Sym (N : Nat) (f s : Store K) : Store K :=
  tenPairs N fun I J => symGet N f (I / N) (I % N) * symGet N s (J / N) (J % N)
    + symGet N s (I / N) (I % N) * symGet N f (J / N) (J % N)

/-- `Tensor4Rank::Dot`: physical_tensors.inl:61-67, 437. -/
def tenDot (N : Nat) (a b : Store K) : K :=
  total ((List.range (N * N * N * N)).map fun c => a c * b c * 1)

/-- `SymTensor4Rank::TensorSquare(PhysMtx)`: physical_tensors.inl:483-490. -/
def stSquare (N : Nat) (s : Store K) : Store K :=
  stFill N fun q => mtxGet N s q.1 q.2.1 * mtxGet N s q.2.2.1 q.2.2.2

/-- `SymTensor4Rank::TensorSymMul2(PhysMtx, PhysMtx)`: physical_tensors.inl:492-499. -/
def stSymMul2 (N : Nat) (f s : Store K) : Store K :=
  stFill N fun q => mtxGet N f q.1 q.2.1 * mtxGet N s q.2.2.1 q.2.2.2
    + mtxGet N s q.1 q.2.1 * mtxGet N f q.2.2.1 q.2.2.2

/-- `SymTensor4Rank::TensorSquare(SymMtx)`: physical_tensors.inl:501-508. -/
def stSquareSym (N : Nat) (s : Store K) : Store K :=
  stFill N fun q => symGet N s q.1 q.2.1 * symGet N s q.2.2.1 q.2.2.2

/-- `SymTensor4Rank::TensorSymMul2(SymMtx, SymMtx)`: physical_tensors.inl:510-517. -/
def stSymMul2Sym (N : Nat) (f s : Store K) : Store K :=
  stFill N fun q => symGet N f q.1 q.2.1 * symGet N s q.2.2.1 q.2.2.2
    + symGet N s q.1 q.2.1 * symGet N f q.2.2.1 q.2.2.2

/-- `SymTensor4Rank::Dot`: physical_tensors.inl:61-67, 481. -/
def stDot (N : Nat) (a b : Store K) : K :=
  total ((List.range (stSize N)).map fun c => a c * b c * (stDup N c : K))

/-- `Tensor_convert` from `SymTensor4Rank` to `Tensor4Rank`: physical_tensors.inl:147-154. -/
def stToTen (N : Nat) (v : Store K) : Store K :=
  writes ((List.range (stSize N)).flatMap fun c =>
    let q := stIndex N c
    [(q.2.1 + N * (q.1 + N * (q.2.2.2 + N * q.2.2.1)), v c),
      (q.2.2.2 + N * (q.2.2.1 + N * (q.2.1 + N * q.1)), v c)]) zeros

/-- `Tensor_convert` from `Tensor4Rank` to `SymTensor4Rank`: physical_tensors.inl:155-162. -/
def tenToSt (N : Nat) (r : Store K) : Store K :=
  stFill N fun q => tenGet N r q.1 q.2.1 q.2.2.1 q.2.2.2

/-- `BiSymTensor4Rank<3>::TensorSquare`: physical_tensors_3d.inl:566-573. -/
def bs3Square (s : Store K) : Store K :=
  bs3Fill fun q => symGet 3 s q.1 q.2.1 * symGet 3 s q.2.2.1 q.2.2.2

/-- `BiSymTensor4Rank<3>::TensorSymMul2`: physical_tensors_3d.inl:575-582. -/
def bs3SymMul2 (f s : Store K) : Store K :=
  bs3Fill fun q => symGet 3 f q.1 q.2.1 * symGet 3 s q.2.2.1 q.2.2.2
    + symGet 3 s q.1 q.2.1 * symGet 3 f q.2.2.1 q.2.2.2

/-- `BiSymTensor4Rank<3>::Dot`: physical_tensors_3d.inl:559-564. -/
def bs3Dot (a b : Store K) : K :=
  total ((List.range 21).map fun c => a c * b c * (bs3Dup c : K))

/-- `BiSymTensor4Rank<3>::Identity`: physical_tensors_3d.inl:585-590. -/
def bs3Identity (val : K) : Store K :=
  writes [(bs3Pos (bsSort 2 2 2 2), val), (bs3Pos (bsSort 1 1 1 1), val),
    (bs3Pos (bsSort 0 0 0 0), val), (bs3Pos (bsSort 1 2 1 2), val / 2),
    (bs3Pos (bsSort 0 2 0 2), val / 2), (bs3Pos (bsSort 0 1 0 1), val / 2)] zeros

/-- `Tensor_convert` from `BiSymTensor4Rank<3>` to `Tensor4Rank<3>`: physical_tensors.inl:168-178. -/
def bs3ToTen (v : Store K) : Store K :=
  let p := fun i j k l => l + 3 * (k + 3 * (j + 3 * i))
  writes ((List.range 21).flatMap fun c =>
    let (i, j, k, l) := bs3Index c
    [(p k l i j, v c), (p i j k l, v c), (p k l j i, v c), (p j i k l, v c),
      (p l k i j, v c), (p i j l k, v c), (p l k j i, v c), (p j i l k, v c)]) zeros

/-- `Tensor_convert` from `Tensor4Rank<3>` to `BiSymTensor4Rank<3>`: physical_tensors.inl:179-186. -/
def tenToBs3 (r : Store K) : Store K :=
  bs3Fill fun q => tenGet 3 r q.1 q.2.1 q.2.2.1 q.2.2.2

/-- `Tensor_convert` from `BiSymTensor4Rank<3>` to `SymTensor4Rank<3>`: physical_tensors.inl:192-202. -/
def bs3ToSt (v : Store K) : Store K :=
  writes ((List.range 21).flatMap fun c =>
    let (i, j, k, l) := bs3Index c
    [(stPos 3 (stSort 3 i j k l), v c), (stPos 3 (stSort 3 j i k l), v c),
      (stPos 3 (stSort 3 i j l k), v c), (stPos 3 (stSort 3 j i l k), v c)]) zeros

/-- `Tensor_convert` from `SymTensor4Rank<3>` to `BiSymTensor4Rank<3>`: physical_tensors.inl:203-210. -/
def stToBs3 (r : Store K) : Store K :=
  bs3Fill fun q => stGet 3 r q.1 q.2.1 q.2.2.1 q.2.2.2

end Ten

end Verif.Tensor
