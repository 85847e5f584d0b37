import Verif.Model.Spaces
import Verif.Model.Order
import Verif.Model.CtOp
import Verif.Model.OpStack

/-!
Model of the operators of the finite element spaces of the library put together: the simple spaces of `Verif.Model.Spaces`, placed
in the common memory of the evaluation, under the vectors, products and sums of `Verif.Model.CtOp` (compile-time spaces) and
`Verif.Model.OpStack` (run-time spaces).  The geometry read by the operators (`XYL`, `PSI`, `XYP`, `DET`) is a constant `m`, see
`OpStack.leaf`.
-/
namespace Verif.SpaceOp

open Verif.Spaces Verif.Order

variable {K : Type}

/-- A function working on an array, called with the array at the address `u` of the memory. (poly_1.h:25 and the like: the argument
`U`, poly_2.h:74 `mem.extraR`) -/
def inArray (u : Nat) (g : (Nat → K) → Nat → K) (mem : Nat → K) : Nat → K := fun p =>
  if u ≤ p then g (fun t => mem (u + t)) (p - u) else mem p

/-- `Operator<OP, FemFix<..>>` for a fixed number of points and tetrahedrons: `Dim`, `Nfa`, `Usz` and `extraR` of `memoryRequirements`,
and what `apply` does with `U` at the address `u` and `extraR` at the address `ex`. (spaces/poly_1.h:12-41 and the like) -/
structure Simple (K : Type) where
  dim : Nat
  nfa : Nat
  usz : Nat
  exr : Nat
  run : Nat → Nat → Nat → (Nat → K) → (Nat → K)

/-- An operator without `extraR`; `Usz` is `Dim * q * Nfa * f` everywhere: poly_0.h:18, 42, 69, poly_1.h:19, 51, 98, poly_2.h:19,
poly_3.h:19, bubble_2.h:19, bubble_4.h:18, crouzeix_raviart_1.h:20, 53, raviant_thomas_0.h:19, 62, 124, 185, nedelec_0.h:20, 69, 91, 156. -/
def direct (q f dim nfa : Nat) (g : (Nat → K) → Nat → K) : Simple K where
  dim := dim
  nfa := nfa
  usz := dim * q * nfa * f
  exr := 0
  run u _ _ mem := inArray u g mem

/-- GRAD of a scalar space by a table of gradients in `extraR`: poly_2.h:58-100 (`extraR`: 60), poly_3.h:64-118 (66), bubble_2.h:55-92
(57), bubble_4.h:47-85 (49). -/
def byTable [Field K] (m : Mem K) (nfa : Nat) (table : (Nat → K) → Nat → K) : Simple K where
  dim := 3
  nfa := nfa
  usz := m.q * nfa * m.f * 3
  exr := 3 * nfa * m.q
  run u ex _ mem :=
    let mem := inArray ex table mem
    inArray u (pullback m nfa fun k => mem (ex + k)) mem

section
variable [Field K] [LinearOrder K] (sqrt : K → K) (m : Mem K)

/-- The operators of the simple spaces written out in spaces/*.h (the partial derivatives of the others: `ctLeaf`). (poly_0.h:12-83,
poly_1.h:12-134, poly_2.h:12-101, poly_3.h:12-119, bubble_2.h:12-93, bubble_4.h:12-86, crouzeix_raviart_1.h:13-86,
raviant_thomas_0.h:12-198, nedelec_0.h:13-182) -/
def simple : OpT → Space → Option (Simple K)
  | .iden, .p0 => some (direct m.q m.f 1 1 (p0Iden m))
  | .iden, .p1 => some (direct m.q m.f 1 4 (p1Iden m))
  | .iden, .p2 => some (direct m.q m.f 1 10 (p2Iden m))
  | .iden, .p3 => some (direct m.q m.f 1 20 (p3Iden m))
  | .iden, .b2 => some (direct m.q m.f 1 6 (b2Iden m))
  | .iden, .b4 => some (direct m.q m.f 1 1 (b4Iden m))
  | .iden, .cr1 => some (direct m.q m.f 1 4 (cr1Iden m))
  | .iden, .rt0 => some (direct m.q m.f 3 4 (rt0Iden sqrt m))
  | .iden, .nd0 => some (direct m.q m.f 3 6 (nd0Iden sqrt m))
  | .grad, .p0 => some (direct m.q m.f 3 1 (p0Grad m))
  | .grad, .p1 => some (direct m.q m.f 3 4 (p1Grad m))
  | .grad, .p2 => some (byTable m 10 (p2Table m))
  | .grad, .p3 => some (byTable m 20 (p3Table m))
  | .grad, .b2 => some (byTable m 6 (b2Table m))
  | .grad, .b4 => some (byTable m 1 (b4Table m))
  | .grad, .cr1 => some (direct m.q m.f 3 4 (cr1Grad m))
  | .grad, .rt0 => some (direct m.q m.f 9 4 (rt0Grad sqrt m))
  | .grad, .nd0 => some (direct m.q m.f 9 6 (nd0Grad sqrt m))
  | .dudx c, .p0 => some (direct m.q m.f 1 1 (p0Dudx c m))
  | .dudx c, .p1 => some (direct m.q m.f 1 4 (p1Dudx c m))
  | .div, .rt0 => some (direct m.q m.f 1 4 (rt0Div sqrt m))
  | .div, .nd0 => some (direct m.q m.f 1 6 (nd0Div m))
  | .curl, .rt0 => some (direct m.q m.f 3 4 (rt0Curl m))
  | .curl, .nd0 => some (direct m.q m.f 3 6 (nd0Curl sqrt 0 m))
  | _, _ => none

/-- The operator of a simple compile-time type; DUDX, DUDY, DUDZ of the spaces which do not define them are taken from the gradient
(operators.h:286-318). -/
def ctLeaf (op : OpT) (s : Space) : Option (CtOp.Op K) :=
  match simple sqrt m op s with
  | some a => some (CtOp.fix m.q a.dim a.nfa a.usz a.exr a.run)
  | none =>
    match op with
    | .dudx c => (simple sqrt m .grad s).map fun a => CtOp.dudx m.q m.f c (CtOp.fix m.q a.dim a.nfa a.usz a.exr a.run)
    | _ => none

mutual
/-- `Operator<OP, F>` of a compile-time type: `FemVec` (operators.h:127-155), `FemVecT` (157-187), `FemCom` (189-259), `FemUnionT`
(261-284), DIV and CURL of `FemVec<3, ..>` of a scalar space (320-416).  An operator that is not defined is `none`.  `FemVecT<n,
FemFix<..>>` is written as `FemVec`, see `ctOrder`. -/
def ctOp (op : OpT) : Fem → Option (CtOp.Op K)
  | .leaf s => ctLeaf sqrt m op s
  | .vec n (.leaf s) =>
    match op with
    | .div => if n = 3 ∧ leafDim s = 1 then (ctLeaf sqrt m .grad s).map (CtOp.div m.q m.f) else none
    | .curl => if n = 3 ∧ leafDim s = 1 then (ctLeaf sqrt m .grad s).map (CtOp.curl m.q m.f) else none
    | op => (ctLeaf sqrt m op s).map (CtOp.vec n)
  | .vec n (.vec k b) => if op = .div ∨ op = .curl then none else (ctOp op (.vec k b)).map (CtOp.vecT n)
  | .vec n (.com l) => if op = .div ∨ op = .curl then none else (ctOp op (.com l)).map (CtOp.vecT n)
  | .vec n (.union l) => if op = .div ∨ op = .curl then none else (ctOp op (.union l)).map (CtOp.vecT n)
  | .com l => if op = .div ∨ op = .curl then none else (ctOps op l).map CtOp.com
  | .union l => (ctOps op l).map (CtOp.union m.q m.f)
/-- The operators of the types of a pack (operators.h:191-192, 264). -/
def ctOps (op : OpT) : Fems → Option (List (CtOp.Op K))
  | .nil => some []
  | .cons h t => do
    let a ← ctOp op h
    let b ← ctOps op t
    some (a :: b)
end

end

end Verif.SpaceOp
