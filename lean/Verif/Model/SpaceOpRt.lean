import Verif.Model.SpaceOp

/-!
Model of the operators of run-time finite element spaces: which functions of `Verif.Model.OpStack` the operator of a composed space is
made of.
-/
namespace Verif.SpaceOp

open Verif.Spaces Verif.Order

variable {K : Type} [Field K] [LinearOrder K] (sqrt : K → K) (m : Mem K)

/-- `GenSpace::applyOP` (spaces/common.h:88-111, 131-155): the compile-time operator of the simple space writes its dense matrix at `U`, the
matrix is put on the stack.  An exception (113-127) is `none`. -/
def rtLeaf (op : OpT) (s : Space) : Option (OpStack.Op K) :=
  (ctLeaf sqrt m op s).map fun A =>
    OpStack.leaf m.q A.dim A.nfa A.usz A.exr fun u ex es mem => ((A.apply u ex es mem).map Prod.fst).getD mem

/-- `ComplexFemSpace::applyOP_internal` of the members (fem_space.inl:89-115); the code reads `m_spaces[0]`, so a product has members. -/
def cplxOf : List (OpStack.Op K) → Option (OpStack.Op K)
  | [] => none
  | a :: as => some (OpStack.cplx a as)

mutual
/-- The operators of a run-time space: `GenSpace` (spaces/common.h:131-155), `VectorFemSpace` (fem_space.cpp:521-671), `ComplexFemSpace`
(829-892; `applyCURL` is that of `BaseFemSpace`, 278-316), `UnionFemSpace` (1160-1189).  An exception is `none`. -/
def rtOp : Fem → OpT → Option (OpStack.Op K)
  | .leaf s, op => rtLeaf sqrt m op s
  | .vec n b, .div =>
    if n * dim b = 3 then
      if n = 3 then (rtOp b .grad).map (OpStack.vecDiv m.q m.f) else if n = 1 then rtOp b .div else none
    else none
  | .vec n b, .curl =>
    if n * dim b = 3 then
      if n = 3 then (rtOp b .grad).map (OpStack.vecCurl m.q m.f) else if n = 1 then rtOp b .curl else none
    else none
  | .vec n b, op => (rtOp b op).map (OpStack.vec n)
  | .com l, .curl => if dimSum l = 3 then ((rtOps l .grad).bind cplxOf).map (OpStack.baseCurl m.q m.f) else none
  | .com l, .div => if dimSum l = 3 then rtDiv l else none
  | .com l, op => (rtOps l op).bind cplxOf
  | .union l, op => (rtOps l op).map (OpStack.union m.q m.f (opDim op (dimFirst l)))
/-- The operators of the members, made one after another (fem_space.cpp:829-892, 1160-1189). -/
def rtOps : Fems → OpT → Option (List (OpStack.Op K))
  | .nil, _ => some []
  | .cons h t, op => do
    let a ← rtOp h op
    let b ← rtOps t op
    some (a :: b)
/-- `ComplexFemSpace::applyDIV` of a product of three components. (fem_space.cpp:847-860, with 742-828) -/
def rtDiv : Fems → Option (OpStack.Op K)
  | .cons a .nil => rtOp a .div
  | .cons a (.cons b .nil) => do
    let x ← if dim a = 1 then rtOp a (.dudx 0) else rtOp a .grad
    let y ← if dim b = 1 then rtOp b (.dudx 2) else rtOp b .grad
    some (OpStack.div12 m.q m.f (decide (dim a = 1), x) (decide (dim b = 1), y))
  | .cons a (.cons b (.cons c .nil)) => do
    let x ← rtOp a (.dudx 0)
    let y ← rtOp b (.dudx 1)
    let z ← rtOp c (.dudx 2)
    some (OpStack.div111 m.q m.f x y z)
  | _ => none
end

end Verif.SpaceOp
