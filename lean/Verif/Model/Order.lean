/-!
Model of the polynomial orders declared by the finite element spaces: the constants `Order` of the compile-time operators and the
functions `order`, `orderDIV`, ... of the run-time spaces.

Both kinds of composed spaces are described by one tree.  A compile-time operator that is not defined (the program does not
compile) is `none`.
-/
namespace Verif.Order

/-- The simple spaces (spaces/poly_0.h:62, poly_1.h:12, poly_2.h:12, poly_3.h:12, bubble_2.h:12, bubble_4.h:11,
crouzeix_raviart_1.h:13, raviant_thomas_0.h:12, nedelec_0.h:13). -/
inductive Space
  | p0 | p1 | p2 | p3 | b2 | b4 | cr1 | rt0 | nd0
  deriving DecidableEq

/-- `OperatorType` without the operators undefined everywhere; DUDX, DUDY, DUDZ are `dudx 0`, `dudx 1`, `dudx 2`.
(fem_space.cpp:65-79) -/
inductive OpT
  | iden | grad | div | curl | dudx (c : Nat)
  deriving DecidableEq

mutual
/-- A composed space: a simple space, a vector of a space (`FemVec`, `FemVecT`, `VectorFemSpace`), a product (`FemCom`,
`ComplexFemSpace`), a sum (`FemUnionT`, `UnionFemSpace`). (operators.h:61-66, 112-125, fem_space.h:271, 307, 355) -/
inductive Fem
  | leaf (s : Space)
  | vec (n : Nat) (b : Fem)
  | com (l : Fems)
  | union (l : Fems)
/-- A list of spaces: template parameter pack (operators.h:120-125) or `std::vector` (fem_space.h:308). -/
inductive Fems
  | nil
  | cons (h : Fem) (t : Fems)
end

/-- `Operator<IDEN, FemFix<..>>::Dim` (poly_1.h:14 and the like; three for raviant_thomas_0.h:14 and nedelec_0.h:15). -/
def leafDim : Space → Nat
  | .rt0 => 3
  | .nd0 => 3
  | _ => 1

/-- `Operator<IDEN, FemFix<..>>::Order` (poly_0.h:65, poly_1.h:15, poly_2.h:15, poly_3.h:15, bubble_2.h:15, bubble_4.h:14,
crouzeix_raviart_1.h:16, raviant_thomas_0.h:15, nedelec_0.h:16). -/
def idenOrder : Space → Nat
  | .p0 => 0
  | .p1 => 1
  | .p2 => 2
  | .p3 => 3
  | .b2 => 2
  | .b4 => 4
  | .cr1 => 1
  | .rt0 => 1
  | .nd0 => 1

/-- `Operator<GRAD, FemFix<..>>::Order` (poly_0.h:14, poly_1.h:94, poly_2.h:55, poly_3.h:61, bubble_2.h:52, bubble_4.h:44,
crouzeix_raviart_1.h:49, raviant_thomas_0.h:58, nedelec_0.h:152). -/
def gradOrder : Space → Nat
  | .p0 => 0
  | .p1 => 0
  | .p2 => 1
  | .p3 => 2
  | .b2 => 1
  | .b4 => 3
  | .cr1 => 0
  | .rt0 => 0
  | .nd0 => 0

/-- The order declared by the operator of a simple space: DUDX takes the order of GRAD (operators.h:286-291), P0 and P1 have
their own (poly_0.h:37, poly_1.h:46); DIV and CURL exist for RT0 (raviant_thomas_0.h:120, 181) and ND0 (nedelec_0.h:65, 87). -/
def fixOrder : OpT → Space → Option Nat
  | .iden, s => some (idenOrder s)
  | .grad, s => some (gradOrder s)
  | .dudx _, .p0 => some 0
  | .dudx _, .p1 => some 0
  | .dudx _, s => some (gradOrder s)
  | .div, .rt0 => some 0
  | .div, .nd0 => some 0
  | .curl, .rt0 => some 0
  | .curl, .nd0 => some 0
  | .div, _ => none
  | .curl, _ => none

/-- The number of components of an operator on a space of `d` components: `Dim` of the compile-time operators
(operators.h:290, 324, 359), `dimOP` (fem_space.cpp:50-63). -/
def opDim (op : OpT) (d : Nat) : Nat :=
  match op with
  | .iden => d
  | .grad => 3 * d
  | .div => d / 3
  | .curl => d
  | .dudx _ => d

mutual
/-- The number of components of the space: `m_base->dim() * m_dim` (fem_space.h:283), the sum (fem_space.cpp:901), the dimension of
the first (fem_space.h:366); operators.h:131, 161, 236; operators.inl:44-48. -/
def dim : Fem → Nat
  | .leaf s => leafDim s
  | .vec n b => n * dim b
  | .com l => dimSum l
  | .union l => dimFirst l
/-- The sum of the dimensions (operators.inl:44-48, fem_space.cpp:900-901). -/
def dimSum : Fems → Nat
  | .nil => 0
  | .cons h t => dim h + dimSum t
/-- The dimension of the first (fem_space.h:366). -/
def dimFirst : Fems → Nat
  | .nil => 0
  | .cons h _ => dim h
end

/-- operators.inl:44-48 `DimCounter<0, OP, Types...>`. -/
def dimCounter (op : OpT) : Fems → Nat
  | .nil => 0
  | .cons h t => opDim op (dim h) + dimCounter op t

mutual
/-- `Operator<OP, F>::Order` of the compile-time spaces: of the base for vectors (operators.h:132, 162), of the gradient for DIV and
CURL of `FemVec<3, ..>` of a scalar space (operators.h:325, 360), `OrderCounter` for `FemCom` (operators.h:237,
operators.inl:50-54: the maximum of the order of the first type and the *dimension counter* of the others), `UnionOrderCounter` for
`FemUnionT` (operators.h:269).  `FemVecT<n, FemFix<..>>` is written as `FemVec`. -/
def ctOrder (op : OpT) : Fem → Option Nat
  | .leaf s => fixOrder op s
  | .vec n (.leaf s) =>
    if op = .div ∨ op = .curl then (if n = 3 ∧ leafDim s = 1 then fixOrder .grad s else none) else fixOrder op s
  | .vec _ b => if op = .div ∨ op = .curl then none else ctOrder op b
  | .com .nil => some 0
  | .com (.cons h t) => if op = .div ∨ op = .curl then none else (ctOrder op h).map fun o => max o (dimCounter op t)
  | .union l => ctUnion op l
/-- operators.inl:70-75 `UnionOrderCounter`. -/
def ctUnion (op : OpT) : Fems → Option Nat
  | .nil => some 0
  | .cons h t => do
    let a ← ctOrder op h
    let b ← ctUnion op t
    some (max a b)
end

/-- fem_space.inl:66-70 `orderDiff` (the value meaning "not a polynomial" does not occur in the spaces modelled). -/
def orderDiff (ord : Nat) : Nat := if ord > 0 then ord - 1 else 0

mutual
/-- `order()` of the run-time spaces: common.h:75, fem_space.h:284, fem_space.cpp:902 and fem_space.h:319, fem_space.h:367 with
fem_space.inl:168-173. -/
def rtIden : Fem → Nat
  | .leaf s => idenOrder s
  | .vec _ b => rtIden b
  | .com l => rtIdenMax l
  | .union l => rtIdenMax l
/-- fem_space.cpp:900-902, fem_space.inl:168-173: the maximum from zero. -/
def rtIdenMax : Fems → Nat
  | .nil => 0
  | .cons h t => max (rtIden h) (rtIdenMax t)
end

mutual
/-- `orderDIV()` and `orderCURL()` of the run-time spaces: common.h:159-160 with `OrderT` equal to zero for spaces that are not of three
components (common.h:113-116), fem_space.h:297, 300, fem_space.cpp:903-904, fem_space.h:368-369.  For RT0 and ND0 the constants of
the operators are zero too, so that DIV and CURL have the same orders. -/
def rtDiv : Fem → Nat
  | .leaf s => if leafDim s = 3 then (fixOrder .div s).getD 0 else 0
  | .vec _ b => rtDiv b
  | .com l => rtDivMax l
  | .union l => rtDivMax l
/-- fem_space.cpp:903-904, fem_space.inl:168-173. -/
def rtDivMax : Fems → Nat
  | .nil => 0
  | .cons h t => max (rtDiv h) (rtDivMax t)
end

mutual
/-- `orderDUDX(k)` of the run-time spaces: fem_space.h:163 (simple spaces do not override it), 303, 370 and fem_space.cpp:905-906. -/
def rtDudx : Fem → Nat
  | .leaf s => orderDiff (idenOrder s)
  | .vec _ b => rtDudx b
  | .com l => rtDudxMax l
  | .union l => rtDudxMax l
/-- fem_space.cpp:905-906, fem_space.inl:168-173. -/
def rtDudxMax : Fems → Nat
  | .nil => 0
  | .cons h t => max (rtDudx h) (rtDudxMax t)
end

/-- fem_space.cpp:65-79 `orderOP`; `orderGRAD` is `orderDiff()` of the whole space (fem_space.h:144). -/
def rtOrder (op : OpT) (F : Fem) : Nat :=
  match op with
  | .iden => rtIden F
  | .grad => orderDiff (rtIden F)
  | .div => rtDiv F
  | .curl => rtDiv F
  | .dudx _ => rtDudx F

end Verif.Order
