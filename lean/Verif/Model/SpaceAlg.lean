import Verif.Model.Order
import Verif.Model.DofMap

/-!
Model of the algebra of run-time spaces: comparison, sum, product, power, the functions joining lists of spaces, the d.o.f. map a
composed space builds for itself, and the sub-spaces taken out of it.

Shared pointers are values.  The code first compares the pointers: equal pointers are the same space, and the comparison of a space
with itself gives `true` (`eqS_equivalence`), so this shortcut is left out.  Empty pointers (an empty `FemSpace`) are not modelled.
-/
namespace Verif.SpaceAlg

open Verif.Order

/-- `familyType()` of the simple spaces: the enumeration common.h:21-27 and the template arguments poly_0.h:126, poly_1.h:170,
poly_2.h:160, poly_3.h:197, bubble_2.h:137, bubble_4.h:127, crouzeix_raviart_1.h:131, raviant_thomas_0.h:249, nedelec_0.h:245. -/
def family : Space → Nat
  | .p0 => 1
  | .p1 => 1
  | .p2 => 1
  | .p3 => 1
  | .nd0 => 2
  | .rt0 => 3
  | .cr1 => 4
  | .b2 => 5
  | .b4 => 5

/-- `FemTraits::operator==` (common.h:42-48): family and `polyOrder()`, which is the order of IDEN (common.h:64). -/
def eqLeaf (a b : Space) : Bool := decide (family a = family b) && decide (idenOrder a = idenOrder b)

mutual
/-- `operator==` of the spaces: common.h:42-48 (simple spaces), fem_space.cpp:405-409 (`VectorFemSpace`: the bases only), 694-703
(`ComplexFemSpace`), 930-939 (`UnionFemSpace`); different kinds (`gatherType`) are not equal. -/
def eqS : Fem → Fem → Bool
  | .leaf a, .leaf b => eqLeaf a b
  | .vec _ a, .vec _ b => eqS a b
  | .com l, .com r => eqSs l r
  | .union l, .union r => eqSs l r
  | _, _ => false
/-- The members one by one, after the comparison of the numbers of members. (fem_space.cpp:697-702, 933-938) -/
def eqSs : Fems → Fems → Bool
  | .nil, .nil => true
  | .cons a l, .cons b r => eqS a b && eqSs l r
  | _, _ => false
end

/-- `ApplyOpFromSpace::operator==` (fem_space.h:611): the spaces and the operators. -/
def eqOp (F : Fem) (opa : OpT) (H : Fem) (opb : OpT) : Bool := eqS F H && decide (opa = opb)

/-- `std::vector::insert` at the end. (fem_space.cpp:1197, 1203, 1214, 1220) -/
def append : Fems → Fems → Fems
  | .nil, r => r
  | .cons h t, r => .cons h (append t r)

/-- What `operator*` puts into the list for one argument: the members of a product, else the space. (fem_space.cpp:1210-1215) -/
def factors : Fem → Fems
  | .com l => l
  | F => .cons F .nil

/-- What `operator+` puts into the list for one argument: the members of a sum, else the space. (fem_space.cpp:1193-1198) -/
def terms : Fem → Fems
  | .union l => l
  | F => .cons F .nil

/-- fem_space.cpp:1207-1223 `operator*`. -/
def mulS (a b : Fem) : Fem := .com (append (factors a) (factors b))

/-- The check of `UnionFemSpace::setup` (fem_space.cpp:1009-1015): all members have the dimension of the first. -/
def oneDim : Fems → Bool
  | .nil => true
  | .cons h t => go (dim h) t
where
  /-- fem_space.cpp:1010-1014: the loop over the members. -/
  go (d : Nat) : Fems → Bool
  | .nil => true
  | .cons h t => decide (dim h = d) && go d t

/-- The constructor of `UnionFemSpace` (fem_space.h:359, fem_space.cpp:1007-1018); an exception because of the dimensions is `none`.
The set-up of the interpolation is the subject of C47. -/
def mkUnion (l : Fems) : Option Fem := if oneDim l then some (.union l) else none

/-- fem_space.cpp:1190-1206 `operator+`. -/
def addS (a b : Fem) : Option Fem := mkUnion (append (terms a) (terms b))

/-- fem_space.cpp:1224-1228 `operator^`; an exception is `none`. -/
def powS (a : Fem) (k : Int) : Option Fem := if k < 0 then none else some (.vec k.toNat a)

/-- fem_space.inl:194-201 `make_complex_raw`. -/
def complexRaw (l : Fems) : Fem := .com l

/-- fem_space.inl:205-210, the loop of `make_complex_with_simplification`. -/
def joinFactors : Fems → Fems
  | .nil => .nil
  | .cons h t => append (factors h) (joinFactors t)

/-- fem_space.inl:202-212 `make_complex_with_simplification`. -/
def complexSimplified (l : Fems) : Fem := .com (joinFactors l)

/-- fem_space.inl:175-182 `make_union_raw`. -/
def unionRaw (l : Fems) : Option Fem := mkUnion l

/-- fem_space.inl:186-191, the loop of `make_union_with_simplification`. -/
def joinTerms : Fems → Fems
  | .nil => .nil
  | .cons h t => append (terms h) (joinTerms t)

/-- fem_space.inl:183-193 `make_union_with_simplification`. -/
def unionSimplified (l : Fems) : Option Fem := mkUnion (joinTerms l)

/-- `UniteDofMap(DofSymmetries)` (tetdofmap.cpp:287-294): the numbers of d.o.f. from the numbers of symmetric groups; `m` is `m_sym`. -/
def symCounts (m : List Nat) : DofMap.Counts where
  node := 1 * m.getD 0 0
  eu := 1 * m.getD 1 0 + 2 * m.getD 2 0
  eo := 1 * m.getD 3 0 + 2 * m.getD 4 0
  fu := 1 * m.getD 5 0 + 3 * m.getD 6 0 + 6 * m.getD 7 0
  fo := 1 * m.getD 8 0 + 3 * m.getD 9 0 + 6 * m.getD 10 0
  cell := 1 * m.getD 11 0 + 4 * m.getD 12 0 + 6 * m.getD 13 0 + 12 * m.getD 14 0 + 24 * m.getD 15 0

/-- `Dof<FemFix<..>>::Map()`, the arguments of `DofSymmetries` one after another (tetdofmap.h:205; poly_0.h:87, poly_1.h:137,
poly_2.h:106, poly_3.h:124, bubble_2.h:98, bubble_4.h:91, crouzeix_raviart_1.h:91, raviant_thomas_0.h:203, nedelec_0.h:187). -/
def leafSym : Space → List Nat
  | .p0 => [0, 0, 0, 0, 0, 0, 0, 0, 0, 0, 0, 1, 0, 0, 0, 0]
  | .p1 => [1, 0, 0, 0, 0, 0, 0, 0, 0, 0, 0, 0, 0, 0, 0, 0]
  | .p2 => [1, 1, 0, 0, 0, 0, 0, 0, 0, 0, 0, 0, 0, 0, 0, 0]
  | .p3 => [1, 0, 1, 0, 0, 1, 0, 0, 0, 0, 0, 0, 0, 0, 0, 0]
  | .b2 => [0, 1, 0, 0, 0, 0, 0, 0, 0, 0, 0, 0, 0, 0, 0, 0]
  | .b4 => [0, 0, 0, 0, 0, 0, 0, 0, 0, 0, 0, 1, 0, 0, 0, 0]
  | .cr1 => [0, 0, 0, 0, 0, 1, 0, 0, 0, 0, 0, 0, 0, 0, 0, 0]
  | .rt0 => [0, 0, 0, 0, 0, 0, 0, 0, 1, 0, 0, 0, 0, 0, 0, 0]
  | .nd0 => [0, 0, 0, 1, 0, 0, 0, 0, 0, 0, 0, 0, 0, 0, 0, 0]

mutual
/-- `m_order` of a space: common.h:73, fem_space.h:274 (`pow`), fem_space.cpp:893-896 and 1008-1016 (`merge`). -/
def dofMap : Fem → DofMap.Tree
  | .leaf s => .unite (symCounts (leafSym s))
  | .vec n b => DofMap.pow (dofMap b) n
  | .com l => DofMap.merge (dofMaps l)
  | .union l => DofMap.merge (dofMaps l)
/-- The maps of the members. (fem_space.cpp:893-895, 1008-1014) -/
def dofMaps : Fems → List DofMap.Tree
  | .nil => []
  | .cons h t => dofMap h :: dofMaps t
end

/-- `m_spaces.size()`. (fem_space.cpp:678, 914) -/
def size : Fems → Nat
  | .nil => 0
  | .cons _ t => size t + 1

/-- `m_spaces[i]`. (fem_space.cpp:680, 916) -/
def member : Fems → Nat → Option Fem
  | .nil, _ => none
  | .cons h _, 0 => some h
  | .cons _ t, i + 1 => member t i

/-- `subSpace(ext_dims, ndims)` for `ndims > 0`: fem_space.h:267 (simple spaces), fem_space.cpp:393-398, 677-682, 913-918.  A null pointer
is `none`. -/
def subSpace (F : Fem) (p : List Int) : Option Fem :=
  match p with
  | [] => none
  | i :: q =>
    match F with
    | .leaf _ => none
    | .vec n b => if i < n ∧ 0 ≤ i then (if q.isEmpty then some b else subSpace b q) else none
    | .com l => if i < size l ∧ 0 ≤ i then
        match member l i.toNat with
        | none => none
        | some b => if q.isEmpty then some b else subSpace b q
      else none
    | .union l => if i < size l ∧ 0 ≤ i then
        match member l i.toNat with
        | none => none
        | some b => if q.isEmpty then some b else subSpace b q
      else none

end Verif.SpaceAlg
