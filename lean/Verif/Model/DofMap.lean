import Verif.Spec.DofMap

/-!
Model of the local d.o.f. maps (`/repo/anifem++/fem/tetdofmap.h`, `tetdofmap.cpp`, `tetdofmap.inl`).

Simplifications: `uint` arithmetic is over `Nat` (no wrap-around; the one place where the code relies on wrap-around,
`isValidOutputIndex`, is modelled modulo `2^32`); a primitive `etype` bit `2^num` is represented by `num`
(tetdofmap.h:42-60); the optional symmetry indices `stype`/`lsid` carried by `LocalOrder` are not part of this model.
The virtual interface `BaseDofMap` is a record of functions (`Obj`); shared pointers are values.
-/
set_option linter.unusedVariables false

namespace Verif.DofMap

/-- The virtual interface `BaseDofMap`, tetdofmap.h:272-348 (the part used for numbering). -/
structure Obj where
  /-- `NumDof(etype)`, tetdofmap.h:287 -/
  numDof : Nat → Nat
  /-- `NumDofOnTet(etype)` for a primitive `etype`, tetdofmap.h:289 -/
  numTetE : Nat → Nat
  /-- `NumDofOnTet()`, tetdofmap.h:291 -/
  numTet : Nat
  /-- `LocalOrderOnTet(TetOrder)`, tetdofmap.h:300 -/
  locate : Nat → Loc
  /-- `TetDofID(LocGeomOrder)`, tetdofmap.h:305 -/
  tetId : Loc → Nat

/-- `BaseDofMap::isValidIndex(TetOrder)`, tetdofmap.h:313 -/
def Obj.validGid (o : Obj) (g : Nat) : Bool := decide (g < o.numTet)

/-- `BaseDofMap::isValidIndex(LocGeomOrder)`, tetdofmap.h:314 -/
def Obj.validLoc (o : Obj) (l : Loc) : Bool :=
  decide (l.num < 6) && decide (l.nelem < elems l.num) && decide (l.leid < o.numDof l.num)

/-- Prefix sums as stored in `m_shiftDof`, `m_shiftTetDof` (tetdofmap.cpp:295-307), `m_spaceNumDof`, `m_spaceNumDofsTet`
(tetdofmap.cpp:589-625): entry `k` is the sum of the first `k` sizes. -/
def pre (ns : List Nat) (k : Nat) : Nat := (ns.take k).sum

/-- `std::upper_bound(arr, arr + n + 1, x) - arr - 1` on the array of prefix sums (tetdofmap.cpp:330, 342, 638, 646, 652, 665). -/
def ubIdx (ns : List Nat) (x : Nat) : Nat :=
  ((List.range (ns.length + 1)).findIdx fun k => decide (x < pre ns k)) - 1

/-- The six d.o.f. counts of a primitive space (`std::array<uint, NGEOM_TYPES> NumDofs`, tetdofmap.cpp:302). -/
structure Counts where
  node : Nat
  eu : Nat
  eo : Nat
  fu : Nat
  fo : Nat
  cell : Nat
deriving DecidableEq, Repr

/-- Array access `NumDofs[i]`. (tetdofmap.cpp:302) -/
def Counts.get (c : Counts) : Nat → Nat
  | 0 => c.node | 1 => c.eu | 2 => c.eo | 3 => c.fu | 4 => c.fo | 5 => c.cell | _ => 0

/-- Block sizes per kind on a tetrahedron, tetdofmap.cpp:305. -/
def Counts.tetSizes (c : Counts) : List Nat := (List.range 6).map fun k => elems k * c.get k

/-- `UniteDofMap`, tetdofmap.h:592-618, tetdofmap.cpp:287-361. -/
def uniteObj (c : Counts) : Obj where
  numDof := c.get
  numTetE := fun k => elems k * c.get k
  numTet := pre c.tetSizes 6
  locate := fun g =>
    let num := ubIdx c.tetSizes g
    ⟨num, (g - pre c.tetSizes num) / c.get num, (g - pre c.tetSizes num) % c.get num⟩
  tetId := fun l => pre c.tetSizes l.num + l.nelem * c.get l.num + l.leid

/-- `VectorDofMap(dim, base)`, tetdofmap.h:621-650, tetdofmap.cpp:421-453 (`m_dim` non-negative).  `TetDofID` divides by
`base->NumDofOnTet(etype)`, tetdofmap.cpp:443, 449. -/
def vectorObj (d : Nat) (b : Obj) : Obj where
  numDof := fun k => d * b.numDof k
  numTetE := fun k => d * b.numTetE k
  numTet := d * b.numTet
  locate := fun g =>
    let lo := b.locate (g % b.numTet)
    { lo with leid := lo.leid + (g / b.numTet) * b.numDof lo.num }
  tetId := fun l =>
    (l.leid / b.numTetE l.num) * b.numTet + b.tetId { l with leid := l.leid % b.numTetE l.num }

/-- The `i`-th factor; the empty map stands for an out-of-range access, which never happens for valid indices
(`complex_locate`). (tetdofmap.h:671-704 `m_spaces[i]`) -/
def factor (l : List Obj) (i : Nat) : Obj :=
  match l[i]? with
  | some o => o
  | none => ⟨fun _ => 0, fun _ => 0, 0, fun _ => ⟨6, 0, 0⟩, fun _ => 0⟩

/-- `ComplexDofMap(spaces)`, tetdofmap.h:671-704, tetdofmap.cpp:589-669. -/
def complexObj (l : List Obj) : Obj where
  numDof := fun k => pre (l.map fun o => o.numDof k) l.length
  numTetE := fun k => pre (l.map fun o => o.numTetE k) l.length
  numTet := sumTo 6 fun k => pre (l.map fun o => o.numTetE k) l.length
  locate := fun g =>
    let vid := ubIdx (l.map (·.numTet)) g
    let lo := (factor l vid).locate (g - pre (l.map (·.numTet)) vid)
    { lo with leid := lo.leid + pre (l.map fun o => o.numDof lo.num) vid }
  tetId := fun x =>
    let vid := ubIdx (l.map fun o => o.numDof x.num) x.leid
    pre (l.map (·.numTet)) vid +
      (factor l vid).tetId { x with leid := x.leid - pre (l.map fun o => o.numDof x.num) vid }

/-- Maps built from primitive maps by powers and products (`UniteDofMap`, `VectorDofMap`, `ComplexDofMap`); nested
views stored as factors are not modelled. (tetdofmap.h:592, 621, 671) -/
inductive Tree where
  | unite (c : Counts)
  | vector (d : Nat) (b : Tree)
  | complex (l : List Tree)
deriving Repr

mutual
/-- The object behind the virtual interface. (tetdofmap.h:272) -/
def Tree.obj : Tree → Obj
  | .unite c => uniteObj c
  | .vector d b => vectorObj d b.obj
  | .complex l => complexObj (Tree.objs l)
/-- The objects of the factors. (tetdofmap.h:671) -/
def Tree.objs : List Tree → List Obj
  | [] => []
  | t :: r => t.obj :: Tree.objs r
end

mutual
/-- `operator==` of the maps: tetdofmap.cpp:415-419 (`UniteDofMap`), 556-561 (`VectorDofMap`), 803-812 (`ComplexDofMap`; the
comparison of `m_spaceNumDof` there follows from the comparison of the factors). -/
def Tree.beq : Tree → Tree → Bool
  | .unite a, .unite b => decide (a = b)
  | .vector d a, .vector e b => decide (d = e) && Tree.beq a b
  | .complex l, .complex r => Tree.beqs l r
  | _, _ => false
/-- comparison of the factor lists (tetdofmap.h:671) -/
def Tree.beqs : List Tree → List Tree → Bool
  | [], [] => true
  | a :: l, b :: r => Tree.beq a b && Tree.beqs l r
  | _, _ => false
end

/-- `makeCompressed`, tetdofmap.cpp:566-586: the loop with the run length counter `j`; `prev` is `spaces[i-1]`. -/
def compressLoop (prev : Tree) (j : Nat) : List Tree → List Tree
  | [] => [if j = 0 then prev else .vector (j + 1) prev]
  | s :: r =>
    if Tree.beq s prev then compressLoop s (j + 1) r
    else (if j = 0 then prev else .vector (j + 1) prev) :: compressLoop s 0 r

/-- `ComplexDofMap::makeCompressed`, tetdofmap.cpp:563-588. -/
def makeCompressed (l : List Tree) : Tree :=
  match l with
  | [] => .complex []
  | [a] => .complex [a]
  | a :: r => .complex (compressLoop a 0 r)

/-- `pow`, tetdofmap.cpp:892-894. -/
def pow (t : Tree) (k : Nat) : Tree := .vector k t

/-- `operator^`, tetdofmap.cpp:896-903. -/
def hat (t : Tree) (k : Nat) : Tree :=
  match t with
  | .vector d b => .vector (d * k) b
  | t => .vector k t

/-- `merge`, tetdofmap.cpp:905-911. -/
def merge (l : List Tree) : Tree := .complex l

/-- The factors of a product, or the map itself as the only factor (the two branches
`if (tpsp.ActualType() == ComplexType) … else …` of `operator*`, tetdofmap.cpp:831-836, 850-859, 865-875). -/
def factorsOf : Tree → List Tree
  | .complex l => l
  | t => [t]

/-- `DofMap::operator*`, tetdofmap.cpp:814-890.  `none` is undefined behaviour (`back()`/`front()` of an empty factor list). -/
def mul (a b : Tree) : Option Tree :=
  match a, b with
  | .complex la, .complex lb =>
    if Tree.beq (.complex la) (.complex lb) then some (.vector 2 (.complex la))
    else
      match h1 : la.getLast?, h2 : lb.head? with
      | some x, some y => (mul x y).map fun t => .complex (la.dropLast ++ factorsOf t ++ lb.tail)
      | _, _ => some (.complex (la ++ lb))
  | .complex la, b =>
    match h1 : la.getLast? with
    | some x => (mul x b).map fun t => .complex (la.dropLast ++ factorsOf t)
    | none => none
  | a, .complex lb =>
    match h2 : lb.head? with
    | some y => (mul a y).map fun t => .complex (factorsOf t ++ lb.tail)
    | none => none
  | .vector d x, .vector e y =>
    if Tree.beq (.vector d x) (.vector e y) then some (.vector (d + e) x)
    else some (.complex [.vector d x, .vector e y])
  | .unite x, .unite y =>
    if Tree.beq (.unite x) (.unite y) then some (.vector 2 (.unite x))
    else some (.complex [.unite x, .unite y])
  | .vector d x, .unite y =>
    if Tree.beq x (.unite y) then some (.vector (d + 1) x)
    else some (.complex [.vector d x, .unite y])
  | .unite x, .vector e y =>
    if Tree.beq y (.unite x) then some (.vector (e + 1) y)
    else some (.complex [.unite x, .vector e y])
termination_by sizeOf a + sizeOf b
decreasing_by
  all_goals simp_wf
  all_goals first
    | (have := List.sizeOf_lt_of_mem (List.mem_of_getLast? h1)
       have := List.sizeOf_lt_of_mem (List.mem_of_head? h2)
       omega)
    | (have := List.sizeOf_lt_of_mem (List.mem_of_getLast? h1); omega)
    | (have := List.sizeOf_lt_of_mem (List.mem_of_head? h2); omega)

/-- `merge_with_simplifications`, tetdofmap.cpp:913-919 (the empty list gives an empty wrapper, here `none`). -/
def mergeSimplified (l : List Tree) : Option Tree :=
  match l with
  | [] => none
  | a :: r => r.foldl (fun acc t => acc.bind fun x => mul x t) (some a)

/-- A nested view: `NestedDofMapBase`, tetdofmap.h:415-453: shifts and the stored component. -/
structure View where
  shiftNum : Nat → Nat
  shiftTet : Nat
  base : Tree

/-- `GetNestedComponent(ext_dims, ndims, view)`: tetdofmap.cpp:454-466 (`VectorDofMap`), 678-689 (`ComplexDofMap`), tetdofmap.h:613
(`UniteDofMap`: cleared).  `none` is the cleared view.  The accumulated shifts of `view` are arguments. -/
def nested (t : Tree) (p : List Int) (sn : Nat → Nat) (st : Nat) : Option View :=
  match p with
  | [] => none
  | i :: p' =>
    match t with
    | .unite _ => none
    | .vector d b =>
      if i < 0 ∨ (d : Int) ≤ i then none
      else
        let sn' := fun k => sn k + i.toNat * b.obj.numDof k
        let st' := st + i.toNat * b.obj.numTet
        if p'.isEmpty then some ⟨sn', st', b⟩ else nested b p' sn' st'
    | .complex l =>
      if i < 0 ∨ (l.length : Int) ≤ i then none
      else
        let sn' := fun k => sn k + pre ((Tree.objs l).map fun o => o.numDof k) i.toNat
        let st' := st + pre ((Tree.objs l).map (·.numTet)) i.toNat
        match l[i.toNat]? with
        | none => none
        | some b => if p'.isEmpty then some ⟨sn', st', b⟩ else nested b p' sn' st'

/-- `NestedDofMapBase::LocalOrderOnTet(TetOrder)`, tetdofmap.cpp:999-1004: number in the enclosing space and place there. -/
def View.locate (v : View) (i : Nat) : Nat × Loc :=
  (i + v.shiftTet, (v.base.obj.locate i).shift v.shiftNum)

/-- `NestedDofMapBase::TetDofID(LocGeomOrder)`, tetdofmap.h:441. -/
def View.tetId (v : View) (l : Loc) : Nat := v.base.obj.tetId l + v.shiftTet

/-- `NestedDofMapBase::isValidOutputIndex(TetOrder)`, tetdofmap.h:433, with 32-bit wrap-around of `dof_id.gid - m_shiftOnTet`. -/
def View.validOut (v : View) (g : Nat) : Bool := decide ((g + 2 ^ 32 - v.shiftTet) % 2 ^ 32 < v.base.obj.numTet)

/-- `NestedDofMapBase::isValidOutputIndex(LocGeomOrder)`, tetdofmap.h:435, with 32-bit wrap-around of the subtraction from `leid`. -/
def View.validOutLoc (v : View) (l : Loc) : Bool :=
  v.base.obj.validLoc { l with leid := (l.leid + 2 ^ 32 - v.shiftNum l.num) % 2 ^ 32 }

end Verif.DofMap
