import Verif.Spec.Enumerator
import Verif.Model.DofMap

/-!
Model of `/repo/anifem++/inmost_interface/global_enumerator.{h,cpp}`: addresses of d.o.f.s on an element, number ranges of
the processes and `SimpleEnumerator`.

The handles of the mesh database are replaced by (dimension, global id).  `none` stands for undefined behaviour: an access
out of range, a division by zero.  Machine integers are natural numbers.
-/
namespace Verif.Enumerator
open Verif.DofMap

/-- tetdofmap.h:628 (`VectorDofMap::NumDof`), the count of a variable per kind -/
def Var.numDof (v : Var) (k : Nat) : Nat := if v.vec then v.dim * v.base k else v.base k

/-- tetdofmap.cpp:626-630, `ComplexDofMap::NumDofs` -/
def numDofs (vars : List Var) (k : Nat) : Nat := pre (vars.map (·.numDof k)) vars.length

/-- global_enumerator.h:66-80 `NaturalIndexExt` -/
structure Ext where
  addr : Addr
  tshift : Nat
  tvshift : Nat
  vshift : Nat
  dshift : Nat
deriving DecidableEq, Repr

/-- global_enumerator.h:76 `GetElemDofId` -/
def Ext.elemDofId (e : Ext) : Nat := e.tshift + e.vshift + e.dshift + e.addr.dof

/-- global_enumerator.h:78 `GetSingleVarDofId` -/
def Ext.singleDofId (e : Ext) : Nat := e.tvshift + e.dshift + e.addr.dof

/-- global_enumerator.cpp:229 (and 280): the kind belonging to an INMOST element number -/
def elemNum (d : Nat) : Nat := d + (if d > 1 then 1 else 0) + (if d > 2 then 1 else 0)

/-- tetdofmap.cpp:794-801 `ComplexDofMap::ComponentID(ElemOrder)`: variable and number inside the variable -/
def componentID (vars : List Var) (k gid : Nat) : Nat × Nat :=
  let vid := ubIdx (vars.map (·.numDof k)) gid
  (vid, gid - pre (vars.map (·.numDof k)) vid)

/-- global_enumerator.cpp:247-257 and 294-305: split a number inside a variable into component and number; returns also `dof_shift` -/
def splitComp (v : Var) (k g : Nat) : Option (Nat × Nat × Nat) :=
  if v.vec then
    let nd := v.numDof k / v.dim
    if v.dim = 0 ∨ nd = 0 then none else some (g / nd, g % nd, nd * (g / nd))
  else some (0, g, 0)

/-- global_enumerator.cpp:227-259 `getFullIndex(elem, elem_dof_id)`, element of dimension `d` -/
def split (vars : List Var) (d k : Nat) : Option Ext :=
  let n0 := elemNum d
  let low := (d = 1 ∨ d = 2) ∧ numDofs vars n0 < k
  let tshift := if low then numDofs vars n0 else 0
  let n := if low then n0 + 1 else n0
  let c := componentID vars n (k - tshift)
  match vars[c.1]? with
  | none => none
  | some v =>
    let tvshift := if tshift > 0 then v.numDof (n - 1) else 0
    (splitComp v n c.2).map fun s =>
      ⟨⟨n, c.1, s.1, s.2.1⟩, tshift, tvshift, pre (vars.map (·.numDof n)) c.1, s.2.2⟩

/-- global_enumerator.cpp:261-276 `getFullIndex(NaturalIndex)` -/
def fullIndex (vars : List Var) (a : Addr) : Option Ext :=
  match vars[a.var]? with
  | none => none
  | some v =>
    let orient := a.num = 2 ∨ a.num = 4
    let tshift := if orient then numDofs vars (a.num - 1) else 0
    let tvshift := if orient then v.numDof (a.num - 1) else 0
    let r := fun ds => some (⟨a, tshift, tvshift, pre (vars.map (·.numDof a.num)) a.var, ds⟩ : Ext)
    if a.comp > 0 then
      if v.vec = false ∨ v.dim = 0 then none else r (v.numDof a.num / v.dim * a.comp)
    else r 0

/-- global_enumerator.cpp:278-307 `getFullIndex(elem, var_id, vledi)` -/
def splitVar (vars : List Var) (d i k : Nat) : Option Ext :=
  match vars[i]? with
  | none => none
  | some v =>
    let n0 := elemNum d
    let low := (d = 1 ∨ d = 2) ∧ v.numDof n0 < k
    let tvshift := if low then v.numDof n0 else 0
    let k := if low then k - v.numDof n0 else k
    let tshift := if low then numDofs vars n0 else 0
    let n := if low then n0 + 1 else n0
    (splitComp v n k).map fun s =>
      ⟨⟨n, i, s.1, s.2.1⟩, tshift, tvshift, pre (vars.map (·.numDof n)) i, s.2.2⟩

/-- ordering.h:21-24 `DofTNumDofsToInmostNumDofs` (global_enumerator.h:297): the number of d.o.f.s on an element of dimension `d` -/
def inmostNumDof (nd : Nat → Nat) : Nat → Nat
  | 0 => nd 0 | 1 => nd 1 + nd 2 | 2 => nd 3 + nd 4 | _ => nd 5

/-- global_enumerator.cpp:568-575: element dimensions carrying d.o.f.s -/
def usedDim (nd : Nat → Nat) (d : Nat) : Bool := (List.range 6).any fun i => decide (nd i > 0) && decide (dimOf i = d)

/-- `LONG_MAX` of a 64-bit `long` (global_enumerator.h:279-282) -/
def longMax : Nat := 2 ^ 63 - 1

/-- the fields of `IGlobEnumeration` (global_enumerator.h:276-284) computed by `setupIGlobEnumeration` -/
structure Setup where
  numDof : Nat → Nat
  numElem : Nat → Nat
  begElem : Nat → Nat
  matrSize : Nat
  begInd : Nat
  endInd : Nat

/-- global_enumerator.cpp:562-605 `setupIGlobEnumeration`: `own d` lists the global ids of the owned elements of dimension `d` in the order
of the mesh iteration, `total d` is `TotalNumberOf`.  `EndElemID` is only used in assertions and left out. -/
def setup (nd : Nat → Nat) (own : Nat → List Nat) (total : Nat → Nat) : Setup :=
  let tot := fun d => if usedDim nd d then total d else 0
  let beg0 := fun d => if usedDim nd d then (own d).foldl (fun b g => if g < b then g else b) longMax else longMax
  let num := fun d => if usedDim nd d then (own d).foldl (fun n _ => n + 1) 0 else 0
  let beg := fun d => if usedDim nd d = true ∧ beg0 d = longMax then tot d else beg0 d
  let sum := fun (f : Nat → Nat) => (List.range 6).foldl (fun s i => if nd i > 0 then s + f (dimOf i) * nd i else s) 0
  { numDof := nd, numElem := num, begElem := beg, matrSize := sum tot, begInd := sum beg,
    endInd := (List.range 6).foldl (fun s i => if nd i > 0 then s + num (dimOf i) * nd i else s) (sum beg) }

/-- global_enumerator.cpp:671-678 `SimpleEnumerator::setup`: `InitElemIndex` -/
def Setup.init (s : Setup) : Nat → Nat
  | 0 => s.begInd
  | d + 1 => s.init d + inmostNumDof s.numDof d * s.numElem d

/-- `SimpleEnumerator::Type` (global_enumerator.h:362-365 `ASSEMBLING_TYPE`) -/
inductive Kind where
  | anitype
  | miniblocks
deriving DecidableEq, Repr

/-- global_enumerator.cpp:826-831: the number of d.o.f. `iodf` of the owned element `gid` of dimension `d` -/
def Setup.number (s : Setup) (t : Kind) (d gid iodf : Nat) : Nat :=
  match t with
  | .anitype => s.init d + (gid - s.begElem d) + iodf * s.numElem d
  | .miniblocks => s.init d + (gid - s.begElem d) * inmostNumDof s.numDof d + iodf * s.numElem d

/-- global_enumerator.cpp:821-834 `SimpleEnumerator::operator()(NaturalIndex)`; `owned` is `GetStatus() != Ghost`, the result `-1`
(`UnValid`) is `none`, undefined behaviour cannot occur for valid addresses and is `none` as well -/
def Setup.index (s : Setup) (vars : List Var) (t : Kind) (owned : Bool) (gid : Nat) (a : Addr) : Option Nat :=
  if owned then (fullIndex vars a).map fun e => s.number t (dimOf a.num) gid e.elemDofId else none

/-- global_enumerator.cpp:837-842: the element dimension of a number -/
def Setup.findDim (s : Setup) (id : Nat) : Nat :=
  (if s.init 1 ≤ id then if s.init 2 ≤ id then if s.init 3 ≤ id then 4 else 3 else 2 else 1) - 1

/-- global_enumerator.cpp:835-859: dimension, global id and d.o.f. of a number; the array `glob_to_loc`, which is indexed by the global id
minus `BegElemID`, is inverted by adding `BegElemID` (global_enumerator.cpp:517-527).  `none`: division by zero. -/
def Setup.locate (s : Setup) (t : Kind) (id : Nat) : Option (Nat × Nat × Nat) :=
  let d := s.findDim id
  match t with
  | .anitype =>
    if s.numElem d = 0 then none
    else some (d, s.begElem d + (id - s.init d) % s.numElem d, (id - s.init d) / s.numElem d)
  | .miniblocks =>
    if inmostNumDof s.numDof d = 0 then none
    else some (d, s.begElem d + (id - s.init d) / inmostNumDof s.numDof d, (id - s.init d) % inmostNumDof s.numDof d)

/-- global_enumerator.cpp:835-864 `SimpleEnumerator::operator()(EnumerateIndex)` -/
def Setup.inverse (s : Setup) (vars : List Var) (t : Kind) (id : Nat) : Option (Nat × Addr) :=
  match s.locate t id with
  | none => none
  | some (d, gid, k) => (split vars d k).map fun e => (gid, e.addr)

end Verif.Enumerator
