import Verif.Model.Enumerator

/-!
Model of `IGlobEnumeration::createGlobalToLocalIDMap` (`/repo/anifem++/inmost_interface/global_enumerator.cpp:456-560`): the arrays stored in tags of the
mesh which give the local numbers of the elements of a process from their global ids.
-/
namespace Verif.GidMap

/-- an element as the loops at global_enumerator.cpp:505-527 see it: `GetElementDimension()`, `GlobalID()`, `LocalID()`, `GetStatus() == Ghost` -/
structure Elem where
  dim : Nat
  gid : Nat
  lid : Nat
  ghost : Bool
deriving DecidableEq, Repr

/-- the two arrays of one dimension, `GidToLidMap` and `ContToLidMap`; `none`: there is no such tag (global_enumerator.cpp:462-478) -/
structure Tags where
  glob : Option (List Nat)
  cont : Option (List Nat)
deriving DecidableEq, Repr

/-- global_enumerator.cpp:504-511: `BegElemID` and `EndElemID` of one dimension; the latter starts with `-1`, here with 0, which is the same, as ids are
not negative -/
def bounds (es : List Elem) (d : Nat) : Nat × Nat :=
  es.foldl (fun be e => if e.ghost = false ∧ e.dim = d then
    (if e.gid < be.1 then e.gid else be.1, if be.2 ≤ e.gid then e.gid + 1 else be.2) else be) (Enumerator.longMax, 0)

/-- global_enumerator.cpp:512-514: both are the number of all elements if the process has none; `total` is `TotalNumberOf` -/
def range (es : List Elem) (d total : Nat) : Nat × Nat :=
  if (bounds es d).1 = Enumerator.longMax then (total, total) else bounds es d

/-- `resize` of an array of a tag (global_enumerator.cpp:518, 530): the old values stay, new ones are zero -/
def resize (a : List Nat) (n : Nat) : List Nat := a.take n ++ List.replicate (n - a.length) 0

/-- global_enumerator.cpp:516-524: the array `GidToLidMap` of dimension `d`, `old` are its values before -/
def fillGlob (es : List Elem) (d total : Nat) (old : List Nat) : List Nat :=
  let r := range es d total
  es.foldl (fun a e => if e.ghost = false ∧ e.dim = d then a.set (e.gid - r.1) e.lid else a) (resize old (r.2 - r.1))

/-- global_enumerator.cpp:536-541: the loop after the first element; `cid` is `cont_id`, `prev` is `prev_val`, `vals` the array read backwards -/
def runs : Nat → Nat → List Nat → List Nat → Nat × List Nat
  | _, prev, vals, [] => (prev, vals)
  | cid, prev, vals, l :: ls =>
    if prev + 1 = l then runs (cid + 1) (prev + 1) vals ls else runs (cid + 1) l (l :: (cid + 1) :: vals) ls

/-- global_enumerator.cpp:529-546: the array `ContToLidMap`; `lids` are the local numbers of the elements of the loop, ghosts included -/
def fillCont : List Nat → List Nat
  | [] => []
  | l :: ls =>
    match runs 0 l [l, 0] ls with
    | (prev, last :: cid :: vals) => ((last + (prev - last + 1)) :: (prev - last + 1 + cid) :: last :: cid :: vals).reverse
    | (_, vals) => vals.reverse

/-- global_enumerator.cpp:456-560 `createGlobalToLocalIDMap`; `et` says which dimensions are asked for, `es` are the elements of the mesh in the order of
`BeginElement`, `old` the tags of the mesh.  The result are the tags afterwards.  The assigning of global ids at 496-502 is left out: the ids of `es` are
those afterwards.  Note that the loop at 531 is over all the elements of `et`, not over those of the dimension `d`. -/
def create (et : Nat → Bool) (forced : Bool) (es : List Elem) (total : Nat → Nat) (old : Nat → Tags) : Nat → Tags :=
  let sel := es.filter fun e => et e.dim
  let fresh := forced || (List.range 4).any fun d => et d && ((old d).glob.isNone || (old d).cont.isNone)
  if fresh then fun d =>
    if et d then ⟨some (fillGlob sel d (total d) ((old d).glob.getD [])), some (fillCont (sel.map Elem.lid))⟩ else old d
  else old

/-- global_enumerator.cpp:790-792, 861 `ElementByLocalID(et, glob_to_loc[d][i])`: the element behind the place `i` of the array; `none`: no array, outside
of it, or no such element -/
def elementAt (es : List Elem) (t : Nat → Tags) (d i : Nat) : Option Elem :=
  (t d).glob.bind fun a => a[i]?.bind fun l => es.find? fun e => decide (e.dim = d ∧ e.lid = l)

/-- global_enumerator.cpp:843-861: the element and the d.o.f. of a number in `SimpleEnumerator::operator()(EnumerateIndex)` -/
def elementOf (s : Enumerator.Setup) (t : Enumerator.Kind) (es : List Elem) (tags : Nat → Tags) (id : Nat) : Option (Elem × Nat) :=
  let d := s.findDim id
  match t with
  | .anitype =>
    if s.numElem d = 0 then none
    else (elementAt es tags d ((id - s.init d) % s.numElem d)).map fun e => (e, (id - s.init d) / s.numElem d)
  | .miniblocks =>
    if Enumerator.inmostNumDof s.numDof d = 0 then none
    else (elementAt es tags d ((id - s.init d) / Enumerator.inmostNumDof s.numDof d)).map fun e =>
      (e, (id - s.init d) % Enumerator.inmostNumDof s.numDof d)

end Verif.GidMap
