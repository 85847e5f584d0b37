import Verif.Spec.Reorder
import Verif.Model.Ordering

/-!
Model of the reordering of stored mesh functions after a change of the node enumeration,
`/repo/anifem++/inmost_interface/ordering.inl:354-402` (`reorder_mesh_function_data`), with `getDOFLocusOnElement` (199-219),
and of the gathering of a stored value on a cell (`getDOFLocus`, `takeElementDOF`, 172-193, 220-226).

The d.o.f. map is given by the numbers of copies of the symmetry groups on the unoriented and on the oriented kind of an
element.  An array of a tag is a function on positions with a size.
-/
namespace Verif.Reorder
open Verif.Symmetry Verif.Ordering

/-- ordering.inl:371 `std::numeric_limits<long>::max()` for a 64-bit `long` -/
def mlng : Int := 2 ^ 63 - 1

/-- ordering.inl:372-374: the numbers of the nodes of an element padded by the largest number -/
def padded {N : Type} (g : N → Int) (nodes : List N) : Fin 4 → Int := fun i => (nodes[i.val]?).elim mlng g

/-- ordering.inl:377-379: the old numbers of the nodes written to the places given by the new order `p` -/
def oldByNew {N : Type} (old : N → Int) (nodes : List N) (p : List Nat) : Fin 4 → Int := fun r =>
  (List.range nodes.length).foldl (fun v i => if p.getD i 4 = r.val then (nodes[i]?).elim v old else v) mlng

/-- ordering.inl:372-380: `canonical_node_indexes` -/
def canonical {N : Type} (old new : N → Int) (nodes : List N) : Option (List Nat) :=
  (createOrder (padded new nodes)).bind fun p => createOrder (oldByNew old nodes p)

/-- ordering.inl:206-211: `gni` of `getDOFLocusOnElement` (with `local_node_index` = 0 1 2 3): the numbers behind the nodes
of the element are replaced by numbers above the largest one -/
def fillUp (d : Nat) (canon : List Nat) : List Nat :=
  let mx := (canon.take (d + 1)).foldl max 0
  (List.range 4).map fun k => if k ≤ d then canon.getD k 4 else mx + (k - d)

/-- the kind of elements of dimension `d` (tetdofmap.h:43 `GeomTypeDim`, used at ordering.inl:203) -/
def kindOf : Nat → Kind
  | 0 => .node | 1 => .edge | 2 => .face | _ => .cell

/-- ordering.inl:199-219 `getDOFLocusOnElement` without the shift of the oriented values: the sign (`true` is `1`) and the
position of the value number `leid`; cells and nodes have no oriented kind -/
def locusOn (d : Nat) (oriented : Bool) (ms : List Nat) (canon : List Nat) (leid : Nat) : Option (Bool × Nat) :=
  let gni := fillUp d canon
  let sign := if oriented then isPositive (kindOf d) 0 gni else true
  (reorder d 0 ms gni leid).map fun j => (sign, j)

/-- number of values of a kind, `dmap.NumDof` (tetdofmap.h:601; used at ordering.inl:202, 386 and for `inum_dofs` at 365) -/
def numDof (d : Nat) (ms : List Nat) : Nat := ((List.range (groups d)).map fun s => volume d s * ms.getD s 0).sum

/-- ordering.inl:381-389: the entry `i` of `reord` on an element of dimension `d`; `mu`, `mo` are the copies of the groups of
the unoriented and the oriented kind.  (All entries below the number of values are written in the loop over the sparsity.) -/
def reordAt (d : Nat) (mu mo : List Nat) (canon : List Nat) (i : Nat) : Option (Bool × Nat) :=
  if i < numDof d mu then locusOn d false mu canon i
  else (locusOn d true mo canon (i - numDof d mu)).map fun r => (r.1, numDof d mu + r.2)

/-- ordering.inl:390-400: new contents of the array of a tag; `bs` is `block_sz`, `sh` the shift of the element data.  The
call of `std::for_each` with `std::negate` (397) has no effect: its results are dropped. -/
def moveData {K : Type} (d : Nat) (mu mo : List Nat) (canon : List Nat) (bs sh : Nat) (data : Nat → K) : Option (Nat → K) :=
  let n := numDof d mu + numDof d mo
  if (List.range n).all fun i => (reordAt d mu mo canon i).isSome then
    some fun q =>
      if sh ≤ q ∧ q < sh + bs * n then
        ((reordAt d mu mo canon ((q - sh) / bs)).elim (data q) fun r => data (sh + bs * r.2 + (q - sh) % bs))
      else data q
  else none

/-- ordering.inl:358-361: a kind with a group other than S1 (`SymComponents & ~1`) -/
def nontrivial (ms : List Nat) : Bool := ms.tail.any (· ≠ 0)

/-- an element with the array of a tag (ordering.inl:369-370, 390-391) -/
structure Item (N K : Type) where
  nodes : List N
  size : Nat
  data : Nat → K

/-- ordering.inl:369-400, one element and one tag.  `mu`, `mo` give the copies of the groups per dimension, `sh` is
`elem_data_shift`. -/
def reorderItem {N K : Type} (old new : N → Int) (mu mo : Nat → List Nat) (bs : Nat) (sh : Nat → Nat) (compressed : Bool)
    (e : Item N K) : Option (Item N K) :=
  let d := e.nodes.length - 1
  if nontrivial (mu d) || nontrivial (mo d) then
    (canonical old new e.nodes).bind fun canon =>
      if compressed = true ∧ e.size < sh d + 2 * bs then some e
      else (moveData d (mu d) (mo d) canon bs (sh d) e.data).map fun f => { e with data := f }
  else some e

/-- ordering.inl:354-402 `reorder_mesh_function_data`: every element having data of the tag -/
def reorderMesh {N K : Type} (old new : N → Int) (mu mo : Nat → List Nat) (bs : Nat) (sh : Nat → Nat) (compressed : Bool)
    (es : List (Item N K)) : Option (List (Item N K)) :=
  es.mapM (reorderItem old new mu mo bs sh compressed)

/-- ordering.inl:172-193, 220-226 `takeElementDOF` for an unoriented value of the element number `e` of dimension `d` of a
cell with the nodes `cell`: the stored value at the position given by `getDOFLocus` -/
def takeDof {N K : Type} (g : N → Int) (cell : Fin 4 → N) (d e : Nat) (ms : List Nat) (data : Nat → K) (leid : Nat) : Option K :=
  (createOrder fun k => g (cell k)).bind fun p => (locusIndex d e ms p leid).map data

end Verif.Reorder
