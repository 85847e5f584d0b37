import Verif.Model.Spaces

/-!
Model of `DOF_coord` (`anifem++/fem/operators.h`): the position of a degree of freedom of a tetrahedron.

`nodes` are the twelve coordinates of the nodes, `coord` the memory of the result (three numbers).  `FEM_RT0`, `FEM_ND0` and
`FEM_B4` have no specialisation: the call throws.  For products and unions (operators.h:835-893) the recursion names a type
where a call is meant and does not compile; it is not modelled.
-/
namespace Verif.DofCoord

open Verif.Dense

variable {K : Type} [Field K]

/-- `std::copy(nodes + 3 * odf, nodes + 3 * odf + 3, coord)`. (operators.h:746, 755, 774) -/
def copyNode (odf : Nat) (nodes coord : Nat → K) : Nat → K := loop 0 3 (fun i c => wr c i (nodes (3 * odf + i))) coord

/-- operators.h:732-739. -/
def p0At (nodes coord : Nat → K) : Nat → K :=
  loop 0 3 (fun k c => wr c k (c k / 4))
    (loop 0 4 (fun i c => loop 0 3 (fun k c => wr c k (c k + nodes (3 * i + k))) c) coord)

/-- operators.h:745-747. -/
def p1At (odf : Nat) (nodes coord : Nat → K) : Nat → K := copyNode odf nodes coord

/-- The nodes of the edge number `odf` (from one), operators.h:758-762, 784-788. -/
def edge1 (odf : Nat) : Nat × Nat :=
  if odf > 3 then (1 + (if odf > 5 then 1 else 0), 2 + (if odf > 4 then 1 else 0)) else (0, odf)

/-- operators.h:753-766. -/
def p2At (odf : Nat) (nodes coord : Nat → K) : Nat → K :=
  if odf < 4 then copyNode odf nodes coord
  else
    let e := edge1 (odf - 3)
    loop 0 3 (fun i c => wr c i ((nodes (3 * e.1 + i) + nodes (3 * e.2 + i)) / 2)) coord

/-- operators.h:772-792. -/
def p3At (odf : Nat) (nodes coord : Nat → K) : Nat → K :=
  if odf < 4 then copyNode odf nodes coord
  else if odf ≥ 16 then
    let o := odf - 15
    let i1 := if o = 4 then 1 else 0
    let i2 := 1 + (if o > 2 then 1 else 0)
    let i3 := 3 - (if o = 1 then 1 else 0)
    loop 0 3 (fun i c => wr c i ((nodes (3 * i1 + i) + nodes (3 * i2 + i) + nodes (3 * i3 + i)) / 3)) coord
  else
    let l := odf % 2
    let e := edge1 ((odf - 4) / 2 + 1)
    let w1 : K := (1 + (if l = 0 then 1 else 0)) / 3
    let w2 : K := (1 + (l : K)) / 3
    loop 0 3 (fun i c => wr c i (w1 * nodes (3 * e.1 + i) + w2 * nodes (3 * e.2 + i))) coord

/-- operators.h:798-801. -/
def cr1At (odf : Nat) (nodes coord : Nat → K) : Nat → K :=
  loop 0 3 (fun i c => wr c i ((nodes (i + 3 * ((odf + 1) % 4)) + nodes (i + 3 * ((odf + 2) % 4)) + nodes (i + 3 * ((odf + 3) % 4))) / 3))
    coord

/-- operators.h:807-816. -/
def b2At (odf : Nat) (nodes coord : Nat → K) : Nat → K :=
  let e := if odf > 2 then (1 + (if odf > 4 then 1 else 0), 2 + (if odf > 3 then 1 else 0)) else (0, odf + 1)
  loop 0 3 (fun i c => wr c i ((nodes (3 * e.1 + i) + nodes (3 * e.2 + i)) / 2)) coord

/-- operators.h:819-833: a vector of a space with `nfa` degrees of freedom. -/
def vecAt (nfa : Nat) (base : Nat → (Nat → K) → (Nat → K) → Nat → K) (odf : Nat) (nodes coord : Nat → K) : Nat → K :=
  base (odf % nfa) nodes coord

end Verif.DofCoord
