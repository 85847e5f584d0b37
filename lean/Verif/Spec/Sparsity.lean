/-!
Specification vocabulary for element sets of a tetrahedron: elements are pairs (dimension, number); each is given by its
set of vertices.
-/
namespace Verif.Sparsity

/-- number of elements of dimension `d` on a tetrahedron -/
def count : Nat → Nat
  | 0 => 4 | 1 => 6 | 2 => 4 | 3 => 1 | _ => 0

/-- vertices of the element `i` of dimension `d`: edges 01 02 03 12 13 23, faces 012 123 023 013 -/
def verts : Nat → Nat → List Nat
  | 0, i => [i]
  | 1, 0 => [0, 1] | 1, 1 => [0, 2] | 1, 2 => [0, 3] | 1, 3 => [1, 2] | 1, 4 => [1, 3] | 1, 5 => [2, 3]
  | 2, 0 => [0, 1, 2] | 2, 1 => [1, 2, 3] | 2, 2 => [0, 2, 3] | 2, 3 => [0, 1, 3]
  | 3, 0 => [0, 1, 2, 3]
  | _, _ => []

/-- an existing element -/
def Elem (d i : Nat) : Prop := d < 4 ∧ i < count d

instance (d i : Nat) : Decidable (Elem d i) := inferInstanceAs (Decidable (_ ∧ _))

/-- element `(d', j)` lies in the closed element `(d, i)` -/
def Contained (d' j d i : Nat) : Prop := ∀ v ∈ verts d' j, v ∈ verts d i

instance (d' j d i : Nat) : Decidable (Contained d' j d i) := inferInstanceAs (Decidable (∀ v ∈ _, _))

end Verif.Sparsity
