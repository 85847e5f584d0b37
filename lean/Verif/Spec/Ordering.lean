/-!
Specification vocabulary for the local numbering of a tetrahedron and for orientations of its edges and faces.
-/
namespace Verif.Ordering

/-- the prescribed local nodes of edge `k`: 01 02 03 12 13 23 -/
def edgePair : Nat → Nat × Nat
  | 0 => (0, 1) | 1 => (0, 2) | 2 => (0, 3) | 3 => (1, 2) | 4 => (1, 3) | _ => (2, 3)

/-- the node which face `k` does not contain: face 0 is spanned by 0 1 2, face 1 by 1 2 3, face 2 by 2 3 0, face 3 by 3 0 1 -/
def opposite : Nat → Nat
  | 0 => 3 | 1 => 0 | 2 => 1 | _ => 2

/-- `x` and `y` are the two entries of `p`, in some order -/
def IsPair {α : Type} (p : α × α) (x y : α) : Prop := p = (x, y) ∨ p = (y, x)

instance {α : Type} [DecidableEq α] (p : α × α) (x y : α) : Decidable (IsPair p x y) := inferInstanceAs (Decidable (_ ∨ _))

/-- number of nodes with a smaller global id -/
def idRank {T : Type} [LT T] [DecidableLT T] (g : Fin 4 → T) (i : Fin 4) : Nat :=
  ((List.finRange 4).filter fun k => decide (g k < g i)).length

/-- three global ids in increasing order up to a cyclic shift: the even arrangements -/
def Cyclic {T : Type} [LT T] (x y z : T) : Prop := (x < y ∧ y < z) ∨ (y < z ∧ z < x) ∨ (z < x ∧ x < y)

instance {T : Type} [LT T] [DecidableLT T] (x y z : T) : Decidable (Cyclic x y z) := inferInstanceAs (Decidable (_ ∨ _ ∨ _))

end Verif.Ordering
