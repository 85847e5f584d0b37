import Verif.Spec.Spaces

/-!
Vocabulary of the property about traces on a face (C49).
-/
namespace Verif.Trace

open Verif.Geometry Verif.Spaces

variable {K : Type}

/-- The number of the node opposite to the face `s` (the face `s` has the nodes `s`, `s + 1`, `s + 2` modulo four). -/
def opp (s : Nat) : Nat := (s + 3) % 4

/-- The point `x` of the tetrahedron `T` lies in the plane of its face `s`. -/
def OnFace [CommRing K] (T : Nat → Nat → K) (s : Nat) (x : Nat → K) : Prop :=
  ∃ l : Nat → K, IsBary (T 0) (T 1) (T 2) (T 3) x l ∧ l (opp s) = 0

/-- The face `s` of `T` is the face `s'` of `T'`: the nodes `π` of `T'` are the nodes of the face, in any order. -/
def Shares (T : Nat → Nat → K) (s : Nat) (T' : Nat → Nat → K) (s' : Nat) (π : Nat → Nat) : Prop :=
  ∀ a, a < 4 → a ≠ opp s → π a < 4 ∧ π a ≠ opp s' ∧ (∀ k, k < 3 → T a k = T' (π a) k) ∧
    ∀ b, b < 4 → b ≠ opp s → π a = π b → a = b

/-- The degree of freedom computed by `dof` is the value of the function at the point `y`. -/
def Located (dof : ((Nat → K) → Nat → K) → Nat → K) (y : Nat → K) : Prop := ∀ f r, dof f r = f y r

/-- Same point. -/
def SamePt (y y' : Nat → K) : Prop := ∀ k, k < 3 → y k = y' k

/-- `n` is the outer unit normal of the face `s` of `T`. -/
def OuterNormal [CommRing K] [LT K] (T : Nat → Nat → K) (s : Nat) (n : Nat → K) : Prop :=
  dot n n = 1 ∧ dot n (diff (T ((s + 1) % 4)) (T (s % 4))) = 0 ∧ dot n (diff (T ((s + 2) % 4)) (T (s % 4))) = 0 ∧
    dot n (diff (T (opp s)) (T (s % 4))) < 0

/-- The vector `t` is parallel to the face `s` of `T`: a combination of its nodes with the total weight zero. -/
def Parallel [CommRing K] (T : Nat → Nat → K) (s : Nat) (t : Nat → K) : Prop :=
  ∃ τ : Nat → K, τ 0 + τ 1 + τ 2 + τ 3 = 0 ∧ τ (opp s) = 0 ∧
    ∀ k, k < 3 → τ 0 * T 0 k + τ 1 * T 1 k + τ 2 * T 2 k + τ 3 * T 3 k = t k

/-- The two ends of the edge `e`, in the direction in which the tangential degree of freedom counts (fem's edges
`(0,1), (0,2), (0,3), (1,2), (1,3), (2,3)`). -/
def ends (e : Nat) : Nat × Nat := [(0, 1), (0, 2), (0, 3), (1, 2), (1, 3), (2, 3)].getD e (0, 1)

/-- The edge `i` of `T` and the edge `j` of `T'` are the same segment in the same direction. -/
def SameEdge (T : Nat → Nat → K) (i : Nat) (T' : Nat → Nat → K) (j : Nat) : Prop :=
  SamePt (T (ends i).1) (T' (ends j).1) ∧ SamePt (T (ends i).2) (T' (ends j).2)

/-- The edge `i` of `T` and the edge `j` of `T'` are the same segment in opposite directions. -/
def OppEdge (T : Nat → Nat → K) (i : Nat) (T' : Nat → Nat → K) (j : Nat) : Prop :=
  SamePt (T (ends i).1) (T' (ends j).2) ∧ SamePt (T (ends i).2) (T' (ends j).1)

end Verif.Trace
