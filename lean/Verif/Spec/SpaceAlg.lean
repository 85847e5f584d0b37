import Verif.Spec.SpaceOp
import Verif.Spec.DofMap
import Verif.Model.SpaceAlg

/-!
Vocabulary of C61 and C62: spaces with the same basis functions, spaces that differ in the exponents of powers only, the components and
numbers a sub-space takes in the whole.
-/
namespace Verif.SpaceAlg

open Verif.Order Verif.SpaceOp

/-- The spaces have the same number of components and the same basis functions in the same order, on every tetrahedron. -/
def SameFns (F H : Fem) : Prop := dim F = dim H ∧ nfa F = nfa H ∧ ∀ T i,
  (∀ φ, Nth T F i φ → ∃ χ, Nth T H i χ ∧ ∀ x k, k < dim F → φ x k = χ x k) ∧
  ∀ χ, Nth T H i χ → ∃ φ, Nth T F i φ ∧ ∀ x k, k < dim F → φ x k = χ x k

/-- A list of `n` equal spaces. -/
def copies : Nat → Fem → Fems
  | 0, _ => .nil
  | n + 1, b => .cons b (copies n b)

/-- The number of components of the first `i` spaces of a list. -/
def dimBefore : Fems → Nat → Nat
  | .cons h t, i + 1 => dim h + dimBefore t i
  | _, _ => 0

/-- The number of basis functions of the first `i` spaces of a list. -/
def nfaBefore : Fems → Nat → Nat
  | .cons h t, i + 1 => nfa h + nfaBefore t i
  | _, _ => 0

/-- The component at which the sub-space at a path starts: copies of a power and members of a product take the components one after
another, every member of a sum takes all components. -/
def startOf (F : Fem) (p : List Int) : Nat :=
  match p with
  | [] => 0
  | i :: q =>
    match F with
    | .leaf _ => 0
    | .vec _ b => dim b * i.toNat + startOf b q
    | .com l => dimBefore l i.toNat + ((member l i.toNat).map fun b => startOf b q).getD 0
    | .union l => ((member l i.toNat).map fun b => startOf b q).getD 0

mutual
/-- The spaces are made in the same way of the same simple spaces; nothing is said of the exponents of powers. -/
inductive Alike : Fem → Fem → Prop
  | leaf (s : Space) : Alike (.leaf s) (.leaf s)
  | vec (n m : Nat) {a b : Fem} : Alike a b → Alike (.vec n a) (.vec m b)
  | com {l r : Fems} : AllAlike l r → Alike (.com l) (.com r)
  | union {l r : Fems} : AllAlike l r → Alike (.union l) (.union r)
/-- The members are. -/
inductive AllAlike : Fems → Fems → Prop
  | nil : AllAlike .nil .nil
  | cons {a b : Fem} {l r : Fems} : Alike a b → AllAlike l r → AllAlike (.cons a l) (.cons b r)
end

mutual
/-- The exponents of the powers a space is made with, from left to right. -/
def exponents : Fem → List Nat
  | .leaf _ => []
  | .vec n b => n :: exponents b
  | .com l => exponentsAll l
  | .union l => exponentsAll l
/-- Of the members. -/
def exponentsAll : Fems → List Nat
  | .nil => []
  | .cons h t => exponents h ++ exponentsAll t
end

/-- The basis function `i` of `S` is the function `sh + i` of `F`, in the components `off, off + 1, ...`; the other components are
zero. -/
def PartOf (F : Fem) (sh off : Nat) (S : Fem) : Prop :=
  sh + nfa S ≤ nfa F ∧ off + dim S ≤ dim F ∧ ∀ T i ψ, i < nfa S → Nth T S i ψ → ∃ φ, Nth T F (sh + i) φ ∧
    ∀ x k, k < dim F → φ x k = if off ≤ k ∧ k < off + dim S then ψ x (k - off) else 0

/-- The number of different points got from barycentric coordinates of the given pattern by renumbering the nodes: equal entries stand for
equal coordinates. -/
def orbit (pattern : List Nat) : Nat := pattern.permutations'.dedup.length

end Verif.SpaceAlg
