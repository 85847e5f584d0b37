import Verif.Spec.DofMap
import Verif.Spec.Sparsity

/-!
Specification vocabulary for iterations over selected d.o.f.s.
-/
namespace Verif.GeomIter
open Verif.DofMap

/-- dimension of the elements of a kind -/
def dimension : Nat → Nat
  | 0 => 0 | 1 => 1 | 2 => 1 | 3 => 2 | 4 => 2 | _ => 3

/-- The states met by a loop `for (x = start; x != end; x = next(x))` in at most `n` steps. -/
def visits {α : Type} (next : α → Option α) : Nat → Option α → List α
  | 0, _ => []
  | _, none => []
  | n + 1, some x => x :: visits next n (next x)

/-- The loop given by `start`, `next` terminates after meeting exactly the states of the list `L`, in this order. -/
def Meets {α : Type} (start : Option α) (next : α → Option α) (L : List α) : Prop :=
  ∀ n, L.length ≤ n → visits next n start = L

/-- `L` lists exactly the d.o.f.s (number and place) of the space with `n` d.o.f.s whose element is selected, each
one once. -/
structure Lists (n : Nat) (locate : Nat → Loc) (selected : Nat → Nat → Bool) (L : List (Nat × Loc)) : Prop where
  sound : ∀ x ∈ L, x.1 < n ∧ x.2 = locate x.1 ∧ selected (dimension x.2.num) x.2.nelem = true
  complete : ∀ g, g < n → selected (dimension (locate g).num) (locate g).nelem = true → (g, locate g) ∈ L
  once : L.Nodup

/-- in the order of the local numbers -/
def Increasing (L : List (Nat × Loc)) : Prop := L.Pairwise fun x y => x.1 < y.1

end Verif.GeomIter
