import Mathlib.Data.List.Lex
import Verif.Spec.Enumerator

/-! The order of the d.o.f.s by an arrangement of variable (0), component (1), kind (2), element (3), number (4). -/
namespace Verif.Enumerator

/-- The values of a d.o.f. on the element `e`. -/
def coord (e : Nat) (a : Addr) : Nat → Nat
  | 0 => a.var | 1 => a.comp | 2 => a.num | 3 => e | _ => a.dof

/-- What is compared, by the element numbers `e`. -/
def sortKey (order : List Nat) (e : Nat) (a : Addr) : List Nat := order.map (coord e a)

/-- The kind is compared before the element. -/
def KindFirst (order : List Nat) : Prop := ∀ l1 l2, order = l1 ++ 3 :: l2 → 2 ∈ l1

end Verif.Enumerator
