/-! Requests to the pool of thread memory slots. -/
namespace Verif.ThreadMem

/-- requests of the threads; a range is `[a, b)` -/
inductive Op where
  | alloc
  | release (id : Nat)
  | allocRange (k : Nat)
  | releaseRange (a b : Nat)
  | releaseAll
  | clear
deriving DecidableEq, Repr

/-- the slots held after a request which returned the slots `got` -/
def heldAfter (held got : List Nat) : Op → List Nat
  | .alloc => got ++ held
  | .release id => held.erase id
  | .allocRange _ => got ++ held
  | .releaseRange a b => held.filter fun x => !(decide (a ≤ x ∧ x < b))
  | .releaseAll => []
  | .clear => []

/-- only held slots are released -/
def Legal (held : List Nat) : Op → Prop
  | .release id => id ∈ held
  | .releaseRange a b => a ≤ b ∧ ∀ x, a ≤ x → x < b → x ∈ held
  | _ => True

end Verif.ThreadMem
