/-! What is expected from the memory of the local functions during an assembling. -/
namespace Verif.FnMem

/-- slots `0, .., n - 1` exist, `free` of them are free and none is in use: the free list holds every slot exactly once -/
def Idle (n : Nat) (free : List Int) : Prop := free.Perm ((List.range n).map fun i : Nat => (i : Int))

/-- `k` threads have memory of their own: `slot t` is the memory thread `t` works with (`none` is undefined behaviour, `some none` no memory) -/
structure Own (k n : Nat) (free : List Int) (slot : Nat → Option (Option Nat)) : Prop where
  given : ∀ t, t < k → ∃ s, slot t = some (some s) ∧ s < n ∧ (s : Int) ∉ free
  apart : ∀ t u, t < k → u < k → t ≠ u → slot t ≠ slot u

end Verif.FnMem
