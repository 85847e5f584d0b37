/-!
Specification vocabulary for carving typed arrays out of a raw buffer.  Addresses are natural numbers (the buffer does not
wrap around the address space).
-/
namespace Verif.RawMemory

/-- a kind of array elements: `alignof` and `sizeof` -/
structure Kind where
  align : Nat
  size : Nat
deriving DecidableEq, Repr

/-- an array: address and number of bytes -/
structure Block where
  addr : Nat
  bytes : Nat
deriving DecidableEq, Repr

/-- the block lies in the buffer of `sz` bytes at address `mem` -/
def Inside (mem sz : Nat) (b : Block) : Prop := mem ≤ b.addr ∧ b.addr + b.bytes ≤ mem + sz

/-- no common byte -/
def Apart (a b : Block) : Prop := a.addr + a.bytes ≤ b.addr ∨ b.addr + b.bytes ≤ a.addr

/-- the address suits elements of the kind -/
def Aligned (k : Kind) (addr : Nat) : Prop := k.align ∣ addr

end Verif.RawMemory
