import Verif.Spec.ThreadMem

/-!
Model of `DynMemParallel` (`/repo/anifem++/fem/fem_memory_parallel.h:14-89`).  Every method holds the mutex, so a concurrent
execution is a sequence of whole operations.  `get` (line 83) reads without the mutex and is not modelled.  Slot numbers
(`Int` in the code) are natural numbers; the contents of the slots (`DynMem`) are not modelled.
-/
namespace Verif.ThreadMem

/-- `m_mem.size()` and `m_unused`; the head of the list is the back of the vector (fem_memory_parallel.h:15-36) -/
structure Pool where
  n : Nat
  unused : List Nat
deriving DecidableEq, Repr

/-- a new pool (fem_memory_parallel.h:15) -/
def Pool.init : Pool := ⟨0, []⟩

/-- `alloc`, lines 22-32: the slot and the pool afterwards -/
def Pool.alloc (p : Pool) : Nat × Pool :=
  match p.unused with
  | [] => (p.n, ⟨p.n + 1, []⟩)
  | id :: rest => (id, ⟨p.n, rest⟩)

/-- `release`, lines 34-37 -/
def Pool.release (p : Pool) (id : Nat) : Pool := ⟨p.n, id :: p.unused⟩

/-- `alloc_range`, lines 43-57: the first slot and the pool afterwards -/
def Pool.allocRange (p : Pool) (k : Nat) : Nat × Pool :=
  let reuse := decide (p.unused.length = p.n)
  let st := if reuse then 0 else p.n
  (st, ⟨st + k, if reuse then [] else p.unused⟩)

/-- `release_range`, lines 62-69: `m_unused[beg + i] = second - i - 1` -/
def Pool.releaseRange (p : Pool) (a b : Nat) : Pool :=
  ⟨p.n, (List.range (b - a)).foldl (fun l i => (b - i - 1) :: l) p.unused⟩

/-- `release_all`, lines 71-77: `m_unused[i] = sz - 1 - i` -/
def Pool.releaseAll (p : Pool) : Pool := ⟨p.n, (List.range p.n).foldl (fun l i => (p.n - 1 - i) :: l) []⟩

/-- `clear`, lines 78-82 -/
def Pool.clear (_ : Pool) : Pool := ⟨0, []⟩

/-- one request: the slots given to the caller and the pool afterwards (fem_memory_parallel.h:22-60) -/
def Pool.step (p : Pool) : Op → List Nat × Pool
  | .alloc => ([p.alloc.1], p.alloc.2)
  | .release id => ([], p.release id)
  | .allocRange k => (List.range' (p.allocRange k).1 k, (p.allocRange k).2)
  | .releaseRange a b => ([], p.releaseRange a b)
  | .releaseAll => ([], p.releaseAll)
  | .clear => ([], p.clear)

end Verif.ThreadMem
