import Verif.Spec.DynMem

/-!
Model of `DynMem` (`/repo/anifem++/fem/fem_memory.h:405-520`).  The three vectors of a chunk are indexed by `Fin 3` (scalars,
integers, matrices).  `std::size_t` counters are natural numbers.
-/
namespace Verif.DynMem

/-- `DynMem::Chunk`, fem_memory.h:408-414: vector sizes, busy counters, number of parts; `gen` counts the replacements of the
buffers by `resize` (any growth is taken to move the buffer). -/
structure Chunk where
  cap : Fin 3 → Nat
  busy : Fin 3 → Nat
  gen : Fin 3 → Nat
  nparts : Nat

/-- a default constructed chunk (fem_memory.h:407-413) -/
def Chunk.new : Chunk := ⟨fun _ => 0, fun _ => 0, fun _ => 0, 0⟩

/-- the memory and the live parts, newest first (the parts are held by the users, `MemPart`, fem_memory.h:415-451) -/
structure State where
  chunks : List Chunk
  live : List Part

/-- a new `DynMem` (fem_memory.h:405) -/
def State.init : State := ⟨[], []⟩

/-- the test of the search for a chunk, fem_memory.h:460-462 -/
def Chunk.fits (c : Chunk) (req : Fin 3 → Nat) : Bool :=
  decide (∀ k, c.busy k = 0 ∨ c.cap k ≥ c.busy k + req k)

/-- the chunk used for a request: the first which fits, or a new one behind the last, fem_memory.h:457-473 -/
def State.pick (s : State) (req : Fin 3 → Nat) : Nat := s.chunks.findIdx (·.fits req)

/-- fem_memory.h:475-486 and 488: the chunk after serving the request -/
def Chunk.serve (c : Chunk) (req : Fin 3 → Nat) : Chunk :=
  ⟨fun k => if req k > 0 ∧ c.busy k = 0 ∧ c.cap k < req k then req k else c.cap k,
   fun k => if req k > 0 then c.busy k + req k else c.busy k,
   fun k => if req k > 0 ∧ c.busy k = 0 ∧ c.cap k < req k then c.gen k + 1 else c.gen k,
   c.nparts + 1⟩

/-- `alloc`, fem_memory.h:453-491 (an array of size 0 has the null pointer in the code; here an empty range) -/
def State.alloc (s : State) (req : Fin 3 → Nat) : State :=
  let i := s.pick req
  let chunks := if i < s.chunks.length then s.chunks else s.chunks ++ [Chunk.new]
  match chunks[i]? with
  | some c =>
    let c' := c.serve req
    ⟨chunks.set i c', ⟨i, c.nparts, c.busy, req, c'.gen⟩ :: s.live⟩
  | none => s

/-- `clearChunk`, fem_memory.h:509-516 -/
def Chunk.clear (c : Chunk) (id : Nat) (size : Fin 3 → Nat) : Chunk :=
  let n := c.nparts - 1
  let busy := if n = id then fun k => c.busy k - size k else c.busy
  ⟨c.cap, if n = 0 then fun _ => 0 else busy, c.gen, n⟩

/-- release of the `i`-th live part: `MemPart::clear`/destructor, fem_memory.h:440-449 -/
def State.release (s : State) (i : Nat) : State :=
  match s.live[i]? with
  | none => s
  | some p =>
    match s.chunks[p.chunk]? with
    | some c => ⟨s.chunks.set p.chunk (c.clear p.id p.size), s.live.eraseIdx i⟩
    | none => s

/-- `defragment`, fem_memory.h:492-507: nothing for at most one chunk; the exception on a busy chunk leaves the state -/
def State.defragment (s : State) : State :=
  if s.chunks.length ≤ 1 then s
  else if s.chunks.any (fun c => c.nparts != 0) then s
  else ⟨[⟨fun k => (s.chunks.map fun c => c.cap k).sum, fun _ => 0, fun _ => 0, 0⟩], s.live⟩

/-- one request (fem_memory.h:440-520: `alloc`, `clearChunk` or `defragment`) -/
def State.step (s : State) : Op → State
  | .alloc req => s.alloc req
  | .release i => s.release i
  | .defragment => s.defragment

/-- a history of requests (fem_memory.h:440-520) -/
def State.run (s : State) (ops : List Op) : State := ops.foldl State.step s

end Verif.DynMem
