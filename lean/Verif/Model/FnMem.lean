import Mathlib.Data.Int.Basic

/-!
Model of the memory of the local functions during an assembling: `MatFuncWrapDynamic` (`/repo/anifem++/inmost_interface/func_wrap.h:242-272`), its
`DynMemParallel` (`/repo/anifem++/fem/fem_memory_parallel.h:14-89`) and `SystemFromMatRhsFWrap` (`/repo/anifem++/inmost_interface/assembler.{h,inl}`).
Indices are signed, as in the code; their size is not limited.  `none` as a result stands for undefined behaviour or an exception.
-/
namespace Verif.FnMem

/-- `m_dyn_mem_required`, `m_mem.size()` and `m_unused` of a function; the head of the list is the back of the vector (func_wrap.h:304-306,
fem_memory_parallel.h:86-88) -/
structure Fn where
  needs : Bool
  n : Nat
  unused : List Int
deriving DecidableEq, Repr

/-- func_wrap.h:265 `setup_and_alloc_memory_range` and fem_memory_parallel.h:43-57 `alloc_range` -/
def Fn.allocRange (f : Fn) (k : Nat) : (Int × Int) × Fn :=
  if f.needs then
    let reuse := decide (f.unused.length = f.n)
    let st := if reuse then 0 else f.n
    ((st, st + k), ⟨f.needs, st + k, if reuse then [] else f.unused⟩)
  else ((-k, 0), f)

/-- func_wrap.h:266 `release_memory_range` and fem_memory_parallel.h:62-69 `release_range`; with a negative number of threads `m_unused` is cut, or
`resize` throws since the size has wrapped around -/
def Fn.releaseRange (f : Fn) (r : Int × Int) : Option Fn :=
  if f.needs then
    if r.1 ≤ r.2 then some ⟨f.needs, f.n, (List.range (r.2 - r.1).toNat).foldl (fun l (i : Nat) => (r.2 - i - 1) :: l) f.unused⟩
    else if (r.1 - r.2).toNat ≤ f.unused.length then some ⟨f.needs, f.n, f.unused.drop (r.1 - r.2).toNat⟩
    else none
  else some f

/-- func_wrap.h:263 `setup_and_alloc_memory` and fem_memory_parallel.h:22-32 `alloc` -/
def Fn.alloc (f : Fn) : Int × Fn :=
  if f.needs then
    match f.unused with
    | [] => (f.n, ⟨f.needs, f.n + 1, []⟩)
    | i :: l => (i, ⟨f.needs, f.n, l⟩)
  else (0, f)

/-- func_wrap.h:264 `release_memory` and fem_memory_parallel.h:34-37 `release` -/
def Fn.release (f : Fn) (i : Int) : Fn := if f.needs then ⟨f.needs, f.n, i :: f.unused⟩ else f

/-- func_wrap.h:257-259 `operator()`, also 269 `defragment_memory`: the memory used for an identifier, `some none` is the null pointer; the number of
the slot is not checked in `get` (fem_memory_parallel.h:83) -/
def Fn.mem (f : Fn) (id : Int) : Option (Option Nat) :=
  if f.needs = false ∨ id < 0 then some none else if id < f.n then some (some id.toNat) else none

/-- assembler.h:178 `encode_id` -/
def encode (a b : Int) : Int := a + b * 65536

/-- assembler.h:179 `decode_id`: `& 0xFFFF` and `>> 16` -/
def decode (e : Int) : Int × Int := (e % 65536, e / 65536)

/-- `SystemFromMatRhsFWrap`: `m_mat` and `m_rhs` (assembler.h:166-173) -/
structure Sys where
  mat : Fn
  rhs : Option Fn
deriving DecidableEq, Repr

/-- assembler.inl:1021-1033 `setup_and_alloc_memory_range`; the return of a failed second allocation gives back the first one -/
def Sys.allocRange (w : Sys) (k : Nat) : Option ((Int × Int) × Sys) :=
  let a := w.mat.allocRange k
  match w.rhs with
  | none => some ((encode a.1.1 0, encode a.1.2 0), ⟨a.2, none⟩)
  | some r =>
    if 0 ≤ a.1.1 ∧ 0 ≤ a.1.2 then
      let b := r.allocRange k
      if b.1.1 < 0 ∨ b.1.2 < 0 then (a.2.releaseRange a.1).map fun m => (b.1, ⟨m, some b.2⟩)
      else some ((encode a.1.1 b.1.1, encode a.1.2 b.1.2), ⟨a.2, some b.2⟩)
    else some ((encode a.1.1 0, encode a.1.2 0), ⟨a.2, some r⟩)

/-- assembler.inl:1034-1040 `release_memory_range` -/
def Sys.releaseRange (w : Sys) (e : Int × Int) : Option Sys :=
  match w.rhs with
  | none => (w.mat.releaseRange e).map fun m => ⟨m, none⟩
  | some r =>
    (w.mat.releaseRange ((decode e.1).1, (decode e.2).1)).bind fun m =>
      (r.releaseRange ((decode e.1).2, (decode e.2).2)).map fun r => ⟨m, some r⟩

/-- assembler.inl:994-1005 `setup_and_alloc_memory` -/
def Sys.alloc (w : Sys) : Int × Sys :=
  let a := w.mat.alloc
  match w.rhs with
  | none => (encode a.1 0, ⟨a.2, none⟩)
  | some r =>
    if 0 ≤ a.1 then
      let b := r.alloc
      if b.1 < 0 then (b.1, ⟨a.2.release a.1, some b.2⟩) else (encode a.1 b.1, ⟨a.2, some b.2⟩)
    else (encode a.1 0, ⟨a.2, some r⟩)

/-- assembler.inl:1006-1013 `release_memory` -/
def Sys.release (w : Sys) (e : Int) : Sys :=
  match w.rhs with
  | none => ⟨w.mat.release e, none⟩
  | some r => ⟨w.mat.release (decode e).1, some (r.release (decode e).2)⟩

/-- assembler.inl:971-981: both functions are called with the identifier as it is, in an assembling the number of the thread (assembler.inl:368) -/
def Sys.matMem (w : Sys) (id : Int) : Option (Option Nat) := w.mat.mem id

/-- assembler.inl:977 -/
def Sys.rhsMem (w : Sys) (id : Int) : Option (Option Nat) := w.rhs.elim (some none) fun r => r.mem id

/-- assembler.inl:1014-1019 `defragment_memory`: the memory of the two functions which is defragmented -/
def Sys.defragmented (w : Sys) (id : Int) : Option (Option Nat) × Option (Option Nat) :=
  match w.rhs with
  | none => (w.mat.mem id, some none)
  | some r => (w.mat.mem (decode id).1, r.mem (decode id).2)

/-- assembler.inl:341, 485: the memory around the loop over the cells of one assembling with `k` threads -/
def Sys.assembling (w : Sys) (k : Nat) : Option Sys := (w.allocRange k).bind fun a => a.2.releaseRange a.1

/-- several assemblings with the given numbers of threads (assembler.inl:341, 485) -/
def Sys.assemblings (w : Sys) : List Nat → Option Sys
  | [] => some w
  | k :: ks => (w.assembling k).bind fun w => w.assemblings ks

end Verif.FnMem
