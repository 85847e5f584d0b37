import Verif.Spec.RawMemory

/-!
Model of `PlainMemory` and `PlainMemoryX` (`/repo/anifem++/fem/fem_memory.h:264-402`).  Pointers are natural numbers, the
null pointer is `none`; the types enter by their `alignof`, `sizeof`.  `std::size_t` arithmetic is not wrapped.
-/
namespace Verif.RawMemory

/-- `std::align(a, bytes, p, space)` (library contract): the least multiple of `a` not below `p`, if the bytes fit into
the space which remains after the padding (called in fem_memory.h:275, 281, 326, 366) -/
def stdAlign (a bytes p space : Nat) : Option Nat :=
  let q := (p + (a - 1)) / a * a
  if q - p + bytes ≤ space then some q else none

/-- `PlainMemory`, fem_memory.h:265-269 -/
structure Plain where
  ddata : Option Nat
  idata : Option Nat
  dSize : Nat
  iSize : Nat
deriving DecidableEq, Repr

/-- `PlainMemory::allocateFromRaw(mem_in, mem_sz, dsize, isize)`, fem_memory.h:271-292: the returned pointer and the object
afterwards (the assignments before a failure are kept, as in the code) -/
def Plain.alloc (D I : Kind) (m : Plain) (mem sz dsize isize : Nat) : Option Nat × Plain :=
  let fin := fun (m : Plain) (p : Nat) =>
    (some p, { m with dSize := if dsize > 0 then dsize else max m.dSize 0, iSize := if isize > 0 then isize else max m.iSize 0 })
  let second := fun (m : Plain) (p : Nat) =>
    if isize > 0 then
      match stdAlign I.align (I.size * isize) p (mem + sz - p) with
      | none => (none, { m with idata := none, ddata := if dsize > 0 then none else m.ddata })
      | some q => fin { m with idata := some q } (q + I.size * isize)
    else fin m p
  if dsize > 0 then
    match stdAlign D.align (D.size * dsize) mem (mem + sz - mem) with
    | none => (none, { m with ddata := none })
    | some q => second { m with ddata := some q } (q + D.size * dsize)
  else second m mem

/-- `PlainMemory::enoughRawSize`, fem_memory.h:294-303 -/
def Plain.enough (D I : Kind) (m : Plain) : Nat :=
  if m.iSize = 0 ∧ m.dSize = 0 then 0
  else (if m.dSize > 0 then (D.align - 1) + m.dSize * D.size else 0) +
    (if m.iSize > 0 then (I.align - 1) + m.iSize * I.size else 0)

/-- `PlainMemoryX`, fem_memory.h:310-314 -/
structure PlainX where
  ddata : Option Nat
  idata : Option Nat
  mdata : Option Nat
  dSize : Nat
  iSize : Nat
  mSize : Nat
deriving DecidableEq, Repr

/-- the loop of `PlainMemoryX::allocateFromRaw`, fem_memory.h:362-374.  `order` are the indices `szalign[j].first` (0 matrices,
1 scalars, 2 integers) in the order produced by `std::sort`; `kinds`, `cnt` are alignments/sizes and requested counts by
index; `out` is the array `mem_out`.  Result: `mem_out` and the final `p`. -/
def carve (kinds : Nat → Kind) (cnt : Nat → Nat) (mem sz : Nat) :
    List Nat → Nat → (Nat → Option Nat) → Option ((Nat → Option Nat) × Nat)
  | [], p, out => some (out, p)
  | i :: rest, p, out =>
    if cnt i > 0 then
      match stdAlign (kinds i).align ((kinds i).size * cnt i) p (mem + sz - p) with
      | none => none
      | some q => carve kinds cnt mem sz rest (q + (kinds i).size * cnt i) (fun j => if j = i then some q else out j)
    else carve kinds cnt mem sz rest p out

/-- insertion into a list sorted by alignment; stands for the `std::sort` of three entries, fem_memory.h:361 -/
def insertBy (kinds : Nat → Kind) (i : Nat) : List Nat → List Nat
  | [] => [i]
  | j :: r => if (kinds i).align < (kinds j).align then i :: j :: r else j :: insertBy kinds i r

/-- the order of the kinds: by increasing alignment, fem_memory.h:360-361 -/
def sorted (kinds : Nat → Kind) : List Nat := [0, 1, 2].foldl (fun l i => insertBy kinds i l) []

/-- kinds by index, fem_memory.h:358, 360 -/
def kindsOf (M D I : Kind) : Nat → Kind
  | 0 => M | 1 => D | _ => I

/-- requested counts by index, fem_memory.h:357 -/
def counts (msize dsize isize : Nat) : Nat → Nat
  | 0 => msize | 1 => dsize | _ => isize

/-- `PlainMemoryX::allocateFromRaw(mem_in, mem_sz, dsize, isize, msize)`, fem_memory.h:355-382 -/
def PlainX.alloc (M D I : Kind) (m : PlainX) (mem sz dsize isize msize : Nat) : Option Nat × PlainX :=
  match carve (kindsOf M D I) (counts msize dsize isize) mem sz (sorted (kindsOf M D I)) mem (fun _ => none) with
  | none => (none, m)
  | some (out, p) => (some p,
    ⟨out 1, out 2, out 0,
      if dsize > 0 then dsize else max m.dSize 0, if isize > 0 then isize else max m.iSize 0,
      if msize > 0 then msize else max m.mSize 0⟩)

/-- `PlainMemoryX::enoughRawSize`, fem_memory.h:384-395 -/
def PlainX.enough (M D I : Kind) (m : PlainX) : Nat :=
  if m.iSize = 0 ∧ m.dSize = 0 ∧ m.mSize = 0 then 0
  else (if m.mSize > 0 then (M.align - 1) + m.mSize * M.size else 0) +
    (if m.dSize > 0 then (D.align - 1) + m.dSize * D.size else 0) +
    (if m.iSize > 0 then (I.align - 1) + m.iSize * I.size else 0)

/-- `PlainMemoryX::allocateFromPlainMemory`, fem_memory.h:316-338: success flag and the object afterwards; `S` is the kind
of the array from which the matrices are taken (scalars if `fromD`, else integers) -/
def PlainX.allocPlain (M D I : Kind) (m : PlainX) (dIn dSz iIn iSz dsize isize msize : Nat) (fromD : Bool) : Bool × PlainX :=
  if iSz < isize ∨ dSz < dsize then (false, m)
  else
    let lidata := if isize > 0 then some iIn else m.idata
    let lddata := if dsize > 0 then some dIn else m.ddata
    let fin := fun (m : PlainX) =>
      (true, { m with ddata := lddata, idata := lidata, iSize := if isize > 0 then isize else max m.iSize 0,
                      dSize := if dsize > 0 then dsize else max m.dSize 0, mSize := if msize > 0 then msize else max m.mSize 0 })
    if msize > 0 then
      let st := if fromD then dIn + dsize * D.size else iIn + isize * I.size
      let remain := if fromD then (dSz - dsize) * D.size else (iSz - isize) * I.size
      match stdAlign M.align (msize * M.size) st remain with
      | none => (false, m)
      | some q => fin { m with mdata := some q }
    else fin m

/-- `PlainMemoryX::enoughPlainMemory`, fem_memory.h:340-354: the pair `(dSize, iSize)` -/
def PlainX.enoughPlain (M D I : Kind) (m : PlainX) (fromD : Bool) : Nat × Nat :=
  if m.mSize > 0 then
    let ad := M.align
    let ab := if fromD then D.align else I.align
    let sd := m.mSize * M.size
    let sb := if fromD then D.size else I.size
    let alAdd := if ad > ab then ad / ab - 1 + (if ad % ab = 0 then 0 else 1) else 0
    let add := alAdd + sd / sb + (if sd % sb = 0 then 0 else 1)
    if fromD then (m.dSize + add, m.iSize) else (m.dSize, m.iSize + add)
  else (m.dSize, m.iSize)

end Verif.RawMemory
