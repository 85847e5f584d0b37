import Verif.Model.Elemental

/-!
Model of the operators of run-time finite element spaces: the stack of block matrices of `AniMemoryX` (`fem_memory.h`,
members `MTX`, `MTXI_ROW`, `MTXI_COL`, `busy_mtx_parts`) and the functions which build the operator of a vector, a product, a
union of spaces from the operators of the parts (`fem_space.cpp`, `fem_space.inl`), and the divergence, curl and partial
derivative from the gradient.

Scalars are an arbitrary type with the operations needed, indices are natural numbers (no overflow).  The real memory is one
function from addresses to values; `mem.extraR` is the pair of an address and a size, `U` is an address.  `DenseMatrix` is the
address of its data and its number of rows; its `size` and the assertions are not modelled.  The integer memory `extraI` is
not used by any operator and is not modelled.  An exception or a too small `extraR` is `none`.
-/
namespace Verif.OpStack

open Verif.Dense

variable {K : Type}

/-- `AniMemoryX` (fem_memory.h:214-220, with `extraR` of 208): the real memory, the matrices `MTX` (address of the data, number of rows), the starts
of rows and columns, and `busy_mtx_parts`. -/
structure St (K : Type) where
  re : Nat → K
  mtx : Nat → Nat × Nat
  row : Nat → Nat
  col : Nat → Nat
  busy : Nat

/-- `BandDenseMatrixX` (fem_memory.h:157-170) as positions in the arrays of the stack: `data = MTX.data + data`,
`stRow = MTXI_ROW.data + idx`, `stCol = MTXI_COL.data + idx`. -/
structure Ref where
  nparts : Nat
  data : Nat
  idx : Nat
deriving DecidableEq, Repr

/-- A linear operator of a space for a fixed number of points and tetrahedrons: dimension, number of basis functions,
`OpMemoryRequirements` (`Usz`, `extraRsz`, `mtx_parts`) and the function `apply` of the address `U`, the address and size of
`extraR` and the stack. (fem_memory.h:560-567; fem_space.h:134-165) -/
structure Op (K : Type) where
  dim : Nat
  nfa : Nat
  usz : Nat
  exr : Nat
  parts : Nat
  apply : Nat → Nat → Nat → St K → Option (St K × Ref)

/-- `bshift`, spaces/common.h:97, fem_space.inl:159, fem_space.cpp:765. -/
def bshift (busy : Nat) : Nat := if busy > 0 then 1 else 0

/-- spaces/common.h:94-111 `GenSpace::InternalOp::appl`, `memreq`: the operator `run` of a simple finite element writes a dense
matrix of `q*dim` rows at `U`; the matrix is pushed on the stack.  `run` is a parameter: the geometry it reads (`XYG`, `PSI`, ...)
is a constant of the operator here, not a part of the memory. -/
def leaf (q dim nfa usz exr : Nat) (run : Nat → Nat → Nat → (Nat → K) → (Nat → K)) : Op K where
  dim := dim
  nfa := nfa
  usz := usz
  exr := exr
  parts := 1
  apply u ex es st :=
    let idx := st.busy + bshift st.busy
    some ({ re := run u ex es st.re
            mtx := wr st.mtx st.busy (u, q * dim)
            row := wr (wr st.row idx 0) (idx + 1) dim
            col := wr (wr st.col idx 0) (idx + 1) nfa
            busy := st.busy + 1 }, ⟨1, st.busy, idx⟩)

/-- One pass of the loop in `realloc_rep_mtx`, fem_space.cpp:512-514 (columns), 515-517 (rows): the starts `st` of the first `np` parts are copied behind
the copies made so far and shifted by `sh * d`, and the end is written.  Copying and shifting are one pass here. -/
def repStarts (idx np sh d : Nat) (st : Nat → Nat) : Nat → Nat :=
  wr (loop 0 np (fun j s => wr s (idx + d * np + j) (s (idx + j) + sh * d)) st) (idx + (d + 1) * np) (sh * (d + 1))

/-- fem_space.cpp:505-520 `VectorFemSpace::realloc_rep_mtx`.  For `vdim = 0` the unsigned `vdim-1` of line 508 wraps around in the
code and is 0 here, so the model is faithful for `vdim ≥ 1` only. -/
def realloc (vdim : Nat) (s : St K × Ref) : St K × Ref :=
  let np := s.2.nparts
  let shC := s.1.col (s.2.idx + np)
  let shR := s.1.row (s.2.idx + np)
  (loop 1 vdim (fun d st =>
      { st with
        mtx := loop 0 np (fun j m => wr m (s.2.data + d * np + j) (m (s.2.data + j))) st.mtx
        col := repStarts s.2.idx np shC d st.col
        row := repStarts s.2.idx np shR d st.row })
    { s.1 with busy := s.1.busy + (vdim - 1) * np },
   { s.2 with nparts := np * vdim })

/-- fem_space.cpp:521-542, 661-671: `applyIDEN`, `applyGRAD`, `applyDUDX` of a vector space and their requirements. -/
def vec (vdim : Nat) (a : Op K) : Op K where
  dim := a.dim * vdim
  nfa := a.nfa * vdim
  usz := a.usz
  exr := a.exr
  parts := a.parts * vdim
  apply u ex es st := (a.apply u ex es st).map (realloc vdim)

/-- fem_space.inl:106-110: the starts of the matrix `l` with `np` parts are appended to the starts of `res`, which has `rp`
parts and ends at `e`. -/
def appendStarts (ridx rp lidx np e : Nat) (st : Nat → Nat) : Nat → Nat :=
  wr (loop 1 (np + 1) (fun i s => wr s (ridx + (rp + i)) (e + s (lidx + i))) st) (ridx + rp) e

/-- fem_space.inl:99-113: the spaces after the first one; `e.1`, `e.2` are `endCol`, `endRow`. -/
def cplxLoop (u ex es : Nat) : List (Op K) → Nat → Nat × Nat → St K × Ref → Option (St K × Ref)
  | [], _, _, s => some s
  | a :: as, ush, e, s =>
    match a.apply (u + ush) ex es s.1 with
    | none => none
    | some (st, l) =>
      let st := { st with
        col := appendStarts s.2.idx s.2.nparts l.idx l.nparts e.1 st.col
        row := appendStarts s.2.idx s.2.nparts l.idx l.nparts e.2 st.row }
      let ref := { s.2 with nparts := s.2.nparts + l.nparts }
      cplxLoop u ex es as (ush + a.usz) (st.col (ref.idx + ref.nparts), st.row (ref.idx + ref.nparts)) (st, ref)

/-- fem_space.inl:72-115 `ComplexFemSpace::memOP_internal`, `applyOP_internal` of a product of spaces (at least one). -/
def cplx (a : Op K) (as : List (Op K)) : Op K where
  dim := a.dim + (as.map Op.dim).sum
  nfa := a.nfa + (as.map Op.nfa).sum
  usz := a.usz + (as.map Op.usz).sum
  exr := as.foldl (fun m b => max m b.exr) (max 0 a.exr)
  parts := a.parts + (as.map Op.parts).sum
  apply u ex es st :=
    match a.apply (u + 0) ex es st with
    | none => none
    | some (st, ref) =>
      cplxLoop u ex es as a.usz (st.col (ref.idx + ref.nparts), st.row (ref.idx + ref.nparts)) (st, ref)

/-- `DenseMatrix::SetZero` of a matrix of `n` numbers at `u`. (fem_memory.h:93; `std::fill` of fem_space.cpp:606) -/
def setZero [Zero K] (u n : Nat) (m : Nat → K) : Nat → K := loop 0 n (fun p m => wr m (u + p) 0) m

/-- fem_space.inl:147-154 (the loops over the parts of one subset): the block matrix `ref` is copied into the columns
`sh ..` of the matrix of `q*gdim` rows at `u`. -/
def unionCopy (q f gdim nfa u sh : Nat) (st : St K) (ref : Ref) (m : Nat → K) : Nat → K :=
  loop 0 ref.nparts (fun p m =>
    let nCol := st.col (ref.idx + (p + 1)) - st.col (ref.idx + p)
    let nRow := st.row (ref.idx + (p + 1)) - st.row (ref.idx + p)
    let d := st.mtx (ref.data + p)
    loop 0 f (fun r m => loop 0 nCol (fun i m => loop 0 q (fun n m => loop 0 nRow (fun k m =>
      wr m (u + ((k + st.row (ref.idx + p) + gdim * n) + q * gdim * (sh + i + st.col (ref.idx + p) + nfa * r)))
        (m (d.1 + ((k + nRow * n) + d.2 * (i + nCol * r))))) m) m) m) m) m

/-- fem_space.inl:140-157: the loop over the subsets; the matrix of a subset is computed at the end of `extraR`. -/
def unionLoop (q f gdim nfa u ex es : Nat) : List (Op K) → Nat → St K → Option (St K)
  | [], _, st => some st
  | a :: as, sh, st =>
    if es < a.usz then none
    else
      match a.apply (ex + (es - a.usz)) ex (es - a.usz) st with
      | none => none
      | some (st, ref) =>
        unionLoop q f gdim nfa u ex es as (sh + a.nfa) { st with re := unionCopy q f gdim nfa u sh st ref st.re }

/-- fem_space.inl:117-166 `UnionFemSpace::memOP_internal`, `applyOP_internal`. -/
def union [Zero K] (q f gdim : Nat) (as : List (Op K)) : Op K where
  dim := gdim
  nfa := (as.map Op.nfa).sum
  usz := gdim * q * f * (as.map Op.nfa).sum
  exr := as.foldl (fun m b => max m (b.exr + b.usz)) 0
  parts := (as.map Op.parts).sum
  apply u ex es st :=
    let nfa := (as.map Op.nfa).sum
    match unionLoop q f gdim nfa u ex es as 0 { st with re := setZero u (q * gdim * (f * nfa)) st.re } with
    | none => none
    | some st' =>
      let idx := st.busy + bshift st.busy
      some ({ st' with
          mtx := wr st'.mtx st.busy (u, q * gdim)
          row := wr (wr st'.row idx 0) (idx + 1) gdim
          col := wr (wr st'.col idx 0) (idx + 1) nfa
          busy := st.busy + 1 }, ⟨1, st.busy, idx⟩)

/-- The end shared by the operators computed from a gradient (fem_space.cpp:263-268, 310-315, 562-571, 630-639): the matrix at `u` of
`nRow` rows replaces the gradient on the stack, rows end at `dim`, columns at `nfa`. -/
def replaceTop (u nRow dim nfa busy : Nat) (st : St K) (ref : Ref) : St K × Ref :=
  ({ st with
      mtx := wr st.mtx ref.data (u, nRow)
      row := wr st.row (ref.idx + 1) dim
      col := wr st.col (ref.idx + 1) nfa
      busy := busy + 1 }, { ref with nparts := 1 })

/-- fem_space.cpp:543-592 `VectorFemSpace::applyDIV`, `memDIV` of three copies of a scalar space, from the gradient `g` of the
scalar space. -/
def vecDiv (q f : Nat) (g : Op K) : Op K where
  dim := 1
  nfa := g.nfa * 3
  usz := 3 * q * f * g.nfa
  exr := g.exr + g.usz
  parts := g.parts
  apply u ex es st :=
    if es < g.usz then none
    else
      match g.apply (ex + (es - g.usz)) ex (es - g.usz) st with
      | none => none
      | some (st', ref) =>
        if ref.nparts = 1 then
          let v := st'.mtx ref.data
          let re := loop 0 f (fun r m => loop 0 g.nfa (fun i m => loop 0 q (fun n m => loop 0 3 (fun k m =>
            wr m (u + (n + q * (i + g.nfa * (k + 3 * r)))) (m (v.1 + ((k + 3 * n) + v.2 * (i + g.nfa * r))))) m) m) m) st'.re
          some (replaceTop u q 1 (g.nfa * 3) st.busy { st' with re := re } ref)
        else none

/-- fem_space.cpp:611-628: one of the six loops over the basis functions: row `i` of copy `l` gets plus or minus row `j` of the
gradient. -/
def curlRow [Neg K] (q nfa u : Nat) (v : Nat × Nat) (r n : Nat) (i j l : Nat) (neg : Bool) (m : Nat → K) : Nat → K :=
  loop 0 nfa (fun d m =>
    let x := m (v.1 + ((j + n * 3) + v.2 * (d + nfa * r)))
    wr m (u + ((i + 3 * n) + 3 * q * (d + nfa * (l + 3 * r)))) (if neg then -x else x)) m

/-- fem_space.cpp:593-660 `VectorFemSpace::applyCURL`, `memCURL` of three copies of a scalar space. -/
def vecCurl [Zero K] [Neg K] (q f : Nat) (g : Op K) : Op K where
  dim := 3
  nfa := g.nfa * 3
  usz := 9 * q * f * g.nfa
  exr := g.exr + g.usz
  parts := g.parts
  apply u ex es st :=
    if es < g.usz then none
    else
      match g.apply (ex + (es - g.usz)) ex (es - g.usz) st with
      | none => none
      | some (st', ref) =>
        if ref.nparts = 1 then
          let v := st'.mtx ref.data
          let re := loop 0 f (fun r m => loop 0 q (fun n m =>
            let m := curlRow q g.nfa u v r n 1 2 0 false m
            let m := curlRow q g.nfa u v r n 2 1 0 true m
            let m := curlRow q g.nfa u v r n 0 2 1 true m
            let m := curlRow q g.nfa u v r n 2 0 1 false m
            let m := curlRow q g.nfa u v r n 0 1 2 false m
            curlRow q g.nfa u v r n 1 0 2 true m) m) (setZero u (3 * q * 3 * g.nfa * f) st'.re)
          some (replaceTop u (3 * q) 3 (g.nfa * 3) st.busy { st' with re := re } ref)
        else none

/-- fem_space.cpp:243-261: the loops of `BaseFemSpace::applyDIV` over the parts of the gradient. -/
def divParts [Add K] (q f nfa u : Nat) (st : St K) (ref : Ref) (m : Nat → K) : Nat → K :=
  loop 0 ref.nparts (fun p m =>
    let r0 := st.row (ref.idx + p)
    let r1 := st.row (ref.idx + (p + 1))
    let c0 := st.col (ref.idx + p)
    let nCol := st.col (ref.idx + (p + 1)) - c0
    let nRow := r1 - r0
    let v := st.mtx (ref.data + p)
    loop 0 f (fun r m => loop 0 nCol (fun i m => loop 0 q (fun n m =>
      loop 0 3 (fun c m =>
        if r0 ≤ 4 * c ∧ 4 * c < r1 then
          wr m (u + ((0 + n) + q * (c0 + i + nfa * r)))
            (m (u + ((0 + n) + q * (c0 + i + nfa * r))) + m (v.1 + ((4 * c - r0 + nRow * n) + v.2 * (i + nCol * r))))
        else m) m) m) m) m) m

/-- fem_space.cpp:232-277 `BaseFemSpace::applyDIV`, `memDIV` (used by spaces which do not override it), from the gradient `g`
of the space; the rows of the result end at 3 (line 266), the dimension of the divergence is 1. -/
def baseDiv [Zero K] [Add K] (q f : Nat) (g : Op K) : Op K where
  dim := 1
  nfa := g.nfa
  usz := 1 * q * f * g.nfa
  exr := g.exr + g.usz
  parts := g.parts
  apply u ex es st :=
    if es < g.usz then none
    else
      match g.apply (ex + (es - g.usz)) ex (es - g.usz) st with
      | none => none
      | some (st', ref) =>
        let re := divParts q f g.nfa u st' ref (setZero u (q * 1 * (f * g.nfa)) st'.re)
        some (replaceTop u (q * 1) 3 g.nfa st.busy { st' with re := re } ref)

/-- fem_space.cpp:281 `dlookup`. -/
def dlookup : Nat → Nat
  | 0 => 7
  | 1 => 5
  | 2 => 2
  | 3 => 6
  | 4 => 3
  | _ => 1

/-- fem_space.cpp:290-308: the loops of `BaseFemSpace::applyCURL` over the parts of the gradient. -/
def curlParts [Add K] [Sub K] (q f nfa u : Nat) (st : St K) (ref : Ref) (m : Nat → K) : Nat → K :=
  loop 0 ref.nparts (fun p m =>
    let r0 := st.row (ref.idx + p)
    let r1 := st.row (ref.idx + (p + 1))
    let c0 := st.col (ref.idx + p)
    let c1 := st.col (ref.idx + (p + 1))
    let v := st.mtx (ref.data + p)
    if r1 - r0 > 1 ∨ (r0 ≠ 0 ∧ r0 ≠ 4 ∧ r0 ≠ 8) then
      let nCol := c1 - c0
      let nRow := r1 - r0
      loop 0 f (fun r m => loop c0 c1 (fun i m => loop 0 q (fun n m => loop 0 3 (fun k m =>
        let a := u + ((k + 3 * n) + q * 3 * (i + nfa * r))
        let m := if r0 ≤ dlookup (2 * k) ∧ dlookup (2 * k) < r1 then
            wr m a (m a + m (v.1 + ((dlookup (2 * k) - r0 + nRow * n) + v.2 * ((i - c0) + nCol * r)))) else m
        if r0 ≤ dlookup (2 * k + 1) ∧ dlookup (2 * k + 1) < r1 then
          wr m a (m a - m (v.1 + ((dlookup (2 * k + 1) - r0 + nRow * n) + v.2 * ((i - c0) + nCol * r)))) else m)
        m) m) m) m
    else m) m

/-- fem_space.cpp:278-324 `BaseFemSpace::applyCURL`, `memCURL`: the curl of a product space (fem_space.h:334). -/
def baseCurl [Zero K] [Add K] [Sub K] (q f : Nat) (g : Op K) : Op K where
  dim := 3
  nfa := g.nfa
  usz := 3 * q * f * g.nfa
  exr := g.exr + g.usz
  parts := g.parts
  apply u ex es st :=
    if es < g.usz then none
    else
      match g.apply (ex + (es - g.usz)) ex (es - g.usz) st with
      | none => none
      | some (st', ref) =>
        let re := curlParts q f g.nfa u st' ref (setZero u (q * 3 * (f * g.nfa)) st'.re)
        some (replaceTop u (q * 3) 3 g.nfa st.busy { st' with re := re } ref)

/-- fem_space.cpp:758-761, 793-796: the matrix `v` of one row per point is copied into the columns `sh ..` of the matrix at
`u`. -/
def copyRow (q f nfa lnfa u sh : Nat) (v : Nat × Nat) (m : Nat → K) : Nat → K :=
  loop 0 f (fun r m => loop 0 lnfa (fun i m => loop 0 q (fun n m =>
    wr m (u + (n + q * (sh + i + nfa * r))) (m (v.1 + (n + v.2 * (i + lnfa * r))))) m) m) m

/-- fem_space.cpp:746-764: the loop of `applyDIV_1x1x1` over the three scalar spaces, `as` being the partial derivatives
`DUDX k` of space `k`; `busy` is `st_busy`. -/
def div111Loop (q f nfa u ex es busy : Nat) : List (Op K) → Nat → St K → Option (St K)
  | [], _, st => some st
  | a :: as, sh, st =>
    if es < a.usz then none
    else
      match a.apply (ex + (es - a.usz)) ex (es - a.usz) st with
      | none => none
      | some (st, ref) =>
        if ref.nparts = 1 then
          div111Loop q f nfa u ex es busy as (sh + a.nfa)
            { st with re := copyRow q f nfa a.nfa u sh (st.mtx ref.data) st.re, busy := busy }
        else none

/-- fem_space.cpp:742-771 `ComplexFemSpace::applyDIV_1x1x1` and 865-874 `memDIV`; the starts `stRow[0]`, `stCol[0]` are not
written (lines 768-769) and `busy_mtx_parts` is left at its initial value (line 763). -/
def div111 (q f : Nat) (a b c : Op K) : Op K where
  dim := 1
  nfa := a.nfa + b.nfa + c.nfa
  usz := q * f * (a.nfa + b.nfa + c.nfa)
  exr := max (max (a.exr + a.usz) (b.exr + b.usz)) (c.exr + c.usz)
  parts := max (max (max 1 a.parts) b.parts) c.parts + 2
  apply u ex es st :=
    match div111Loop q f (a.nfa + b.nfa + c.nfa) u ex es st.busy [a, b, c] 0 st with
    | none => none
    | some st' =>
      let idx := st.busy + bshift st.busy
      some ({ st' with
          mtx := wr st'.mtx st.busy (u, q)
          row := wr st'.row (idx + 1) 1
          col := wr st'.col (idx + 1) (a.nfa + b.nfa + c.nfa) }, ⟨1, st.busy, idx⟩)

/-- fem_space.cpp:805-817 (the loops for a subspace of two components): the diagonal derivatives `dimshift` and `dimshift+1+3` of the gradient
`ref` are added to the columns `sh ..` of the matrix of one row per point at `u`. -/
def gradAdd [Add K] (q f nfa u sh ds : Nat) (st : St K) (ref : Ref) (m : Nat → K) : Nat → K :=
  loop 0 ref.nparts (fun p m =>
    let r0 := st.row (ref.idx + p)
    let r1 := st.row (ref.idx + (p + 1))
    let c0 := st.col (ref.idx + p)
    let c1 := st.col (ref.idx + (p + 1))
    let v := st.mtx (ref.data + p)
    loop 0 f (fun r m => loop c0 c1 (fun i m => loop 0 q (fun n m =>
      let a := u + (n + q * (sh + i + nfa * r))
      let m := if r0 ≤ ds ∧ ds < r1 then
          wr m a (m a + m (v.1 + ((ds - r0 + (r1 - r0) * n) + v.2 * ((i - c0) + (c1 - c0) * r)))) else m
      if r0 ≤ ds + 1 + 3 ∧ ds + 1 + 3 < r1 then
        wr m a (m a + m (v.1 + ((ds + 1 + 3 - r0 + (r1 - r0) * n) + v.2 * ((i - c0) + (c1 - c0) * r)))) else m)
      m) m) m) m

/-- fem_space.cpp:778-821: the loop of `applyDIV_1x2` over the subspaces; `true` marks a subspace of one component, given by its
partial derivative `DUDX dimshift`, `false` one of two components, given by its gradient; `ds` is `dimshift`. -/
def div12Loop [Add K] (q f nfa u ex es busy : Nat) : List (Bool × Op K) → Nat → Nat → St K → Option (St K)
  | [], _, _, st => some st
  | a :: as, ds, sh, st =>
    if es < a.2.usz then none
    else
      match a.2.apply (ex + (es - a.2.usz)) ex (es - a.2.usz) st with
      | none => none
      | some (st, ref) =>
        if a.1 then
          if ref.nparts = 1 then
            div12Loop q f nfa u ex es busy as (ds + 1) (sh + a.2.nfa)
              { st with re := copyRow q f nfa a.2.nfa u sh (st.mtx ref.data) st.re, busy := busy }
          else none
        else
          div12Loop q f nfa u ex es busy as (ds + 2) (sh + a.2.nfa)
            { st with re := gradAdd q f nfa u sh ds st ref st.re, busy := busy }

/-- fem_space.cpp:772-828 `ComplexFemSpace::applyDIV_1x2` and 875-887 `memDIV` for two subspaces; as in `div111` the first starts
are not written (lines 825-826) and `busy_mtx_parts` is left at its initial value (line 820). -/
def div12 [Zero K] [Add K] (q f : Nat) (a b : Bool × Op K) : Op K where
  dim := 1
  nfa := a.2.nfa + b.2.nfa
  usz := q * f * (a.2.nfa + b.2.nfa)
  exr := max (a.2.exr + a.2.usz) (b.2.exr + b.2.usz)
  parts := max (max 1 a.2.parts) b.2.parts + 2
  apply u ex es st :=
    match div12Loop q f (a.2.nfa + b.2.nfa) u ex es st.busy [a, b] 0 0
        { st with re := setZero u (q * (f * (a.2.nfa + b.2.nfa))) st.re } with
    | none => none
    | some st' =>
      let idx := st.busy + bshift st.busy
      some ({ st' with
          mtx := wr st'.mtx st.busy (u, q)
          row := wr st'.row (idx + 1) 1
          col := wr st'.col (idx + 1) (a.2.nfa + b.2.nfa) }, ⟨1, st.busy, idx⟩)

/-- fem_space.cpp:331-340 `align_to_3`: the nearest number congruent to `k` from above (`true`) or from below. -/
def align3 (k a : Int) (above : Bool) : Int :=
  let q := a.tdiv 3
  let r := a.tmod 3
  if above then
    if r ≤ k then 3 * q + k else 3 * (q + 1) + k
  else
    if r < k then 3 * q + k - 3 else 3 * q + k

/-- fem_space.cpp:341-360: one part of the gradient in `BaseFemSpace::applyDUDX`; the state is the stack, `upart` and `ushift`.  The starts of
the result are written over those of the gradient (lines 356-357), which later parts read (lines 343-346). -/
def dudxPart (q f k u : Nat) (ref : Ref) (p : Nat) (s : St K × Nat × Nat) : St K × Nat × Nat :=
  let st := s.1
  let r0 : Int := st.row (ref.idx + p)
  let r1 : Int := st.row (ref.idx + (p + 1))
  let dst := align3 k r0 true
  let dend := align3 k (r1 - 1) false
  let nd := if dend ≥ dst then ((dend - dst).tdiv 3 + 1).toNat else 0
  let nCol := st.col (ref.idx + (p + 1)) - st.col (ref.idx + p)
  let nRow := (r1 - r0).toNat
  let rowShift := (dst - r0).toNat
  if nd > 0 then
    let v := st.mtx (ref.data + p)
    let re := loop 0 f (fun r m => loop 0 nCol (fun i m => loop 0 q (fun n m => loop 0 nd (fun id m =>
      wr m (u + s.2.2 + ((id + nd * n) + q * nd * (i + nCol * r)))
        (m (v.1 + ((rowShift + 3 * id + nRow * n) + v.2 * (i + nCol * r))))) m) m) m) st.re
    ({ re := re
       mtx := wr st.mtx (ref.data + s.2.1) (u + s.2.2, q * nd)
       row := wr st.row (ref.idx + (s.2.1 + 1)) (nd + st.row (ref.idx + s.2.1))
       col := wr st.col (ref.idx + (s.2.1 + 1)) (nCol + st.col (ref.idx + s.2.1))
       busy := st.busy }, s.2.1 + 1, s.2.2 + q * nd * f * nCol)
  else s

/-- fem_space.cpp:325-372 `BaseFemSpace::applyDUDX`, `memDUDX` (used by spaces which do not override it) of a space of functions with
`dim` components, from the gradient `g` of the space. -/
def baseDudx (q f k dim : Nat) (g : Op K) : Op K where
  dim := dim
  nfa := g.nfa
  usz := min (dim * q * f * g.nfa) g.usz
  exr := g.exr + g.usz
  parts := g.parts
  apply u ex es st :=
    if es < g.usz then none
    else
      match g.apply (ex + (es - g.usz)) ex (es - g.usz) st with
      | none => none
      | some (st', ref) =>
        let s := loop 0 ref.nparts (dudxPart q f k u ref) (st', 0, 0)
        some ({ s.1 with busy := st.busy + s.2.1 }, { ref with nparts := s.2.1 })

/-- core.inl:416, 422 (`internalFem3Dtet` of run-time operators): both operators on the same stack, the second one only if it is
not equal (`same`) to the first; `u`, `v` are `mem.U`, `mem.V`. -/
def applyTwo (same : Bool) (opU opV : Op K) (u v ex es : Nat) (st : St K) : Option (St K × Ref × Ref) :=
  match opU.apply u ex es st with
  | none => none
  | some (st1, refU) =>
    if same then some (st1, refU, refU)
    else
      match opV.apply v ex es st1 with
      | none => none
      | some (st2, refV) => some (st2, refU, refV)

end Verif.OpStack
