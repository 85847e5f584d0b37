import Verif.Model.Locking

/-!
Assembly of the global matrix and right-hand side: anifem++/inmost_interface/assembler.inl.

Rows of `INMOST::Sparse::Matrix` are lists of (column, value).  `INMOST::Sparse::Row` belongs to INMOST and not to the
repository; it is taken to behave as documented there: `operator[](c)` finds the first entry of column `c` or appends
one with value zero, `get_safe(c)` gives zero when there is none, `Push` appends.

Scalars `R` are arbitrary; `Num.big x` is `fabs(x) > drop_val`, `Num.fin x` is `std::isfinite(x)`.  Column numbers are
natural numbers; the code stores them in 32-bit unsigned integers, theorems that depend on it assume numbers below `2^32`.
The timers, the debug checks under `NDEBUG` and the user callbacks are left out: an elemental evaluation is given by its
results `A`, `Ab`, `F`.
-/
namespace Verif.Assembly
open Verif.Locking (Op)

/-- A sparse row. (assembler.inl:333 `INMOST::Sparse::Row`) -/
abbrev Row (R : Type) := List (Nat × R)

/-- The two tests made on scalars (assembler.inl:424 and 427). -/
structure Num (R : Type) where
  big : R → Bool
  fin : R → Bool

/-- assembler.h:208-219 `AssmOpts` (`drop_val` is part of `Num.big`). -/
structure Opts where
  ordered : Bool
  sorted : Bool
  incl : Bool

/-- What is known about one cell after the elemental evaluation (assembler.inl:354-385): whether it has active elements,
the codes of the rows and columns, the dense elemental matrix by columns with its pattern, the elemental right-hand
side. -/
structure Cell (R : Type) where
  active : Bool
  rows : List Int
  cols : List Int
  A : Nat → R
  Ab : Nat → Bool
  F : Nat → R

/-- assembler.inl:55 `assemble_index_decode(code).id` (see `Verif.Codes.decode` for the bounded integers). -/
def idOf (code : Int) : Int := (code.natAbs : Int) - 1

/-- assembler.inl:55: the sign of a code is negative. -/
def negOf (code : Int) : Bool := code < 0

section
variable {R : Type}

/-- `rid.sign*cid.sign*x` with signs `±1`. (assembler.inl:417, 432) -/
def sgn [Neg R] (neg : Bool) (x : R) : R := if neg then -x else x

/-- One entry of an elemental row: global column, whether it is inserted, signed value. (assembler.inl:408-418) -/
structure Ent (R : Type) where
  col : Nat
  keep : Bool
  val : R

/-- assembler.inl:424-425, 433-434, 447-451, 469-471: the entry of row `i` in the local column `j`. -/
def entOf [Neg R] (nm : Num R) (n : Nat) (cell : Cell R) (i : Nat) (rneg : Bool) (j : Nat) : Ent R :=
  let c := cell.cols.getD j 0
  { col := (idOf c).toNat
    keep := cell.Ab (j * n + i) && nm.big (cell.A (j * n + i))
    val := sgn (rneg != negOf c) (cell.A (j * n + i)) }

/-- `matrix[r][c] += v` on the row `matrix[r]`. (assembler.inl:417, 799) -/
def addAt [Add R] [Zero R] : Row R → Nat → R → Row R
  | [], c, v => [(c, 0 + v)]
  | q :: qs, c, v => if q.1 = c then (c, q.2 + v) :: qs else q :: addAt qs c v

/-- assembler.inl:446-460: the loop over both rows, for a first entry `q` of the global row, `rest` being the loop for the
other entries `qs`. -/
def mergeStep [Add R] (q : Nat × R) (qs : Row R) (rest : List (Ent R) → Row R) : List (Ent R) → Row R
  | [] => q :: qs
  | e :: es =>
    if q.1 < e.col then q :: rest (e :: es)
    else if q.1 = e.col then (q.1, if e.keep then q.2 + e.val else q.2) :: rest es
    else if e.keep then (e.col, e.val) :: mergeStep q qs rest es
    else mergeStep q qs rest es

/-- assembler.inl:440-475 / 821-855: the elemental row, sorted by columns, merged into the sorted global row. -/
def merge [Add R] : Row R → List (Ent R) → Row R
  | [], es => (es.filter (fun e => e.keep)).map (fun e => (e.col, e.val))
  | q :: qs, es => mergeStep q qs (merge qs) es

/-- `ind_loc - ind_q` of 32-bit unsigned numbers (assembler.inl:435 / 817). -/
@[irreducible] def u32Diff (a b : Nat) : Nat := (a + 2 ^ 32 - b) % 2 ^ 32

/-- The end of the range searched for column `c`, counted from the iterator, when `n` entries remain and the first of
them has column `q` (assembler.inl:435 / 817). -/
def tmplWin (n c q : Nat) : Nat := if u32Diff c q ≥ n then n else u32Diff c q + 1

/-- assembler.inl:434-437 / 816-819: the place of column `c` in the row from the iterator on, with its entry.
`std::lower_bound` is the first place with a column not below `c`.  `none`: the iterator is dereferenced at the end of
the row, or the column is not found (the `assert`; without it the value goes to another column). -/
def tmplFind (row : Row R) (c : Nat) : Option (Nat × (Nat × R)) :=
  match row with
  | [] => none
  | q :: qs =>
    let k := ((q :: qs).take (tmplWin (qs.length + 1) c q.1)).findIdx (fun a => !(a.1 < c))
    if k < tmplWin (qs.length + 1) c q.1 then
      match (q :: qs)[k]? with
      | some a => if a.1 = c then some (k, a) else none
      | none => none
    else none

/-- assembler.inl:428-438 / 810-820: the elemental row added to a global row that contains its columns; the argument is
the part of the row from the iterator `it` on. -/
def tmplAdd [Add R] (row : Row R) : List (Ent R) → Option (Row R)
  | [] => some row
  | e :: es =>
    if e.keep then
      match tmplFind row e.col with
      | none => none
      | some (k, a) => (tmplAdd ((a.1, a.2 + e.val) :: row.drop (k + 1)) es).map (fun r => row.take k ++ r)
    else tmplAdd row es

/-- How the work on a row ends: normally, with a non-finite value, or with the program aborted.
(assembler.inl:401-404, 419-423, 475-479) -/
inductive Res where
  | ok
  | nan
  | abort
deriving DecidableEq

/-- assembler.inl:410-434 / 785-805: the loop over the local columns `js` of row `i`; `msize` is the matrix size. -/
def colLoop [Add R] [Neg R] [Zero R] (nm : Num R) (opts : Opts) (msize n : Nat) (cell : Cell R) (i : Nat) (rneg : Bool) :
    List Nat → Row R → Row R × Res
  | [], row => (row, .ok)
  | j :: js, row =>
    let id := idOf (cell.cols.getD j 0)
    if id < 0 ∨ id ≥ msize then (row, .abort)
    else
      let e := entOf nm n cell i rneg j
      let row := if !opts.ordered && e.keep then addAt row e.col e.val else row
      if cell.Ab (j * n + i) && !nm.fin (cell.A (j * n + i)) then (row, .nan)
      else colLoop nm opts msize n cell i rneg js row

/-- assembler.inl:391-395 / 773-777: the local columns sorted by global column.  `std::sort` gives this order whenever the
global columns differ. -/
def sortCols (n : Nat) (cell : Cell R) : List Nat :=
  (List.range n).mergeSort (fun a b => idOf (cell.cols.getD a 0) ≤ idOf (cell.cols.getD b 0))

/-- assembler.inl:398-483: the work on row `i` of a cell inside its lock: the global row and the global right-hand side
entry.  `withRhs` distinguishes `Assemble` from `AssembleMatrix` (780-858), which has no right-hand side. -/
def rowStep [Add R] [Neg R] [Zero R] (nm : Num R) (opts : Opts) (withRhs : Bool) (msize n : Nat) (cell : Cell R) (i : Nat)
    (s : Row R × R) : (Row R × R) × Res :=
  let rneg := negOf (cell.rows.getD i 0)
  let rv := if withRhs then s.2 + sgn rneg (cell.F i) else s.2
  match colLoop nm opts msize n cell i rneg (List.range n) s.1 with
  | (row, .ok) =>
    let ends : Res := if withRhs && !nm.fin (cell.F i) then .nan else .ok
    if opts.ordered then
      let es := (sortCols n cell).map (entOf nm n cell i rneg)
      if opts.incl then
        match tmplAdd row es with
        | some row' => ((row', rv), ends)
        | none => ((row, rv), .abort)
      else ((merge row es, rv), ends)
    else ((row, rv), ends)
  | (row, r) => ((row, rv), r)

/-- assembler.inl:557-566: the work of `AssembleRHS` on row `i`. -/
def rhsStep [Add R] [Neg R] (nm : Num R) (cell : Cell R) (i : Nat) (s : Row R × R) : (Row R × R) × Res :=
  ((s.1, s.2 + sgn (negOf (cell.rows.getD i 0)) (cell.F i)), if nm.fin (cell.F i) then .ok else .nan)

/-- The row updates of a cell with given work per row: assembler.inl:367 (cells without active elements are left out),
397-398 (rows of other processes, code `CODE_UNDEF`, are left out). -/
def cellOps (n : Nat) (cell : Cell R) (work : Nat → Row R × R → (Row R × R) × Res) : List (Op (Row R × R)) :=
  if cell.active then
    (List.range n).filterMap (fun i =>
      let code := cell.rows.getD i 0
      if code = 0 then none
      else some { key := (idOf code).toNat, run := fun s => ((work i s).1, (work i s).2 = .ok) })
  else []

/-- The row updates `Assemble` / `AssembleMatrix` make for a list of cells. (assembler.inl:314-488, 705-865) -/
def sysOps [Add R] [Neg R] [Zero R] (nm : Num R) (opts : Opts) (withRhs : Bool) (msize n : Nat) (cells : List (Cell R)) :
    List (Op (Row R × R)) :=
  cells.flatMap (fun cell => cellOps n cell (rowStep nm opts withRhs msize n cell))

/-- The row updates `AssembleRHS` makes for a list of cells. (assembler.inl:498-580) -/
def rhsOps [Add R] [Neg R] (nm : Num R) (n : Nat) (cells : List (Cell R)) : List (Op (Row R × R)) :=
  cells.flatMap (fun cell => cellOps n cell (rhsStep nm cell))

/-- `Row::get_safe`. (assembler.inl:118, 602) -/
def getSafe [Zero R] (row : Row R) (c : Nat) : R :=
  match row.find? (fun q => q.1 = c) with
  | some q => q.2
  | none => 0

/-- `row[c] = v`. (assembler.inl:119, 603) -/
def setAt : Row R → Nat → R → Row R
  | [], c, v => [(c, v)]
  | q :: qs, c, v => if q.1 = c then (c, v) :: qs else q :: setAt qs c v

/-- `std::sort` of a row by columns.  The code of `Assemble` compares (column, value) pairs, which is the same for rows
with different columns. (assembler.inl:328, 605, 722) -/
def sortRow (row : Row R) : Row R := row.mergeSort (fun a b => a.1 ≤ b.1)

/-- assembler.inl:123-134: a zero put on the diagonal of a sorted row unless there is an entry.  The loop shifting the
entries behind place `k` (129-132) is an insertion here. -/
def diagInsert [Zero R] (r : Nat) (row : Row R) : Row R :=
  let k := row.findIdx (fun a => !(a.1 < r))
  match row[k]? with
  | none => row ++ [(r, 0)]
  | some a => if a.1 ≠ r then row.take k ++ (r, 0) :: row.drop k else row

/-- assembler.inl:114-136 `set_elements_on_matrix_diagonal` for row `r`. -/
def diagRow [Zero R] [DecidableEq R] (opts : Opts) (r : Nat) (row : Row R) : Row R :=
  if opts.incl then row
  else if !opts.sorted then (if getSafe row r = 0 then setAt row r 0 else row)
  else diagInsert r row

/-- assembler.inl:323-329 / 719-725: a row before the cells are visited. -/
def prepRow [Zero R] [DecidableEq R] (opts : Opts) (r : Nat) (row : Row R) : Row R :=
  let row := diagRow opts r row
  if opts.ordered && !opts.sorted then sortRow row else row

/-- assembler.inl:600-607: a row of `AssembleTemplate` before the cells are visited. -/
def prepTmplRow [Zero R] [DecidableEq R] (r : Nat) (row : Row R) : Row R :=
  sortRow (if getSafe row r = 0 then setAt row r 0 else row)

/-- assembler.inl:656-668: the loop over both rows in `AssembleTemplate`; the elemental row consists of (column, in the
pattern). -/
def tmergeStep [Zero R] (q : Nat × R) (qs : Row R) (rest : List (Nat × Bool) → Row R) : List (Nat × Bool) → Row R
  | [] => q :: qs
  | e :: es =>
    if q.1 < e.1 then q :: rest (e :: es)
    else if q.1 = e.1 then q :: rest es
    else if e.2 then (e.1, 0) :: tmergeStep q qs rest es
    else tmergeStep q qs rest es

/-- assembler.inl:650-683: a row of the pattern merged into the sorted global row by `AssembleTemplate`. -/
def tmerge [Zero R] : Row R → List (Nat × Bool) → Row R
  | [], es => (es.filter (fun e => e.2)).map (fun e => (e.1, 0))
  | q :: qs, es => tmergeStep q qs (tmerge qs) es

/-- assembler.inl:640-685: the work of `AssembleTemplate` on row `i` of a cell. -/
def tmplStep [Zero R] (n : Nat) (cell : Cell R) (i : Nat) (s : Row R × R) : (Row R × R) × Res :=
  ((tmerge s.1 ((sortCols n cell).map (fun j => ((idOf (cell.cols.getD j 0)).toNat, cell.Ab (j * n + i)))), s.2), .ok)

/-- The row updates `AssembleTemplate` makes for a list of cells. (assembler.inl:590-695) -/
def tmplOps [Zero R] (n : Nat) (cells : List (Cell R)) : List (Op (Row R × R)) :=
  cells.flatMap (fun cell => cellOps n cell (tmplStep n cell))

/-- assembler.inl:277-280 `_return_assembled_status` with `m_w.status` set to `-1` by the threads that failed
(345, 432, 482): `failed` lists the threads. -/
def status (failed : List Bool) : Int := failed.foldl (fun s f => min s (if f then -1 else 0)) 0

end
end Verif.Assembly
