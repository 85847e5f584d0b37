import Verif.Lemmas.Assembly5

/-!
C29 (ordered merge of rows), C30 (assembly is the sum of the elemental contributions, whatever the distribution and the
schedule), C31 (templates), C32 (the status).
-/
set_option linter.unusedSectionVars false
namespace Verif.Assembly
open Verif.Locking (Op Serial ofThread Ran St Steps Done start)

variable {R : Type} [AddCommGroup R]

/-! ### C29 -/

/-- C29: merging a sorted elemental row into a sorted row keeps the row sorted, keeps its columns, adds exactly the kept
columns, adds to every value exactly the kept entries of that column, and needs no more places than provided
(assembler.inl:441 resizes the row to `nRows + Size`). -/
theorem merge_exact (row : Row R) (es : List (Ent R)) (hr : SortedRow row)
    (he : es.Pairwise (fun a b => a.col < b.col)) :
    SortedRow (merge row es) ∧
    (∀ c, c ∈ colsOf (merge row es) ↔ c ∈ colsOf row ∨ ∃ e ∈ es, e.keep = true ∧ e.col = c) ∧
    (∀ c, rowVal (merge row es) c =
      rowVal row c + (es.map (fun e => if e.keep = true ∧ e.col = c then e.val else 0)).sum) ∧
    (merge row es).length ≤ row.length + es.length :=
  ⟨sorted_merge row es hr he, colsOf_merge row es, rowVal_merge row es, length_merge row es⟩

/-- an elemental row used in the examples: columns 1, 4, 6, the second one dropped -/
def exEnts : List (Ent Int) := [⟨1, true, 5⟩, ⟨4, false, 7⟩, ⟨6, true, -2⟩]

example : SortedRow [(1, (10 : Int)), (4, 20), (9, 30)] ∧ exEnts.Pairwise (fun a b => a.col < b.col) ∧
    merge [(1, 10), (4, 20), (9, 30)] exEnts = [(1, 15), (4, 20), (6, -2), (9, 30)] := by
  unfold SortedRow
  decide

/-- C29: the same values and columns as inserting the entries one by one (`matrix[r][c] += v`) in any order. -/
theorem merge_one_by_one (row : Row R) (es es' : List (Ent R)) (hp : es'.Perm es) (c : Nat) :
    let one := es'.foldl (fun r e => if e.keep then addAt r e.col e.val else r) row
    rowVal one c = rowVal (merge row es) c ∧ (c ∈ colsOf one ↔ c ∈ colsOf (merge row es)) := by
  constructor
  · show rowVal (addAll row es') c = _
    rw [rowVal_addAll, rowVal_merge, entSum_perm hp]
  · show c ∈ colsOf (addAll row es') ↔ _
    rw [mem_addAll_cols, colsOf_merge]
    constructor
    · rintro (h | ⟨e, h, h'⟩)
      · exact Or.inl h
      · exact Or.inr ⟨e, hp.mem_iff.1 h, h'⟩
    · rintro (h | ⟨e, h, h'⟩)
      · exact Or.inl h
      · exact Or.inr ⟨e, hp.mem_iff.2 h, h'⟩

example : exEnts.reverse.Perm exEnts := List.reverse_perm _

/-- C29: on a row that contains the columns, the search for their places (with differences of 32-bit numbers) gives the
same row as the merge. -/
theorem template_add (row : Row R) (es : List (Ent R)) (hr : SortedRow row)
    (he : es.Pairwise (fun a b => a.col < b.col)) (hb : ∀ c ∈ colsOf row, c < 2 ^ 32)
    (hc : ∀ e ∈ es, e.keep = true → e.col ∈ colsOf row) :
    tmplAdd row es = some (merge row es) ∧ colsOf (merge row es) = colsOf row :=
  ⟨tmplAdd_eq row es hr he hb hc, colsOf_merge_eq row es hr he hc⟩

example : (∀ c ∈ colsOf [(1, (10 : Int)), (6, 20), (9, 30)], c < 2 ^ 32) ∧
    ∀ e ∈ exEnts, e.keep = true → e.col ∈ colsOf [(1, (10 : Int)), (6, 20), (9, 30)] := by
  unfold colsOf exEnts
  simp

/-- Without a missing column the search stops: a column that is not in the row aborts the program. -/
theorem template_add_missing (row : Row R) (c : Nat) (hc : c ∉ colsOf row) : tmplFind row c = none := by
  unfold tmplFind
  split
  · rfl
  · rename_i q qs
    simp only
    split
    · split
      · rename_i a ha
        rw [if_neg]
        intro e
        apply hc
        rw [← e]
        exact List.mem_map_of_mem (List.mem_of_getElem? ha)
      · rfl
    · rfl

example : 5 ∉ colsOf [(1, (10 : Int)), (6, 20), (9, 30)] := by unfold colsOf; decide

/-- C29: the local columns are visited in the order of increasing global columns. -/
theorem columns_sorted {msize n : Nat} {cell : Cell R} (hv : Valid msize n cell) :
    (sortCols n cell).Perm (List.range n) ∧
      (sortCols n cell).Pairwise (fun a b => ∀ c d, Means (cell.cols.getD a 0) c → Means (cell.cols.getD b 0) d → c < d) := by
  refine ⟨sortCols_perm n cell, ?_⟩
  have h := sortCols_sorted hv (allNum (R := R)) 0 false
  unfold SortedEnts at h
  rw [List.pairwise_map] at h
  refine h.imp ?_
  intro a b h c d hc hd
  have h' : (idOf (cell.cols.getD a 0)).toNat < (idOf (cell.cols.getD b 0)).toNat := h
  rw [means_id hc, means_id hd] at h'
  exact h'

/-- a cell used in the examples: rows 0 (negative), another process, 5; columns 3, 1 (negative), 5 -/
def exCell : Cell Int where
  active := true
  rows := [-1, 0, 6]
  cols := [4, -2, 6]
  A := fun k => k + 1
  Ab := fun k => k != 4
  F := fun k => 10 * k + 1

/-- the tests used in the examples -/
def exNum : Num Int := { big := fun x => x != 0, fin := fun _ => true }

theorem exCell_valid : Valid 7 3 exCell where
  size := rfl
  means := by
    intro code hc
    have : code = 4 ∨ code = -2 ∨ code = 6 := by simpa [exCell] using hc
    unfold Means
    rcases this with h | h | h
    · exact ⟨3, by omega, by omega⟩
    · exact ⟨1, by omega, by omega⟩
    · exact ⟨5, by omega, by omega⟩
  diff := by
    intro j j' c hj hj' h h'
    have hj : j = 0 ∨ j = 1 ∨ j = 2 := by omega
    have hj' : j' = 0 ∨ j' = 1 ∨ j' = 2 := by omega
    unfold Means at h h'
    rcases hj with rfl | rfl | rfl <;> rcases hj' with rfl | rfl | rfl <;> simp [exCell] at h h' <;> omega

example : Valid 7 3 exCell := exCell_valid

/-! ### C30 -/

/-- the state of a row between updates -/
def RowInv (opts : Opts) (n : Nat) (all : List (Cell R)) (r : Nat) (row : Row R) : Prop :=
  (opts.ordered = true → SortedRow row) ∧
  (opts.ordered = true → opts.incl = true → ∀ c ∈ colsOf row, c < 2 ^ 32) ∧
  (opts.ordered = true → opts.incl = true → ∀ cell ∈ all, cell.active = true → ∀ i, i < n →
    Means (cell.rows.getD i 0) r → RowTmpl n cell i row)

theorem rowInv_pre {opts : Opts} {n : Nat} {all : List (Cell R)} {r : Nat} {row : Row R} (h : RowInv opts n all r row)
    {cell : Cell R} (hc : cell ∈ all) (ha : cell.active = true) {i : Nat} (hi : i < n) (hm : Means (cell.rows.getD i 0) r) :
    RowPre opts n cell i row :=
  ⟨h.1, h.2.1, fun h1 h2 => h.2.2 h1 h2 cell hc ha i hi hm⟩

theorem rowInv_post {nm : Num R} {opts : Opts} {n : Nat} {all : List (Cell R)} {r : Nat} {row row' : Row R}
    (h : RowInv opts n all r row) {cell : Cell R} (hc : cell ∈ all) (ha : cell.active = true) {i : Nat} (hi : i < n)
    (hm : Means (cell.rows.getD i 0) r) (hp : RowPost nm opts n cell i row row') : RowInv opts n all r row' := by
  refine ⟨hp.sorted, ?_, ?_⟩
  · intro h1 h2 c hc'
    rw [hp.keep (h.2.2 h1 h2 cell hc ha i hi hm)] at hc'
    exact h.2.1 h1 h2 c hc'
  · intro h1 h2 cell' hc' ha' i' hi' hm'
    have := h.2.2 h1 h2 cell' hc' ha' i' hi' hm'
    intro j c hj hmj hab
    rw [hp.keep (h.2.2 h1 h2 cell hc ha i hi hm)]
    exact this j c hj hmj hab

theorem rowInv_ready [DecidableEq R] {opts : Opts} {n : Nat} {all : List (Cell R)} {mat : Nat → Row R}
    (h : Ready opts n all mat) (r : Nat) : RowInv opts n all r (prepRow opts r (mat r)) := by
  have hp := prepRow_post opts r (mat r) (fun hs => h.sorted hs r)
  refine ⟨fun ho => hp.sorted ho (h.nodup ho r) (fun hs => h.sorted hs r), ?_, ?_⟩
  · intro ho hi c hc
    exact h.small ho hi r c (hp.incl hi c hc)
  · intro ho hi cell hc ha i hi' hm j c hj hmj hab
    exact hp.cols c (h.tmpl ho hi cell hc ha i hi' j hj r c hm hmj hab)

/-- C30: whatever the distribution of the cells over the threads and whatever the schedule, every entry of the assembled
matrix is its old value plus the sum of the signed elemental contributions, every entry of the right-hand side
likewise, and no thread fails. -/
theorem assembly_exact [DecidableEq R] (nm : Num R) (opts : Opts) (withRhs : Bool) (msize n T : Nat)
    (cells : Nat → List (Cell R)) (all : List (Cell R)) (hsplit : Split T cells all)
    (hv : ∀ cell ∈ all, Valid msize n cell) (hf : ∀ cell ∈ all, cell.active = true → AllFinite nm withRhs n cell)
    (mat : Nat → Row R) (rhs : Nat → R) (hr : Ready opts n all mat) (useLock : Bool) (hl : useLock = true ∨ T ≤ 1)
    (s : St (Row R × R))
    (hs : Steps useLock (start (fun r => (prepRow opts r (mat r), rhs r))
      (fun t => sysOps nm opts withRhs msize n (cells t))) s) (hd : Done s) :
    (∀ r c, rowVal (s.mem r).1 c = rowVal (mat r) c + matSum nm n all r c) ∧
    (∀ r, (s.mem r).2 = rhs r + if withRhs then rhsSum n all r else 0) ∧
    (∀ t, (s.thr t).failed = false) ∧
    (∀ r c, c ∈ colsOf (s.mem r).1 ↔ c ∈ colsOf (prepRow opts r (mat r)) ∨ Touched nm n all r c) ∧
    (opts.ordered = true → ∀ r, SortedRow (s.mem r).1) := by
  obtain ⟨hT, hp⟩ := hsplit
  have hstep : ∀ cell ∈ all, cell.active = true → ∀ i r, i < n → Means (cell.rows.getD i 0) r → ∀ s : Row R × R,
      RowInv opts n all r s.1 → ∃ row', rowStep nm opts withRhs msize n cell i s =
        ((row', rhsAfter withRhs cell i s.2), .ok) ∧ RowPost nm opts n cell i s.1 row' ∧ RowInv opts n all r row' := by
    intro cell hc ha i r hi hm s hI
    have hfin := hf cell hc ha i hi ((means_iff _ _).1 hm).1
    obtain ⟨row', h1, h2⟩ := rowStep_fin (withRhs := withRhs) (hv cell hc) (rowInv_pre hI hc ha hi hm)
      (fun j hj hab => hfin.2 j hj hab)
    refine ⟨row', ?_, h2, rowInv_post hI hc ha hi hm h2⟩
    rw [h1, if_neg]
    intro h
    rw [Bool.and_eq_true, Bool.not_eq_true'] at h
    rw [hfin.1 h.1] at h
    exact nomatch h.2
  have hI0 : ∀ r, RowInv opts n all r ((fun r => (prepRow opts r (mat r), rhs r)) r).1 := fun r => rowInv_ready hr r
  have hprep := fun r => prepRow_post opts r (mat r) (fun hs => hr.sorted hs r)
  refine ⟨?_, ?_, ?_, ?_, ?_⟩
  · intro r c
    have := (run_sum hT hp (rowStep nm opts withRhs msize n) (fun r s => RowInv opts n all r s.1)
      (fun s => rowVal s.1 c) (fun cell i => rowTerm nm n cell i c) (by
        intro cell hc ha i r hi hm s hI
        obtain ⟨row', h1, h2, h3⟩ := hstep cell hc ha i r hi hm s hI
        rw [h1]
        exact ⟨h3, h2.val c, rfl⟩) hl hI0 hs hd).2 r
    simp only at this
    rw [this, (hprep r).val]
    congr 1
    unfold matSum
    congr 1
    refine List.map_congr_left ?_
    intro cell _
    refine Finset.sum_congr rfl ?_
    intro i _
    unfold rowTerm
    split
    · rename_i h
      refine Finset.sum_congr rfl ?_
      intro j _
      simp only [h.1, h.2, true_and]
    · rename_i h
      symm
      refine Finset.sum_eq_zero ?_
      intro j _
      rw [if_neg (fun h' => h ⟨h'.1, h'.2.1⟩)]
  · intro r
    have := (run_sum hT hp (rowStep nm opts withRhs msize n) (fun r s => RowInv opts n all r s.1)
      (fun s => s.2) (fun cell i => if withRhs then signed (cell.rows.getD i 0) 1 (cell.F i) else 0) (by
        intro cell hc ha i r hi hm s hI
        obtain ⟨row', h1, h2, h3⟩ := hstep cell hc ha i r hi hm s hI
        rw [h1]
        refine ⟨h3, ?_, rfl⟩
        show rhsAfter withRhs cell i s.2 = _
        unfold rhsAfter
        cases withRhs <;> simp) hl hI0 hs hd).2 r
    simp only at this
    rw [this]
    congr 1
    unfold rhsSum
    cases withRhs with
    | true => simp
    | false => simp
  · exact (run_sum hT hp (rowStep nm opts withRhs msize n) (fun r s => RowInv opts n all r s.1)
      (fun _ => (0 : R)) (fun _ _ => 0) (by
        intro cell hc ha i r hi hm s hI
        obtain ⟨row', h1, h2, h3⟩ := hstep cell hc ha i r hi hm s hI
        rw [h1]
        exact ⟨h3, by simp, rfl⟩) hl hI0 hs hd).1
  · intro r c
    have := run_or hT hp (rowStep nm opts withRhs msize n) (fun r s => RowInv opts n all r s.1)
      (fun s => c ∈ colsOf s.1) (fun cell i => ∃ j, j < n ∧ Means (cell.cols.getD j 0) c ∧
        cell.Ab (j * n + i) = true ∧ nm.big (cell.A (j * n + i)) = true) (by
        intro cell hc ha i r hi hm s hI
        obtain ⟨row', h1, h2, h3⟩ := hstep cell hc ha i r hi hm s hI
        rw [h1]
        exact ⟨h3, h2.cols c, rfl⟩) hl hI0 hs hd r
    rw [this]
    refine or_congr_right ?_
    unfold Touched
    constructor
    · rintro ⟨cell, hc, ha, i, hi, hm, j, hj, h⟩
      exact ⟨cell, hc, ha, i, j, hi, hj, hm, h⟩
    · rintro ⟨cell, hc, ha, i, j, hi, hj, hm, h⟩
      exact ⟨cell, hc, ha, i, hi, hm, j, hj, h⟩
  · intro ho r
    exact ((run_inv hT hp (rowStep nm opts withRhs msize n) (fun r s => RowInv opts n all r s.1) (by
        intro cell hc ha i r hi hm s hI
        obtain ⟨row', h1, h2, h3⟩ := hstep cell hc ha i r hi hm s hI
        rw [h1]
        exact h3) hl hI0 hs hd).1 r).1 ho

/-- the two copies of the example cell on two threads -/
def exSplit : Nat → List (Cell Int)
  | 0 => [exCell]
  | 1 => [exCell]
  | _ => []

theorem exSplit_split : Split 2 exSplit [exCell, exCell] := by
  constructor
  · intro t h
    match t, h with
    | t + 2, _ => rfl
  · exact List.Perm.refl _

example : Split 2 exSplit [exCell, exCell] ∧ (∀ cell ∈ [exCell, exCell], Valid 7 3 cell) ∧
    (∀ cell ∈ [exCell, exCell], cell.active = true → AllFinite exNum true 3 cell) ∧
    Ready ⟨true, true, false⟩ 3 [exCell, exCell] (fun _ => [(0, 3), (4, 8)]) ∧
    (∃ s, Steps true (start (fun r => (prepRow ⟨true, true, false⟩ r [(0, 3), (4, 8)], 0))
      (fun t => sysOps exNum ⟨true, true, false⟩ true 7 3 (exSplit t))) s ∧ Done s) ∧
    matSum exNum 3 [exCell, exCell] 0 1 = 8 := by
  refine ⟨exSplit_split, ?_, ?_, ⟨?_, ?_, ?_, ?_⟩, ?_, by decide⟩
  · intro cell h
    have : cell = exCell := by simpa using h
    exact this ▸ exCell_valid
  · intro cell _ _ i _ _
    exact ⟨fun _ => rfl, fun _ _ _ => rfl⟩
  · intro _ r; show [0, 4].Nodup; decide
  · intro _ r; unfold SortedRow; simp
  · intro _ h; exact nomatch h
  · intro _ h; exact nomatch h
  · refine Verif.Locking.run_exists true _ _ 2 ?_
    intro t h
    match t, h with
    | t + 2, _ => rfl

/-- sorted rows with the same columns and values are equal -/
theorem sorted_ext (a b : Row R) (ha : SortedRow a) (hb : SortedRow b) (hc : ∀ c, c ∈ colsOf a ↔ c ∈ colsOf b)
    (hv : ∀ c, rowVal a c = rowVal b c) : a = b := by
  have hval : ∀ (row : Row R), SortedRow row → ∀ q ∈ row, rowVal row q.1 = q.2 := by
    intro row hr
    induction row with
    | nil => intro q h; exact nomatch h
    | cons x xs ih =>
      intro q hq
      have hx := List.pairwise_cons.1 hr
      rw [rowVal_cons]
      rcases List.mem_cons.1 hq with h | h
      · subst h
        rw [if_pos rfl]
        have : rowVal xs q.1 = 0 := by
          unfold rowVal
          rw [List.filter_eq_nil_iff.2]
          · rfl
          · intro y hy
            have := hx.1 y hy
            simp only [decide_eq_true_eq]
            omega
        rw [this, add_zero]
      · have := hx.1 q h
        rw [if_neg (by omega), ih hx.2 q h, zero_add]
  have hcols : colsOf a = colsOf b := by
    have h1 := (sortedRow_iff _).1 ha
    have h2 := (sortedRow_iff _).1 hb
    refine List.Perm.eq_of_pairwise' h1 h2 ?_
    rw [List.perm_ext_iff_of_nodup (h1.imp (fun h => Nat.ne_of_lt h)) (h2.imp (fun h => Nat.ne_of_lt h))]
    exact hc
  have hmap : ∀ row : Row R, SortedRow row → row = (colsOf row).map (fun c => (c, rowVal row c)) := by
    intro row hr
    unfold colsOf
    rw [List.map_map]
    conv_lhs => rw [← List.map_id row]
    refine List.map_congr_left ?_
    intro q hq
    simp only [Function.comp_apply, id_eq]
    rw [hval row hr q hq]
  rw [hmap a ha, hmap b hb, hcols]
  refine List.map_congr_left ?_
  intro c _
  rw [hv c]

theorem matSum_perm (nm : Num R) (n : Nat) {a b : List (Cell R)} (h : a.Perm b) (r c : Nat) :
    matSum nm n a r c = matSum nm n b r c := (h.map _).sum_eq

theorem rhsSum_perm (n : Nat) {a b : List (Cell R)} (h : a.Perm b) (r : Nat) : rhsSum n a r = rhsSum n b r :=
  (h.map _).sum_eq

/-- C30: two assemblies of the same cells, in any orders, on any numbers of threads with any schedules, give the same
matrix values and right-hand sides; in the ordered mode the same rows. -/
theorem assembly_same [DecidableEq R] (nm : Num R) (opts : Opts) (withRhs : Bool) (msize n T T' : Nat)
    (cells cells' : Nat → List (Cell R)) (all all' : List (Cell R)) (hall : all.Perm all')
    (hsplit : Split T cells all) (hsplit' : Split T' cells' all')
    (hv : ∀ cell ∈ all, Valid msize n cell) (hf : ∀ cell ∈ all, cell.active = true → AllFinite nm withRhs n cell)
    (mat : Nat → Row R) (rhs : Nat → R) (hr : Ready opts n all mat) (l l' : Bool) (hl : l = true ∨ T ≤ 1)
    (hl' : l' = true ∨ T' ≤ 1) (s s' : St (Row R × R))
    (hs : Steps l (start (fun r => (prepRow opts r (mat r), rhs r))
      (fun t => sysOps nm opts withRhs msize n (cells t))) s) (hd : Done s)
    (hs' : Steps l' (start (fun r => (prepRow opts r (mat r), rhs r))
      (fun t => sysOps nm opts withRhs msize n (cells' t))) s') (hd' : Done s') :
    (∀ r c, rowVal (s.mem r).1 c = rowVal (s'.mem r).1 c) ∧ (∀ r, (s.mem r).2 = (s'.mem r).2) ∧
    (∀ r c, c ∈ colsOf (s.mem r).1 ↔ c ∈ colsOf (s'.mem r).1) ∧
    (opts.ordered = true → ∀ r, s.mem r = s'.mem r) := by
  have hsplit2 : Split T' cells' all := ⟨hsplit'.1, hsplit'.2.trans hall.symm⟩
  obtain ⟨a1, a2, _, a4, a5⟩ := assembly_exact nm opts withRhs msize n T cells all hsplit hv hf mat rhs hr l hl s hs hd
  obtain ⟨b1, b2, _, b4, b5⟩ := assembly_exact nm opts withRhs msize n T' cells' all hsplit2 hv hf mat rhs hr l' hl' s' hs' hd'
  have h1 : ∀ r c, rowVal (s.mem r).1 c = rowVal (s'.mem r).1 c := fun r c => by rw [a1, b1]
  have h2 : ∀ r, (s.mem r).2 = (s'.mem r).2 := fun r => by rw [a2, b2]
  have h3 : ∀ r c, c ∈ colsOf (s.mem r).1 ↔ c ∈ colsOf (s'.mem r).1 := fun r c => by rw [a4, b4]
  refine ⟨h1, h2, h3, ?_⟩
  intro ho r
  exact Prod.ext (sorted_ext _ _ (a5 ho r) (b5 ho r) (h3 r) (h1 r)) (h2 r)

/-- the same two cells on one thread -/
def exSplit1 : Nat → List (Cell Int)
  | 0 => [exCell, exCell]
  | _ => []

example : Split 1 exSplit1 [exCell, exCell] ∧ Split 2 exSplit [exCell, exCell] ∧ (false = true ∨ 1 ≤ 1) :=
  ⟨⟨fun t h => by match t, h with | t + 1, _ => rfl, List.Perm.refl _⟩, exSplit_split, Or.inr (Nat.le_refl _)⟩

/-- C30 for `AssembleRHS`: every entry of the right-hand side is its old value plus the signed elemental contributions,
and the matrix is not changed. -/
theorem rhs_exact (nm : Num R) (n T : Nat) (cells : Nat → List (Cell R)) (all : List (Cell R))
    (hsplit : Split T cells all)
    (hf : ∀ cell ∈ all, cell.active = true → ∀ i, i < n → cell.rows.getD i 0 ≠ 0 → nm.fin (cell.F i) = true)
    (mem : Nat → Row R × R) (useLock : Bool) (hl : useLock = true ∨ T ≤ 1) (s : St (Row R × R))
    (hs : Steps useLock (start mem (fun t => rhsOps nm n (cells t))) s) (hd : Done s) :
    (∀ r, (s.mem r).2 = (mem r).2 + rhsSum n all r) ∧ (∀ r, (s.mem r).1 = (mem r).1) ∧ ∀ t, (s.thr t).failed = false := by
  obtain ⟨hT, hp⟩ := hsplit
  have hstep : ∀ cell ∈ all, cell.active = true → ∀ i r, i < n → Means (cell.rows.getD i 0) r → ∀ s : Row R × R,
      rhsStep nm cell i s = ((s.1, s.2 + signed (cell.rows.getD i 0) 1 (cell.F i)), .ok) := by
    intro cell hc ha i r hi hm s
    unfold rhsStep
    rw [if_pos (hf cell hc ha i hi ((means_iff _ _).1 hm).1), sgn_one]
  have h1 := run_sum hT hp (rhsStep nm) (fun _ _ => True) (fun s => s.2)
    (fun cell i => signed (cell.rows.getD i 0) 1 (cell.F i)) (by
      intro cell hc ha i r hi hm s _
      rw [hstep cell hc ha i r hi hm s]
      exact ⟨trivial, rfl, rfl⟩) hl (fun _ => trivial) hs hd
  refine ⟨h1.2, ?_, h1.1⟩
  intro r
  exact (run_inv hT hp (rhsStep nm) (fun r s => s.1 = (mem r).1) (by
      intro cell hc ha i r hi hm s h
      rw [hstep cell hc ha i r hi hm s]
      exact h) hl (fun _ => rfl) hs hd).1 r

example : rhsSum 3 [exCell, exCell] 0 = -2 ∧ ∀ cell ∈ [exCell, exCell], cell.active = true → ∀ i, i < 3 →
    cell.rows.getD i 0 ≠ 0 → exNum.fin (cell.F i) = true := ⟨by decide, fun _ _ _ _ _ _ => rfl⟩

/-! ### C31 -/

/-- C31: after `AssembleTemplate`, on any number of threads with any schedule, every row is sorted, contains its diagonal,
everything it contained before with the same values, and every place a cell may insert into; nothing else was inserted
and the right-hand side is not changed. -/
theorem template_exact [DecidableEq R] (msize n T : Nat) (cells : Nat → List (Cell R)) (all : List (Cell R))
    (hsplit : Split T cells all) (hv : ∀ cell ∈ all, Valid msize n cell) (mat : Nat → Row R) (rhs : Nat → R)
    (hn : ∀ r, (colsOf (mat r)).Nodup) (useLock : Bool) (hl : useLock = true ∨ T ≤ 1) (s : St (Row R × R))
    (hs : Steps useLock (start (fun r => (prepTmplRow r (mat r), rhs r)) (fun t => tmplOps n (cells t))) s) (hd : Done s) :
    (∀ r, SortedRow (s.mem r).1) ∧ (∀ r, r ∈ colsOf (s.mem r).1) ∧
    (∀ r, ∀ q ∈ mat r, q ∈ (s.mem r).1) ∧ (∀ r c, rowVal (s.mem r).1 c = rowVal (mat r) c) ∧
    HasTemplate n all (fun r => (s.mem r).1) ∧
    (∀ r c, c ∈ colsOf (s.mem r).1 → c ∈ colsOf (mat r) ∨ c = r ∨ Touched allNum n all r c) ∧
    (∀ r, (s.mem r).2 = rhs r) ∧ ∀ t, (s.thr t).failed = false := by
  obtain ⟨hT, hp⟩ := hsplit
  have hprep : ∀ r, SortedRow (prepTmplRow r (mat r)) ∧ r ∈ colsOf (prepTmplRow r (mat r)) ∧
      (∀ q ∈ mat r, q ∈ prepTmplRow r (mat r)) ∧ (∀ c, rowVal (prepTmplRow r (mat r)) c = rowVal (mat r) c) ∧
      ∀ c ∈ colsOf (prepTmplRow r (mat r)), c ∈ colsOf (mat r) ∨ c = r := by
    intro r
    have hdg := setAt_diag (mat r) r
    have hperm : (prepTmplRow r (mat r)).Perm (if getSafe (mat r) r = 0 then setAt (mat r) r 0 else mat r) :=
      sortRow_perm _
    refine ⟨sorted_sortRow _ (diag_nodup hdg (hn r)), ?_, ?_, ?_, ?_⟩
    · refine (hperm.map _).mem_iff.2 ?_
      show r ∈ colsOf _
      split
      · rw [setAt_cols]
        split
        · assumption
        · simp
      · rename_i h
        unfold getSafe at h
        split at h
        · rename_i q hq
          have h1 := List.find?_some hq
          have h2 := List.mem_of_find?_eq_some hq
          rw [decide_eq_true_eq] at h1
          exact List.mem_map.2 ⟨q, h2, h1⟩
        · exact absurd rfl h
    · intro q hq
      exact hperm.mem_iff.2 ((diag_sub hdg).subset hq)
    · intro c
      rw [rowVal_perm hperm, diag_val hdg]
    · intro c hc
      exact (diag_cols hdg c).2 ((hperm.map _).mem_iff.1 hc)
  have hstep : ∀ cell ∈ all, ∀ i (s : Row R × R), SortedRow s.1 → _ :=
    fun cell hc i s h => tmplStep_post (hv cell hc) i s h
  have hinv := (run_inv hT hp (tmplStep n) (fun r s => SortedRow s.1 ∧ (∀ q ∈ prepTmplRow r (mat r), q ∈ s.1) ∧
      (∀ c, rowVal s.1 c = rowVal (mat r) c) ∧ s.2 = rhs r) (by
    intro cell hc ha i r hi hm s h
    obtain ⟨row', h1, h2, h3, h4, h5⟩ := hstep cell hc i s h.1
    rw [h1]
    exact ⟨h2, fun q hq => h3.subset (h.2.1 q hq), fun c => (h4 c).trans (h.2.2.1 c), h.2.2.2⟩) hl
    (fun r => ⟨(hprep r).1, fun q hq => hq, (hprep r).2.2.2.1, rfl⟩) hs hd).1
  have hcols := fun r c => run_or hT hp (tmplStep n) (fun _ s => SortedRow s.1) (fun s => c ∈ colsOf s.1)
    (fun cell i => ∃ j, j < n ∧ Means (cell.cols.getD j 0) c ∧ cell.Ab (j * n + i) = true) (by
      intro cell hc ha i r hi hm s h
      obtain ⟨row', h1, h2, h3, h4, h5⟩ := hstep cell hc i s h
      rw [h1]
      exact ⟨h2, h5 c, rfl⟩) hl (fun r => (hprep r).1) hs hd r
  refine ⟨fun r => (hinv r).1, ?_, ?_, fun r => (hinv r).2.2.1, ?_, ?_, fun r => (hinv r).2.2.2, ?_⟩
  · intro r
    exact (hcols r r).2 (Or.inl (hprep r).2.1)
  · intro r q hq
    exact (hinv r).2.1 q ((hprep r).2.2.1 q hq)
  · intro cell hc ha i hi j hj r c hm hmj hab
    exact (hcols r c).2 (Or.inr ⟨cell, hc, ha, i, hi, hm, j, hj, hmj, hab⟩)
  · intro r c h
    rcases (hcols r c).1 h with h1 | ⟨cell, hc, ha, i, hi, hm, j, hj, hmj, hab⟩
    · rcases (hprep r).2.2.2.2 c h1 with h2 | h2
      · exact Or.inl h2
      · exact Or.inr (Or.inl h2)
    · exact Or.inr (Or.inr ⟨cell, hc, ha, i, j, hi, hj, hm, hmj, hab, rfl⟩)
  · exact (run_sum (M := Int) hT hp (tmplStep n) (fun _ s => SortedRow s.1) (fun _ => 0) (fun _ _ => 0) (by
      intro cell hc ha i r hi hm s h
      obtain ⟨row', h1, h2, h3, h4, h5⟩ := hstep cell hc i s h
      rw [h1]
      exact ⟨h2, by simp, rfl⟩) hl (fun r => (hprep r).1) hs hd).1

example : Split 2 exSplit [exCell, exCell] ∧ (∀ cell ∈ [exCell, exCell], Valid 7 3 cell) ∧
    (colsOf [(9, (3 : Int)), (4, 8)]).Nodup ∧ ∃ s, Steps true (start (fun r => (prepTmplRow r [(9, 3), (4, 8)], 0))
      (fun t => tmplOps 3 (exSplit t))) s ∧ Done s := by
  refine ⟨exSplit_split, ?_, by unfold colsOf; decide, Verif.Locking.run_exists true _ _ 2 ?_⟩
  · intro cell h
    have : cell = exCell := by simpa using h
    exact this ▸ exCell_valid
  · intro t h
    match t, h with
    | t + 2, _ => rfl

/-- C31: on a matrix with sorted rows that contain the diagonal and the template, an assembly with any options leaves the
columns of every row as they are. -/
theorem template_keeps [DecidableEq R] (nm : Num R) (opts : Opts) (withRhs : Bool) (msize n T : Nat)
    (cells : Nat → List (Cell R)) (all : List (Cell R)) (hsplit : Split T cells all)
    (hv : ∀ cell ∈ all, Valid msize n cell) (hf : ∀ cell ∈ all, cell.active = true → AllFinite nm withRhs n cell)
    (mat : Nat → Row R) (rhs : Nat → R) (hsort : ∀ r, SortedRow (mat r)) (hdiag : ∀ r, r ∈ colsOf (mat r))
    (hsmall : ∀ r, ∀ c ∈ colsOf (mat r), c < 2 ^ 32 ∨ opts.incl = false) (ht : HasTemplate n all mat) (useLock : Bool)
    (hl : useLock = true ∨ T ≤ 1) (s : St (Row R × R))
    (hs : Steps useLock (start (fun r => (prepRow opts r (mat r), rhs r))
      (fun t => sysOps nm opts withRhs msize n (cells t))) s) (hd : Done s) (r : Nat) :
    colsOf (s.mem r).1 = colsOf (mat r) := by
  obtain ⟨hT, hp⟩ := hsplit
  have hr : Ready opts n all mat :=
    ⟨fun _ r => sorted_nodup _ (hsort r), fun _ => hsort, fun _ hi r c hc => (hsmall r c hc).elim id (fun h => by rw [hi] at h; exact absurd h (by simp)), fun _ _ => ht⟩
  have hprep : ∀ r, prepRow opts r (mat r) = mat r :=
    fun r => (prepRow_post opts r (mat r) (fun _ => hsort r)).keep (hsort r) (hdiag r)
  exact ((run_inv hT hp (rowStep nm opts withRhs msize n)
    (fun r s => RowInv opts n all r s.1 ∧ colsOf s.1 = colsOf (mat r)) (by
      intro cell hc ha i r hi hm s hI
      have hfin := hf cell hc ha i hi ((means_iff _ _).1 hm).1
      obtain ⟨row', h1, h2⟩ := rowStep_fin (withRhs := withRhs) (hv cell hc) (rowInv_pre hI.1 hc ha hi hm)
        (fun j hj hab => hfin.2 j hj hab)
      rw [h1]
      refine ⟨rowInv_post hI.1 hc ha hi hm h2, ?_⟩
      show colsOf row' = _
      rw [h2.keep, hI.2]
      intro j c hj hmj hab
      rw [hI.2]
      exact ht cell hc ha i hi j hj r c hm hmj hab) hl
    (fun r => ⟨rowInv_ready hr r, by show colsOf (prepRow opts r (mat r)) = _; rw [hprep]⟩) hs hd).1 r).2

/-- a matrix containing the template of the example cell -/
def exMat (r : Nat) : Row Int := if r < 7 then (List.range 7).map (fun c => (c, 0)) else [(r, 0)]

example : (∀ r, SortedRow (exMat r)) ∧ (∀ r, r ∈ colsOf (exMat r)) ∧ HasTemplate 3 [exCell, exCell] exMat := by
  refine ⟨?_, ?_, ?_⟩
  · intro r
    unfold exMat
    split
    · unfold SortedRow; decide
    · unfold SortedRow; simp
  · intro r
    unfold exMat colsOf
    split
    · rw [List.map_map]
      exact List.mem_map.2 ⟨r, List.mem_range.2 (by assumption), rfl⟩
    · simp
  · intro cell hc _ i hi j hj r c hm hmj _
    have : cell = exCell := by simpa using hc
    subst this
    have hr : r < 7 := by
      have : i = 0 ∨ i = 1 ∨ i = 2 := by omega
      unfold Means at hm
      rcases this with rfl | rfl | rfl <;> simp [exCell] at hm <;> omega
    obtain ⟨d, hd, hmd⟩ := valid_ids exCell_valid j hj
    have : c = d := by
      have h1 := means_id hmj
      have h2 := means_id hmd
      omega
    subst this
    unfold exMat colsOf
    rw [if_pos hr, List.map_map]
    exact List.mem_map.2 ⟨c, List.mem_range.2 hd, rfl⟩

/-! ### C32 -/

theorem status_eq (failed : List Bool) : status failed = if true ∈ failed then -1 else 0 := by
  have key : ∀ (l : List Bool) (x : Int), (x = 0 ∨ x = -1) →
      l.foldl (fun s f => min s (if f then -1 else 0)) x = if true ∈ l then -1 else x := by
    intro l
    induction l with
    | nil => intro x _; simp
    | cons a l ih =>
      intro x hx
      rw [List.foldl_cons, ih]
      · cases a with
        | true =>
          rcases hx with h | h <;> subst h <;> simp
        | false =>
          rcases hx with h | h <;> subst h <;> simp
      · rcases hx with h | h <;> subst h <;> cases a <;> simp
  exact key failed 0 (Or.inl rfl)

/-- when threads fail -/
theorem failed_iff {T n : Nat} {cells : Nat → List (Cell R)} {all : List (Cell R)}
    (hT : ∀ t, T ≤ t → cells t = []) (hp : ((List.range T).flatMap cells).Perm all)
    (w : Cell R → Nat → Row R × R → (Row R × R) × Res) (I : Nat → Row R × R → Prop) (good : Cell R → Nat → Prop)
    (hstep : ∀ cell ∈ all, cell.active = true → ∀ i r, i < n → Means (cell.rows.getD i 0) r → ∀ s, I r s →
      I r (w cell i s).1 ∧ ((w cell i s).2 = .ok ↔ good cell i))
    {useLock : Bool} (hl : useLock = true ∨ T ≤ 1) {mem : Nat → Row R × R} (hI : ∀ r, I r (mem r)) {s : St (Row R × R)}
    (hs : Steps useLock (start mem (fun t => opsOf n w (cells t))) s) (hd : Done s) :
    (∃ t, t < T ∧ (s.thr t).failed = true) ↔
      ∃ cell ∈ all, cell.active = true ∧ ∃ i, i < n ∧ cell.rows.getD i 0 ≠ 0 ∧ ¬ good cell i := by
  obtain ⟨_, H, hser, hran, hmem, hst⟩ := run_inv hT hp w I
    (fun cell hc ha i r hi hm s h => (hstep cell hc ha i r hi hm s h).1) hl hI hs hd
  have hflag : ∀ e ∈ H, ∃ cell ∈ all, cell.active = true ∧ ∃ i r, i < n ∧ Means (cell.rows.getD i 0) r ∧
      e.2.1 = opOf cell (w cell) i ∧ (e.2.2 = true ↔ good cell i) := by
    intro e he
    obtain ⟨s', hs1, hs2⟩ := hst e he
    obtain ⟨_, cell, hc, ha, i, r, hi, hm, hk, ho⟩ := hmem e he
    refine ⟨cell, hc, ha, i, r, hi, hm, ho, ?_⟩
    have := (hstep cell hc ha i r hi hm s' (hk ▸ hs1)).2
    rw [← hs2, ho]
    show decide ((w cell i s').2 = .ok) = true ↔ _
    rw [decide_eq_true_eq]
    exact this
  constructor
  · rintro ⟨t, ht, hft⟩
    have h1 := hran t
    rw [hft] at h1
    obtain ⟨pre, op, rest, hw, he⟩ := h1
    have h2 : (op, false) ∈ ofThread t H := by rw [he]; simp
    obtain ⟨e, he1, he2⟩ := List.mem_map.1 h2
    obtain ⟨cell, hc, ha, i, r, hi, hm, ho, hg⟩ := hflag e (List.mem_filter.1 he1).1
    refine ⟨cell, hc, ha, i, hi, ((means_iff _ _).1 hm).1, ?_⟩
    intro h
    have := hg.2 h
    rw [he2] at this
    exact nomatch this
  · rintro ⟨cell, hc, ha, i, hi, hcode, hbad⟩
    obtain ⟨t, ht1, ht2⟩ := List.mem_flatMap.1 (hp.mem_iff.2 hc)
    refine ⟨t, List.mem_range.1 ht1, ?_⟩
    cases hft : (s.thr t).failed with
    | true => rfl
    | false =>
      exfalso
      have h1 := hran t
      rw [hft] at h1
      have h3 : ofThread t H = (opsOf n w (cells t)).map (fun o => (o, true)) := h1
      have hm : Means (cell.rows.getD i 0) (idOf (cell.rows.getD i 0)).toNat := (means_iff _ _).2 ⟨hcode, rfl⟩
      have hop : opOf cell (w cell) i ∈ opsOf n w (cells t) :=
        List.mem_flatMap.2 ⟨cell, ht2, (mem_cellOps _ _ _ _).2 ⟨ha, i, hi, hcode, rfl⟩⟩
      have h4 : (opOf cell (w cell) i, true) ∈ ofThread t H := by
        rw [h3]; exact List.mem_map.2 ⟨_, hop, rfl⟩
      obtain ⟨e, he1, he2⟩ := List.mem_map.1 h4
      obtain ⟨s', hs1, hs2⟩ := hst e (List.mem_filter.1 he1).1
      rw [he2] at hs1 hs2
      have := (hstep cell hc ha i _ hi hm s' hs1).2.1 (by
        have : decide ((w cell i s').2 = .ok) = true := hs2
        rwa [decide_eq_true_eq] at this)
      exact hbad this

/-- C32: `Assemble` and `AssembleMatrix` return a negative status exactly when some value they look at is not finite,
whatever the distribution over threads and the schedule; otherwise they return 0. -/
theorem status_iff [DecidableEq R] (nm : Num R) (opts : Opts) (withRhs : Bool) (msize n T : Nat)
    (cells : Nat → List (Cell R)) (all : List (Cell R)) (hsplit : Split T cells all)
    (hv : ∀ cell ∈ all, Valid msize n cell) (mat : Nat → Row R) (rhs : Nat → R) (hr : Ready opts n all mat)
    (useLock : Bool) (hl : useLock = true ∨ T ≤ 1) (s : St (Row R × R))
    (hs : Steps useLock (start (fun r => (prepRow opts r (mat r), rhs r))
      (fun t => sysOps nm opts withRhs msize n (cells t))) s) (hd : Done s) :
    let st := status ((List.range T).map (fun t => (s.thr t).failed))
    (st < 0 ↔ ∃ cell ∈ all, cell.active = true ∧ ¬ AllFinite nm withRhs n cell) ∧ (st = 0 ∨ st = -1) := by
  classical
  obtain ⟨hT, hp⟩ := hsplit
  have hfi := failed_iff hT hp (rowStep nm opts withRhs msize n) (fun r s => RowInv opts n all r s.1)
    (fun cell i => RowFin nm n cell i ∧ (withRhs = true → nm.fin (cell.F i) = true)) (by
      intro cell hc ha i r hi hm s hI
      by_cases hfin : RowFin nm n cell i
      · obtain ⟨row', h1, h2⟩ := rowStep_fin (withRhs := withRhs) (hv cell hc) (rowInv_pre hI hc ha hi hm) hfin
        rw [h1]
        refine ⟨rowInv_post hI hc ha hi hm h2, ?_⟩
        simp only
        cases withRhs with
        | false => simp [hfin]
        | true => cases hF : nm.fin (cell.F i) <;> simp [hfin]
      · obtain ⟨s', h1, h2⟩ := rowStep_nan (opts := opts) (withRhs := withRhs) (s := s) (hv cell hc) hfin
        rw [h1]
        constructor
        · refine ⟨fun h => by rw [h2 h]; exact hI.1 h, fun h h' => by rw [h2 h]; exact hI.2.1 h h',
            fun h h' => by rw [h2 h]; exact hI.2.2 h h'⟩
        · constructor
          · exact fun h => nomatch h
          · exact fun h => absurd h.1 hfin) hl (fun r => rowInv_ready hr r) hs hd
  have hmem : true ∈ (List.range T).map (fun t => (s.thr t).failed) ↔ ∃ t, t < T ∧ (s.thr t).failed = true := by
    simp
  simp only
  rw [status_eq]
  constructor
  · have : (∃ cell ∈ all, cell.active = true ∧ ∃ i, i < n ∧ cell.rows.getD i 0 ≠ 0 ∧
        ¬ (RowFin nm n cell i ∧ (withRhs = true → nm.fin (cell.F i) = true))) ↔
        ∃ cell ∈ all, cell.active = true ∧ ¬ AllFinite nm withRhs n cell := by
      constructor
      · rintro ⟨cell, hc, ha, i, hi, hcode, hb⟩
        refine ⟨cell, hc, ha, ?_⟩
        intro hall
        have := hall i hi hcode
        exact hb ⟨this.2, this.1⟩
      · rintro ⟨cell, hc, ha, hb⟩
        apply Classical.byContradiction
        intro hno
        apply hb
        intro i hi hcode
        have : RowFin nm n cell i ∧ (withRhs = true → nm.fin (cell.F i) = true) :=
          Classical.byContradiction (fun h => hno ⟨cell, hc, ha, i, hi, hcode, h⟩)
        exact ⟨this.2, this.1⟩
    rw [← this, ← hfi, ← hmem]
    split
    · rename_i h; simpa using h
    · rename_i h; simpa using h
  · split
    · exact Or.inr rfl
    · exact Or.inl rfl

/-- an example with a value that is not finite: 7 stands for it -/
def exBadNum : Num Int := { big := fun x => x != 0, fin := fun x => x != 7 }

example : ¬ AllFinite exBadNum true 3 exCell := by
  intro h
  have := (h 0 (by decide) (by decide)).2 2 (by decide) (by decide)
  exact absurd this (by decide)

/-- C32 for `AssembleRHS`. -/
theorem rhs_status_iff (nm : Num R) (n T : Nat) (cells : Nat → List (Cell R)) (all : List (Cell R))
    (hsplit : Split T cells all) (mem : Nat → Row R × R) (useLock : Bool) (hl : useLock = true ∨ T ≤ 1)
    (s : St (Row R × R)) (hs : Steps useLock (start mem (fun t => rhsOps nm n (cells t))) s) (hd : Done s) :
    status ((List.range T).map (fun t => (s.thr t).failed)) < 0 ↔
      ∃ cell ∈ all, cell.active = true ∧ ∃ i, i < n ∧ cell.rows.getD i 0 ≠ 0 ∧ nm.fin (cell.F i) = false := by
  obtain ⟨hT, hp⟩ := hsplit
  have hfi := failed_iff hT hp (rhsStep nm) (fun _ _ => True) (fun cell i => nm.fin (cell.F i) = true) (by
      intro cell hc ha i r hi hm s _
      refine ⟨trivial, ?_⟩
      unfold rhsStep
      simp only
      cases nm.fin (cell.F i) <;> simp) hl (fun _ => trivial) hs hd
  have hmem : true ∈ (List.range T).map (fun t => (s.thr t).failed) ↔ ∃ t, t < T ∧ (s.thr t).failed = true := by
    simp
  rw [status_eq]
  simp only [Bool.not_eq_true] at hfi
  rw [← hfi, ← hmem]
  split
  · rename_i h; simpa using h
  · rename_i h; simpa using h

example : ∃ i, i < 3 ∧ exCell.rows.getD i 0 ≠ 0 ∧ ({ big := fun x => x != 0, fin := fun x => x != 21 } : Num Int).fin (exCell.F i) = false :=
  ⟨2, by decide, by decide, by decide⟩

end Verif.Assembly
