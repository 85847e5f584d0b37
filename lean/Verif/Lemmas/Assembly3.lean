import Verif.Lemmas.Assembly2

/-!
Lemmas for C29-C32: one row of one cell, and executions of many of them.
-/
set_option linter.unusedSectionVars false
namespace Verif.Assembly
open Verif.Locking (Op Serial ofThread Ran)

variable {R : Type} [AddCommGroup R]

/-- the columns a row of a cell may touch are there -/
def RowTmpl (n : Nat) (cell : Cell R) (i : Nat) (row : Row R) : Prop :=
  ∀ j c, j < n → Means (cell.cols.getD j 0) c → cell.Ab (j * n + i) = true → c ∈ colsOf row

/-- what the work on a row needs -/
structure RowPre (opts : Opts) (n : Nat) (cell : Cell R) (i : Nat) (row : Row R) : Prop where
  sorted : opts.ordered = true → SortedRow row
  small : opts.ordered = true → opts.incl = true → ∀ c ∈ colsOf row, c < 2 ^ 32
  tmpl : opts.ordered = true → opts.incl = true → RowTmpl n cell i row

/-- what the work on a row does -/
structure RowPost (nm : Num R) (opts : Opts) (n : Nat) (cell : Cell R) (i : Nat) (row row' : Row R) : Prop where
  val : ∀ c, rowVal row' c = rowVal row c + rowTerm nm n cell i c
  sorted : opts.ordered = true → SortedRow row'
  cols : ∀ c, c ∈ colsOf row' ↔ c ∈ colsOf row ∨
    ∃ j, j < n ∧ Means (cell.cols.getD j 0) c ∧ cell.Ab (j * n + i) = true ∧ nm.big (cell.A (j * n + i)) = true
  keep : RowTmpl n cell i row → colsOf row' = colsOf row

theorem ents_tmpl {msize n : Nat} {cell : Cell R} (h : Valid msize n cell) (nm : Num R) (i : Nat) (rneg : Bool)
    (row : Row R) (ht : RowTmpl n cell i row) (js : List Nat) (hjs : ∀ j ∈ js, j < n) :
    ∀ e ∈ js.map (entOf nm n cell i rneg), e.keep = true → e.col ∈ colsOf row := by
  intro e he hk
  obtain ⟨j, hj, rfl⟩ := List.mem_map.1 he
  obtain ⟨c, _, hc⟩ := valid_ids h j (hjs j hj)
  have h1 : (entOf nm n cell i rneg j).col = c := by
    show (idOf (cell.cols.getD j 0)).toNat = c
    rw [means_id hc]; rfl
  have h2 : cell.Ab (j * n + i) = true := by
    have : (cell.Ab (j * n + i) && nm.big (cell.A (j * n + i))) = true := hk
    rw [Bool.and_eq_true] at this
    exact this.1
  rw [h1]
  exact ht j c (hjs j hj) hc h2

theorem ents_cols {msize n : Nat} {cell : Cell R} (h : Valid msize n cell) (nm : Num R) (i : Nat) (rneg : Bool)
    (js : List Nat) (hjs : ∀ j, j ∈ js ↔ j < n) (c : Nat) :
    (∃ e ∈ js.map (entOf nm n cell i rneg), e.keep = true ∧ e.col = c) ↔
      ∃ j, j < n ∧ Means (cell.cols.getD j 0) c ∧ cell.Ab (j * n + i) = true ∧ nm.big (cell.A (j * n + i)) = true := by
  constructor
  · rintro ⟨e, he, hk, hc⟩
    obtain ⟨j, hj, rfl⟩ := List.mem_map.1 he
    have hjn := (hjs j).1 hj
    obtain ⟨d, _, hd⟩ := valid_ids h j hjn
    have h1 : (idOf (cell.cols.getD j 0)).toNat = c := hc
    have h2 : (cell.Ab (j * n + i) && nm.big (cell.A (j * n + i))) = true := hk
    rw [Bool.and_eq_true] at h2
    exact ⟨j, hjn, (means_iff _ _).2 ⟨((means_iff _ _).1 hd).1, h1⟩, h2⟩
  · rintro ⟨j, hj, hc, hab⟩
    refine ⟨entOf nm n cell i rneg j, List.mem_map_of_mem ((hjs j).2 hj), ?_, ((means_iff _ _).1 hc).2⟩
    show (cell.Ab (j * n + i) && nm.big (cell.A (j * n + i))) = true
    rw [Bool.and_eq_true]; exact hab

theorem mem_sortCols (n : Nat) (cell : Cell R) (j : Nat) : j ∈ sortCols n cell ↔ j < n := by
  rw [(sortCols_perm n cell).mem_iff]; simp

/-- the right-hand side after the work on row `i` -/
def rhsAfter (withRhs : Bool) (cell : Cell R) (i : Nat) (v : R) : R :=
  if withRhs then v + signed (cell.rows.getD i 0) 1 (cell.F i) else v

theorem sgn_one (a : Int) (x : R) : sgn (negOf a) x = signed a 1 x := by
  unfold sgn signed negOf
  by_cases h : a < 0 <;> simp [h]

theorem rowStep_fin {nm : Num R} {opts : Opts} {withRhs : Bool} {msize n : Nat} {cell : Cell R} (hv : Valid msize n cell)
    {i : Nat} {s : Row R × R} (hp : RowPre opts n cell i s.1) (hf : RowFin nm n cell i) :
    ∃ row', rowStep nm opts withRhs msize n cell i s =
        ((row', rhsAfter withRhs cell i s.2), if withRhs && !nm.fin (cell.F i) then .nan else .ok) ∧
      RowPost nm opts n cell i s.1 row' := by
  have hloop := colLoop_fin nm opts msize n cell i (negOf (cell.rows.getD i 0)) (List.range n) s.1
    (fun j hj => valid_range hv j (List.mem_range.1 hj)) (fun j hj => hf j (List.mem_range.1 hj))
  unfold rowStep
  simp only [hloop]
  have hrv : (if withRhs = true then s.2 + sgn (negOf (cell.rows.getD i 0)) (cell.F i) else s.2) =
      rhsAfter withRhs cell i s.2 := by
    unfold rhsAfter; rw [sgn_one]
  rw [hrv]
  by_cases ho : opts.ordered = true
  · rw [if_pos ho, if_pos ho]
    have hs := sortCols_sorted hv nm i (negOf (cell.rows.getD i 0))
    have hpost : RowPost nm opts n cell i s.1
        (merge s.1 ((sortCols n cell).map (entOf nm n cell i (negOf (cell.rows.getD i 0))))) := by
      refine ⟨?_, fun _ => sorted_merge _ _ (hp.sorted ho) hs, ?_, ?_⟩
      · intro c
        rw [rowVal_merge, entSum_perm ((sortCols_perm n cell).map _), entSum_range hv]
      · intro c
        rw [colsOf_merge, ents_cols hv nm i _ _ (mem_sortCols n cell)]
      · intro ht
        exact colsOf_merge_eq _ _ (hp.sorted ho) hs
          (ents_tmpl hv nm i _ s.1 ht _ (fun j hj => (mem_sortCols n cell j).1 hj))
    by_cases hi : opts.incl = true
    · rw [if_pos hi, tmplAdd_eq _ _ (hp.sorted ho) hs (hp.small ho hi)
        (ents_tmpl hv nm i _ s.1 (hp.tmpl ho hi) _ (fun j hj => (mem_sortCols n cell j).1 hj))]
      exact ⟨_, rfl, hpost⟩
    · rw [if_neg hi]
      exact ⟨_, rfl, hpost⟩
  · rw [if_neg ho, if_neg ho]
    refine ⟨_, rfl, ⟨?_, fun h => absurd h ho, ?_, ?_⟩⟩
    · intro c
      rw [rowVal_addAll, entSum_range hv]
    · intro c
      rw [mem_addAll_cols, ents_cols hv nm i _ _ (fun j => List.mem_range)]
    · intro ht
      exact addAll_cols_eq _ _ (ents_tmpl hv nm i _ s.1 ht _ (fun j hj => List.mem_range.1 hj))

theorem rowStep_nan {nm : Num R} {opts : Opts} {withRhs : Bool} {msize n : Nat} {cell : Cell R} (hv : Valid msize n cell)
    {i : Nat} {s : Row R × R} (hf : ¬ RowFin nm n cell i) :
    ∃ s', rowStep nm opts withRhs msize n cell i s = (s', .nan) ∧ (opts.ordered = true → s'.1 = s.1) := by
  have hloop := colLoop_nan nm opts msize n cell i (negOf (cell.rows.getD i 0)) (List.range n) s.1
    (fun j hj => valid_range hv j (List.mem_range.1 hj)) (fun h => hf (fun j hj => h j (List.mem_range.2 hj)))
  unfold rowStep
  generalize hc : colLoop nm opts msize n cell i (negOf (cell.rows.getD i 0)) (List.range n) s.1 = x at hloop
  obtain ⟨row, res⟩ := x
  obtain ⟨h1, h2⟩ := hloop
  simp only at h1 h2
  subst h1
  simp only [hc]
  exact ⟨_, rfl, h2⟩

/-- sums along an execution without failures -/
theorem serial_sum {σ M : Type} [AddCommMonoid M] (I : Nat → σ → Prop) (μ : σ → M) (d : Op σ → M)
    (ops : Op σ → Prop)
    (hstep : ∀ op, ops op → ∀ s, I op.key s → I op.key (op.run s).1 ∧ μ (op.run s).1 = μ s + d op) :
    ∀ (H : List (Nat × Op σ × Bool)) (m m' : Nat → σ), (∀ e ∈ H, ops e.2.1) → Serial H m m' → (∀ k, I k (m k)) →
      (∀ k, I k (m' k)) ∧ ∀ r, μ (m' r) = μ (m r) + (H.map (fun e => if e.2.1.key = r then d e.2.1 else 0)).sum := by
  intro H
  induction H with
  | nil =>
    intro m m' _ hs hI
    have : m' = m := hs
    subst this
    exact ⟨hI, fun r => by simp⟩
  | cons e H ih =>
    intro m m' ho hs hI
    obtain ⟨t, op, ok⟩ := e
    obtain ⟨h1, h2⟩ := hs
    have h3 := hstep op (ho _ List.mem_cons_self) _ (hI op.key)
    obtain ⟨h4, h5⟩ := ih _ m' (fun e he => ho e (List.mem_cons_of_mem _ he)) h2 (by
      intro k
      by_cases hk : k = op.key
      · subst hk; rw [Function.update_self]; exact h3.1
      · rw [Function.update_of_ne hk]; exact hI k)
    refine ⟨h4, ?_⟩
    intro r
    rw [h5 r, List.map_cons, List.sum_cons]
    by_cases hk : op.key = r
    · subst hk
      rw [Function.update_self, h3.2, if_pos rfl, add_assoc]
    · rw [Function.update_of_ne (fun h => hk h.symm), if_neg hk, zero_add]

/-- an invariant of every update holds all the time -/
theorem serial_inv {σ : Type} (I : Nat → σ → Prop) (ops : Op σ → Prop)
    (hstep : ∀ op, ops op → ∀ s, I op.key s → I op.key (op.run s).1) :
    ∀ (H : List (Nat × Op σ × Bool)) (m m' : Nat → σ), (∀ e ∈ H, ops e.2.1) → Serial H m m' → (∀ k, I k (m k)) →
      (∀ k, I k (m' k)) ∧ ∀ e ∈ H, ∃ s, I e.2.1.key s ∧ (e.2.1.run s).2 = e.2.2 := by
  intro H
  induction H with
  | nil =>
    intro m m' _ hs hI
    have : m' = m := hs
    subst this
    exact ⟨hI, fun e he => nomatch he⟩
  | cons e H ih =>
    intro m m' ho hs hI
    obtain ⟨t, op, ok⟩ := e
    obtain ⟨h1, h2⟩ := hs
    have h3 := hstep op (ho _ List.mem_cons_self) _ (hI op.key)
    obtain ⟨h4, h5⟩ := ih _ m' (fun e he => ho e (List.mem_cons_of_mem _ he)) h2 (by
      intro k
      by_cases hk : k = op.key
      · subst hk; rw [Function.update_self]; exact h3
      · rw [Function.update_of_ne hk]; exact hI k)
    refine ⟨h4, ?_⟩
    intro e he
    rcases List.mem_cons.1 he with h | h
    · subst h; exact ⟨_, hI op.key, h1⟩
    · exact h5 e h

/-- a sum over an execution, thread by thread -/
theorem sum_by_thread {α M : Type} [AddCommMonoid M] (f : α → M) (T : Nat) (H : List (Nat × α)) (h : ∀ e ∈ H, e.1 < T) :
    (H.map (fun e => f e.2)).sum = ∑ t ∈ Finset.range T, (((H.filter (fun e => e.1 = t)).map (fun e => e.2)).map f).sum := by
  induction H with
  | nil => simp
  | cons e H ih =>
    rw [List.map_cons, List.sum_cons, ih (fun e he => h e (List.mem_cons_of_mem _ he))]
    have h1 : f e.2 = ∑ t ∈ Finset.range T, if e.1 = t then f e.2 else 0 := by
      rw [Finset.sum_ite_eq, if_pos (Finset.mem_range.2 (h e List.mem_cons_self))]
    rw [h1, ← Finset.sum_add_distrib]
    refine Finset.sum_congr rfl ?_
    intro t _
    by_cases ht : e.1 = t
    · subst ht; simp
    · simp [ht]

/-- the threads of an execution are those with work -/
theorem ran_mem {σ : Type} {work : Nat → List (Op σ)} {failed : Nat → Bool} {H : List (Nat × Op σ × Bool)}
    (h : ∀ t, Ran (work t) (failed t) (ofThread t H)) (e : Nat × Op σ × Bool) (he : e ∈ H) : e.2.1 ∈ work e.1 := by
  have h1 : e.2 ∈ ofThread e.1 H := List.mem_map.2 ⟨e, List.mem_filter.2 ⟨he, by simp⟩, rfl⟩
  have h2 := h e.1
  unfold Ran at h2
  split at h2
  · obtain ⟨pre, op, rest, hw, hx⟩ := h2
    rw [hx] at h1
    rw [hw]
    rcases List.mem_append.1 h1 with h3 | h3
    · obtain ⟨o, ho, hoe⟩ := List.mem_map.1 h3
      rw [← hoe]
      exact List.mem_append_left _ ho
    · rw [List.mem_singleton.1 h3]
      simp
  · rw [h2] at h1
    obtain ⟨o, ho, hoe⟩ := List.mem_map.1 h1
    rw [← hoe]
    exact ho

end Verif.Assembly
