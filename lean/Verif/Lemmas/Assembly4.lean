import Verif.Lemmas.Assembly3
import Verif.Props.Locking

/-!
Lemmas for C29-C32: executions of the updates of many cells; the preparation of rows; templates.
-/
set_option linter.unusedSectionVars false
namespace Verif.Assembly
open Verif.Locking (Op Serial ofThread Ran St Steps Done start locked_serial)

section
variable {R : Type}

/-- the update of row `i` of a cell -/
def opOf (cell : Cell R) (work : Nat → Row R × R → (Row R × R) × Res) (i : Nat) : Op (Row R × R) :=
  { key := (idOf (cell.rows.getD i 0)).toNat, run := fun s => ((work i s).1, (work i s).2 = .ok) }

theorem mem_cellOps (n : Nat) (cell : Cell R) (work : Nat → Row R × R → (Row R × R) × Res) (op : Op (Row R × R)) :
    op ∈ cellOps n cell work ↔
      cell.active = true ∧ ∃ i, i < n ∧ cell.rows.getD i 0 ≠ 0 ∧ op = opOf cell work i := by
  unfold cellOps
  split
  · rename_i h
    rw [List.mem_filterMap]
    constructor
    · rintro ⟨i, hi, ho⟩
      simp only at ho
      split at ho
      · exact nomatch ho
      · rename_i hc
        exact ⟨h, i, List.mem_range.1 hi, hc, (Option.some.inj ho).symm⟩
    · rintro ⟨_, i, hi, hc, ho⟩
      refine ⟨i, List.mem_range.2 hi, ?_⟩
      simp only
      rw [if_neg hc, ho]
      rfl
  · rename_i h
    constructor
    · exact fun h => nomatch h
    · exact fun h' => absurd h'.1 h

theorem sum_cellOps {M : Type} [AddCommMonoid M] (f : Op (Row R × R) → M) (n : Nat) (cell : Cell R)
    (work : Nat → Row R × R → (Row R × R) × Res) :
    ((cellOps n cell work).map f).sum =
      ∑ i ∈ Finset.range n, if cell.active = true ∧ cell.rows.getD i 0 ≠ 0 then f (opOf cell work i) else 0 := by
  unfold cellOps
  split
  · rename_i h
    induction n with
    | zero => simp
    | succ n ih =>
      rw [List.range_succ, List.filterMap_append, List.map_append, List.sum_append, ih, Finset.sum_range_succ]
      congr 1
      by_cases hc : cell.rows.getD n 0 = 0
      · rw [if_neg (fun h => h.2 hc)]
        simp only [List.filterMap_cons, hc, if_true, List.filterMap_nil, List.map_nil, List.sum_nil]
      · rw [if_pos ⟨h, hc⟩]
        simp only [List.filterMap_cons, hc, if_false, List.filterMap_nil, List.map_cons, List.map_nil, List.sum_cons,
          List.sum_nil, add_zero]
        rfl
  · rename_i h
    simp [h]

theorem sum_flatMap {α β M : Type} [AddCommMonoid M] (l : List α) (g : α → List β) (f : β → M) :
    ((l.flatMap g).map f).sum = (l.map (fun a => ((g a).map f).sum)).sum := by
  induction l with
  | nil => rfl
  | cons a l ih => rw [List.flatMap_cons, List.map_append, List.sum_append, ih, List.map_cons, List.sum_cons]

theorem mem_perm_cells {T : Nat} {cells : Nat → List (Cell R)} {all : List (Cell R)}
    (hT : ∀ t, T ≤ t → cells t = []) (hp : ((List.range T).flatMap cells).Perm all) (t : Nat) (cell : Cell R)
    (h : cell ∈ cells t) : cell ∈ all := by
  refine hp.mem_iff.1 (List.mem_flatMap.2 ⟨t, ?_, h⟩)
  rw [List.mem_range]
  rcases Nat.lt_or_ge t T with h' | h'
  · exact h'
  · rw [hT t h'] at h; exact nomatch h

/-- the updates of the cells of a thread -/
def opsOf (n : Nat) (w : Cell R → Nat → Row R × R → (Row R × R) × Res) (cells : List (Cell R)) : List (Op (Row R × R)) :=
  cells.flatMap (fun cell => cellOps n cell (w cell))

theorem mem_opsOf {n : Nat} {w : Cell R → Nat → Row R × R → (Row R × R) × Res} {cells : List (Cell R)}
    {op : Op (Row R × R)} (h : op ∈ opsOf n w cells) :
    ∃ cell ∈ cells, cell.active = true ∧ ∃ i r, i < n ∧ Means (cell.rows.getD i 0) r ∧ op.key = r ∧
      op = opOf cell (w cell) i := by
  obtain ⟨cell, hc, ho⟩ := List.mem_flatMap.1 h
  obtain ⟨ha, i, hi, hcode, hop⟩ := (mem_cellOps _ _ _ _).1 ho
  exact ⟨cell, hc, ha, i, _, hi, (means_iff _ _).2 ⟨hcode, rfl⟩, by rw [hop]; rfl, hop⟩

/-- invariants of executions, and the states in which the updates ran -/
theorem run_inv {T n : Nat} {cells : Nat → List (Cell R)} {all : List (Cell R)}
    (hT : ∀ t, T ≤ t → cells t = []) (hp : ((List.range T).flatMap cells).Perm all)
    (w : Cell R → Nat → Row R × R → (Row R × R) × Res) (I : Nat → Row R × R → Prop)
    (hstep : ∀ cell ∈ all, cell.active = true → ∀ i r, i < n → Means (cell.rows.getD i 0) r → ∀ s, I r s → I r (w cell i s).1)
    {useLock : Bool} (hl : useLock = true ∨ T ≤ 1) {mem : Nat → Row R × R} (hI : ∀ r, I r (mem r)) {s : St (Row R × R)}
    (hs : Steps useLock (start mem (fun t => opsOf n w (cells t))) s) (hd : Done s) :
    (∀ r, I r (s.mem r)) ∧ ∃ H, Serial H mem s.mem ∧ (∀ t, Ran (opsOf n w (cells t)) (s.thr t).failed (ofThread t H)) ∧
      (∀ e ∈ H, e.1 < T ∧ ∃ cell ∈ all, cell.active = true ∧ ∃ i r, i < n ∧ Means (cell.rows.getD i 0) r ∧
        e.2.1.key = r ∧ e.2.1 = opOf cell (w cell) i) ∧
      ∀ e ∈ H, ∃ s, I e.2.1.key s ∧ (e.2.1.run s).2 = e.2.2 := by
  obtain ⟨H, hser, hran⟩ := locked_serial useLock mem (fun t => opsOf n w (cells t)) (by
    rcases hl with h | h
    · exact Or.inl h
    · refine Or.inr ?_
      intro t ht
      show opsOf n w (cells t) = []
      rw [hT t (by omega)]
      rfl) s hs hd
  have hmem : ∀ e ∈ H, e.1 < T ∧ ∃ cell ∈ all, cell.active = true ∧ ∃ i r, i < n ∧ Means (cell.rows.getD i 0) r ∧
        e.2.1.key = r ∧ e.2.1 = opOf cell (w cell) i := by
    intro e he
    have h1 := ran_mem hran e he
    obtain ⟨cell, hc, h2⟩ := mem_opsOf h1
    refine ⟨?_, cell, mem_perm_cells hT hp _ _ hc, h2⟩
    rcases Nat.lt_or_ge e.1 T with h' | h'
    · exact h'
    · rw [hT _ h'] at hc; exact nomatch hc
  have hser' := serial_inv I (fun op => ∃ cell ∈ all, cell.active = true ∧ ∃ i r, i < n ∧ Means (cell.rows.getD i 0) r ∧
        op.key = r ∧ op = opOf cell (w cell) i) (by
      rintro op ⟨cell, hc, ha, i, r, hi, hm, hk, ho⟩ s hs
      have h1 := hstep cell hc ha i r hi hm s (hk ▸ hs)
      rw [hk, ho]
      exact h1) H mem s.mem (fun e he => (hmem e he).2) hser hI
  exact ⟨hser'.1, H, hser, hran, hmem, hser'.2⟩

/-- sums over executions without failures -/
theorem run_sum {M : Type} [AddCommGroup M] {T n : Nat} {cells : Nat → List (Cell R)} {all : List (Cell R)}
    (hT : ∀ t, T ≤ t → cells t = []) (hp : ((List.range T).flatMap cells).Perm all)
    (w : Cell R → Nat → Row R × R → (Row R × R) × Res) (I : Nat → Row R × R → Prop) (μ : Row R × R → M)
    (term : Cell R → Nat → M)
    (hstep : ∀ cell ∈ all, cell.active = true → ∀ i r, i < n → Means (cell.rows.getD i 0) r → ∀ s, I r s →
      I r (w cell i s).1 ∧ μ (w cell i s).1 = μ s + term cell i ∧ (w cell i s).2 = .ok)
    {useLock : Bool} (hl : useLock = true ∨ T ≤ 1) {mem : Nat → Row R × R} (hI : ∀ r, I r (mem r)) {s : St (Row R × R)}
    (hs : Steps useLock (start mem (fun t => opsOf n w (cells t))) s) (hd : Done s) :
    (∀ t, (s.thr t).failed = false) ∧
    ∀ r, μ (s.mem r) = μ (mem r) + (all.map (fun cell => ∑ i ∈ Finset.range n,
      if cell.active = true ∧ Means (cell.rows.getD i 0) r then term cell i else 0)).sum := by
  obtain ⟨_, H, hser, hran, hmem, hst⟩ := run_inv hT hp w I
    (fun cell hc ha i r hi hm s h => (hstep cell hc ha i r hi hm s h).1) hl hI hs hd
  have hok : ∀ e ∈ H, e.2.2 = true := by
    intro e he
    obtain ⟨s', hs1, hs2⟩ := hst e he
    obtain ⟨_, cell, hc, ha, i, r, hi, hm, hk, ho⟩ := hmem e he
    have := (hstep cell hc ha i r hi hm s' (hk ▸ hs1)).2.2
    rw [← hs2, ho]
    show decide ((w cell i s').2 = .ok) = true
    rw [this]; rfl
  have hnf : ∀ t, (s.thr t).failed = false := by
    intro t
    cases hf : (s.thr t).failed with
    | false => rfl
    | true =>
      have h1 := hran t
      rw [hf] at h1
      obtain ⟨pre, op, rest, hw, he⟩ := h1
      have h2 : (op, false) ∈ ofThread t H := by rw [he]; simp
      obtain ⟨e, he1, he2⟩ := List.mem_map.1 h2
      have h3 := hok e (List.mem_filter.1 he1).1
      rw [he2] at h3
      exact nomatch h3
  refine ⟨hnf, ?_⟩
  intro r
  -- the change an update makes, read off the start
  let d : Op (Row R × R) → M := fun op => μ (op.run (mem op.key)).1 - μ (mem op.key)
  have hd' : ∀ cell ∈ all, cell.active = true → ∀ i r, i < n → Means (cell.rows.getD i 0) r →
      d (opOf cell (w cell) i) = term cell i := by
    intro cell hc ha i r hi hm
    have h0 : (opOf cell (w cell) i).key = r := ((means_iff _ _).1 hm).2
    have h1 := (hstep cell hc ha i r hi hm (mem r) (hI r)).2.1
    show μ (w cell i (mem (opOf cell (w cell) i).key)).1 - μ (mem (opOf cell (w cell) i).key) = _
    rw [h0, h1]
    abel
  have hsum := (serial_sum I μ d (fun op => ∃ cell ∈ all, cell.active = true ∧ ∃ i r, i < n ∧ Means (cell.rows.getD i 0) r ∧
        op.key = r ∧ op = opOf cell (w cell) i) (by
      rintro op ⟨cell, hc, ha, i, r, hi, hm, hk, ho⟩ s hs
      have h1 := hstep cell hc ha i r hi hm s (hk ▸ hs)
      have h2 := hd' cell hc ha i r hi hm
      rw [hk, ho, h2]
      exact ⟨h1.1, h1.2.1⟩) H mem s.mem (fun e he => (hmem e he).2) hser hI).2 r
  rw [hsum]
  congr 1
  rw [sum_by_thread (fun e : Op (Row R × R) × Bool => if e.1.key = r then d e.1 else 0) T H (fun e he => (hmem e he).1)]
  have h1 : ∀ t ∈ Finset.range T, (((H.filter (fun e => e.1 = t)).map (fun e => e.2)).map
        (fun e : Op (Row R × R) × Bool => if e.1.key = r then d e.1 else 0)).sum =
      ((cells t).map (fun cell => ∑ i ∈ Finset.range n,
        if cell.active = true ∧ Means (cell.rows.getD i 0) r then term cell i else 0)).sum := by
    intro t ht
    have h2 := hran t
    rw [hnf t] at h2
    have h3 : ofThread t H = (opsOf n w (cells t)).map (fun o => (o, true)) := h2
    unfold ofThread at h3
    rw [h3, List.map_map]
    unfold opsOf
    rw [sum_flatMap]
    congr 1
    refine List.map_congr_left ?_
    intro cell hc
    rw [sum_cellOps]
    refine Finset.sum_congr rfl ?_
    intro i hi
    have hca := mem_perm_cells hT hp t cell hc
    by_cases ha : cell.active = true ∧ cell.rows.getD i 0 ≠ 0
    · rw [if_pos ha]
      simp only [Function.comp_apply]
      by_cases hk : (opOf cell (w cell) i).key = r
      · have hm : Means (cell.rows.getD i 0) r := (means_iff _ _).2 ⟨ha.2, hk⟩
        rw [if_pos hk, if_pos ⟨ha.1, hm⟩]
        exact hd' cell hca ha.1 i r (Finset.mem_range.1 hi) hm
      · rw [if_neg hk, if_neg]
        exact fun h => hk ((means_iff _ _).1 h.2).2
    · rw [if_neg ha, if_neg]
      exact fun h => ha ⟨h.1, ((means_iff _ _).1 h.2).1⟩
  rw [Finset.sum_congr rfl h1, ← sum_map_range, ← sum_flatMap]
  exact (hp.map _).sum_eq

/-- what an update establishes stays -/
theorem serial_reach {σ : Type} (I : Nat → σ → Prop) (P : σ → Prop) (ops : Op σ → Prop)
    (hstep : ∀ op, ops op → ∀ s, I op.key s → I op.key (op.run s).1 ∧ (P s → P (op.run s).1)) :
    ∀ (H : List (Nat × Op σ × Bool)) (m m' : Nat → σ), (∀ e ∈ H, ops e.2.1) → Serial H m m' → (∀ k, I k (m k)) →
      (∀ k, P (m k) → P (m' k)) ∧
      ∀ e ∈ H, (∀ s, I e.2.1.key s → P (e.2.1.run s).1) → P (m' e.2.1.key) := by
  intro H
  induction H with
  | nil =>
    intro m m' _ hs hI
    have : m' = m := hs
    subst this
    exact ⟨fun _ h => h, fun e he => nomatch he⟩
  | cons e H ih =>
    intro m m' ho hs hI
    obtain ⟨t, op, ok⟩ := e
    obtain ⟨h1, h2⟩ := hs
    have h3 := hstep op (ho _ List.mem_cons_self) _ (hI op.key)
    obtain ⟨h4, h5⟩ := ih _ m' (fun e he => ho e (List.mem_cons_of_mem _ he)) h2 (by
      intro k
      by_cases hk : k = op.key
      · subst hk; rw [Function.update_self]; exact h3.1
      · rw [Function.update_of_ne hk]; exact hI k)
    constructor
    · intro k hP
      refine h4 k ?_
      by_cases hk : k = op.key
      · subst hk; rw [Function.update_self]; exact h3.2 hP
      · rw [Function.update_of_ne hk]; exact hP
    · intro e he hall
      rcases List.mem_cons.1 he with h | h
      · subst h
        refine h4 op.key ?_
        rw [Function.update_self]
        exact hall _ (hI op.key)
      · exact h5 e h hall

/-- what holds of a row after an execution without failures: it held before or some update established it -/
theorem run_or {T n : Nat} {cells : Nat → List (Cell R)} {all : List (Cell R)}
    (hT : ∀ t, T ≤ t → cells t = []) (hp : ((List.range T).flatMap cells).Perm all)
    (w : Cell R → Nat → Row R × R → (Row R × R) × Res) (I : Nat → Row R × R → Prop) (P : Row R × R → Prop)
    (term : Cell R → Nat → Prop)
    (hstep : ∀ cell ∈ all, cell.active = true → ∀ i r, i < n → Means (cell.rows.getD i 0) r → ∀ s, I r s →
      I r (w cell i s).1 ∧ (P (w cell i s).1 ↔ P s ∨ term cell i) ∧ (w cell i s).2 = .ok)
    {useLock : Bool} (hl : useLock = true ∨ T ≤ 1) {mem : Nat → Row R × R} (hI : ∀ r, I r (mem r)) {s : St (Row R × R)}
    (hs : Steps useLock (start mem (fun t => opsOf n w (cells t))) s) (hd : Done s) (r : Nat) :
    P (s.mem r) ↔ P (mem r) ∨ ∃ cell ∈ all, cell.active = true ∧ ∃ i, i < n ∧ Means (cell.rows.getD i 0) r ∧ term cell i := by
  have hnf := (run_sum (M := Int) hT hp w I (fun _ => 0) (fun _ _ => 0)
    (fun cell hc ha i r hi hm s h => ⟨(hstep cell hc ha i r hi hm s h).1, by simp, (hstep cell hc ha i r hi hm s h).2.2⟩)
    hl hI hs hd).1
  constructor
  · have := (run_inv hT hp w (fun r s => I r s ∧ (P s → P (mem r) ∨ ∃ cell ∈ all, cell.active = true ∧ ∃ i, i < n ∧
        Means (cell.rows.getD i 0) r ∧ term cell i)) (by
      intro cell hc ha i r hi hm s h
      have h1 := hstep cell hc ha i r hi hm s h.1
      refine ⟨h1.1, ?_⟩
      intro hP
      rcases h1.2.1.1 hP with h2 | h2
      · exact h.2 h2
      · exact Or.inr ⟨cell, hc, ha, i, hi, hm, h2⟩) hl (fun r => ⟨hI r, Or.inl⟩) hs hd).1 r
    exact this.2
  · obtain ⟨_, H, hser, hran, hmem, _⟩ := run_inv hT hp w I
      (fun cell hc ha i r hi hm s h => (hstep cell hc ha i r hi hm s h).1) hl hI hs hd
    have hreach := serial_reach I P (fun op => ∃ cell ∈ all, cell.active = true ∧ ∃ i r, i < n ∧
        Means (cell.rows.getD i 0) r ∧ op.key = r ∧ op = opOf cell (w cell) i) (by
      rintro op ⟨cell, hc, ha, i, r, hi, hm, hk, ho⟩ s hs
      have h1 := hstep cell hc ha i r hi hm s (hk ▸ hs)
      rw [hk, ho]
      exact ⟨h1.1, fun h => h1.2.1.2 (Or.inl h)⟩) H mem s.mem (fun e he => (hmem e he).2) hser hI
    rintro (h | ⟨cell, hc, ha, i, hi, hm, ht⟩)
    · exact hreach.1 r h
    · obtain ⟨t, ht1, ht2⟩ := List.mem_flatMap.1 (hp.mem_iff.2 hc)
      have h1 : opOf cell (w cell) i ∈ opsOf n w (cells t) :=
        List.mem_flatMap.2 ⟨cell, ht2, (mem_cellOps _ _ _ _).2 ⟨ha, i, hi, ((means_iff _ _).1 hm).1, rfl⟩⟩
      have h2 := hran t
      rw [hnf t] at h2
      have h3 : ofThread t H = (opsOf n w (cells t)).map (fun o => (o, true)) := h2
      have h4 : (opOf cell (w cell) i, true) ∈ ofThread t H := by
        rw [h3]; exact List.mem_map.2 ⟨_, h1, rfl⟩
      obtain ⟨e, he1, he2⟩ := List.mem_map.1 h4
      have he := (List.mem_filter.1 he1).1
      have hk : e.2.1 = opOf cell (w cell) i := by rw [he2]
      have hkey : (opOf cell (w cell) i).key = r := ((means_iff _ _).1 hm).2
      have h5 := hreach.2 e he
      rw [hk, hkey] at h5
      refine h5 ?_
      intro s' hs'
      exact (hstep cell hc ha i r hi hm s' hs').2.1.2 (Or.inr ht)

end
end Verif.Assembly
