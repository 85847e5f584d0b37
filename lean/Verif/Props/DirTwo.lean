import Verif.Model.DirTwo
import Verif.Props.Dirichlet

/-!
C82: imposing Dirichlet values when the trial and the test space have different maps of d.o.f.s.
-/
set_option linter.unusedSectionVars false

namespace Verif.Dirichlet

open Verif.Dense

variable {K : Type} [Field K]

theorem clearRC_ent (n m : Nat) (A : Nat → K) {i j : Nat} (hn : i < n) (r c : Nat) (hr : r < n) (hc : c < m) :
    ent n (clearRC n m A i j) r c = if r = i ∨ c = j then 0 else ent n A r c := by
  unfold clearRC
  simp only
  by_cases h2 : r = i
  · rw [if_pos (Or.inl h2), h2]
    unfold ent
    exact loop_wr_at (fun l => i + l * n) (fun _ _ => 0) (fun _ _ => 0) (fun _ _ _ => rfl)
      (fun a _ b _ e => (pos_inj hn hn e).2) hc
  · have e1 : ∀ s : Nat → K, ent n (loop 0 m (fun l A => wr A (i + l * n) 0) s) r c = ent n s r c := by
      intro s
      unfold ent
      exact loop_wr_off (fun l => i + l * n) (fun _ _ => 0) (fun a _ e => h2 (pos_inj hr hn e.symm).1)
    rw [e1]
    unfold ent
    by_cases h3 : c = j
    · rw [if_pos (Or.inr h3), h3]
      refine loop_at (fun _ => 0) (i := r + j * n) (by omega) ?_ (fun t => wr_same _ _ _)
        (fun q t _ _ hq => wr_ne _ _ (Ne.symm hq))
      rw [Nat.add_mul]; omega
    · rw [if_neg (by tauto)]
      refine loop_off (fun q t h1 h2 => wr_ne _ _ ?_)
      intro e
      apply h3
      have hq : ∃ r, r < n ∧ q = r + j * n := ⟨q - j * n, by rw [Nat.add_mul] at h2; omega, by omega⟩
      obtain ⟨r', hr', rfl⟩ := hq
      exact (pos_inj hr hr' e).2

theorem dirMatrixRC_ent (n m : Nat) (A : Nat → K) {i j : Nat} (hn : i < n) (r c : Nat) (hr : r < n) (hc : c < m) :
    ent n (dirMatrixRC n m A i j) r c = if r = i ∧ c = j then 1 else if r = i ∨ c = j then 0 else ent n A r c := by
  unfold dirMatrixRC
  rw [ent_wr _ _ hn hr]
  by_cases h1 : r = i ∧ c = j
  · rw [if_pos h1, if_pos h1]
  · rw [if_neg h1, if_neg h1, clearRC_ent n m A hn r c hr hc]

theorem dirRC_rhs (n m : Nat) (bc : Nat → K) (s : (Nat → K) × (Nat → K)) (c : Nat × Nat) (i : Nat) :
    (dirRC n m bc s c).2 i =
      if i = c.1 then bc c.2 else if i < n then s.2 i - ent n s.1 i c.2 * bc c.2 else s.2 i := by
  unfold dirRC
  simp only
  rw [wr_apply]
  by_cases h : i = c.1
  · rw [if_pos h, if_pos h]
  rw [if_neg h, if_neg h]
  by_cases hi : i < n
  · rw [if_pos hi]
    exact loop_wr_at (fun i => i) (fun i F => F i - s.1 (i + c.2 * n) * bc c.2)
      (fun i x => x - s.1 (i + c.2 * n) * bc c.2) (fun _ _ _ => rfl) (fun _ _ _ _ e => e) hi
  · rw [if_neg hi]
    exact loop_wr_off (fun i => i) _ (fun a ha e => hi (e ▸ ha))

theorem lhs_dirMatrixRC (n m : Nat) (A x : Nat → K) {k j : Nat} (hn : k < n) (hm : j < m) (i : Nat) (hi : i < n) :
    lhs n m (dirMatrixRC n m A k j) x i = if i = k then x j else lhs n m A x i - ent n A i j * x j := by
  unfold lhs
  by_cases h : i = k
  · rw [if_pos h]
    have : ∀ c ∈ Finset.range m, ent n (dirMatrixRC n m A k j) i c * x c = if c = j then x j else 0 := by
      intro c hc
      rw [dirMatrixRC_ent n m A hn i c hi (Finset.mem_range.1 hc)]
      by_cases hj : c = j
      · rw [if_pos ⟨h, hj⟩, if_pos hj, one_mul, hj]
      · rw [if_neg (by tauto), if_pos (by tauto), if_neg hj, zero_mul]
    rw [Finset.sum_congr rfl this, Finset.sum_ite_eq', if_pos (Finset.mem_range.2 hm)]
  · rw [if_neg h, ← sum_clear m j hm]
    refine Finset.sum_congr rfl (fun c hc => ?_)
    rw [dirMatrixRC_ent n m A hn i c hi (Finset.mem_range.1 hc), if_neg (by tauto)]
    by_cases hj : c = j
    · rw [if_pos (by tauto), if_pos hj]
    · rw [if_neg (by tauto), if_neg hj]

theorem dirRC_list_exact (n m : Nat) (bc : Nat → K) (l : List (Nat × Nat)) (A F : Nat → K) (hd : (l.map Prod.fst).Nodup)
    (hn : ∀ c ∈ l, c.1 < n ∧ c.2 < m) (x : Nat → K) :
    Sol n m (l.foldl (dirRC n m bc) (A, F)).1 (l.foldl (dirRC n m bc) (A, F)).2 x ↔
      (∀ c ∈ l, x c.2 = bc c.2) ∧ ∀ i, i < n → i ∉ l.map Prod.fst → lhs n m A x i = F i := by
  induction l generalizing A F with
  | nil => simp [Sol]
  | cons c l ih =>
    rw [List.map_cons, List.nodup_cons] at hd
    have hc := hn c (by simp)
    rw [List.foldl_cons, ih _ _ hd.2 (fun e he => hn e (by simp [he]))]
    have hk : ∀ i, i < n → (lhs n m (dirRC n m bc (A, F) c).1 x i = (dirRC n m bc (A, F) c).2 i ↔
        if i = c.1 then x c.2 = bc c.2 else lhs n m A x i - ent n A i c.2 * x c.2 = F i - ent n A i c.2 * bc c.2) := by
      intro i hi
      rw [dirRC_rhs]
      show lhs n m (dirMatrixRC n m A c.1 c.2) x i = _ ↔ _
      rw [lhs_dirMatrixRC n m A x hc.1 hc.2 i hi]
      by_cases h : i = c.1
      · simp only [if_pos h]
      · simp only [if_neg h, if_pos hi]
    constructor
    · rintro ⟨h1, h2⟩
      have hx : x c.2 = bc c.2 := by
        have := (hk c.1 hc.1).1 (h2 c.1 hc.1 hd.1)
        rwa [if_pos rfl] at this
      refine ⟨fun e he => ?_, fun i hi hni => ?_⟩
      · rcases List.mem_cons.1 he with rfl | he
        · exact hx
        · exact h1 e he
      · rw [List.map_cons, List.mem_cons, not_or] at hni
        have := (hk i hi).1 (h2 i hi hni.2)
        rw [if_neg hni.1, hx] at this
        exact sub_left_inj.1 this
    · rintro ⟨h1, h2⟩
      refine ⟨fun e he => h1 e (by simp [he]), fun i hi hni => (hk i hi).2 ?_⟩
      by_cases h : i = c.1
      · rw [if_pos h]; exact h1 c (by simp)
      · rw [if_neg h, h2 i hi (by rw [List.map_cons, List.mem_cons]; tauto), h1 c (by simp)]

/-- what the iteration over a part of the tetrahedron gives: different numbers, below the sizes of the system, as many of the test map
as of the trial map; if the maps are the same, the two lists in the geometric order are the same and the own order is another order -/
structure Walk (n m : Nat) (same : Bool) (own rows cols : List Nat) : Prop where
  len : rows.length = cols.length
  nodup : rows.Nodup
  rowsLt : ∀ i ∈ rows, i < n
  colsLt : ∀ j ∈ cols, j < m
  eq : same = true → rows = cols ∧ own.Perm cols

theorem map_fst_zip_take {A B : Type} (l : List A) (r : List B) : (l.zip r).map Prod.fst = l.take r.length := by
  induction l generalizing r with
  | nil => simp
  | cons a l ih =>
    cases r with
    | nil => simp
    | cons b r => simp [ih]

theorem mem_zip_right {A B : Type} {l : List A} {r : List B} (h : l.length = r.length) {b : B} (hb : b ∈ r) :
    ∃ a, (a, b) ∈ l.zip r := by
  have : b ∈ (l.zip r).map Prod.snd := by rw [List.map_snd_zip (le_of_eq h.symm)]; exact hb
  obtain ⟨⟨a, b'⟩, h1, rfl⟩ := List.mem_map.1 this
  exact ⟨a, h1⟩

/-- **C82.** Values for the trial d.o.f.s of a part of the tetrahedron, in both branches: a vector solves the system afterwards exactly
if it has the values and satisfies the equations of all test d.o.f.s which are not on the part -/
theorem byDofs_exact (n m : Nat) (same : Bool) (own rows cols : List Nat) (bc A F x : Nat → K)
    (w : Walk n m same own rows cols) :
    Sol n m (dirByDofs n m same own rows cols bc (A, F)).1 (dirByDofs n m same own rows cols bc (A, F)).2 x ↔
      (∀ j ∈ cols, x j = bc j) ∧ ∀ i, i < n → i ∉ rows → lhs n m A x i = F i := by
  obtain ⟨len, nodup, hr, hc, heq⟩ := w
  unfold dirByDofs
  cases same
  · simp only [Bool.false_eq_true, if_false]
    have e : (rows.zip cols).map Prod.fst = rows := List.map_fst_zip (le_of_eq len)
    rw [dirRC_list_exact n m bc _ A F (by rw [e]; exact nodup)
      (fun c h => ⟨hr _ (List.of_mem_zip h).1, hc _ (List.of_mem_zip h).2⟩), e]
    constructor
    · rintro ⟨h1, h2⟩
      refine ⟨fun j hj => ?_, h2⟩
      obtain ⟨i, hi⟩ := mem_zip_right len hj
      exact h1 _ hi
    · rintro ⟨h1, h2⟩
      exact ⟨fun c h => h1 _ (List.of_mem_zip h).2, h2⟩
  · obtain ⟨rfl, hp⟩ := heq rfl
    simp only [if_true]
    have e : own.foldl (fun s k => dir n m s (k, bc k)) (A, F) = (own.map fun k => (k, bc k)).foldl (dir n m) (A, F) := by
      rw [List.foldl_map]
    have e2 : (own.map fun k => (k, bc k)).map Prod.fst = own := by simp [Function.comp_def]
    rw [e, dir_list_exact n m _ A F (by rw [e2]; exact hp.nodup_iff.2 nodup) (by
      intro c h
      obtain ⟨k, hk, rfl⟩ := List.mem_map.1 h
      exact ⟨hr k (hp.mem_iff.1 hk), hc k (hp.mem_iff.1 hk)⟩), e2]
    constructor
    · rintro ⟨h1, h2⟩
      exact ⟨fun j hj => h1 (j, bc j) (List.mem_map.2 ⟨j, hp.mem_iff.2 hj, rfl⟩),
        fun i hi hn => h2 i hi (fun t => hn (hp.mem_iff.1 t))⟩
    · rintro ⟨h1, h2⟩
      refine ⟨?_, fun i hi hn => h2 i hi (fun t => hn (hp.mem_iff.2 t))⟩
      intro c h
      obtain ⟨k, hk, rfl⟩ := List.mem_map.1 h
      exact h1 k (hp.mem_iff.1 hk)

/-- two equations with three unknowns; the test d.o.f. 0 and the trial d.o.f. 2 are on the part -/
example : Sol 2 3
    (dirByDofs 2 3 false [2] [0] [2] (fun _ => 5) ((fun p => ([2, 3, 1, 7, 4, 1] : List ℚ).getD p 0), fun p => ([9, 15] : List ℚ).getD p 0)).1
    (dirByDofs 2 3 false [2] [0] [2] (fun _ => 5) ((fun p => ([2, 3, 1, 7, 4, 1] : List ℚ).getD p 0), fun p => ([9, 15] : List ℚ).getD p 0)).2
    (fun p => ([1, 1, 5] : List ℚ).getD p 0) := by
  rw [byDofs_exact 2 3 _ _ _ _ _ _ _ _ ⟨by simp, by simp, by simp, by simp, by simp⟩]
  refine ⟨by simp, fun i hi hne => ?_⟩
  have : i = 1 := by simp at hne; omega
  subst this
  norm_num [lhs, ent, Finset.sum_range_succ]

theorem map_snd_zip_take {A B : Type} (l : List A) (r : List B) : (l.zip r).map Prod.snd = r.take l.length := by
  induction l generalizing r with
  | nil => simp
  | cons a l ih =>
    cases r with
    | nil => simp
    | cons b r => simp [ih]

/-- **C82.** Different numbers of trial and test d.o.f.s on the part: the d.o.f.s without a partner are left alone, the others are
treated as before -/
theorem byDofs_unpaired (n m : Nat) (own rows cols : List Nat) (bc A F x : Nat → K) (hr : rows.Nodup) (hrn : ∀ i ∈ rows, i < n)
    (hcm : ∀ j ∈ cols, j < m) :
    Sol n m (dirByDofs n m false own rows cols bc (A, F)).1 (dirByDofs n m false own rows cols bc (A, F)).2 x ↔
      (∀ j ∈ cols.take rows.length, x j = bc j) ∧ ∀ i, i < n → i ∉ rows.take cols.length → lhs n m A x i = F i := by
  unfold dirByDofs
  simp only [Bool.false_eq_true, if_false]
  rw [dirRC_list_exact n m bc _ A F (by rw [map_fst_zip_take]; exact hr.sublist (List.take_sublist _ _))
      (fun c h => ⟨hrn _ (List.of_mem_zip h).1, hcm _ (List.of_mem_zip h).2⟩), map_fst_zip_take]
  have e := map_snd_zip_take rows cols
  constructor
  · rintro ⟨h1, h2⟩
    refine ⟨fun j hj => ?_, h2⟩
    rw [← e] at hj
    obtain ⟨c, hc, rfl⟩ := List.mem_map.1 hj
    exact h1 c hc
  · rintro ⟨h1, h2⟩
    exact ⟨fun c h => h1 _ (e ▸ List.mem_map_of_mem h), h2⟩

/-- the trial d.o.f. 0 has no partner and need not have the value 5 -/
example : Sol 1 2 (dirByDofs 1 2 false [1, 0] [0] [1, 0] (fun _ => 5) ((fun _ => (3 : ℚ)), fun _ => 9)).1
    (dirByDofs 1 2 false [1, 0] [0] [1, 0] (fun _ => 5) ((fun _ => (3 : ℚ)), fun _ => 9)).2 (fun p => if p = 1 then 5 else 8) := by
  rw [byDofs_unpaired 1 2 _ _ _ _ _ _ _ (by simp) (by simp) (by simp)]
  exact ⟨by simp, fun i hi hn => by simp at hn; omega⟩

theorem dirMatrix_eq (n m : Nat) (A : Nat → K) (k : Nat) : dirMatrix n m A k = dirMatrixRC n m A k k := rfl

theorem dirNonExists_eq (n m : Nat) (A : Nat → K) (k : Nat) : dirNonExists n m A k = clearRC n m A k k := rfl

theorem residual_fold (l : List Nat) (F : Nat → K) (i : Nat) :
    l.foldl (fun F k => dirResidual F k) F i = if i ∈ l then 0 else F i := by
  induction l generalizing F with
  | nil => simp
  | cons k l ih =>
    rw [List.foldl_cons, ih]
    unfold dirResidual
    rw [wr_apply]
    by_cases h : i ∈ l
    · simp [h]
    · by_cases h2 : i = k <;> simp [h, h2]

theorem residual_list (n m : Nat) (l : List (Nat × Nat)) (t : List Nat) (A F x : Nat → K) (hd : (l.map Prod.fst).Nodup)
    (hn : ∀ c ∈ l, c.1 < n ∧ c.2 < m) (ht : ∀ c ∈ l, c.1 ∈ t) :
    Sol n m (l.foldl (fun A c => dirMatrixRC n m A c.1 c.2) A) (t.foldl (fun F k => dirResidual F k) F) x ↔
      (∀ c ∈ l, x c.2 = 0) ∧ ∀ i, i < n → i ∉ l.map Prod.fst → lhs n m A x i = if i ∈ t then 0 else F i := by
  have key : ∀ (l : List (Nat × Nat)) (A F : Nat → K), (∀ c ∈ l, F c.1 = 0) → l.foldl (dirRC n m (fun _ => 0)) (A, F) =
      (l.foldl (fun A c => dirMatrixRC n m A c.1 c.2) A, F) := by
    intro l
    induction l with
    | nil => intro A F _; rfl
    | cons c l ih =>
      intro A F h
      rw [List.foldl_cons, List.foldl_cons, ← ih _ _ (fun e he => h e (by simp [he]))]
      congr 1
      refine Prod.ext rfl (funext fun i => ?_)
      rw [dirRC_rhs]
      by_cases e : i = c.1
      · simp [e, h c (by simp)]
      · simp [e]
  have h := dirRC_list_exact n m (fun _ => 0) l A (t.foldl (fun F k => dirResidual F k) F) hd hn x
  rw [key l A _ (fun c hc => by rw [residual_fold, if_pos (ht c hc)])] at h
  rw [h]
  simp only [residual_fold]

theorem matrixTwo_pairs (n m : Nat) (same : Bool) (own rows cols : List Nat) (A : Nat → K) :
    dirMatrixTwo n m same own rows cols A =
      (if same then own.map fun k => (k, k) else rows.zip cols).foldl (fun A c => dirMatrixRC n m A c.1 c.2) A := by
  unfold dirMatrixTwo
  cases same
  · simp
  · simp only [if_true, List.foldl_map]
    rfl

/-- **C82.** Homogeneous conditions on a residual and its matrix, in both branches: the solutions are the vectors with zeros at the
trial d.o.f.s of the part which satisfy the equations of the other test d.o.f.s -/
theorem residual_exact (n m : Nat) (same : Bool) (own testOwn rows cols : List Nat) (A F x : Nat → K)
    (w : Walk n m same own rows cols) (ht : testOwn.Perm rows) :
    Sol n m (dirResidualTwo n m same own testOwn rows cols (A, F)).1 (dirResidualTwo n m same own testOwn rows cols (A, F)).2 x ↔
      (∀ j ∈ cols, x j = 0) ∧ ∀ i, i < n → i ∉ rows → lhs n m A x i = F i := by
  obtain ⟨len, nodup, hr, hc, heq⟩ := w
  unfold dirResidualTwo
  simp only
  rw [matrixTwo_pairs]
  cases same
  · simp only [Bool.false_eq_true, if_false]
    have e : (rows.zip cols).map Prod.fst = rows := List.map_fst_zip (le_of_eq len)
    rw [residual_list n m _ testOwn A F x (by rw [e]; exact nodup)
      (fun c h => ⟨hr _ (List.of_mem_zip h).1, hc _ (List.of_mem_zip h).2⟩)
      (fun c h => ht.mem_iff.2 (List.of_mem_zip h).1), e]
    constructor
    · rintro ⟨h1, h2⟩
      refine ⟨fun j hj => ?_, fun i hi hn => ?_⟩
      · obtain ⟨i, hi⟩ := mem_zip_right len hj
        exact h1 _ hi
      · rw [h2 i hi hn, if_neg (fun t => hn (ht.mem_iff.1 t))]
    · rintro ⟨h1, h2⟩
      refine ⟨fun c h => h1 _ (List.of_mem_zip h).2, fun i hi hn => ?_⟩
      rw [h2 i hi hn, if_neg (fun t => hn (ht.mem_iff.1 t))]
  · obtain ⟨rfl, hp⟩ := heq rfl
    simp only [if_true]
    have e2 : (own.map fun k => (k, k)).map Prod.fst = own := by simp [Function.comp_def]
    rw [residual_list n m _ testOwn A F x (by rw [e2]; exact hp.nodup_iff.2 nodup)
      (by
        intro c h
        obtain ⟨k, hk, rfl⟩ := List.mem_map.1 h
        exact ⟨hr k (hp.mem_iff.1 hk), hc k (hp.mem_iff.1 hk)⟩)
      (by
        intro c h
        obtain ⟨k, hk, rfl⟩ := List.mem_map.1 h
        exact ht.mem_iff.2 (hp.mem_iff.1 hk)), e2]
    constructor
    · rintro ⟨h1, h2⟩
      refine ⟨fun j hj => h1 (j, j) (List.mem_map.2 ⟨j, hp.mem_iff.2 hj, rfl⟩), fun i hi hn => ?_⟩
      rw [h2 i hi (fun t => hn (hp.mem_iff.1 t)), if_neg (fun t => hn (ht.mem_iff.1 t))]
    · rintro ⟨h1, h2⟩
      refine ⟨?_, fun i hi hn => ?_⟩
      · intro c h
        obtain ⟨k, hk, rfl⟩ := List.mem_map.1 h
        exact h1 k (hp.mem_iff.1 hk)
      · have hn' : i ∉ rows := fun t => hn (hp.mem_iff.2 t)
        rw [h2 i hi hn', if_neg (fun t => hn' (ht.mem_iff.1 t))]

example : Sol 2 3
    (dirResidualTwo 2 3 false [2] [0] [0] [2] ((fun p => ([2, 3, 1, 7, 4, 1] : List ℚ).getD p 0), fun p => ([9, 10] : List ℚ).getD p 0)).1
    (dirResidualTwo 2 3 false [2] [0] [0] [2] ((fun p => ([2, 3, 1, 7, 4, 1] : List ℚ).getD p 0), fun p => ([9, 10] : List ℚ).getD p 0)).2
    (fun p => ([1, 1, 0] : List ℚ).getD p 0) := by
  rw [residual_exact 2 3 _ _ _ _ _ _ _ _ ⟨by simp, by simp, by simp, by simp, by simp⟩ (List.Perm.refl _)]
  refine ⟨by simp, fun i hi hne => ?_⟩
  have : i = 1 := by simp at hne; omega
  subst this
  norm_num [lhs, ent, Finset.sum_range_succ]

/-- **C82 fails** if the test map has more d.o.f.s on the part than the trial map: the loop over the matrix stops at the shorter
iteration, the loop over the right-hand side does not. The equations of the test d.o.f.s without a partner stay, with their right-hand
side replaced by 0 -/
theorem residual_unpaired_wrong (n m : Nat) (own testOwn rows cols : List Nat) (A F x : Nat → K)
    (hr : rows.Nodup) (hrn : ∀ i ∈ rows, i < n) (hcm : ∀ j ∈ cols, j < m) (ht : testOwn.Perm rows) (hl : cols.length < rows.length)
    (hs : Sol n m (dirResidualTwo n m false own testOwn rows cols (A, F)).1
      (dirResidualTwo n m false own testOwn rows cols (A, F)).2 x) :
    ∃ i ∈ rows, lhs n m A x i = 0 := by
  have e : (rows.zip cols).map Prod.fst = rows.take cols.length := by
    exact map_fst_zip_take rows cols
  unfold dirResidualTwo at hs
  rw [matrixTwo_pairs] at hs
  simp only [Bool.false_eq_true, if_false] at hs
  rw [residual_list n m _ testOwn A F x (by rw [e]; exact hr.sublist (List.take_sublist _ _))
      (fun c h => ⟨hrn _ (List.of_mem_zip h).1, hcm _ (List.of_mem_zip h).2⟩)
      (fun c h => ht.mem_iff.2 (List.of_mem_zip h).1), e] at hs
  have hm : rows[cols.length] ∈ rows := List.getElem_mem hl
  refine ⟨rows[cols.length], hm, ?_⟩
  rw [hs.2 _ (hrn _ hm) ?_, if_pos (ht.mem_iff.2 hm)]
  intro h
  obtain ⟨k, hk, ek⟩ := List.mem_iff_getElem.1 h
  rw [List.getElem_take] at ek
  have hk' : k < cols.length := by rw [List.length_take] at hk; omega
  have := (List.Nodup.getElem_inj_iff hr).1 ek
  omega

/-- one trial d.o.f. and two test d.o.f.s on the part: the equation `2 x = 9` of the second becomes `2 x = 0` -/
example (x : Nat → ℚ) (hs : Sol 2 2
    (dirResidualTwo 2 2 false [1] [0, 1] [0, 1] [1] ((fun p => ([3, 2, 1, 0] : List ℚ).getD p 0), fun _ => 9)).1
    (dirResidualTwo 2 2 false [1] [0, 1] [0, 1] [1] ((fun p => ([3, 2, 1, 0] : List ℚ).getD p 0), fun _ => 9)).2 x) :
    ∃ i ∈ [0, 1], lhs 2 2 (fun p => ([3, 2, 1, 0] : List ℚ).getD p 0) x i = 0 :=
  residual_unpaired_wrong 2 2 [1] [0, 1] [0, 1] [1] _ _ x (by decide) (by decide) (by decide) (List.Perm.refl _) (by decide) hs

/-- **C82.** d.o.f.s which do not exist: their rows and columns become zero and all other entries stay, in both branches -/
theorem nonExists_ent (n m : Nat) (same : Bool) (own rows cols : List Nat) (A : Nat → K)
    (w : Walk n m same own rows cols) (r c : Nat) (hr : r < n) (hc : c < m) :
    ent n (dirNonExistsTwo n m same own rows cols A) r c = if r ∈ rows ∨ c ∈ cols then 0 else ent n A r c := by
  have key : ∀ (l : List (Nat × Nat)) (A : Nat → K), (∀ p ∈ l, p.1 < n) →
      ent n (l.foldl (fun A p => clearRC n m A p.1 p.2) A) r c =
        if r ∈ l.map Prod.fst ∨ c ∈ l.map Prod.snd then 0 else ent n A r c := by
    intro l
    induction l with
    | nil => intro A _; simp
    | cons p l ih =>
      intro A h
      rw [List.foldl_cons, ih _ (fun q hq => h q (by simp [hq])), clearRC_ent n m A (h p (by simp)) r c hr hc]
      by_cases h1 : r ∈ l.map Prod.fst ∨ c ∈ l.map Prod.snd
      · rw [if_pos h1, if_pos (by rcases h1 with h1 | h1 <;> simp only [List.map_cons, List.mem_cons] <;> tauto)]
      · rw [if_neg h1]
        by_cases h2 : r = p.1 ∨ c = p.2
        · rw [if_pos h2, if_pos (by simp only [List.map_cons, List.mem_cons]; tauto)]
        · rw [if_neg h2, if_neg (by simp only [List.map_cons, List.mem_cons]; tauto)]
  obtain ⟨len, nodup, hrn, hcm, heq⟩ := w
  unfold dirNonExistsTwo
  cases same
  · simp only [Bool.false_eq_true, if_false]
    rw [key _ A (fun p h => hrn _ (List.of_mem_zip h).1), List.map_fst_zip (le_of_eq len), List.map_snd_zip (le_of_eq len.symm)]
  · obtain ⟨rfl, hp⟩ := heq rfl
    simp only [if_true]
    have e : own.foldl (fun A k => dirNonExists n m A k) A = (own.map fun k => (k, k)).foldl (fun A p => clearRC n m A p.1 p.2) A := by
      rw [List.foldl_map]; rfl
    rw [e, key]
    · simp [Function.comp_def, hp.mem_iff]
    · intro p h
      obtain ⟨k, hk, rfl⟩ := List.mem_map.1 h
      exact hrn k (hp.mem_iff.1 hk)

example : ent 2 (dirNonExistsTwo 2 3 false [2] [0] [2] (fun p => ([2, 3, 1, 7, 4, 1] : List ℚ).getD p 0)) 1 2 = 0 := by
  rw [nonExists_ent 2 3 _ _ _ _ _ ⟨by simp, by simp, by simp, by simp, by simp⟩ 1 2 (by decide) (by decide)]
  simp

end Verif.Dirichlet
