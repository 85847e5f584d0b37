import Verif.Model.Region
import Verif.Spec.Region
import Verif.Props.Cholesky
import Verif.Lemmas.Loops
import Mathlib.Data.List.Sort
import Mathlib.Data.List.GetD
import Mathlib.Tactic.Ring
import Mathlib.Tactic.Linarith
import Mathlib.Tactic.Positivity
import Mathlib.Algebra.Order.BigOperators.Group.Finset

/-!
Lemmas about interpolation on a region: the selection of rows and columns in place, the quadratic form of the Gram matrix.
-/
namespace Verif.Region

open Verif.Dense

section gather
variable {K : Type}

/-- gathering in place: the sources lie not before the destinations -/
theorem gather {m : Nat} (src : Nat → Nat) (hs : ∀ t, t < m → t ≤ src t) (F : Nat → K) :
    (∀ t, t < m → loop 0 m (fun k F => wr F k (F (src k))) F t = F (src t)) ∧
      ∀ p, m ≤ p → loop 0 m (fun k F => wr F k (F (src k))) F p = F p :=
  loop_ind (P := fun m' (G : Nat → K) => (∀ t, t < m' → G t = F (src t)) ∧ ∀ p, m' ≤ p → G p = F p) (Nat.zero_le m)
    ⟨fun t h => absurd h (Nat.not_lt_zero t), fun _ _ => rfl⟩
    (fun i G _ hi ih => by
      refine ⟨fun t ht => ?_, fun p hp => ?_⟩
      · rcases Nat.lt_or_ge t i with h | h
        · rw [wr_ne _ _ (fun e => by omega), ih.1 t h]
        · have : t = i := by omega
          subst this
          rw [wr_same, ih.2 _ (hs t hi)]
      · rw [wr_ne _ _ (fun e => by omega), ih.2 p (by omega)])

/-- a strictly increasing list leaves nothing behind its positions -/
theorem le_getD {ids : List Nat} (h : ids.Pairwise (· < ·)) : ∀ k, k < ids.length → k ≤ ids.getD k 0 := by
  intro k
  induction k with
  | zero => intro _; omega
  | succ k ih =>
    intro hk
    have h1 := ih (by omega)
    have h2 := List.pairwise_iff_getElem.1 h k (k + 1) (by omega) hk (by omega)
    rw [List.getD_eq_getElem _ _ (by omega)] at h1
    rw [List.getD_eq_getElem _ _ hk]
    omega

theorem length_le {ids : List Nat} (h : ids.Pairwise (· < ·)) {nfa : Nat} (hb : ∀ j ∈ ids, j < nfa) : ids.length ≤ nfa := by
  rcases Nat.eq_zero_or_pos ids.length with h0 | h0
  · omega
  · have h1 := le_getD h (ids.length - 1) (by omega)
    rw [List.getD_eq_getElem _ _ (by omega)] at h1
    have h2 := hb _ (List.getElem_mem (l := ids) (n := ids.length - 1) (by omega))
    omega

/-- **selection of the right-hand side** -/
theorem compactF_at {ids : List Nat} (h : ids.Pairwise (· < ·)) (F : Nat → K) {k : Nat} (hk : k < ids.length) :
    compactF ids F k = F (ids.getD k 0) :=
  (gather (fun k => ids.getD k 0) (le_getD h) F).1 k hk

/-- **selection of the matrix** -/
theorem compactA_at {ids : List Nat} (h : ids.Pairwise (· < ·)) {nfa : Nat} (hb : ∀ j ∈ ids, j < nfa) (A : Nat → K)
    {i j : Nat} (hi : i < ids.length) (hj : j < ids.length) :
    compactA nfa ids A (i + j * ids.length) = A (ids.getD i 0 + ids.getD j 0 * nfa) := by
  have hN := length_le h hb
  generalize hn : ids.length = N at *
  have key := loop_ind (P := fun m (M : Nat → K) =>
      (∀ a b, a < N → b < m → M (a + b * N) = A (ids.getD a 0 + ids.getD b 0 * nfa)) ∧ ∀ p, m * N ≤ p → M p = A p)
    (f := fun j A => loop 0 N (fun i A => wr A (i + j * N) (A (ids.getD i 0 + ids.getD j 0 * nfa))) A) (s := A)
    (Nat.zero_le N) ⟨fun a b _ hb => absurd hb (Nat.not_lt_zero b), fun _ _ => rfl⟩
    (fun b M _ hbN ih => by
      have inner := loop_ind (P := fun m (G : Nat → K) =>
          (∀ a, a < m → G (a + b * N) = A (ids.getD a 0 + ids.getD b 0 * nfa)) ∧
            (∀ p, p < b * N → G p = M p) ∧ ∀ p, m + b * N ≤ p → G p = A p)
        (f := fun i A => wr A (i + b * N) (A (ids.getD i 0 + ids.getD b 0 * nfa))) (s := M)
        (Nat.zero_le N) ⟨fun a ha => absurd ha (Nat.not_lt_zero a), fun _ _ => rfl, fun p hp => ih.2 p (by omega)⟩
        (fun c G _ hc ihc => by
          have hsrc : c + b * N ≤ ids.getD c 0 + ids.getD b 0 * nfa := by
            have h1 := le_getD h c (by omega)
            have h2 := Nat.mul_le_mul (le_getD h b (by omega)) hN
            omega
          refine ⟨fun a ha => ?_, fun p hp => ?_, fun p hp => ?_⟩
          · rcases Nat.lt_or_ge a c with h3 | h3
            · rw [wr_ne _ _ (fun e => by omega), ihc.1 a h3]
            · have : a = c := by omega
              subst this
              rw [wr_same, ihc.2.2 _ hsrc]
          · rw [wr_ne _ _ (fun e => by omega), ihc.2.1 p hp]
          · rw [wr_ne _ _ (fun e => by omega), ihc.2.2 p (by omega)])
      refine ⟨fun a b' ha hb' => ?_, fun p hp => inner.2.2 p (by rw [Nat.succ_mul] at hp; omega)⟩
      rcases Nat.lt_or_ge b' b with h3 | h3
      · rw [inner.2.1 _ ?_, ih.1 a b' ha h3]
        have : (b' + 1) * N ≤ b * N := Nat.mul_le_mul_right _ h3
        rw [Nat.succ_mul] at this
        omega
      · have : b' = b := by omega
        subst this
        exact inner.1 a ha)
  have := key.1 i j hi hj
  unfold compactA
  rw [hn]
  exact this

theorem writeBack_at {ids : List Nat} (h : ids.Pairwise (· < ·)) (X u : Nat → K) {k : Nat} (hk : k < ids.length) :
    writeBack ids X u (ids.getD k 0) = X k := by
  refine loop_at (fun _ => X k) (Nat.zero_le _) hk (fun t => wr_same ..) (fun j t _ hj hne => wr_ne _ _ (fun e => ?_))
  rw [List.getD_eq_getElem _ _ hk, List.getD_eq_getElem _ _ hj] at e
  have hnd : ids.Nodup := h.imp (fun h => Nat.ne_of_lt h)
  exact hne ((hnd.getElem_inj_iff).1 e).symm

theorem writeBack_off {ids : List Nat} (X u : Nat → K) {p : Nat} (hp : p ∉ ids) : writeBack ids X u p = u p :=
  loop_off (fun k t _ hk => wr_ne _ _ (fun e => hp (by
    rw [e, List.getD_eq_getElem _ _ hk]
    exact List.getElem_mem hk)))

end gather

section sums
variable {K : Type} [Field K]

theorem sum_map_getD (l : List Nat) (g : Nat → K) : (l.map g).sum = ∑ i ∈ Finset.range l.length, g (l.getD i 0) := by
  induction l with
  | nil => simp
  | cons a t ih =>
    rw [List.map_cons, List.sum_cons, ih, List.length_cons, Finset.sum_range_succ']
    simp [add_comm]

/-- what the sorted list is -/
theorem sorted_ids {l : List Nat} (hl : l.Nodup) :
    (l.mergeSort (fun a b => decide (a ≤ b))).Pairwise (· < ·) ∧ (l.mergeSort (fun a b => decide (a ≤ b))).Perm l := by
  have hp := List.mergeSort_perm l (fun a b => decide (a ≤ b))
  have hs : (l.mergeSort (fun a b => decide (a ≤ b))).Pairwise (fun a b => decide (a ≤ b) = true) :=
    List.pairwise_mergeSort (fun a b c h1 h2 => by simp at *; omega) (fun a b => by simp; omega) l
  have hn : (l.mergeSort (fun a b => decide (a ≤ b))).Nodup := hp.nodup_iff.2 hl
  refine ⟨?_, hp⟩
  exact (hs.and hn).imp (fun {a b} h => by have := h.1; have := h.2; simp at *; omega)

theorem comb_ids {l ids : List Nat} (hp : ids.Perm l) (phi : Nat → Nat → Nat → K) (c : Nat → K) (n k : Nat) :
    comb l phi c n k = ∑ i ∈ Finset.range ids.length, c (ids.getD i 0) * phi n (ids.getD i 0) k := by
  unfold comb
  rw [← sum_map_getD ids (fun j => c j * phi n j k)]
  exact ((hp.map _).sum_eq).symm

/-- the product of the Gram matrix with two coefficient vectors -/
theorem gram_form (dim q N : Nat) (w : Nat → K) (g : Nat → Nat → Nat → K) (x y : Nat → K) :
    ∑ i ∈ Finset.range N, ∑ j ∈ Finset.range N,
        x i * (∑ n ∈ Finset.range q, w n * ∑ k ∈ Finset.range dim, g n j k * g n i k) * y j =
      ∑ n ∈ Finset.range q, w n * ∑ k ∈ Finset.range dim,
        (∑ i ∈ Finset.range N, x i * g n i k) * ∑ j ∈ Finset.range N, y j * g n j k := by
  have h1 : ∀ i j, x i * (∑ n ∈ Finset.range q, w n * ∑ k ∈ Finset.range dim, g n j k * g n i k) * y j =
      ∑ n ∈ Finset.range q, ∑ k ∈ Finset.range dim, w n * ((x i * g n i k) * (y j * g n j k)) := by
    intro i j
    rw [Finset.mul_sum, Finset.sum_mul]
    refine Finset.sum_congr rfl (fun n _ => ?_)
    rw [Finset.mul_sum, Finset.mul_sum, Finset.sum_mul]
    exact Finset.sum_congr rfl (fun k _ => by ring)
  simp only [h1]
  have h2 : ∀ n, w n * ∑ k ∈ Finset.range dim, (∑ i ∈ Finset.range N, x i * g n i k) * ∑ j ∈ Finset.range N, y j * g n j k =
      ∑ k ∈ Finset.range dim, ∑ i ∈ Finset.range N, ∑ j ∈ Finset.range N, w n * ((x i * g n i k) * (y j * g n j k)) := by
    intro n
    rw [Finset.mul_sum]
    refine Finset.sum_congr rfl (fun k _ => ?_)
    rw [Finset.sum_mul_sum, Finset.mul_sum]
    exact Finset.sum_congr rfl (fun i _ => Finset.mul_sum ..)
  simp only [h2]
  calc _ = ∑ i ∈ Finset.range N, ∑ n ∈ Finset.range q, ∑ j ∈ Finset.range N, ∑ k ∈ Finset.range dim,
        w n * ((x i * g n i k) * (y j * g n j k)) := Finset.sum_congr rfl (fun i _ => Finset.sum_comm)
    _ = ∑ n ∈ Finset.range q, ∑ i ∈ Finset.range N, ∑ j ∈ Finset.range N, ∑ k ∈ Finset.range dim,
        w n * ((x i * g n i k) * (y j * g n j k)) := Finset.sum_comm
    _ = _ := by
        refine Finset.sum_congr rfl (fun n _ => ?_)
        exact (Finset.sum_congr rfl (fun i _ => Finset.sum_comm)).trans Finset.sum_comm

/-- an entry of the Gram matrix -/
theorem gram_at {nfa : Nat} (dim q : Nat) (w : Nat → K) (phi : Nat → Nat → Nat → K) {a : Nat} (b : Nat) (ha : a < nfa) :
    gram nfa dim q w phi (a + b * nfa) = ∑ n ∈ Finset.range q, w n * ∑ k ∈ Finset.range dim, phi n b k * phi n a k := by
  unfold gram
  have h1 : (a + b * nfa) / nfa = b := by rw [Nat.add_mul_div_right _ _ (by omega), Nat.div_eq_of_lt ha, Nat.zero_add]
  have h2 : (a + b * nfa) % nfa = a := by rw [Nat.add_mul_mod_self_right, Nat.mod_eq_of_lt ha]
  rw [h1, h2]

end sums

section order
variable {K : Type} [Field K] [LinearOrder K] [IsStrictOrderedRing K]

theorem ids_lt {ids : List Nat} {nfa : Nat} (hb : ∀ j ∈ ids, j < nfa) {i : Nat} (hi : i < ids.length) : ids.getD i 0 < nfa := by
  rw [List.getD_eq_getElem _ _ hi]
  exact hb _ (List.getElem_mem hi)

theorem sel_ent {ids : List Nat} (h : ids.Pairwise (· < ·)) {nfa : Nat} (hb : ∀ j ∈ ids, j < nfa) (dim q : Nat) (w : Nat → K)
    (phi : Nat → Nat → Nat → K) {i j : Nat} (hi : i < ids.length) (hj : j < ids.length) :
    ent ids.length (compactA nfa ids (gram nfa dim q w phi)) i j =
      ∑ n ∈ Finset.range q, w n * ∑ k ∈ Finset.range dim, phi n (ids.getD j 0) k * phi n (ids.getD i 0) k := by
  unfold ent
  rw [compactA_at h hb _ hi hj, gram_at dim q w phi _ (ids_lt hb hi)]

theorem sel_symm {ids : List Nat} (h : ids.Pairwise (· < ·)) {nfa : Nat} (hb : ∀ j ∈ ids, j < nfa) (dim q : Nat) (w : Nat → K)
    (phi : Nat → Nat → Nat → K) : Symm ids.length (compactA nfa ids (gram nfa dim q w phi)) := by
  intro i hi j hj
  rw [sel_ent h hb dim q w phi hi hj, sel_ent h hb dim q w phi hj hi]
  exact Finset.sum_congr rfl (fun n _ => by rw [Finset.sum_congr rfl (fun k _ => mul_comm _ _)])

theorem sel_form {ids : List Nat} (h : ids.Pairwise (· < ·)) {nfa : Nat} (hb : ∀ j ∈ ids, j < nfa) (dim q : Nat) (w : Nat → K)
    (phi : Nat → Nat → Nat → K) (x y : Nat → K) :
    ∑ i ∈ Finset.range ids.length, ∑ j ∈ Finset.range ids.length,
        x i * ent ids.length (compactA nfa ids (gram nfa dim q w phi)) i j * y j =
      ∑ n ∈ Finset.range q, w n * ∑ k ∈ Finset.range dim,
        (∑ i ∈ Finset.range ids.length, x i * phi n (ids.getD i 0) k) *
          ∑ j ∈ Finset.range ids.length, y j * phi n (ids.getD j 0) k := by
  rw [← gram_form dim q ids.length w (fun n i k => phi n (ids.getD i 0) k) x y]
  refine Finset.sum_congr rfl (fun i hi => Finset.sum_congr rfl (fun j hj => ?_))
  rw [sel_ent h hb dim q w phi (Finset.mem_range.1 hi) (Finset.mem_range.1 hj)]

/-- a weighted sum of squares with positive weights -/
theorem wsq_nonneg {dim q : Nat} {w : Nat → K} (hw : ∀ n, n < q → 0 < w n) (e : Nat → Nat → K) :
    0 ≤ ∑ n ∈ Finset.range q, w n * ∑ k ∈ Finset.range dim, e n k ^ 2 :=
  Finset.sum_nonneg (fun n hn => mul_nonneg (hw n (Finset.mem_range.1 hn)).le (Finset.sum_nonneg (fun _ _ => sq_nonneg _)))

theorem wsq_zero {dim q : Nat} {w : Nat → K} (hw : ∀ n, n < q → 0 < w n) {e : Nat → Nat → K}
    (h : ∑ n ∈ Finset.range q, w n * ∑ k ∈ Finset.range dim, e n k ^ 2 = 0) : ∀ n, n < q → ∀ k, k < dim → e n k = 0 := by
  intro n hn k hk
  have h1 := (Finset.sum_eq_zero_iff_of_nonneg (fun n hn => mul_nonneg (hw n (Finset.mem_range.1 hn)).le
    (Finset.sum_nonneg (fun k _ => sq_nonneg (e n k))))).1 h n (Finset.mem_range.2 hn)
  rcases mul_eq_zero.1 h1 with h2 | h2
  · exact absurd h2 (hw n hn).ne'
  · have := (Finset.sum_eq_zero_iff_of_nonneg (fun k _ => sq_nonneg (e n k))).1 h2 k (Finset.mem_range.2 hk)
    exact pow_eq_zero_iff (two_ne_zero) |>.1 this

/-- coefficients of the numbers from coefficients of the positions -/
theorem coef_exists {ids : List Nat} (h : ids.Pairwise (· < ·)) (x : Nat → K) :
    ∃ c : Nat → K, ∀ i, i < ids.length → c (ids.getD i 0) = x i :=
  ⟨writeBack ids x (fun _ => 0), fun _ hi => writeBack_at h x _ hi⟩

theorem sel_posDef {l ids : List Nat} (h : ids.Pairwise (· < ·)) (hp : ids.Perm l) {nfa : Nat} (hb : ∀ j ∈ ids, j < nfa)
    {dim q : Nat} {w : Nat → K} (hw : ∀ n, n < q → 0 < w n) (phi : Nat → Nat → Nat → K) :
    PosDef ids.length (compactA nfa ids (gram nfa dim q w phi)) ↔ Indep dim q l phi := by
  constructor
  · intro hpd c hc j hj
    by_contra hne
    obtain ⟨i, hi, rfl⟩ := List.getElem_of_mem (hp.mem_iff.2 hj)
    have := hpd (fun i => c (ids.getD i 0)) ⟨i, hi, by rwa [List.getD_eq_getElem _ _ hi]⟩
    rw [sel_form h hb dim q w phi] at this
    refine absurd this (not_lt.2 (le_of_eq ?_))
    refine Finset.sum_eq_zero (fun n hn => ?_)
    rw [Finset.sum_eq_zero (fun k hk => ?_), mul_zero]
    rw [← comb_ids hp phi c, hc n (Finset.mem_range.1 hn) k (Finset.mem_range.1 hk), zero_mul]
  · intro hi x ⟨i, hil, hx⟩
    obtain ⟨c, hc⟩ := coef_exists h x
    rw [sel_form h hb dim q w phi]
    have hcomb : ∀ n k, ∑ i ∈ Finset.range ids.length, x i * phi n (ids.getD i 0) k = comb l phi c n k := by
      intro n k
      rw [comb_ids hp]
      exact Finset.sum_congr rfl (fun i hi => by rw [hc i (Finset.mem_range.1 hi)])
    simp only [hcomb, ← sq]
    refine lt_of_le_of_ne (wsq_nonneg hw _) (fun h0 => hx ?_)
    have h1 := hi c (wsq_zero hw h0.symm) (ids.getD i 0) (hp.mem_iff.1 (by
      rw [List.getD_eq_getElem _ _ hil]; exact List.getElem_mem hil))
    rw [hc i hil] at h1
    exact h1

end order

end Verif.Region
