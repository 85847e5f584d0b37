import Verif.Lemmas.LU3
import Mathlib.Algebra.Order.Ring.Rat
import Mathlib.Data.Rat.Defs
import Mathlib.Tactic.NormNum

/-!
Property C20: the fully pivoted LU solver.

The factorisation and the triangular solves are right, the last exchange of `LU_solve` is not: it applies the column
exchanges instead of undoing them.  The result is the solution with its entries exchanged twice more; it is right when
the column exchanges are their own inverse, in particular for orders 1 and 2, and wrong otherwise.
-/
set_option linter.unusedSectionVars false

namespace Verif.Dense

open Finset

variable {K : Type} [Field K] [LinearOrder K] [IsStrictOrderedRing K]

/-- The test geometry.h:303 with `eps` decides as an exact test at step `k`: the column below the pivot is zero or
relatively larger than `eps`. -/
def notTiny (eps : K) (N k : Nat) (s : LUState K) : Bool :=
  match luPivot N k s.A with
  | (none, _) => true
  | (some (pi, pj), mx) =>
    let m := luMax1 N k (swapCols N k pj (swapRows N k pi s.A))
    decide (m = 0 ∨ m / mx > eps)

/-- The same at all the steps `ks` of the factorisation. -/
def NoTiny (eps : K) (N : Nat) : List Nat → LUState K → Bool
  | [], _ => true
  | k :: ks, s => notTiny eps N k s && match luStep 0 N k s with
    | none => true
    | some s' => NoTiny eps N ks s'

theorem step_eq {eps : K} {N k : Nat} (hk : k < N) {s : LUState K} (h : notTiny eps N k s = true) (he : 0 ≤ eps) :
    luStep eps N k s = luStep 0 N k s := by
  unfold luStep
  unfold notTiny at h
  obtain ⟨_, _, hsome⟩ := pivot_spec (Nat.le_of_lt hk) s.A
  generalize luPivot N k s.A = pv at h hsome ⊢
  obtain ⟨o, mx⟩ := pv
  match o with
  | none => rfl
  | some (pi, pj) =>
    have hmx : 0 < mx := (hsome pi pj rfl).2.2.2.2.2
    simp only [decide_eq_true_eq] at h ⊢
    generalize luMax1 N k (swapCols N k pj (swapRows N k pi s.A)) = m at h ⊢
    by_cases hb : mx > 0 ∧ m > 0 ∧ m / mx > eps
    · rw [if_pos hb, if_pos ⟨hb.1, hb.2.1, lt_of_le_of_lt he hb.2.2⟩]
    · rw [if_neg hb, if_neg]
      intro hc
      rcases h with h | h
      · rw [h] at hc; exact lt_irrefl _ hc.2.1
      · exact hb ⟨hc.1, hc.2.1, h⟩

theorem run_eq {eps : K} {N : Nat} (he : 0 ≤ eps) : ∀ (ks : List Nat) (s : LUState K), (∀ k ∈ ks, k < N) →
    NoTiny eps N ks s = true →
    ks.foldlM (fun s k => luStep eps N k s) s = ks.foldlM (fun s k => luStep 0 N k s) s := by
  intro ks
  induction ks with
  | nil => intro s _ _; rfl
  | cons k ks ih =>
    intro s hk h
    unfold NoTiny at h
    rw [Bool.and_eq_true] at h
    rw [List.foldlM_cons, List.foldlM_cons, step_eq (hk k (by simp)) h.1 he]
    cases hst : luStep 0 N k s with
    | none => rfl
    | some s' =>
      rw [hst] at h
      exact ih s' (fun k' hk' => hk k' (by simp [hk'])) h.2

theorem factor_eq {eps : K} {N : Nat} {s : LUState K} (he : 0 ≤ eps) (h : NoTiny eps N (List.range N) s = true) :
    fullPivLU eps N s = fullPivLU 0 N s := run_eq he _ s (fun _ hk => List.mem_range.mp hk) h

theorem sum_upper {N i : Nat} (hi : i ≤ N) (C z : Nat → K) :
    ∑ j ∈ range N, uF N C i j * z j = ∑ j ∈ Ico i N, ent N C i j * z j := by
  rw [← sum_range_add_sum_Ico _ hi, sum_eq_zero (s := range i), zero_add]
  · refine sum_congr rfl fun j hj => ?_
    rw [mem_Ico] at hj
    unfold uF
    rw [if_pos hj.1]
  · intro j hj
    rw [mem_range] at hj
    unfold uF
    rw [if_neg (by omega), zero_mul]

theorem sum_unit_lower {N i : Nat} (hi : i < N) (C z : Nat → K) :
    ∑ t ∈ range N, lF N C i t * z t = ∑ t ∈ range i, ent N C i t * z t + z i := by
  rw [← sum_range_add_sum_Ico _ (show i + 1 ≤ N by omega), sum_eq_zero (s := Ico (i + 1) N), add_zero, sum_range_succ]
  · congr 1
    · refine sum_congr rfl fun t ht => ?_
      rw [mem_range] at ht
      unfold lF
      rw [if_pos ht]
    · unfold lF
      rw [if_neg (by omega), if_pos rfl, one_mul]
  · intro t ht
    rw [mem_Ico] at ht
    unfold lF
    rw [if_neg (by omega), if_neg (by omega), zero_mul]

/-- a full factorisation belongs to a matrix without null vectors -/
theorem nonSing_of_factor {N : Nat} {A : Nat → K} {s : LUState K} (h : LInv N A N s) : NonSing N A := by
  intro x hx
  -- in the exchanged unknowns
  have hz : ∀ i, i < N → ∑ t ∈ range N, lF N s.A i t * ∑ j ∈ range N, uF N s.A t j * x (s.q j) = 0 := by
    intro i hi
    rw [← h.apply (fun j => x (s.q j)) hi, h.permQ.sum (fun j => ent N A (s.p i) j * x j)]
    obtain ⟨p', hp'⟩ := h.permP
    exact hx _ (hp' i hi).1
  have hy : ∀ t, t < N → ∑ j ∈ range N, uF N s.A t j * x (s.q j) = 0 := by
    intro t
    induction t using Nat.strong_induction_on with
    | _ t ih =>
      intro ht
      have := hz t ht
      rw [sum_unit_lower ht, sum_eq_zero, zero_add] at this
      · exact this
      · intro r hr
        rw [mem_range] at hr
        rw [ih r hr (by omega), mul_zero]
  have hq : ∀ m j, N ≤ j + m → j < N → x (s.q j) = 0 := by
    intro m
    induction m with
    | zero => intro j h1 h2; omega
    | succ m ih =>
      intro j h1 h2
      have := hy j h2
      rw [sum_upper (by omega), sum_eq_sum_Ico_succ_bot h2, sum_eq_zero (s := Ico (j + 1) N), add_zero] at this
      · exact (mul_eq_zero.mp this).resolve_left (h.piv j h2 h2)
      · intro r hr
        rw [mem_Ico] at hr
        rw [ih r (by omega) hr.2, mul_zero]
  intro j hj
  obtain ⟨q', hq'⟩ := h.permQ
  rw [← (hq' j hj).2.2.2]
  exact hq N (q' j) (by omega) (hq' j hj).2.1

/-- a zero remaining block gives a null vector -/
theorem singular_of_block {N k : Nat} (hk : k < N) {A : Nat → K} {s : LUState K} (h : LInv N A k s)
    (hz : ∀ i j, k ≤ i → i < N → k ≤ j → j < N → ent N s.A i j = 0) : ¬ NonSing N A := by
  intro hn
  obtain ⟨x, h1, h2, h3⟩ := upper_null (fun t ht => h.piv t ht (by omega)) k (Nat.le_refl _)
  obtain ⟨p', hp'⟩ := h.permP
  obtain ⟨q', hq'⟩ := h.permQ
  have hu : ∀ t, t < k → ∑ j ∈ range N, uF N s.A t j * x j = 0 := by
    intro t ht
    rw [sum_upper (by omega), ← sum_Ico_consecutive _ (show t ≤ k + 1 by omega) (show k + 1 ≤ N by omega),
      h3 t (by omega) ht, zero_add]
    refine sum_eq_zero fun j hj => ?_
    rw [mem_Ico] at hj
    rw [h2 j (by omega), mul_zero]
  have hx : ∀ i, i < N → ∑ j ∈ range N, ent N A i j * x (q' j) = 0 := by
    intro i hi
    rw [← PermOn.sum ⟨q', hq'⟩ (fun j => ent N A i j * x (q' j)), ← (hp' i hi).2.2.2]
    have hi' := (hp' i hi).2.1
    have e : ∑ j ∈ range N, ent N A (s.p (p' i)) (s.q j) * x (q' (s.q j)) =
        ∑ j ∈ range N, ∑ t ∈ range k, lF N s.A (p' i) t * (uF N s.A t j * x j) := by
      refine sum_congr rfl fun j hj => ?_
      rw [mem_range] at hj
      rw [(hq' j hj).2.2.1, h.prod _ j hi' hj]
      have : (if k ≤ p' i ∧ k ≤ j then ent N s.A (p' i) j else 0) = 0 := by
        split
        · rename_i hb; exact hz _ _ hb.1 hi' hb.2 hj
        · rfl
      rw [this, add_zero, sum_mul]
      exact sum_congr rfl fun t _ => by ring
    rw [e, sum_comm]
    refine sum_eq_zero fun t ht => ?_
    rw [mem_range] at ht
    rw [← mul_sum, hu t ht, mul_zero]
  have := hn (fun j => x (q' j)) hx (s.q k) (hq' k hk).1
  rw [(hq' k hk).2.2.1, h1] at this
  exact one_ne_zero this

/-- **C20**: for a nonsingular matrix `fullPivLU` with the exact test finds a pivot at every step and computes the
triangular factors of the exchanged matrix. -/
theorem lu_factor (N : Nat) (A : Nat → K) (hA : NonSing N A) :
    ∃ s, fullPivLU 0 N ⟨A, id, id⟩ = some s ∧ PermOn N s.p ∧ PermOn N s.q ∧ (∀ t, t < N → ent N s.A t t ≠ 0) ∧
      ∀ i j, i < N → j < N → ent N A (s.p i) (s.q j) =
        ∑ t ∈ range N, (if t < i then ent N s.A i t else if t = i then 1 else 0) *
          (if t ≤ j then ent N s.A t j else 0) := by
  rcases lu_cases A N (Nat.le_refl _) with ⟨s, h1, h2⟩ | ⟨_, k, s, hk, h2, h3⟩
  · refine ⟨s, h1, h2.permP, h2.permQ, fun t ht => h2.piv t ht ht, ?_⟩
    intro i j hi hj
    rw [h2.prod i j hi hj, if_neg (by omega), add_zero]
    rfl
  · exact absurd hA (singular_of_block hk h2 h3)

/-- **C20**: `fullPivLU` runs out of its index arrays exactly for the singular matrices. -/
theorem lu_undefined_iff (N : Nat) (A : Nat → K) : fullPivLU 0 N ⟨A, id, id⟩ = none ↔ ¬ NonSing N A := by
  rcases lu_cases A N (Nat.le_refl _) with ⟨s, h1, h2⟩ | ⟨h1, k, s, hk, h2, h3⟩
  · have h1' : fullPivLU 0 N ⟨A, id, id⟩ = some s := h1
    rw [h1']
    exact ⟨fun h => (by cases h), fun h => absurd (nonSing_of_factor h2) h⟩
  · exact ⟨fun _ => singular_of_block hk h2 h3, fun _ => h1⟩

theorem solve_permuted {N M : Nat} (hN : 0 < N) {A : Nat → K} {s : LUState K} (h : LInv N A N s) (B X : Nat → K) :
    ∃ Z : Nat → K, Solves N M A Z B ∧ ∀ i, i < N → ∀ l, l < M →
      ent N (luSolve N M s.A s.p s.q B X) i l = ent N Z (s.q (s.q i)) l := by
  obtain ⟨q', hq'⟩ := h.permQ
  obtain ⟨p', hp'⟩ := h.permP
  have hd : ∀ t, t < N → ent N s.A t t ≠ 0 := fun t ht => h.piv t ht ht
  let W := luBwd N M s.A (luFwd N M s.A (luPerm N M s.p B X))
  have hW : ∀ i, i < N → ∀ l, l < M → ∑ j ∈ range N, ent N A (s.p i) (s.q j) * ent N W j l = ent N B (s.p i) l := by
    intro i hi l hl
    rw [h.apply (fun j => ent N W j l) hi]
    have e : ∑ t ∈ range N, lF N s.A i t * ∑ j ∈ range N, uF N s.A t j * ent N W j l =
        ∑ t ∈ range N, lF N s.A i t * ent N (luFwd N M s.A (luPerm N M s.p B X)) t l := by
      refine sum_congr rfl fun t ht => ?_
      rw [mem_range] at ht
      rw [sum_upper (z := fun j => ent N W j l) (by omega), luBwd_spec hN _ _ hd t ht l hl]
    rw [e, sum_unit_lower (z := fun t => ent N (luFwd N M s.A (luPerm N M s.p B X)) t l) hi,
      luFwd_spec _ _ i hi l hl, perm_ent _ _ hi hl]
  refine ⟨fun t => ent N W (q' (t % N)) (t / N), ?_, ?_⟩
  · have hz : ∀ j l, j < N → ent N (fun t => ent N W (q' (t % N)) (t / N)) j l = ent N W (q' j) l := by
      intro j l hj
      show ent N W (q' ((j + l * N) % N)) ((j + l * N) / N) = _
      rw [Nat.add_mul_mod_self_right, Nat.mod_eq_of_lt hj, Nat.add_mul_div_right _ _ hN, Nat.div_eq_of_lt hj,
        Nat.zero_add]
    intro i hi l hl
    have e : ∑ j ∈ range N, ent N A i j * ent N (fun t => ent N W (q' (t % N)) (t / N)) j l =
        ∑ j ∈ range N, ent N A i j * ent N W (q' j) l := by
      refine sum_congr rfl fun j hj => ?_
      rw [mem_range] at hj
      rw [hz j l hj]
    rw [e, ← PermOn.sum ⟨q', hq'⟩ (fun j => ent N A i j * ent N W (q' j) l), ← (hp' i hi).2.2.2,
      ← hW (p' i) (hp' i hi).2.1 l hl]
    refine sum_congr rfl fun j hj => ?_
    rw [mem_range] at hj
    rw [(hq' j hj).2.2.1]
  · intro i hi l hl
    have hqi := (hq' i hi).1
    unfold luSolve
    rw [perm_ent _ _ hi hl]
    show (if s.q i + l * N < N * M then W (s.q i + l * N) else B (s.q i + l * N)) =
      ent N W (q' ((s.q (s.q i) + l * N) % N)) ((s.q (s.q i) + l * N) / N)
    have hqq := (hq' (s.q i) hqi).1
    rw [Nat.add_mul_mod_self_right, Nat.mod_eq_of_lt hqq, Nat.add_mul_div_right _ _ hN, Nat.div_eq_of_lt hqq,
      Nat.zero_add, (hq' (s.q i) hqi).2.2.1, if_pos]
    · rfl
    · calc s.q i + l * N < N + l * N := by omega
        _ = (l + 1) * N := by ring
        _ ≤ M * N := Nat.mul_le_mul_right _ hl
        _ = N * M := Nat.mul_comm _ _

/-- **C20**, what the solver does return: for a nonsingular matrix the factorisation succeeds and the result is the
solution with its entries exchanged: entry `i` is the entry `q (q i)` of the solution, `q` being the column exchanges. -/
theorem lu_solve_permuted (eps : K) (N M : Nat) (hN : 0 < N) (A B X : Nat → K) (hA : NonSing N A)
    (h0 : 0 ≤ eps) (ht : NoTiny eps N (List.range N) ⟨A, id, id⟩ = true) :
    ∃ s Y Z, fullPivLU eps N ⟨A, id, id⟩ = some s ∧ luSolveFull eps N M A B X = some Y ∧ Solves N M A Z B ∧
      ∀ i, i < N → ∀ l, l < M → ent N Y i l = ent N Z (s.q (s.q i)) l := by
  have he := factor_eq h0 ht
  rcases lu_cases A N (Nat.le_refl _) with ⟨s, h1, h2⟩ | ⟨_, k, s, hk, h2, h3⟩
  · have h1' : fullPivLU 0 N ⟨A, id, id⟩ = some s := h1
    obtain ⟨Z, hZ, hY⟩ := solve_permuted (M := M) hN h2 B X
    refine ⟨s, _, Z, he.trans h1', ?_, hZ, hY⟩
    unfold luSolveFull
    rw [he, h1']
    rfl
  · exact absurd hA (singular_of_block hk h2 h3)

theorem solves_congr {N M : Nat} {A X Y B : Nat → K} (h : ∀ i, i < N → ∀ l, l < M → ent N X i l = ent N Y i l)
    (hY : Solves N M A Y B) : Solves N M A X B := by
  intro i hi l hl
  rw [← hY i hi l hl]
  refine sum_congr rfl fun j hj => ?_
  rw [mem_range] at hj
  rw [h j hj l hl]

/-- **C20**, partial: for a nonsingular matrix the solver returns the solution provided the column exchanges made by
the pivoting are their own inverse (and the test with `eps` skips no nonzero column).  Missing: other column exchanges,
for which the result is wrong, see `lu_solve_wrong`. -/
theorem lu_solves_partial (eps : K) (N M : Nat) (hN : 0 < N) (A B X : Nat → K) (hA : NonSing N A)
    (h0 : 0 ≤ eps) (ht : NoTiny eps N (List.range N) ⟨A, id, id⟩ = true)
    (hq : ∀ s, fullPivLU eps N ⟨A, id, id⟩ = some s → ∀ i, i < N → s.q (s.q i) = i) :
    ∃ Y, luSolveFull eps N M A B X = some Y ∧ Solves N M A Y B := by
  obtain ⟨s, Y, Z, h1, h2, h3, h4⟩ := lu_solve_permuted eps N M hN A B X hA h0 ht
  refine ⟨Y, h2, solves_congr ?_ h3⟩
  intro i hi l hl
  rw [h4 i hi l hl, hq s h1 i hi]

/-- **C20**, partial: orders one and two.  Missing: larger orders. -/
theorem lu_solves_small_partial (eps : K) (N M : Nat) (hN : 0 < N) (hN2 : N ≤ 2) (A B X : Nat → K) (hA : NonSing N A)
    (h0 : 0 ≤ eps) (ht : NoTiny eps N (List.range N) ⟨A, id, id⟩ = true) :
    ∃ Y, luSolveFull eps N M A B X = some Y ∧ Solves N M A Y B := by
  refine lu_solves_partial eps N M hN A B X hA h0 ht ?_
  intro s hs i hi
  obtain ⟨s', h1, _, ⟨q', hq'⟩, _⟩ := lu_factor N A hA
  have : s' = s := by rw [factor_eq h0 ht, h1] at hs; exact Option.some.inj hs
  subst this
  have h := hq' i hi
  have h2 := hq' (s'.q i) h.1
  by_cases hb : s'.q i = i
  · rw [hb, hb]
  · by_contra hc
    have h3 : s'.q (s'.q i) ≠ s'.q i := by
      intro e
      have := congrArg q' e
      rw [h2.2.2.1, h.2.2.1] at this
      exact hb this
    omega

/-- the result of `fullPivLU_inverse` solves the system with the identity under the same condition -/
theorem identity_spec (N : Nat) (Inv : Nat → K) : IsId N (luIdentity N Inv) := by
  have := loop_ind (S := Nat → K)
    (fun m J => ∀ i, i < N → ∀ j, j < N → ent N J i j = if i = j ∧ i < m then 1 else 0)
    (a := 0) (b := N) (f := fun i Inv => wr Inv (i + i * N) (1 : K)) (s := fun p => if p < N * N then 0 else Inv p)
    (Nat.zero_le _)
    (by
      intro i hi j hj
      rw [if_neg (by omega)]
      show (if i + j * N < N * N then (0 : K) else Inv (i + j * N)) = 0
      rw [if_pos]
      calc i + j * N < N + j * N := by omega
        _ = (j + 1) * N := by ring
        _ ≤ N * N := Nat.mul_le_mul_right _ hj)
    (by
      intro m J _ hm ih i hi j hj
      rw [ent_wr _ _ hm hi]
      by_cases hb : i = m ∧ j = m
      · rw [if_pos hb, if_pos (by omega)]
      · rw [if_neg hb, ih i hi j hj]
        by_cases hc : i = j ∧ i < m
        · rw [if_pos hc, if_pos (by omega)]
        · rw [if_neg hc, if_neg (by omega)])
  intro i hi j hj
  rw [show ent N (luIdentity N Inv) i j = _ from this i hi j hj]
  by_cases hc : i = j
  · rw [if_pos ⟨hc, hi⟩, if_pos hc]
  · rw [if_neg (fun h => hc h.1), if_neg hc]

/-- **C20**, partial: the inverse, under the same conditions as the solver (column exchanges that are their own
inverse). -/
theorem lu_inverse_partial (eps : K) (N : Nat) (hN : 0 < N) (A Inv : Nat → K) (hA : NonSing N A)
    (h0 : 0 ≤ eps) (ht : NoTiny eps N (List.range N) ⟨A, id, id⟩ = true)
    (hq : ∀ s, fullPivLU eps N ⟨A, id, id⟩ = some s → ∀ i, i < N → s.q (s.q i) = i) :
    ∃ Y I, luInverse eps N A Inv = some Y ∧ IsId N I ∧ Solves N N A Y I := by
  obtain ⟨Y, h1, h2⟩ := lu_solves_partial eps N N hN A (luIdentity N Inv) (luIdentity N Inv) hA h0 ht hq
  exact ⟨Y, _, h1, identity_spec N Inv, h2⟩

/-- Disagreement with the documentation: with `Inv` the memory of `A` ("may coincide with A") the result does not
depend on the matrix at all. -/
theorem lu_inverse_in_place_wrong (eps : K) (N : Nat) (A A' : Nat → K) (h : ∀ t, N * N ≤ t → A t = A' t) :
    luInverseInPlace eps N A = luInverseInPlace eps N A' := by
  have : luIdentity N A = luIdentity N A' := by
    unfold luIdentity
    congr 1
    funext t
    by_cases ht : t < N * N
    · rw [if_pos ht, if_pos ht]
    · rw [if_neg ht, if_neg ht, h t (by omega)]
  unfold luInverseInPlace
  rw [this]

/-- memory of a matrix from a list, zero behind it -/
def ofList (l : List ℚ) : Nat → ℚ := fun t => l.getD t 0

/-- The code violates C20: for the nonsingular system `3 y = 3, 2 z = 4, x = 3` the solver returns `2, 3, 1`. -/
theorem lu_solve_wrong :
    let A := ofList [0, 0, 1, 3, 0, 0, 0, 2, 0]
    NonSing 3 A ∧ ∃ Y, luSolveFull (1 / 2 ^ 52) 3 1 A (ofList [3, 4, 3]) (ofList []) = some Y ∧
      (Y 0, Y 1, Y 2) = (2, 3, 1) ∧ ¬ Solves 3 1 A Y (ofList [3, 4, 3]) := by
  intro A
  have hA : NonSing 3 A := by
    intro x hx
    have h0 := hx 0 (by omega); have h1 := hx 1 (by omega); have h2 := hx 2 (by omega)
    simp [sum_range_succ, ent, A, ofList] at h0 h1 h2
    intro j hj
    have : j = 0 ∨ j = 1 ∨ j = 2 := by omega
    rcases this with rfl | rfl | rfl
    · exact h2
    · exact h0
    · exact h1
  have hs : ((luSolveFull (1 / 2 ^ 52) 3 1 A (ofList [3, 4, 3]) (ofList [])).map fun Y => (Y 0, Y 1, Y 2)) =
      some (2, 3, 1) := by
    decide +kernel
  cases hY : luSolveFull (1 / 2 ^ 52) 3 1 A (ofList [3, 4, 3]) (ofList []) with
  | none => rw [hY] at hs; cases hs
  | some Y =>
    rw [hY] at hs
    simp only [Option.map_some, Option.some.injEq] at hs
    refine ⟨hA, Y, rfl, hs, ?_⟩
    intro h
    have := h 2 (by omega) 0 (by omega)
    simp only [Prod.mk.injEq] at hs
    simp [sum_range_succ, ent, A, ofList] at this
    rw [hs.1] at this
    norm_num at this

/-- the hypotheses of the partial theorems hold for a matrix of order 3 with row and column exchanges -/
example : NoTiny (1 / 2 ^ 52) 3 (List.range 3) ⟨ofList [1, 2, 7, 4, 9, 1, 2, 1, 3], id, id⟩ = true ∧
    ((fullPivLU (1 / 2 ^ 52) 3 ⟨ofList [1, 2, 7, 4, 9, 1, 2, 1, 3], id, id⟩).map
      fun s => (s.q 0, s.q (s.q 0), s.q (s.q 1), s.q (s.q 2))) = some (1, 0, 1, 2) := by
  decide +kernel

/-- and the matrix is nonsingular, because the factorisation succeeds -/
example : NonSing 3 (ofList [1, 2, 7, 4, 9, 1, 2, 1, 3]) := by
  refine Classical.not_not.mp fun h => ?_
  have h1 := (lu_undefined_iff 3 _).mpr h
  have h2 : (fullPivLU 0 3 ⟨ofList [1, 2, 7, 4, 9, 1, 2, 1, 3], id, id⟩).isNone = false := by decide +kernel
  rw [h1] at h2
  cases h2

/-- a column below the pivot that is skipped though it is not zero: the result is not the exact solution (by an error
of the size of rounding) -/
theorem lu_skip_inexact : NoTiny (1 / 2 ^ 52) 2 (List.range 2) ⟨ofList [2, 1 / 2 ^ 52, 1, 3 / 2], id, id⟩ = false ∧
    ∃ Y, luSolveFull (1 / 2 ^ 52) 2 1 (ofList [2, 1 / 2 ^ 52, 1, 3 / 2]) (ofList [2, 0]) (ofList []) = some Y ∧
      ¬ Solves 2 1 (ofList [2, 1 / 2 ^ 52, 1, 3 / 2]) Y (ofList [2, 0]) := by
  refine ⟨by decide +kernel, ?_⟩
  have hs : ((luSolveFull (1 / 2 ^ 52) 2 1 (ofList [2, 1 / 2 ^ 52, 1, 3 / 2]) (ofList [2, 0]) (ofList [])).map
      fun Y => decide (ofList [2, 1 / 2 ^ 52, 1, 3 / 2] 1 * Y 0 + ofList [2, 1 / 2 ^ 52, 1, 3 / 2] 3 * Y 1 = 0)) =
      some false := by
    decide +kernel
  cases hY : luSolveFull (1 / 2 ^ 52) 2 1 (ofList [2, 1 / 2 ^ 52, 1, 3 / 2]) (ofList [2, 0]) (ofList []) with
  | none => rw [hY] at hs; cases hs
  | some Y =>
    rw [hY] at hs
    simp only [Option.map_some, Option.some.injEq, decide_eq_false_iff_not] at hs
    refine ⟨Y, rfl, fun h => hs ?_⟩
    have := h 1 (by omega) 0 (by omega)
    rw [sum_range_succ, sum_range_succ, sum_range_zero, zero_add] at this
    exact this

end Verif.Dense
