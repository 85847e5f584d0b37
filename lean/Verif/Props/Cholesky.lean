import Verif.Lemmas.Cholesky2
import Mathlib.Analysis.Real.Sqrt
import Mathlib.Algebra.Order.BigOperators.Ring.Finset
import Mathlib.Tactic.NormNum

/-!
Property C19: the Cholesky solver solves symmetric positive definite systems and rejects all other symmetric matrices.
-/
set_option linter.unusedSectionVars false

namespace Verif.Dense

open Finset Geometry

variable {K : Type} [Field K] [LinearOrder K] [IsStrictOrderedRing K]

theorem lower_prod {N n r c : Nat} {L : Nat → K} (hc : c < n) (hcr : c ≤ r) :
    ∑ t ∈ range (c + 1), E N L r t * E N L c t = ∑ t ∈ range n, Lf N L r t * Lf N L c t := by
  rw [← sum_range_add_sum_Ico _ (show c + 1 ≤ n by omega)]
  rw [sum_eq_zero (s := Ico (c + 1) n), add_zero]
  · refine sum_congr rfl ?_
    intro t ht
    rw [mem_range] at ht
    unfold Lf
    rw [if_pos (by omega), if_pos (by omega)]
  · intro t ht
    rw [mem_Ico] at ht
    unfold Lf
    rw [if_neg (show ¬ t ≤ c by omega), mul_zero]

/-- a completed factorisation: `A = L L^T` -/
theorem CInv.full {N : Nat} {A L : Nat → K} (h : CInv N A N L) (hA : Symm N A) :
    ∀ i, i < N → ∀ j, j < N → ent N A i j = ∑ t ∈ range N, Lf N L i t * Lf N L j t := by
  have low : ∀ i j, j ≤ i → i < N → ent N A i j = ∑ t ∈ range N, Lf N L i t * Lf N L j t := by
    intro i j hj hi
    rw [h.prod i j hj hi, if_neg (by omega), add_zero, Nat.min_eq_right (by omega), lower_prod (n := N) (by omega) hj]
  intro i hi j hj
  rcases Nat.le_total j i with hle | hle
  · exact low i j hle hi
  · rw [hA i hi j hj, low j i hle hj]
    exact sum_congr rfl fun t _ => mul_comm _ _

/-- an interrupted factorisation, on the leading block -/
theorem CInv.part {N k : Nat} {A L : Nat → K} (h : CInv N A k L) (hk : k < N) (hA : Symm N A) :
    ∀ i, i ≤ k → ∀ j, j ≤ k → ent N A i j = ∑ t ∈ range k, Lf N L i t * Lf N L j t +
      if i = k ∧ j = k then E N L k k else 0 := by
  have low : ∀ i j, j ≤ i → i ≤ k → ent N A i j = ∑ t ∈ range k, Lf N L i t * Lf N L j t +
      if i = k ∧ j = k then E N L k k else 0 := by
    intro i j hj hi
    rw [h.prod i j hj (by omega)]
    rcases Nat.lt_or_ge j k with hjk | hjk
    · rw [if_neg (by omega), if_neg (by omega), Nat.min_eq_right (by omega), lower_prod hjk hj]
    · have e1 : j = k := by omega
      have e2 : i = k := by omega
      subst e1; subst e2
      rw [if_pos (Nat.le_refl _), if_pos ⟨rfl, rfl⟩, Nat.min_eq_left (by omega)]
      congr 1
      refine sum_congr rfl ?_
      intro t ht
      rw [mem_range] at ht
      unfold Lf
      rw [if_pos (by omega)]
  intro i hi j hj
  rcases Nat.le_total j i with hle | hle
  · exact low i j hle hi
  · rw [hA i (by omega) j (by omega), low j i hle hj]
    congr 1
    · exact sum_congr rfl fun t _ => mul_comm _ _
    · by_cases hb : j = k ∧ i = k
      · rw [if_pos hb, if_pos hb.symm]
      · rw [if_neg hb, if_neg (fun h => hb h.symm)]

/-- the quadratic form of a product `l l^T` is a sum of squares -/
theorem quad_form (N n : Nat) (l : Nat → Nat → K) (x : Nat → K) :
    ∑ i ∈ range N, ∑ j ∈ range N, x i * (∑ t ∈ range n, l i t * l j t) * x j =
      ∑ t ∈ range n, (∑ i ∈ range N, l i t * x i) * (∑ i ∈ range N, l i t * x i) := by
  have e : ∀ i j, x i * (∑ t ∈ range n, l i t * l j t) * x j = ∑ t ∈ range n, (l i t * x i) * (l j t * x j) := by
    intro i j
    rw [mul_sum, sum_mul]
    exact sum_congr rfl fun t _ => by ring
  simp only [e]
  have e2 : ∀ i, ∑ j ∈ range N, ∑ t ∈ range n, (l i t * x i) * (l j t * x j) =
      ∑ t ∈ range n, (l i t * x i) * ∑ j ∈ range N, l j t * x j := by
    intro i
    rw [sum_comm]
    exact sum_congr rfl fun t _ => by rw [mul_sum]
  simp only [e2]
  rw [sum_comm]
  exact sum_congr rfl fun t _ => by rw [sum_mul]

theorem posDef_of_factor {N : Nat} {A L : Nat → K} (h : CInv N A N L) (hA : Symm N A) : PosDef N A := by
  intro x ⟨i0, hi0, hx0⟩
  have e : ∑ i ∈ range N, ∑ j ∈ range N, x i * ent N A i j * x j =
      ∑ i ∈ range N, ∑ j ∈ range N, x i * (∑ t ∈ range N, Lf N L i t * Lf N L j t) * x j := by
    refine sum_congr rfl fun i hi => sum_congr rfl fun j hj => ?_
    rw [mem_range] at hi hj
    rw [h.full hA i hi j hj]
  rw [e, quad_form]
  have hn : ∀ t ∈ range N, 0 ≤ (∑ i ∈ range N, Lf N L i t * x i) * (∑ i ∈ range N, Lf N L i t * x i) :=
    fun t _ => mul_self_nonneg _
  refine lt_of_le_of_ne (sum_nonneg hn) ?_
  intro h0
  have hz : ∀ t, t < N → ∑ i ∈ range N, Lf N L i t * x i = 0 := fun t ht =>
    mul_self_eq_zero.mp ((sum_eq_zero_iff_of_nonneg hn).mp h0.symm t (mem_range.mpr ht))
  -- from the last unknown to the first, all vanish
  have all : ∀ m i, N ≤ i + m → i < N → x i = 0 := by
    intro m
    induction m with
    | zero => intro i h1 h2; omega
    | succ m ih =>
      intro i h1 h2
      have hzi := hz i h2
      rw [sum_eq_single_of_mem i (mem_range.mpr h2)] at hzi
      · unfold Lf at hzi
        rw [if_pos (Nat.le_refl _)] at hzi
        exact (mul_eq_zero.mp hzi).resolve_left (ne_of_gt (h.pos i h2 h2))
      · intro j hj hne
        rw [mem_range] at hj
        unfold Lf
        rcases Nat.lt_or_ge j i with hji | hji
        · rw [if_neg (by omega), zero_mul]
        · rw [ih j (by omega) hj, mul_zero]
  exact hx0 (all N i0 (by omega) hi0)

/-- a vector annihilated by the first columns -/
theorem null_vector {N k : Nat} {L : Nat → K} (hp : ∀ t, t < k → 0 < E N L t t) : ∀ m, m ≤ k →
    ∃ x : Nat → K, x k = 1 ∧ (∀ i, k < i → x i = 0) ∧
      ∀ t, k ≤ t + m → t < k → ∑ i ∈ Ico t (k + 1), E N L i t * x i = 0 := by
  intro m
  induction m with
  | zero =>
    intro _
    refine ⟨fun i => if i = k then 1 else 0, if_pos rfl, fun i hi => if_neg (by omega), ?_⟩
    intro t h1 h2; omega
  | succ m ih =>
    intro hm
    obtain ⟨x, h1, h2, h3⟩ := ih (by omega)
    let t0 := k - (m + 1)
    have ht0 : t0 < k := by omega
    refine ⟨Function.update x t0 (-(∑ i ∈ Ico (t0 + 1) (k + 1), E N L i t0 * x i) / E N L t0 t0), ?_, ?_, ?_⟩
    · rw [Function.update_of_ne (by omega)]; exact h1
    · intro i hi
      rw [Function.update_of_ne (by omega)]; exact h2 i hi
    · intro t ha hb
      rw [sum_eq_sum_Ico_succ_bot (by omega)]
      have e : ∑ i ∈ Ico (t + 1) (k + 1), E N L i t * Function.update x t0
            (-(∑ i ∈ Ico (t0 + 1) (k + 1), E N L i t0 * x i) / E N L t0 t0) i =
          ∑ i ∈ Ico (t + 1) (k + 1), E N L i t * x i := by
        refine sum_congr rfl fun i hi => ?_
        rw [mem_Ico] at hi
        rw [Function.update_of_ne (by omega)]
      rw [e]
      rcases Nat.lt_or_ge t0 t with h | h
      · rw [Function.update_of_ne (by omega)]
        have h4 := h3 t (by omega) hb
        rw [sum_eq_sum_Ico_succ_bot (by omega)] at h4
        exact h4
      · have : t = t0 := by omega
        rw [this, Function.update_self]
        have := ne_of_gt (hp t0 ht0)
        field_simp
        ring

theorem not_posDef_of_pivot {N k : Nat} {A L : Nat → K} (hk : k < N) (h : CInv N A k L) (hA : Symm N A)
    (hp : E N L k k ≤ 0) : ¬ PosDef N A := by
  intro hd
  obtain ⟨x, h1, h2, h3⟩ := null_vector (fun t ht => h.pos t ht (by omega)) k (Nat.le_refl _)
  have := hd x ⟨k, hk, by rw [h1]; exact one_ne_zero⟩
  have e : ∑ i ∈ range N, ∑ j ∈ range N, x i * ent N A i j * x j =
      ∑ i ∈ range N, ∑ j ∈ range N, (x i * (∑ t ∈ range k, Lf N L i t * Lf N L j t) * x j +
        if i = k ∧ j = k then E N L k k else 0) := by
    refine sum_congr rfl fun i hi => sum_congr rfl fun j hj => ?_
    rcases Nat.lt_or_ge k i with hki | hki
    · rw [h2 i hki, if_neg (by omega)]; ring
    · rcases Nat.lt_or_ge k j with hkj | hkj
      · rw [h2 j hkj, if_neg (by omega)]; ring
      · rw [h.part hk hA i hki j hkj]
        by_cases hb : i = k ∧ j = k
        · rw [if_pos hb, hb.1, hb.2, h1]; ring
        · rw [if_neg hb]; ring
  rw [e] at this
  simp only [sum_add_distrib] at this
  rw [quad_form, sum_eq_zero, zero_add] at this
  · rw [sum_eq_single_of_mem k (mem_range.mpr hk), sum_eq_single_of_mem k (mem_range.mpr hk), if_pos ⟨rfl, rfl⟩] at this
    · exact absurd hp (not_le.mpr this)
    · intro j _ hne; rw [if_neg (by omega)]
    · intro i _ hne
      exact sum_eq_zero fun j _ => if_neg (by omega)
  · intro t ht
    rw [mem_range] at ht
    have hz : ∑ i ∈ range N, Lf N L i t * x i = 0 := by
      have h3t := h3 t (by omega) ht
      rw [← sum_range_add_sum_Ico _ (show t ≤ N by omega), ← sum_Ico_consecutive _ (show t ≤ k + 1 by omega)
        (show k + 1 ≤ N by omega), sum_eq_zero (s := range t), sum_eq_zero (s := Ico (k + 1) N), zero_add, add_zero,
        ← h3t]
      · refine sum_congr rfl fun i hi => ?_
        rw [mem_Ico] at hi
        unfold Lf
        rw [if_pos (by omega)]
      · intro i hi
        rw [mem_Ico] at hi
        rw [h2 i (by omega), mul_zero]
      · intro i hi
        rw [mem_range] at hi
        unfold Lf
        rw [if_neg (by omega), zero_mul]
    rw [hz, zero_mul]

theorem solves_of_factor {N M : Nat} {A L B : Nat → K} (h : CInv N A N L) (hA : Symm N A) :
    Solves N M A (cholBwd N M L (cholFwd N M L B)) B := by
  have hd : ∀ t, t < N → E N L t t ≠ 0 := fun t ht => ne_of_gt (h.pos t ht ht)
  intro i hi k hk
  have hf := fwd_spec (M := M) (B := B) hd i hi k hk
  have hb := bwd_spec (M := M) (B := cholFwd N M L B) hd
  generalize cholFwd N M L B = Y at *
  generalize cholBwd N M L Y = X at *
  have e : ∑ j ∈ range N, ent N A i j * ent N X j k =
      ∑ j ∈ range N, ∑ t ∈ range N, Lf N L i t * (Lf N L j t * ent N X j k) := by
    refine sum_congr rfl fun j hj => ?_
    rw [mem_range] at hj
    rw [h.full hA i hi j hj, sum_mul]
    exact sum_congr rfl fun t _ => by ring
  rw [e, sum_comm, ← hf]
  have e2 : ∀ t ∈ range N, ∑ j ∈ range N, Lf N L i t * (Lf N L j t * ent N X j k) =
      (if t ≤ i then E N L i t else 0) * ent N Y t k := by
    intro t ht
    rw [mem_range] at ht
    rw [← mul_sum]
    congr 1
    rw [← hb t ht k hk, ← sum_range_add_sum_Ico _ (show t ≤ N by omega), sum_eq_zero (s := range t), zero_add]
    · refine sum_congr rfl fun j hj => ?_
      rw [mem_Ico] at hj
      unfold Lf
      rw [if_pos (by omega)]
    · intro j hj
      rw [mem_range] at hj
      unfold Lf
      rw [if_neg (by omega), zero_mul]
  rw [sum_congr rfl e2, sum_lower hi]

theorem filled {N : Nat} {A L0 : Nat → K} (h : ∀ r c, c ≤ r → r < N → E N L0 r c = ent N A r c) {sqrt : K → K}
    (hs : IsSqrt sqrt) (hA : Symm N A) (M : Nat) (B : Nat → K) :
    (PosDef N A → ∃ X, ((cholFactor sqrt N L0).map fun L => cholBwd N M L (cholFwd N M L B)) = some X ∧
      Solves N M A X B) ∧
    (¬ PosDef N A → ((cholFactor sqrt N L0).map fun L => cholBwd N M L (cholFwd N M L B)) = none) := by
  rcases factor_cases hs (CInv.zero h) N (Nat.le_refl _) with ⟨L, h1, h2⟩ | ⟨h1, k, L, hk, h2, h3⟩
  · have h1' : cholFactor sqrt N L0 = some L := h1
    rw [h1']
    exact ⟨fun _ => ⟨_, rfl, solves_of_factor h2 hA⟩, fun hn => absurd (posDef_of_factor h2 hA) hn⟩
  · have h1' : cholFactor sqrt N L0 = none := h1
    rw [h1']
    exact ⟨fun hp => absurd hp (not_posDef_of_pivot hk h2 hA h3), fun _ => rfl⟩

/-- **C19**: for a symmetric positive definite matrix the Cholesky solver returns the solution of the system, for every
order, every number of right-hand sides and whatever the work memory contains. -/
theorem cholesky_solves {sqrt : K → K} (hs : IsSqrt sqrt) (N M : Nat) (A B mem : Nat → K) (hA : Symm N A)
    (hp : PosDef N A) : ∃ X, cholSolve sqrt N M A B mem = some X ∧ Solves N M A X B :=
  (filled (fill_entries N A mem) hs hA M B).1 hp

/-- **C19**: for a symmetric matrix that is not positive definite the solver throws. -/
theorem cholesky_rejects {sqrt : K → K} (hs : IsSqrt sqrt) (N M : Nat) (A B mem : Nat → K) (hA : Symm N A)
    (hp : ¬ PosDef N A) : cholSolve sqrt N M A B mem = none :=
  (filled (fill_entries N A mem) hs hA M B).2 hp

/-- **C19**: the same when the work memory is the memory of the matrix itself. -/
theorem cholesky_in_place {sqrt : K → K} (hs : IsSqrt sqrt) (N M : Nat) (A B : Nat → K) (hA : Symm N A) :
    (PosDef N A → ∃ X, cholSolveInPlace sqrt N M A B = some X ∧ Solves N M A X B) ∧
      (¬ PosDef N A → cholSolveInPlace sqrt N M A B = none) :=
  filled (fillInPlace_entries N A) hs hA M B

/-- **C19**: the packed triangle of order `N` stays inside the documented work memory and no two entries share a
position. -/
theorem cholesky_memory (N : Nat) :
    (∀ i j, j ≤ i → i < N → cid N i j < N * (N + 1) / 2) ∧
      ∀ i j i' j', j ≤ i → i < N → j' ≤ i' → i' < N → cid N i j = cid N i' j' → i = i' ∧ j = j' :=
  ⟨fun _ _ => cid_lt, fun _ _ _ _ h1 h2 h3 h4 => cid_inj h1 h2 h3 h4⟩

/-- **C19**: `cholesky_inverse` returns the inverse of a symmetric positive definite matrix and throws for any other
symmetric matrix. -/
theorem cholesky_inverse_correct {sqrt : K → K} (hs : IsSqrt sqrt) (N : Nat) (A Inv mem : Nat → K) (hA : Symm N A) :
    (PosDef N A → ∃ X I, cholInverse sqrt N A Inv mem = some X ∧ IsId N I ∧ Solves N N A X I) ∧
      (¬ PosDef N A → cholInverse sqrt N A Inv mem = none) := by
  show (PosDef N A → ∃ X I, cholSolve sqrt N N A
      (loop 0 N (fun i Inv => wr Inv (i + i * N) 1) (fun p => if p < N * N then 0 else Inv p)) mem = some X ∧
        IsId N I ∧ Solves N N A X I) ∧
    (¬ PosDef N A → cholSolve sqrt N N A
      (loop 0 N (fun i Inv => wr Inv (i + i * N) 1) (fun p => if p < N * N then 0 else Inv p)) mem = none)
  generalize hI : loop 0 N (fun i Inv => wr Inv (i + i * N) 1) (fun p => if p < N * N then 0 else Inv p) = I
  have hId : IsId N I := by
    rw [← hI]
    have := loop_ind (S := Nat → K)
      (fun m J => ∀ i, i < N → ∀ j, j < N → ent N J i j = if i = j ∧ i < m then 1 else 0)
      (a := 0) (b := N) (f := fun i Inv => wr Inv (i + i * N) (1 : K)) (s := fun p => if p < N * N then 0 else Inv p)
      (Nat.zero_le _)
      (by
        intro i hi j hj
        rw [if_neg (by omega)]
        show (if i + j * N < N * N then (0 : K) else Inv (i + j * N)) = 0
        rw [if_pos]
        calc i + j * N < N + j * N := by omega
          _ = (j + 1) * N := by ring
          _ ≤ N * N := Nat.mul_le_mul_right _ hj)
      (by
        intro m J _ hm ih i hi j hj
        rw [ent_wr _ _ hm hi]
        by_cases hb : i = m ∧ j = m
        · rw [if_pos hb, if_pos (by omega)]
        · rw [if_neg hb, ih i hi j hj]
          by_cases hc : i = j ∧ i < m
          · rw [if_pos hc, if_pos (by omega)]
          · rw [if_neg hc, if_neg (by omega)])
    intro i hi j hj
    rw [this i hi j hj]
    by_cases hc : i = j
    · rw [if_pos ⟨hc, hi⟩, if_pos hc]
    · rw [if_neg (fun h => hc h.1), if_neg hc]
  constructor
  · intro hp
    obtain ⟨X, h1, h2⟩ := cholesky_solves hs N N A I mem hA hp
    exact ⟨X, I, h1, hId, h2⟩
  · exact cholesky_rejects hs N N A I mem hA

/-- a positive definite matrix of order 2 with both off-diagonal entries nonzero, over the reals -/
example : IsSqrt Real.sqrt ∧ Symm 2 (fun p => if p = 0 then (2 : ℝ) else if p = 3 then 3 else 1) ∧
    PosDef 2 (fun p => if p = 0 then (2 : ℝ) else if p = 3 then 3 else 1) := by
  refine ⟨fun x hx => ⟨Real.sqrt_nonneg x, Real.mul_self_sqrt hx⟩, ?_, ?_⟩
  · intro i hi j hj
    have : (i = 0 ∨ i = 1) ∧ (j = 0 ∨ j = 1) := by omega
    rcases this with ⟨rfl | rfl, rfl | rfl⟩ <;> simp [ent]
  · intro x ⟨i, hi, hx⟩
    simp only [sum_range_succ, sum_range_zero, ent]
    norm_num
    have h : (i = 0 ∨ i = 1) := by omega
    have e : x 0 * 2 * x 0 + x 0 * x 1 + (x 1 * x 0 + x 1 * 3 * x 1) =
      x 0 * x 0 + (x 0 + x 1) * (x 0 + x 1) + 2 * (x 1 * x 1) := by ring
    rw [e]
    have h1 := mul_self_nonneg (x 0); have h2 := mul_self_nonneg (x 1); have h3 := mul_self_nonneg (x 0 + x 1)
    rcases h with rfl | rfl
    · have := mul_self_pos.mpr hx; linarith
    · have := mul_self_pos.mpr hx; linarith

/-- a symmetric matrix that is not positive definite: the second pivot is negative -/
example : Symm 2 (fun p => if p = 1 ∨ p = 2 then (2 : ℝ) else 1) ∧
    ¬ PosDef 2 (fun p => if p = 1 ∨ p = 2 then (2 : ℝ) else 1) := by
  constructor
  · intro i hi j hj
    have : (i = 0 ∨ i = 1) ∧ (j = 0 ∨ j = 1) := by omega
    rcases this with ⟨rfl | rfl, rfl | rfl⟩ <;> simp [ent]
  · intro h
    have := h (fun i => if i = 0 then 1 else -1) ⟨0, by omega, by norm_num⟩
    simp only [sum_range_succ, sum_range_zero, ent] at this
    norm_num at this

end Verif.Dense
