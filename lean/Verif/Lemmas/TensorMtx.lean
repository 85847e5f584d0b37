import Mathlib.Algebra.BigOperators.Group.Finset.Piecewise
import Verif.Lemmas.Tensor

/-! # Lemmas on the loops over matrices -/

namespace Verif.Tensor

open Finset

variable {K : Type}

theorem symPos_gen {N i j : Nat} (h : i ≤ j) (hj : j < N) : symPos N (i, j) = symPosGen N (i, j) := by
  unfold symPos
  split
  · subst N; have : i < 3 := by omega
    interval_cases j <;> interval_cases i <;> simp_all [sym3Pos, symPosGen]
  · rfl

theorem symAt_eq_iff {N i j k l : Nat} (hi : i < N) (hj : j < N) (hk : k < N) (hl : l < N) :
    symAt N i j = symAt N k l ↔ (i = k ∧ j = l) ∨ (i = l ∧ j = k) := by
  constructor
  · have key : ∀ i j k l, i < N → j < N → k < N → l < N → i ≤ j → k ≤ l →
        symAt N i j = symAt N k l → i = k ∧ j = l := by
      intro i j k l _ hj _ hl h h' e
      rw [symAt_le h hj, symAt_le h' hl, symPos_gen h hj, symPos_gen h' hl] at e
      exact symPosGen_inj h hj h' hl e
    intro e
    rcases le_total i j with h | h <;> rcases le_total k l with h' | h'
    · exact Or.inl (key i j k l hi hj hk hl h h' e)
    · rw [symAt_comm N k l] at e
      exact Or.inr (key i j l k hi hj hl hk h h' e)
    · rw [symAt_comm N i j] at e
      have := key j i k l hj hi hk hl h h' e
      omega
    · rw [symAt_comm N i j, symAt_comm N k l] at e
      have := key j i l k hj hi hl hk h h' e
      omega
  · rintro (⟨rfl, rfl⟩ | ⟨rfl, rfl⟩)
    · rfl
    · exact symAt_comm _ _ _

theorem pos_div {N i j : Nat} (hj : j < N) : (N * i + j) / N = i := by
  rw [Nat.mul_add_div (by omega), Nat.div_eq_of_lt hj, Nat.add_zero]

theorem pos_mod {N i j : Nat} (hj : j < N) : (N * i + j) % N = j := by
  rw [Nat.mul_add_mod, Nat.mod_eq_of_lt hj]

theorem pos_inj {N i j k l : Nat} (hj : j < N) (hl : l < N) :
    N * i + j = N * k + l ↔ i = k ∧ j = l := by
  constructor
  · intro e
    have h1 := pos_div (i := i) hj
    have h2 := pos_mod (i := i) hj
    rw [e, pos_div hl] at h1
    rw [e, pos_mod hl] at h2
    exact ⟨h1.symm, h2.symm⟩
  · rintro ⟨rfl, rfl⟩; rfl

theorem sum_range_mul [AddCommMonoid K] (M N : Nat) (F : Nat → K) :
    ∑ c ∈ range (M * N), F c = ∑ i ∈ range M, ∑ j ∈ range N, F (N * i + j) := by
  induction M with
  | zero => simp
  | succ M ih => rw [Nat.succ_mul, Finset.sum_range_add, ih, Finset.sum_range_succ, Nat.mul_comm M N]

theorem sum_pos [AddCommMonoid K] {N i j : Nat} (hi : i < N) (hj : j < N) (F : Nat → Nat → K) :
    (∑ a ∈ range N, ∑ b ∈ range N, if N * a + b = N * i + j then F a b else 0) = F i j := by
  rw [Finset.sum_eq_single i]
  · rw [Finset.sum_eq_single j]
    · simp
    · intro b hb hne
      rw [if_neg]
      intro e
      exact hne ((pos_inj (Finset.mem_range.mp hb) hj).mp e).2
    · intro h; exact absurd (Finset.mem_range.mpr hj) h
  · intro a _ hne
    refine Finset.sum_eq_zero fun b hb => ?_
    rw [if_neg]
    intro e
    exact hne ((pos_inj (Finset.mem_range.mp hb) hj).mp e).1
  · intro h; exact absurd (Finset.mem_range.mpr hi) h

theorem symSort_lt {i j : Nat} (h : i ≤ j) : symSort i j = (i, j) := by
  rw [symSort, if_neg (by omega)]

theorem symSort_gt {i j : Nat} (h : i ≤ j) : symSort j i = (i, j) := by
  rcases Nat.lt_or_eq_of_le h with h | h
  · rw [symSort, if_pos h]
  · subst h; rw [symSort, if_neg (by omega)]

theorem symSort_comm (i j : Nat) : symSort i j = symSort j i := by
  rcases le_total i j with h | h
  · rw [symSort_lt h, symSort_gt h]
  · rw [symSort_lt h, symSort_gt h]

theorem symSort_cases (i j : Nat) : symSort i j = (i, j) ∨ symSort i j = (j, i) := by
  rw [symSort]; split <;> simp

section
variable [Zero K]

theorem upper2_get {N i j : Nat} (g : Nat × Nat → K) (hi : i < N) (hj : j < N) :
    mtxGet N (writes ((upper N).flatMap fun q => [(N * q.2 + q.1, g q), (N * q.1 + q.2, g q)]) zeros) i j
      = g (symSort i j) := by
  rw [mtxGet, writes_mem _ _ (fun p => g (symSort (p / N) (p % N)))]
  · rw [pos_div hj, pos_mod hj]
  · intro w hw
    obtain ⟨⟨a, b⟩, hq, hw⟩ := List.mem_flatMap.mp hw
    rw [mem_upper] at hq
    rcases List.mem_cons.mp hw with rfl | hw
    · rw [pos_div (by omega), pos_mod (by omega), symSort_gt hq.1]
    · rw [List.mem_singleton] at hw
      subst hw
      rw [pos_div hq.2, pos_mod hq.2, symSort_lt hq.1]
  · rcases le_total i j with h | h
    · exact ⟨(N * i + j, g (i, j)),
        List.mem_flatMap.mpr ⟨(i, j), mem_upper.mpr ⟨h, hj⟩, by simp⟩, rfl⟩
    · exact ⟨(N * i + j, g (j, i)),
        List.mem_flatMap.mpr ⟨(j, i), mem_upper.mpr ⟨h, hi⟩, by simp⟩, rfl⟩

theorem square_get {N i j : Nat} (g : Nat × Nat → K) (hi : i < N) (hj : j < N) :
    mtxGet N (writes ((square N).map fun q => (N * q.1 + q.2, g q)) zeros) i j = g (i, j) := by
  rw [mtxGet, writes_mem _ _ (fun p => g (p / N, p % N))]
  · rw [pos_div hj, pos_mod hj]
  · intro w hw
    obtain ⟨⟨a, b⟩, hq, rfl⟩ := List.mem_map.mp hw
    rw [mem_square] at hq
    rw [pos_div hq.2, pos_mod hq.2]
  · exact ⟨(N * i + j, g (i, j)), List.mem_map.mpr ⟨(i, j), mem_square.mpr ⟨hi, hj⟩, rfl⟩, rfl⟩

theorem symToMtx_list {N c : Nat} (hc : c < symSize N) :
    symAt N (symIndex N c).1 (symIndex N c).2 = c := by
  obtain ⟨h1, h2, h3⟩ := sym_pos_index hc
  rw [symAt_le h1 h2]; exact h3

end

section
variable [Field K]

theorem cube_get {N i j : Nat} (g : Nat → Nat → Nat → K) (hi : i < N) (hj : j < N) :
    mtxGet N (adds ((cube N).map fun q => (N * q.1 + q.2.1, g q.1 q.2.1 q.2.2)) zeros) i j
      = ∑ k ∈ range N, g i j k := by
  rw [mtxGet, adds_apply, List.map_map, sum_cube]
  simp only [Function.comp_apply, zeros, zero_add]
  rw [← sum_pos hi hj fun a b => ∑ k ∈ range N, g a b k]
  refine Finset.sum_congr rfl fun a _ => Finset.sum_congr rfl fun b _ => ?_
  split
  · rfl
  · simp

theorem rowSum_get {N i : Nat} (g : Nat → Nat → K) (hi : i < N) :
    adds ((square N).map fun q => (q.1, g q.1 q.2)) zeros i = ∑ j ∈ range N, g i j := by
  rw [adds_apply, List.map_map, sum_square]
  simp only [Function.comp_apply, zeros, zero_add]
  rw [Finset.sum_eq_single i]
  · simp
  · intro a _ hne; simp [hne]
  · intro h; exact absurd (Finset.mem_range.mpr hi) h

theorem mixed_get {N i j : Nat} (g : Nat → Nat → Nat → K) (hi : i < N) (hj : j < N) :
    mtxGet N (mixed N g) i j = g (symAt N i j) i j := by
  rw [mtxGet, mixed, writes_mem _ _ (fun p => g (symAt N (p / N) (p % N)) (p / N) (p % N))]
  · rw [pos_div hj, pos_mod hj]
  · intro w hw
    obtain ⟨c, hc, hw⟩ := List.mem_flatMap.mp hw
    have hc := List.mem_range.mp hc
    obtain ⟨h1, h2, -⟩ := sym_pos_index hc
    have h4 := symToMtx_list hc
    rcases List.mem_cons.mp hw with rfl | hw
    · simp only [pos_div h2, pos_mod h2, h4]
    · split at hw
      · rw [List.mem_singleton] at hw
        subst hw
        have h0 : (symIndex N c).1 < N := by omega
        simp only [pos_div h0, pos_mod h0]
        rw [symAt_comm, h4]
      · exact absurd hw (List.not_mem_nil)
  · have key : ∀ i j, i ≤ j → j < N →
        symPos N (i, j) < symSize N ∧ symIndex N (symPos N (i, j)) = (i, j) :=
      fun i j h hj => ⟨symPos_lt h hj, sym_index_pos h hj⟩
    rcases le_total i j with h | h
    · obtain ⟨k1, k2⟩ := key i j h hj
      refine ⟨(N * i + j, g (symPos N (i, j)) i j), List.mem_flatMap.mpr
        ⟨symPos N (i, j), List.mem_range.mpr k1, ?_⟩, rfl⟩
      simp only [k2]; exact List.mem_cons_self
    · obtain ⟨k1, k2⟩ := key j i h hi
      rcases Nat.lt_or_eq_of_le h with h' | h'
      · refine ⟨(N * i + j, g (symPos N (j, i)) i j), List.mem_flatMap.mpr
          ⟨symPos N (j, i), List.mem_range.mpr k1, ?_⟩, rfl⟩
        simp only [k2]
        rw [if_pos (by omega)]; simp
      · refine ⟨(N * i + j, g (symPos N (j, i)) i j), List.mem_flatMap.mpr
          ⟨symPos N (j, i), List.mem_range.mpr k1, ?_⟩, rfl⟩
        subst h'; simp only [k2]; exact List.mem_cons_self

theorem symToMtx_get {N i j : Nat} (v : Store K) (hi : i < N) (hj : j < N) :
    mtxGet N (symToMtx N v) i j = symGet N v i j := by
  rw [mtxGet, symToMtx, writes_mem _ _ (fun p => v (symAt N (p / N) (p % N)))]
  · rw [pos_div hj, pos_mod hj]; rfl
  · intro w hw
    obtain ⟨c, hc, hw⟩ := List.mem_flatMap.mp hw
    have hc := List.mem_range.mp hc
    obtain ⟨h1, h2, -⟩ := sym_pos_index hc
    have h0 : (symIndex N c).1 < N := by omega
    have h4 := symToMtx_list hc
    rcases List.mem_cons.mp hw with rfl | hw
    · simp only [pos_div h0, pos_mod h0]; rw [symAt_comm, h4]
    · rw [List.mem_singleton] at hw
      subst hw
      simp only [pos_div h2, pos_mod h2, h4]
  · rcases le_total i j with h | h
    · refine ⟨(N * i + j, v (symPos N (i, j))), List.mem_flatMap.mpr
        ⟨symPos N (i, j), List.mem_range.mpr (symPos_lt h hj), ?_⟩, rfl⟩
      simp only [sym_index_pos h hj]; simp
    · refine ⟨(N * i + j, v (symPos N (j, i))), List.mem_flatMap.mpr
        ⟨symPos N (j, i), List.mem_range.mpr (symPos_lt h hi), ?_⟩, rfl⟩
      simp only [sym_index_pos h hi]; simp

end

end Verif.Tensor
