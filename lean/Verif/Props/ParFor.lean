import Verif.Model.ParFor

/-!
Property C17: the ranges of the threads of a parallel loop partition the whole range.
-/
namespace Verif.ParFor

theorem bound_eq {nth n i : Nat} (hn : n < 2 ^ 32) (hi : i ≤ nth) :
    bound nth n i = n / nth * i + min i (n % nth) := by
  have h1 : n / nth < 2 ^ 32 := Nat.lt_of_le_of_lt (Nat.div_le_self _ _) hn
  have h2 : n % nth < 2 ^ 32 := Nat.lt_of_le_of_lt (Nat.mod_le _ _) hn
  have h3 : n / nth * i ≤ n := Nat.le_trans (Nat.mul_le_mul_left _ hi) (Nat.div_mul_le_self _ _)
  have h4 : n / nth * i < 2 ^ 32 := Nat.lt_of_le_of_lt h3 hn
  unfold bound batch rest u32
  rw [Nat.mod_eq_of_lt h1, Nat.mod_eq_of_lt h2, Nat.mod_eq_of_lt h4]
  split <;> omega

theorem main_eq {nth n : Nat} (hn : n < 2 ^ 32) :
    main nth n = (n / nth * (nth - 1) + n % nth, n) := by
  have h1 : n / nth < 2 ^ 32 := Nat.lt_of_le_of_lt (Nat.div_le_self _ _) hn
  have h2 : n % nth < 2 ^ 32 := Nat.lt_of_le_of_lt (Nat.mod_le _ _) hn
  have h3 : n / nth * (nth - 1) ≤ n := Nat.le_trans (Nat.mul_le_mul_left _ (Nat.sub_le _ _)) (Nat.div_mul_le_self _ _)
  have h4 : n / nth * (nth - 1) < 2 ^ 32 := Nat.lt_of_le_of_lt h3 hn
  unfold main batch rest u32
  rw [Nat.mod_eq_of_lt h1, Nat.mod_eq_of_lt h2, Nat.mod_eq_of_lt h4]

theorem bound_succ {nth n i : Nat} (hn : n < 2 ^ 32) (hi : i + 1 ≤ nth) :
    bound nth n (i + 1) = bound nth n i + (n / nth + if i < n % nth then 1 else 0) := by
  rw [bound_eq hn hi, bound_eq hn (by omega), Nat.mul_add, Nat.mul_one]
  split <;> omega

theorem bound_le {nth n i : Nat} (hn : n < 2 ^ 32) (hi : i + 1 ≤ nth) : bound nth n i ≤ bound nth n (i + 1) := by
  rw [bound_succ hn hi]
  exact Nat.le_add_right _ _

/-- the consecutive worker ranges -/
theorem workers_cover {nth n : Nat} (hn : n < 2 ^ 32) : ∀ k, k ≤ nth →
    ((List.range k).flatMap fun i => List.range' (bound nth n i) (bound nth n (i + 1) - bound nth n i)) =
      List.range (bound nth n k) := by
  intro k
  induction k with
  | zero => intro _; rw [bound_eq hn (Nat.zero_le _)]; simp
  | succ k ih =>
    intro h
    have hs := bound_le hn h
    rw [List.range_succ, List.flatMap_append, ih (by omega), List.flatMap_singleton]
    have : bound nth n (k + 1) = bound nth n k + (bound nth n (k + 1) - bound nth n k) := by omega
    conv => rhs; rw [this]
    rw [List.range_eq_range', List.range_eq_range', ← List.range'_append_1, Nat.zero_add]

theorem last_bound {nth n : Nat} (h0 : 0 < nth) (hn : n < 2 ^ 32) : bound nth n (nth - 1) = (main nth n).1 := by
  rw [bound_eq hn (by omega), main_eq hn]
  have := Nat.mod_lt n h0
  simp only
  omega

/-- **C17** (partition; missing: 2^32 iterations and more, see `ranges_wrong_large`): for any number of iterations below 2^32 and any number of threads, the threads together, taken in the
order worker 1, 2, ..., calling thread, perform the iterations `0, 1, ..., n-1`, each exactly once. -/
theorem ranges_partition_partial (nth n : Nat) (h0 : 0 < nth) (hn : n < 2 ^ 32) :
    (∀ r ∈ ranges nth n, ∃ l, loop r.2.1 r.2.2 = some l) ∧
    (ranges nth n).flatMap (fun r => (loop r.2.1 r.2.2).getD []) = List.range n := by
  have hmain : (main nth n).1 ≤ n := by
    rw [← last_bound h0 hn, bound_eq hn (by omega)]
    have e := Nat.div_add_mod n nth
    rw [Nat.mul_comm] at e
    have : n / nth * (nth - 1) ≤ n / nth * nth := Nat.mul_le_mul_left _ (by omega)
    omega
  unfold ranges
  split
  · simp [loop, List.range_eq_range']
  · have hw : ∀ i, i < nth - 1 → bound nth n i ≤ bound nth n (i + 1) := fun i hi =>
      bound_le (i := i) (nth := nth) (n := n) hn (by omega)
    constructor
    · intro r hr
      rcases List.mem_append.1 hr with hr | hr
      · obtain ⟨i, hi, rfl⟩ := List.mem_map.1 hr
        have := hw i (List.mem_range.1 hi)
        exact ⟨_, if_pos this⟩
      · rw [List.mem_singleton.1 hr]
        exact ⟨_, if_pos hmain⟩
    · rw [List.flatMap_append, List.flatMap_map, List.flatMap_singleton]
      have e : ((List.range (nth - 1)).flatMap fun i => (loop (worker nth n i).1 (worker nth n i).2).getD []) =
          List.range (bound nth n (nth - 1)) := by
        rw [← workers_cover hn (nth - 1) (by omega), List.flatMap_def, List.flatMap_def]
        congr 1
        refine List.map_congr_left fun i hi => ?_
        have := hw i (List.mem_range.1 hi)
        simp [loop, worker, this]
      show ((List.range (nth - 1)).flatMap fun i => (loop (worker nth n i).1 (worker nth n i).2).getD []) ++ _ = _
      rw [e]
      have hl : loop (main nth n).1 (main nth n).2 = some (List.range' (main nth n).1 (n - (main nth n).1)) := if_pos hmain
      rw [hl, last_bound h0 hn, Option.getD_some]
      have : List.range n = List.range ((main nth n).1 + (n - (main nth n).1)) := by
        rw [show (main nth n).1 + (n - (main nth n).1) = n by omega]
      rw [this, List.range_eq_range', List.range_eq_range', ← List.range'_append_1, Nat.zero_add]

/-- **C17** (balance; missing: 2^32 iterations and more): the lengths of the ranges are `n / nth` or `n / nth + 1`. -/
theorem ranges_balanced_partial (nth n : Nat) (h0 : 0 < nth) (hn : n < 2 ^ 32) :
    ∀ r ∈ ranges nth n, r.2.2 - r.2.1 = n / nth ∨ r.2.2 - r.2.1 = n / nth + 1 := by
  intro r hr
  unfold ranges at hr
  split at hr
  · rename_i h1
    rw [List.mem_singleton.1 hr, h1]
    left
    simp
  · rcases List.mem_append.1 hr with hr | hr
    · obtain ⟨i, hi, rfl⟩ := List.mem_map.1 hr
      have := bound_succ (i := i) (nth := nth) hn (by have := List.mem_range.1 hi; omega)
      simp only [worker]
      rw [this, Nat.add_sub_cancel_left]
      split
      · exact Or.inr rfl
      · exact Or.inl rfl
    · rw [List.mem_singleton.1 hr, main_eq hn]
      left
      simp only
      have e := Nat.div_add_mod n nth
      rw [Nat.mul_comm] at e
      generalize n / nth = q at *
      have : q * nth = q * (nth - 1) + q := by
        conv => lhs; rw [show nth = nth - 1 + 1 by omega, Nat.mul_add, Nat.mul_one]
      omega

/-- **C17** (thread numbers): the threads are numbered `0, ..., nth-1`, each has one range. -/
theorem thread_numbers (nth n : Nat) (h0 : 0 < nth) : ((ranges nth n).map (·.1)).Perm (List.range nth) := by
  unfold ranges
  split
  · rename_i h; subst h; exact List.Perm.refl _
  · rw [List.map_append, List.map_map]
    have e : List.range nth = 0 :: (List.range (nth - 1)).map (· + 1) := by
      conv => lhs; rw [show nth = nth - 1 + 1 by omega]
      rw [List.range_succ_eq_map]
    rw [e]
    exact List.perm_append_comm

/-- 17 iterations on 5 threads -/
example : ranges 5 17 = [(1, 0, 4), (2, 4, 8), (3, 8, 11), (4, 11, 14), (0, 14, 17)] := by decide

/-- **C17 fails** from 2^32 iterations on: for 3·2^31 iterations on 3 threads the second worker's range is [2^31, 0), so its
loop runs past the end. -/
theorem ranges_wrong_large : (2, 2 ^ 31, 0) ∈ ranges 3 (3 * 2 ^ 31) ∧ loop (2 ^ 31) 0 = none := by decide +kernel

end Verif.ParFor
