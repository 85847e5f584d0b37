import Verif.Lemmas.Dense

/-!
Loops which update disjoint positions of a memory, and accumulating loops.
-/
namespace Verif.Dense

variable {K : Type}

theorem loop_empty {S : Type} {a b : Nat} (h : b ≤ a) (f : Nat → S → S) (s : S) : loop a b f s = s := by
  unfold loop
  rw [Nat.sub_eq_zero_of_le h]
  rfl

/-- positions which no pass of the loop writes keep their value -/
theorem loop_off {a b : Nat} {f : Nat → (Nat → K) → (Nat → K)} {s : Nat → K} {p : Nat}
    (h : ∀ i s, a ≤ i → i < b → f i s p = s p) : loop a b f s p = s p := by
  rcases Nat.le_total a b with hab | hab
  · exact loop_ind (P := fun _ (t : Nat → K) => t p = s p) hab rfl
      (fun i t h1 h2 ht => by rw [h i t h1 h2, ht])
  · rw [loop_empty hab]

/-- a position written by one pass only -/
theorem loop_at {a b : Nat} {f : Nat → (Nat → K) → (Nat → K)} {s : Nat → K} {p i : Nat} (v : K → K)
    (ha : a ≤ i) (hb : i < b) (hi : ∀ t, f i t p = v (t p))
    (h : ∀ j t, a ≤ j → j < b → j ≠ i → f j t p = t p) : loop a b f s p = v (s p) := by
  have := loop_ind (P := fun k (t : Nat → K) => t p = if i < k then v (s p) else s p) (f := f) (s := s)
    (by omega : a ≤ b) (by rw [if_neg (by omega)])
    (fun k t h1 h2 ht => by
      by_cases hk : k = i
      · subst hk
        rw [hi, ht, if_neg (by omega), if_pos (by omega)]
      · rw [h k t h1 h2 hk, ht]
        by_cases hik : i < k
        · rw [if_pos hik, if_pos (by omega)]
        · rw [if_neg hik, if_neg (by omega)])
  rw [this, if_pos hb]

/-- an accumulating loop is a sum -/
theorem loop_sum [AddCommMonoid K] (n : Nat) (f : Nat → K) (c : K) :
    loop 0 n (fun p t => t + f p) c = c + ∑ p ∈ Finset.range n, f p := by
  exact loop_ind (P := fun k (t : K) => t = c + ∑ p ∈ Finset.range k, f p) (Nat.zero_le n)
    (by rw [Finset.sum_range_zero, add_zero])
    (fun i t _ _ ht => by rw [ht, Finset.sum_range_succ, add_assoc])

/-- repeated subtraction at one position -/
theorem loop_sub_at [AddCommGroup K] (n : Nat) (g : Nat → K) {f : Nat → (Nat → K) → (Nat → K)} {s : Nat → K} {p : Nat}
    (h : ∀ i t, i < n → f i t p = t p - g i) : loop 0 n f s p = s p - ∑ i ∈ Finset.range n, g i := by
  exact loop_ind (P := fun k (t : Nat → K) => t p = s p - ∑ i ∈ Finset.range k, g i) (Nat.zero_le n)
    (by rw [Finset.sum_range_zero, sub_zero])
    (fun i t _ hi ht => by rw [h i t hi, ht, Finset.sum_range_succ]; abel)

/-- repeated addition at one position -/
theorem loop_add_at [AddCommMonoid K] (n : Nat) (g : Nat → K) {f : Nat → (Nat → K) → (Nat → K)} {s : Nat → K} {p : Nat}
    (h : ∀ i t, i < n → f i t p = t p + g i) : loop 0 n f s p = s p + ∑ i ∈ Finset.range n, g i := by
  exact loop_ind (P := fun k (t : Nat → K) => t p = s p + ∑ i ∈ Finset.range k, g i) (Nat.zero_le n)
    (by rw [Finset.sum_range_zero, add_zero])
    (fun i t _ hi ht => by rw [h i t hi, ht, Finset.sum_range_succ, add_assoc])

/-- a single loop of writes at distinct positions, read at a written position -/
theorem loop_wr_at {n : Nat} (g : Nat → Nat) (v : Nat → (Nat → K) → K) (w : Nat → K → K) {s : Nat → K}
    (hv : ∀ i t, i < n → v i t = w i (t (g i)))
    (hg : ∀ i, i < n → ∀ j, j < n → g i = g j → i = j) {i : Nat} (hi : i < n) :
    loop 0 n (fun i t => wr t (g i) (v i t)) s (g i) = w i (s (g i)) := by
  refine loop_at (w i) (Nat.zero_le _) hi (fun t => ?_) (fun j t _ hj hne => ?_)
  · rw [wr_same, hv i t hi]
  · exact wr_ne _ _ (fun e => hne (hg j hj i hi e.symm))

theorem loop_wr_off {n : Nat} (g : Nat → Nat) (v : Nat → (Nat → K) → K) {s : Nat → K} {p : Nat}
    (h : ∀ i, i < n → g i ≠ p) : loop 0 n (fun i t => wr t (g i) (v i t)) s p = s p :=
  loop_off (fun i _ _ hi => wr_ne _ _ (fun e => h i hi e.symm))

/-- every value of a memory is one of those read -/
theorem wr_apply (m : Nat → K) (p : Nat) (v : K) (q : Nat) : wr m p v q = if q = p then v else m q := by
  unfold wr
  exact Function.update_apply ..

end Verif.Dense
