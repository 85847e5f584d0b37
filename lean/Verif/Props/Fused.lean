import Verif.Model.Fused
import Verif.Lemmas.Loops
import Mathlib.Tactic.NormNum

/-!
C41: the fused products of elemental matrices.
-/
namespace Verif.Fused

open Verif.Dense

variable {K : Type} [CommRing K]

/-- Entry `(i, j)` of block `r` of a sequence of matrices with `n` rows and `m` columns stored one after the other. -/
def blk (n m : Nat) (A : Nat → K) (r i j : Nat) : K := A (r * (n * m) + j * n + i)

theorem addr_eq (n m r i j : Nat) : i + n * (j + m * r) = r * (n * m) + j * n + i := by ring

/-- Entries of different blocks or places are different. -/
theorem addr_inj {n m r i j r' i' j' : Nat} (hi : i < n) (hi' : i' < n) (hj : j < m) (hj' : j' < m)
    (h : i + n * (j + m * r) = i' + n * (j' + m * r')) : r = r' ∧ i = i' ∧ j = j' := by
  have h1 : i + (j + m * r) * n = i' + (j' + m * r') * n := by rw [Nat.mul_comm _ n, Nat.mul_comm _ n]; exact h
  have h2 := pos_inj hi hi' h1
  have h3 : j + r * m = j' + r' * m := by rw [Nat.mul_comm r, Nat.mul_comm r']; exact h2.2
  have h4 := pos_inj hj hj' h3
  exact ⟨h4.2, h2.1, h4.1⟩

/-- **C41.** `fusive_AT_mul_B` puts into every block of the result the product of the transposed block of `A` with the
block of `B`, whatever the result memory held. -/
theorem atMulB_exact (fuse nRow : Nat) (A : Nat → K) (aCol : Nat) (B : Nat → K) (bCol : Nat) (R : Nat → K)
    (r i j : Nat) (hr : r < fuse) (hi : i < aCol) (hj : j < bCol) :
    blk aCol bCol (atMulB fuse nRow A aCol B bCol R) r i j =
      ∑ l ∈ Finset.range nRow, blk nRow aCol A r l i * blk nRow bCol B r l j := by
  unfold blk
  rw [← addr_eq]
  unfold atMulB
  let v := ∑ l ∈ Finset.range nRow, A (r * (nRow * aCol) + i * nRow + l) * B (r * (nRow * bCol) + j * nRow + l)
  refine loop_at (fun _ => v) (Nat.zero_le _) hr (fun t => ?_) (fun r' t _ hr' hne => ?_)
  · refine loop_at (fun _ => v) (Nat.zero_le _) hj (fun t => ?_) (fun j' t _ hj' hne => ?_)
    · refine loop_at (fun _ => v) (Nat.zero_le _) hi (fun t => ?_) (fun i' t _ hi' hne => ?_)
      · rw [wr_same, loop_sum, zero_add]
        refine Finset.sum_congr rfl (fun l _ => ?_)
        rw [addr_eq, addr_eq, mul_comm]
      · exact wr_ne _ _ (fun e => hne (addr_inj hi hi' hj hj e).2.1.symm)
    · exact loop_off (fun i' t _ hi' => wr_ne _ _ (fun e => hne (addr_inj hi hi' hj hj' e).2.2.symm))
  · exact loop_off (fun j' t _ hj' => loop_off (fun i' t _ hi' =>
      wr_ne _ _ (fun e => hne (addr_inj hi hi' hj hj' e).1.symm)))

/-- Memory behind the result is not touched. -/
theorem atMulB_frame (fuse nRow : Nat) (A : Nat → K) (aCol : Nat) (B : Nat → K) (bCol : Nat) (R : Nat → K) (p : Nat)
    (hp : aCol * bCol * fuse ≤ p) : atMulB fuse nRow A aCol B bCol R p = R p := by
  unfold atMulB
  refine loop_off (fun r' t _ hr' => loop_off (fun j' t _ hj' => loop_off (fun i' t _ hi' => wr_ne _ _ ?_)))
  have h1 : j' + bCol * r' + 1 ≤ bCol * fuse := by
    have : bCol * (r' + 1) ≤ bCol * fuse := Nat.mul_le_mul_left _ hr'
    rw [Nat.mul_add, Nat.mul_one] at this
    omega
  have h2 : aCol * (j' + bCol * r' + 1) ≤ aCol * (bCol * fuse) := Nat.mul_le_mul_left _ h1
  rw [Nat.mul_add, Nat.mul_one, ← Nat.mul_assoc aCol bCol fuse] at h2
  omega

/-- Two blocks with 2 × 1 factors over dirty memory. -/
example : blk 1 1 (atMulB 2 2 (fun p => ([1, 2, 3, 4] : List ℤ).getD p 0) 1 (fun p => ([5, 6, 7, 8] : List ℤ).getD p 0) 1
    (fun _ => 99)) 1 0 0 = 53 := by
  rw [atMulB_exact _ _ _ _ _ _ _ _ _ _ (by decide) (by decide) (by decide)]
  simp [Finset.sum_range_succ, blk]

/-- `fusive_A_mul_B` in general: the first block is the product, every further block is the product added to what the
memory held before. -/
theorem aMulB_general (fuse aCol : Nat) (A : Nat → K) (aRow : Nat) (B : Nat → K) (bCol : Nat) (R : Nat → K)
    (r i j : Nat) (hr : r < fuse) (hi : i < aRow) (hj : j < bCol) :
    blk aRow bCol (aMulB fuse aCol A aRow B bCol R) r i j = (if r = 0 then 0 else blk aRow bCol R r i j) +
      ∑ l ∈ Finset.range aCol, blk aRow aCol A r i l * blk aCol bCol B r l j := by
  unfold blk
  rw [← addr_eq]
  unfold aMulB
  let v := ∑ l ∈ Finset.range aCol, A (r * (aRow * aCol) + l * aRow + i) * B (r * (aCol * bCol) + j * aCol + l)
  have key : ∀ s : Nat → K, loop 0 fuse (fun r R => loop 0 aCol (fun j R => loop 0 aRow (fun ib R => loop 0 bCol (fun ia R =>
    wr R (ib + aRow * (ia + bCol * r)) (R (ib + aRow * (ia + bCol * r)) +
      A (ib + aRow * (j + aCol * r)) * B (j + aCol * (ia + bCol * r)))) R) R) R) s (i + aRow * (j + bCol * r)) =
      s (i + aRow * (j + bCol * r)) + v := by
    intro s
    refine loop_at (fun x => x + v) (Nat.zero_le _) hr (fun t => ?_) (fun r' t _ hr' hne => ?_)
    · refine loop_add_at aCol _ (fun l t _ => ?_)
      refine loop_at (fun x => x + A (r * (aRow * aCol) + l * aRow + i) * B (r * (aCol * bCol) + j * aCol + l))
        (Nat.zero_le _) hi (fun t => ?_) (fun i' t _ hi' hne => ?_)
      · refine loop_at (fun x => x + A (r * (aRow * aCol) + l * aRow + i) * B (r * (aCol * bCol) + j * aCol + l))
          (Nat.zero_le _) hj (fun t => ?_) (fun j' t _ hj' hne => ?_)
        · rw [wr_same, addr_eq aRow aCol, addr_eq aCol bCol]
        · exact wr_ne _ _ (fun e => hne (addr_inj hi hi hj hj' e).2.2.symm)
      · exact loop_off (fun j' t _ hj' => wr_ne _ _ (fun e => hne (addr_inj hi hi' hj hj' e).2.1.symm))
    · exact loop_off (fun l t _ _ => loop_off (fun i' t _ hi' => loop_off (fun j' t _ hj' =>
        wr_ne _ _ (fun e => hne (addr_inj hi hi' hj hj' e).1.symm))))
  show loop 0 fuse _ (loop 0 (aRow * bCol) (fun p R => wr R p 0) R) _ = _
  rw [key]
  congr 1
  have hlt : i + aRow * j < aRow * bCol := by
    have : aRow * (j + 1) ≤ aRow * bCol := Nat.mul_le_mul_left _ hj
    rw [Nat.mul_add, Nat.mul_one] at this
    omega
  by_cases h0 : r = 0
  · rw [if_pos h0, h0, Nat.mul_zero, Nat.add_zero]
    exact loop_wr_at (fun p => p) (fun _ _ => 0) (fun _ _ => 0) (fun _ _ _ => rfl) (fun _ _ _ _ e => e) hlt
  · rw [if_neg h0]
    refine loop_wr_off (fun p => p) (fun _ _ => 0) (fun p hp e => ?_)
    have : aRow * bCol * 1 ≤ aRow * bCol * r := Nat.mul_le_mul_left _ (by omega)
    have e' : p = i + aRow * (j + bCol * r) := e
    rw [Nat.mul_add, ← Nat.mul_assoc] at e'
    omega

/-- **C41** for `fusive_A_mul_B` with one block, or with zeros in the memory of all further blocks.

Missing: further blocks over nonzero memory, where the property fails (`aMulB_wrong`). -/
theorem aMulB_exact_partial (fuse aCol : Nat) (A : Nat → K) (aRow : Nat) (B : Nat → K) (bCol : Nat) (R : Nat → K)
    (hR : ∀ p, aRow * bCol ≤ p → p < aRow * bCol * fuse → R p = 0)
    (r i j : Nat) (hr : r < fuse) (hi : i < aRow) (hj : j < bCol) :
    blk aRow bCol (aMulB fuse aCol A aRow B bCol R) r i j =
      ∑ l ∈ Finset.range aCol, blk aRow aCol A r i l * blk aCol bCol B r l j := by
  rw [aMulB_general fuse aCol A aRow B bCol R r i j hr hi hj]
  by_cases h0 : r = 0
  · rw [if_pos h0, zero_add]
  · rw [if_neg h0]
    unfold blk
    rw [hR, zero_add]
    · have : 1 * (aRow * bCol) ≤ r * (aRow * bCol) := Nat.mul_le_mul_right _ (by omega)
      omega
    · have h1 : (r + 1) * (aRow * bCol) ≤ fuse * (aRow * bCol) := Nat.mul_le_mul_right _ hr
      have h2 : (j + 1) * aRow ≤ bCol * aRow := Nat.mul_le_mul_right _ hj
      rw [Nat.mul_comm _ fuse]
      rw [Nat.add_mul, Nat.one_mul] at h1 h2
      rw [Nat.mul_comm bCol] at h2
      omega

/-- Two blocks over cleared memory. -/
example : blk 1 1 (aMulB 2 2 (fun p => ([1, 2, 3, 4] : List ℤ).getD p 0) 1 (fun p => ([5, 6, 7, 8] : List ℤ).getD p 0) 1
    (fun _ => 0)) 1 0 0 = 53 := by
  rw [aMulB_exact_partial _ _ _ _ _ _ _ (fun _ _ _ => rfl) _ _ _ (by decide) (by decide) (by decide)]
  simp [Finset.sum_range_succ, blk]

/-- **C41 fails** for `fusive_A_mul_B` with more than one block: for all factors there is a previous content of the
result memory which spoils every block but the first. -/
theorem aMulB_wrong [Nontrivial K] (fuse aCol : Nat) (A : Nat → K) (aRow : Nat) (B : Nat → K) (bCol : Nat)
    (r i j : Nat) (h0 : 0 < r) (hr : r < fuse) (hi : i < aRow) (hj : j < bCol) :
    ∃ R : Nat → K, blk aRow bCol (aMulB fuse aCol A aRow B bCol R) r i j ≠
      ∑ l ∈ Finset.range aCol, blk aRow aCol A r i l * blk aCol bCol B r l j := by
  refine ⟨fun _ => 1, ?_⟩
  rw [aMulB_general fuse aCol A aRow B bCol _ r i j hr hi hj, if_neg (by omega)]
  intro h
  exact one_ne_zero (add_eq_right.1 h)

example : ∃ R : Nat → ℤ, blk 1 1 (aMulB 2 1 (fun _ => 3) 1 (fun _ => 4) 1 R) 1 0 0 ≠ 12 := by
  obtain ⟨R, h⟩ := aMulB_wrong 2 1 (fun _ => (3 : ℤ)) 1 (fun _ => 4) 1 1 0 0 (by decide) (by decide) (by decide) (by decide)
  exact ⟨R, by simpa [Finset.sum_range_succ, blk] using h⟩

end Verif.Fused
