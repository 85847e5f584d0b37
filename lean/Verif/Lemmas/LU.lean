import Verif.Model.LU
import Verif.Lemmas.Dense

/-!
Loop invariants of the fully pivoted LU factorisation.
-/
set_option linter.unusedSectionVars false

namespace Verif.Dense

open Finset

theorem swapAt_apply {T : Type} (a : Nat → T) (x y z : Nat) :
    swapAt a x y z = if z = y then a x else if z = x then a y else a z := by
  unfold swapAt
  by_cases h1 : z = y
  · rw [if_pos h1, h1, Function.update_self]
  · rw [if_neg h1, Function.update_of_ne h1]
    by_cases h2 : z = x
    · rw [if_pos h2, h2, Function.update_self]
    · rw [if_neg h2, Function.update_of_ne h2]

variable {K : Type} [Field K] [LinearOrder K] [IsStrictOrderedRing K]

/-- the exchange of two indices -/
def sw (x y z : Nat) : Nat := if z = x then y else if z = y then x else z

theorem swapAt_sw {T : Type} (a : Nat → T) (x y z : Nat) : swapAt a x y z = a (sw x y z) := by
  rw [swapAt_apply]
  unfold sw
  by_cases h1 : z = y
  · by_cases h2 : z = x
    · rw [if_pos h1, if_pos h2, ← h2, h1]
    · rw [if_pos h1, if_neg h2, if_pos h1]
  · by_cases h2 : z = x
    · rw [if_neg h1, if_pos h2, if_pos h2]
    · rw [if_neg h1, if_neg h2, if_neg h2, if_neg h1]

theorem sw_sw (x y z : Nat) : sw x y (sw x y z) = z := by
  unfold sw; split <;> split <;> (try split) <;> omega

theorem sw_lt {N x y z : Nat} (hx : x < N) (hy : y < N) (hz : z < N) : sw x y z < N := by
  unfold sw; split <;> (try split) <;> omega

theorem sw_ge {k y z : Nat} (hy : k ≤ y) : k ≤ sw k y z ↔ k ≤ z := by
  unfold sw; split <;> (try split) <;> omega

theorem sw_of_lt {k y z : Nat} (hy : k ≤ y) (hz : z < k) : sw k y z = z := by
  unfold sw; rw [if_neg (by omega), if_neg (by omega)]

theorem swapRows_ent {N k pi : Nat} (hk : k < N) (hp : pi < N) (A : Nat → K) {r c : Nat} (hr : r < N) (hc : c < N) :
    ent N (swapRows N k pi A) r c = ent N A (sw k pi r) c := by
  have key := loop_ind (S := Nat → K)
    (fun j B => ∀ r c, r < N → c < N → ent N B r c = if c < j then ent N A (sw k pi r) c else ent N A r c)
    (a := 0) (b := N) (f := fun j A => swapAt A (k + j * N) (pi + j * N)) (s := A) (Nat.zero_le _)
    (by intro r c _ _; rw [if_neg (by omega)])
    (by
      intro j B _ hj ih r c hr hc
      by_cases hcj : c = j
      · subst hcj
        rw [if_pos (by omega)]
        have e : ent N (swapAt B (k + c * N) (pi + c * N)) r c = ent N B (sw k pi r) c := by
          unfold ent
          rw [swapAt_apply]
          unfold sw
          by_cases h1 : r = pi
          · rw [if_pos (by rw [h1])]
            by_cases h2 : r = k
            · rw [if_pos h2, ← h1, ← h2]
            · rw [if_neg h2, if_pos h1]
          · rw [if_neg (fun e => h1 (pos_inj hr hp e).1)]
            by_cases h2 : r = k
            · rw [if_pos (by rw [h2]), if_pos h2]
            · rw [if_neg (fun e => h2 (pos_inj hr hk e).1), if_neg h2, if_neg h1]
        rw [e, ih _ c (sw_lt hk hp hr) hc, if_neg (by omega)]
      · have e : ent N (swapAt B (k + j * N) (pi + j * N)) r c = ent N B r c := by
          unfold ent
          rw [swapAt_apply, if_neg (fun e => hcj (pos_inj hr hp e).2), if_neg (fun e => hcj (pos_inj hr hk e).2)]
        rw [e, ih r c hr hc]
        by_cases hlt : c < j
        · rw [if_pos hlt, if_pos (by omega)]
        · rw [if_neg hlt, if_neg (by omega)])
  rw [show ent N (swapRows N k pi A) r c = _ from key r c hr hc, if_pos hc]

theorem swapCols_ent {N k pj : Nat} (hk : k < N) (hp : pj < N) (A : Nat → K) {r c : Nat} (hr : r < N) (hc : c < N) :
    ent N (swapCols N k pj A) r c = ent N A r (sw k pj c) := by
  have key := loop_ind (S := Nat → K)
    (fun i B => ∀ r c, r < N → c < N → ent N B r c = if r < i then ent N A r (sw k pj c) else ent N A r c)
    (a := 0) (b := N) (f := fun i A => swapAt A (i + k * N) (i + pj * N)) (s := A) (Nat.zero_le _)
    (by intro r c _ _; rw [if_neg (by omega)])
    (by
      intro i B _ hi ih r c hr hc
      by_cases hri : r = i
      · subst hri
        rw [if_pos (by omega)]
        have e : ent N (swapAt B (r + k * N) (r + pj * N)) r c = ent N B r (sw k pj c) := by
          unfold ent
          rw [swapAt_apply]
          unfold sw
          by_cases h1 : c = pj
          · rw [if_pos (by rw [h1])]
            by_cases h2 : c = k
            · rw [if_pos h2, ← h1, ← h2]
            · rw [if_neg h2, if_pos h1]
          · rw [if_neg (fun e => h1 (pos_inj hr hr e).2)]
            by_cases h2 : c = k
            · rw [if_pos (by rw [h2]), if_pos h2]
            · rw [if_neg (fun e => h2 (pos_inj hr hr e).2), if_neg h2, if_neg h1]
        rw [e, ih r _ hr (sw_lt hk hp hc), if_neg (by omega)]
      · have e : ent N (swapAt B (i + k * N) (i + pj * N)) r c = ent N B r c := by
          unfold ent
          rw [swapAt_apply, if_neg (fun e => hri (pos_inj hr hi e).1), if_neg (fun e => hri (pos_inj hr hi e).1)]
        rw [e, ih r c hr hc]
        by_cases hlt : r < i
        · rw [if_pos hlt, if_pos (by omega)]
        · rw [if_neg hlt, if_neg (by omega)])
  rw [show ent N (swapCols N k pj A) r c = _ from key r c hr hc, if_pos hr]

/-- the pivot search: the first entry of largest absolute value of the block, or no entry when the block is zero -/
theorem pivot_spec {N k : Nat} (hk : k ≤ N) (A : Nat → K) :
    (∀ i j, k ≤ i → i < N → k ≤ j → j < N → |ent N A i j| ≤ (luPivot N k A).2) ∧
    ((luPivot N k A).1 = none → (luPivot N k A).2 = 0) ∧
    (∀ i j, (luPivot N k A).1 = some (i, j) →
      k ≤ i ∧ i < N ∧ k ≤ j ∧ j < N ∧ |ent N A i j| = (luPivot N k A).2 ∧ 0 < (luPivot N k A).2) := by
  have key := loop_ind (S := Option (Nat × Nat) × K)
    (fun n s => (∀ i j, k ≤ i → i < n → k ≤ j → j < N → |ent N A i j| ≤ s.2) ∧ 0 ≤ s.2 ∧
      (s.1 = none → s.2 = 0) ∧
      (∀ i j, s.1 = some (i, j) → k ≤ i ∧ i < N ∧ k ≤ j ∧ j < N ∧ |ent N A i j| = s.2 ∧ 0 < s.2))
    (a := k) (b := N)
    (f := fun i s => loop k N (fun j s => if |A (i + j * N)| > s.2 then (some (i, j), |A (i + j * N)|) else s) s)
    (s := (none, 0)) hk
    ⟨by intro i j h1 h2; omega, le_refl _, fun _ => rfl, by intro i j h; cases h⟩
    (by
      intro n s hn hnN ih
      have inner := loop_ind (S := Option (Nat × Nat) × K)
        (fun m s => (∀ i j, k ≤ i → (i < n ∧ k ≤ j ∧ j < N) ∨ (i = n ∧ k ≤ j ∧ j < m) → |ent N A i j| ≤ s.2) ∧ 0 ≤ s.2 ∧
          (s.1 = none → s.2 = 0) ∧
          (∀ i j, s.1 = some (i, j) → k ≤ i ∧ i < N ∧ k ≤ j ∧ j < N ∧ |ent N A i j| = s.2 ∧ 0 < s.2))
        (a := k) (b := N) (f := fun j s => if |A (n + j * N)| > s.2 then (some (n, j), |A (n + j * N)|) else s)
        (s := s) hk
        ⟨by
          intro i j h1 h2
          rcases h2 with h2 | h2
          · exact ih.1 i j h1 h2.1 h2.2.1 h2.2.2
          · omega, ih.2⟩
        (by
          intro m s hm hmN ih
          by_cases hb : |A (n + m * N)| > s.2
          · rw [if_pos hb]
            refine ⟨?_, abs_nonneg _, (by intro h; cases h), ?_⟩
            · intro i j h1 h2
              by_cases he : i = n ∧ j = m
              · rw [he.1, he.2]; exact le_refl _
              · exact le_trans (ih.1 i j h1 (by omega)) (le_of_lt hb)
            · intro i j h
              simp only [Option.some.injEq, Prod.mk.injEq] at h
              obtain ⟨rfl, rfl⟩ := h
              exact ⟨hn, hnN, hm, hmN, rfl, lt_of_le_of_lt ih.2.1 hb⟩
          · rw [if_neg hb]
            refine ⟨?_, ih.2⟩
            intro i j h1 h2
            by_cases he : i = n ∧ j = m
            · rw [he.1, he.2]; exact not_lt.mp hb
            · exact ih.1 i j h1 (by omega))
      refine ⟨?_, inner.2⟩
      intro i j h1 h2 h3 h4
      exact inner.1 i j h1 (by omega))
  refine ⟨key.1, key.2.2.1, key.2.2.2⟩

theorem max1_spec {N k : Nat} (hk : k < N) (A : Nat → K) :
    0 ≤ luMax1 N k A ∧ ∀ i, k < i → i < N → |ent N A i k| ≤ luMax1 N k A := by
  have key := loop_ind (S := K)
    (fun n m => 0 ≤ m ∧ ∀ i, k < i → i < n → |ent N A i k| ≤ m)
    (a := k + 1) (b := N) (f := fun i m => max m |A (i + k * N)|) (s := (0 : K)) hk
    ⟨le_refl _, by intro i h1 h2; omega⟩
    (by
      intro n m hn hnN ih
      refine ⟨le_trans ih.1 (le_max_left _ _), ?_⟩
      intro i h1 h2
      by_cases he : i = n
      · rw [he]; exact le_max_right _ _
      · exact le_trans (ih.2 i h1 (by omega)) (le_max_left _ _))
  exact key

/-- the elimination, entry by entry -/
theorem elim_ent {N k : Nat} (hk : k < N) (A : Nat → K) {r c : Nat} (hr : r < N) (hc : c < N) :
    ent N (luElim N k A) r c =
      if k < r ∧ k < c then ent N A r c - ent N A r k / ent N A k k * ent N A k c
      else if k < r ∧ c = k then ent N A r k / ent N A k k else ent N A r c := by
  have key := loop_ind (S := Nat → K)
    (fun i B => ∀ r c, r < N → c < N → ent N B r c =
      if r < i then (if k < r ∧ k < c then ent N A r c - ent N A r k / ent N A k k * ent N A k c
        else if k < r ∧ c = k then ent N A r k / ent N A k k else ent N A r c) else ent N A r c)
    (a := k + 1) (b := N)
    (f := fun i A =>
      let A := wr A (i + k * N) (A (i + k * N) / A (k + k * N))
      let tmp := A (i + k * N)
      loop (k + 1) N (fun j A => wr A (i + j * N) (A (i + j * N) - tmp * A (k + j * N))) A) (s := A) hk
    (by
      intro r c hr hc
      by_cases h : r < k + 1
      · rw [if_pos h, if_neg (by omega), if_neg (by omega)]
      · rw [if_neg h])
    (by
      intro i B hi hiN ih r c hr hc
      have eik : ent N B i k = ent N A i k := by rw [ih i k hiN hk, if_neg (by omega)]
      have ekk : ent N B k k = ent N A k k := by
        rw [ih k k hk hk, if_pos (by omega), if_neg (by omega), if_neg (by omega)]
      show ent N (loop (k + 1) N (fun j A' => wr A' (i + j * N) (A' (i + j * N) -
        wr B (i + k * N) (B (i + k * N) / B (k + k * N)) (i + k * N) * A' (k + j * N)))
          (wr B (i + k * N) (B (i + k * N) / B (k + k * N)))) r c = _
      rw [wr_same]
      have hv : B (i + k * N) / B (k + k * N) = ent N A i k / ent N A k k := by
        show ent N B i k / ent N B k k = _
        rw [eik, ekk]
      rw [hv]
      have inner := loop_ind (S := Nat → K)
        (fun m B' => ∀ r c, r < N → c < N → ent N B' r c =
          if r = i ∧ k < c ∧ c < m then ent N A i c - ent N A i k / ent N A k k * ent N A k c
          else if r = i ∧ c = k then ent N A i k / ent N A k k else ent N B r c)
        (a := k + 1) (b := N)
        (f := fun j A' => wr A' (i + j * N) (A' (i + j * N) - ent N A i k / ent N A k k * A' (k + j * N)))
        (s := wr B (i + k * N) (ent N A i k / ent N A k k)) hk
        (by
          intro r c hr hc
          rw [ent_wr _ _ hiN hr, if_neg (show ¬ (r = i ∧ k < c ∧ c < k + 1) by omega)])
        (by
          intro m B' hm hmN ih' r c hr hc
          rw [ent_wr _ _ hiN hr]
          by_cases hb : r = i ∧ c = m
          · obtain ⟨rfl, rfl⟩ := hb
            rw [if_pos ⟨rfl, rfl⟩, if_pos ⟨rfl, by omega, by omega⟩]
            show ent N B' r c - _ * ent N B' k c = _
            rw [ih' r c hr hc, if_neg (by omega), if_neg (by omega), ih' k c hk hc, if_neg (by omega),
              if_neg (by omega), ih r c hr hc, if_neg (by omega), ih k c hk hc, if_pos (by omega), if_neg (by omega),
              if_neg (by omega)]
          · rw [if_neg hb, ih' r c hr hc]
            by_cases hd : r = i ∧ k < c ∧ c < m
            · rw [if_pos hd, if_pos (by omega)]
            · rw [if_neg hd, if_neg (show ¬ (r = i ∧ k < c ∧ c < m + 1) by omega)])
      rw [inner r c hr hc]
      by_cases hri : r = i
      · subst hri
        rw [if_pos (show r < r + 1 by omega)]
        by_cases h1 : k < c
        · rw [if_pos ⟨rfl, h1, hc⟩, if_pos ⟨by omega, h1⟩]
        · rw [if_neg (by omega), if_neg (show ¬ (k < r ∧ k < c) by omega)]
          by_cases h2 : c = k
          · rw [if_pos ⟨rfl, h2⟩, if_pos ⟨by omega, h2⟩]
          · rw [if_neg (by omega), if_neg (by omega), ih r c hr hc, if_neg (by omega)]
      · rw [if_neg (by omega), if_neg (by omega), ih r c hr hc]
        by_cases h1 : r < i
        · rw [if_pos h1, if_pos (show r < i + 1 by omega)]
        · rw [if_neg h1, if_neg (show ¬ r < i + 1 by omega)])
  rw [show ent N (luElim N k A) r c = _ from key r c hr hc, if_pos hr]

end Verif.Dense
