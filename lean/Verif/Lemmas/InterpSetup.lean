import Verif.Lemmas.InterpUnion
import Verif.Props.LU

/-!
Lemmas for the set-up of the interpolation on unions.
-/
set_option linter.unusedSectionVars false
namespace Verif.Interp

open Verif.Dense Verif.DofMap

section Inv
variable {K : Type} [Field K]

/-- the product with weights stored by columns, as a matrix -/
theorem left_right_inverse {n : Nat} (a b : Nat → Nat → K)
    (h : ∀ i, i < n → ∀ k, k < n → ∑ j ∈ Finset.range n, a i j * b j k = if i = k then 1 else 0) :
    ∀ i, i < n → ∀ k, k < n → ∑ j ∈ Finset.range n, b i j * a j k = if i = k then 1 else 0 := by
  let A : Matrix (Fin n) (Fin n) K := Matrix.of fun i j => a i j
  let B : Matrix (Fin n) (Fin n) K := Matrix.of fun i j => b i j
  have hAB : A * B = 1 := by
    ext i k
    rw [Matrix.mul_apply, Matrix.one_apply]
    have := h i i.2 k k.2
    rw [Finset.sum_range (fun j => a i j * b j k)] at this
    simp only [A, B, Matrix.of_apply]
    rw [this]
    by_cases hc : i = k
    · rw [if_pos hc, if_pos (by rw [hc])]
    · rw [if_neg hc, if_neg (fun e => hc (Fin.ext e))]
  have hBA : B * A = 1 := mul_eq_one_comm.1 hAB
  intro i hi k hk
  have := congrFun (congrFun hBA ⟨i, hi⟩) ⟨k, hk⟩
  rw [Matrix.mul_apply, Matrix.one_apply] at this
  rw [Finset.sum_range (fun j => b i j * a j k)]
  simp only [A, B, Matrix.of_apply] at this
  rw [this]
  by_cases hc : i = k
  · rw [if_pos hc, if_pos (Fin.ext hc)]
  · rw [if_neg hc, if_neg (fun e => hc (Fin.mk.inj e))]

/-- two matrices with the same left inverse are equal -/
theorem inverse_unique {n : Nat} (a b c : Nat → Nat → K)
    (hb : ∀ i, i < n → ∀ k, k < n → ∑ j ∈ Finset.range n, a i j * b j k = if i = k then 1 else 0)
    (hc : ∀ i, i < n → ∀ k, k < n → ∑ j ∈ Finset.range n, a i j * c j k = if i = k then 1 else 0) :
    ∀ i, i < n → ∀ k, k < n → b i k = c i k := by
  have hba := left_right_inverse a b hb
  intro i hi k hk
  have h1 : ∑ j ∈ Finset.range n, b i j * (∑ l ∈ Finset.range n, a j l * c l k) = b i k := by
    rw [Finset.sum_congr rfl (g := fun j => b i j * if j = k then 1 else 0)
      (fun j hj => by rw [hc j (Finset.mem_range.1 hj) k hk])]
    rw [Finset.sum_eq_single k]
    · rw [if_pos rfl, mul_one]
    · intro j _ hj; rw [if_neg hj, mul_zero]
    · intro hn; exact absurd (Finset.mem_range.2 hk) hn
  have h2 : ∑ j ∈ Finset.range n, b i j * (∑ l ∈ Finset.range n, a j l * c l k) = c i k := by
    simp only [Finset.mul_sum]
    rw [Finset.sum_comm]
    rw [Finset.sum_congr rfl (g := fun l => (if i = l then 1 else 0) * c l k)
      (fun l hl => by
        rw [← hba i hi l (Finset.mem_range.1 hl), Finset.sum_mul]
        exact Finset.sum_congr rfl fun j _ => by ring)]
    rw [Finset.sum_eq_single i]
    · rw [if_pos rfl, one_mul]
    · intro j _ hj; rw [if_neg (Ne.symm hj), zero_mul]
    · intro hn; exact absurd (Finset.mem_range.2 hi) hn
  rw [← h1, h2]

end Inv

section Ordered
variable {K : Type} [Field K] [LinearOrder K] [IsStrictOrderedRing K]

/-- entry `(i, k)` of the product of two matrices stored by columns -/
def mulEnt (nf : Nat) (A B : Nat → K) (i k : Nat) : K := ∑ j ∈ Finset.range nf, A (i + nf * j) * B (j + nf * k)

theorem gramCheck_spec (nf : Nat) (A B : Nat → K) :
    (∀ i, i < nf → ∀ k, k < nf → |mulEnt nf A B i k - (if i = k then 1 else 0)| ≤ (gramCheck nf A B).1 ∧
      |B (i + nf * k)| ≤ (gramCheck nf A B).2) ∧
    (∀ e M : K, 0 ≤ e → 0 ≤ M → (∀ i, i < nf → ∀ k, k < nf → |mulEnt nf A B i k - (if i = k then 1 else 0)| ≤ e ∧ |B (i + nf * k)| ≤ M) →
      (gramCheck nf A B).1 ≤ e ∧ (gramCheck nf A B).2 ≤ M) := by
  have hs : ∀ i k, loop 0 nf (fun j s => s + A (i + nf * j) * B (j + nf * k)) 0 = mulEnt nf A B i k := by
    intro i k
    refine loop_ind (P := fun m s => s = ∑ j ∈ Finset.range m, A (i + nf * j) * B (j + nf * k)) (Nat.zero_le nf) (by simp) ?_
    intro j s _ _ ih
    rw [ih, Finset.sum_range_succ]
  let F : Nat → K × K → Nat → K × K := fun i st k =>
    (max st.1 |mulEnt nf A B i k - (if i = k then 1 else 0)|, max st.2 |B (i + nf * k)|)
  have hg : gramCheck nf A B = loop 0 nf (fun i st => loop 0 nf (fun k st => F i st k) st) (0, 0) := by
    unfold gramCheck
    dsimp only
    simp only [hs]
    rfl
  rw [hg]
  constructor
  · -- every entry is seen
    have key := loop_ind (P := fun m (st : K × K) => ∀ i, i < m → ∀ k, k < nf →
        |mulEnt nf A B i k - (if i = k then 1 else 0)| ≤ st.1 ∧ |B (i + nf * k)| ≤ st.2)
      (a := 0) (b := nf) (s := ((0, 0) : K × K)) (f := fun i st => loop 0 nf (fun k st => F i st k) st) (Nat.zero_le _)
      (by intro i hi; omega)
      (by
        intro a st _ ha ih
        have inner := loop_ind (P := fun m (s' : K × K) => st.1 ≤ s'.1 ∧ st.2 ≤ s'.2 ∧ ∀ k, k < m →
            |mulEnt nf A B a k - (if a = k then 1 else 0)| ≤ s'.1 ∧ |B (a + nf * k)| ≤ s'.2)
          (a := 0) (b := nf) (s := st) (f := fun k st => F a st k) (Nat.zero_le _)
          ⟨le_refl _, le_refl _, by intro k hk; omega⟩
          (by
            intro c s' _ hc ⟨h1, h2, h3⟩
            refine ⟨le_trans h1 (le_max_left _ _), le_trans h2 (le_max_left _ _), fun k hk => ?_⟩
            rcases Nat.lt_succ_iff_lt_or_eq.1 hk with hlt | rfl
            · exact ⟨le_trans (h3 k hlt).1 (le_max_left _ _), le_trans (h3 k hlt).2 (le_max_left _ _)⟩
            · exact ⟨le_max_right _ _, le_max_right _ _⟩)
        intro i hi k hk
        rcases Nat.lt_succ_iff_lt_or_eq.1 hi with hlt | rfl
        · exact ⟨le_trans (ih i hlt k hk).1 inner.1, le_trans (ih i hlt k hk).2 inner.2.1⟩
        · exact inner.2.2 k hk)
    exact key
  · intro e M he hM hall
    refine loop_ind (P := fun _ (st : K × K) => st.1 ≤ e ∧ st.2 ≤ M) (Nat.zero_le nf) ⟨he, hM⟩ ?_
    intro i st _ hi ih
    refine loop_ind (P := fun _ (st : K × K) => st.1 ≤ e ∧ st.2 ≤ M) (Nat.zero_le nf) ih ?_
    intro k st _ hk ih
    exact ⟨max_le ih.1 (hall i hi k hk).1, max_le ih.2 (hall i hi k hk).2⟩

theorem colMax_spec (nf : Nat) (A : Nat → K) (i : Nat) :
    0 ≤ colMax nf A i ∧ (∀ k, k < nf → |A (k + nf * i)| ≤ colMax nf A i) ∧
      (colMax nf A i = 0 ∨ ∃ k, k < nf ∧ colMax nf A i = |A (k + nf * i)|) := by
  unfold colMax
  refine loop_ind (P := fun m s => 0 ≤ s ∧ (∀ k, k < m → |A (k + nf * i)| ≤ s) ∧ (s = 0 ∨ ∃ k, k < nf ∧ s = |A (k + nf * i)|))
    (Nat.zero_le nf) ⟨le_refl _, by intro k hk; omega, Or.inl rfl⟩ ?_
  intro j s _ hj ⟨h0, h1, h2⟩
  refine ⟨le_trans h0 (le_max_left _ _), fun k hk => ?_, ?_⟩
  · rcases Nat.lt_succ_iff_lt_or_eq.1 hk with hlt | rfl
    · exact le_trans (h1 k hlt) (le_max_left _ _)
    · exact le_max_right _ _
  · rcases max_choice s |A (j + nf * i)| with h | h
    · rw [h]; exact h2
    · rw [h]; exact Or.inr ⟨j, hj, rfl⟩

/-- small entries of every column are dropped, the others kept -/
theorem dropSmall_at (small : K) (nf : Nat) (A : Nat → K) (k i : Nat) (hk : k < nf) (hi : i < nf) :
    dropSmall small nf A (k + nf * i) =
      if |A (k + nf * i)| > colMax nf A i * small then A (k + nf * i) else 0 := by
  have hcol : ∀ (A A' : Nat → K) i, (∀ k, k < nf → A' (k + nf * i) = A (k + nf * i)) → colMax nf A' i = colMax nf A i := by
    intro A A' i h
    unfold colMax
    exact loop_congr (fun k s _ hk => by rw [h k hk])
  have hinner : ∀ (B : Nat → K) (m : K) (i r c : Nat), r < nf →
      loop 0 nf (fun k A => wr A (k + nf * i) (if |A (k + nf * i)| > m * small then A (k + nf * i) else 0)) B (r + nf * c) =
        if c = i then (if |B (r + nf * i)| > m * small then B (r + nf * i) else 0) else B (r + nf * c) := by
    intro B m i r c hr
    have key := loop_ind (P := fun t (B' : Nat → K) => ∀ r c, r < nf → B' (r + nf * c) =
        if c = i ∧ r < t then (if |B (r + nf * i)| > m * small then B (r + nf * i) else 0) else B (r + nf * c))
      (a := 0) (b := nf) (s := B)
      (f := fun k A => wr A (k + nf * i) (if |A (k + nf * i)| > m * small then A (k + nf * i) else 0)) (Nat.zero_le _)
      (by intro r c _; rw [if_neg (by omega)])
      (by
        intro t B' _ ht ih r c hr
        by_cases he : r = t ∧ c = i
        · rw [he.1, he.2, wr_same, ih t i ht, if_neg (show ¬ (i = i ∧ t < t) by omega), if_pos (show i = i ∧ t < t + 1 by omega)]
        · rw [wr_ne _ _ (fun e => he (idx2_inj hr ht e)), ih r c hr]
          by_cases hc : c = i ∧ r < t
          · rw [if_pos hc, if_pos (show c = i ∧ r < t + 1 by omega)]
          · rw [if_neg hc, if_neg (show ¬ (c = i ∧ r < t + 1) by omega)])
    rw [key r c hr]
    by_cases hc : c = i
    · rw [if_pos ⟨hc, hr⟩, if_pos hc]
    · rw [if_neg (fun h => hc h.1), if_neg hc]
  unfold dropSmall
  have key := loop_ind (P := fun t (B : Nat → K) => ∀ r c, r < nf → B (r + nf * c) =
      if c < t then (if |A (r + nf * c)| > colMax nf A c * small then A (r + nf * c) else 0) else A (r + nf * c))
    (a := 0) (b := nf) (s := A)
    (f := fun i A =>
      let m := colMax nf A i
      loop 0 nf (fun k A => wr A (k + nf * i) (if |A (k + nf * i)| > m * small then A (k + nf * i) else 0)) A) (Nat.zero_le _)
    (by intro r c _; rw [if_neg (by omega)])
    (by
      intro t B _ ht ih r c hr
      dsimp only
      rw [hinner _ _ _ _ _ hr]
      have hc : colMax nf B t = colMax nf A t := hcol A B t fun k hk => by rw [ih k t hk, if_neg (by omega)]
      by_cases he : c = t
      · rw [if_pos he, hc, he, ih r t hr, if_neg (show ¬ t < t by omega), if_pos (show t < t + 1 by omega)]
      · rw [if_neg he, ih r c hr]
        by_cases hlt : c < t
        · rw [if_pos hlt, if_pos (show c < t + 1 by omega)]
        · rw [if_neg hlt, if_neg (show ¬ c < t + 1 by omega)])
  rw [key k i hk, if_pos hi]

/-- the error made by dropping, measured with the entries kept -/
theorem dropSmall_error {small : K} (h0 : 0 ≤ small) (h1 : small < 1) (nf : Nat) (A : Nat → K) {N : K}
    (hN : ∀ k, k < nf → ∀ i, i < nf → |dropSmall small nf A (k + nf * i)| ≤ N) :
    ∀ k, k < nf → ∀ i, i < nf → |dropSmall small nf A (k + nf * i) - A (k + nf * i)| ≤ small * N := by
  intro k hk i hi
  have hN0 : 0 ≤ N := le_trans (abs_nonneg _) (hN k hk i hi)
  obtain ⟨c0, c1, c2⟩ := colMax_spec nf A i
  have hcN : colMax nf A i ≤ N := by
    rcases c2 with h | ⟨j, hj, h⟩
    · rw [h]; exact hN0
    · rcases lt_or_eq_of_le c0 with hpos | hz
      · have := hN j hj i hi
        rw [dropSmall_at small nf A j i hj hi, if_pos (by rw [← h]; nlinarith)] at this
        rw [h]; exact this
      · rw [← hz]; exact hN0
  rw [dropSmall_at small nf A k i hk hi]
  by_cases hc : |A (k + nf * i)| > colMax nf A i * small
  · rw [if_pos hc, sub_self, abs_zero]
    exact mul_nonneg h0 hN0
  · rw [if_neg hc, zero_sub, abs_neg]
    rw [not_lt] at hc
    calc |A (k + nf * i)| ≤ colMax nf A i * small := hc
      _ ≤ N * small := mul_le_mul_of_nonneg_right hcN h0
      _ = small * N := mul_comm _ _

theorem mulEnt_error {nf : Nat} {A W B : Nat → K} {d M : K}
    (hd : ∀ k, k < nf → ∀ i, i < nf → |W (k + nf * i) - A (k + nf * i)| ≤ d) (hd0 : 0 ≤ d)
    (hM : ∀ i, i < nf → ∀ k, k < nf → |B (i + nf * k)| ≤ M) {i k : Nat} (hi : i < nf) (hk : k < nf) :
    |mulEnt nf W B i k - mulEnt nf A B i k| ≤ nf * (d * M) := by
  unfold mulEnt
  rw [← Finset.sum_sub_distrib]
  calc |∑ j ∈ Finset.range nf, (W (i + nf * j) * B (j + nf * k) - A (i + nf * j) * B (j + nf * k))|
      ≤ ∑ j ∈ Finset.range nf, |W (i + nf * j) * B (j + nf * k) - A (i + nf * j) * B (j + nf * k)| := Finset.abs_sum_le_sum_abs _ _
    _ ≤ ∑ j ∈ Finset.range nf, d * M := by
        refine Finset.sum_le_sum fun j hj => ?_
        have hj' := Finset.mem_range.1 hj
        rw [← sub_mul, abs_mul]
        exact mul_le_mul (hd i hi j hj') (hM j hj' k hk) (abs_nonneg _) hd0
    _ = nf * (d * M) := by rw [Finset.sum_const, Finset.card_range, nsmul_eq_mul]

theorem checked_bound {n : Nat} {A B : Nat → K} {tol small : K}
    (hc : (gramCheck n A B).1 ≤ tol * (1 + (gramCheck n A B).2))
    (htol : 0 ≤ tol) (h0 : 0 ≤ small) (h1 : small < 1) {M N : K}
    (hM : ∀ i, i < n → ∀ k, k < n → |B (i + n * k)| ≤ M)
    (hN : ∀ i, i < n → ∀ k, k < n → |dropSmall small n A (i + n * k)| ≤ N) :
    ∀ i, i < n → ∀ k, k < n →
      |mulEnt n (dropSmall small n A) B i k - (if i = k then 1 else 0)| ≤ tol * (1 + M) + n * (small * N * M) := by
  intro i hi k hk
  obtain ⟨g1, g2⟩ := gramCheck_spec n A B
  have hM0 : 0 ≤ M := le_trans (abs_nonneg _) (hM i hi k hk)
  have hN0 : 0 ≤ N := le_trans (abs_nonneg _) (hN i hi k hk)
  generalize gramCheck n A B = e at *
  have he0 : 0 ≤ e.1 := le_trans (abs_nonneg _) (g1 i hi k hk).1
  have hmax : e.2 ≤ M := (g2 e.1 M he0 hM0 (fun a ha b hb => ⟨(g1 a ha b hb).1, hM a ha b hb⟩)).2
  have he1 : |mulEnt n A B i k - (if i = k then 1 else 0)| ≤ tol * (1 + M) :=
    le_trans (g1 i hi k hk).1 (le_trans hc (mul_le_mul_of_nonneg_left (by linarith) htol))
  have he2 := mulEnt_error (A := A) (W := dropSmall small n A) (B := B) (d := small * N) (M := M)
    (dropSmall_error h0 h1 n A hN) (mul_nonneg h0 hN0) hM hi hk
  calc |mulEnt n (dropSmall small n A) B i k - (if i = k then 1 else 0)|
      = |(mulEnt n A B i k - (if i = k then 1 else 0)) + (mulEnt n (dropSmall small n A) B i k - mulEnt n A B i k)| := by
          congr 1; ring
    _ ≤ _ := abs_add_le _ _
    _ ≤ tol * (1 + M) + n * (small * N * M) := add_le_add he1 he2

/-- What a successful set-up of at least two spaces guarantees. -/
theorem setup_bound {eps tol small : K} {ss : List (Space K)} {W : Nat → K} (h : setup eps tol small ss = some W)
    (hlen : 2 ≤ ss.length) (hnf : 0 < (ss.map (·.nfa)).sum) (htol : 0 ≤ tol) (h0 : 0 ≤ small) (h1 : small < 1) {M N : K}
    (hM : ∀ i, i < (ss.map (·.nfa)).sum → ∀ k, k < (ss.map (·.nfa)).sum → |gramMat ss (i + (ss.map (·.nfa)).sum * k)| ≤ M)
    (hN : ∀ i, i < (ss.map (·.nfa)).sum → ∀ k, k < (ss.map (·.nfa)).sum → |W (i + (ss.map (·.nfa)).sum * k)| ≤ N) :
    ∀ i, i < (ss.map (·.nfa)).sum → ∀ k, k < (ss.map (·.nfa)).sum →
      |mulEnt (ss.map (·.nfa)).sum W (gramMat ss) i k - (if i = k then 1 else 0)| ≤
        tol * (1 + M) + (ss.map (·.nfa)).sum * (small * N * M) := by
  unfold setup at h
  dsimp only at h
  rw [if_neg (by omega), if_neg (by omega)] at h
  generalize (ss.map (·.nfa)).sum = n at *
  generalize gramMat ss = B at *
  generalize luInverse eps n B (fun _ => 0) = o at h
  cases o with
  | none => cases h
  | some A =>
    dsimp only at h
    by_cases hc : (gramCheck n A B).1 > tol * (1 + (gramCheck n A B).2)
    · rw [if_pos hc] at h; cases h
    · rw [if_neg hc] at h
      have hW : dropSmall small n A = W := Option.some_inj.1 h
      subst hW
      exact checked_bound (not_lt.1 hc) htol h0 h1 hM hN

end Ordered

end Verif.Interp
