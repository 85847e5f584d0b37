import Verif.Props.Tensor

/-! # C57: the packed physical tensors of rank four hold and combine the entries of true tensors

Statements speak of the entries that a user reads with `operator()`: `tenGet` of a `Tensor4Rank<N>`,
`stGet` of a `SymTensor4Rank<N>` and `bs3Get` of a `BiSymTensor4Rank<3>`. -/

namespace Verif.Tensor

open Finset

variable {K : Type}

/-! ## Lemmas -/

theorem tenGet_mtx (N : Nat) (a : Store K) (i j k l : Nat) :
    tenGet N a i j k l = mtxGet (N * N) a (N * i + j) (N * k + l) := by
  rw [tenGet, mtxGet]; congr 1; ring

theorem pair_lt {N i j : Nat} (hi : i < N) (hj : j < N) : N * i + j < N * N :=
  calc N * i + j < N * i + N := by omega
    _ = N * (i + 1) := by ring
    _ ≤ N * N := Nat.mul_le_mul_left _ hi

theorem sq_ne_three (N : Nat) : N * N ≠ 3 := by
  rcases Nat.lt_or_ge N 2 with h | h
  · interval_cases N <;> norm_num
  · have := Nat.mul_le_mul h h; omega

theorem symPos_sort (M x y : Nat) (h : M ≠ 3) : symPos M (symSort x y) = symAt M x y := by
  rw [symPos, symAt, if_neg h, if_neg h]

theorem stPos_at (N i j k l : Nat) :
    stPos N (stSort N i j k l) = symAt (N * N) (N * i + j) (N * k + l) := by
  have h : ∀ a b c d, stPos N (a, b, c, d) = symAt (N * N) (N * a + b) (N * c + d) := by
    intro a b c d
    rw [stPos, symPos_sort _ _ _ (sq_ne_three N), Nat.add_comm b, Nat.add_comm d]
  unfold stSort
  split
  · rw [h, symAt_comm]
  · rw [h]

theorem stGet_sym (N : Nat) (a : Store K) (i j k l : Nat) :
    stGet N a i j k l = symGet (N * N) a (N * i + j) (N * k + l) := by
  rw [stGet, stPos_at]; rfl

theorem stSize_eq (N : Nat) : stSize N = symSize (N * N) := by rw [symSize_eq]; rfl

theorem stDup_eq (N c : Nat) : stDup N c = symDup (N * N) c := by
  rw [stDup, symDup, if_neg (sq_ne_three N)]

theorem stIndex_eq {N c : Nat} (hc : c < symSize (N * N)) :
    stIndex N c = ((symIndex (N * N) c).1 / N, (symIndex (N * N) c).1 % N,
      (symIndex (N * N) c).2 / N, (symIndex (N * N) c).2 % N) := by
  obtain ⟨h1, -, -⟩ := sym_pos_index hc
  have e : ∀ x, x % N + x / N * N = x := fun x => by rw [Nat.mul_comm]; exact Nat.mod_add_div x N
  rw [stIndex, stSort, if_neg]
  rw [e, e]; omega

theorem stFill_get [Zero K] {N i j k l : Nat} (g : Nat × Nat × Nat × Nat → K)
    (hg : ∀ i j k l, i < N → j < N → k < N → l < N → g (i, j, k, l) = g (k, l, i, j))
    (hi : i < N) (hj : j < N) (hk : k < N) (hl : l < N) :
    stGet N (stFill N g) i j k l = g (i, j, k, l) := by
  have hf : ∀ c < symSize (N * N), stFill N g c
      = symFill (N * N) (fun q => g (q.1 / N, q.1 % N, q.2 / N, q.2 % N)) c := by
    intro c hc
    rw [stFill, symFill, writes_range (fun c => g (stIndex N c)) _ (by rwa [stSize_eq]),
      writes_range (fun c => (fun q : Nat × Nat => g (q.1 / N, q.1 % N, q.2 / N, q.2 % N))
        (symIndex (N * N) c)) _ hc, stIndex_eq hc]
  rw [stGet_sym, symGet, hf _ (symAt_lt (pair_lt hi hj) (pair_lt hk hl))]
  have hN : 0 < N := by omega
  refine (symFill_within (N := N * N) (fun q => g (q.1 / N, q.1 % N, q.2 / N, q.2 % N))
    (fun I J hI hJ => hg _ _ _ _ (Nat.div_lt_of_lt_mul hI) (Nat.mod_lt _ hN)
      (Nat.div_lt_of_lt_mul hJ) (Nat.mod_lt _ hN)) (pair_lt hi hj) (pair_lt hk hl)).trans ?_
  simp only [pos_div hj, pos_mod hj, pos_div hl, pos_mod hl]

theorem tenPairs_get [Field K] {N i j k l : Nat} (g : Nat → Nat → K) (hg : ∀ I J, g I J = g J I)
    (hi : i < N) (hj : j < N) (hk : k < N) (hl : l < N) :
    tenGet N (tenPairs N g) i j k l = g (N * i + j) (N * k + l) := by
  rw [tenGet_mtx, tenPairs]
  have e : ∀ I J, I + N * N * J = N * N * J + I := fun I J => Nat.add_comm _ _
  simp only [e]
  rw [upper2_get (fun q => g q.1 q.2) (pair_lt hi hj) (pair_lt hk hl)]
  rcases symSort_cases (N * i + j) (N * k + l) with h | h <;> rw [h]
  exact hg _ _

/-! ## `SymTensor4Rank<N>` and `Tensor4Rank<N>` -/

/-- Two quadruples of indices share a stored entry exactly when they are equal or the pairs are swapped;
the entry lies in the array. -/
theorem st_shared {N i j k l i' j' k' l' : Nat} (hi : i < N) (hj : j < N) (hk : k < N) (hl : l < N)
    (hi' : i' < N) (hj' : j' < N) (hk' : k' < N) (hl' : l' < N) :
    stPos N (stSort N i j k l) < stSize N ∧
    (stPos N (stSort N i j k l) = stPos N (stSort N i' j' k' l') ↔
      (i, j, k, l) = (i', j', k', l') ∨ (i, j, k, l) = (k', l', i', j')) := by
  rw [stPos_at, stPos_at, stSize_eq]
  refine ⟨symAt_lt (pair_lt hi hj) (pair_lt hk hl), ?_⟩
  rw [symAt_eq_iff (pair_lt hi hj) (pair_lt hk hl) (pair_lt hi' hj') (pair_lt hk' hl'),
    pos_inj hj hj', pos_inj hl hl', pos_inj hj hl', pos_inj hl hj']
  simp only [Prod.mk.injEq]
  tauto

example : stPos 2 (stSort 2 1 0 0 1) = stPos 2 (stSort 2 0 1 1 0) ∧
    stPos 2 (stSort 2 1 0 0 1) ≠ stPos 2 (stSort 2 1 0 1 0) := by decide +kernel

/-- Every stored entry has the indices that lead to it. -/
theorem st_index {N c : Nat} (hc : c < stSize N) :
    stPos N (stIndex N c) = c ∧ (stIndex N c).1 < N ∧ (stIndex N c).2.1 < N ∧ (stIndex N c).2.2.1 < N ∧
      (stIndex N c).2.2.2 < N := by
  rw [stSize_eq] at hc
  obtain ⟨h1, h2, h3⟩ := sym_pos_index hc
  have hN : 0 < N := by
    rcases Nat.eq_zero_or_pos N with h | h
    · subst h; simp at h2
    · exact h
  have e : ∀ x, x % N + N * (x / N) = x := fun x => Nat.mod_add_div x N
  rw [stIndex_eq hc]
  refine ⟨?_, Nat.div_lt_of_lt_mul (by omega), Nat.mod_lt _ hN, Nat.div_lt_of_lt_mul h2, Nat.mod_lt _ hN⟩
  rw [stPos]
  simp only [e]
  rw [symSort_lt h1]; exact h3

/-- `TensorSquare` and `TensorSymMul2` of matrices, in all storages, are the tensor products. -/
theorem products [Field K] {N i j k l : Nat} (f s : Store K) (hi : i < N) (hj : j < N) (hk : k < N)
    (hl : l < N) :
    tenGet N (tenSquare N s) i j k l = mtxGet N s i j * mtxGet N s k l ∧
    stGet N (stSquare N s) i j k l = mtxGet N s i j * mtxGet N s k l ∧
    tenGet N (tenSquareSym N s) i j k l = symGet N s i j * symGet N s k l ∧
    stGet N (stSquareSym N s) i j k l = symGet N s i j * symGet N s k l ∧
    tenGet N (tenSymMul2 N f s) i j k l = mtxGet N f i j * mtxGet N s k l + mtxGet N s i j * mtxGet N f k l ∧
    stGet N (stSymMul2 N f s) i j k l = mtxGet N f i j * mtxGet N s k l + mtxGet N s i j * mtxGet N f k l ∧
    tenGet N (tenSymMul2Sym N f s) i j k l
      = symGet N f i j * symGet N s k l + symGet N s i j * symGet N f k l ∧
    stGet N (stSymMul2Sym N f s) i j k l
      = symGet N f i j * symGet N s k l + symGet N s i j * symGet N f k l := by
  refine ⟨?_, ?_, ?_, ?_, ?_, ?_, ?_, ?_⟩
  · exact tenPairs_get (fun I J => s I * s J) (fun _ _ => mul_comm _ _) hi hj hk hl
  · exact stFill_get (fun q => mtxGet N s q.1 q.2.1 * mtxGet N s q.2.2.1 q.2.2.2)
      (fun _ _ _ _ _ _ _ _ => mul_comm _ _) hi hj hk hl
  · rw [tenSquareSym, tenPairs_get _ (fun _ _ => mul_comm _ _) hi hj hk hl,
      pos_div hj, pos_mod hj, pos_div hl, pos_mod hl]
  · exact stFill_get (fun q => symGet N s q.1 q.2.1 * symGet N s q.2.2.1 q.2.2.2)
      (fun _ _ _ _ _ _ _ _ => mul_comm _ _) hi hj hk hl
  · exact tenPairs_get (fun I J => f I * s J + s I * f J) (fun I J => by ring) hi hj hk hl
  · exact stFill_get (fun q => mtxGet N f q.1 q.2.1 * mtxGet N s q.2.2.1 q.2.2.2
      + mtxGet N s q.1 q.2.1 * mtxGet N f q.2.2.1 q.2.2.2) (fun _ _ _ _ _ _ _ _ => by ring) hi hj hk hl
  · rw [tenSymMul2Sym, tenPairs_get _ (fun _ _ => by ring) hi hj hk hl,
      pos_div hj, pos_mod hj, pos_div hl, pos_mod hl]
  · exact stFill_get (fun q => symGet N f q.1 q.2.1 * symGet N s q.2.2.1 q.2.2.2
      + symGet N s q.1 q.2.1 * symGet N f q.2.2.1 q.2.2.2) (fun _ _ _ _ _ _ _ _ => by ring) hi hj hk hl

example : stGet 2 (stSquare 2 fun c => (c : ℚ) + 1) 1 0 0 1 = 6 := by
  rw [(products (N := 2) (fun _ => 0) _ (by norm_num) (by norm_num) (by norm_num) (by norm_num)).2.1]
  norm_num [mtxGet]

/-- `Dot` is the full contraction. -/
theorem dots [Field K] (N : Nat) (a b : Store K) :
    (tenDot N a b = ∑ i ∈ range N, ∑ j ∈ range N, ∑ k ∈ range N, ∑ l ∈ range N,
      tenGet N a i j k l * tenGet N b i j k l) ∧
    (stDot N a b = ∑ i ∈ range N, ∑ j ∈ range N, ∑ k ∈ range N, ∑ l ∈ range N,
      stGet N a i j k l * stGet N b i j k l) := by
  constructor
  · have h := mtxDot_eq (N * N) a b
    rw [mtxDot, ← Nat.mul_assoc] at h
    rw [tenDot, h, sum_range_mul]
    refine Finset.sum_congr rfl fun i _ => Finset.sum_congr rfl fun j _ => ?_
    rw [sum_range_mul]
    simp only [tenGet_mtx]
  · have h := symDot_eq (N * N) a b
    have e : stDot N a b = symDot (N * N) a b := by
      rw [stDot, symDot, stSize_eq]
      simp only [stDup_eq]
    rw [e, h, sum_range_mul]
    refine Finset.sum_congr rfl fun i _ => Finset.sum_congr rfl fun j _ => ?_
    rw [sum_range_mul]
    simp only [stGet_sym]

/-- The conversion to the general storage keeps the entries. -/
theorem stToTen_get [Field K] {N i j k l : Nat} (v : Store K)
    (hi : i < N) (hj : j < N) (hk : k < N) (hl : l < N) :
    tenGet N (stToTen N v) i j k l = stGet N v i j k l := by
  rw [tenGet_mtx, stGet_sym, ← symToMtx_get v (pair_lt hi hj) (pair_lt hk hl)]
  congr 1
  rw [stToTen, symToMtx, stSize_eq]
  congr 1
  simp only [List.flatMap]
  congr 1
  refine List.map_congr_left fun c hc => ?_
  have hc := List.mem_range.mp hc
  have e : ∀ x, x % N + N * (x / N) = x := fun x => Nat.mod_add_div x N
  simp only [stIndex_eq hc]
  generalize (symIndex (N * N) c).1 = I
  generalize (symIndex (N * N) c).2 = J
  have p : ∀ I J, I % N + N * (I / N + N * (J % N + N * (J / N))) = N * N * J + I := by
    intro I J
    rw [e J]
    have := e I
    calc I % N + N * (I / N + N * J) = (I % N + N * (I / N)) + N * N * J := by ring
      _ = N * N * J + I := by rw [this]; ring
  rw [p I J, p J I]

/-- The conversion from the general storage keeps the entries of a tensor with the symmetry of pairs. -/
theorem tenToSt_get [Field K] {N i j k l : Nat} (r : Store K)
    (hr : ∀ i j k l, i < N → j < N → k < N → l < N → tenGet N r i j k l = tenGet N r k l i j)
    (hi : i < N) (hj : j < N) (hk : k < N) (hl : l < N) :
    stGet N (tenToSt N r) i j k l = tenGet N r i j k l :=
  stFill_get (fun q => tenGet N r q.1 q.2.1 q.2.2.1 q.2.2.2) hr hi hj hk hl

/-- A tensor survives the way to the general storage and back. -/
theorem st_round_trip [Field K] {N i j k l : Nat} (v : Store K)
    (hi : i < N) (hj : j < N) (hk : k < N) (hl : l < N) :
    stGet N (tenToSt N (stToTen N v)) i j k l = stGet N v i j k l := by
  have h : ∀ i j k l, i < N → j < N → k < N → l < N →
      tenGet N (stToTen N v) i j k l = stGet N v i j k l := fun i j k l hi hj hk hl =>
    (stToTen_get v hi hj hk hl)
  have hs : ∀ i j k l, i < N → j < N → k < N → l < N →
      tenGet N (stToTen N v) i j k l = tenGet N (stToTen N v) k l i j := by
    intro i j k l hi hj hk hl
    rw [h i j k l hi hj hk hl, h k l i j hk hl hi hj, stGet_sym, stGet_sym, symGet, symAt_comm]; rfl
  rw [tenToSt_get _ hs hi hj hk hl, h i j k l hi hj hk hl]

/-! ## `BiSymTensor4Rank` -/

/-- The generic numbering of the stored entries gives one number to quadruples exactly when they are
related by the symmetries of the tensor. -/
theorem bs_shared {N i j k l i' j' k' l' : Nat} (hN : N ≠ 3) (hN2 : N ≠ 2)
    (hi : i < N) (hj : j < N) (hk : k < N) (hl : l < N)
    (hi' : i' < N) (hj' : j' < N) (hk' : k' < N) (hl' : l' < N) :
    bsPosGen N (i, j, k, l) < bsSize N ∧
    (bsPosGen N (i, j, k, l) = bsPosGen N (i', j', k', l') ↔
      (((i = i' ∧ j = j') ∨ (i = j' ∧ j = i')) ∧ ((k = k' ∧ l = l') ∨ (k = l' ∧ l = k'))) ∨
      (((i = k' ∧ j = l') ∨ (i = l' ∧ j = k')) ∧ ((k = i' ∧ l = j') ∨ (k = j' ∧ l = i')))) := by
  have hM : N * (N + 1) / 2 ≠ 3 := by
    rcases Nat.lt_or_ge N 4 with h | h
    · interval_cases N <;> omega
    · have : 20 ≤ N * (N + 1) := Nat.mul_le_mul (by omega) (by omega : 5 ≤ N + 1)
      omega
  have p : ∀ a b c d, bsPosGen N (a, b, c, d)
      = symAt (N * (N + 1) / 2) (symAt N a b) (symAt N c d) := by
    intro a b c d
    simp only [bsPosGen]
    rw [symPos_sort _ _ _ hM, symPos_sort _ _ _ hN, symPos_sort _ _ _ hN]
  have q : ∀ {a b}, a < N → b < N → symAt N a b < N * (N + 1) / 2 := fun ha hb => by
    rw [← symSize_eq]; exact symAt_lt ha hb
  rw [p, p]
  constructor
  · have := symAt_lt (q hi hj) (q hk hl)
    rw [symSize_eq] at this
    exact this
  · rw [symAt_eq_iff (q hi hj) (q hk hl) (q hi' hj') (q hk' hl'), symAt_eq_iff hi hj hi' hj',
      symAt_eq_iff hk hl hk' hl', symAt_eq_iff hi hj hk' hl', symAt_eq_iff hk hl hi' hj']

example : bsPosGen 4 (2, 1, 0, 3) = bsPosGen 4 (3, 0, 1, 2) ∧
    bsPosGen 4 (2, 1, 0, 3) ≠ bsPosGen 4 (2, 0, 1, 3) := by decide +kernel

/-- The generic inverse numbering repeats an index: it sends the second stored entry, which belongs to
the indices `0, 0, 0, 1`, to `0, 0, 0, 0`, in every dimension from two on. -/
theorem bsIndex_wrong {N : Nat} (hN : N ≠ 3) (h2 : 2 ≤ N) :
    bsPosGen N (0, 0, 0, 1) = 1 ∧ bsIndexGen N 1 = (0, 0, 0, 0) := by
  have h01 : symAt N 0 1 = 1 := by simp [symAt, hN, symSort, symPosGen]
  have h00 : symAt N 0 0 = 0 := by simp [symAt, hN, symSort, symPosGen]
  have hM : 3 ≤ N * (N + 1) / 2 := by
    have : 2 * 3 ≤ N * (N + 1) := Nat.mul_le_mul h2 (by omega)
    omega
  have p : symPos (N * (N + 1) / 2) (0, 1) = 1 := by
    rw [symPos]; split <;> simp [sym3Pos, symPosGen]
  have i1 : symIndex (N * (N + 1) / 2) 1 = (0, 1) := by
    have := sym_index_pos (N := N * (N + 1) / 2) (i := 0) (j := 1) (by omega) (by omega)
    rwa [p] at this
  have i0 : symIndex N 0 = (0, 0) := by
    have := sym_index_pos (N := N) (i := 0) (j := 0) (by omega) (by omega)
    rwa [← symAt_le (by omega) (by omega), h00] at this
  have i1' : symIndex N 1 = (0, 1) := by
    have := sym_index_pos (N := N) (i := 0) (j := 1) (by omega) (by omega)
    rwa [← symAt_le (by omega) (by omega), h01] at this
  constructor
  · simp only [bsPosGen]
    rw [symPos_sort _ _ _ hN, symPos_sort _ _ _ hN, h00, h01, symSort_lt (by omega)]
    exact p
  · simp [bsIndexGen, i1, i0, i1', bsSort, symSort]

/-! ## `BiSymTensor4Rank<3>` -/

/-- The entry of every quadruple of indices lies in the array, and its table entry is the sorted
quadruple. -/
theorem bs3_index (i j k l : Fin 3) :
    bs3Pos (bsSort i j k l) < 21 ∧ bs3Index (bs3Pos (bsSort i j k l)) = bsSort i j k l := by
  revert i j k l; decide +kernel

/-- Two quadruples share a stored entry exactly when the symmetries of the tensor relate them. -/
theorem bs3_shared (i j k l i' j' k' l' : Fin 3) :
    bs3Pos (bsSort i j k l) = bs3Pos (bsSort i' j' k' l') ↔
      (((i = i' ∧ j = j') ∨ (i = j' ∧ j = i')) ∧ ((k = k' ∧ l = l') ∨ (k = l' ∧ l = k'))) ∨
      (((i = k' ∧ j = l') ∨ (i = l' ∧ j = k')) ∧ ((k = i' ∧ l = j') ∨ (k = j' ∧ l = i'))) := by
  have h : ∀ i j k l : Fin 3, bs3Pos (bsSort i j k l)
      = symAt 6 (symAt 3 i j) (symAt 3 k l) := by decide +kernel
  have q : ∀ i j : Fin 3, symAt 3 i j < 6 := fun i j => symAt_lt (N := 3) i.2 j.2
  rw [h, h, symAt_eq_iff (q i j) (q k l) (q i' j') (q k' l'), symAt_eq_iff i.2 j.2 i'.2 j'.2,
    symAt_eq_iff k.2 l.2 k'.2 l'.2, symAt_eq_iff i.2 j.2 k'.2 l'.2, symAt_eq_iff k.2 l.2 i'.2 j'.2]
  simp only [Fin.ext_iff]

/-- `index_duplication` is the number of quadruples that share the stored entry. -/
theorem bs3Dup_count (c : Fin 21) :
    bs3Dup c = #{q : Fin 3 × Fin 3 × Fin 3 × Fin 3 | bs3Pos (bsSort q.1 q.2.1 q.2.2.1 q.2.2.2) = c} := by
  revert c; decide +kernel

theorem bs3Fill_get [Zero K] (g : Nat × Nat × Nat × Nat → K)
    (h1 : ∀ i j k l : Fin 3, g (i, j, k, l) = g (j, i, k, l))
    (h2 : ∀ i j k l : Fin 3, g (i, j, k, l) = g (k, l, i, j))
    (i j k l : Fin 3) : bs3Get (bs3Fill g) i j k l = g (i, j, k, l) := by
  rw [bs3Get, bs3Fill, writes_range (fun c => g (bs3Index c)) _ (bs3_index i j k l).1, (bs3_index i j k l).2]
  have h3 : ∀ i j k l : Fin 3, g (i, j, k, l) = g (i, j, l, k) := fun i j k l => by
    rw [h2, h1, h2]
  have key : ∀ p q : Nat × Nat, (p = (↑i, ↑j) ∨ p = (↑j, ↑i)) → (q = (↑k, ↑l) ∨ q = (↑l, ↑k)) →
      g (p.1, p.2, q.1, q.2) = g (i, j, k, l) := by
    rintro p q (rfl | rfl) (rfl | rfl)
    · rfl
    · exact h3 _ _ _ _
    · exact h1 _ _ _ _
    · rw [h1, h3]
  unfold bsSort
  simp only
  split
  · have key' : ∀ p q : Nat × Nat, (p = (↑i, ↑j) ∨ p = (↑j, ↑i)) → (q = (↑k, ↑l) ∨ q = (↑l, ↑k)) →
        g (q.1, q.2, p.1, p.2) = g (p.1, p.2, q.1, q.2) := by
      rintro p q (rfl | rfl) (rfl | rfl) <;> exact h2 _ _ _ _
    rw [key' _ _ (symSort_cases _ _) (symSort_cases _ _)]
    exact key _ _ (symSort_cases _ _) (symSort_cases _ _)
  · exact key _ _ (symSort_cases _ _) (symSort_cases _ _)

section
variable [Field K]

omit [Field K] in
theorem symGet_comm (N : Nat) (a : Store K) (i j : Nat) : symGet N a i j = symGet N a j i := by
  rw [symGet, symAt_comm]; rfl

theorem bs3Square_get (s : Store K) (i j k l : Fin 3) :
    bs3Get (bs3Square s) i j k l = symGet 3 s i j * symGet 3 s k l :=
  bs3Fill_get (fun q => symGet 3 s q.1 q.2.1 * symGet 3 s q.2.2.1 q.2.2.2)
    (fun i j k l => by simp only [symGet_comm 3 s i j]) (fun _ _ _ _ => mul_comm _ _) i j k l

theorem bs3SymMul2_get (f s : Store K) (i j k l : Fin 3) :
    bs3Get (bs3SymMul2 f s) i j k l = symGet 3 f i j * symGet 3 s k l + symGet 3 s i j * symGet 3 f k l :=
  bs3Fill_get (fun q => symGet 3 f q.1 q.2.1 * symGet 3 s q.2.2.1 q.2.2.2
      + symGet 3 s q.1 q.2.1 * symGet 3 f q.2.2.1 q.2.2.2)
    (fun i j k l => by simp only [symGet_comm 3 s i j, symGet_comm 3 f i j]) (fun _ _ _ _ => by ring) i j k l

/-- `Dot` is the contraction over all eighty-one quadruples. -/
theorem bs3Dot_eq (a b : Store K) :
    bs3Dot a b = ∑ q : Fin 3 × Fin 3 × Fin 3 × Fin 3,
      bs3Get a q.1 q.2.1 q.2.2.1 q.2.2.2 * bs3Get b q.1 q.2.1 q.2.2.1 q.2.2.2 := by
  have hmap : ∀ q ∈ (univ : Finset (Fin 3 × Fin 3 × Fin 3 × Fin 3)),
      bs3Pos (bsSort q.1 q.2.1 q.2.2.1 q.2.2.2) ∈ range 21 := fun q _ =>
    Finset.mem_range.mpr (bs3_index q.1 q.2.1 q.2.2.1 q.2.2.2).1
  rw [← Finset.sum_fiberwise_of_maps_to hmap, bs3Dot, total_eq, sum_range_list]
  refine Finset.sum_congr rfl fun c hc => ?_
  rw [bs3Dup_count ⟨c, Finset.mem_range.mp hc⟩, Finset.sum_congr rfl (g := fun _ => a c * b c)]
  · rw [Finset.sum_const, nsmul_eq_mul, mul_comm]
  · intro q hq
    rw [Finset.mem_filter] at hq
    simp only [bs3Get, hq.2]

/-- `Identity` is the identity on symmetric matrices. -/
theorem bs3Identity_get (h2 : (2 : K) ≠ 0) (val : K) (i j k l : Fin 3) :
    bs3Get (bs3Identity val) i j k l
      = val / 2 * ((if i = k ∧ j = l then 1 else 0) + (if i = l ∧ j = k then 1 else 0)) := by
  fin_cases i <;> fin_cases j <;> fin_cases k <;> fin_cases l <;>
    simp [bs3Get, bs3Pos, bsSort, symSort, bs3Identity, writes, Function.update, zeros] <;>
    (try field_simp) <;> (try norm_num)

/-- The conversion to a general tensor keeps the entries. -/
theorem bs3ToTen_get (v : Store K) (i j k l : Fin 3) :
    tenGet 3 (bs3ToTen v) i j k l = bs3Get v i j k l := by
  have hp : ∀ i j k l : Fin 3, (l + 3 * (k + 3 * (j + 3 * i)) : Nat) / 27 = i ∧
      (l + 3 * (k + 3 * (j + 3 * i)) : Nat) / 9 % 3 = j ∧ (l + 3 * (k + 3 * (j + 3 * i)) : Nat) / 3 % 3 = k ∧
      (l + 3 * (k + 3 * (j + 3 * i)) : Nat) % 3 = l := by
    intro i j k l; omega
  obtain ⟨e1, e2, e3, e4⟩ := hp i j k l
  rw [tenGet, bs3ToTen, writes_mem _ _
    (fun p => v (bs3Pos (bsSort (p / 27) (p / 9 % 3) (p / 3 % 3) (p % 3))))]
  · simp only [e1, e2, e3, e4]; rfl
  · have tab : ∀ c < 21, ∀ p ∈ (let (i, j, k, l) := bs3Index c
        let p := fun i j k l : Nat => l + 3 * (k + 3 * (j + 3 * i))
        [p k l i j, p i j k l, p k l j i, p j i k l, p l k i j, p i j l k, p l k j i, p j i l k]),
        bs3Pos (bsSort (p / 27) (p / 9 % 3) (p / 3 % 3) (p % 3)) = c := by decide +kernel
    intro w hw
    obtain ⟨c, hc, hw⟩ := List.mem_flatMap.mp hw
    have hc := List.mem_range.mp hc
    have t := tab c hc w.1
    have hw1 : w.2 = v c ∧ w.1 ∈ (let (i, j, k, l) := bs3Index c
        let p := fun i j k l : Nat => l + 3 * (k + 3 * (j + 3 * i))
        [p k l i j, p i j k l, p k l j i, p j i k l, p l k i j, p i j l k, p l k j i, p j i l k]) := by
      simp only [List.mem_cons, List.not_mem_nil, or_false] at hw ⊢
      rcases hw with rfl | rfl | rfl | rfl | rfl | rfl | rfl | rfl <;> simp
    rw [hw1.1, t hw1.2]
  · refine ⟨(_, v (bs3Pos (bsSort i j k l))), List.mem_flatMap.mpr
      ⟨bs3Pos (bsSort i j k l), List.mem_range.mpr (bs3_index i j k l).1, ?_⟩, rfl⟩
    have tab : ∀ i j k l : Fin 3, (l + 3 * (k + 3 * (j + 3 * i)) : Nat) ∈
        (let (i, j, k, l) := bs3Index (bs3Pos (bsSort i j k l))
        let p := fun i j k l : Nat => l + 3 * (k + 3 * (j + 3 * i))
        [p k l i j, p i j k l, p k l j i, p j i k l, p l k i j, p i j l k, p l k j i, p j i l k]) := by
      decide +kernel
    have := tab i j k l
    simp only [List.mem_cons, List.not_mem_nil, or_false, Prod.mk.injEq, and_true] at this ⊢
    exact this

/-- The conversion from a general tensor keeps the entries of a tensor with the symmetries. -/
theorem tenToBs3_get (r : Store K) (h1 : ∀ i j k l : Fin 3, tenGet 3 r i j k l = tenGet 3 r j i k l)
    (h2 : ∀ i j k l : Fin 3, tenGet 3 r i j k l = tenGet 3 r k l i j) (i j k l : Fin 3) :
    bs3Get (tenToBs3 r) i j k l = tenGet 3 r i j k l :=
  bs3Fill_get (fun q => tenGet 3 r q.1 q.2.1 q.2.2.1 q.2.2.2) h1 h2 i j k l

/-- The conversion to a tensor with the symmetry of pairs keeps the entries. -/
theorem bs3ToSt_get (v : Store K) (i j k l : Fin 3) :
    stGet 3 (bs3ToSt v) i j k l = bs3Get v i j k l := by
  -- the position in the larger array determines the position in the smaller one
  let back : Nat → Nat := fun p =>
    let q := symIndex 9 p
    bs3Pos (bsSort (q.1 / 3) (q.1 % 3) (q.2 / 3) (q.2 % 3))
  have hback : ∀ i j k l : Fin 3, back (stPos 3 (stSort 3 i j k l)) = bs3Pos (bsSort i j k l) := by
    decide +kernel
  rw [stGet, bs3ToSt, writes_mem _ _ (fun p => v (back p))]
  · rw [hback]; rfl
  · have tab : ∀ c < 21, ∀ p ∈ (let (i, j, k, l) := bs3Index c
        [stPos 3 (stSort 3 i j k l), stPos 3 (stSort 3 j i k l), stPos 3 (stSort 3 i j l k),
          stPos 3 (stSort 3 j i l k)]), back p = c := by decide +kernel
    intro w hw
    obtain ⟨c, hc, hw⟩ := List.mem_flatMap.mp hw
    have hc := List.mem_range.mp hc
    have t := tab c hc w.1
    have hw1 : w.2 = v c ∧ w.1 ∈ (let (i, j, k, l) := bs3Index c
        [stPos 3 (stSort 3 i j k l), stPos 3 (stSort 3 j i k l), stPos 3 (stSort 3 i j l k),
          stPos 3 (stSort 3 j i l k)]) := by
      simp only [List.mem_cons, List.not_mem_nil, or_false] at hw ⊢
      rcases hw with rfl | rfl | rfl | rfl <;> simp
    rw [hw1.1, t hw1.2]
  · refine ⟨(_, v (bs3Pos (bsSort i j k l))), List.mem_flatMap.mpr
      ⟨bs3Pos (bsSort i j k l), List.mem_range.mpr (bs3_index i j k l).1, ?_⟩, rfl⟩
    have tab : ∀ i j k l : Fin 3, stPos 3 (stSort 3 i j k l) ∈
        (let (i, j, k, l) := bs3Index (bs3Pos (bsSort i j k l))
        [stPos 3 (stSort 3 i j k l), stPos 3 (stSort 3 j i k l), stPos 3 (stSort 3 i j l k),
          stPos 3 (stSort 3 j i l k)]) := by decide +kernel
    have := tab i j k l
    simp only [List.mem_cons, List.not_mem_nil, or_false, Prod.mk.injEq, and_true] at this ⊢
    exact this

theorem stToBs3_get (r : Store K) (h1 : ∀ i j k l : Fin 3, stGet 3 r i j k l = stGet 3 r j i k l)
    (i j k l : Fin 3) : bs3Get (stToBs3 r) i j k l = stGet 3 r i j k l :=
  bs3Fill_get (fun q => stGet 3 r q.1 q.2.1 q.2.2.1 q.2.2.2) h1
    (fun i j k l => by simp only [stGet_sym]; exact symGet_comm _ _ _ _) i j k l

omit [Field K] in
/-- The entries read by a user have the symmetries of the tensor. -/
theorem bs3Get_symm (v : Store K) (i j k l : Fin 3) :
    bs3Get v i j k l = bs3Get v j i k l ∧ bs3Get v i j k l = bs3Get v k l i j := by
  have h : ∀ i j k l : Fin 3, bs3Pos (bsSort i j k l) = bs3Pos (bsSort j i k l) ∧
      bs3Pos (bsSort i j k l) = bs3Pos (bsSort k l i j) := by decide +kernel
  simp only [bs3Get]
  exact ⟨by rw [(h i j k l).1], by rw [(h i j k l).2]⟩

/-- A tensor survives the way to either of the larger storages and back. -/
theorem bs3_round_trip (v : Store K) (i j k l : Fin 3) :
    bs3Get (tenToBs3 (bs3ToTen v)) i j k l = bs3Get v i j k l ∧
      bs3Get (stToBs3 (bs3ToSt v)) i j k l = bs3Get v i j k l := by
  constructor
  · rw [tenToBs3_get, bs3ToTen_get]
    · intro i j k l; rw [bs3ToTen_get, bs3ToTen_get]; exact (bs3Get_symm v i j k l).1
    · intro i j k l; rw [bs3ToTen_get, bs3ToTen_get]; exact (bs3Get_symm v i j k l).2
  · rw [stToBs3_get, bs3ToSt_get]
    intro i j k l; rw [bs3ToSt_get, bs3ToSt_get]; exact (bs3Get_symm v i j k l).1

end

end Verif.Tensor
