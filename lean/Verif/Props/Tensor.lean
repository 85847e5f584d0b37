import Mathlib.LinearAlgebra.Matrix.Adjugate
import Mathlib.LinearAlgebra.Matrix.NonsingularInverse
import Mathlib.Tactic.FieldSimp
import Mathlib.Tactic.LinearCombination
import Verif.Lemmas.TensorMtx

/-! # C57: the packed physical matrices hold and combine the entries of true matrices

Every statement speaks of the entries that a user reads with `operator()`: `symGet N a i j` of a
`SymMtx<N>` and `mtxGet N a i j` of a `PhysMtx<N>`, and of ordinary finite sums over the indices. -/

namespace Verif.Tensor

open Finset

/-! ## Storage of symmetric matrices -/

/-- The number of a stored entry and its pair of indices determine one another, within the bounds of
the array, for every dimension. -/
theorem sym_numbering (N : Nat) :
    (∀ i j, i ≤ j → j < N → symPos N (i, j) < symSize N ∧ symIndex N (symPos N (i, j)) = (i, j)) ∧
    (∀ c, c < symSize N → (symIndex N c).1 ≤ (symIndex N c).2 ∧ (symIndex N c).2 < N ∧
      symPos N (symIndex N c) = c) :=
  ⟨fun _ _ h hj => ⟨symPos_lt h hj, sym_index_pos h hj⟩, fun _ hc => sym_pos_index hc⟩

example : symPos 4 (1, 3) = 6 ∧ symIndex 4 6 = (1, 3) ∧ symSize 4 = 10 := by decide +kernel

/-- Two pairs of indices share a stored entry exactly when they are equal or swapped, and the entry lies
in the array. -/
theorem sym_shared {N i j k l : Nat} (hi : i < N) (hj : j < N) (hk : k < N) (hl : l < N) :
    symAt N i j < symSize N ∧
      (symAt N i j = symAt N k l ↔ (i = k ∧ j = l) ∨ (i = l ∧ j = k)) :=
  ⟨symAt_lt hi hj, symAt_eq_iff hi hj hk hl⟩

example : symAt 5 4 1 = symAt 5 1 4 ∧ symAt 5 4 1 ≠ symAt 5 3 1 := by decide +kernel

/-- `index_duplication` is the number of pairs of indices that share the stored entry. -/
theorem symDup_count {N c : Nat} (hc : c < symSize N) :
    symDup N c = #{q ∈ range N ×ˢ range N | symAt N q.1 q.2 = c} := by
  obtain ⟨h1, h2, h3⟩ := sym_pos_index hc
  generalize hq : symIndex N c = q at *
  obtain ⟨i, j⟩ := q
  simp only at h1 h2
  have hset : ({q ∈ range N ×ˢ range N | symAt N q.1 q.2 = c} : Finset (Nat × Nat)) = {(i, j), (j, i)} := by
    ext ⟨k, l⟩
    simp only [Finset.mem_filter, Finset.mem_product, Finset.mem_range, Finset.mem_insert,
      Finset.mem_singleton, Prod.mk.injEq]
    constructor
    · rintro ⟨⟨hk, hl⟩, e⟩
      rw [← h3, ← symAt_le h1 h2, symAt_eq_iff hk hl (by omega) h2] at e
      omega
    · intro h
      have hk : k < N := by omega
      have hl : l < N := by omega
      refine ⟨⟨hk, hl⟩, ?_⟩
      rw [← h3, ← symAt_le h1 h2, symAt_eq_iff hk hl (by omega) h2]
      omega
  rw [hset, ← h3, symDup_at h1 h2]
  split
  · next h => subst h; simp
  · next h => rw [Finset.card_pair]; simp; omega

example : symDup 4 6 = 2 ∧ symDup 4 7 = 1 := by decide +kernel

section
variable {K : Type}

/-- The entries read by a user are symmetric and determine the array. -/
theorem symGet_full {N : Nat} (a b : Store K) :
    (∀ i j, symGet N a i j = symGet N a j i) ∧
    ((∀ i j, i < N → j < N → symGet N a i j = symGet N b i j) ↔ ∀ c, c < symSize N → a c = b c) := by
  refine ⟨fun i j => by rw [symGet, symAt_comm]; rfl, fun h c hc => ?_, fun h i j hi hj =>
    h _ (symAt_lt hi hj)⟩
  obtain ⟨h1, h2, h3⟩ := sym_pos_index hc
  have := h (symIndex N c).1 (symIndex N c).2 (by omega) h2
  simp only [symGet, symAt_le h1 h2] at this
  rw [← h3]; exact this

variable [Field K]

/-- The constructor from a lower triangle stored row by row reads the right entry of it. -/
theorem symOfLower_get {N i j : Nat} (arr : Store K) (h : j ≤ i) (hi : i < N) :
    symGet N (symOfLower N arr) i j = arr (i * (i + 1) / 2 + j) := by
  have hp : symAt N i j = (2 * N - 1 - j) * j / 2 + i := by
    rw [symAt_comm, symAt_le h hi, symPos_gen h hi]; rfl
  rw [symGet, hp, symOfLower]
  have key : ∀ V : Store K, (∀ a b, b ≤ a → a < N →
        arr (a * (a + 1) / 2 + b) = V (symPosGen N (b, a))) →
      writes ((List.range N).flatMap fun i => (List.range (i + 1)).map fun j =>
        ((2 * N - 1 - j) * j / 2 + i, arr (i * (i + 1) / 2 + j))) zeros (symPosGen N (j, i))
        = V (symPosGen N (j, i)) := by
    intro V hV
    refine writes_mem _ _ V (fun w hw => ?_) ⟨(symPosGen N (j, i), arr (i * (i + 1) / 2 + j)), ?_, rfl⟩
    · obtain ⟨a, ha, hw⟩ := List.mem_flatMap.mp hw
      obtain ⟨b, hb, rfl⟩ := List.mem_map.mp hw
      exact hV a b (by have := List.mem_range.mp hb; omega) (List.mem_range.mp ha)
    · refine List.mem_flatMap.mpr ⟨i, List.mem_range.mpr hi, List.mem_map.mpr ⟨j, ?_, rfl⟩⟩
      exact List.mem_range.mpr (by omega)
  have := key (fun p => arr (jmap N p * (jmap N p + 1) / 2 + imap N p)) (fun a b hb ha => by
    simp only [imap_at hb ha, jmap_at hb ha])
  simp only [imap_at h hi, jmap_at h hi] at this
  exact this

example (a b c d e f g h i j : K) :
    symGet 4 (symOfLower 4 fun n => [a, b, c, d, e, f, g, h, i, j].getD n 0) 2 1 = e :=
  symOfLower_get (N := 4) (i := 2) (j := 1) _ (by norm_num) (by norm_num)

/-! ## Operations of symmetric matrices -/

theorem symTensorSquare_get {N i j : Nat} (s : Store K) (hi : i < N) (hj : j < N) :
    symGet N (symTensorSquare N s) i j = s i * s j :=
  symFill_get (fun q => s q.1 * s q.2) (fun i j => mul_comm (s i) (s j)) hi hj

theorem symTensorSymMul2_get {N i j : Nat} (f s : Store K) (hi : i < N) (hj : j < N) :
    symGet N (symTensorSymMul2 N f s) i j = f i * s j + f j * s i :=
  symFill_get (fun q => f q.1 * s q.2 + f q.2 * s q.1) (fun i j => add_comm (f i * s j) (f j * s i)) hi hj

theorem sym3TensorSymMul2_get {i j : Nat} (f s : Store K) (hi : i < 3) (hj : j < 3) :
    symGet 3 (sym3TensorSymMul2 f s) i j = f i * s j + f j * s i := by
  interval_cases i <;> interval_cases j <;>
    simp [symGet, symAt, sym3TensorSymMul2, writes, Function.update] <;> ring

/-- `Dot` of two symmetric matrices is the full double contraction. -/
theorem symDot_eq (N : Nat) (a b : Store K) :
    symDot N a b = ∑ i ∈ range N, ∑ j ∈ range N, symGet N a i j * symGet N b i j := by
  rw [symDot, total_eq, sum_range_list,
    sum_sym N fun _ c => a c * b c * (symDup N c : K),
    sum_half N fun i j => symGet N a i j * symGet N b i j]
  refine Finset.sum_congr rfl fun i _ => Finset.sum_congr rfl fun j hj => ?_
  have hj := Finset.mem_range.mp hj
  split
  · next h =>
    rw [symDup_at h hj]
    split
    · simp [symGet, symAt_le h hj]
    · simp only [symGet, symAt_comm N j i, symAt_le h hj]; push_cast; ring
  · rfl

theorem symFrob_eq (N : Nat) (a : Store K) :
    symFrob N a = ∑ i ∈ range N, ∑ j ∈ range N, symGet N a i j ^ 2 := by
  have := symDot_eq N a a
  simp only [pow_two]
  exact this

theorem sym3Dot_eq (a b : Store K) :
    sym3Dot a b = ∑ i ∈ range 3, ∑ j ∈ range 3, symGet 3 a i j * symGet 3 b i j := by
  simp [Finset.sum_range_succ, sym3Dot, symGet, symAt]; ring

theorem sym3Frob_eq (a : Store K) :
    sym3Frob a = ∑ i ∈ range 3, ∑ j ∈ range 3, symGet 3 a i j ^ 2 := by
  have := sym3Dot_eq a a
  simp only [pow_two]
  exact this

/-- `Dot(f, s)` is the bilinear form of the matrix. -/
theorem symDotVec_eq (N : Nat) (a f s : Store K) :
    symDotVec N a f s = ∑ i ∈ range N, ∑ j ∈ range N, symGet N a i j * f i * s j := by
  rw [symDotVec, total_eq, sum_range_list]
  rw [sum_sym N fun q c => a c * if q.1 ≠ q.2 then f q.1 * s q.2 + f q.2 * s q.1 else f q.1 * s q.1,
    sum_half N fun i j => symGet N a i j * f i * s j]
  refine Finset.sum_congr rfl fun i _ => Finset.sum_congr rfl fun j hj => ?_
  have hj := Finset.mem_range.mp hj
  split
  · next h =>
    by_cases e : i = j
    · subst e; simp [symGet, symAt_le h hj, mul_assoc]
    · simp only [ne_eq, e, not_false_eq_true, if_true, if_false, symGet, symAt_comm N j i,
        symAt_le h hj]
      ring
  · rfl

theorem sym3DotVec_eq (a f s : Store K) :
    sym3DotVec a f s = ∑ i ∈ range 3, ∑ j ∈ range 3, symGet 3 a i j * f i * s j := by
  simp [Finset.sum_range_succ, sym3DotVec, symGet, symAt]; ring

theorem symTrace_eq (N : Nat) (a : Store K) :
    symTrace N a = ∑ i ∈ range N, symGet N a i i := by
  rw [symTrace, total_eq, sum_range_list]

theorem sym3Trace_eq (a : Store K) : sym3Trace a = ∑ i ∈ range 3, symGet 3 a i i := by
  simp [Finset.sum_range_succ, sym3Trace, symGet, symAt]

theorem symMul_get {N i : Nat} (a v : Store K) (hi : i < N) :
    symMul N a v i = ∑ j ∈ range N, symGet N a i j * v j :=
  rowSum_get (fun i j => symGet N a i j * v j) hi

theorem sym3Mul_get {i : Nat} (a v : Store K) (hi : i < 3) :
    sym3Mul a v i = ∑ j ∈ range 3, symGet 3 a i j * v j := by
  interval_cases i <;> simp [sym3Mul, writes, Function.update, Finset.sum_range_succ]

theorem symIdentity_get {N i j : Nat} (val : K) (hi : i < N) (hj : j < N) :
    symGet N (symIdentity N val) i j = if i = j then val else 0 := by
  rw [symGet, symIdentity, writes_apply _ _ (fun _ => val)]
  · by_cases e : i = j
    · subst e
      rw [if_pos, if_pos rfl]
      simp only [List.map_map, List.mem_map, List.mem_range, Function.comp_apply]
      exact ⟨i, hi, rfl⟩
    · rw [if_neg, if_neg e]
      · rfl
      · simp only [List.map_map, List.mem_map, List.mem_range, Function.comp_apply]
        rintro ⟨k, hk, h⟩
        rw [symAt_eq_iff hk hk hi hj] at h
        omega
  · intro w hw
    obtain ⟨k, -, rfl⟩ := List.mem_map.mp hw
    rfl

theorem sym3Identity_get {i j : Nat} (val : K) (hi : i < 3) (hj : j < 3) :
    symGet 3 (sym3Identity val) i j = if i = j then val else 0 := by
  interval_cases i <;> interval_cases j <;>
    simp [symGet, symAt, sym3Identity, writes, Function.update, zeros]

/-! ## The product of symmetric matrices -/

/-- What the product stores: the entries of the true product on and above the diagonal. -/
theorem symProd_get {N i j : Nat} (b a : Store K) (h : i ≤ j) (hj : j < N) :
    symGet N (symProd N b a) i j = ∑ k ∈ range N, symGet N b i k * symGet N a k j := by
  rw [symGet, symAt_le h hj, symProd, adds_apply, List.map_flatMap]
  simp only [zeros, zero_add, List.map_map, Function.comp_def]
  have e1 : (List.flatMap (fun q : Nat × Nat => List.map (fun k => if symAt N q.1 q.2 = symPos N (i, j)
        then symGet N b q.1 k * symGet N a q.2 k else 0) (List.range N)) (upper N)).sum
      = ((upper N).map fun q => if symAt N q.1 q.2 = symPos N (i, j) then
          ∑ k ∈ range N, symGet N b q.1 k * symGet N a q.2 k else 0).sum := by
    generalize upper N = L
    induction L with
    | nil => simp
    | cons q L ih =>
      rw [List.flatMap_cons, List.sum_append, ih, List.map_cons, List.sum_cons, sum_range_list]
      congr 1
      split <;> simp
  rw [e1]
  have e2 : ∀ G : Nat → Nat → K, ((upper N).map fun q => G q.1 q.2).sum
      = ∑ a ∈ range N, ∑ b ∈ range N, if a ≤ b then G a b else 0 := by
    intro G
    rw [upper, sum_flatMap, sum_range_list]
    refine Finset.sum_congr rfl fun x hx => ?_
    have hx := Finset.mem_range.mp hx
    rw [List.map_map, ← Finset.sum_filter]
    have : ({y ∈ range N | x ≤ y} : Finset Nat) = (List.range' x (N - x)).toFinset := by
      ext y; simp only [Finset.mem_filter, Finset.mem_range, List.mem_toFinset, List.mem_range'_1]
      omega
    rw [this, List.sum_toFinset _ (List.nodup_range')]
    rfl
  rw [e2 fun x y => if symAt N x y = symPos N (i, j) then
    ∑ k ∈ range N, symGet N b x k * symGet N a y k else 0]
  rw [Finset.sum_eq_single i]
  · rw [Finset.sum_eq_single j]
    · rw [if_pos h, if_pos (symAt_le h hj)]
      refine Finset.sum_congr rfl fun k _ => ?_
      simp only [symGet, symAt_comm N j k]
    · intro y hy hne
      have hy := Finset.mem_range.mp hy
      split
      · next hle =>
        rw [if_neg]
        intro e
        rw [symAt_le hle hy, symPos_gen hle hy, symPos_gen h hj] at e
        exact hne (symPosGen_inj hle hy h hj e).2
      · rfl
    · intro hn; exact absurd (Finset.mem_range.mpr hj) hn
  · intro x _ hne
    refine Finset.sum_eq_zero fun y hy => ?_
    have hy := Finset.mem_range.mp hy
    split
    · next hle =>
      rw [if_neg]
      intro e
      rw [symAt_le hle hy, symPos_gen hle hy, symPos_gen h hj] at e
      exact hne (symPosGen_inj hle hy h hj e).1
    · rfl
  · intro hn; exact absurd (Finset.mem_range.mpr (by omega)) hn

/-- The product is the matrix product exactly when the two matrices commute; otherwise the entries below
the diagonal are those above it. -/
theorem symProd_iff_partial {N : Nat} (b a : Store K) :
    (∀ i j, i < N → j < N →
      symGet N (symProd N b a) i j = ∑ k ∈ range N, symGet N b i k * symGet N a k j) ↔
    (∀ i j, i < N → j < N → ∑ k ∈ range N, symGet N b i k * symGet N a k j
      = ∑ k ∈ range N, symGet N a i k * symGet N b k j) := by
  have hs : ∀ (c : Store K) x y, symGet N c x y = symGet N c y x := fun c x y => by
    rw [symGet, symAt_comm]; rfl
  have hT : ∀ i j, ∑ k ∈ range N, symGet N a i k * symGet N b k j
      = ∑ k ∈ range N, symGet N b j k * symGet N a k i := fun i j =>
    Finset.sum_congr rfl fun k _ => by rw [mul_comm, hs a i k, hs b k j]
  constructor
  · intro h i j hi hj
    rw [hT, ← h i j hi hj, ← h j i hj hi, hs]
  · intro h i j hi hj
    rcases le_total i j with hl | hl
    · exact symProd_get b a hl hj
    · rw [hs, symProd_get b a hl hi, h j i hj hi, hT]

/-- There are symmetric matrices whose product the code gets wrong. -/
theorem symProd_wrong : ∃ b a : Store ℚ,
    symGet 2 (symProd 2 b a) 1 0 ≠ ∑ k ∈ range 2, symGet 2 b 1 k * symGet 2 a k 0 := by
  refine ⟨fun c => [1, 0, 2].getD c 0, fun c => [0, 1, 0].getD c 0, ?_⟩
  have e : symGet 2 (symProd 2 (fun c => [1, 0, 2].getD c 0) fun c => [0, 1, 0].getD c (0 : ℚ)) 1 0
      = symGet 2 (symProd 2 (fun c => [1, 0, 2].getD c 0) fun c => [0, 1, 0].getD c (0 : ℚ)) 0 1 := by
    rw [symGet, symAt_comm]; rfl
  rw [e, symProd_get _ _ (by norm_num) (by norm_num)]
  simp [Finset.sum_range_succ, symGet, symAt, symPosGen, symSort]

/-- In three dimensions the product stores the entries on and below the diagonal. -/
theorem sym3Prod_get {i j : Nat} (b a : Store K) (h : j ≤ i) (hi : i < 3) :
    symGet 3 (sym3Prod b a) i j = ∑ k ∈ range 3, symGet 3 b i k * symGet 3 a k j := by
  interval_cases i <;> interval_cases j <;>
    simp [symGet, symAt, sym3Prod, writes, Function.update, Finset.sum_range_succ]

theorem sym3Prod_wrong : ∃ b a : Store ℚ,
    symGet 3 (sym3Prod b a) 0 1 ≠ ∑ k ∈ range 3, symGet 3 b 0 k * symGet 3 a k 1 := by
  refine ⟨fun c => [1, 0, 0, 2, 0, 0].getD c 0, fun c => [0, 1, 0, 0, 0, 0].getD c 0, ?_⟩
  simp [symGet, symAt, sym3Prod, writes, Function.update, Finset.sum_range_succ]

/-! ## General matrices -/

theorem mtxOf_get {N i j : Nat} (src : Store K) (hi : i < N) (hj : j < N) :
    mtxGet N (mtxOf N src true) i j = src (N * i + j) ∧
      mtxGet N (mtxOf N src false) i j = src (i + N * j) := by
  constructor
  · simp only [mtxOf, if_true, mtxGet]
    refine writes_range src zeros ?_
    calc N * i + j < N * i + N := by omega
      _ = N * (i + 1) := by ring
      _ ≤ N * N := Nat.mul_le_mul_left _ hi
  · exact square_get (fun q => src (q.1 + N * q.2)) hi hj

theorem mtxTranspose_get {N i j : Nat} (a : Store K) (hi : i < N) (hj : j < N) :
    mtxGet N (mtxTranspose N a) i j = mtxGet N a j i := by
  rw [mtxTranspose, (mtxOf_get a hi hj).2, mtxGet, Nat.add_comm]

theorem mtxOfSym_get {N i j : Nat} (r : Store K) (hi : i < N) (hj : j < N) :
    mtxGet N (mtxOfSym N r) i j = symGet N r i j := by
  rw [mtxOfSym, upper2_get (fun q => symGet N r q.1 q.2) hi hj]
  rcases symSort_cases i j with h | h <;> rw [h]
  rw [symGet, symAt_comm]; rfl

/-- `Sym` is the symmetric part. -/
theorem mtxSym_get {N i j : Nat} (a : Store K) (hi : i < N) (hj : j < N) :
    symGet N (mtxSym N a) i j = (mtxGet N a i j + mtxGet N a j i) / 2 :=
  symFill_get (fun q => (mtxGet N a q.1 q.2 + mtxGet N a q.2 q.1) / 2)
    (fun i j => by simp only [add_comm]) hi hj

/-- The conversion to a symmetric matrix keeps the entries on and above the diagonal, hence all of them
when the matrix is symmetric. -/
theorem mtxToSym_get {N i j : Nat} (a : Store K) (h : i ≤ j) (hj : j < N) :
    symGet N (mtxToSym N a) i j = mtxGet N a i j := by
  rw [symGet, symAt_le h hj, mtxToSym, symFill, writes_range (fun c => _) _ (symPos_lt h hj)]
  simp only [sym_index_pos h hj]

/-- A symmetric matrix survives the way to a general one and back. -/
theorem sym_round_trip {N i j : Nat} (v : Store K) (hi : i < N) (hj : j < N) :
    mtxGet N (symToMtx N v) i j = symGet N v i j ∧
      symGet N (mtxToSym N (symToMtx N v)) i j = symGet N v i j := by
  refine ⟨symToMtx_get v hi hj, ?_⟩
  rcases le_total i j with h | h
  · rw [mtxToSym_get _ h hj, symToMtx_get v hi hj]
  · rw [symGet, symAt_comm]
    refine (mtxToSym_get (symToMtx N v) h hi).trans ?_
    rw [symToMtx_get v hj hi, symGet, symAt_comm]; rfl

theorem mtxTrace_eq (N : Nat) (a : Store K) :
    mtxTrace N a = ∑ i ∈ range N, mtxGet N a i i := by
  rw [mtxTrace, total_eq, sum_range_list]

theorem mtx3Trace_eq (a : Store K) : mtx3Trace a = ∑ i ∈ range 3, mtxGet 3 a i i := by
  simp [Finset.sum_range_succ, mtx3Trace]

theorem mtxDot_eq (N : Nat) (a b : Store K) :
    mtxDot N a b = ∑ i ∈ range N, ∑ j ∈ range N, mtxGet N a i j * mtxGet N b i j := by
  rw [mtxDot, total_eq, sum_range_list, sum_range_mul]
  simp only [mul_one, mtxGet]

theorem mtxFrob_eq (N : Nat) (a : Store K) :
    mtxFrob N a = ∑ i ∈ range N, ∑ j ∈ range N, mtxGet N a i j ^ 2 := by
  have := mtxDot_eq N a a
  simp only [pow_two]
  exact this

theorem mtxDotVec_eq (N : Nat) (a f s : Store K) :
    mtxDotVec N a f s = ∑ i ∈ range N, ∑ j ∈ range N, mtxGet N a i j * f i * s j := by
  rw [mtxDotVec, total_eq, sum_square]

theorem mtxMul_get {N i : Nat} (a v : Store K) (hi : i < N) :
    mtxMul N a v i = ∑ j ∈ range N, mtxGet N a i j * v j :=
  rowSum_get (fun i j => mtxGet N a i j * v j) hi

theorem mtx3Mul_get {i : Nat} (a v : Store K) (hi : i < 3) :
    mtx3Mul a v i = ∑ j ∈ range 3, mtxGet 3 a i j * v j := by
  rw [mtx3Mul, writes_range (fun i => mtxGet 3 a i 0 * v 0 + mtxGet 3 a i 1 * v 1 + mtxGet 3 a i 2 * v 2)
    _ hi]
  simp [Finset.sum_range_succ]

theorem mtxProd_get {N i j : Nat} (b a : Store K) (hi : i < N) (hj : j < N) :
    mtxGet N (mtxProd N b a) i j = ∑ k ∈ range N, mtxGet N b i k * mtxGet N a k j :=
  cube_get (fun i j k => mtxGet N b i k * mtxGet N a k j) hi hj

theorem mtx3Prod_get {i j : Nat} (m a : Store K) (hi : i < 3) (hj : j < 3) :
    mtxGet 3 (mtx3Prod m a) i j = ∑ k ∈ range 3, mtxGet 3 m i k * mtxGet 3 a k j := by
  rw [mtx3Prod, square_get (fun q => mtxGet 3 m q.1 0 * mtxGet 3 a 0 q.2
    + mtxGet 3 m q.1 1 * mtxGet 3 a 1 q.2 + mtxGet 3 m q.1 2 * mtxGet 3 a 2 q.2) hi hj]
  simp [Finset.sum_range_succ]

theorem mtxProdSym_get {N i j : Nat} (a b : Store K) (hi : i < N) (hj : j < N) :
    mtxGet N (mtxProdSym N a b) i j = ∑ k ∈ range N, mtxGet N a i k * symGet N b k j :=
  cube_get (fun i j k => mtxGet N a i k * symGet N b k j) hi hj

theorem symProdMtx_get {N i j : Nat} (a b : Store K) (hi : i < N) (hj : j < N) :
    mtxGet N (symProdMtx N a b) i j = ∑ k ∈ range N, symGet N a i k * mtxGet N b k j :=
  cube_get (fun i j k => symGet N a i k * mtxGet N b k j) hi hj

/-- Sums and differences of a general and a symmetric matrix. -/
theorem mixed_sums {N i j : Nat} (a b : Store K) (hi : i < N) (hj : j < N) :
    mtxGet N (mtxAddSym N a b) i j = mtxGet N a i j + symGet N b i j ∧
    mtxGet N (mtxSubSym N a b) i j = mtxGet N a i j - symGet N b i j ∧
    mtxGet N (symSubMtx N b a) i j = symGet N b i j - mtxGet N a i j :=
  ⟨mixed_get _ hi hj, mixed_get _ hi hj, mixed_get _ hi hj⟩

theorem mtxTensorSquare_get {N i j : Nat} (s : Store K) (hi : i < N) (hj : j < N) :
    mtxGet N (mtxTensorSquare N s) i j = s i * s j := by
  rw [mtxTensorSquare, upper2_get (fun q => s q.1 * s q.2) hi hj]
  rcases symSort_cases i j with h | h <;> rw [h]
  exact mul_comm _ _

theorem mtxTensorSymMul2_get {N i j : Nat} (f s : Store K) (hi : i < N) (hj : j < N) :
    mtxGet N (mtxTensorSymMul2 N f s) i j = f i * s j + f j * s i := by
  rw [mtxTensorSymMul2, upper2_get (fun q => f q.1 * s q.2 + f q.2 * s q.1) hi hj]
  rcases symSort_cases i j with h | h <;> rw [h]
  exact add_comm _ _

theorem mtxIdentity_get {N i j : Nat} (val : K) (hi : i < N) (hj : j < N) :
    mtxGet N (mtxIdentity N val) i j = if i = j then val else 0 := by
  rw [mtxGet, mtxIdentity, writes_apply _ _ (fun _ => val)]
  · by_cases e : i = j
    · subst e
      rw [if_pos, if_pos rfl]
      simp only [List.map_map, List.mem_map, List.mem_range, Function.comp_apply]
      exact ⟨i, hi, rfl⟩
    · rw [if_neg, if_neg e]
      · rfl
      · simp only [List.map_map, List.mem_map, List.mem_range, Function.comp_apply]
        rintro ⟨k, hk, h⟩
        rw [pos_inj hk hj] at h
        omega
  · intro w hw
    obtain ⟨k, -, rfl⟩ := List.mem_map.mp hw
    rfl

/-! ## Determinants, adjugates and inverses in three dimensions -/

theorem sym3Det_eq (a : Store K) :
    sym3Det a = Matrix.det (Matrix.of fun i j : Fin 3 => symGet 3 a i j) := by
  simp [sym3Det, Matrix.det_fin_three, symGet, symAt]; ring

theorem sym3Adj_eq (a : Store K) (i j : Fin 3) :
    symGet 3 (sym3Adj a) i j = Matrix.adjugate (Matrix.of fun i j : Fin 3 => symGet 3 a i j) i j := by
  fin_cases i <;> fin_cases j <;>
    simp [Matrix.adjugate_fin_three, symGet, symAt, sym3Adj, writes, Function.update] <;> ring

/-- The inverse of a symmetric matrix with non-zero determinant. -/
theorem sym3Inv_eq (a : Store K)
    (h : Matrix.det (Matrix.of fun i j : Fin 3 => symGet 3 a i j) ≠ 0) :
    (Matrix.of fun i j : Fin 3 => symGet 3 a i j) * (Matrix.of fun i j : Fin 3 => symGet 3 (sym3Inv a) i j) = 1 := by
  suffices e : (Matrix.of fun i j : Fin 3 => symGet 3 (sym3Inv a) i j)
      = (Matrix.of fun i j : Fin 3 => symGet 3 a i j)⁻¹ by
    rw [e]; exact Matrix.mul_nonsing_inv _ (isUnit_iff_ne_zero.mpr h)
  ext i j
  rw [Matrix.of_apply]
  have hd : symGet 3 a 0 0 * symGet 3 (sym3Adj a) 0 0 + symGet 3 a 0 1 * symGet 3 (sym3Adj a) 0 1
      + symGet 3 a 0 2 * symGet 3 (sym3Adj a) 0 2
      = Matrix.det (Matrix.of fun i j : Fin 3 => symGet 3 a i j) := by
    rw [← sym3Det_eq]
    simp [sym3Det, symGet, symAt, sym3Adj, writes, Function.update]; ring
  rw [Matrix.inv_def, Matrix.smul_apply, ← sym3Adj_eq, Ring.inverse_eq_inv, ← hd, smul_eq_mul]
  rw [symGet, sym3Inv]
  have hc : symAt 3 i j < 6 := symAt_lt (N := 3) i.2 j.2
  rw [writes_range (fun c => sym3Adj a c / (symGet 3 a 0 0 * symGet 3 (sym3Adj a) 0 0
    + symGet 3 a 0 1 * symGet 3 (sym3Adj a) 0 1 + symGet 3 a 0 2 * symGet 3 (sym3Adj a) 0 2)) _ hc]
  simp only [symGet]
  rw [div_eq_mul_inv, mul_comm]

theorem mtx3Det_eq (a : Store K) :
    mtx3Det a = Matrix.det (Matrix.of fun i j : Fin 3 => mtxGet 3 a i j) := by
  simp [mtx3Det, Matrix.det_fin_three]; ring

theorem mtx3Adj_eq (a : Store K) (i j : Fin 3) :
    mtxGet 3 (mtx3Adj a) i j = Matrix.adjugate (Matrix.of fun i j : Fin 3 => mtxGet 3 a i j) i j := by
  have h : mtxGet 3 (mtx3Adj a) i j = cof3 a j i := by
    fin_cases i <;> fin_cases j <;> rfl
  rw [h]
  fin_cases i <;> fin_cases j <;> simp [Matrix.adjugate_fin_three, cof3] <;> ring

/-- The inverse of a general matrix with non-zero determinant. -/
theorem mtx3Inv_eq (a : Store K)
    (h : Matrix.det (Matrix.of fun i j : Fin 3 => mtxGet 3 a i j) ≠ 0) :
    (Matrix.of fun i j : Fin 3 => mtxGet 3 a i j) * (Matrix.of fun i j : Fin 3 => mtxGet 3 (mtx3Inv a) i j) = 1 := by
  suffices e : (Matrix.of fun i j : Fin 3 => mtxGet 3 (mtx3Inv a) i j)
      = (Matrix.of fun i j : Fin 3 => mtxGet 3 a i j)⁻¹ by
    rw [e]; exact Matrix.mul_nonsing_inv _ (isUnit_iff_ne_zero.mpr h)
  ext i j
  rw [Matrix.of_apply]
  have hc : mtxGet 3 (mtx3Inv a) i j = cof3 a j i / mtx3Det a := by
    fin_cases i <;> fin_cases j <;> rfl
  have hadj : mtxGet 3 (mtx3Adj a) i j = cof3 a j i := by
    fin_cases i <;> fin_cases j <;> rfl
  rw [Matrix.inv_def, Matrix.smul_apply, ← mtx3Adj_eq, Ring.inverse_eq_inv, ← mtx3Det_eq, smul_eq_mul, hc,
    hadj, div_eq_mul_inv, mul_comm]

example : Matrix.det (Matrix.of fun i j : Fin 3 => symGet 3 (fun c => [2, 1, 0, 3, 1, 4].getD c (0 : ℚ)) i j)
    = 18 := by
  rw [← sym3Det_eq]; norm_num [sym3Det]

example : Matrix.det (Matrix.of fun i j : Fin 3 =>
    mtxGet 3 (fun c => [2, 1, 0, 0, 3, 1, 5, 0, 4].getD c (0 : ℚ)) i j) = 29 := by
  rw [← mtx3Det_eq]; norm_num [mtx3Det, mtxGet]

end

end Verif.Tensor
