import Verif.Model.NVector
import Mathlib.Tactic.Ring
import Mathlib.Tactic.Linarith
import Mathlib.Tactic.NormNum
import Mathlib.Algebra.Order.Field.Rat
import Mathlib.Tactic.FieldSimp

/-!
Properties C79 (the vector operations given to KINSOL) and C80 (matrix, linear solver and assembling functions given to KINSOL).
The specification is the documentation of `N_Vector`, `SUNMatrix` and `SUNLinearSolver`, repeated in `SUNNonlinearSolver.h`.
-/
set_option linter.unusedSectionVars false

namespace Verif.NVector

/-- specification of an entrywise operation: the first `n` entries of `z` become `g`, nothing else changes -/
def Writes {K : Type} (n z : Nat) (g : Nat → K) (s s' : Store K) : Prop :=
  (∀ j, j < n → s' z j = g j) ∧ ∀ v j, ¬ (v = z ∧ j < n) → s' v j = s v j

theorem loop_spec {K : Type} (z : Nat) (f : Nat → Store K → K) (body : Nat → Store K → Store K)
    (hb : ∀ i s, body i s = put s z i (f i s))
    (hf : ∀ i (s s' : Store K), (∀ v, s v i = s' v i) → f i s = f i s') (s : Store K) (n : Nat) :
    ∀ v j, loop n body s v j = if v = z ∧ j < n then f j s else s v j := by
  induction n with
  | zero => intro v j; simp [loop]
  | succ n ih =>
    intro v j
    have e : loop (n + 1) body s = body n (loop n body s) := by
      simp [loop, List.range_succ]
    rw [e, hb]
    have hn : f n (loop n body s) = f n s := by
      apply hf
      intro w
      rw [ih w n]
      simp
    simp only [put]
    by_cases h : v = z ∧ j = n
    · obtain ⟨rfl, rfl⟩ := h
      simp [hn]
    · rw [if_neg h, ih v j]
      by_cases h1 : v = z
      · have : j ≠ n := fun e => h ⟨h1, e⟩
        by_cases h2 : j < n
        · rw [if_pos ⟨h1, h2⟩, if_pos ⟨h1, by omega⟩]
        · rw [if_neg (fun h => h2 h.2), if_neg (fun h => by omega)]
      · rw [if_neg (fun h => h1 h.1), if_neg (fun h => h1 h.1)]

theorem loop_writes {K : Type} (z : Nat) (f : Nat → Store K → K) (body : Nat → Store K → Store K)
    (hb : ∀ i s, body i s = put s z i (f i s))
    (hf : ∀ i (s s' : Store K), (∀ v, s v i = s' v i) → f i s = f i s') (s : Store K) (n : Nat) :
    Writes n z (fun j => f j s) s (loop n body s) := by
  constructor
  · intro j h
    rw [loop_spec z f body hb hf]
    simp [h]
  · intro v j h
    rw [loop_spec z f body hb hf, if_neg h]

section
variable {K : Type} [Field K] [LinearOrder K]
variable (sz : Nat → Nat) (n : Nat) (s : Store K)

/-- **C79.** `z = a x + b y`, whichever of the vectors are the same -/
theorem linearSum_ok (a b : K) (x y z : Nat) (hx : sz x = n) (hy : sz y = n) (hz : sz z = n) :
    Writes n z (fun j => a * s x j + b * s y j) s (linearSum sz a x b y z s) := by
  have := loop_writes z (fun i (s : Store K) => a * s x i + b * s y i)
    (fun i s => put s z i (a * s x i + b * s y i)) (fun _ _ => rfl)
    (fun i s s' h => by simp [h]) s n
  simpa [linearSum, hx, hy, hz] using this

/-- the second vector is also the result -/
example : linearSum (fun _ => 2) (3 : ℚ) 0 5 1 1 (fun v j => (v : ℚ) + j) 1 1 = 3 * 1 + 5 * 2 := by
  rw [(linearSum_ok (fun _ => 2) 2 _ 3 5 0 1 1 rfl rfl rfl).1 1 (by decide)]; norm_num

/-- **C79.** `z = c` -/
theorem const_ok (c : K) (z : Nat) (hz : sz z = n) : Writes n z (fun _ => c) s (const sz c z s) := by
  have := loop_writes z (fun _ (_ : Store K) => c) (fun i s => put s z i c) (fun _ _ => rfl)
    (fun i s s' h => rfl) s n
  simpa [const, hz] using this

example : const (fun _ => 2) (7 : ℚ) 1 (fun v j => (v : ℚ) + j) 1 0 = 7 :=
  (const_ok (fun _ => 2) 2 _ 7 1 rfl).1 0 (by decide)

/-- **C79.** `z = x y` by entries -/
theorem prod_ok (x y z : Nat) (hx : sz x = n) (hy : sz y = n) (hz : sz z = n) :
    Writes n z (fun j => s x j * s y j) s (prod sz x y z s) := by
  have := loop_writes z (fun i (s : Store K) => s x i * s y i)
    (fun i s => put s z i (s x i * s y i)) (fun _ _ => rfl) (fun i s s' h => by simp [h]) s n
  simpa [prod, hx, hy, hz] using this

example : prod (fun _ => 2) 1 1 1 (fun v j => (v : ℚ) + j) 1 1 = 4 := by
  rw [(prod_ok (fun _ => 2) 2 _ 1 1 1 rfl rfl rfl).1 1 (by decide)]; norm_num

/-- **C79.** `z = x / y` by entries -/
theorem div_ok (x y z : Nat) (hx : sz x = n) (hy : sz y = n) (hz : sz z = n) :
    Writes n z (fun j => s x j / s y j) s (div sz x y z s) := by
  have := loop_writes z (fun i (s : Store K) => s x i / s y i)
    (fun i s => put s z i (s x i / s y i)) (fun _ _ => rfl) (fun i s s' h => by simp [h]) s n
  simpa [div, hx, hy, hz] using this

example : div (fun _ => 2) 3 1 1 (fun v j => (v : ℚ) + j) 1 1 = 2 := by
  rw [(div_ok (fun _ => 2) 2 _ 3 1 1 rfl rfl rfl).1 1 (by decide)]; norm_num

/-- **C79.** `z = c x`, in each of the three branches -/
theorem scale_ok (c : K) (x z : Nat) (hx : sz x = n) (hz : sz z = n) :
    Writes n z (fun j => c * s x j) s (scale sz c x z s) := by
  simp only [scale, hx, hz, min_self]
  by_cases h : z = x
  · subst h
    rw [if_pos rfl]
    have := loop_writes z (fun i (s : Store K) => s z i * c) (fun i s => put s z i (s z i * c))
      (fun _ _ => rfl) (fun i s s' h => by simp [h]) s n
    simpa [mul_comm] using this
  · rw [if_neg h]
    by_cases h1 : c = 1
    · subst h1
      rw [if_pos rfl]
      have := loop_writes z (fun i (s : Store K) => s x i) (fun i s => put s z i (s x i))
        (fun _ _ => rfl) (fun i s s' h => by simp [h]) s n
      simpa using this
    · rw [if_neg h1]
      exact loop_writes z (fun i (s : Store K) => c * s x i) (fun i s => put s z i (c * s x i))
        (fun _ _ => rfl) (fun i s s' h => by simp [h]) s n

example : scale (fun _ => 2) (5 : ℚ) 1 1 (fun v j => (v : ℚ) + j) 1 1 = 10 := by
  rw [(scale_ok (fun _ => 2) 2 _ 5 1 1 rfl rfl).1 1 (by decide)]; norm_num

/-- **C79.** `z = |x|` -/
theorem abs_ok (x z : Nat) (hx : sz x = n) (hz : sz z = n) :
    Writes n z (fun j => |s x j|) s (abs sz x z s) := by
  have := loop_writes z (fun i (s : Store K) => |s x i|)
    (fun i s => put s z i |s x i|) (fun _ _ => rfl) (fun i s s' h => by simp [h]) s n
  simpa [abs, hx, hz] using this

example : abs (fun _ => 2) 1 1 (fun v j => -((v : ℚ) + j)) 1 1 = 2 := by
  rw [(abs_ok (fun _ => 2) 2 _ 1 1 rfl rfl).1 1 (by decide)]; norm_num

/-- **C79.** `z = 1 / x` -/
theorem inv_ok (x z : Nat) (hx : sz x = n) (hz : sz z = n) :
    Writes n z (fun j => (s x j)⁻¹) s (inv sz x z s) := by
  have := loop_writes z (fun i (s : Store K) => 1 / s x i)
    (fun i s => put s z i (1 / s x i)) (fun _ _ => rfl) (fun i s s' h => by simp [h]) s n
  simpa [inv, hx, hz] using this

example : inv (fun _ => 2) 1 1 (fun v j => (v : ℚ) + j) 1 1 = 1 / 2 := by
  rw [(inv_ok (fun _ => 2) 2 _ 1 1 rfl rfl).1 1 (by decide)]; norm_num

/-- **C79.** `z = x + b` -/
theorem addConst_ok (b : K) (x z : Nat) (hx : sz x = n) (hz : sz z = n) :
    Writes n z (fun j => s x j + b) s (addConst sz x b z s) := by
  have := loop_writes z (fun i (s : Store K) => s x i + b)
    (fun i s => put s z i (s x i + b)) (fun _ _ => rfl) (fun i s s' h => by simp [h]) s n
  simpa [addConst, hx, hz] using this

example : addConst (fun _ => 2) 1 (9 : ℚ) 1 (fun v j => (v : ℚ) + j) 1 1 = 11 := by
  rw [(addConst_ok (fun _ => 2) 2 _ 9 1 1 rfl rfl).1 1 (by decide)]; norm_num

/-- **C79.** `z` is 1 where `|x| ≥ c` and 0 elsewhere -/
theorem compare_ok (c : K) (x z : Nat) (hx : sz x = n) (hz : sz z = n) :
    Writes n z (fun j => if |s x j| < c then 0 else 1) s (compare sz c x z s) := by
  have := loop_writes z (fun i (s : Store K) => if |s x i| ≥ c then (1 : K) else 0)
    (fun i s => put s z i (if |s x i| ≥ c then 1 else 0)) (fun _ _ => rfl) (fun i s s' h => by simp [h]) s n
  have e : (fun j => if |s x j| < c then (0 : K) else 1) = fun j => if |s x j| ≥ c then (1 : K) else 0 := by
    funext j
    by_cases h : |s x j| < c
    · rw [if_pos h, if_neg (not_le.mpr h)]
    · rw [if_neg h, if_pos (not_lt.mp h)]
  rw [e]
  simpa [compare, hx, hz] using this

example : compare (fun _ => 2) (2 : ℚ) 1 1 (fun v j => -((v : ℚ) + j)) 1 1 = 1 := by
  rw [(compare_ok (fun _ => 2) 2 _ 2 1 1 rfl rfl).1 1 (by decide)]; norm_num

theorem invTestLocal_spec (x z : Nat) (hx : sz x = n) (hz : sz z = n) :
    Writes n z (fun j => if s x j = 0 then s z j else (s x j)⁻¹) s (invTestLocal sz x z s).1 ∧
      ((invTestLocal sz x z s).2 = true ↔ ∀ j, j < n → s x j ≠ 0) := by
  simp only [invTestLocal, hx, hz, min_self]
  have key : ∀ m, (∀ v j, ((List.range m).foldl
      (fun (p : Store K × Bool) i => if p.1 x i = 0 then (p.1, false) else (put p.1 z i (1 / p.1 x i), p.2)) (s, true)).1 v j
        = if v = z ∧ j < m then (if s x j = 0 then s z j else (s x j)⁻¹) else s v j) ∧
      (((List.range m).foldl
      (fun (p : Store K × Bool) i => if p.1 x i = 0 then (p.1, false) else (put p.1 z i (1 / p.1 x i), p.2)) (s, true)).2 = true
        ↔ ∀ j, j < m → s x j ≠ 0) := by
    intro m
    induction m with
    | zero => exact ⟨fun v j => by simp, by simp⟩
    | succ m ih =>
      rw [List.range_succ, List.foldl_append]
      generalize (List.range m).foldl _ _ = p at ih ⊢
      obtain ⟨i1, i2⟩ := ih
      have hm : p.1 x m = s x m := by rw [i1]; simp
      simp only [List.foldl_cons, List.foldl_nil, hm]
      by_cases h0 : s x m = 0
      · rw [if_pos h0]
        refine ⟨fun v j => ?_, ?_⟩
        · rw [i1]
          by_cases hv : v = z
          · subst hv
            by_cases hj : j < m
            · simp [hj, Nat.lt_succ_of_lt hj]
            · by_cases e : j = m
              · subst e; simp [h0]
              · simp [hj, show ¬ j < m + 1 by omega]
          · simp [hv]
        · constructor
          · intro h; cases h
          · intro h; exact absurd h0 (h m (by omega))
      · rw [if_neg h0]
        refine ⟨fun v j => ?_, ?_⟩
        · simp only [put]
          by_cases hv : v = z
          · subst hv
            by_cases e : j = m
            · subst e; simp [h0]
            · rw [if_neg (fun h => e h.2), i1]
              by_cases hj : j < m
              · simp [hj, Nat.lt_succ_of_lt hj]
              · simp [hj, show ¬ j < m + 1 by omega]
          · rw [if_neg (fun h => hv h.1), i1]; simp [hv]
        · rw [i2]
          constructor
          · intro h j hj
            by_cases e : j = m
            · subst e; exact h0
            · exact h j (by omega)
          · intro h j hj; exact h j (by omega)
  obtain ⟨k1, k2⟩ := key n
  refine ⟨⟨fun j hj => ?_, fun v j hv => ?_⟩, k2⟩
  · rw [k1]; simp [hj]
  · rw [k1, if_neg hv]

/-- **C79.** the inverse with test: entries of `z` become the inverses where `x` is not 0 and stay elsewhere, on every process; the
answer is true iff no entry of any process is 0 -/
theorem invTest_ok (x z : Nat) (ps : List ((Nat → Nat) × Store K)) (h : ∀ p ∈ ps, p.1 x = p.1 z) :
    (∀ k (hk : k < ps.length), ∃ s', (invTest x z ps).1[k]? = some s' ∧
      Writes (ps[k].1 x) z (fun j => if ps[k].2 x j = 0 then ps[k].2 z j else (ps[k].2 x j)⁻¹) ps[k].2 s') ∧
    ((invTest x z ps).2 = true ↔ ∀ p ∈ ps, ∀ j, j < p.1 x → p.2 x j ≠ 0) := by
  constructor
  · intro k hk
    refine ⟨(invTestLocal ps[k].1 x z ps[k].2).1, by simp [invTest, hk], ?_⟩
    exact (invTestLocal_spec ps[k].1 _ ps[k].2 x z rfl (h _ (List.getElem_mem hk)).symm).1
  · simp only [invTest, List.all_eq_true]
    constructor
    · intro g p hp
      exact (invTestLocal_spec p.1 _ p.2 x z rfl (h _ hp).symm).2.mp (g p hp)
    · intro g p hp
      exact (invTestLocal_spec p.1 _ p.2 x z rfl (h _ hp).symm).2.mpr (g p hp)

/-- two processes, a zero on the second only: all are told -/
example : (invTest 0 1 [(fun _ => 2, fun _ _ => (4 : ℚ)), (fun _ => 2, fun _ j => (j : ℚ))]).2 ≠ true := by
  rw [Ne, (invTest_ok 0 1 _ (by simp)).2]
  intro h
  exact h (fun _ => 2, fun _ j => (j : ℚ)) (by simp) 0 (by simp) (by simp)

end

section
variable {K : Type} [Field K] [LinearOrder K] [IsStrictOrderedRing K]

/-- documentation of the constraints: 2 for positive, 1 for not negative, -1 for not positive, -2 for negative, 0 for none -/
def Satisfied (c x : K) : Prop :=
  (c = 2 → 0 < x) ∧ (c = 1 → 0 ≤ x) ∧ (c = -1 → x ≤ 0) ∧ (c = -2 → x < 0)

theorem violated_iff (c x : K) (hc : c = 2 ∨ c = 1 ∨ c = 0 ∨ c = -1 ∨ c = -2) :
    violated c x = true ↔ ¬ Satisfied c x := by
  unfold Satisfied violated
  have h2 : (2 : K) ≠ 0 := by norm_num
  rcases hc with rfl | rfl | rfl | rfl | rfl
  · have e1 : ¬ (2 : K) = 1 := by norm_num
    have e2 : ¬ (2 : K) = -1 := by norm_num
    have e3 : ¬ (2 : K) = -2 := by norm_num
    have a : |(2 : K)| = 2 := abs_of_pos (by norm_num)
    have g1 : (3 / 2 : K) < 2 := by norm_num
    have g2 : (1 / 2 : K) < 2 := by norm_num
    simp only [h2, if_false, decide_eq_true_eq, a, gt_iff_lt, g1, g2, true_and, e1, e2, e3, false_implies, and_true, true_implies]
    constructor
    · rintro (h | h) g <;> linarith
    · intro h; left; linarith
  · have e1 : ¬ (1 : K) = 2 := by norm_num
    have e2 : ¬ (1 : K) = -1 := by norm_num
    have e3 : ¬ (1 : K) = -2 := by norm_num
    have g1 : ¬ (3 / 2 : K) < 1 := by norm_num
    have g2 : (1 / 2 : K) < 1 := by norm_num
    simp only [one_ne_zero, if_false, decide_eq_true_eq, abs_one, gt_iff_lt, g1, g2, true_and, e1, e2, e3, false_implies, and_true,
      true_implies, false_and, false_or, mul_one, not_le]
  · have e1 : ¬ (0 : K) = 2 := by norm_num
    have e2 : ¬ (0 : K) = 1 := by norm_num
    have e3 : ¬ (0 : K) = -1 := by norm_num
    have e4 : ¬ (0 : K) = -2 := by norm_num
    simp [e1, e2, e3, e4]
  · have e0 : ¬ (-1 : K) = 0 := by norm_num
    have e1 : ¬ (-1 : K) = 2 := by norm_num
    have e2 : ¬ (-1 : K) = 1 := by norm_num
    have e3 : ¬ (-1 : K) = -2 := by norm_num
    have a : |(-1 : K)| = 1 := by simp
    have g1 : ¬ (3 / 2 : K) < 1 := by norm_num
    have g2 : (1 / 2 : K) < 1 := by norm_num
    simp only [e0, if_false, decide_eq_true_eq, a, gt_iff_lt, g1, g2, true_and, e1, e2, e3, false_implies, and_true,
      true_implies, false_and, false_or]
    constructor
    · intro h g; linarith
    · intro h; linarith
  · have e0 : ¬ (-2 : K) = 0 := by norm_num
    have e1 : ¬ (-2 : K) = 2 := by norm_num
    have e2 : ¬ (-2 : K) = 1 := by norm_num
    have e3 : ¬ (-2 : K) = -1 := by norm_num
    have a : |(-2 : K)| = 2 := by rw [abs_neg]; exact abs_of_pos (by norm_num)
    have g1 : (3 / 2 : K) < 2 := by norm_num
    have g2 : (1 / 2 : K) < 2 := by norm_num
    simp only [e0, if_false, decide_eq_true_eq, a, gt_iff_lt, g1, g2, true_and, e1, e2, e3, false_implies,
      true_implies]
    constructor
    · rintro (h | h) g <;> linarith
    · intro h; left; linarith

omit [IsStrictOrderedRing K] in
theorem constrMaskLocal_spec (sz : Nat → Nat) (n : Nat) (s : Store K) (c x m : Nat) (hc : sz c = n) (hx : sz x = n) (hm : sz m = n)
    (hmc : m ≠ c) (hmx : m ≠ x) :
    Writes n m (fun j => if violated (s c j) (s x j) then 1 else 0) s (constrMaskLocal sz c x m s).1 ∧
      ((constrMaskLocal sz c x m s).2 = true ↔ ∃ j, j < n ∧ violated (s c j) (s x j) = true) := by
  simp only [constrMaskLocal, hx, hc, hm, min_self]
  have key : ∀ k, (∀ v j, ((List.range k).foldl
      (fun (p : Store K × Bool) i => if violated (put p.1 m i 0 c i) (put p.1 m i 0 x i) then (put (put p.1 m i 0) m i 1, true)
        else (put p.1 m i 0, p.2)) (s, false)).1 v j
        = if v = m ∧ j < k then (if violated (s c j) (s x j) then 1 else 0) else s v j) ∧
      (((List.range k).foldl
      (fun (p : Store K × Bool) i => if violated (put p.1 m i 0 c i) (put p.1 m i 0 x i) then (put (put p.1 m i 0) m i 1, true)
        else (put p.1 m i 0, p.2)) (s, false)).2 = true
        ↔ ∃ j, j < k ∧ violated (s c j) (s x j) = true) := by
    intro k
    induction k with
    | zero => exact ⟨fun v j => by simp, by simp⟩
    | succ k ih =>
      rw [List.range_succ, List.foldl_append]
      generalize (List.range k).foldl _ _ = p at ih ⊢
      obtain ⟨i1, i2⟩ := ih
      have pc : put p.1 m k 0 c k = s c k := by simp [put, hmc.symm, i1]
      have px : put p.1 m k 0 x k = s x k := by simp [put, hmx.symm, i1]
      simp only [List.foldl_cons, List.foldl_nil, pc, px]
      by_cases h0 : violated (s c k) (s x k) = true
      · rw [if_pos h0]
        refine ⟨fun v j => ?_, ?_⟩
        · simp only [put]
          by_cases hv : v = m
          · subst hv
            by_cases e : j = k
            · subst e; simp [h0]
            · simp only [e, and_false, if_false, i1, true_and]
              by_cases hj : j < k
              · simp [hj, Nat.lt_succ_of_lt hj]
              · simp [hj, show ¬ j < k + 1 by omega]
          · simp [hv, i1]
        · exact ⟨fun _ => ⟨k, by omega, h0⟩, fun _ => rfl⟩
      · rw [if_neg h0]
        refine ⟨fun v j => ?_, ?_⟩
        · simp only [put]
          by_cases hv : v = m
          · subst hv
            by_cases e : j = k
            · subst e; simp [h0]
            · simp only [e, and_false, if_false, i1, true_and]
              by_cases hj : j < k
              · simp [hj, Nat.lt_succ_of_lt hj]
              · simp [hj, show ¬ j < k + 1 by omega]
          · simp [hv, i1]
        · rw [i2]
          constructor
          · rintro ⟨j, h, g⟩; exact ⟨j, by omega, g⟩
          · rintro ⟨j, h, g⟩
            refine ⟨j, ?_, g⟩
            rcases Nat.lt_succ_iff_lt_or_eq.mp h with h | rfl
            · exact h
            · exact absurd g h0
  obtain ⟨k1, k2⟩ := key n
  refine ⟨⟨fun j hj => ?_, fun v j hv => ?_⟩, k2⟩
  · rw [k1]; simp [hj]
  · rw [k1, if_neg hv]

open Classical in
/-- **C79.** the mask of constraints: 1 exactly where a constraint is violated; the answer on every process is true iff all constraints
on all processes are satisfied -/
theorem constrMask_ok (c x m : Nat) (ps : List ((Nat → Nat) × Store K)) (h : ∀ p ∈ ps, p.1 c = p.1 x ∧ p.1 m = p.1 x)
    (hmc : m ≠ c) (hmx : m ≠ x)
    (hv : ∀ p ∈ ps, ∀ j, j < p.1 x → p.2 c j = 2 ∨ p.2 c j = 1 ∨ p.2 c j = 0 ∨ p.2 c j = -1 ∨ p.2 c j = -2) :
    (∀ k (hk : k < ps.length), ∃ s', (constrMask c x m ps).1[k]? = some s' ∧
      Writes (ps[k].1 x) m (fun j => if Satisfied (ps[k].2 c j) (ps[k].2 x j) then 0 else 1) ps[k].2 s') ∧
    ((constrMask c x m ps).2 = true ↔ ∀ p ∈ ps, ∀ j, j < p.1 x → Satisfied (p.2 c j) (p.2 x j)) := by
  constructor
  · intro k hk
    refine ⟨(constrMaskLocal ps[k].1 c x m ps[k].2).1, by simp [constrMask, hk], ?_⟩
    have hp := h _ (List.getElem_mem hk)
    obtain ⟨w1, w2⟩ := (constrMaskLocal_spec ps[k].1 _ ps[k].2 c x m hp.1 rfl hp.2 hmc hmx).1
    refine ⟨fun j hj => ?_, w2⟩
    rw [w1 j hj]
    beta_reduce
    have q := violated_iff (ps[k].2 c j) (ps[k].2 x j) (hv _ (List.getElem_mem hk) j hj)
    by_cases g : Satisfied (ps[k].2 c j) (ps[k].2 x j)
    · rw [if_pos g, if_neg (fun t => q.mp t g)]
    · rw [if_neg g, if_pos (q.mpr g)]
  · have : (constrMask c x m ps).2 = true ↔ ∀ p ∈ ps, ¬ (constrMaskLocal p.1 c x m p.2).2 = true := by
      simp [constrMask]
    rw [this]
    constructor
    · intro g p hp j hj
      by_contra q
      exact g p hp ((constrMaskLocal_spec p.1 _ p.2 c x m (h p hp).1 rfl (h p hp).2 hmc hmx).2.mpr
        ⟨j, hj, (violated_iff _ _ (hv p hp j hj)).mpr q⟩)
    · intro g p hp q
      obtain ⟨j, hj, t⟩ := (constrMaskLocal_spec p.1 _ p.2 c x m (h p hp).1 rfl (h p hp).2 hmc hmx).2.mp q
      exact (violated_iff _ _ (hv p hp j hj)).mp t (g p hp j hj)

/-- positive values are asked for; 0 on the second process violates -/
example : (constrMask 0 1 2 [(fun _ => 1, fun _ _ => (2 : ℚ)), (fun _ => 1, fun v _ => if v = 1 then (0 : ℚ) else 2)]).2 ≠ true := by
  rw [Ne, (constrMask_ok 0 1 2 _ (by simp) (by decide) (by decide) (by simp)).2]
  intro h
  have := (h (fun _ => 1, fun v _ => if v = 1 then (0 : ℚ) else 2) (by simp) 0 (by simp)).1
  simp at this

end

section
variable {K : Type} [Field K] [LinearOrder K]

theorem addAll_spec (n z : Nat) (rest : List (K × Nat)) (h : ∀ p ∈ rest, p.2 ≠ z) (s : Store K) :
    Writes n z (fun j => s z j + (rest.map fun p => p.1 * s p.2 j).sum) s
      (rest.foldl (fun s p => addTo n p.1 p.2 z s) s) := by
  induction rest generalizing s with
  | nil => exact ⟨fun j _ => by simp, fun _ _ _ => rfl⟩
  | cons p rest ih =>
    have w : Writes n z (fun j => s z j + p.1 * s p.2 j) s (addTo n p.1 p.2 z s) :=
      loop_writes z (fun i (s : Store K) => s z i + p.1 * s p.2 i) _ (fun _ _ => rfl) (fun i s s' h => by simp [h]) s n
    obtain ⟨a, b⟩ := ih (fun q hq => h q (List.mem_cons_of_mem _ hq)) (addTo n p.1 p.2 z s)
    constructor
    · intro j hj
      rw [List.foldl_cons, a j hj]
      beta_reduce
      rw [w.1 j hj]
      have e : (rest.map fun q => q.1 * addTo n p.1 p.2 z s q.2 j) = rest.map fun q => q.1 * s q.2 j := by
        apply List.map_congr_left
        intro q hq
        rw [w.2 q.2 j (fun t => h q (List.mem_cons_of_mem _ hq) t.1)]
      rw [e]
      simp [add_assoc]
    · intro v j hv
      rw [List.foldl_cons, b v j hv, w.2 v j hv]

/-- **C79.** a linear combination of one or more vectors, the result being none of them or the first (the condition of the
documentation); of one or two vectors, whichever of them is the result -/
theorem linearCombination_ok (sz : Nat → Nat) (n : Nat) (cx : List (K × Nat)) (z : Nat) (s : Store K) (hz : sz z = n)
    (hs : ∀ p ∈ cx, sz p.2 = n) (hn : cx ≠ []) (ha : cx.length ≤ 2 ∨ ∀ p ∈ cx.tail, p.2 ≠ z) :
    ∃ s', linearCombination sz cx z s = some s' ∧ Writes n z (fun j => (cx.map fun p => p.1 * s p.2 j).sum) s s' := by
  match cx, hn with
  | [(c, x)], _ =>
    exact ⟨_, rfl, by simpa using scale_ok sz n s c x z (hs (c, x) (by simp)) hz⟩
  | [(a, x), (b, y)], _ =>
    exact ⟨_, rfl, by simpa using linearSum_ok sz n s a b x y z (hs (a, x) (by simp)) (hs (b, y) (by simp)) hz⟩
  | (c, x) :: p :: q :: rest, _ =>
    have ha' : ∀ r ∈ p :: q :: rest, r.2 ≠ z := by
      rcases ha with ha | ha
      · simp at ha
      · simpa using ha
    have hx : sz x = n := hs (c, x) (by simp)
    refine ⟨_, rfl, ?_⟩
    simp only [hx, hz, min_self]
    have w : Writes n z (fun j => c * s x j) s (if z = x then loop n (fun i s => put s x i (s x i * c)) s
      else loop n (fun i s => put s z i (c * s x i)) s) := by
      by_cases h : z = x
      · subst h
        rw [if_pos rfl]
        have := loop_writes z (fun i (s : Store K) => s z i * c) (fun i s => put s z i (s z i * c))
          (fun _ _ => rfl) (fun i s s' h => by simp [h]) s n
        simpa [mul_comm] using this
      · rw [if_neg h]
        exact loop_writes z (fun i (s : Store K) => c * s x i) (fun i s => put s z i (c * s x i))
          (fun _ _ => rfl) (fun i s s' h => by simp [h]) s n
    generalize (if z = x then loop n (fun i s => put s x i (s x i * c)) s
      else loop n (fun i s => put s z i (c * s x i)) s) = s1 at w ⊢
    obtain ⟨a, b⟩ := addAll_spec n z (p :: q :: rest) ha' s1
    constructor
    · intro j hj
      rw [a j hj]
      beta_reduce
      rw [w.1 j hj]
      have e : ((p :: q :: rest).map fun r => r.1 * s1 r.2 j) = (p :: q :: rest).map fun r => r.1 * s r.2 j := by
        apply List.map_congr_left
        intro r hr
        rw [w.2 r.2 j (fun t => ha' r hr t.1)]
      rw [e]
      simp
    · intro v j hv
      rw [b v j hv, w.2 v j hv]

/-- three vectors, the first is the result -/
example : ∃ s', linearCombination (fun _ => 2) [((2 : ℚ), 0), (3, 1), (4, 2)] 0 (fun v j => (v : ℚ) + j) = some s' ∧
    s' 0 1 = 2 * 1 + (3 * 2 + 4 * 3) := by
  obtain ⟨s', e, w⟩ := linearCombination_ok (fun _ => 2) 2 [((2 : ℚ), 0), (3, 1), (4, 2)] 0 (fun v j => (v : ℚ) + j) rfl
    (by simp) (by simp) (Or.inr (by simp))
  exact ⟨s', e, by rw [w.1 1 (by decide)]; norm_num⟩

/-- **C79.** an empty combination is refused -/
theorem linearCombination_empty (sz : Nat → Nat) (z : Nat) (s : Store K) : linearCombination sz [] z s = none := rfl

/-! ### values over all processes -/

theorem foldl_add_map {A : Type} (f : A → K) (l : List A) (b : K) :
    l.foldl (fun t a => t + f a) b = b + (l.map f).sum := by
  induction l generalizing b with
  | nil => simp
  | cons a l ih => rw [List.foldl_cons, ih]; simp [add_assoc]

theorem zip_flatten {A B : Type} (x : List (List A)) (y : List (List B)) (h : x.map List.length = y.map List.length) :
    ((x.zip y).map fun p => p.1.zip p.2).flatten = x.flatten.zip y.flatten := by
  induction x generalizing y with
  | nil => simp
  | cons a x ih =>
    cases y with
    | nil => simp at h
    | cons b y =>
      simp only [List.map_cons, List.cons.injEq] at h
      simp [ih y h.2, List.zip_append h.1]

theorem sum_parts {A B : Type} (g : A × B → K) (x : List (List A)) (y : List (List B)) (h : x.map List.length = y.map List.length) :
    ((x.zip y).map fun p => ((p.1.zip p.2).map g).sum).sum = ((x.flatten.zip y.flatten).map g).sum := by
  rw [← zip_flatten x y h]
  generalize x.zip y = z
  induction z with
  | nil => simp
  | cons a z ih => simp [ih]

/-- **C79.** the scalar product is that of the whole vectors, however they are distributed -/
theorem dot_ok (x y : List (List K)) (h : x.map List.length = y.map List.length) :
    dot x y = ((x.flatten.zip y.flatten).map fun p => p.1 * p.2).sum := by
  rw [← sum_parts (fun p => p.1 * p.2) x y h]
  simp only [dot, dotLocal, foldl_add_map, zero_add]

example : dot [[(1 : ℚ), 2], [3]] [[4, 5], [6]] = 32 := by
  rw [dot_ok _ _ (by simp)]; norm_num

/-- **C79.** several scalar products at once are the single ones -/
theorem dotMulti_ok (x : List (List K)) (ys : List (List (List K))) (h : ys ≠ []) : dotMulti x ys = some (ys.map (dot x)) := by
  match ys, h with
  | [y], _ => rfl
  | y :: y' :: ys, _ => rfl

example : dotMulti [[(1 : ℚ), 2], [3]] [[[4, 5], [6]], [[1, 0], [1]]] = some [32, 4] := by
  rw [dotMulti_ok _ _ (by simp)]
  simp only [List.map_cons, List.map_nil]
  rw [dot_ok _ _ (by simp), dot_ok _ _ (by simp)]; norm_num

/-- **C79.** the norm of sums of absolute values -/
theorem l1_ok (x : List (List K)) : l1 x = (x.flatten.map fun a => |a|).sum := by
  simp only [l1, funext fun a => show l1Local a = _ from foldl_add_map (K := K) (fun a => |a|) a 0]
  induction x with
  | nil => simp
  | cons a x ih => simp only [List.map_cons, List.sum_cons, ih]; simp

example : l1 [[(1 : ℚ), -2], [-3]] = 6 := by
  rw [l1_ok]; norm_num

/-- **C79.** the square of the weighted 2-norm -/
theorem wl2Sq_ok (x w : List (List K)) (h : x.map List.length = w.map List.length) :
    wl2Sq x w = ((x.flatten.zip w.flatten).map fun p => (p.1 * p.2) ^ 2).sum := by
  rw [← sum_parts (fun p => (p.1 * p.2) ^ 2) x w h]
  simp only [wl2Sq, wsqrLocal, foldl_add_map, zero_add, pow_two]

example : wl2Sq [[(1 : ℚ), 2], [3]] [[1, 1], [2]] = 41 := by
  rw [wl2Sq_ok _ _ (by simp)]; norm_num

theorem foldl_min (l : List K) (b : K) :
    l.foldl min b ≤ b ∧ (∀ a ∈ l, l.foldl min b ≤ a) ∧ (l.foldl min b = b ∨ l.foldl min b ∈ l) := by
  induction l generalizing b with
  | nil => simp
  | cons a l ih =>
    obtain ⟨h1, h2, h3⟩ := ih (min b a)
    rw [List.foldl_cons]
    refine ⟨le_trans h1 (min_le_left _ _), ?_, ?_⟩
    · intro c hc
      rcases List.mem_cons.mp hc with rfl | hc
      · exact le_trans h1 (min_le_right _ _)
      · exact h2 c hc
    · rcases h3 with h3 | h3
      · rcases min_choice b a with e | e
        · left; rw [h3, e]
        · right; rw [h3, e]; simp
      · right; exact List.mem_cons_of_mem _ h3

theorem foldl_max (l : List K) (b : K) :
    b ≤ l.foldl max b ∧ (∀ a ∈ l, a ≤ l.foldl max b) ∧ (l.foldl max b = b ∨ l.foldl max b ∈ l) := by
  induction l generalizing b with
  | nil => simp
  | cons a l ih =>
    obtain ⟨h1, h2, h3⟩ := ih (max b a)
    rw [List.foldl_cons]
    refine ⟨le_trans (le_max_left _ _) h1, ?_, ?_⟩
    · intro c hc
      rcases List.mem_cons.mp hc with rfl | hc
      · exact le_trans (le_max_right _ _) h1
      · exact h2 c hc
    · rcases h3 with h3 | h3
      · rcases max_choice b a with e | e
        · left; rw [h3, e]
        · right; rw [h3, e]; simp
      · right; exact List.mem_cons_of_mem _ h3

theorem maxNormLocal_eq (x : List K) : maxNormLocal x = (x.map fun a => |a|).foldl max 0 := by
  simp only [maxNormLocal, List.foldl_map]
  congr 1
  funext l a
  exact max_comm _ _

/-- **C79.** the maximum norm: no entry of any process is larger, and it is attained (or 0 for vectors of zeros or without entries) -/
theorem maxNorm_ok (x : List (List K)) :
    0 ≤ maxNorm x ∧ (∀ a ∈ x.flatten, |a| ≤ maxNorm x) ∧ (maxNorm x = 0 ∨ ∃ a ∈ x.flatten, |a| = maxNorm x) := by
  obtain ⟨h1, h2, h3⟩ := foldl_max (x.map maxNormLocal) 0
  refine ⟨h1, ?_, ?_⟩
  · intro a ha
    obtain ⟨l, hl, hal⟩ := List.mem_flatten.mp ha
    refine le_trans ?_ (h2 (maxNormLocal l) (List.mem_map_of_mem hl))
    rw [maxNormLocal_eq]
    exact (foldl_max _ 0).2.1 _ (List.mem_map_of_mem hal)
  · rcases h3 with h3 | h3
    · exact Or.inl h3
    · obtain ⟨l, hl, e⟩ := List.mem_map.mp h3
      rw [maxNormLocal_eq] at e
      rcases (foldl_max (l.map fun a => |a|) 0).2.2 with g | g
      · left; exact e.symm.trans g
      · right
        obtain ⟨a, ha, ea⟩ := List.mem_map.mp g
        exact ⟨a, List.mem_flatten.mpr ⟨l, hl, ha⟩, ea.trans e⟩

example : (3 : ℚ) ≤ maxNorm [[(1 : ℚ), 2], [-3]] := by
  simpa using (maxNorm_ok [[(1 : ℚ), 2], [-3]]).2.1 (-3) (by simp)

theorem minLocal_eq (big : K) (x : List K) : minLocal big x = x.foldl min big := by
  simp only [minLocal]
  congr 1
  funext l a
  exact min_comm _ _

/-- **C79.** the minimum over all processes (`big` for no entries) -/
theorem minAll_ok (big : K) (x : List (List K)) :
    minAll big x ≤ big ∧ (∀ a ∈ x.flatten, minAll big x ≤ a) ∧ (minAll big x = big ∨ minAll big x ∈ x.flatten) := by
  obtain ⟨h1, h2, h3⟩ := foldl_min (x.map (minLocal big)) big
  refine ⟨h1, ?_, ?_⟩
  · intro a ha
    obtain ⟨l, hl, hal⟩ := List.mem_flatten.mp ha
    refine le_trans (h2 (minLocal big l) (List.mem_map_of_mem hl)) ?_
    rw [minLocal_eq]
    exact (foldl_min _ _).2.1 _ hal
  · rcases h3 with h3 | h3
    · exact Or.inl h3
    · obtain ⟨l, hl, e⟩ := List.mem_map.mp h3
      rw [minLocal_eq] at e
      rcases (foldl_min l big).2.2 with g | g
      · left; exact e.symm.trans g
      · right
        rw [e] at g
        exact List.mem_flatten.mpr ⟨l, hl, g⟩

example : minAll 1000 [[(1 : ℚ), 2], [-3]] ≤ -3 := (minAll_ok 1000 [[(1 : ℚ), 2], [-3]]).2.1 (-3) (by simp)

theorem minQuotLocal_eq (big : K) (x y : List K) :
    minQuotLocal big x y = (((x.zip y).filter fun p => p.2 ≠ 0).map fun p => p.1 / p.2).foldl min big := by
  simp only [minQuotLocal]
  generalize x.zip y = z
  induction z generalizing big with
  | nil => rfl
  | cons p z ih =>
    rw [List.foldl_cons]
    by_cases h : p.2 = 0
    · rw [if_pos h, ih]; simp [h]
    · rw [if_neg h, ih]; simp [h]

/-- **C79.** the least quotient over all processes, entries with a zero denominator left out (`big` if there are no others) -/
theorem minQuot_ok (big : K) (x y : List (List K)) (h : x.map List.length = y.map List.length) :
    minQuot big x y ≤ big ∧
    (∀ p ∈ x.flatten.zip y.flatten, p.2 ≠ 0 → minQuot big x y ≤ p.1 / p.2) ∧
    (minQuot big x y = big ∨ ∃ p ∈ x.flatten.zip y.flatten, p.2 ≠ 0 ∧ p.1 / p.2 = minQuot big x y) := by
  rw [← zip_flatten x y h]
  obtain ⟨h1, h2, h3⟩ := foldl_min ((x.zip y).map fun p => minQuotLocal big p.1 p.2) big
  refine ⟨h1, ?_, ?_⟩
  · intro p hp h0
    obtain ⟨l, hl, hpl⟩ := List.mem_flatten.mp hp
    obtain ⟨q, hq, rfl⟩ := List.mem_map.mp hl
    refine le_trans (h2 _ (List.mem_map_of_mem hq)) ?_
    rw [minQuotLocal_eq]
    exact (foldl_min _ _).2.1 _ (List.mem_map.mpr ⟨p, by simpa [h0] using hpl, rfl⟩)
  · rcases h3 with h3 | h3
    · exact Or.inl h3
    · obtain ⟨q, hq, e⟩ := List.mem_map.mp h3
      rw [minQuotLocal_eq] at e
      rcases (foldl_min (((q.1.zip q.2).filter fun p => p.2 ≠ 0).map fun p => p.1 / p.2) big).2.2 with g | g
      · left; exact e.symm.trans g
      · right
        obtain ⟨p, hp, ep⟩ := List.mem_map.mp g
        rw [List.mem_filter] at hp
        exact ⟨p, List.mem_flatten.mpr ⟨_, List.mem_map_of_mem hq, hp.1⟩, by simpa using hp.2, ep.trans e⟩

example : minQuot 1000 [[(1 : ℚ), 2], [-3]] [[0, 1], [2]] ≤ -3 / 2 :=
  (minQuot_ok 1000 [[(1 : ℚ), 2], [-3]] [[0, 1], [2]] rfl).2.1 (-3, 2) (by simp) (by norm_num)

/-- **C79, part.** the square of the weighted root mean square norm on one process. In full it would hold for any number of processes;
see `wrms_wrong` -/
theorem wrms_partial (x w : List K) (h : x.length = w.length) :
    wrmsSq [x] [w] 0 = ((x.zip w).map fun p => (p.1 * p.2) ^ 2).sum / (x.length : K) := by
  rw [wrmsSq, wl2Sq_ok [x] [w] (by simp [h])]
  simp [getLength]

example : wrmsSq [[(1 : ℚ), 2]] [[1, 1]] 0 = 5 / 2 := by
  rw [wrms_partial _ _ (by simp)]; norm_num

/-- **C79, part.** the length on one process is the length of the vector -/
theorem getLength_partial (x : List K) : getLength [x] 0 = [x].flatten.length := by simp [getLength]

example : getLength [[(1 : ℚ), 2]] 0 = 2 := getLength_partial _

/-- **C79 fails.** as soon as another process has entries, the length is not that of the vector -/
theorem getLength_wrong (x : List (List K)) (p q : Nat) (hp : p < x.length) (hq : q < x.length) (hpq : p ≠ q)
    (h : x[q] ≠ []) : getLength x p < x.flatten.length := by
  have key : ∀ (x : List (List K)) (p q : Nat) (hp : p < x.length) (hq : q < x.length), p ≠ q →
      x[p].length + x[q].length ≤ x.flatten.length := by
    intro x
    induction x with
    | nil => intro p q hp; simp at hp
    | cons a x ih =>
      have one : ∀ r (hr : r < x.length), x[r].length ≤ x.flatten.length := by
        intro r hr
        exact (List.sublist_flatten_of_mem (List.getElem_mem hr)).length_le
      intro p q hp hq hpq
      rcases p with _ | p
      · rcases q with _ | q
        · exact absurd rfl hpq
        · have := one q (by simpa using hq)
          simpa using this
      · rcases q with _ | q
        · have := one p (by simpa using hp)
          simp only [List.getElem_cons_succ, List.getElem_cons_zero, List.flatten_cons, List.length_append]
          omega
        · have := ih p q (by simpa using hp) (by simpa using hq) (by omega)
          simp only [List.getElem_cons_succ, List.flatten_cons, List.length_append]
          omega
  have k := key x p q hp hq hpq
  have : 0 < x[q].length := List.length_pos_iff.mpr h
  simp only [getLength, List.getD_eq_getElem?_getD, List.getElem?_eq_getElem hp, Option.getD_some]
  omega

example : getLength [[(1 : ℚ), 2], [3]] 0 < 3 := by
  simpa using getLength_wrong [[(1 : ℚ), 2], [3]] 0 1 (by simp) (by simp) (by decide) (by simp)

end

section
variable {K : Type} [Field K] [LinearOrder K] [IsStrictOrderedRing K]

/-- **C79 fails.** the weighted root mean square norm divides the sum over all processes by the number of entries of the own process:
processes with different numbers of entries get different norms of the same vector -/
theorem wrms_wrong (x w : List (List K)) (p q : Nat) (hs : wl2Sq x w ≠ 0)
    (h0 : getLength x p ≠ 0) (h1 : getLength x q ≠ 0) (h : getLength x p ≠ getLength x q) : wrmsSq x w p ≠ wrmsSq x w q := by
  have a : (getLength x p : K) ≠ 0 := by exact_mod_cast h0
  have b : (getLength x q : K) ≠ 0 := by exact_mod_cast h1
  intro e
  rw [wrmsSq, wrmsSq, div_eq_div_iff a b] at e
  exact h (by exact_mod_cast (mul_left_cancel₀ hs e).symm)

example : wrmsSq [[(1 : ℚ), 2], [3]] [[1, 1], [1]] 0 ≠ wrmsSq [[(1 : ℚ), 2], [3]] [[1, 1], [1]] 1 := by
  refine wrms_wrong _ _ 0 1 ?_ (by simp [getLength]) (by simp [getLength]) (by simp [getLength])
  rw [wl2Sq_ok _ _ (by simp)]; norm_num

end

/-! ### C80 -/

section
variable {K : Type} [Field K] [LinearOrder K]

/-- **C80.** what the product of a matrix and a vector does: the product is computed, but in a vector of its own, and no vector of the
caller changes -/
theorem matvec_lost (n : Nat) (A : Nat → Nat → K) (x y tmp : Nat) (s : Store K) (hx : x ≠ tmp) :
    (∀ i, i < n → matMatvec n A x y tmp s tmp i = ((List.range n).map fun j => A i j * s x j).sum) ∧
      ∀ v, v ≠ tmp → ∀ i, matMatvec n A x y tmp s v i = s v i := by
  have key : ∀ m, (∀ i, i < m → (loop m (fun i (s : Store K) => put s tmp i (1 * ((List.range n).map fun j => A i j * s x j).sum +
      0 * s tmp i)) (fun w => if w = tmp then s y else s w)) tmp i = ((List.range n).map fun j => A i j * s x j).sum) ∧
      ∀ v, v ≠ tmp → ∀ i, (loop m (fun i (s : Store K) => put s tmp i (1 * ((List.range n).map fun j => A i j * s x j).sum +
      0 * s tmp i)) (fun w => if w = tmp then s y else s w)) v i = s v i := by
    intro m
    induction m with
    | zero => exact ⟨fun i h => by omega, fun v hv i => by simp [loop, hv]⟩
    | succ m ih =>
      simp only [loop, List.range_succ, List.foldl_append, List.foldl_cons, List.foldl_nil] at ih ⊢
      refine ⟨fun i hi => ?_, fun v hv i => ?_⟩
      · simp only [put]
        by_cases e : i = m
        · subst e
          rw [if_pos (by simp)]
          simp only [ih.2 x hx]
          ring
        · rw [if_neg (fun h => e h.2)]
          exact ih.1 i (by omega)
      · simp only [put]
        rw [if_neg (fun h => hv h.1)]
        exact ih.2 v hv i
  exact key n

/-- **C80 fails.** `y` keeps its old values, so it is the product only if it was before -/
theorem matvec_wrong (n : Nat) (A : Nat → Nat → K) (x y tmp : Nat) (s : Store K) (hx : x ≠ tmp) (hy : y ≠ tmp) (i : Nat)
    (h : s y i ≠ ((List.range n).map fun j => A i j * s x j).sum) :
    matMatvec n A x y tmp s y i ≠ ((List.range n).map fun j => A i j * s x j).sum := by
  rw [(matvec_lost n A x y tmp s hx).2 y hy i]
  exact h

/-- the unit matrix and the vector of ones -/
example : matMatvec 2 (fun i j => if i = j then (1 : ℚ) else 0) 0 1 2 (fun v _ => if v = 0 then 1 else 0) 1 0 ≠ 1 := by
  have := matvec_wrong 2 (fun i j => if i = j then (1 : ℚ) else 0) 0 1 2 (fun v _ => if v = 0 then 1 else 0) (by decide) (by decide) 0
    (by simp [List.range_succ])
  simpa [List.range_succ] using this

end

section
variable {K : Type} [LinearOrder K]

/-- **C80.** success is reported iff the solver succeeded and the tolerance is reached -/
theorem code_success (flag : Bool) (init resid tol : K) :
    solveCode flag init resid tol = .success ↔ flag = true ∧ resid ≤ tol := by
  unfold solveCode
  cases flag
  · by_cases a : resid ≤ init <;> by_cases b : resid ≤ tol <;> simp [a, b]
  · by_cases a : resid ≤ init <;> by_cases b : resid ≤ tol <;> simp [a, b]

example : solveCode true (10 : ℚ) 1 2 = .success := (code_success _ _ _ _).mpr ⟨rfl, by norm_num⟩

/-- **C80, part.** after a failure of the solver of INMOST with the tolerance not reached: "residual reduced" iff the residual is not
larger than at the beginning, "not converged" otherwise. In full this would also hold after a success; see `code_swapped_wrong` -/
theorem code_failed_partial (init resid tol : K) (h : tol < resid) :
    (solveCode false init resid tol = .resReduced ↔ resid ≤ init) ∧
      (solveCode false init resid tol = .convFail ↔ init < resid) := by
  unfold solveCode
  have b : ¬ resid ≤ tol := not_le.mpr h
  by_cases a : resid ≤ init
  · simp [a, b, not_lt.mpr a]
  · simp [a, b, not_le.mp a]

example : solveCode false (10 : ℚ) 5 2 = .resReduced := (code_failed_partial _ _ _ (by norm_num)).1.mpr (by norm_num)

/-- **C80 fails.** after a success of the solver of INMOST with the tolerance not reached the two codes are exchanged: "residual
reduced" is reported iff the residual has grown -/
theorem code_swapped_wrong (init resid tol : K) (h : tol < resid) :
    (solveCode true init resid tol = .resReduced ↔ init < resid) ∧
      (solveCode true init resid tol = .convFail ↔ resid ≤ init) := by
  unfold solveCode
  have b : ¬ resid ≤ tol := not_le.mpr h
  by_cases a : resid ≤ init
  · simp [a, b, not_lt.mpr a]
  · simp [a, b, not_le.mp a]

example : solveCode true (10 : ℚ) 50 2 = .resReduced := (code_swapped_wrong _ _ _ (by norm_num)).1.mpr (by norm_num)

/-- **C80.** the code for lack of memory at the end of the function is never returned -/
theorem code_end (flag : Bool) (init resid tol : K) : solveCode flag init resid tol ≠ .memFail := by
  unfold solveCode
  cases flag
  · by_cases a : resid ≤ init <;> by_cases b : resid ≤ tol <;> simp [a, b]
  · by_cases a : resid ≤ init <;> by_cases b : resid ≤ tol <;> simp [a, b]

end

/-- **C80.** KINSOL is told success iff the user function returned no negative code on any process, and the recoverable error 1
otherwise -/
theorem assm_code (stat0 : Int) (stats : List Int) :
    (assmCode stat0 stats = 0 ↔ ∀ t ∈ stat0 :: stats, 0 ≤ t) ∧ (assmCode stat0 stats = 1 ↔ ∃ t ∈ stat0 :: stats, t < 0) := by
  have key : ∀ (l : List Int) (b : Int), l.foldl min b < 0 ↔ ∃ t ∈ b :: l, t < 0 := by
    intro l
    induction l with
    | nil => intro b; simp
    | cons a l ih =>
      intro b
      rw [List.foldl_cons, ih]
      simp only [List.mem_cons, exists_eq_or_imp]
      rw [min_lt_iff]
      tauto
  have k := key stats stat0
  unfold assmCode
  by_cases h : stats.foldl min stat0 < 0
  · rw [if_pos h]
    have e := k.mp h
    refine ⟨⟨fun g => (by cases g), fun g => ?_⟩, ⟨fun _ => e, fun _ => rfl⟩⟩
    obtain ⟨t, ht, h0⟩ := e
    have := g t ht
    omega
  · rw [if_neg h]
    refine ⟨⟨fun _ t ht => ?_, fun _ => rfl⟩, ⟨fun g => (by cases g), fun g => absurd (k.mpr g) h⟩⟩
    by_contra q
    exact h (k.mpr ⟨t, ht, by omega⟩)

example : assmCode 0 [0, -1, 3] = 1 := (assm_code _ _).2.mpr ⟨-1, by simp, by decide⟩

end Verif.NVector
