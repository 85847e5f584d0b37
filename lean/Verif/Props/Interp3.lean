import Verif.Props.Interp2

/-!
Property C47: the MINI space P1 + B4, and unions whose set-up on the reference tetrahedron does not serve other tetrahedra.
-/
set_option linter.unusedSectionVars false
namespace Verif.Interp

open Verif.Dense Verif.DofMap Verif.Spaces Verif.Geometry

variable {K : Type} [Field K] [LinearOrder K] [IsStrictOrderedRing K]

theorem centre_bary (T : Tet K) : IsBary (T 0) (T 1) (T 2) (T 3) (fun d => ((List.range 4).foldl (fun s i => s + T i d) 0) / 4)
    (fun _ => (1 / 4 : K)) := by
  refine ⟨by norm_num, fun k _ => ?_⟩
  simp only [show List.range 4 = [0, 1, 2, 3] from rfl, List.foldl_cons, List.foldl_nil]
  ring

/-- The exact weights of P1 + B4: the value at the centre less the mean of the values at the nodes. -/
def miniW : Nat → K := fun t => if t % 6 = 0 then 1 else if t % 5 = 4 then -1 / 4 else 0

section Mini
variable {v1 v4 : Tet K → (Nat → K) → Nat → Nat → K}

/-- **C47** for the MINI space: with the exact weights the interpolation returns the coefficients of the members of P1 + B4 on every
tetrahedron. -/
theorem mini_recovers {T : Tet K} (hv : Nondeg T) (h1 : ∀ j, j < 4 → IsBasis p1Iden 1 4 j T fun x k => v1 T x j k)
    (h4 : IsBasis b4Iden 1 1 0 T fun x k => v4 T x 0 k) : Recovers (union [p1S v1, b4S v4] miniW) T := by
  have hD : ∀ m (hm : m < [p1S v1, b4S v4].length), Dofs [p1S v1, b4S v4][m] T
      ((fun m i g => if m = 0 then g (T i) 0 else g (fun d => ((List.range 4).foldl (fun s i => s + T i d) 0) / 4) 0 : Nat → Nat → Fn K → K) m) := by
    intro m hm
    have hm2 : m < 2 := hm
    interval_cases m
    · exact leaf_point (fun i => T i) fun _ _ _ _ => rfl
    · exact leaf_point (fun _ d => ((List.range 4).foldl (fun s i => s + T i d) 0) / 4) fun _ _ _ _ => rfl
  rw [union_recovers_iff hD (by simp [p1S, b4S, leaf])]
  have hs : ([p1S v1, b4S v4].map (·.nfa)).sum = 5 := rfl
  have hc0 : ∀ q, q < 4 → comp ([p1S v1, b4S v4].map (·.nfa)) q = (0, q) := by
    intro q hq
    have := comp_at (ns := [p1S v1, b4S v4].map (·.nfa)) (m := 0) (l := q) (by simp) (by simpa [p1S, leaf] using hq)
    simpa [pre] using this
  have hc1 : comp ([p1S v1, b4S v4].map (·.nfa)) 4 = (1, 0) := by
    have := comp_at (ns := [p1S v1, b4S v4].map (·.nfa)) (m := 1) (l := 0) (by simp) (by simp [b4S, leaf])
    simpa [pre, p1S, leaf] using this
  have a1 : ∀ i j, i < 4 → j < 4 → v1 T (T i) j 0 = if i = j then 1 else 0 := by
    intro i j hi hj
    exact p1_dual hv (fun x k => v1 T x j k) 0 hi hj (by simpa only [Nat.zero_add] using h1 j hj)
  have a2 : ∀ i, i < 4 → v4 T (T i) 0 0 = 0 := by
    intro i hi
    have := scalar_value (val := fun l => b4v l) (fun m U r n hr hn => b4Iden_val hr hn) b4v_congr hv (h4 (T i)) (vertex_bary T hi)
    dsimp only at this
    rw [this]
    interval_cases i <;> simp [b4v]
  have a3 : ∀ j, j < 4 → v1 T (fun d => ((List.range 4).foldl (fun s i => s + T i d) 0) / 4) j 0 = 1 / 4 := by
    intro j hj
    exact scalar_value (val := fun l => l j) (fun m U r n hr hn => p1Iden_val hr hj hn) (fun l l' h => h j hj) hv
      (h1 j hj _) (centre_bary T)
  have a4 : v4 T (fun d => ((List.range 4).foldl (fun s i => s + T i d) 0) / 4) 0 0 = 1 :=
    b4_dual hv (fun x k => v4 T x 0 k) 0 (by simpa only [Nat.zero_add] using h4)
  -- the functionals and the functions
  have hL0 : ∀ q, q < 4 → ∀ Ls g, allL [p1S v1, b4S v4] Ls q g = Ls 0 q g := by
    intro q hq Ls g; unfold allL; rw [hc0 q hq]
  have hL1 : ∀ Ls g, allL [p1S v1, b4S v4] Ls 4 g = Ls 1 0 g := by
    intro Ls g; unfold allL; rw [hc1]
  have hv0 : ∀ j, j < 4 → ∀ x k, unionVal [p1S v1, b4S v4] T x j k = v1 T x j k := by
    intro j hj x k; unfold unionVal; rw [hc0 j hj]; rfl
  have hv1 : ∀ x k, unionVal [p1S v1, b4S v4] T x 4 k = v4 T x 0 k := by
    intro x k; unfold unionVal; rw [hc1]; rfl
  rw [hs]
  intro i hi j hj
  simp only [Finset.sum_range_succ, Finset.sum_range_zero, zero_add]
  rw [hL0 0 (by omega), hL0 1 (by omega), hL0 2 (by omega), hL0 3 (by omega), hL1]
  simp only [if_true, if_false, one_ne_zero]
  by_cases hj4 : j < 4
  · simp only [hv0 j hj4]
    rw [a1 0 j (by omega) hj4, a1 1 j (by omega) hj4, a1 2 j (by omega) hj4, a1 3 j (by omega) hj4, a3 j hj4]
    interval_cases i <;> interval_cases j <;> norm_num [miniW]
  · obtain rfl : j = 4 := by omega
    simp only [hv1]
    rw [a2 0 (by omega), a2 1 (by omega), a2 2 (by omega), a2 3 (by omega), a4]
    interval_cases i <;> norm_num [miniW]

end Mini

theorem refTet_nondeg : Nondeg (refTet : Tet K) := by
  unfold Nondeg
  rw [vol6_eq]
  norm_num [refTet, dot, cross, diff]

/-- the reference tetrahedron with two nodes exchanged -/
def swapTet : Tet K := fun a k => refTet (if a = 1 then 2 else if a = 2 then 1 else a) k

theorem swapTet_nondeg : Nondeg (swapTet : Tet K) := by
  unfold Nondeg
  rw [vol6_eq]
  norm_num [swapTet, refTet, dot, cross, diff]

section Wrong
variable {vr v4 : Tet K → (Nat → K) → Nat → Nat → K}

/-- the functionals of RT0 and of three bubbles -/
def rtbL (sqrt : K → K) (rule : List (QPoint K)) (T : Tet K) : Nat → Nat → Fn K → K := fun m =>
  if m = 0 then fun i g => quad rule fun p =>
      let n := (Geometry.faceNormal sqrt (T i) (T ((i + 1) % 4)) (T ((i + 2) % 4)) (T ((i + 3) % 4))).2
      g (facePoint T i p) 0 * n 0 + g (facePoint T i p) 1 * n 1 + g (facePoint T i p) 2 * n 2
  else fun i g => g (fun d => ((List.range 4).foldl (fun s i => s + T i d) 0) / 4) (i / 1 * 1 + 0)

theorem rtb_dofs (sqrt : K → K) (rule : List (QPoint K)) (T : Tet K) :
    ∀ m (hm : m < [rt0S sqrt rule vr, vec 3 (b4S v4)].length), Dofs [rt0S sqrt rule vr, vec 3 (b4S v4)][m] T (rtbL sqrt rule T m) := by
  intro m hm
  have hm2 : m < 2 := hm
  interval_cases m
  · exact leaf_flux rule (fun i => facePoint T i)
      (fun i => (Geometry.faceNormal sqrt (T i) (T ((i + 1) % 4)) (T ((i + 2) % 4)) (T ((i + 3) % 4))).2) fun _ _ _ _ => rfl
  · exact vec_dofs (leaf_point (nfa := 1) (val := v4) (dof := fun T f _ r => b4Dof T f r) (T := T)
      (fun _ d => ((List.range 4).foldl (fun s i => s + T i d) 0) / 4) fun _ _ _ _ => rfl) 3

/-- the value of function 2 of RT0 at the centre, as a multiple of the vector from node 1 -/
theorem rt0_centre {sqrt : K → K} {T : Tet K} (hf : IsBasis (rt0Iden sqrt) 3 4 2 T fun x k => vr T x 2 k) :
    ∃ c : K, ∀ x k, k < 3 → vr T x 2 k = c * (x k - T 1 k) := by
  obtain ⟨m0, U0, s0, n0, hs0, hn0, ht0, hp0, hk0⟩ := hf (T 0)
  exact ⟨rt0Sqr sqrt m0 s0 2, fun x k hk => rt0_value (by omega) (hf x) ht0 hk⟩

/-- The code violates C47 for unions with RT0: no weights at all, hence not the weights of the set-up, return the coefficients of
the members of RT0 + B4³ both on the reference tetrahedron and on the same tetrahedron with two nodes exchanged, whatever the square
root and the rule.  (The weights are computed once, on the reference tetrahedron: fem_space.cpp:1040-1042.) -/
theorem union_rt0_wrong {sqrt : K → K} (hs : IsSqrt sqrt) {rule : List (QPoint K)} (hp : OnPlane rule 3) (hw : weight rule = 1)
    (hr : ∀ T, Nondeg T → ∀ j, j < 4 → IsBasis (rt0Iden sqrt) 3 4 j T fun x k => vr T x j k) (W : Nat → K) :
    ¬ (Recovers (union [rt0S sqrt rule vr, vec 3 (b4S v4)] W) refTet ∧
       Recovers (union [rt0S sqrt rule vr, vec 3 (b4S v4)] W) swapTet) := by
  rintro ⟨r1, r2⟩
  have hval : ∀ k, k < 3 → vr refTet (fun d => ((List.range 4).foldl (fun s i => s + (refTet : Tet K) i d) 0) / 4) 2 k =
      vr swapTet (fun d => ((List.range 4).foldl (fun s i => s + (swapTet : Tet K) i d) 0) / 4) 2 k := by
    intro k hk
    have hdim : ∀ s ∈ [rt0S sqrt rule vr, vec 3 (b4S v4)],
        s.dim = ([rt0S sqrt rule vr, vec 3 (b4S v4)].map (·.dim)).headD 0 := by simp [rt0S, b4S, leaf, vec]
    have hsum : ([rt0S sqrt rule vr, vec 3 (b4S v4)].map (·.nfa)).sum = 7 := rfl
    have key := union_both (rtb_dofs sqrt rule refTet) (rtb_dofs sqrt rule swapTet) hdim r1 r2 (q := 4 + k) (j := 2)
      (by rw [hsum]; omega) (by rw [hsum]; omega)
    have e1 := fun T => allL_place [rt0S sqrt rule vr, vec 3 (b4S v4)] (rtbL sqrt rule T) T (m := 1) (l := k) (m' := 0) (l' := 2)
      (by simp) (by simpa [vec, b4S, leaf] using hk) (by simp) (by simp [rt0S, leaf])
    have e2 : (([rt0S sqrt rule vr, vec 3 (b4S v4)].map (·.nfa)).take 1).sum = 4 := rfl
    have e3 : (([rt0S sqrt rule vr, vec 3 (b4S v4)].map (·.nfa)).take 0).sum = 0 := rfl
    simp only [e2, e3, Nat.zero_add] at e1
    rw [e1, e1] at key
    simp only [rtbL, Nat.one_ne_zero, if_false, Nat.div_one, Nat.mul_one, Nat.add_zero] at key
    exact key
  obtain ⟨c, hc⟩ := rt0_centre (hr refTet refTet_nondeg 2 (by omega))
  obtain ⟨c', hc'⟩ := rt0_centre (hr swapTet swapTet_nondeg 2 (by omega))
  have hcz : c = 0 := by
    have k0 := hval 0 (by omega)
    have k1 := hval 1 (by omega)
    rw [hc _ 0 (by omega), hc' _ 0 (by omega)] at k0
    rw [hc _ 1 (by omega), hc' _ 1 (by omega)] at k1
    simp only [show List.range 4 = [0, 1, 2, 3] from rfl, List.foldl_cons, List.foldl_nil, swapTet, refTet] at k0 k1
    norm_num at k0 k1
    linarith
  have hd := rt0_dual hs refTet_nondeg (fun x k => vr refTet x 2 k) 0 (i := 2) (j := 2) (by omega) (by omega) rule hp hw
    (by simpa only [Nat.mul_zero, Nat.zero_add] using hr refTet refTet_nondeg 2 (by omega))
  rw [delta, if_pos rfl] at hd
  have hz : rt0Dof sqrt rule refTet (fun x k => vr refTet x 2 k) 2 0 = 0 := by
    unfold rt0Dof
    have : ∀ x k, k < 3 → vr refTet x 2 k = 0 := fun x k hk => by rw [hc x k hk, hcz, zero_mul]
    have h0 : ∀ p : Nat → K, (fun x k => vr refTet x 2 k) (facePoint refTet 2 p) (3 * 0 + 0) = 0 := fun p => this _ 0 (by omega)
    have h1 : ∀ p : Nat → K, (fun x k => vr refTet x 2 k) (facePoint refTet 2 p) (3 * 0 + 1) = 0 := fun p => this _ 1 (by omega)
    have h2 : ∀ p : Nat → K, (fun x k => vr refTet x 2 k) (facePoint refTet 2 p) (3 * 0 + 2) = 0 := fun p => this _ 2 (by omega)
    dsimp only at h0 h1 h2 ⊢
    simp only [h0, h1, h2, zero_mul, add_zero]
    rw [quad_const, mul_zero]
  rw [hz] at hd
  exact zero_ne_one hd

end Wrong

/-! ### The code's own set-up of the MINI space -/

/-- the MINI space with the functions computed by the code -/
def mini : List (Space ℚ) := [p1S (runVal p1Iden 1 4), b4S (runVal b4Iden 1 1)]

theorem mini_setup : (setup (1 / 2 ^ 52 : ℚ) (1 / 10 ^ 8) (1 / 10 ^ 7) mini).map (fun W => (List.range 25).map W) =
    some ((List.range 25).map miniW) := by decide +kernel

/-- **C47** for the MINI space as the code sets it up (machine epsilon, 1e-8 and 1e-7 as in the code, rational arithmetic): the
set-up succeeds and the interpolation returns the coefficients of the members of P1 + B4 on every tetrahedron. -/
theorem mini_setup_correct : ∃ W, setup (1 / 2 ^ 52 : ℚ) (1 / 10 ^ 8) (1 / 10 ^ 7) mini = some W ∧
    ∀ T, Nondeg T → Recovers (union mini W) T := by
  have h := mini_setup
  cases hW : setup (1 / 2 ^ 52 : ℚ) (1 / 10 ^ 8) (1 / 10 ^ 7) mini with
  | none => rw [hW] at h; cases h
  | some W =>
    refine ⟨W, rfl, fun T hv => ?_⟩
    rw [hW, Option.map_some, Option.some_inj] at h
    have hw : ∀ t, t < 25 → W t = miniW t := by
      intro t ht
      have := congrArg (fun l => l[t]?) h
      simpa [ht] using this
    have hm := mini_recovers (v1 := runVal p1Iden 1 4) (v4 := runVal b4Iden 1 1) hv (fun j _ => runVal_basis _ _ _ hv j)
      (runVal_basis _ _ _ hv 0)
    have hD : ∀ m (hmm : m < mini.length), Dofs mini[m] T
        ((fun m i g => if m = 0 then g (T i) 0 else g (fun d => ((List.range 4).foldl (fun s i => s + T i d) 0) / 4) 0 :
          Nat → Nat → Fn ℚ → ℚ) m) := by
      intro m hmm
      have hm2 : m < 2 := hmm
      interval_cases m
      · exact leaf_point (fun i => T i) fun _ _ _ _ => rfl
      · exact leaf_point (fun _ d => ((List.range 4).foldl (fun s i => s + T i d) 0) / 4) fun _ _ _ _ => rfl
    have hdim : ∀ s ∈ mini, s.dim = (mini.map (·.dim)).headD 0 := by simp [mini, p1S, b4S, leaf]
    have hm' := (union_recovers_iff hD hdim miniW).1 hm
    refine (union_recovers_iff hD hdim W).2 fun i hi j hj => ?_
    rw [← hm' i hi j hj]
    refine Finset.sum_congr rfl fun q hq => ?_
    have h5 : (mini.map (·.nfa)).sum = 5 := rfl
    rw [h5] at hi hq
    rw [hw _ (by rw [h5]; have := Finset.mem_range.1 hq; omega)]

/-! ### The hypotheses are met -/

section Examples

/-- two spaces with one function each, `1` and `x`, with the values at two nodes as d.o.f. -/
def exPair : List (Space ℚ) :=
  [leaf 1 1 (fun _ _ _ _ => 1) (fun T f _ r => f (T 0) r), leaf 1 1 (fun _ x _ _ => x 0) (fun T f _ r => f (T 1) r)]

theorem exPair_dofs (T : Tet ℚ) : ∀ m (hm : m < exPair.length), Dofs exPair[m] T ((fun m _ g => g (T m) 0 : Nat → Nat → Fn ℚ → ℚ) m) := by
  intro m hm
  have hm2 : m < 2 := hm
  interval_cases m
  · exact leaf_point (fun _ => T 0) fun _ _ _ _ => rfl
  · exact leaf_point (fun _ => T 1) fun _ _ _ _ => rfl

theorem exPair_dual : ∀ m (hm : m < exPair.length), ∀ i, i < exPair[m].nfa → ∀ j, j < exPair[m].nfa →
    (fun m _ g => g (refTet m) 0 : Nat → Nat → Fn ℚ → ℚ) m i (fun x k => exPair[m].val refTet x j k) = if i = j then 1 else 0 := by
  intro m hm i hi j hj
  have hm2 : m < 2 := hm
  interval_cases m
  · have hi1 : i < 1 := hi
    have hj1 : j < 1 := hj
    obtain ⟨rfl, rfl⟩ : i = 0 ∧ j = 0 := by omega
    rfl
  · have hi1 : i < 1 := hi
    have hj1 : j < 1 := hj
    obtain ⟨rfl, rfl⟩ : i = 0 ∧ j = 0 := by omega
    rfl

/-- the exact set-up of the pair succeeds and gives the weights `1, 0; -1, 1` -/
example : ∃ W, setup (1 / 2 ^ 52 : ℚ) 0 0 exPair = some W ∧ Recovers (union exPair W) refTet ∧
    (List.range 4).map W = [1, -1, 0, 1] := by
  have h : (setup (1 / 2 ^ 52 : ℚ) 0 0 exPair).map (fun W => (List.range 4).map W) = some [1, -1, 0, 1] := by decide +kernel
  cases hW : setup (1 / 2 ^ 52 : ℚ) 0 0 exPair with
  | none => rw [hW] at h; cases h
  | some W =>
    rw [hW, Option.map_some, Option.some_inj] at h
    exact ⟨W, rfl, union_setup_exact hW (by simp [exPair]) (exPair_dofs refTet) exPair_dual (by simp [exPair, leaf]), h⟩

/-- the set-up of the pair meets the hypotheses of `union_setup_succeeds_partial` -/
example : ∃ W, setup (1 / 2 ^ 52 : ℚ) (1 / 10 ^ 8) (1 / 10 ^ 7) exPair = some W := by
  have hsum : (exPair.map (·.nfa)).sum = 2 := rfl
  have hg : ∀ q, q < 2 → ∀ j, j < 2 → gramMat exPair (q + 2 * j) = if q = 0 ∧ j = 1 then 0 else 1 := by decide +kernel
  refine union_setup_succeeds_partial (by simp [exPair]) (by rw [hsum]; omega) (by norm_num) (by norm_num) ?_ ?_ ?_
  · rw [hsum]
    intro x hx
    have h0 := hx 0 (by omega)
    have h1 := hx 1 (by omega)
    have g0 := hg 0 (by omega) 0 (by omega)
    have g1 := hg 0 (by omega) 1 (by omega)
    have g2 := hg 1 (by omega) 0 (by omega)
    have g3 := hg 1 (by omega) 1 (by omega)
    norm_num at g0 g1 g2 g3
    simp [Finset.sum_range_succ, ent, g0, g1, g2, g3] at h0 h1
    intro j hj
    interval_cases j
    · exact h0
    · linarith
  · rw [hsum]; decide +kernel
  · rw [hsum]
    have h : (fullPivLU (1 / 2 ^ 52 : ℚ) 2 ⟨gramMat exPair, id, id⟩).map (fun s => (s.q (s.q 0), s.q (s.q 1))) = some (0, 1) := by
      decide +kernel
    intro s hs i hi
    rw [hs, Option.map_some, Option.some_inj] at h
    simp only [Prod.mk.injEq] at h
    interval_cases i
    · exact h.1
    · exact h.2

/-- with the tolerances of the code, the bounds of `union_setup_accurate` are met with `M = N = 1`, so the function `3 + 2 x` of the
pair has the d.o.f. `3` and `2` up to `5 (2e-8 + 2e-7)` -/
example : ∃ W, setup (1 / 2 ^ 52 : ℚ) (1 / 10 ^ 8) (1 / 10 ^ 7) exPair = some W ∧
    |(union exPair W).interp refTet (fun x _ => 3 + 2 * x 0) 1 1 (fun _ _ => 7) 0 1 - 2| ≤ 22 / 10 ^ 8 * 5 := by
  have h : (setup (1 / 2 ^ 52 : ℚ) (1 / 10 ^ 8) (1 / 10 ^ 7) exPair).map (fun W => (List.range 4).map W) = some [1, -1, 0, 1] := by
    decide +kernel
  cases hW : setup (1 / 2 ^ 52 : ℚ) (1 / 10 ^ 8) (1 / 10 ^ 7) exPair with
  | none => rw [hW] at h; cases h
  | some W =>
    refine ⟨W, rfl, ?_⟩
    rw [hW, Option.map_some, Option.some_inj] at h
    have w : W 0 = 1 ∧ W 1 = -1 ∧ W 2 = 0 ∧ W 3 = 1 := by simpa [List.range_succ] using h
    have hsum : (exPair.map (·.nfa)).sum = 2 := rfl
    have hg : ∀ q, q < 2 → ∀ j, j < 2 → gramMat exPair (q + 2 * j) = if q = 0 ∧ j = 1 then 0 else 1 := by decide +kernel
    have key := union_setup_accurate hW (by simp [exPair]) (by norm_num) (by norm_num) (by norm_num) (exPair_dofs refTet) exPair_dual
      (by simp [exPair, leaf]) (M := 1) (N := 1)
      (by
        intro q hq j hj
        have h1 := gramMat_eq (exPair_dofs refTet) (dim := 1) (by simp [exPair, leaf]) exPair_dual q j hq hj
        rw [hsum] at hq hj h1
        rw [← h1, hg q hq j hj]
        split <;> norm_num)
      (by
        rw [hsum]
        intro i hi q hq
        interval_cases i <;> interval_cases q <;> norm_num [w])
      (by rw [hsum]; norm_num) (fun _ j => if j = 0 then 3 else 2) (fun x _ => 3 + 2 * x 0) 1 1 (fun _ _ => 7) (by show 1 < 2; omega)
      (by
        intro r hr x k hk
        show _ = ∑ j ∈ Finset.range 2, _
        rw [Finset.sum_range_succ, Finset.sum_range_one]
        show 3 + 2 * x 0 = 3 * (1 : ℚ) + 2 * x 0
        ring) 0 (by omega)
    refine le_trans key.1 ?_
    show _ * ∑ j ∈ Finset.range 2, _ ≤ _
    rw [hsum, Finset.sum_range_succ, Finset.sum_range_one]
    norm_num

/-- the MINI space on a general tetrahedron, with the functions computed by the code -/
example : Recovers (union [p1S (runVal p1Iden 1 4), b4S (runVal b4Iden 1 1)] (miniW : Nat → ℚ)) exT :=
  mini_recovers exT_nondeg (fun j _ => runVal_basis _ _ _ exT_nondeg j) (runVal_basis _ _ _ exT_nondeg 0)

/-- the same through the reference tetrahedron -/
example : Recovers (union [p1S (runVal p1Iden 1 4), b4S (runVal b4Iden 1 1)] (miniW : Nat → ℚ)) exT := by
  obtain ⟨A1, v1, h1⟩ := p1_affine (K := ℚ) (val := runVal p1Iden 1 4) fun T hT j _ => runVal_basis _ _ _ hT j
  obtain ⟨A4, v4, h4⟩ := b4_affine (K := ℚ) (val := runVal b4Iden 1 1) fun T hT => runVal_basis _ _ _ hT 0
  refine union_transfer (A := fun m => if m = 0 then A1 else A4) (v := fun m => if m = 0 then v1 else v4) ?_
    (by simp [p1S, b4S, leaf]) refTet_nondeg exT_nondeg
    (mini_recovers refTet_nondeg (fun j _ => runVal_basis _ _ _ refTet_nondeg j) (runVal_basis _ _ _ refTet_nondeg 0))
  intro m hm
  have hm2 : m < 2 := hm
  interval_cases m
  · exact h1
  · exact h4

end Examples

end Verif.Interp
