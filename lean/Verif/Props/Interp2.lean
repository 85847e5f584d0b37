import Verif.Props.Interp
import Verif.Lemmas.InterpSetup

/-!
Property C47: interpolation on unions of spaces and its set-up.
-/
set_option linter.unusedSectionVars false
namespace Verif.Interp

open Verif.Dense Verif.DofMap Verif.Spaces Verif.Geometry

section Any
variable {K : Type} [Field K] [DecidableEq K]

/-- **C47** for unions: interpolation returns the coefficients of members of the union on the tetrahedron `T` exactly when the
weights invert the matrix of the functionals of all members (`allL`: functional `q` belongs to one member) on the functions of
all members. -/
theorem union_recovers_iff {ss : List (Space K)} {T : Tet K} {Ls : Nat → Nat → Fn K → K}
    (h : ∀ m (hm : m < ss.length), Dofs ss[m] T (Ls m)) (hdim : ∀ s ∈ ss, s.dim = (ss.map (·.dim)).headD 0) (W : Nat → K) :
    Recovers (union ss W) T ↔ ∀ i, i < (ss.map (·.nfa)).sum → ∀ j, j < (ss.map (·.nfa)).sum →
      ∑ q ∈ Finset.range (ss.map (·.nfa)).sum, W (i + (ss.map (·.nfa)).sum * q) * allL ss Ls q (fun x k => unionVal ss T x j k) =
        if i = j then 1 else 0 :=
  union_recovers_iff' h hdim W

/-- the functionals and functions in the statement above are those of the members -/
theorem allL_place (ss : List (Space K)) (Ls : Nat → Nat → Fn K → K) (T : Tet K) {m l m' l' : Nat} (hm : m < ss.length)
    (hl : l < ss[m].nfa) (hm' : m' < ss.length) (hl' : l' < ss[m'].nfa) :
    allL ss Ls (((ss.map (·.nfa)).take m).sum + l) (fun x k => unionVal ss T x (((ss.map (·.nfa)).take m').sum + l') k) =
      Ls m l (fun x k => ss[m'].val T x l' k) := by
  have h1 : comp (ss.map (·.nfa)) (((ss.map (·.nfa)).take m).sum + l) = (m, l) :=
    comp_at (by simpa using hm) (by rw [getD_map hm]; exact hl)
  have h2 : comp (ss.map (·.nfa)) (((ss.map (·.nfa)).take m').sum + l') = (m', l') :=
    comp_at (by simpa using hm') (by rw [getD_map hm']; exact hl')
  unfold allL unionVal
  rw [h1, h2]
  dsimp only
  rw [List.getElem?_eq_getElem hm']

/-- **C47** for unions of spaces built on barycentric coordinates: weights that are right on one tetrahedron are right on every
one. -/
theorem union_transfer {ss : List (Space K)} {A : Nat → Nat → List (K × (Nat → K) × Nat)} {v : Nat → (Nat → K) → Nat → Nat → K}
    (h : ∀ m (hm : m < ss.length), Affine ss[m] (A m) (v m)) (hdim : ∀ s ∈ ss, s.dim = (ss.map (·.dim)).headD 0)
    {W : Nat → K} {T₀ T : Tet K} (h0 : Nondeg T₀) (hv : Nondeg T) (hr : Recovers (union ss W) T₀) : Recovers (union ss W) T := by
  have hiff := (union_recovers_iff' (fun m hm => (h m hm).dofs T₀ h0) hdim W).1 hr
  refine affine_transfer' (union_affine h hdim ?_) h0 hv hr
  intro i hi
  by_contra hn
  have := hiff i hi i hi
  rw [if_pos rfl, Finset.sum_eq_zero] at this
  · exact zero_ne_one this
  · intro q hq
    have : W (i + (ss.map (·.nfa)).sum * q) = 0 := by
      by_contra hne; exact hn ⟨q, Finset.mem_range.1 hq, hne⟩
    rw [this, zero_mul]

/-- Weights right on two tetrahedra exist only if the members' functionals act on the members' functions in the same way on
both. -/
theorem union_both {ss : List (Space K)} {T T' : Tet K} {Ls Ls' : Nat → Nat → Fn K → K}
    (h : ∀ m (hm : m < ss.length), Dofs ss[m] T (Ls m)) (h' : ∀ m (hm : m < ss.length), Dofs ss[m] T' (Ls' m))
    (hdim : ∀ s ∈ ss, s.dim = (ss.map (·.dim)).headD 0) {W : Nat → K}
    (hr : Recovers (union ss W) T) (hr' : Recovers (union ss W) T')
    {q j : Nat} (hq : q < (ss.map (·.nfa)).sum) (hj : j < (ss.map (·.nfa)).sum) :
    allL ss Ls q (fun x k => unionVal ss T x j k) = allL ss Ls' q (fun x k => unionVal ss T' x j k) :=
  inverse_unique (fun i q => W (i + (ss.map (·.nfa)).sum * q)) (fun q j => allL ss Ls q (fun x k => unionVal ss T x j k))
    (fun q j => allL ss Ls' q (fun x k => unionVal ss T' x j k))
    ((union_recovers_iff' h hdim W).1 hr) ((union_recovers_iff' h' hdim W).1 hr') q hq j hj

end Any

section Leaves
variable {K : Type} [Field K] [LinearOrder K] [IsStrictOrderedRing K] {val : Tet K → (Nat → K) → Nat → Nat → K}

theorem ratPoint_ptAt (T : Tet K) (c : Nat → ℚ) : ratPoint T c = ptAt T (fun a => ((c a : ℚ) : K)) := rfl

theorem rat_sum {c : Nat → ℚ} (hc : c 0 + c 1 + c 2 + c 3 = 1) : ((c 0 : ℚ) : K) + (c 1 : ℚ) + (c 2 : ℚ) + (c 3 : ℚ) = 1 := by
  have := congrArg (Rat.cast : ℚ → K) hc
  push_cast at this
  exact this

/-- **C47**: P1 is built on barycentric coordinates. -/
theorem p1_affine (hf : ∀ T, Nondeg T → ∀ j, j < 4 → IsBasis p1Iden 1 4 j T fun x k => val T x j k) :
    ∃ A v, Affine (p1S val) A v :=
  ⟨_, _, leaf_affine_point (w := fun l j => if j < 4 then l j else 0) (fun i a => if a = i then 1 else 0)
    (fun i hi => by interval_cases i <;> simp)
    (fun T f i r hi => by
      show f (T i) r = _
      congr 1
      funext k
      unfold ptAt
      interval_cases i <;> simp)
    (fun j hj m U r n hr hn => by rw [if_pos hj]; exact p1Iden_val hr hj hn)
    (fun j l l' h => by
      by_cases hj : j < 4
      · rw [if_pos hj, if_pos hj, h j hj]
      · rw [if_neg hj, if_neg hj]) hf⟩

/-- **C47**: P2 is built on barycentric coordinates. -/
theorem p2_affine (hf : ∀ T, Nondeg T → ∀ j, j < 10 → IsBasis p2Iden 1 10 j T fun x k => val T x j k) :
    ∃ A v, Affine (p2S val) A v :=
  ⟨_, _, leaf_affine_point (w := fun l j => p2v l j) (fun i a => ((pts2 i a : ℚ) : K))
    (fun i hi => rat_sum (pts2_sum i hi)) (fun T f i r hi => p2Dof_eq T f hi r)
    (fun j hj m U r n hr hn => p2Iden_val hr hj hn) (fun j => p2v_congr j) hf⟩

/-- **C47**: P3 is built on barycentric coordinates. -/
theorem p3_affine (hf : ∀ T, Nondeg T → ∀ j, j < 20 → IsBasis p3Iden 1 20 j T fun x k => val T x j k) :
    ∃ A v, Affine (p3S val) A v :=
  ⟨_, _, leaf_affine_point (w := fun l j => p3v l j) (fun i a => ((pts3 i a : ℚ) : K))
    (fun i hi => rat_sum (pts3_sum i hi)) (fun T f i r hi => p3Dof_eq T f hi r)
    (fun j hj m U r n hr hn => p3Iden_val hr hj hn) (fun j => p3v_congr j) hf⟩

/-- **C47**: the edge bubbles are built on barycentric coordinates. -/
theorem b2_affine (hf : ∀ T, Nondeg T → ∀ j, j < 6 → IsBasis b2Iden 1 6 j T fun x k => val T x j k) :
    ∃ A v, Affine (b2S val) A v :=
  ⟨_, _, leaf_affine_point (w := fun l j => b2v l j) (fun i a => ((pts2 (i + 4) a : ℚ) : K))
    (fun i hi => rat_sum (pts2_sum (i + 4) (by omega)))
    (fun T f i r hi => by
      have e1 : b2Dof T f i r = p2Dof T f (i + 4) r := by
        rw [p2Dof, if_neg (by omega), Nat.add_sub_cancel]; rfl
      show b2Dof T f i r = _
      rw [e1, p2Dof_eq T f (by omega) r]; rfl)
    (fun j hj m U r n hr hn => b2Iden_val hr hj hn) (fun j => b2v_congr j) hf⟩

/-- **C47**: the cell bubble is built on barycentric coordinates. -/
theorem b4_affine (hf : ∀ T, Nondeg T → IsBasis b4Iden 1 1 0 T fun x k => val T x 0 k) :
    ∃ A v, Affine (b4S val) A v :=
  ⟨_, _, leaf_affine_point (op := b4Iden) (w := fun l _ => b4v l) (fun _ _ => (1 / 4 : K))
    (fun _ _ => by norm_num)
    (fun T f i r hi => by
      show f _ r = _
      congr 1
      funext d
      unfold ptAt
      simp only [show List.range 4 = [0, 1, 2, 3] from rfl, List.foldl_cons, List.foldl_nil]
      ring)
    (fun j hj m U r n hr hn => by
      obtain rfl : j = 0 := by omega
      exact b4Iden_val hr hn) (fun _ => b4v_congr)
    (fun T hv j hj => by
      obtain rfl : j = 0 := by omega
      exact hf T hv)⟩

/-- **C47**: P0 is built on barycentric coordinates. -/
theorem p0_affine {rule : List (QPoint K)} (hp : OnPlane rule 4)
    (hf : ∀ T, Nondeg T → IsBasis p0Iden 1 1 0 T fun x k => val T x 0 k) : ∃ A v, Affine (p0S rule val) A v :=
  ⟨_, _, leaf_affine_mean (op := p0Iden) (w := fun _ _ => 1) rule (fun _ p => p)
    (fun _ _ q hq => by
      have := hp q hq
      simpa [show List.range 4 = [0, 1, 2, 3] from rfl, ← add_assoc] using this)
    (fun _ _ _ _ _ => rfl)
    (fun j hj m U r n hr hn => by
      obtain rfl : j = 0 := by omega
      rw [place1]; exact p0Iden_at _ _ hr hn) (fun _ _ _ _ => rfl)
    (fun T hv j hj => by
      obtain rfl : j = 0 := by omega
      exact hf T hv)⟩

/-- **C47**: CR1 is built on barycentric coordinates. -/
theorem cr1_affine {rule : List (QPoint K)} (hp : OnPlane rule 3)
    (hf : ∀ T, Nondeg T → ∀ j, j < 4 → IsBasis cr1Iden 1 4 j T fun x k => val T x j k) : ∃ A v, Affine (cr1S rule val) A v :=
  ⟨_, _, leaf_affine_mean (op := cr1Iden) (w := fun l j => cr1v l j) rule
    (fun i p a => if a = (i + 0) % 4 then p 0 else if a = (i + 1) % 4 then p 1 else if a = (i + 2) % 4 then p 2 else 0)
    (fun i hi q hq => by
      have h1 := hp q hq
      simp [show List.range 3 = [0, 1, 2] from rfl] at h1
      interval_cases i <;> simp <;> linear_combination h1)
    (fun T f i r hi => by
      show quad rule _ = quad rule _
      refine quad_congr _ fun p => ?_
      congr 1
      funext k
      unfold ptAt facePoint
      interval_cases i <;> simp <;> ring)
    (fun j hj m U r n hr hn => cr1Iden_val hr hj hn) (fun j => cr1v_congr j) hf⟩

end Leaves

section Setup
variable {K : Type} [Field K] [LinearOrder K] [IsStrictOrderedRing K]

/-- **C47** for the set-up of unions: whenever it succeeds, with any values of its tolerances, the d.o.f. computed on the reference
tetrahedron for a member of the union differ from its coefficients by at most the sum of their absolute values times
`tol (1 + M) + nf * small * N * M`, with `M` a bound for the members' functionals on the members' functions and `N` a bound for
the weights.  Nothing is assumed about the linear solver. -/
theorem union_setup_accurate {eps tol small : K} {ss : List (Space K)} {W : Nat → K} (hset : setup eps tol small ss = some W)
    (hlen : 2 ≤ ss.length) (htol : 0 ≤ tol) (h0 : 0 ≤ small) (h1 : small < 1)
    {Ls : Nat → Nat → Fn K → K} (h : ∀ m (hm : m < ss.length), Dofs ss[m] refTet (Ls m))
    (hdual : ∀ m (hm : m < ss.length), ∀ i, i < ss[m].nfa → ∀ j, j < ss[m].nfa →
      Ls m i (fun x k => ss[m].val refTet x j k) = if i = j then 1 else 0)
    (hdim : ∀ s ∈ ss, s.dim = (ss.map (·.dim)).headD 0) {M N : K}
    (hM : ∀ q, q < (ss.map (·.nfa)).sum → ∀ j, j < (ss.map (·.nfa)).sum → |allL ss Ls q (fun x k => unionVal ss refTet x j k)| ≤ M)
    (hN : ∀ i, i < (ss.map (·.nfa)).sum → ∀ q, q < (ss.map (·.nfa)).sum → |W (i + (ss.map (·.nfa)).sum * q)| ≤ N)
    (hsmall : tol * (1 + M) + (ss.map (·.nfa)).sum * (small * N * M) < 1)
    (c : Nat → Nat → K) (f : Fn K) (i fusion : Nat) (u : Nat → Nat → K) (hi : i < (union ss W).nfa)
    (hf : ∀ r, r < fusion → ∀ x k, k < (union ss W).dim →
      f x ((union ss W).dim * r + k) = ∑ j ∈ Finset.range (union ss W).nfa, c r j * (union ss W).val refTet x j k)
    (r : Nat) (hr : r < fusion) :
    |(union ss W).interp refTet f i fusion u r i - c r i| ≤
        (tol * (1 + M) + (ss.map (·.nfa)).sum * (small * N * M)) * ∑ j ∈ Finset.range (union ss W).nfa, |c r j| ∧
    ∀ r' j, ¬ (r' < fusion ∧ j = i) → (union ss W).interp refTet f i fusion u r' j = u r' j := by
  have hnf : (union ss W).nfa = (ss.map (·.nfa)).sum := rfl
  have hi' : i < (ss.map (·.nfa)).sum := hi
  have hgram := fun q hq j hj => gramMat_eq h hdim hdual q j hq hj
  have hb := setup_bound hset hlen (by omega) htol h0 h1 (M := M) (N := N)
    (fun q hq j hj => by rw [hgram q hq j hj]; exact hM q hq j hj) hN
  have hent : ∀ i, ∀ j, j < (ss.map (·.nfa)).sum → mulEnt (ss.map (·.nfa)).sum W (gramMat ss) i j =
      unionL ss W Ls i (fun x k => unionVal ss refTet x j k) := by
    intro i j hj
    unfold mulEnt unionL
    exact Finset.sum_congr rfl fun q hq => by rw [hgram q (Finset.mem_range.1 hq) j hj]
  have hW : ∀ i, i < (ss.map (·.nfa)).sum → ∃ q, q < (ss.map (·.nfa)).sum ∧ W (i + (ss.map (·.nfa)).sum * q) ≠ 0 := by
    intro i hi
    by_contra hn
    have := hb i hi i hi
    unfold mulEnt at this
    rw [if_pos rfl, Finset.sum_eq_zero] at this
    · rw [zero_sub, abs_neg, abs_one] at this
      exact absurd hsmall (not_lt.2 this)
    · intro q hq
      have : W (i + (ss.map (·.nfa)).sum * q) = 0 := by
        by_contra hne; exact hn ⟨q, Finset.mem_range.1 hq, hne⟩
      rw [this, zero_mul]
  have hD := union_dofs h hdim hW
  constructor
  · rw [hD.run f i fusion u hi, if_pos ⟨hr, rfl⟩]
    rw [hD.loc i hi _ (fun x k => ∑ j ∈ Finset.range (union ss W).nfa, c r j * (union ss W).val refTet x j k)
      (fun x k hk => hf r hr x k hk)]
    rw [hD.sum hi (Finset.range (union ss W).nfa) (c r) (fun j x k => (union ss W).val refTet x j k)]
    have hci : c r i = ∑ j ∈ Finset.range (union ss W).nfa, c r j * (if i = j then 1 else 0) := by
      rw [Finset.sum_eq_single i]
      · rw [if_pos rfl, mul_one]
      · intro j _ hj; rw [if_neg (Ne.symm hj), mul_zero]
      · intro hn; exact absurd (Finset.mem_range.2 hi) hn
    conv_lhs => rw [hci]
    rw [← Finset.sum_sub_distrib, Finset.mul_sum]
    refine le_trans (Finset.abs_sum_le_sum_abs _ _) (Finset.sum_le_sum fun j hj => ?_)
    have hj' : j < (ss.map (·.nfa)).sum := Finset.mem_range.1 hj
    rw [← mul_sub, abs_mul, mul_comm]
    refine mul_le_mul_of_nonneg_right ?_ (abs_nonneg _)
    have := hb i hi' j hj'
    rw [hent i j hj'] at this
    exact this
  · intro r' j hn
    rw [hD.run f i fusion u hi, if_neg hn]

/-- **C47** for the set-up of unions without rounding: with both tolerances zero, a set-up that succeeds makes the interpolation
exact on the reference tetrahedron. -/
theorem union_setup_exact {eps : K} {ss : List (Space K)} {W : Nat → K} (hset : setup eps 0 0 ss = some W)
    (hlen : 2 ≤ ss.length)
    {Ls : Nat → Nat → Fn K → K} (h : ∀ m (hm : m < ss.length), Dofs ss[m] refTet (Ls m))
    (hdual : ∀ m (hm : m < ss.length), ∀ i, i < ss[m].nfa → ∀ j, j < ss[m].nfa →
      Ls m i (fun x k => ss[m].val refTet x j k) = if i = j then 1 else 0)
    (hdim : ∀ s ∈ ss, s.dim = (ss.map (·.dim)).headD 0) : Recovers (union ss W) refTet := by
  rw [union_recovers_iff' h hdim]
  intro i hi j hj
  have hbd : ∀ g : Nat → Nat → K, ∀ n, ∀ a, a < n → ∀ b, b < n → |g a b| ≤ ∑ a ∈ Finset.range n, ∑ b ∈ Finset.range n, |g a b| := by
    intro g n a ha b hb
    refine le_trans (Finset.single_le_sum (f := fun b => |g a b|) (fun _ _ => abs_nonneg _) (Finset.mem_range.2 hb)) ?_
    exact Finset.single_le_sum (f := fun a => ∑ b ∈ Finset.range n, |g a b|)
      (fun _ _ => Finset.sum_nonneg fun _ _ => abs_nonneg _) (Finset.mem_range.2 ha)
  have hb := setup_bound hset hlen (by omega) (le_refl _) (le_refl _) zero_lt_one
    (hbd (fun i k => gramMat ss (i + (ss.map (·.nfa)).sum * k)) _) (hbd (fun i k => W (i + (ss.map (·.nfa)).sum * k)) _) i hi j hj
  simp only [zero_mul, mul_zero, add_zero, abs_nonpos_iff] at hb
  rw [sub_eq_zero] at hb
  rw [← hb]
  unfold mulEnt
  exact Finset.sum_congr rfl fun q hq => by rw [gramMat_eq h hdim hdual q j (Finset.mem_range.1 hq) hj]

/-- **C47**, partial: the set-up succeeds, with any tolerances, when the matrix is nonsingular and the linear solver works as in C20
(no tiny pivots; column exchanges that are their own inverse: the code fails otherwise, see C20). -/
theorem union_setup_succeeds_partial {eps tol small : K} {ss : List (Space K)} (hlen : 2 ≤ ss.length)
    (hnf : 0 < (ss.map (·.nfa)).sum) (htol : 0 ≤ tol) (h0 : 0 ≤ eps) (hA : NonSing (ss.map (·.nfa)).sum (gramMat ss))
    (ht : NoTiny eps (ss.map (·.nfa)).sum (List.range (ss.map (·.nfa)).sum) ⟨gramMat ss, id, id⟩ = true)
    (hq : ∀ s, fullPivLU eps (ss.map (·.nfa)).sum ⟨gramMat ss, id, id⟩ = some s → ∀ i, i < (ss.map (·.nfa)).sum → s.q (s.q i) = i) :
    ∃ W, setup eps tol small ss = some W := by
  obtain ⟨Y, I, h1, h2, h3⟩ := lu_inverse_partial eps _ hnf (gramMat ss) (fun _ => 0) hA h0 ht hq
  unfold setup
  dsimp only
  rw [if_neg (by omega), if_neg (by omega), h1]
  dsimp only
  refine ⟨dropSmall small (ss.map (·.nfa)).sum Y, ?_⟩
  rw [if_neg]
  generalize (ss.map (·.nfa)).sum = n at *
  generalize gramMat ss = B at *
  have hinv : ∀ i, i < n → ∀ k, k < n → ∑ j ∈ Finset.range n, Y (i + n * j) * B (j + n * k) = if i = k then 1 else 0 := by
    refine left_right_inverse (fun i j => B (i + n * j)) (fun i j => Y (i + n * j)) ?_
    intro i hi k hk
    have := h3 i hi k hk
    rw [h2 i hi k hk] at this
    simpa only [ent, Nat.mul_comm] using this
  obtain ⟨g1, g2⟩ := gramCheck_spec n Y B
  generalize gramCheck n Y B = e at *
  rw [not_lt]
  have hM : 0 ≤ e.2 := le_trans (abs_nonneg _) (g1 0 hnf 0 hnf).2
  have he : e.1 ≤ 0 := by
    refine (g2 0 e.2 (le_refl _) hM fun i hi k hk => ⟨?_, (g1 i hi k hk).2⟩).1
    have : mulEnt n Y B i k = if i = k then 1 else 0 := hinv i hi k hk
    rw [this, sub_self, abs_zero]
  exact le_trans he (mul_nonneg htol (by linarith))

end Setup

end Verif.Interp
