import Verif.Lemmas.InterpAffine

/-!
Property C47: interpolation on a space composed from others returns the coefficients of the members of the space.
Basic spaces, vectors, products.
-/
set_option linter.unusedSectionVars false
namespace Verif.Interp

open Verif.Dense Verif.DofMap Verif.Spaces Verif.Geometry

section Basic

variable {K : Type} [Field K] [LinearOrder K] [IsStrictOrderedRing K] {T : Tet K} {val : Tet K → (Nat → K) → Nat → Nat → K}

/-- **C47** for P0: the functionals of the interpolation are dual to the functions the code computes. -/
theorem p0_unisolvent (hv : Nondeg T) {rule : List (QPoint K)} (hw : weight rule = 1) (hf : IsBasis p0Iden 1 1 0 T fun x k => val T x 0 k) :
    Unisolvent (p0S rule val) T :=
  leaf_unisolvent (leaf_mean rule (fun _ p k => p 0 * T 0 k + p 1 * T 1 k + p 2 * T 2 k + p 3 * T 3 k) fun _ _ _ _ => rfl)
    (fun i hi j hj => by
      obtain ⟨rfl, rfl⟩ : i = 0 ∧ j = 0 := by omega
      rw [if_pos rfl]
      exact p0_dual hv (fun x k => val T x 0 k) 0 rule hw (by simpa only [Nat.zero_add] using hf))

/-- **C47** for P1. -/
theorem p1_unisolvent (hv : Nondeg T) (hf : ∀ j, j < 4 → IsBasis p1Iden 1 4 j T fun x k => val T x j k) : Unisolvent (p1S val) T :=
  leaf_unisolvent (leaf_point (fun i => T i) fun _ _ _ _ => rfl)
    (fun i hi j hj => p1_dual hv (fun x k => val T x j k) 0 hi hj (by simpa only [Nat.zero_add] using hf j hj))

/-- **C47** for P2. -/
theorem p2_unisolvent (hv : Nondeg T) (hf : ∀ j, j < 10 → IsBasis p2Iden 1 10 j T fun x k => val T x j k) : Unisolvent (p2S val) T :=
  leaf_unisolvent (leaf_point (fun i => ratPoint T (pts2 i)) fun f _ r hi => p2Dof_eq T f hi r)
    (fun i hi j hj => p2_dual hv (fun x k => val T x j k) 0 hi hj (by simpa only [Nat.zero_add] using hf j hj))

/-- **C47** for P3. -/
theorem p3_unisolvent (hv : Nondeg T) (hf : ∀ j, j < 20 → IsBasis p3Iden 1 20 j T fun x k => val T x j k) : Unisolvent (p3S val) T :=
  leaf_unisolvent (leaf_point (fun i => ratPoint T (pts3 i)) fun f _ r hi => p3Dof_eq T f hi r)
    (fun i hi j hj => p3_dual hv (fun x k => val T x j k) 0 hi hj (by simpa only [Nat.zero_add] using hf j hj))

/-- **C47** for the edge bubbles. -/
theorem b2_unisolvent (hv : Nondeg T) (hf : ∀ j, j < 6 → IsBasis b2Iden 1 6 j T fun x k => val T x j k) : Unisolvent (b2S val) T :=
  leaf_unisolvent (leaf_point (fun i => edgeMid T i) fun _ _ _ _ => rfl)
    (fun i hi j hj => b2_dual hv (fun x k => val T x j k) 0 hi hj (by simpa only [Nat.zero_add] using hf j hj))

/-- **C47** for the cell bubble. -/
theorem b4_unisolvent (hv : Nondeg T) (hf : IsBasis b4Iden 1 1 0 T fun x k => val T x 0 k) : Unisolvent (b4S val) T :=
  leaf_unisolvent (leaf_point (fun _ d => ((List.range 4).foldl (fun s i => s + T i d) 0) / 4) fun _ _ _ _ => rfl)
    (fun i hi j hj => by
      obtain ⟨rfl, rfl⟩ : i = 0 ∧ j = 0 := by omega
      rw [if_pos rfl]
      exact b4_dual hv (fun x k => val T x 0 k) 0 (by simpa only [Nat.zero_add] using hf))

/-- **C47** for CR1. -/
theorem cr1_unisolvent (hv : Nondeg T) {rule : List (QPoint K)} (hp : OnPlane rule 3) (hw : weight rule = 1)
    (hm : ∀ c, c < 3 → moment rule c = 1 / 3) (hf : ∀ j, j < 4 → IsBasis cr1Iden 1 4 j T fun x k => val T x j k) :
    Unisolvent (cr1S rule val) T :=
  leaf_unisolvent (leaf_mean rule (fun i => facePoint T i) fun _ _ _ _ => rfl)
    (fun i hi j hj => cr1_dual hv (fun x k => val T x j k) 0 hi hj rule hp hw hm (by simpa only [Nat.zero_add] using hf j hj))

/-- **C47** for RT0. -/
theorem rt0_unisolvent {sqrt : K → K} (hs : IsSqrt sqrt) (hv : Nondeg T) {rule : List (QPoint K)} (hp : OnPlane rule 3)
    (hw : weight rule = 1) (hf : ∀ j, j < 4 → IsBasis (rt0Iden sqrt) 3 4 j T fun x k => val T x j k) :
    Unisolvent (rt0S sqrt rule val) T :=
  leaf_unisolvent (leaf_flux rule (fun i => facePoint T i)
      (fun i => (Geometry.faceNormal sqrt (T i) (T ((i + 1) % 4)) (T ((i + 2) % 4)) (T ((i + 3) % 4))).2) fun _ _ _ _ => rfl)
    (fun i hi j hj => rt0_dual hs hv (fun x k => val T x j k) 0 hi hj rule hp hw
      (by simpa only [Nat.mul_zero, Nat.zero_add] using hf j hj))

/-- **C47** for ND0. -/
theorem nd0_unisolvent {sqrt : K → K} (hs : IsSqrt sqrt) (hv : Nondeg T) {rule : List (QPoint K)} (hp : OnPlane rule 2)
    (hw : weight rule = 1) (hf : ∀ j, j < 6 → IsBasis (nd0Iden sqrt) 3 6 j T fun x k => val T x j k) :
    Unisolvent (nd0S sqrt rule val) T :=
  leaf_unisolvent (leaf_flux rule (fun i p k => T (lookup (2 * i)) k * p 0 + T (lookup (2 * i + 1)) k * p 1)
      (fun i => tangent sqrt T i) fun _ _ _ _ => rfl)
    (fun i hi j hj => nd0_dual hs hv (fun x k => val T x j k) 0 hi hj rule hp hw
      (by simpa only [Nat.mul_zero, Nat.zero_add] using hf j hj))

/-- A run of the code of an operator, as values of a space. -/
def runVal (op : Mem K → (Nat → K) → Nat → K) (dim nfa : Nat) : Tet K → (Nat → K) → Nat → Nat → K := fun T x i k =>
  let m := single T (baryCoord (T 0) (T 1) (T 2) (T 3) x fun _ => 0) fun _ => 0
  op m (fun _ => 0) (place m dim nfa 0 i 0 k)

theorem runVal_basis (op : Mem K → (Nat → K) → Nat → K) (dim nfa : Nat) (hv : Nondeg T) (j : Nat) :
    IsBasis op dim nfa j T fun x k => runVal op dim nfa T x j k :=
  basis_exists op dim nfa j T (fun _ => 0) (fun _ => 0) hv

end Basic

section Composed

variable {K : Type} [Field K]

/-- **C47** for vectors of a space: if the functionals of the base are dual to its functions, so are those of the vector, hence
interpolation of members of the vector space returns their coefficients. -/
theorem vec_interp_correct {s : Space K} {T : Tet K} (h : Unisolvent s T) (d : Nat) :
    Unisolvent (vec d s) T ∧ Recovers (vec d s) T :=
  ⟨vec_unisolvent h d, recovers_of_unisolvent (vec_unisolvent h d)⟩

/-- **C47** for products of spaces. -/
theorem prod_interp_correct {ss : List (Space K)} {T : Tet K} (h : ∀ s ∈ ss, Unisolvent s T) :
    Unisolvent (prod ss) T ∧ Recovers (prod ss) T :=
  ⟨prod_unisolvent h, recovers_of_unisolvent (prod_unisolvent h)⟩

/-- **C47**: the recursion of the compile-time product does what the run-time product does, for every d.o.f. -/
theorem choose_interp_correct (ss : List (Space K)) (T : Tet K) (f : Fn K) (fusion : Nat) (u : Nat → Nat → K) (i : Nat)
    (hi : i < (prod ss).nfa) :
    choose (prod ss).dim T f i fusion u ss 0 0 = some ((prod ss).interp T f i fusion u) := by
  obtain ⟨m, l, hm, hl, he, -⟩ := space_at (ss := ss) hi
  subst he
  rw [prod_run_eq f hm hl]
  have := choose_eq (T := T) (ss.map (·.dim)).sum f fusion u ss 0 0 m l hm hl
  simp only [Nat.zero_add] at this
  exact this

/-- **C47**: in every space composed from vectors and products of spaces with dual functionals the d.o.f. returned for an
arbitrary function are linear in it and depend on the d.o.f. only through the functional; interpolation is a projection: the
d.o.f. of the interpolant (the combination of basis functions with the computed d.o.f.) are the d.o.f. computed. -/
theorem interp_projection {s : Space K} {T : Tet K} (h : Unisolvent s T) (f : Fn K) (u u' : Nat → Nat → K) {i : Nat}
    (hi : i < s.nfa) :
    s.interp T (fun x k => ∑ j ∈ Finset.range s.nfa, s.interp T f j 1 u 0 j * s.val T x j k) i 1 u' 0 i = s.interp T f i 1 u 0 i := by
  have hr := recovers_of_unisolvent h (fun _ j => s.interp T f j 1 u 0 j)
    (fun x k => ∑ j ∈ Finset.range s.nfa, s.interp T f j 1 u 0 j * s.val T x j k) i 1 u' hi
    (by
      intro r hr x k hk
      have : r = 0 := by omega
      subst this
      simp only [Nat.mul_zero, Nat.zero_add]) 0 i
  rw [hr, if_pos ⟨by omega, rfl⟩]

/-- **C47** for `interpolateByDOFs`: the d.o.f. of the list become the values of the functionals, the others keep their values. -/
theorem byDofs_interp_correct {s : Space K} {T : Tet K} {L : Nat → Fn K → K} (h : Dofs s T L) (f : Fn K) (ids : List Nat)
    (hids : ∀ i ∈ ids, i < s.nfa) (u : Nat → K) (j : Nat) :
    byDofs s T f ids u j = if j ∈ ids then L j f else u j := by
  unfold byDofs
  induction ids generalizing u with
  | nil => simp
  | cons i ids ih =>
    rw [List.foldl_cons, ih (fun i hi => hids i (List.mem_cons_of_mem _ hi))]
    have hi := hids i (List.mem_cons_self)
    by_cases hj : j ∈ ids
    · rw [if_pos hj, if_pos (List.mem_cons_of_mem _ hj)]
    · rw [if_neg hj, h.run _ _ _ _ hi]
      by_cases hji : j = i
      · rw [if_pos ⟨by omega, hji⟩, if_pos (by rw [hji]; exact List.mem_cons_self), hji]
        simp only [Nat.mul_zero, Nat.zero_add]
      · rw [if_neg (fun hh => hji hh.2), if_pos rfl, if_neg (by rw [List.mem_cons]; rintro (hh | hh) <;> contradiction)]

theorem foldl_interp {s : Space K} {T : Tet K} {L : Nat → Fn K → K} (h : Dofs s T L) (f : Fn K) (ids : List Nat)
    (hids : ∀ i ∈ ids, i < s.nfa) (d : Nat) (v : Nat → Nat → K) (r j : Nat) :
    ids.foldl (fun v i => s.interp T f i d v) v r j =
      if r < d ∧ j ∈ ids then L j (fun x k => f x (s.dim * r + k)) else v r j := by
  induction ids generalizing v with
  | nil => simp
  | cons i ids ih =>
    rw [List.foldl_cons, ih (fun i hi => hids i (List.mem_cons_of_mem _ hi))]
    have hi := hids i (List.mem_cons_self)
    by_cases hj : r < d ∧ j ∈ ids
    · rw [if_pos hj, if_pos ⟨hj.1, List.mem_cons_of_mem _ hj.2⟩]
    · rw [if_neg hj, h.run _ _ _ _ hi]
      by_cases hji : r < d ∧ j = i
      · rw [if_pos hji, if_pos ⟨hji.1, by rw [hji.2]; exact List.mem_cons_self⟩, hji.2]
      · rw [if_neg hji, if_neg]
        rintro ⟨h1, h2⟩
        rcases List.mem_cons.1 h2 with h3 | h3
        · exact hji ⟨h1, h3⟩
        · exact hj ⟨h1, h3⟩

/-- **C47** for `VectorFemSpace::interpolateByDOFs`: what it writes for the d.o.f. `ids` of the base is what the interpolation of
the vector space writes for the d.o.f. `c * nfa + i`, for all components `c` and all `i` of the list; the others keep their
values. -/
theorem byDofsVec_interp_correct {s : Space K} {T : Tet K} {L : Nat → Fn K → K} (h : Dofs s T L) (d : Nat) (f : Fn K) (ids : List Nat)
    (hids : ∀ i ∈ ids, i < s.nfa) (u : Nat → K) (c j : Nat) (hc : c < d) (hj : j < s.nfa) :
    byDofsVec d s T f ids u (c * s.nfa + j) =
      if j ∈ ids then (vec d s).interp T f (c * s.nfa + j) 1 (fun _ => u) 0 (c * s.nfa + j) else u (c * s.nfa + j) := by
  have hlt : c * s.nfa + j < d * s.nfa := by
    have : (c + 1) * s.nfa ≤ d * s.nfa := Nat.mul_le_mul_right _ hc
    rw [Nat.add_mul, Nat.one_mul] at this
    omega
  have hdiv : (c * s.nfa + j) / s.nfa = c := by
    rw [Nat.mul_comm, Nat.mul_add_div (by omega), Nat.div_eq_of_lt hj, Nat.add_zero]
  have hmod : (c * s.nfa + j) % s.nfa = j := by
    rw [Nat.mul_comm, Nat.mul_add_mod, Nat.mod_eq_of_lt hj]
  unfold byDofsVec
  rw [if_pos hlt, foldl_interp h f ids hids, hdiv, hmod]
  by_cases hjm : j ∈ ids
  · rw [if_pos ⟨hc, hjm⟩, if_pos hjm, (vec_dofs h d).run _ _ _ _ hlt, if_pos ⟨by omega, rfl⟩]
    unfold vecL
    rw [hdiv, hmod]
    simp only [Nat.mul_zero, Nat.zero_add, Nat.mul_comm s.dim]
  · rw [if_neg (fun hh => hjm hh.2), if_neg hjm]

end Composed

/-! ### The hypotheses are met -/

section Examples

/-- a tetrahedron that is not the reference one -/
def exT : Tet ℚ := fun a k => if a = 0 then 1 else if a = k + 1 then 4 else 0

theorem exT_nondeg : Nondeg exT := by
  unfold Nondeg
  rw [vol6_eq]
  norm_num [exT, dot, cross, diff]

/-- the Taylor–Hood space P2³ × P1 on a general tetrahedron -/
example : Unisolvent (prod [vec 3 (p2S (runVal p2Iden 1 10)), p1S (runVal p1Iden 1 4)]) exT ∧
    Recovers (prod [vec 3 (p2S (runVal p2Iden 1 10)), p1S (runVal p1Iden 1 4)]) exT := by
  refine prod_interp_correct fun s hs => ?_
  rcases List.mem_cons.1 hs with rfl | hs
  · exact (vec_interp_correct (p2_unisolvent exT_nondeg fun j _ => runVal_basis _ _ _ exT_nondeg j) 3).1
  · rw [List.mem_singleton.1 hs]
    exact p1_unisolvent exT_nondeg fun j _ => runVal_basis _ _ _ exT_nondeg j

/-- The Taylor–Hood space has 34 d.o.f., a d.o.f. of the pressure is taken from the fourth component. -/
example (f : Fn ℚ) (u : Nat → Nat → ℚ) :
    (prod [vec 3 (p2S (K := ℚ) (runVal p2Iden 1 10)), p1S (runVal p1Iden 1 4)]).nfa = 34 ∧
    (prod [vec 3 (p2S (runVal p2Iden 1 10)), p1S (runVal p1Iden 1 4)]).interp exT f 31 1 u 0 31 = f (exT 1) 3 := by
  have h := choose_interp_correct [vec 3 (p2S (runVal p2Iden 1 10)), p1S (runVal p1Iden 1 4)] exT f 1 u 31
    (by show 31 < 3 * 10 + (4 + 0); omega)
  refine ⟨rfl, ?_⟩
  rw [← Option.some_inj.1 h]
  rfl

end Examples

end Verif.Interp
