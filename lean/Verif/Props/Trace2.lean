import Verif.Props.Trace
import Mathlib.Data.List.GetD

/-!
**C49**, vector spaces: the normal component of RT0 and the tangential component of ND0 fit together across a shared face.
-/
namespace Verif.Trace

open Verif.Geometry Verif.Spaces

variable {K : Type} [Field K] [LinearOrder K] [IsStrictOrderedRing K]

/-! ### RT0 -/

/-- a unit vector orthogonal to two others: their vector product is a multiple of it -/
theorem cross_parallel {n a b : Nat → K} (h1 : dot n n = 1) (ha : dot n a = 0) (hb : dot n b = 0) :
    ∀ k, k < 3 → cross a b k = dot (cross a b) n * n k := by
  intro k hk
  simp only [dot] at h1 ha hb
  interval_cases k <;> simp [dot, cross]
  · linear_combination (a 1 * b 2 - a 2 * b 1) * (-h1) + (n 1 * b 2 - n 2 * b 1) * ha - (n 1 * a 2 - n 2 * a 1) * hb
  · linear_combination (a 2 * b 0 - a 0 * b 2) * (-h1) + (n 2 * b 0 - n 0 * b 2) * ha - (n 2 * a 0 - n 0 * a 2) * hb
  · linear_combination (a 0 * b 1 - a 1 * b 0) * (-h1) + (n 0 * b 1 - n 1 * b 0) * ha - (n 0 * a 1 - n 1 * a 0) * hb

/-- the volume seen from a face is not zero -/
theorem face_vol {T : Nat → Nat → K} (hv : Nondeg T) {s : Nat} (hs : s < 4) :
    vol6 (T s) (T ((s + 1) % 4)) (T ((s + 2) % 4)) (T ((s + 3) % 4)) ≠ 0 := by
  have hvv := hv
  unfold Nondeg at hvv
  have : vol6 (T s) (T ((s + 1) % 4)) (T ((s + 2) % 4)) (T ((s + 3) % 4)) = vol6 (T 0) (T 1) (T 2) (T 3) ∨
      vol6 (T s) (T ((s + 1) % 4)) (T ((s + 2) % 4)) (T ((s + 3) % 4)) = -vol6 (T 0) (T 1) (T 2) (T 3) := by
    interval_cases s
    · exact Or.inl rfl
    · right; simp only [vol6_eq, dot, cross, diff]; ring
    · left; simp only [vol6_eq, dot, cross, diff]; ring
    · right; simp only [vol6_eq, dot, cross, diff]; ring
  rcases this with h | h
  · rw [h]; exact hvv
  · rw [h]; exact neg_ne_zero.mpr hvv

/-- the outer unit normal is unique -/
theorem outer_unique {T : Nat → Nat → K} (hv : Nondeg T) {s : Nat} (hs : s < 4) {n m : Nat → K} (hn : OuterNormal T s n)
    (hm : OuterNormal T s m) : ∀ k, k < 3 → n k = m k := by
  obtain ⟨n1, n2, n3, n4⟩ := hn
  obtain ⟨m1, m2, m3, m4⟩ := hm
  have hnw := cross_parallel n1 n2 n3
  have hmw := cross_parallel m1 m2 m3
  have hvol := face_vol hv hs
  rw [vol6_eq] at hvol
  unfold opp at n4 m4
  rw [Nat.mod_eq_of_lt hs] at *
  generalize cross (diff (T ((s + 1) % 4)) (T s)) (diff (T ((s + 2) % 4)) (T s)) = w at *
  generalize diff (T ((s + 3) % 4)) (T s) = c at *
  generalize hp : dot w n = p at *
  generalize hq : dot w m = q at *
  have e1 : dot w c = p * dot n c := by
    simp only [dot]; rw [hnw 0 (by omega), hnw 1 (by omega), hnw 2 (by omega)]; ring
  have e2 : dot w c = q * dot m c := by
    simp only [dot]; rw [hmw 0 (by omega), hmw 1 (by omega), hmw 2 (by omega)]; ring
  have e3 : dot w w = p * p := by
    have : dot w w = p * p * dot n n := by
      simp only [dot]; rw [hnw 0 (by omega), hnw 1 (by omega), hnw 2 (by omega)]; ring
    rw [this, n1, mul_one]
  have e4 : dot w w = q * q := by
    have : dot w w = q * q * dot m m := by
      simp only [dot]; rw [hmw 0 (by omega), hmw 1 (by omega), hmw 2 (by omega)]; ring
    rw [this, m1, mul_one]
  have hp0 : p ≠ 0 := by
    rintro rfl
    exact hvol (by rw [e1, zero_mul])
  have hpq : p = q := by
    rcases mul_self_eq_mul_self_iff.1 (e3.symm.trans e4) with h | h
    · exact h
    · exfalso
      have h5 : p * (dot n c + dot m c) = 0 := by
        have : p * dot n c = q * dot m c := e1.symm.trans e2
        rw [h] at this ⊢
        linear_combination this
      rcases mul_eq_zero.1 h5 with h6 | h6
      · exact hp0 h6
      · exact absurd h6 (ne_of_lt (add_neg n4 m4))
  intro k hk
  have := (hnw k hk).symm.trans (hmw k hk)
  rw [← hpq] at this
  exact mul_left_cancel₀ hp0 this

/-- **C49** for RT0: on the face `s` the normal component of the function of the face `j` is one if `j = s` and zero otherwise,
at every point of the face. -/
theorem rt0_normal {sqrt : K → K} (hs : IsSqrt sqrt) {T : Nat → Nat → K} (hv : Nondeg T) {s : Nat} (hs4 : s < 4) {n : Nat → K}
    (hn : OuterNormal T s n) {x : Nat → K} (hx : OnFace T s x) {j : Nat} (hj : j < 4) {φ : (Nat → K) → Nat → K}
    (hφ : IsBasis (rt0Iden sqrt) 3 4 j T φ) : dot (φ x) n = if s = j then 1 else 0 := by
  obtain ⟨l, hl, h0⟩ := hx
  have hcode := faceNormal_correct hs _ _ _ _ (face_vol hv hs4)
  dsimp only at hcode
  have hdual := rt0_dual hs hv φ 0 hs4 hj [⟨fun c => l ((s + c) % 4), 1⟩]
    (by
      intro q hq
      rw [List.mem_singleton.1 hq]
      have h1 := hl.1
      unfold opp at h0
      simp only [show List.range 3 = [0, 1, 2] from rfl, List.map_cons, List.map_nil, List.sum_cons, List.sum_nil]
      interval_cases s <;> simp at h0 ⊢ <;> rw [h0] at h1 <;> linear_combination h1)
    (by simp [weight])
    (by simpa using hφ)
  unfold rt0Dof at hdual
  rw [quad_eq] at hdual
  simp only [List.map_cons, List.map_nil, List.sum_cons, List.sum_nil, one_mul, add_zero, mul_zero, zero_add] at hdual
  have hnorm : OuterNormal T s (faceNormal sqrt (T s) (T ((s + 1) % 4)) (T ((s + 2) % 4)) (T ((s + 3) % 4))).2 := by
    unfold OuterNormal opp
    rw [Nat.mod_eq_of_lt hs4]
    exact ⟨hcode.2.2.1, hcode.1, hcode.2.1, hcode.2.2.2.1⟩
  have hu := outer_unique hv hs4 hn hnorm
  have hpt : ∀ k, k < 3 → facePoint T s (fun c => l ((s + c) % 4)) k = x k := by
    intro k hk
    have hb := hl.2 k hk
    unfold opp at h0
    unfold facePoint
    interval_cases s <;> simp at h0 ⊢ <;> rw [h0] at hb <;> linear_combination hb
  have hval : ∀ k, k < 3 → φ (facePoint T s (fun c => l ((s + c) % 4))) k = φ x k := by
    intro k hk
    obtain ⟨m0, U0, s0, n0, hs0, hn0, ht0, hp0, hk0⟩ := hφ (T 0)
    rw [rt0_value hj (hφ _) ht0 hk, rt0_value hj (hφ x) ht0 hk, hpt k hk]
  rw [dot, hu 0 (by omega), hu 1 (by omega), hu 2 (by omega), ← hval 0 (by omega), ← hval 1 (by omega), ← hval 2 (by omega), hdual]
  rfl

/-- **C49** for RT0: the normal component of a function on the face is its degree of freedom of this face. -/
theorem rt0_normal_sum {sqrt : K → K} (hs : IsSqrt sqrt) {T : Nat → Nat → K} (hv : Nondeg T) {s : Nat} (hs4 : s < 4) {n : Nat → K}
    (hn : OuterNormal T s n) {x : Nat → K} (hx : OnFace T s x) {φ : Nat → (Nat → K) → Nat → K}
    (hφ : ∀ j, j < 4 → IsBasis (rt0Iden sqrt) 3 4 j T (φ j)) (d : Nat → K) :
    ∑ j ∈ Finset.range 4, d j * dot (φ j x) n = d s := by
  rw [Finset.sum_congr rfl fun j hj => by rw [rt0_normal hs hv hs4 hn hx (Finset.mem_range.1 hj) (hφ j (Finset.mem_range.1 hj))]]
  simp only [mul_ite, mul_one, mul_zero]
  rw [Finset.sum_ite_eq, if_pos (Finset.mem_range.2 hs4)]

/-- **C49** for RT0: two functions on two tetrahedra on the opposite sides of a shared face have the same normal component at
all points of the face exactly when their degrees of freedom of the face are opposite, however the nodes are numbered. -/
theorem rt0_continuous {sqrt : K → K} (hs : IsSqrt sqrt) {T T' : Nat → Nat → K} (hv : Nondeg T) (hv' : Nondeg T') {s s' : Nat}
    (hs4 : s < 4) (hs4' : s' < 4) {π : Nat → Nat} (hsh : Shares T s T' s' π) {n : Nat → K} (hn : OuterNormal T s n)
    (hn' : OuterNormal T' s' fun k => -n k) {x : Nat → K} (hx : OnFace T s x) {φ φ' : Nat → (Nat → K) → Nat → K}
    (hφ : ∀ j, j < 4 → IsBasis (rt0Iden sqrt) 3 4 j T (φ j)) (hφ' : ∀ j, j < 4 → IsBasis (rt0Iden sqrt) 3 4 j T' (φ' j))
    (d d' : Nat → K) :
    (∑ j ∈ Finset.range 4, d j * dot (φ j x) n = ∑ j ∈ Finset.range 4, d' j * dot (φ' j x) n) ↔ d s = -d' s' := by
  have hx' : OnFace T' s' x := by
    obtain ⟨l, hl, h0⟩ := hx
    have hl' := baryCoord_correct (T' 0) (T' 1) (T' 2) (T' 3) x x hv'
    generalize baryCoord (T' 0) (T' 1) (T' 2) (T' 3) x x = l' at hl'
    exact ⟨l', hl', (shares_bary hsh hv' hl hl' (fun _ _ => rfl) h0).1⟩
  have h1 := rt0_normal_sum hs hv hs4 hn hx hφ d
  have h2 := rt0_normal_sum hs hv' hs4' hn' hx' hφ' d'
  have h3 : ∑ j ∈ Finset.range 4, d' j * dot (φ' j x) (fun k => -n k) = -∑ j ∈ Finset.range 4, d' j * dot (φ' j x) n := by
    rw [← Finset.sum_neg_distrib]
    refine Finset.sum_congr rfl fun j _ => ?_
    simp only [dot]; ring
  rw [h3] at h2
  rw [h1, ← h2, neg_neg]

/-! ### ND0 -/

/-- the ends of the edge in the tables of the space -/
theorem ends_ipr {j : Nat} (hj : j < 6) : ipr (4 * j) = (ends j).1 ∧ ipr (4 * j + 1) = (ends j).2 := by
  interval_cases j <;> decide

theorem ends_lt (j : Nat) : (ends j).1 < 4 ∧ (ends j).2 < 4 ∧ (ends j).1 ≠ (ends j).2 := by
  rcases Nat.lt_or_ge j 6 with h | h
  · interval_cases j <;> decide
  · have : ends j = (0, 1) := by
      unfold ends
      rw [List.getD_eq_default]
      simpa using h
    rw [this]
    decide

/-- the length of a segment between two nodes, times the antisymmetric form of the coordinates -/
def form (sqrt : K → K) (T : Nat → Nat → K) (l τ : Nat → K) (a b : Nat) : K :=
  sqrt (dot (diff (T a) (T b)) (diff (T a) (T b))) * (l a * τ b - l b * τ a)

theorem form_anti (sqrt : K → K) (T : Nat → Nat → K) (l τ : Nat → K) (a b : Nat) : form sqrt T l τ b a = -form sqrt T l τ a b := by
  unfold form
  have : dot (diff (T b) (T a)) (diff (T b) (T a)) = dot (diff (T a) (T b)) (diff (T a) (T b)) := by simp only [dot, diff]; ring
  rw [this]; ring

/-- **C49** for ND0: the component of the function of the edge `j` along the vector `Σ τ_a T_a`. -/
theorem nd0_along {sqrt : K → K} {T : Nat → Nat → K} (hv : Nondeg T) {x v : Nat → K} {j : Nat} (hj : j < 6)
    (hf : Computed (nd0Iden sqrt) 3 6 j T x v) {l τ t : Nat → K} (hl : IsBary (T 0) (T 1) (T 2) (T 3) x l)
    (hτ : τ 0 + τ 1 + τ 2 + τ 3 = 0)
    (ht : ∀ k, k < 3 → τ 0 * T 0 k + τ 1 * T 1 k + τ 2 * T 2 k + τ 3 * T 3 k = t k) :
    dot v t = form sqrt T l τ (ends j).1 (ends j).2 := by
  obtain ⟨m, U, s, n, hsm, hn, hat, hpt, hk⟩ := id hf
  have hval := fun {k} hk => nd0_value hv hj hf hat hl (k := k) hk
  obtain ⟨hN, hM⟩ := nd0_vectors hv hat hj
  have hdet : m.det s ≠ 0 := by rw [hat.2.1]; exact hv
  have hsqr : nd0Sqr sqrt m s j * m.det s =
      sqrt (dot (diff (T (ipr (4 * j))) (T (ipr (4 * j + 1)))) (diff (T (ipr (4 * j))) (T (ipr (4 * j + 1))))) := by
    rw [nd0Sqr, fold3]
    have : ∀ k, k < 3 → node m s (ipr (4 * j)) k - node m s (ipr (4 * j + 1)) k =
        diff (T (ipr (4 * j))) (T (ipr (4 * j + 1))) k := by
      intro k hk; rw [node_eq hat (ipr_lt _) hk, node_eq hat (ipr_lt _) hk]; simp only [diff]; ring
    simp only [this 0 (by omega), this 1 (by omega), this 2 (by omega)]
    rw [div_mul_cancel₀ _ hdet]; rfl
  -- the derivative of a coordinate along the vector
  have hgrad : ∀ a, a < 4 → dot (gradL m s a) t = τ a := by
    intro a ha
    have e : dot (gradL m s a) t = τ 1 * dot (gradL m s a) (diff (T 1) (T 0)) + τ 2 * dot (gradL m s a) (diff (T 2) (T 0)) +
        τ 3 * dot (gradL m s a) (diff (T 3) (T 0)) := by
      have h0 : τ 0 = -τ 1 - τ 2 - τ 3 := by linear_combination hτ
      simp only [dot, diff]
      rw [← ht 0 (by omega), ← ht 1 (by omega), ← ht 2 (by omega), h0]
      ring
    rw [e, grad_dot' hat ha (by omega) (by omega), grad_dot' hat ha (by omega) (by omega), grad_dot' hat ha (by omega) (by omega)]
    interval_cases a <;> simp <;> linear_combination -hτ
  have e : dot v t = nd0Sqr sqrt m s j * m.det s * (dot (gradL m s (ipr (4 * j + 1))) t * l (ipr (4 * j)) -
      dot (gradL m s (ipr (4 * j))) t * l (ipr (4 * j + 1))) := by
    simp only [dot]
    rw [hval (by omega : 0 < 3), hval (by omega : 1 < 3), hval (by omega : 2 < 3)]
    rw [hN 0 (by omega), hN 1 (by omega), hN 2 (by omega), hM 0 (by omega), hM 1 (by omega), hM 2 (by omega)]
    ring
  rw [e, hsqr, hgrad _ (ipr_lt _), hgrad _ (ipr_lt _), (ends_ipr hj).1, (ends_ipr hj).2]
  unfold form
  ring

/-- **C49** for ND0: the function of an edge which is not in the face has no component along the face. -/
theorem nd0_vanishes {sqrt : K → K} {T : Nat → Nat → K} (hv : Nondeg T) {s : Nat} {x v t : Nat → K} (hx : OnFace T s x)
    (ht : Parallel T s t) {j : Nat} (hj : j < 6) (hne : (ends j).1 = opp s ∨ (ends j).2 = opp s)
    (hf : Computed (nd0Iden sqrt) 3 6 j T x v) : dot v t = 0 := by
  obtain ⟨l, hl, h0⟩ := hx
  obtain ⟨τ, h1, h2, h3⟩ := ht
  rw [nd0_along hv hj hf hl h1 h3, form]
  rcases hne with h | h <;> rw [h, h0, h2] <;> ring

/-- the degree of freedom of an edge seen as a quantity of the ordered pair of its ends -/
def edgeDof (d : Nat → K) (a b : Nat) : K :=
  ∑ i ∈ Finset.range 6, ((if ends i = (a, b) then d i else 0) - (if ends i = (b, a) then d i else 0))

theorem edgeDof_cases (d : Nat → K) {a b : Nat} (ha : a < 4) (hb : b < 4) (hne : a ≠ b) :
    ∃ i, i < 6 ∧ ((ends i = (a, b) ∧ edgeDof d a b = d i) ∨ (ends i = (b, a) ∧ edgeDof d a b = -d i)) := by
  have h : ∃ i, i < 6 ∧ (ends i = (a, b) ∨ ends i = (b, a)) := by
    interval_cases a <;> interval_cases b <;> first | exact absurd rfl hne | decide
  obtain ⟨i, hi, h⟩ := h
  refine ⟨i, hi, ?_⟩
  rcases h with h | h
  · left
    refine ⟨h, ?_⟩
    unfold edgeDof
    have ea : a = (ends i).1 := by rw [h]
    have eb : b = (ends i).2 := by rw [h]
    rw [ea, eb]
    clear h ea eb
    simp only [Finset.sum_range_succ, Finset.sum_range_zero]
    interval_cases i <;> simp [ends]
  · right
    refine ⟨h, ?_⟩
    unfold edgeDof
    have ea : b = (ends i).1 := by rw [h]
    have eb : a = (ends i).2 := by rw [h]
    rw [ea, eb]
    clear h ea eb
    simp only [Finset.sum_range_succ, Finset.sum_range_zero]
    interval_cases i <;> simp [ends]

/-- the sum over the edges is half the sum over the ordered pairs of nodes -/
theorem edge_sum (d : Nat → K) (g : Nat → Nat → K) (hg : ∀ a b, g b a = -g a b) :
    2 * ∑ i ∈ Finset.range 6, d i * g (ends i).1 (ends i).2 =
      ∑ a ∈ Finset.range 4, ∑ b ∈ Finset.range 4, edgeDof d a b * g a b := by
  have h10 := hg 0 1; have h20 := hg 0 2; have h30 := hg 0 3
  have h21 := hg 1 2; have h31 := hg 1 3; have h32 := hg 2 3
  simp only [edgeDof, Finset.sum_range_succ, Finset.sum_range_zero, ends, List.getD_cons_zero, List.getD_cons_succ, Prod.mk.injEq]
  simp only [h10, h20, h30, h21, h31, h32]
  norm_num
  ring

/-- **C49** for ND0: two functions whose degrees of freedom of the common edges agree (with the sign of the direction of the
edge) have the same components along the shared face. -/
theorem nd0_continuous {sqrt : K → K} {T T' : Nat → Nat → K} (hv : Nondeg T) (hv' : Nondeg T') {s s' : Nat} {π : Nat → Nat}
    (hsh : Shares T s T' s' π) {x t : Nat → K} (hx : OnFace T s x) (ht : Parallel T s t) (d d' : Nat → K)
    (hsame : ∀ i, i < 6 → ∀ j, j < 6 → SameEdge T i T' j → d i = d' j)
    (hopp : ∀ i, i < 6 → ∀ j, j < 6 → OppEdge T i T' j → d i = -d' j)
    {v v' : Nat → Nat → K} (hc : ∀ i, i < 6 → Computed (nd0Iden sqrt) 3 6 i T x (v i))
    (hc' : ∀ j, j < 6 → Computed (nd0Iden sqrt) 3 6 j T' x (v' j)) :
    ∑ i ∈ Finset.range 6, d i * dot (v i) t = ∑ j ∈ Finset.range 6, d' j * dot (v' j) t := by
  obtain ⟨l, hl, h0⟩ := hx
  have hl' := baryCoord_correct (T' 0) (T' 1) (T' 2) (T' 3) x x hv'
  generalize baryCoord (T' 0) (T' 1) (T' 2) (T' 3) x x = l' at hl'
  obtain ⟨h0', hll⟩ := shares_bary hsh hv' hl hl' (fun _ _ => rfl) h0
  obtain ⟨τ, t1, t2, t3⟩ := ht
  obtain ⟨ρ, hρ, hρπ⟩ := shares_symm hsh
  -- the same vector seen from the other side
  let τ' : Nat → K := fun b => if b = opp s' then 0 else τ (ρ b)
  have e1 : τ' (opp s') = 0 := if_pos rfl
  have e2 : ∀ a, a < 4 → a ≠ opp s → τ' (π a) = τ a := by
    intro a ha hne
    show (if π a = opp s' then 0 else τ (ρ (π a))) = τ a
    rw [if_neg (hsh a ha hne).2.1, hρπ a ha hne]
  have four : ∀ g : Nat → K, g 0 + g 1 + g 2 + g 3 = ∑ a ∈ Finset.range 4, g a := by
    intro g; simp only [Finset.sum_range_succ, Finset.sum_range_zero, zero_add]
  have t1' : τ' 0 + τ' 1 + τ' 2 + τ' 3 = 0 := by
    rw [four, split_sum s', e1, zero_add, shares_sum hsh]
    rw [four, split_sum s, t2, zero_add] at t1
    rw [← t1]
    exact Finset.sum_congr rfl fun a ha => e2 a (mem_nodes.1 ha).1 (mem_nodes.1 ha).2
  have t3' : ∀ k, k < 3 → τ' 0 * T' 0 k + τ' 1 * T' 1 k + τ' 2 * T' 2 k + τ' 3 * T' 3 k = t k := by
    intro k hk
    rw [← t3 k hk, four (fun a => τ' a * T' a k), four (fun a => τ a * T a k), split_sum s', split_sum s, e1, t2, zero_mul, zero_mul,
      shares_sum hsh]
    refine congrArg _ (Finset.sum_congr rfl fun a ha => ?_)
    rw [e2 a (mem_nodes.1 ha).1 (mem_nodes.1 ha).2, (hsh a (mem_nodes.1 ha).1 (mem_nodes.1 ha).2).2.2.1 k hk]
  have hL : ∑ i ∈ Finset.range 6, d i * dot (v i) t = ∑ i ∈ Finset.range 6, d i * form sqrt T l τ (ends i).1 (ends i).2 :=
    Finset.sum_congr rfl fun i hi => by
      rw [nd0_along hv (Finset.mem_range.1 hi) (hc i (Finset.mem_range.1 hi)) hl t1 t3]
  have hR : ∑ j ∈ Finset.range 6, d' j * dot (v' j) t = ∑ j ∈ Finset.range 6, d' j * form sqrt T' l' τ' (ends j).1 (ends j).2 :=
    Finset.sum_congr rfl fun i hi => by
      rw [nd0_along hv' (Finset.mem_range.1 hi) (hc' i (Finset.mem_range.1 hi)) hl' t1' t3']
  rw [hL, hR]
  refine mul_left_cancel₀ (two_ne_zero (α := K)) ?_
  rw [edge_sum d _ (form_anti sqrt T l τ), edge_sum d' _ (form_anti sqrt T' l' τ')]
  have hz : ∀ b, form sqrt T l τ (opp s) b = 0 := fun b => by unfold form; rw [h0, t2]; ring
  have hz' : ∀ b, form sqrt T' l' τ' (opp s') b = 0 := fun b => by unfold form; rw [h0', e1]; ring
  have hy : ∀ b, form sqrt T l τ b (opp s) = 0 := fun b => by rw [form_anti, hz, neg_zero]
  have hy' : ∀ b, form sqrt T' l' τ' b (opp s') = 0 := fun b => by rw [form_anti, hz', neg_zero]
  have hsum : ∀ (g : Nat → Nat → K) (s : Nat), (∀ b, g (opp s) b = 0) → (∀ b, g b (opp s) = 0) →
      ∑ a ∈ Finset.range 4, ∑ b ∈ Finset.range 4, g a b = ∑ a ∈ nodes s, ∑ b ∈ nodes s, g a b := by
    intro g s ha hb
    rw [split_sum s, Finset.sum_eq_zero (fun b _ => ha b), zero_add]
    refine Finset.sum_congr rfl fun a _ => ?_
    rw [split_sum s, hb, zero_add]
  rw [hsum _ s (fun b => by rw [hz, mul_zero]) (fun b => by rw [hy, mul_zero]),
    hsum _ s' (fun b => by rw [hz', mul_zero]) (fun b => by rw [hy', mul_zero]), shares_sum hsh]
  refine Finset.sum_congr rfl fun a ha => ?_
  rw [shares_sum hsh]
  refine Finset.sum_congr rfl fun b hb => ?_
  obtain ⟨ha, hna⟩ := mem_nodes.1 ha
  obtain ⟨hb, hnb⟩ := mem_nodes.1 hb
  obtain ⟨a1, a2, a3, a4⟩ := hsh a ha hna
  obtain ⟨b1, b2, b3, b4⟩ := hsh b hb hnb
  by_cases hab : a = b
  · subst hab
    have : ∀ (T : Nat → Nat → K) (l τ : Nat → K) (a : Nat), form sqrt T l τ a a = 0 := fun T l τ a => by unfold form; ring
    rw [this, this, mul_zero, mul_zero]
  have hab' : π a ≠ π b := fun e => hab (a4 b hb hnb e)
  have hform : form sqrt T l τ a b = form sqrt T' l' τ' (π a) (π b) := by
    unfold form
    rw [hll a ha hna, hll b hb hnb, e2 a ha hna, e2 b hb hnb]
    congr 2
    simp only [dot, diff, a3 0 (by omega), a3 1 (by omega), a3 2 (by omega), b3 0 (by omega), b3 1 (by omega), b3 2 (by omega)]
  rw [hform]
  congr 1
  obtain ⟨i, hi, hi'⟩ := edgeDof_cases d ha hb hab
  obtain ⟨j, hj, hj'⟩ := edgeDof_cases d' a1 b1 hab'
  rcases hi' with ⟨ei, hi'⟩ | ⟨ei, hi'⟩ <;> rcases hj' with ⟨ej, hj'⟩ | ⟨ej, hj'⟩ <;> rw [hi', hj']
  · exact hsame i hi j hj (by unfold SameEdge; rw [ei, ej]; exact ⟨a3, b3⟩)
  · exact hopp i hi j hj (by unfold OppEdge; rw [ei, ej]; exact ⟨a3, b3⟩)
  · rw [hopp i hi j hj (by unfold OppEdge; rw [ei, ej]; exact ⟨b3, a3⟩), neg_neg]
  · rw [hsame i hi j hj (by unfold SameEdge; rw [ei, ej]; exact ⟨b3, a3⟩)]

/-! ### A concrete case -/

/-- the unit tetrahedron over the reals -/
noncomputable def rT : Nat → Nat → ℝ := fun i k => if i = k + 1 then 1 else 0
/-- its neighbour below the plane of the first two coordinates, with the nodes in another order: (1,0,0), (0,0,-1), (0,1,0), (0,0,0) -/
noncomputable def rT' : Nat → Nat → ℝ := fun i k =>
  if i = 0 then (if k = 0 then 1 else 0) else if i = 1 then (if k = 2 then -1 else 0) else if i = 2 then (if k = 1 then 1 else 0) else 0

/-- the hypotheses of `rt0_continuous` and of `nd0_continuous` hold together: the face 0 of the first is the face 2 of the second;
the edge from node 0 to node 1 is the reversed edge from node 0 to node 3 of the other -/
example : Nondeg rT ∧ Nondeg rT' ∧ Shares rT 0 rT' 2 (fun a => if a = 0 then 3 else if a = 1 then 0 else 2) ∧
    OuterNormal rT 0 (fun k => if k = 2 then -1 else 0) ∧ OuterNormal rT' 2 (fun k => -if k = 2 then -1 else 0) ∧
    OnFace rT 0 (fun k => if k = 2 then 0 else 1 / 4) ∧ Parallel rT 0 (fun k => if k = 2 then 0 else if k = 0 then 3 else -1) ∧
    OppEdge rT 0 rT' 2 ∧ SameEdge rT 3 rT' 1 ∧ (∃ φ, IsBasis (rt0Iden Real.sqrt) 3 4 1 rT φ) := by
  refine ⟨?_, ?_, ?_, ?_, ?_, ?_, ?_, ?_, ?_, ⟨_, basis_exists _ 3 4 1 rT (fun _ => 0) (fun _ => 0) ?_⟩⟩
  · unfold Nondeg; rw [vol6_eq]; norm_num [rT, dot, cross, diff]
  · unfold Nondeg; rw [vol6_eq]; norm_num [rT', dot, cross, diff]
  · intro a ha hne
    have h1 : a = 0 ∨ a = 1 ∨ a = 2 := by unfold opp at hne; omega
    have h2 : ∀ b, b < 4 → b ≠ opp 0 → b = 0 ∨ b = 1 ∨ b = 2 := by intro b hb hn; unfold opp at hn; omega
    refine ⟨?_, ?_, fun k hk => ?_, fun b hb hn => ?_⟩
    · rcases h1 with rfl | rfl | rfl <;> decide
    · rcases h1 with rfl | rfl | rfl <;> decide
    · rcases h1 with rfl | rfl | rfl <;> interval_cases k <;> norm_num [rT, rT']
    · rcases h1 with rfl | rfl | rfl <;> rcases h2 b hb hn with rfl | rfl | rfl <;> decide
  · unfold OuterNormal opp; norm_num [rT, dot, diff]
  · unfold OuterNormal opp; norm_num [rT', dot, diff]
  · exact ⟨fun a => if a = 3 then 0 else if a = 0 then 1 / 2 else 1 / 4,
      ⟨by norm_num, fun k hk => by interval_cases k <;> norm_num [rT]⟩, by norm_num [opp]⟩
  · exact ⟨fun a => if a = 0 then -2 else if a = 1 then 3 else if a = 2 then -1 else 0, by norm_num, by norm_num [opp],
      fun k hk => by interval_cases k <;> norm_num [rT]⟩
  · constructor <;> intro k hk <;> interval_cases k <;> norm_num [rT, rT', ends]
  · constructor <;> intro k hk <;> interval_cases k <;> norm_num [rT, rT', ends]
  · unfold Nondeg; rw [vol6_eq]; norm_num [rT, dot, cross, diff]

end Verif.Trace
