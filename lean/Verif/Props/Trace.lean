import Verif.Lemmas.Trace
import Mathlib.Tactic.FinCases

/-!
**C49**: the functions of the nodal spaces fit together across a shared face.
-/
namespace Verif.Trace

open Verif.Geometry Verif.Spaces

variable {K : Type} [Field K] [LinearOrder K] [IsStrictOrderedRing K]

/-- what is known about the operator and the degrees of freedom of a nodal space -/
structure Nodal (op : Mem K → (Nat → K) → Nat → K) (dof : (Nat → Nat → K) → ((Nat → K) → Nat → K) → Nat → Nat → K) (n : Nat)
    (val : (Nat → K) → Nat → K) (pts : Nat → Nat → ℚ) (G : ℚ → K → K) : Prop where
  product : Product n val pts G
  closed : Closed n pts
  inj : ∀ i, i < n → ∀ j, j < n → (∀ a, a < 4 → pts i a = pts j a) → i = j
  value : ∀ i, i < n → ∀ (m : Mem K) U r p, r < m.f → p < m.q → op m U (place m 1 n r i p 0) = val (fun a => m.xyl (a + 4 * p)) i
  congr : ∀ i, i < n → ∀ l l' : Nat → K, (∀ a, a < 4 → l a = l' a) → val l i = val l' i
  dofs : ∀ T f i r, i < n → dof T f i r = f (ratPoint T (pts i)) r

section
variable {op : Mem K → (Nat → K) → Nat → K} {dof : (Nat → Nat → K) → ((Nat → K) → Nat → K) → Nat → Nat → K} {n : Nat}
  {val : (Nat → K) → Nat → K} {pts : Nat → Nat → ℚ} {G : ℚ → K → K}

theorem Nodal.located (h : Nodal op dof n val pts G) {T : Nat → Nat → K} {i : Nat} (hi : i < n) {y : Nat → K}
    (hy : Located (fun f r => dof T f i r) y) : y = ratPoint T (pts i) := by
  funext r
  have := hy (fun x r => x r) r
  dsimp only at this
  rw [h.dofs T _ i r hi] at this
  exact this.symm

theorem Nodal.vanish (h : Nodal op dof n val pts G) {T : Nat → Nat → K} (hv : Nondeg T) {i s : Nat} (hi : i < n) {x y v : Nat → K}
    (hx : OnFace T s x) (hy : Located (fun f r => dof T f i r) y) (hne : ¬ OnFace T s y) (hc : Computed op 1 n i T x v) : v 0 = 0 := by
  obtain ⟨l, hl, h0⟩ := hx
  rw [scalar_value (val := fun l => val l i) (h.value i hi) (h.congr i hi) hv hc hl]
  refine h.product.vanish hi h0 (fun hz => hne ?_)
  rw [h.located hi hy]
  exact ⟨_, ratPoint_bary T (h.product.sum i hi), by simp only [hz, Rat.cast_zero]⟩

theorem Nodal.agree (h : Nodal op dof n val pts G) {T T' : Nat → Nat → K} (hv : Nondeg T) (hv' : Nondeg T') {s s' : Nat} {π : Nat → Nat}
    (hs : Shares T s T' s' π) {x : Nat → K} (hx : OnFace T s x) {i j : Nat} (hi : i < n) (hj : j < n) {y y' : Nat → K}
    (hy : Located (fun f r => dof T f i r) y) (hy' : Located (fun f r => dof T' f j r) y') (hyy : SamePt y y') {v v' : Nat → K}
    (hc : Computed op 1 n i T x v) (hc' : Computed op 1 n j T' x v') : v 0 = v' 0 := by
  obtain ⟨l, hl, h0⟩ := hx
  have hl' := baryCoord_correct _ _ _ _ x (fun _ => 0) hv'
  rw [scalar_value (val := fun l => val l i) (h.value i hi) (h.congr i hi) hv hc hl,
    scalar_value (val := fun l => val l j) (h.value j hj) (h.congr j hj) hv' hc' hl']
  rw [h.located hi hy, h.located hj hy'] at hyy
  exact h.product.agree hs hv hv' hl hl' h0 hi hj hyy

theorem Nodal.continuous (h : Nodal op dof n val pts G) {T T' : Nat → Nat → K} (hv : Nondeg T) (hv' : Nondeg T') {s s' : Nat}
    {π : Nat → Nat} (hs : Shares T s T' s' π) {x : Nat → K} (hx : OnFace T s x) (d d' : Nat → K)
    (hd : ∀ i, i < n → ∀ j, j < n → ∀ y y', Located (fun f r => dof T f i r) y → Located (fun f r => dof T' f j r) y' → SamePt y y' →
      d i = d' j)
    {v v' : Nat → Nat → K} (hc : ∀ i, i < n → Computed op 1 n i T x (v i)) (hc' : ∀ j, j < n → Computed op 1 n j T' x (v' j)) :
    ∑ i ∈ Finset.range n, d i * v i 0 = ∑ j ∈ Finset.range n, d' j * v' j 0 := by
  obtain ⟨l, hl, h0⟩ := hx
  have hl' := baryCoord_correct _ _ _ _ x (fun _ => 0) hv'
  have e1 : ∑ i ∈ Finset.range n, d i * v i 0 = ∑ i ∈ Finset.range n, d i * val l i :=
    Finset.sum_congr rfl (fun i hi => by
      have hi := Finset.mem_range.1 hi
      rw [scalar_value (val := fun l => val l i) (h.value i hi) (h.congr i hi) hv (hc i hi) hl])
  have e2 : ∑ i ∈ Finset.range n, d' i * v' i 0 = ∑ i ∈ Finset.range n, d' i *
      val (baryCoord (T' 0) (T' 1) (T' 2) (T' 3) x (fun _ => 0)) i :=
    Finset.sum_congr rfl (fun i hi => by
      have hi := Finset.mem_range.1 hi
      rw [scalar_value (val := fun l => val l i) (h.value i hi) (h.congr i hi) hv' (hc' i hi) hl'])
  rw [e1, e2]
  refine h.product.continuous h.closed h.inj hs hv hv' hl hl' h0 d d' (fun i hi j hj hyy => ?_)
  exact hd i hi j hj _ _ (fun f r => h.dofs T f i r hi) (fun f r => h.dofs T' f j r hj) hyy

end

/-! ### The spaces -/

/-- the points of the vertices -/
def pts1 (i a : Nat) : ℚ := if i = a then 1 else 0
/-- the points of the edge bubbles -/
def ptsB2 (i a : Nat) : ℚ := pts2 (i + 4) a
/-- the point of the cell bubble -/
def ptsB4 (_ : Nat) (a : Nat) : ℚ := if a < 4 then 1 / 4 else 0

theorem closed1 : Closed 4 pts1 := closed_of_check (by decide +kernel)
theorem closed2 : Closed 10 pts2 := closed_of_check (by decide +kernel)
theorem closed3 : Closed 20 pts3 := closed_of_check (by decide +kernel)
theorem closedB2 : Closed 6 ptsB2 := closed_of_check (by decide +kernel)
theorem closedB4 : Closed 1 ptsB4 := closed_of_check (by decide +kernel)
theorem inj1 : ∀ i, i < 4 → ∀ j, j < 4 → (∀ a, a < 4 → pts1 i a = pts1 j a) → i = j := by decide +kernel
theorem inj2 : ∀ i, i < 10 → ∀ j, j < 10 → (∀ a, a < 4 → pts2 i a = pts2 j a) → i = j := by decide +kernel
theorem inj3 : ∀ i, i < 20 → ∀ j, j < 20 → (∀ a, a < 4 → pts3 i a = pts3 j a) → i = j := by decide +kernel
theorem injB2 : ∀ i, i < 6 → ∀ j, j < 6 → (∀ a, a < 4 → ptsB2 i a = ptsB2 j a) → i = j := by decide +kernel

/-- factors of the shape functions of degree one, two, three -/
def G1 (c : ℚ) (x : K) : K := if c = 0 then 1 else x
def G2 (c : ℚ) (x : K) : K := if c = 0 then 1 else if c = 1 then x * (2 * x - 1) else 2 * x
def G3 (c : ℚ) (x : K) : K :=
  if c = 0 then 1 else if c = 1 then x * (3 * x - 1) * (3 * x - 2) / 2 else if c = 1 / 3 then 3 * x else 3 * x * (3 * x - 1) / 2
def G4 (c : ℚ) (x : K) : K := if c = 0 then 1 else 4 * x

theorem p1_nodal : Nodal (K := K) p1Iden p1Dof 4 (fun l i => l i) pts1 G1 where
  product := {
    prod := by
      intro l i hi
      simp only [Finset.prod_range_succ, Finset.prod_range_zero]
      interval_cases i <;> simp [G1, pts1]
    one := fun x => by simp [G1]
    zero := fun i _ a _ h => by simp [G1, h]
    sum := by decide +kernel }
  closed := closed1
  inj := inj1
  value := fun i hi m U r p hr hp => p1Iden_val hr hi hp
  congr := fun i hi l l' h => h i hi
  dofs := by
    intro T f i r hi
    have e : ∀ X Y : Nat → K, (∀ k, X k = Y k) → f X r = f Y r := fun X Y h => by rw [funext h]
    unfold p1Dof
    interval_cases i <;> exact e _ _ (fun k => by simp [ratPoint, pts1])

theorem p2_nodal : Nodal (K := K) p2Iden p2Dof 10 p2v pts2 G2 where
  product := {
    prod := by
      intro l i hi
      simp only [Finset.prod_range_succ, Finset.prod_range_zero]
      interval_cases i <;> norm_num [G2, pts2, p2v, tI, tJ] <;> ring
    one := fun x => by simp [G2]
    zero := fun i _ a _ h => by unfold G2; rw [if_neg h]; split <;> simp
    sum := pts2_sum }
  closed := closed2
  inj := inj2
  value := fun i hi m U r p hr hp => p2Iden_val hr hi hp
  congr := fun i _ => p2v_congr i
  dofs := fun T f i r hi => p2Dof_eq T f hi r

theorem p3_nodal : Nodal (K := K) p3Iden p3Dof 20 p3v pts3 G3 where
  product := {
    prod := by
      intro l i hi
      simp only [Finset.prod_range_succ, Finset.prod_range_zero]
      interval_cases i <;> norm_num [G3, pts3, p3v, tI, tJ, ipf] <;> ring
    one := fun x => by simp [G3]
    zero := fun i _ a _ h => by unfold G3; rw [if_neg h]; split <;> [skip; split] <;> simp
    sum := pts3_sum }
  closed := closed3
  inj := inj3
  value := fun i hi m U r p hr hp => p3Iden_val hr hi hp
  congr := fun i _ => p3v_congr i
  dofs := fun T f i r hi => p3Dof_eq T f hi r

theorem b2_nodal : Nodal (K := K) b2Iden b2Dof 6 b2v ptsB2 G2 where
  product := {
    prod := by
      intro l i hi
      simp only [Finset.prod_range_succ, Finset.prod_range_zero]
      interval_cases i <;> norm_num [G2, ptsB2, pts2, b2v, tI, tJ] <;> ring
    one := fun x => by simp [G2]
    zero := fun i _ a _ h => by unfold G2; rw [if_neg h]; split <;> simp
    sum := by decide +kernel }
  closed := closedB2
  inj := injB2
  value := fun i hi m U r p hr hp => b2Iden_val hr hi hp
  congr := fun i _ => b2v_congr i
  dofs := by
    intro T f i r hi
    have e : ∀ X Y : Nat → K, (∀ k, X k = Y k) → f X r = f Y r := fun X Y h => by rw [funext h]
    unfold b2Dof
    interval_cases i <;>
      (refine e _ _ fun k => ?_
       simp [ratPoint, ptsB2, pts2, edgeMid, lookup] <;> ring)

theorem b4_nodal : Nodal (K := K) b4Iden (fun T f _ r => b4Dof T f r) 1 (fun l _ => b4v l) ptsB4 G4 where
  product := {
    prod := by
      intro l i hi
      simp only [Finset.prod_range_succ, Finset.prod_range_zero]
      norm_num [G4, ptsB4, b4v]
      ring
    one := fun x => by simp [G4]
    zero := fun i _ a _ h => by unfold G4; rw [if_neg h]; simp
    sum := by decide +kernel }
  closed := closedB4
  inj := by intro i hi j hj _; omega
  value := fun i hi m U r p hr hp => by
    have : i = 0 := by omega
    subst this
    exact b4Iden_val hr hp
  congr := fun _ _ => b4v_congr
  dofs := by
    intro T f i r hi
    have e : ∀ X Y : Nat → K, (∀ k, X k = Y k) → f X r = f Y r := fun X Y h => by rw [funext h]
    unfold b4Dof
    refine e _ _ fun k => ?_
    norm_num [ratPoint, ptsB4, show List.range 4 = [0, 1, 2, 3] from rfl]
    ring

/-! ### The theorems -/

section
variable {T T' : Nat → Nat → K} (hv : Nondeg T) (hv' : Nondeg T') {s s' : Nat} {π : Nat → Nat} (hs : Shares T s T' s' π) {x : Nat → K}
  (hx : OnFace T s x)

include hv hx

/-- **C49** for P1: the function of a degree of freedom whose point is not on the face vanishes on the face. -/
theorem p1_vanishes {i : Nat} (hi : i < 4) {y v : Nat → K} (hy : Located (fun f r => p1Dof T f i r) y) (hne : ¬ OnFace T s y)
    (hc : Computed p1Iden 1 4 i T x v) : v 0 = 0 := p1_nodal.vanish hv hi hx hy hne hc
/-- **C49** for P2. -/
theorem p2_vanishes {i : Nat} (hi : i < 10) {y v : Nat → K} (hy : Located (fun f r => p2Dof T f i r) y) (hne : ¬ OnFace T s y)
    (hc : Computed p2Iden 1 10 i T x v) : v 0 = 0 := p2_nodal.vanish hv hi hx hy hne hc
/-- **C49** for P3. -/
theorem p3_vanishes {i : Nat} (hi : i < 20) {y v : Nat → K} (hy : Located (fun f r => p3Dof T f i r) y) (hne : ¬ OnFace T s y)
    (hc : Computed p3Iden 1 20 i T x v) : v 0 = 0 := p3_nodal.vanish hv hi hx hy hne hc
/-- **C49** for the edge bubbles. -/
theorem b2_vanishes {i : Nat} (hi : i < 6) {y v : Nat → K} (hy : Located (fun f r => b2Dof T f i r) y) (hne : ¬ OnFace T s y)
    (hc : Computed b2Iden 1 6 i T x v) : v 0 = 0 := b2_nodal.vanish hv hi hx hy hne hc
/-- **C49** for the cell bubble: it vanishes on every face. -/
theorem b4_vanishes {v : Nat → K} (hc : Computed b4Iden 1 1 0 T x v) : v 0 = 0 := by
  obtain ⟨l, hl, h0⟩ := hx
  rw [scalar_value (val := b4v) (fun m U r p hr hp => b4Iden_val hr hp) b4v_congr hv hc hl]
  exact b4_nodal.product.vanish (i := 0) (s := s) (by omega) h0 (by
    unfold ptsB4; rw [if_pos (opp_lt s)]; norm_num)

include hv' hs

/-- **C49** for P1: on a shared face two functions with the same degrees of freedom at the same points take the same values,
however the nodes of the two tetrahedra are numbered. -/
theorem p1_continuous (d d' : Nat → K)
    (hd : ∀ i, i < 4 → ∀ j, j < 4 → ∀ y y', Located (fun f r => p1Dof T f i r) y → Located (fun f r => p1Dof T' f j r) y' →
      SamePt y y' → d i = d' j)
    {v v' : Nat → Nat → K} (hc : ∀ i, i < 4 → Computed p1Iden 1 4 i T x (v i)) (hc' : ∀ j, j < 4 → Computed p1Iden 1 4 j T' x (v' j)) :
    ∑ i ∈ Finset.range 4, d i * v i 0 = ∑ j ∈ Finset.range 4, d' j * v' j 0 := p1_nodal.continuous hv hv' hs hx d d' hd hc hc'
/-- **C49** for P2. -/
theorem p2_continuous (d d' : Nat → K)
    (hd : ∀ i, i < 10 → ∀ j, j < 10 → ∀ y y', Located (fun f r => p2Dof T f i r) y → Located (fun f r => p2Dof T' f j r) y' →
      SamePt y y' → d i = d' j)
    {v v' : Nat → Nat → K} (hc : ∀ i, i < 10 → Computed p2Iden 1 10 i T x (v i))
    (hc' : ∀ j, j < 10 → Computed p2Iden 1 10 j T' x (v' j)) :
    ∑ i ∈ Finset.range 10, d i * v i 0 = ∑ j ∈ Finset.range 10, d' j * v' j 0 := p2_nodal.continuous hv hv' hs hx d d' hd hc hc'
/-- **C49** for P3. -/
theorem p3_continuous (d d' : Nat → K)
    (hd : ∀ i, i < 20 → ∀ j, j < 20 → ∀ y y', Located (fun f r => p3Dof T f i r) y → Located (fun f r => p3Dof T' f j r) y' →
      SamePt y y' → d i = d' j)
    {v v' : Nat → Nat → K} (hc : ∀ i, i < 20 → Computed p3Iden 1 20 i T x (v i))
    (hc' : ∀ j, j < 20 → Computed p3Iden 1 20 j T' x (v' j)) :
    ∑ i ∈ Finset.range 20, d i * v i 0 = ∑ j ∈ Finset.range 20, d' j * v' j 0 := p3_nodal.continuous hv hv' hs hx d d' hd hc hc'
/-- **C49** for the edge bubbles. -/
theorem b2_continuous (d d' : Nat → K)
    (hd : ∀ i, i < 6 → ∀ j, j < 6 → ∀ y y', Located (fun f r => b2Dof T f i r) y → Located (fun f r => b2Dof T' f j r) y' →
      SamePt y y' → d i = d' j)
    {v v' : Nat → Nat → K} (hc : ∀ i, i < 6 → Computed b2Iden 1 6 i T x (v i))
    (hc' : ∀ j, j < 6 → Computed b2Iden 1 6 j T' x (v' j)) :
    ∑ i ∈ Finset.range 6, d i * v i 0 = ∑ j ∈ Finset.range 6, d' j * v' j 0 := b2_nodal.continuous hv hv' hs hx d d' hd hc hc'

end

/-! ### A concrete case -/

/-- two tetrahedra sharing the face with the nodes `(1,0,0), (0,1,0), (0,0,1)` -/
def exT : Nat → Nat → ℚ := fun i k => if i = k + 1 then 1 else 0
/-- ... the other one, numbered differently: its node 1 is the far one -/
def exT' : Nat → Nat → ℚ := fun i k =>
  if i = 1 then 1 else if i = 0 then (if k = 2 then 1 else 0) else if i = 2 then (if k = 0 then 1 else 0) else (if k = 1 then 1 else 0)

theorem exT_nondeg : Nondeg exT := by unfold Nondeg; rw [vol6_eq]; norm_num [exT, dot, cross, diff]
theorem exT'_nondeg : Nondeg exT' := by unfold Nondeg; rw [vol6_eq]; norm_num [exT', dot, cross, diff]

/-- the face 1 of the first (nodes 1, 2, 3) is the face 2 of the second (nodes 2, 3, 0) -/
theorem ex_shares : Shares exT 1 exT' 2 (fun a => if a = 1 then 2 else if a = 2 then 3 else 0) := by
  intro a ha hne
  have h1 : a = 1 ∨ a = 2 ∨ a = 3 := by unfold opp at hne; omega
  have h2 : ∀ b, b < 4 → b ≠ opp 1 → b = 1 ∨ b = 2 ∨ b = 3 := by intro b hb hn; unfold opp at hn; omega
  refine ⟨?_, ?_, fun k hk => ?_, fun b hb hn => ?_⟩
  · rcases h1 with rfl | rfl | rfl <;> decide
  · rcases h1 with rfl | rfl | rfl <;> decide
  · rcases h1 with rfl | rfl | rfl <;> interval_cases k <;> decide +kernel
  · rcases h1 with rfl | rfl | rfl <;> rcases h2 b hb hn with rfl | rfl | rfl <;> decide

/-- a point of the face -/
theorem ex_onFace : OnFace exT 1 (fun k => if k = 0 then 1 / 2 else if k = 1 then 1 / 3 else 1 / 6) :=
  ⟨fun a => if a = 0 then 0 else if a = 1 then 1 / 2 else if a = 2 then 1 / 3 else 1 / 6,
    ⟨by norm_num, fun k hk => by interval_cases k <;> norm_num [exT]⟩, by norm_num [opp]⟩

/-- the hypotheses of `p3_continuous` hold together: values of a common function at the points -/
example : ∃ d d' : Nat → ℚ, (∃ i j, i < 20 ∧ j < 20 ∧ d i ≠ d j) ∧
    ∀ i, i < 20 → ∀ j, j < 20 → ∀ y y', Located (fun f r => p3Dof exT f i r) y → Located (fun f r => p3Dof exT' f j r) y' →
      SamePt y y' → d i = d' j := by
  refine ⟨fun i => p3Dof exT (fun x _ => x 0 + 2 * x 1 + x 2 * x 2) i 0, fun j => p3Dof exT' (fun x _ => x 0 + 2 * x 1 + x 2 * x 2) j 0,
    ⟨1, 2, by omega, by omega, ?_⟩, fun i _ j _ y y' hy hy' hyy => ?_⟩
  · dsimp only
    rw [p3Dof_eq _ _ (by omega), p3Dof_eq _ _ (by omega)]
    norm_num [ratPoint, pts3, exT]
  · have h1 := hy (fun x _ => x 0 + 2 * x 1 + x 2 * x 2) 0
    have h2 := hy' (fun x _ => x 0 + 2 * x 1 + x 2 * x 2) 0
    dsimp only at h1 h2 ⊢
    rw [h1, h2, hyy 0 (by omega), hyy 1 (by omega), hyy 2 (by omega)]

end Verif.Trace
