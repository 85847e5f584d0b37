import Verif.Lemmas.SpacesGeom
import Mathlib.Data.Rat.Cast.CharZero
import Mathlib.Algebra.Order.Ring.Rat

/-!
Property C34: the bases of the finite element spaces are dual to their degrees of freedom.
-/
namespace Verif.Spaces
open Verif.Geometry

variable {K : Type} [Field K] [LinearOrder K] [IsStrictOrderedRing K]

set_option linter.unusedSectionVars false

/-! ### The memory of the code meets the hypotheses -/

/-- The memory filled by `internalFem3DtetGeomInit_Tet` for one tetrahedron and one point. -/
def single (T : Nat → Nat → K) (l junk : Nat → K) : Mem K :=
  let g := tetGeom (T 0) (T 1) (T 2) (T 3) junk
  ⟨1, 1, l, g.psi, g.xyp, fun _ => g.det⟩

/-- **C34**: the geometry computed by the code for a nondegenerate tetrahedron, of either orientation, meets the
hypothesis `AtTet` of the theorems below. -/
theorem single_atTet (T : Nat → Nat → K) (l junk : Nat → K) (hv : Nondeg T) : AtTet (single T l junk) 0 T := by
  refine ⟨?_, ?_, ?_⟩
  · intro a k ha hk
    simp only [single, tetGeom, Nat.mul_zero, Nat.zero_add, Nat.add_mul_div_left k a (show 0 < 3 by omega),
      Nat.add_mul_mod_self_left, Nat.div_eq_of_lt hk, Nat.mod_eq_of_lt hk]
    interval_cases a <;> simp
  · exact (tetGeom_measure _ _ _ _ junk).1
  · intro j b hj hb
    have hd : (toMat fun k => (tetGeom (T 0) (T 1) (T 2) (T 3) junk).xyp (3 + k)).det ≠ 0 := by
      rw [← inverse_det _ junk]
      exact fun h => hv ((tetGeom_measure (T 0) (T 1) (T 2) (T 3) junk).1.symm.trans h)
    have e := (inverse_correct _ junk hd).2
    have e' := congrFun (congrFun e ⟨j, hj⟩) ⟨b, hb⟩
    rw [Matrix.mul_apply, Fin.sum_univ_three] at e'
    simp only [toMat, Matrix.of_apply, Matrix.one_apply] at e'
    have hpsi : ∀ k, (single T l junk).psi k =
        (inverse3x3 (fun k => (tetGeom (T 0) (T 1) (T 2) (T 3) junk).xyp (3 + k)) junk).2 k := fun _ => rfl
    have hxyp : ∀ k, k < 3 → (tetGeom (T 0) (T 1) (T 2) (T 3) junk).xyp (3 + (k + 3 * b)) = T (b + 1) k - T 0 k := by
      intro k hk
      rw [show 3 + (k + 3 * b) = k + 3 * (b + 1) by omega]
      simp only [tetGeom, Nat.add_mul_div_left k (b + 1) (show 0 < 3 by omega), Nat.add_mul_mod_self_left,
        Nat.div_eq_of_lt hk, Nat.mod_eq_of_lt hk]
      interval_cases b <;> simp
    simp only [dot, diff, hpsi, Nat.mul_zero, Nat.zero_add]
    have x0 := hxyp 0 (by omega)
    have x1 := hxyp 1 (by omega)
    have x2 := hxyp 2 (by omega)
    simp only [Fin.val_zero, Fin.val_one, Fin.val_two, Fin.mk.injEq] at e'
    rw [x0, x1, x2] at e'
    exact e'

/-- **C34**: for every operator and every nondegenerate tetrahedron there is a function computed by the operator (the
hypothesis `IsBasis` of the theorems below is met by a run of the code on one tetrahedron and one point). -/
theorem basis_exists (op : Mem K → (Nat → K) → Nat → K) (dim nfa i : Nat) (T : Nat → Nat → K) (junk U : Nat → K)
    (hv : Nondeg T) : IsBasis op dim nfa i T fun x k =>
      let m := single T (baryCoord (T 0) (T 1) (T 2) (T 3) x junk) junk
      op m U (place m dim nfa 0 i 0 k) := by
  intro x
  refine ⟨single T (baryCoord (T 0) (T 1) (T 2) (T 3) x junk) junk, U, 0, 0, Nat.one_pos, Nat.one_pos,
    single_atTet _ _ _ hv, ?_, fun k _ => rfl⟩
  exact baryCoord_correct _ _ _ _ x junk hv

/-! ### Helpers -/

/-- a scalar function computed by an operator whose value depends on the barycentric coordinates only -/
theorem scalar_value {op : Mem K → (Nat → K) → Nat → K} {nfa i : Nat} {T : Nat → Nat → K} {x v : Nat → K}
    {val : (Nat → K) → K} (hval : ∀ (m : Mem K) U r n, r < m.f → n < m.q →
      op m U (place m 1 nfa r i n 0) = val fun a => m.xyl (a + 4 * n))
    (hcong : ∀ l l' : Nat → K, (∀ a, a < 4 → l a = l' a) → val l = val l')
    (hv : Nondeg T) (hφ : Computed op 1 nfa i T x v) {l : Nat → K} (hl : IsBary (T 0) (T 1) (T 2) (T 3) x l) :
    v 0 = val l := by
  obtain ⟨m, U, r, n, hr, hn, -, hp, hk⟩ := hφ
  rw [hk 0 (by omega), hval m U r n hr hn]
  exact hcong _ _ (bary_unique hv hp hl)

theorem tI_lt (e : Nat) : tI e < 4 := by
  unfold tI
  rcases Nat.lt_or_ge e 6 with h | h
  · interval_cases e <;> decide
  · rw [List.getD_eq_getElem?_getD, List.getElem?_eq_none (by simpa using h)]; decide

theorem tJ_lt (e : Nat) : tJ e < 4 := by
  unfold tJ
  rcases Nat.lt_or_ge e 6 with h | h
  · interval_cases e <;> decide
  · rw [List.getD_eq_getElem?_getD, List.getElem?_eq_none (by simpa using h)]; decide

theorem ipf3_lt (e : Nat) : ipf3 e < 4 := by
  unfold ipf3
  rcases Nat.lt_or_ge e 4 with h | h
  · interval_cases e <;> decide
  · rw [List.getD_eq_getElem?_getD, List.getElem?_eq_none (by simpa using h)]; decide

theorem p2v_congr (i : Nat) (l l' : Nat → K) (h : ∀ a, a < 4 → l a = l' a) : p2v l i = p2v l' i := by
  unfold p2v
  split
  · next h4 => rw [h i h4]
  · rw [h _ (tI_lt _), h _ (tJ_lt _)]

theorem p3v_congr (i : Nat) (l l' : Nat → K) (h : ∀ a, a < 4 → l a = l' a) : p3v l i = p3v l' i := by
  unfold p3v
  split
  · next h4 => rw [h i h4]
  · simp only [h _ (tI_lt _), h _ (tJ_lt _), h _ (ipf_lt _)]

theorem b2v_congr (i : Nat) (l l' : Nat → K) (h : ∀ a, a < 4 → l a = l' a) : b2v l i = b2v l' i := by
  unfold b2v; rw [h _ (tI_lt _), h _ (tJ_lt _)]

theorem b4v_congr (l l' : Nat → K) (h : ∀ a, a < 4 → l a = l' a) : b4v l = b4v l' := by
  unfold b4v; rw [h 0 (by omega), h 1 (by omega), h 2 (by omega), h 3 (by omega)]

theorem cr1v_congr (i : Nat) (l l' : Nat → K) (h : ∀ a, a < 4 → l a = l' a) : cr1v l i = cr1v l' i := by
  unfold cr1v; rw [h _ (ipf3_lt _)]

/-- the point with given rational barycentric coordinates -/
def ratPoint (T : Nat → Nat → K) (c : Nat → ℚ) (k : Nat) : K :=
  (c 0 : K) * T 0 k + (c 1 : K) * T 1 k + (c 2 : K) * T 2 k + (c 3 : K) * T 3 k

theorem ratPoint_bary (T : Nat → Nat → K) {c : Nat → ℚ} (hc : c 0 + c 1 + c 2 + c 3 = 1) :
    IsBary (T 0) (T 1) (T 2) (T 3) (ratPoint T c) (fun a => ((c a : ℚ) : K)) :=
  ⟨by have := congrArg (Rat.cast : ℚ → K) hc
      push_cast at this
      exact this, fun _ _ => rfl⟩

/-- barycentric coordinates of the point of degree of freedom `i` of P3 -/
def pts3 (i a : Nat) : ℚ :=
  (([[1, 0, 0, 0], [0, 1, 0, 0], [0, 0, 1, 0], [0, 0, 0, 1],
    [2/3, 1/3, 0, 0], [1/3, 2/3, 0, 0], [2/3, 0, 1/3, 0], [1/3, 0, 2/3, 0], [2/3, 0, 0, 1/3], [1/3, 0, 0, 2/3],
    [0, 2/3, 1/3, 0], [0, 1/3, 2/3, 0], [0, 2/3, 0, 1/3], [0, 1/3, 0, 2/3], [0, 0, 2/3, 1/3], [0, 0, 1/3, 2/3],
    [1/3, 1/3, 1/3, 0], [0, 1/3, 1/3, 1/3], [1/3, 0, 1/3, 1/3], [1/3, 1/3, 0, 1/3]] : List (List ℚ)).getD i []).getD a 0

/-- the same for P2 -/
def pts2 (i a : Nat) : ℚ :=
  (([[1, 0, 0, 0], [0, 1, 0, 0], [0, 0, 1, 0], [0, 0, 0, 1], [1/2, 1/2, 0, 0], [1/2, 0, 1/2, 0], [1/2, 0, 0, 1/2],
    [0, 1/2, 1/2, 0], [0, 1/2, 0, 1/2], [0, 0, 1/2, 1/2]] : List (List ℚ)).getD i []).getD a 0

theorem p2v_cast (c : Nat → ℚ) (i : Nat) : p2v (fun a => ((c a : ℚ) : K)) i = ((p2v c i : ℚ) : K) := by
  unfold p2v; split <;> push_cast <;> rfl

theorem p3v_cast (c : Nat → ℚ) (i : Nat) : p3v (fun a => ((c a : ℚ) : K)) i = ((p3v c i : ℚ) : K) := by
  unfold p3v
  split
  · push_cast; rfl
  · split
    · simp only []
      split <;> push_cast <;> rfl
    · push_cast; rfl

theorem pts2_sum : ∀ i, i < 10 → pts2 i 0 + pts2 i 1 + pts2 i 2 + pts2 i 3 = 1 := by decide +kernel
theorem pts3_sum : ∀ i, i < 20 → pts3 i 0 + pts3 i 1 + pts3 i 2 + pts3 i 3 = 1 := by decide +kernel
theorem pts2_dual : ∀ i, i < 10 → ∀ j, j < 10 → p2v (pts2 i) j = if i = j then 1 else 0 := by decide +kernel
theorem pts3_dual : ∀ i, i < 20 → ∀ j, j < 20 → p3v (pts3 i) j = if i = j then 1 else 0 := by decide +kernel

theorem p2Dof_eq (T : Nat → Nat → K) (f : (Nat → K) → Nat → K) {i : Nat} (hi : i < 10) (r : Nat) :
    p2Dof T f i r = f (ratPoint T (pts2 i)) r := by
  have e : ∀ X Y : Nat → K, (∀ k, X k = Y k) → f X r = f Y r := fun X Y h => by rw [funext h]
  interval_cases i <;>
    (refine e _ _ fun k => ?_
     simp [ratPoint, pts2, edgeMid, lookup] <;> ring)

theorem p3Dof_eq (T : Nat → Nat → K) (f : (Nat → K) → Nat → K) {i : Nat} (hi : i < 20) (r : Nat) :
    p3Dof T f i r = f (ratPoint T (pts3 i)) r := by
  have e : ∀ X Y : Nat → K, (∀ k, X k = Y k) → f X r = f Y r := fun X Y h => by rw [funext h]
  interval_cases i <;>
    (refine e _ _ fun k => ?_
     simp [ratPoint, pts3, lookup, Dense.wr, Function.update] <;> ring)

/-- the coordinates of the vertices -/
theorem vertex_bary (T : Nat → Nat → K) {i : Nat} (hi : i < 4) :
    IsBary (T 0) (T 1) (T 2) (T 3) (T i) (fun a => if a = i then 1 else 0) := by
  refine ⟨?_, fun k _ => ?_⟩ <;> interval_cases i <;> simp

theorem quad_congr (rule : List (QPoint K)) (g h : (Nat → K) → K) (e : ∀ q ∈ rule, g q.p = h q.p) :
    quad rule g = quad rule h := by
  unfold quad
  have : ∀ (L : List (QPoint K)) (s : K), (∀ q ∈ L, g q.p = h q.p) →
      L.foldl (fun s q => s + q.w * g q.p) s = L.foldl (fun s q => s + q.w * h q.p) s := by
    intro L
    induction L with
    | nil => intros; rfl
    | cons q L ih =>
      intro s hL
      rw [List.foldl_cons, List.foldl_cons, hL q (List.mem_cons_self ..), ih _ fun q hq => hL q (List.mem_cons_of_mem _ hq)]
  exact this rule 0 e

theorem quad_eq (rule : List (QPoint K)) (g : (Nat → K) → K) : quad rule g = (rule.map fun q => q.w * g q.p).sum := by
  have : ∀ (L : List (QPoint K)) (s : K), L.foldl (fun s q => s + q.w * g q.p) s = s + (L.map fun q => q.w * g q.p).sum := by
    intro L
    induction L with
    | nil => intro s; simp
    | cons q L ih => intro s; rw [List.foldl_cons, ih, List.map_cons, List.sum_cons]; ring
  rw [quad, this, zero_add]

theorem quad_const (rule : List (QPoint K)) (c : K) : quad rule (fun _ => c) = weight rule * c := by
  rw [quad_eq, weight]
  induction rule with
  | nil => simp
  | cons q L ih => rw [List.map_cons, List.sum_cons, ih, List.map_cons, List.sum_cons]; ring

theorem quad_affine (rule : List (QPoint K)) (a b : K) (c : Nat) :
    quad rule (fun p => a + b * p c) = weight rule * a + b * moment rule c := by
  rw [quad_eq, weight, moment]
  induction rule with
  | nil => simp
  | cons q L ih =>
    simp only [List.map_cons, List.sum_cons] at ih ⊢
    rw [ih]; ring

/-! ### P0, P1, P2, P3, bubbles, CR1 -/

section Scalar
variable {T : Nat → Nat → K} (hv : Nondeg T) (f : (Nat → K) → Nat → K) (r : Nat)
include hv

/-- **C34** for P0: the mean value of the constant function is one, for every rule with total weight one.  `f X r` is the
number which the interpolated function number `r` yields at the point `X`. -/
theorem p0_dual (rule : List (QPoint K)) (hw : weight rule = 1)
    (hf : IsBasis p0Iden 1 1 0 T fun X k => f X (r + k)) : p0Dof rule T f r = 1 := by
  have h1 : ∀ X, f X r = 1 := by
    intro X
    obtain ⟨m, U, s, n, hs, hn, -, -, hk⟩ := hf X
    have := hk 0 (by omega)
    rw [place1, p0Iden_at _ _ hs hn] at this
    exact this
  rw [p0Dof]
  simp only [h1]
  rw [quad_const, hw, one_mul]

/-- **C34** for P1. -/
theorem p1_dual {i j : Nat} (hi : i < 4) (hj : j < 4) (hf : IsBasis p1Iden 1 4 j T fun X k => f X (r + k)) :
    p1Dof T f i r = delta i j := by
  have := scalar_value (val := fun l => l j) (fun m U r n hr hn => p1Iden_val hr hj hn) (fun l l' h => h j hj) hv (hf _)
    (vertex_bary T hi)
  simp only [Nat.add_zero] at this
  rw [p1Dof, this]
  simp only [delta, eq_comm]

/-- **C34** for P2. -/
theorem p2_dual {i j : Nat} (hi : i < 10) (hj : j < 10) (hf : IsBasis p2Iden 1 10 j T fun X k => f X (r + k)) :
    p2Dof T f i r = delta i j := by
  have := scalar_value (val := fun l => p2v l j) (fun m U r n hr hn => p2Iden_val hr hj hn) (p2v_congr j) hv (hf _)
    (ratPoint_bary T (pts2_sum i hi))
  simp only [Nat.add_zero] at this
  rw [p2Dof_eq T f hi, this, p2v_cast, pts2_dual i hi j hj, delta]
  split <;> simp

/-- **C34** for P3. -/
theorem p3_dual {i j : Nat} (hi : i < 20) (hj : j < 20) (hf : IsBasis p3Iden 1 20 j T fun X k => f X (r + k)) :
    p3Dof T f i r = delta i j := by
  have := scalar_value (val := fun l => p3v l j) (fun m U r n hr hn => p3Iden_val hr hj hn) (p3v_congr j) hv (hf _)
    (ratPoint_bary T (pts3_sum i hi))
  simp only [Nat.add_zero] at this
  rw [p3Dof_eq T f hi, this, p3v_cast, pts3_dual i hi j hj, delta]
  split <;> simp

/-- **C34** for the edge bubbles. -/
theorem b2_dual {i j : Nat} (hi : i < 6) (hj : j < 6) (hf : IsBasis b2Iden 1 6 j T fun X k => f X (r + k)) :
    b2Dof T f i r = delta i j := by
  have e1 : b2Dof T f i r = p2Dof T f (i + 4) r := by
    rw [p2Dof, if_neg (by omega), Nat.add_sub_cancel]; rfl
  have := scalar_value (val := fun l => b2v l j) (fun m U r n hr hn => b2Iden_val hr hj hn) (b2v_congr j) hv (hf _)
    (ratPoint_bary T (pts2_sum (i + 4) (by omega)))
  simp only [Nat.add_zero] at this
  rw [e1, p2Dof_eq T f (by omega), this]
  have e2 : ∀ l : Nat → K, b2v l j = p2v l (j + 4) := fun l => by rw [p2v, if_neg (by omega), Nat.add_sub_cancel]; rfl
  rw [e2, p2v_cast, pts2_dual (i + 4) (by omega) (j + 4) (by omega), delta]
  simp only [Nat.add_right_cancel_iff]
  split <;> simp

/-- **C34** for the cell bubble. -/
theorem b4_dual (hf : IsBasis b4Iden 1 1 0 T fun X k => f X (r + k)) : b4Dof T f r = 1 := by
  have hb : IsBary (T 0) (T 1) (T 2) (T 3) (fun d => ((List.range 4).foldl (fun s i => s + T i d) 0) / 4)
      (fun _ => (1 / 4 : K)) := by
    refine ⟨by norm_num, fun k _ => ?_⟩
    simp only [show List.range 4 = [0, 1, 2, 3] from rfl, List.foldl_cons, List.foldl_nil]
    ring
  rw [b4Dof]
  have := scalar_value (val := fun l => b4v l) (fun m U r n hr hn => b4Iden_val hr hn) b4v_congr hv (hf _) hb
  simp only [Nat.add_zero] at this
  rw [this]
  norm_num [b4v]

theorem facePoint_bary {i : Nat} (hi : i < 4) {p : Nat → K} (hp : p 0 + p 1 + p 2 = 1) :
    IsBary (T 0) (T 1) (T 2) (T 3) (facePoint T i p)
      (fun a => if a = (i + 0) % 4 then p 0 else if a = (i + 1) % 4 then p 1 else if a = (i + 2) % 4 then p 2 else 0) := by
  refine ⟨?_, fun k _ => ?_⟩ <;> interval_cases i <;> simp [facePoint] <;> first | linear_combination hp | ring

theorem onPlane3 {rule : List (QPoint K)} (h : OnPlane rule 3) {q : QPoint K} (hq : q ∈ rule) : q.p 0 + q.p 1 + q.p 2 = 1 := by
  have := h q hq
  simp [show List.range 3 = [0, 1, 2] from rfl] at this
  linear_combination this

/-- the value of the degree of freedom `i` of CR1 on the function `j` by any rule -/
theorem cr1_dof {i j : Nat} (hi : i < 4) (hj : j < 4) (rule : List (QPoint K)) (hp : OnPlane rule 3)
    (hf : IsBasis cr1Iden 1 4 j T fun X k => f X (r + k)) :
    cr1Dof rule T f i r = if i = j then weight rule else weight rule - 3 * moment rule ((ipf3 j + 4 - i) % 4) := by
  have hval : ∀ q ∈ rule, f (facePoint T i q.p) r =
      if i = j then 1 else 1 + (-3) * q.p ((ipf3 j + 4 - i) % 4) := by
    intro q hq
    have := scalar_value (val := fun l => cr1v l j) (fun m U r n hr hn => cr1Iden_val hr hj hn) (cr1v_congr j) hv (hf _)
      (facePoint_bary hv hi (onPlane3 hv hp hq))
    simp only [Nat.add_zero] at this
    rw [this]
    interval_cases i <;> interval_cases j <;> simp [cr1v, ipf3] <;> ring
  rw [cr1Dof, quad_congr rule _ (fun p => if i = j then 1 else 1 + (-3) * p ((ipf3 j + 4 - i) % 4)) hval]
  split
  · rw [quad_const, mul_one]
  · rw [quad_affine]; ring

/-- **C34** for CR1: the mean value over the face, by a rule exact for linear functions. -/
theorem cr1_dual {i j : Nat} (hi : i < 4) (hj : j < 4) (rule : List (QPoint K)) (hp : OnPlane rule 3)
    (hw : weight rule = 1) (hm : ∀ c, c < 3 → moment rule c = 1 / 3)
    (hf : IsBasis cr1Iden 1 4 j T fun X k => f X (r + k)) : cr1Dof rule T f i r = delta i j := by
  rw [cr1_dof hv f r hi hj rule hp hf, delta]
  split
  · exact hw
  · next h =>
    rw [hm _ _, hw]
    · norm_num
    · interval_cases i <;> interval_cases j <;> first | exact absurd rfl h | decide

end Scalar

/-! ### Partition of unity -/

/-- **C34** for P1: the four functions sum to one, at every point of every memory. -/
theorem p1_unity (m : Mem K) (U : Nat → K) {r n : Nat} (hr : r < m.f) (hn : n < m.q) {T : Nat → Nat → K} {x : Nat → K}
    (hp : AtPoint m n T x) : ((List.range 4).map fun i => p1Iden m U (place m 1 4 r i n 0)).sum = 1 := by
  have h1 := hp.1
  simp only [show List.range 4 = [0, 1, 2, 3] from rfl, List.map_cons, List.map_nil, List.sum_cons, List.sum_nil]
  rw [p1Iden_val hr (by omega) hn, p1Iden_val hr (by omega) hn, p1Iden_val hr (by omega) hn, p1Iden_val hr (by omega) hn]
  linear_combination h1

/-- **C34** for P2. -/
theorem p2_unity (m : Mem K) (U : Nat → K) {r n : Nat} (hr : r < m.f) (hn : n < m.q) {T : Nat → Nat → K} {x : Nat → K}
    (hp : AtPoint m n T x) : ((List.range 10).map fun i => p2Iden m U (place m 1 10 r i n 0)).sum = 1 := by
  have h1 := hp.1
  have e : (List.range 10).map (fun i => p2Iden m U (place m 1 10 r i n 0)) =
      (List.range 10).map fun i => p2v (fun a => m.xyl (a + 4 * n)) i :=
    List.map_congr_left fun i hi => p2Iden_val hr (List.mem_range.mp hi) hn
  rw [e]
  generalize (fun a => m.xyl (a + 4 * n)) = l at h1
  simp only [show List.range 10 = [0, 1, 2, 3, 4, 5, 6, 7, 8, 9] from rfl, List.map_cons, List.map_nil, List.sum_cons,
    List.sum_nil]
  simp [p2v, tI, tJ]
  linear_combination (2 * (l 0 + l 1 + l 2 + l 3) + 1) * h1

/-- **C34** for P3. -/
theorem p3_unity (m : Mem K) (U : Nat → K) {r n : Nat} (hr : r < m.f) (hn : n < m.q) {T : Nat → Nat → K} {x : Nat → K}
    (hp : AtPoint m n T x) : ((List.range 20).map fun i => p3Iden m U (place m 1 20 r i n 0)).sum = 1 := by
  have h1 := hp.1
  have e : (List.range 20).map (fun i => p3Iden m U (place m 1 20 r i n 0)) =
      (List.range 20).map fun i => p3v (fun a => m.xyl (a + 4 * n)) i :=
    List.map_congr_left fun i hi => p3Iden_val hr (List.mem_range.mp hi) hn
  rw [e]
  generalize (fun a => m.xyl (a + 4 * n)) = l at h1
  simp only [show List.range 20 = [0, 1, 2, 3, 4, 5, 6, 7, 8, 9, 10, 11, 12, 13, 14, 15, 16, 17, 18, 19] from rfl,
    List.map_cons, List.map_nil, List.sum_cons, List.sum_nil]
  simp [p3v, tI, tJ, ipf]
  obtain ⟨s, hs⟩ : ∃ s, s = l 0 + l 1 + l 2 + l 3 := ⟨_, rfl⟩
  have e0 : l 0 = s - l 1 - l 2 - l 3 := by rw [hs]; ring
  have h1' : s = 1 := hs.trans h1
  rw [e0, h1']
  ring

/-- **C34** for CR1. -/
theorem cr1_unity (m : Mem K) (U : Nat → K) {r n : Nat} (hr : r < m.f) (hn : n < m.q) {T : Nat → Nat → K} {x : Nat → K}
    (hp : AtPoint m n T x) : ((List.range 4).map fun i => cr1Iden m U (place m 1 4 r i n 0)).sum = 1 := by
  have h1 := hp.1
  simp only [show List.range 4 = [0, 1, 2, 3] from rfl, List.map_cons, List.map_nil, List.sum_cons, List.sum_nil]
  rw [cr1Iden_val hr (by omega) hn, cr1Iden_val hr (by omega) hn, cr1Iden_val hr (by omega) hn,
    cr1Iden_val hr (by omega) hn]
  simp only [Nat.zero_add] at h1
  simp [cr1v, ipf3]
  linear_combination -3 * h1

/-! ### RT0 -/

theorem rt0Sqr_congr (sqrt : K → K) {m m' : Mem K} {s s' : Nat} {T : Nat → Nat → K} (ht : AtTet m s T) (ht' : AtTet m' s' T)
    (j : Nat) : rt0Sqr sqrt m s j = rt0Sqr sqrt m' s' j := by
  unfold rt0Sqr triArea
  have hn : ∀ a, ∀ k, k < 3 → rtNode m s j a k = rtNode m' s' j a k := by
    intro a k hk
    rw [rtNode, rtNode, node_eq ht (ipf_lt _) hk, node_eq ht' (ipf_lt _) hk]
  rw [ht.2.1, ht'.2.1]
  simp only [hn _ 0 (show 0 < 3 by omega), hn _ 1 (show 1 < 3 by omega), hn _ 2 (show 2 < 3 by omega)]

/-- the face function is a multiple of the vector from the opposite node -/
theorem rt0_value {sqrt : K → K} {T : Nat → Nat → K} {x v : Nat → K} {j : Nat} (hj : j < 4)
    (hf : Computed (rt0Iden sqrt) 3 4 j T x v) {m : Mem K} {s : Nat} (ht : AtTet m s T) {k : Nat} (hk : k < 3) :
    v k = rt0Sqr sqrt m s j * (x k - T ((j + 3) % 4) k) := by
  obtain ⟨m', U, s', n, hs, hn, ht', hp, hkk⟩ := hf
  rw [hkk k hk, place_eq, rt0Iden_at _ _ _ hs hj hn hk]
  simp only [rt0Sqr_congr sqrt ht' ht j]
  congr 1
  have hnn : ∀ a, rtNode m' s' j a k = T (ipf (4 * j + a)) k - T 0 k := fun a => node_eq ht' (ipf_lt _) hk
  simp only [hnn]
  have hx := hp.2 k hk
  have h1 := hp.1
  simp only [Nat.zero_add] at hx h1
  interval_cases j <;> simp [ipf] <;>
    first
    | linear_combination hx - T 3 k * h1
    | linear_combination hx - T 0 k * h1
    | linear_combination hx - T 1 k * h1
    | linear_combination hx - T 2 k * h1

/-- **C34** for RT0: the mean value over the face of the product with the outer normal, by any rule with total weight
one. -/
theorem rt0_dual {sqrt : K → K} (hs : IsSqrt sqrt) {T : Nat → Nat → K} (hv : Nondeg T) (f : (Nat → K) → Nat → K) (r : Nat)
    {i j : Nat} (hi : i < 4) (hj : j < 4) (rule : List (QPoint K)) (hp : OnPlane rule 3) (hw : weight rule = 1)
    (hf : IsBasis (rt0Iden sqrt) 3 4 j T fun X k => f X (3 * r + k)) : rt0Dof sqrt rule T f i r = delta i j := by
  have hval : ∃ c : K, (∃ m s, AtTet m s T ∧ c = rt0Sqr sqrt m s j) ∧ ∀ X k, k < 3 →
      f X (3 * r + k) = c * (X k - T ((j + 3) % 4) k) := by
    obtain ⟨m0, U0, s0, n0, hs0, hn0, ht0, hp0, hk0⟩ := hf (T 0)
    exact ⟨rt0Sqr sqrt m0 s0 j, ⟨m0, s0, ht0, rfl⟩, fun X k hk => rt0_value hj (hf X) ht0 hk⟩
  obtain ⟨c, ⟨m, s, ht, hc⟩, hval⟩ := hval
  have hvi : vol6 (T i) (T ((i + 1) % 4)) (T ((i + 2) % 4)) (T ((i + 3) % 4)) ≠ 0 ∧
      |vol6 (T i) (T ((i + 1) % 4)) (T ((i + 2) % 4)) (T ((i + 3) % 4))| = |m.det s| := by
    have hvv := hv
    unfold Nondeg at hvv
    rw [ht.2.1]
    have : vol6 (T i) (T ((i + 1) % 4)) (T ((i + 2) % 4)) (T ((i + 3) % 4)) = vol6 (T 0) (T 1) (T 2) (T 3) ∨
        vol6 (T i) (T ((i + 1) % 4)) (T ((i + 2) % 4)) (T ((i + 3) % 4)) = -vol6 (T 0) (T 1) (T 2) (T 3) := by
      interval_cases i
      · exact Or.inl rfl
      · right; simp only [vol6_eq, dot, cross, diff]; ring
      · left; simp only [vol6_eq, dot, cross, diff]; ring
      · right; simp only [vol6_eq, dot, cross, diff]; ring
    rcases this with h | h
    · rw [h]; exact ⟨hvv, rfl⟩
    · rw [h]; exact ⟨neg_ne_zero.mpr hvv, abs_neg _⟩
  obtain ⟨n1, n2, -, n3, n4, n5⟩ := faceNormal_correct hs _ _ _ _ hvi.1
  obtain ⟨d, hd, ha, hnn⟩ := faceNormal_eq sqrt (T i) (T ((i + 1) % 4)) (T ((i + 2) % 4)) (T ((i + 3) % 4))
  rw [rt0Dof]
  generalize hN : (faceNormal sqrt (T i) (T ((i + 1) % 4)) (T ((i + 2) % 4)) (T ((i + 3) % 4))).2 = nrm at *
  generalize hA : (faceNormal sqrt (T i) (T ((i + 1) % 4)) (T ((i + 2) % 4)) (T ((i + 3) % 4))).1 = area at *
  -- the height: twice the area times it is the determinant
  have hh : 2 * area * dot nrm (diff (T ((i + 3) % 4)) (T i)) = -|m.det s| := by
    rw [← hvi.2]
    have e1 : dot nrm (diff (T ((i + 3) % 4)) (T i)) =
        vol6 (T i) (T ((i + 1) % 4)) (T ((i + 2) % 4)) (T ((i + 3) % 4)) / d := by
      rw [vol6_eq]
      simp only [dot]
      rw [hnn 0 (by omega), hnn 1 (by omega), hnn 2 (by omega)]
      ring
    have e2 : d = (if 0 < vol6 (T i) (T ((i + 1) % 4)) (T ((i + 2) % 4)) (T ((i + 3) % 4)) then -1 else 1) * (2 * area) := by
      rw [hd, ha]; ring
    have hA2 : (2 * area) ≠ 0 := by
      have : (0 : K) < area := n4
      positivity
    rw [e1, e2]
    split
    · next h => rw [abs_of_pos h]; field_simp
    · next h => rw [abs_of_nonpos (not_lt.mp h)]; field_simp
  have hcell : ∀ q ∈ rule, f (facePoint T i q.p) (3 * r + 0) * nrm 0 + f (facePoint T i q.p) (3 * r + 1) * nrm 1 +
      f (facePoint T i q.p) (3 * r + 2) * nrm 2 = delta i j := by
    intro q hq
    have h1 := onPlane3 hv hp hq
    rw [hval _ 0 (by omega), hval _ 1 (by omega), hval _ 2 (by omega)]
    have h1' : q.p 0 = 1 - q.p 1 - q.p 2 := by linear_combination h1
    have hX : ∀ b, dot nrm (diff (facePoint T i q.p) (T b)) = dot nrm (diff (T i) (T b)) := by
      intro b
      have hi' : (i + 0) % 4 = i := Nat.mod_eq_of_lt hi
      have e : dot nrm (diff (facePoint T i q.p) (T b)) = dot nrm (diff (T i) (T b)) +
          q.p 1 * dot nrm (diff (T ((i + 1) % 4)) (T i)) + q.p 2 * dot nrm (diff (T ((i + 2) % 4)) (T i)) := by
        simp only [dot, diff, facePoint, hi', h1']; ring
      rw [e]
      have n1' : dot nrm (diff (T ((i + 1) % 4)) (T i)) = 0 := n1
      have n2' : dot nrm (diff (T ((i + 2) % 4)) (T i)) = 0 := n2
      rw [n1', n2']; ring
    have e : c * (facePoint T i q.p 0 - T ((j + 3) % 4) 0) * nrm 0 + c * (facePoint T i q.p 1 - T ((j + 3) % 4) 1) * nrm 1 +
        c * (facePoint T i q.p 2 - T ((j + 3) % 4) 2) * nrm 2 = c * dot nrm (diff (T i) (T ((j + 3) % 4))) := by
      rw [← hX]; simp only [dot, diff]; ring
    rw [e]
    have eflip : dot nrm (diff (T i) (T ((j + 3) % 4))) = -dot nrm (diff (T ((j + 3) % 4)) (T i)) := by
      simp only [dot, diff]; ring
    rw [eflip, delta]
    by_cases hij : i = j
    · subst hij
      rw [if_pos rfl]
      -- the two areas agree
      have hT := triArea_correct hs (rtNode m s i 0) (rtNode m s i 1) (rtNode m s i 2)
      have harea : triArea sqrt (rtNode m s i 0) (rtNode m s i 1) (rtNode m s i 2) = area := by
        have hsq : triArea sqrt (rtNode m s i 0) (rtNode m s i 1) (rtNode m s i 2) *
            triArea sqrt (rtNode m s i 0) (rtNode m s i 1) (rtNode m s i 2) = area * area := by
          have e4 : (4 : K) ≠ 0 := by norm_num
          refine mul_left_cancel₀ e4 (hT.2.trans (Eq.trans ?_ n5.symm))
          have hn3 : ∀ a k, k < 3 → rtNode m s i a k = T (ipf (4 * i + a)) k - T 0 k := fun a k hk => node_eq ht (ipf_lt _) hk
          simp only [dot, cross, diff, hn3 _ 0 (show 0 < 3 by omega), hn3 _ 1 (show 1 < 3 by omega),
            hn3 _ 2 (show 2 < 3 by omega)]
          interval_cases i <;> simp [ipf] <;> ring
        rcases mul_self_eq_mul_self_iff.mp hsq with h | h
        · exact h
        · have : (0 : K) < area := n4
          have := hT.1
          linarith
      rw [hc, rt0Sqr, harea]
      have hdet : |m.det s| ≠ 0 := by
        rw [ht.2.1]; exact abs_ne_zero.mpr hv
      have : -dot nrm (diff (T ((i + 3) % 4)) (T i)) = |m.det s| / (2 * area) := by
        have hA2 : (0 : K) < area := n4
        field_simp
        linear_combination -hh
      rw [this]
      have hA2 : area ≠ 0 := ne_of_gt n4
      field_simp
    · rw [if_neg hij]
      have : dot nrm (diff (T ((j + 3) % 4)) (T i)) = 0 := by
        have hcase : (j + 3) % 4 = i ∨ (j + 3) % 4 = (i + 1) % 4 ∨ (j + 3) % 4 = (i + 2) % 4 := by omega
        rcases hcase with h | h | h
        · rw [h]; simp [dot, diff]
        · rw [h]; exact n1
        · rw [h]; exact n2
      rw [this]; ring
  have := quad_congr rule (fun p => f (facePoint T i p) (3 * r + 0) * nrm 0 + f (facePoint T i p) (3 * r + 1) * nrm 1 +
      f (facePoint T i p) (3 * r + 2) * nrm 2) (fun _ => delta i j) hcell
  refine this.trans ?_
  rw [quad_const, hw, one_mul]

/-! ### ND0 -/

theorem nd0_congr (sqrt : K → K) {m m' : Mem K} {s s' : Nat} {T : Nat → Nat → K} (ht : AtTet m s T) (ht' : AtTet m' s' T)
    (j : Nat) : nd0Sqr sqrt m s j = nd0Sqr sqrt m' s' j ∧ Same3 (nd0N m s j) (nd0N m' s' j) ∧
      Same3 (nd0M m s j) (nd0M m' s' j) := by
  have hn : ∀ a, ∀ k, k < 3 → node m s (ipr a) k = node m' s' (ipr a) k := by
    intro a k hk
    rw [node_eq ht (ipr_lt _) hk, node_eq ht' (ipr_lt _) hk]
  refine ⟨?_, ?_, ?_⟩
  · rw [nd0Sqr, nd0Sqr, fold3, fold3, ht.2.1, ht'.2.1]
    simp only [hn _ 0 (show 0 < 3 by omega), hn _ 1 (show 1 < 3 by omega), hn _ 2 (show 2 < 3 by omega)]
  · intro k hk
    rw [nd0N, nd0N, cross3_node ht (ipr_lt _) (ipr_lt _) (ipr_lt _) k hk,
      cross3_node ht' (ipr_lt _) (ipr_lt _) (ipr_lt _) k hk]
  · intro k hk
    rw [nd0M, nd0M, cross3_node ht (ipr_lt _) (ipr_lt _) (ipr_lt _) k hk,
      cross3_node ht' (ipr_lt _) (ipr_lt _) (ipr_lt _) k hk]

theorem nd0_value {sqrt : K → K} {T : Nat → Nat → K} (hv : Nondeg T) {x v : Nat → K} {j : Nat} (hj : j < 6)
    (hf : Computed (nd0Iden sqrt) 3 6 j T x v) {m : Mem K} {s : Nat} (ht : AtTet m s T) {l : Nat → K}
    (hl : IsBary (T 0) (T 1) (T 2) (T 3) x l) {k : Nat} (hk : k < 3) :
    v k = nd0Sqr sqrt m s j * (nd0N m s j k * l (ipr (4 * j)) + nd0M m s j k * l (ipr (4 * j + 1))) := by
  obtain ⟨m', U, s', n, hs, hn, ht', hp, hkk⟩ := hf
  obtain ⟨e1, e2, e3⟩ := nd0_congr sqrt ht' ht j
  rw [hkk k hk, place_eq, nd0Iden_at _ _ _ hs hj hn hk, e1, e2 k hk, e3 k hk]
  have hb := bary_unique hv hp hl
  have l1 := hb _ (ipr_lt (4 * j))
  have l2 := hb _ (ipr_lt (4 * j + 1))
  rw [l1, l2]


/-- **C34** for ND0: the mean value over the edge of the product with the unit tangent, by any rule with total weight
one. -/
theorem nd0_dual {sqrt : K → K} (hs : IsSqrt sqrt) {T : Nat → Nat → K} (hv : Nondeg T) (f : (Nat → K) → Nat → K) (r : Nat)
    {i j : Nat} (hi : i < 6) (hj : j < 6) (rule : List (QPoint K)) (hp : OnPlane rule 2) (hw : weight rule = 1)
    (hf : IsBasis (nd0Iden sqrt) 3 6 j T fun X k => f X (3 * r + k)) : nd0Dof sqrt rule T f i r = delta i j := by
  have hlk : lookup (2 * i) < 4 ∧ lookup (2 * i + 1) < 4 ∧ lookup (2 * i) ≠ lookup (2 * i + 1) := by
    interval_cases i <;> decide
  have hcell : ∀ q ∈ rule, (fun p : Nat → K => f (fun k => T (lookup (2 * i)) k * p 0 + T (lookup (2 * i + 1)) k * p 1) (3 * r + 0) *
      tangent sqrt T i 0 + f (fun k => T (lookup (2 * i)) k * p 0 + T (lookup (2 * i + 1)) k * p 1) (3 * r + 1) *
      tangent sqrt T i 1 + f (fun k => T (lookup (2 * i)) k * p 0 + T (lookup (2 * i + 1)) k * p 1) (3 * r + 2) *
      tangent sqrt T i 2) q.p = delta i j := by
    intro q hq
    have h1 : q.p 0 + q.p 1 = 1 := by
      have := hp q hq
      simp [show List.range 2 = [0, 1] from rfl] at this
      exact this
    beta_reduce
    generalize hX : (fun k => T (lookup (2 * i)) k * q.p 0 + T (lookup (2 * i + 1)) k * q.p 1) = X
    obtain ⟨m, U, s, n, hsm, hn, ht, hpt, hk⟩ := hf X
    simp only at hk
    -- the coordinates of the point
    have hb : IsBary (T 0) (T 1) (T 2) (T 3) X
        (fun a => if a = lookup (2 * i) then q.p 0 else if a = lookup (2 * i + 1) then q.p 1 else 0) := by
      rw [← hX]
      refine ⟨?_, fun k _ => ?_⟩ <;> interval_cases i <;> simp [lookup] <;> first | linear_combination h1 | ring
    have hlam := bary_unique hv hpt hb
    obtain ⟨hN, hM⟩ := nd0_vectors hv ht hj
    have hF : ∀ k, k < 3 → f X (3 * r + k) = nd0Sqr sqrt m s j * m.det s *
        (gradL m s (ipr (4 * j + 1)) k * m.xyl (ipr (4 * j) + 4 * n) -
          gradL m s (ipr (4 * j)) k * m.xyl (ipr (4 * j + 1) + 4 * n)) := by
      intro k hk3
      rw [hk k hk3, place_eq, nd0Iden_at _ _ _ hsm hj hn hk3, hN k hk3, hM k hk3]
      ring
    rw [hF 0 (by omega), hF 1 (by omega), hF 2 (by omega)]
    have l1 := hlam _ (ipr_lt (4 * j))
    have l2 := hlam _ (ipr_lt (4 * j + 1))
    rw [l1, l2]
    have hdet : m.det s ≠ 0 := by rw [ht.2.1]; exact hv
    -- the length of the edge
    have hlen : ∀ a b, a < 4 → b < 4 → a ≠ b → sqrt (dot (diff (T a) (T b)) (diff (T a) (T b))) ≠ 0 := by
      intro a b ha hb' hne h0
      have h2 := (hs _ (dot_self_nonneg (diff (T a) (T b)))).2
      rw [h0, mul_zero] at h2
      have h3 := dot_self_eq_zero h2.symm
      have h4 := grad_dot' ht ha ha hb'
      rw [dot, h3 0 (by omega), h3 1 (by omega), h3 2 (by omega)] at h4
      simp [hne] at h4
    have htan : ∀ k, tangent sqrt T i k = diff (T (lookup (2 * i + 1))) (T (lookup (2 * i))) k /
        sqrt (dot (diff (T (lookup (2 * i + 1))) (T (lookup (2 * i)))) (diff (T (lookup (2 * i + 1))) (T (lookup (2 * i))))) := by
      intro k
      rw [tangent, fold3]
      simp only [diff, dot]
    have hsqr : nd0Sqr sqrt m s j * m.det s =
        sqrt (dot (diff (T (ipr (4 * j))) (T (ipr (4 * j + 1)))) (diff (T (ipr (4 * j))) (T (ipr (4 * j + 1))))) := by
      rw [nd0Sqr, fold3]
      have : ∀ k, k < 3 → node m s (ipr (4 * j)) k - node m s (ipr (4 * j + 1)) k =
          diff (T (ipr (4 * j))) (T (ipr (4 * j + 1))) k := by
        intro k hk; rw [node_eq ht (ipr_lt _) hk, node_eq ht (ipr_lt _) hk]; simp only [diff]; ring
      simp only [this 0 (by omega), this 1 (by omega), this 2 (by omega)]
      rw [div_mul_cancel₀ _ hdet]; rfl
    rw [hsqr, htan, htan, htan]
    have d1 := grad_dot' ht (ipr_lt (4 * j)) hlk.2.1 hlk.1
    have d2 := grad_dot' ht (ipr_lt (4 * j + 1)) hlk.2.1 hlk.1
    have hL := hlen _ _ hlk.2.1 hlk.1 hlk.2.2.symm
    have key : (dot (gradL m s (ipr (4 * j + 1))) (diff (T (lookup (2 * i + 1))) (T (lookup (2 * i)))) *
          (if ipr (4 * j) = lookup (2 * i) then q.p 0 else if ipr (4 * j) = lookup (2 * i + 1) then q.p 1 else 0) -
        dot (gradL m s (ipr (4 * j))) (diff (T (lookup (2 * i + 1))) (T (lookup (2 * i)))) *
          (if ipr (4 * j + 1) = lookup (2 * i) then q.p 0 else if ipr (4 * j + 1) = lookup (2 * i + 1) then q.p 1 else 0)) =
        delta i j := by
      rw [d1, d2]
      interval_cases i <;> interval_cases j <;> simp [ipr, lookup, delta] <;> linear_combination h1
    have hlen2 : i = j → sqrt (dot (diff (T (ipr (4 * j))) (T (ipr (4 * j + 1)))) (diff (T (ipr (4 * j))) (T (ipr (4 * j + 1))))) =
        sqrt (dot (diff (T (lookup (2 * i + 1))) (T (lookup (2 * i)))) (diff (T (lookup (2 * i + 1))) (T (lookup (2 * i))))) := by
      rintro rfl
      congr 1
      interval_cases i <;> simp [ipr, lookup, dot, diff] <;> ring
    generalize sqrt (dot (diff (T (ipr (4 * j))) (T (ipr (4 * j + 1)))) (diff (T (ipr (4 * j))) (T (ipr (4 * j + 1))))) = L1 at *
    generalize sqrt (dot (diff (T (lookup (2 * i + 1))) (T (lookup (2 * i)))) (diff (T (lookup (2 * i + 1))) (T (lookup (2 * i))))) =
      L2 at *
    have hfin : ∀ a b : K, L1 * (gradL m s (ipr (4 * j + 1)) 0 * a - gradL m s (ipr (4 * j)) 0 * b) *
          (diff (T (lookup (2 * i + 1))) (T (lookup (2 * i))) 0 / L2) +
        L1 * (gradL m s (ipr (4 * j + 1)) 1 * a - gradL m s (ipr (4 * j)) 1 * b) *
          (diff (T (lookup (2 * i + 1))) (T (lookup (2 * i))) 1 / L2) +
        L1 * (gradL m s (ipr (4 * j + 1)) 2 * a - gradL m s (ipr (4 * j)) 2 * b) *
          (diff (T (lookup (2 * i + 1))) (T (lookup (2 * i))) 2 / L2) =
        L1 / L2 * (dot (gradL m s (ipr (4 * j + 1))) (diff (T (lookup (2 * i + 1))) (T (lookup (2 * i)))) * a -
          dot (gradL m s (ipr (4 * j))) (diff (T (lookup (2 * i + 1))) (T (lookup (2 * i)))) * b) := by
      intro a b; simp only [dot]; ring
    rw [hfin, key, delta]
    split
    · next h => rw [hlen2 h, div_self hL, one_mul]
    · rw [mul_zero]
  rw [nd0Dof]
  refine (quad_congr rule _ (fun _ => delta i j) hcell).trans ?_
  rw [quad_const, hw, one_mul]

/-! ### Cases meeting the hypotheses -/

/-- a tetrahedron of negative orientation -/
noncomputable def sampleT : Nat → Nat → ℝ := fun a k => ([[1, 0, 0], [0, 0, 0], [0, 2, 1], [1, 1, 3]] : List (List ℝ)).getD a [] |>.getD k 0

theorem sampleT_neg : vol6 (sampleT 0) (sampleT 1) (sampleT 2) (sampleT 3) < 0 := by
  rw [vol6_eq]; norm_num [dot, cross, diff, sampleT]

theorem sampleT_nondeg : Nondeg sampleT := ne_of_lt sampleT_neg

/-- the one point rule of a face -/
noncomputable def centroid3 : List (QPoint ℝ) := [⟨fun _ => 1 / 3, 1⟩]
/-- the two point rule of an edge with different weights -/
noncomputable def rule2 : List (QPoint ℝ) := [⟨fun c => if c = 0 then 0 else 1, 1 / 4⟩, ⟨fun c => if c = 0 then 2 / 3 else 1 / 3, 3 / 4⟩]

example : OnPlane centroid3 3 ∧ weight centroid3 = 1 ∧ ∀ c, c < 3 → moment centroid3 c = 1 / 3 := by
  refine ⟨fun q hq => ?_, by simp [weight, centroid3], fun c _ => by simp [moment, centroid3]⟩
  rw [List.mem_singleton.mp hq]
  norm_num [show List.range 3 = [0, 1, 2] from rfl]

example : OnPlane rule2 2 ∧ weight rule2 = 1 := by
  refine ⟨fun q hq => ?_, by norm_num [weight, rule2]⟩
  simp only [rule2, List.mem_cons, List.not_mem_nil, or_false] at hq
  rcases hq with rfl | rfl <;> norm_num [show List.range 2 = [0, 1] from rfl]

example : IsSqrt Real.sqrt := fun _ hx => ⟨Real.sqrt_nonneg _, Real.mul_self_sqrt hx⟩

example (junk U : Nat → ℝ) : IsBasis (rt0Iden Real.sqrt) 3 4 2 sampleT fun x k =>
    let m := single sampleT (baryCoord (sampleT 0) (sampleT 1) (sampleT 2) (sampleT 3) x junk) junk
    rt0Iden Real.sqrt m U (place m 3 4 0 2 0 k) := basis_exists _ _ _ _ _ _ _ sampleT_nondeg

end Verif.Spaces
