import Verif.Model.BoxMesh
import Verif.Spec.BoxMesh
import Mathlib.Algebra.BigOperators.Fin
import Mathlib.Algebra.Order.Floor.Ring
import Mathlib.Algebra.Order.BigOperators.Group.Finset
import Mathlib.Algebra.Order.Archimedean.Real.Basic
import Mathlib.Tactic.Linarith
import Mathlib.Tactic.FinCases
import Mathlib.Tactic.FieldSimp
import Mathlib.Tactic.Ring
import Mathlib.Tactic.NormNum

/-! The geometry of the six tetrahedra of a box and of the grid made of them. -/
namespace Verif.BoxMesh
open Verif.Spec.BoxMesh

/-- The corner `c` of the box: its offset from the corner 0. -/
def corner (c : Fin 8) : Fin 3 → Nat := ![c.val % 2, c.val / 2 % 2, c.val / 4]

/-- The vertices of the six tetrahedra, positively ordered. -/
def tetra : Fin 6 → Fin 4 → Fin 8 :=
  ![![0, 1, 3, 5], ![0, 3, 7, 5], ![0, 5, 7, 4], ![0, 2, 7, 3], ![0, 2, 4, 7], ![2, 6, 4, 7]]

/-- A corner of the box `b`. -/
def lab (b : Lab) (c : Fin 8) : Lab := fun a => b a + corner c a

theorem corner_inj : Function.Injective corner := by decide +kernel

theorem lab_inj (b : Lab) : Function.Injective (lab b) := fun x y h => corner_inj (funext fun a => by
  have := congrFun h a; simp only [lab] at this; omega)

theorem tetra_inj (t : Fin 6) : Function.Injective (tetra t) := by revert t; decide +kernel

/-- The tetrahedron `t` of the box `b`. -/
def tet (b : Lab) (t : Fin 6) : Finset Lab := Finset.univ.image fun a => lab b (tetra t a)

theorem labt_inj (b : Lab) (t : Fin 6) : Function.Injective fun a => lab b (tetra t a) := (lab_inj b).comp (tetra_inj t)

/-- The linear functions which are integers on the planes of the mesh. -/
def roots : List (Fin 3 → Int) :=
  [![1, 0, 0], ![-1, 0, 0], ![0, 1, 0], ![0, -1, 0], ![0, 0, 1], ![0, 0, -1], ![-1, 1, 1], ![1, -1, -1], ![1, -1, 0], ![-1, 1, 0],
   ![1, 0, -1], ![-1, 0, 1]]

/-- The value of a linear function at an integer vector. -/
def dot (r : Fin 3 → Int) (d : Fin 3 → Int) : Int := r 0 * d 0 + r 1 * d 1 + r 2 * d 2

theorem roots_close : ∀ t : Fin 6, ∀ a a' : Fin 4, ∀ r ∈ roots,
    dot r (fun c => (corner (tetra t a') c : Int) - corner (tetra t a) c) ≤ 1 := by decide +kernel

theorem roots_corner : ∀ t : Fin 6, ∀ e : Fin 8, (∀ a, tetra t a ≠ e) → ∃ r ∈ roots, ∀ a : Fin 4,
    1 ≤ dot r (fun c => (corner (tetra t a) c : Int) - corner e c) := by decide +kernel

theorem corner_le (c : Fin 8) (a : Fin 3) : corner c a ≤ 1 := by revert c a; decide +kernel

/-- A node that is not a vertex is cut off by a plane. -/
theorem roots_far (b : Lab) (t : Fin 6) (v : Lab) (h : v ∉ tet b t) : ∃ r ∈ roots, ∀ a : Fin 4,
    1 ≤ dot r (fun c => (lab b (tetra t a) c : Int) - v c) := by
  by_cases hin : ∀ c, b c ≤ v c ∧ v c ≤ b c + 1
  · have hx : ∃ e : Fin 8, ∀ c, v c = b c + corner e c := by
      refine ⟨⟨(v 0 - b 0) + 2 * (v 1 - b 1) + 4 * (v 2 - b 2), ?_⟩, ?_⟩
      · have := hin 0; have := hin 1; have := hin 2; omega
      · have := hin 0; have := hin 1; have := hin 2
        intro c
        fin_cases c <;> simp [corner] <;> omega
    obtain ⟨e, he⟩ := hx
    obtain ⟨r, hr, h1⟩ := roots_corner t e (fun a hae => h (Finset.mem_image.2 ⟨a, Finset.mem_univ _, by
      funext c; rw [lab, hae, he c]⟩))
    refine ⟨r, hr, fun a => ?_⟩
    have := h1 a
    simp only [dot, lab, he] at this ⊢
    push_cast
    linarith
  · push Not at hin
    obtain ⟨c, hc⟩ := hin
    have hcl : ∀ a c, corner (tetra t a) c ≤ 1 := fun a c => corner_le _ _
    by_cases hlow : b c ≤ v c
    · have h2 := hc hlow
      have key : ∀ a, ((lab b (tetra t a) c : Nat) : Int) - v c ≤ -1 := fun a => by
        have := hcl a c; simp only [lab]; push_cast; omega
      fin_cases c
      · refine ⟨![-1, 0, 0], by simp [roots], fun a => ?_⟩
        have := key a; simp [dot] at this ⊢; linarith
      · refine ⟨![0, -1, 0], by simp [roots], fun a => ?_⟩
        have := key a; simp [dot] at this ⊢; linarith
      · refine ⟨![0, 0, -1], by simp [roots], fun a => ?_⟩
        have := key a; simp [dot] at this ⊢; linarith
    · have key : ∀ a, 1 ≤ ((lab b (tetra t a) c : Nat) : Int) - v c := fun a => by
        simp only [lab]; push_cast; omega
      fin_cases c
      · refine ⟨![1, 0, 0], by simp [roots], fun a => ?_⟩
        have := key a; simp [dot] at this ⊢; linarith
      · refine ⟨![0, 1, 0], by simp [roots], fun a => ?_⟩
        have := key a; simp [dot] at this ⊢; linarith
      · refine ⟨![0, 0, 1], by simp [roots], fun a => ?_⟩
        have := key a; simp [dot] at this ⊢; linarith

/-- The weights in a tetrahedron of the grid. -/
theorem sum_tet (b : Lab) (t : Fin 6) (f : Lab → ℝ) : ∑ v ∈ tet b t, f v = ∑ a, f (lab b (tetra t a)) :=
  Finset.sum_image fun _ _ _ _ h => labt_inj b t h

/-- The value of a linear function at a real vector. -/
def rdot (r : Fin 3 → Int) (d : Fin 3 → ℝ) : ℝ := r 0 * d 0 + r 1 * d 1 + r 2 * d 2

theorem rdot_cast (r : Fin 3 → Int) (x y : Lab) : rdot r (fun c => (x c : ℝ) - y c) = ((dot r fun c => (x c : Int) - y c : Int) : ℝ) := by
  simp only [rdot, dot]; push_cast; rfl

theorem rdot_comb (r : Fin 3 → Int) {b : Lab} {t : Fin 6} {w : Lab → ℝ} {q : Fin 3 → ℝ} (h1 : ∑ v ∈ tet b t, w v = 1)
    (hq : ∀ c, q c = ∑ v ∈ tet b t, w v * (v c : ℝ)) (v : Lab) :
    rdot r (fun c => q c - v c) = ∑ x ∈ tet b t, w x * rdot r (fun c => (x c : ℝ) - v c) := by
  have e : ∀ x ∈ tet b t, w x * rdot r (fun c => (x c : ℝ) - v c) =
      r 0 * (w x * x 0) + r 1 * (w x * x 1) + r 2 * (w x * x 2) - w x * (r 0 * v 0 + r 1 * v 1 + r 2 * v 2) := by
    intro x _; simp only [rdot]; ring
  rw [Finset.sum_congr rfl e, Finset.sum_sub_distrib, Finset.sum_add_distrib, Finset.sum_add_distrib, ← Finset.mul_sum, ← Finset.mul_sum,
    ← Finset.mul_sum, ← Finset.sum_mul, h1, ← hq, ← hq, ← hq]
  simp only [rdot]; ring

/-- A vertex that is not shared has no weight. -/
theorem weight_zero {b b' : Lab} {t t' : Fin 6} {w w' : Lab → ℝ} {q : Fin 3 → ℝ} (h0 : ∀ v ∈ tet b t, 0 ≤ w v) (h1 : ∑ v ∈ tet b t, w v = 1)
    (hq : ∀ c, q c = ∑ v ∈ tet b t, w v * (v c : ℝ)) (h0' : ∀ v ∈ tet b' t', 0 ≤ w' v) (h1' : ∑ v ∈ tet b' t', w' v = 1)
    (hq' : ∀ c, q c = ∑ v ∈ tet b' t', w' v * (v c : ℝ)) {v : Lab} (hv : v ∈ tet b t) (hv' : v ∉ tet b' t') : w v = 0 := by
  obtain ⟨r, hr, hfar⟩ := roots_far b' t' v hv'
  have hA : 1 ≤ rdot r (fun c => q c - v c) := by
    rw [rdot_comb r h1' hq' v, ← h1']
    refine Finset.sum_le_sum fun x hx => ?_
    obtain ⟨a, -, rfl⟩ := Finset.mem_image.1 hx
    have := hfar a
    rw [rdot_cast]
    have h2 : (1 : ℝ) ≤ ((dot r fun c => (lab b' (tetra t' a) c : Int) - v c : Int) : ℝ) := by exact_mod_cast this
    exact le_mul_of_one_le_right (h0' _ hx) h2
  have hB : rdot r (fun c => q c - v c) ≤ 1 - w v := by
    rw [rdot_comb r h1 hq v, ← h1, ← Finset.add_sum_erase _ _ hv, ← Finset.add_sum_erase _ w hv, add_sub_cancel_left]
    have hz : rdot r (fun c => (v c : ℝ) - v c) = 0 := by simp [rdot]
    rw [hz, mul_zero, zero_add]
    refine Finset.sum_le_sum fun x hx => ?_
    have hx' := Finset.mem_of_mem_erase hx
    obtain ⟨a, -, rfl⟩ := Finset.mem_image.1 hx'
    obtain ⟨a0, -, rfl⟩ := Finset.mem_image.1 hv
    have := roots_close t a0 a r hr
    rw [rdot_cast]
    have h2 : ((dot r fun c => (lab b (tetra t a) c : Int) - lab b (tetra t a0) c : Int) : ℝ) ≤ 1 := by
      have : dot r (fun c => (lab b (tetra t a) c : Int) - lab b (tetra t a0) c) ≤ 1 := by
        simp only [dot, lab] at this ⊢; push_cast; linarith
      exact_mod_cast this
    exact mul_le_of_le_one_right (h0 _ hx') h2
  have := h0 v hv
  linarith

/-! ### From the grid to the box -/

section
variable {sizes : Fin 3 → Nat} {A O : Fin 3 → ℝ}

/-- The place of a point in the grid. -/
noncomputable def toGrid (sizes : Fin 3 → Nat) (A O p : Fin 3 → ℝ) (c : Fin 3) : ℝ := (p c - O c) * sizes c / (A c - O c)

theorem toGrid_comb (hs : ∀ c, 0 < sizes c) (hA : ∀ c, A c ≠ O c) {S : Finset Lab} {w : Lab → ℝ} {p : Fin 3 → ℝ} (h1 : ∑ v ∈ S, w v = 1)
    (hp : ∀ c, p c = ∑ v ∈ S, w v * xyz sizes A O v c) (c : Fin 3) : toGrid sizes A O p c = ∑ v ∈ S, w v * (v c : ℝ) := by
  have h2 : (sizes c : ℝ) ≠ 0 := by have := hs c; positivity
  have h3 : A c - O c ≠ 0 := sub_ne_zero.2 (hA c)
  have e : ∀ v ∈ S, w v * xyz sizes A O v c = (w v * (v c : ℝ)) * ((A c - O c) / sizes c) + w v * O c := by
    intro v _; simp only [xyz]; ring
  rw [toGrid, hp c, Finset.sum_congr rfl e, Finset.sum_add_distrib, ← Finset.sum_mul, ← Finset.sum_mul, h1]
  field_simp
  ring

theorem fromGrid_comb (hs : ∀ c, 0 < sizes c) (hA : ∀ c, A c ≠ O c) {S : Finset Lab} {w : Lab → ℝ} {p : Fin 3 → ℝ} (h1 : ∑ v ∈ S, w v = 1)
    (hp : ∀ c, toGrid sizes A O p c = ∑ v ∈ S, w v * (v c : ℝ)) (c : Fin 3) : p c = ∑ v ∈ S, w v * xyz sizes A O v c := by
  have h2 : (sizes c : ℝ) ≠ 0 := by have := hs c; positivity
  have h3 : A c - O c ≠ 0 := sub_ne_zero.2 (hA c)
  have e : ∀ v ∈ S, w v * xyz sizes A O v c = (w v * (v c : ℝ)) * ((A c - O c) / sizes c) + w v * O c := by
    intro v _; simp only [xyz]; ring
  rw [Finset.sum_congr rfl e, Finset.sum_add_distrib, ← Finset.sum_mul, ← Finset.sum_mul, h1, ← hp c, toGrid]
  field_simp
  ring

theorem hull_inter (hs : ∀ c, 0 < sizes c) (hA : ∀ c, A c ≠ O c) {b b' : Lab} {t t' : Fin 6} {p : Fin 3 → ℝ}
    (h : InHull (xyz sizes A O) (tet b t) p) (h' : InHull (xyz sizes A O) (tet b' t') p) :
    InHull (xyz sizes A O) (tet b t ∩ tet b' t') p := by
  obtain ⟨w, h0, h1, hp⟩ := h
  obtain ⟨w', h0', h1', hp'⟩ := h'
  have hz : ∀ v ∈ tet b t, v ∉ tet b t ∩ tet b' t' → w v = 0 := fun v hv hn =>
    weight_zero h0 h1 (toGrid_comb hs hA h1 hp) h0' h1' (toGrid_comb hs hA h1' hp') hv (fun hv' => hn (Finset.mem_inter.2 ⟨hv, hv'⟩))
  refine ⟨w, fun v hv => h0 v (Finset.mem_inter.1 hv).1, ?_, fun c => ?_⟩
  · rw [← h1]; exact Finset.sum_subset Finset.inter_subset_left hz
  · rw [hp c]
    symm
    refine Finset.sum_subset Finset.inter_subset_left fun v hv hn => ?_
    rw [hz v hv hn, zero_mul]

theorem inside_eq (hs : ∀ c, 0 < sizes c) (hA : ∀ c, A c ≠ O c) {b b' : Lab} {t t' : Fin 6} {p : Fin 3 → ℝ}
    (h : Inside (xyz sizes A O) (tet b t) p) (h' : InHull (xyz sizes A O) (tet b' t') p) : tet b t = tet b' t' := by
  obtain ⟨w, h0, h1, hp⟩ := h
  obtain ⟨w', h0', h1', hp'⟩ := h'
  have hsub : tet b t ⊆ tet b' t' := by
    intro v hv
    by_contra hn
    have := weight_zero (fun v hv => (h0 v hv).le) h1 (toGrid_comb hs hA h1 hp) h0' h1' (toGrid_comb hs hA h1' hp') hv hn
    have h3 := h0 v hv
    linarith
  refine Finset.eq_of_subset_of_card_le hsub ?_
  rw [tet, tet, Finset.card_image_of_injective _ (labt_inj b t), Finset.card_image_of_injective _ (labt_inj b' t')]

/-- A box is covered by its tetrahedra. -/
theorem cover_unit {x y z : ℝ} (hx : 0 ≤ x ∧ x ≤ 1) (hy : 0 ≤ y ∧ y ≤ 1) (hz : 0 ≤ z ∧ z ≤ 1) :
    ∃ t : Fin 6, ∃ l : Fin 4 → ℝ, (∀ a, 0 ≤ l a) ∧ ∑ a, l a = 1 ∧ x = ∑ a, l a * (corner (tetra t a) 0 : ℝ) ∧
      y = ∑ a, l a * (corner (tetra t a) 1 : ℝ) ∧ z = ∑ a, l a * (corner (tetra t a) 2 : ℝ) := by
  obtain ⟨hx0, hx1⟩ := hx
  obtain ⟨hy0, hy1⟩ := hy
  obtain ⟨hz0, hz1⟩ := hz
  by_cases h1 : y + z ≤ x
  · have e : ∀ (a : Fin 4) (c : Fin 3), corner (tetra 0 a) c = (![![0, 0, 0], ![1, 0, 0], ![1, 1, 0], ![1, 0, 1]] : Fin 4 → Fin 3 → Nat) a c := by decide +kernel
    refine ⟨0, ![1 - x, x - y - z, y, z], fun a => ?_, ?_, ?_, ?_, ?_⟩
    · fin_cases a <;> simp only [Fin.zero_eta, Fin.mk_one, Fin.reduceFinMk, Matrix.cons_val] <;> linarith
    all_goals simp only [Fin.sum_univ_four, e, Matrix.cons_val, Nat.cast_zero, Nat.cast_one]; ring
  by_cases h2 : 1 + x ≤ y + z
  · have e : ∀ (a : Fin 4) (c : Fin 3), corner (tetra 5 a) c = (![![0, 1, 0], ![0, 1, 1], ![0, 0, 1], ![1, 1, 1]] : Fin 4 → Fin 3 → Nat) a c := by decide +kernel
    refine ⟨5, ![1 - z, y + z - 1 - x, 1 - y, x], fun a => ?_, ?_, ?_, ?_, ?_⟩
    · fin_cases a <;> simp only [Fin.zero_eta, Fin.mk_one, Fin.reduceFinMk, Matrix.cons_val] <;> linarith
    all_goals simp only [Fin.sum_univ_four, e, Matrix.cons_val, Nat.cast_zero, Nat.cast_one]; ring
  rcases le_total y x with h3 | h3 <;> rcases le_total z x with h4 | h4
  · have e : ∀ (a : Fin 4) (c : Fin 3), corner (tetra 1 a) c = (![![0, 0, 0], ![1, 1, 0], ![1, 1, 1], ![1, 0, 1]] : Fin 4 → Fin 3 → Nat) a c := by decide +kernel
    refine ⟨1, ![1 - x, x - z, y + z - x, x - y], fun a => ?_, ?_, ?_, ?_, ?_⟩
    · fin_cases a <;> simp only [Fin.zero_eta, Fin.mk_one, Fin.reduceFinMk, Matrix.cons_val] <;> linarith
    all_goals simp only [Fin.sum_univ_four, e, Matrix.cons_val, Nat.cast_zero, Nat.cast_one]; ring
  · have e : ∀ (a : Fin 4) (c : Fin 3), corner (tetra 2 a) c = (![![0, 0, 0], ![1, 0, 1], ![1, 1, 1], ![0, 0, 1]] : Fin 4 → Fin 3 → Nat) a c := by decide +kernel
    refine ⟨2, ![1 - z, x - y, y, z - x], fun a => ?_, ?_, ?_, ?_, ?_⟩
    · fin_cases a <;> simp only [Fin.zero_eta, Fin.mk_one, Fin.reduceFinMk, Matrix.cons_val] <;> linarith
    all_goals simp only [Fin.sum_univ_four, e, Matrix.cons_val, Nat.cast_zero, Nat.cast_one]; ring
  · have e : ∀ (a : Fin 4) (c : Fin 3), corner (tetra 3 a) c = (![![0, 0, 0], ![0, 1, 0], ![1, 1, 1], ![1, 1, 0]] : Fin 4 → Fin 3 → Nat) a c := by decide +kernel
    refine ⟨3, ![1 - y, y - x, z, x - z], fun a => ?_, ?_, ?_, ?_, ?_⟩
    · fin_cases a <;> simp only [Fin.zero_eta, Fin.mk_one, Fin.reduceFinMk, Matrix.cons_val] <;> linarith
    all_goals simp only [Fin.sum_univ_four, e, Matrix.cons_val, Nat.cast_zero, Nat.cast_one]; ring
  · have e : ∀ (a : Fin 4) (c : Fin 3), corner (tetra 4 a) c = (![![0, 0, 0], ![0, 1, 0], ![0, 0, 1], ![1, 1, 1]] : Fin 4 → Fin 3 → Nat) a c := by decide +kernel
    refine ⟨4, ![1 - (y + z - x), y - x, z - x, x], fun a => ?_, ?_, ?_, ?_, ?_⟩
    · fin_cases a <;> simp only [Fin.zero_eta, Fin.mk_one, Fin.reduceFinMk, Matrix.cons_val] <;> linarith
    all_goals simp only [Fin.sum_univ_four, e, Matrix.cons_val, Nat.cast_zero, Nat.cast_one]; ring

/-- The step of the grid a number belongs to. -/
theorem floor_box {s : Nat} (hs : 0 < s) {q : ℝ} (h0 : 0 ≤ q) (h1 : q ≤ s) : ∃ b : Nat, b < s ∧ 0 ≤ q - b ∧ q - b ≤ 1 := by
  by_cases h : q < s
  · refine ⟨⌊q⌋₊, ?_, ?_, ?_⟩
    · exact (Nat.floor_lt h0).2 h
    · have := Nat.floor_le h0; linarith
    · have := (Nat.lt_floor_add_one q).le; linarith
  · have hq : q = s := le_antisymm h1 (not_lt.1 h)
    refine ⟨s - 1, by omega, ?_, ?_⟩ <;> rw [hq, Nat.cast_sub (by omega)] <;> push_cast <;> linarith

theorem cover_box (hs : ∀ c, 0 < sizes c) (hA : ∀ c, O c < A c) {p : Fin 3 → ℝ} (hp : InBox A O p) :
    ∃ b : Lab, (∀ c, b c < sizes c) ∧ ∃ t, InHull (xyz sizes A O) (tet b t) p := by
  have hq : ∀ c, 0 ≤ toGrid sizes A O p c ∧ toGrid sizes A O p c ≤ sizes c := by
    intro c
    have h3 : 0 < A c - O c := sub_pos.2 (hA c)
    have h4 := hp c
    unfold toGrid
    have h5 : (0 : ℝ) ≤ sizes c := Nat.cast_nonneg _
    constructor
    · exact div_nonneg (mul_nonneg (by linarith [h4.1]) h5) h3.le
    · rw [div_le_iff₀ h3, mul_comm]
      exact mul_le_mul_of_nonneg_left (by linarith [h4.2]) h5
  choose b hb hb0 hb1 using fun c => floor_box (hs c) (hq c).1 (hq c).2
  obtain ⟨t, l, l0, l1, lx, ly, lz⟩ := cover_unit ⟨hb0 0, hb1 0⟩ ⟨hb0 1, hb1 1⟩ ⟨hb0 2, hb1 2⟩
  classical
  let w : Lab → ℝ := fun v => ∑ a, if lab b (tetra t a) = v then l a else 0
  have hw : ∀ a, w (lab b (tetra t a)) = l a := by
    intro a
    simp only [w]
    rw [Finset.sum_eq_single a]
    · simp
    · intro a' _ hne
      rw [if_neg fun h => hne (labt_inj b t h)]
    · simp
  have hs1 : ∑ v ∈ tet b t, w v = 1 := by rw [sum_tet]; simp only [hw]; exact l1
  refine ⟨b, hb, t, w, ?_, hs1, ?_⟩
  · intro v hv
    obtain ⟨a, -, rfl⟩ := Finset.mem_image.1 hv
    rw [hw]; exact l0 a
  · refine fromGrid_comb hs (fun c => (hA c).ne') hs1 fun c => ?_
    rw [sum_tet]
    simp only [hw, lab]
    push_cast
    simp only [mul_add, Finset.sum_add_distrib, ← Finset.sum_mul, l1, one_mul]
    fin_cases c
    · have := lx; simp only [Fin.zero_eta] at this ⊢; linarith
    · have := ly; simp only [Fin.mk_one] at this ⊢; linarith
    · have := lz; simp only [Fin.reduceFinMk] at this ⊢; linarith
end

end Verif.BoxMesh
