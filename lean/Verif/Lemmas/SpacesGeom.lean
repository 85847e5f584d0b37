import Verif.Spec.Spaces
import Verif.Lemmas.Spaces
import Verif.Props.Geometry

/-!
Values of the operators in terms of barycentric coordinates and their gradients, and the geometry of these gradients.
-/
namespace Verif.Spaces
open Verif.Geometry

variable {K : Type} [Field K]

set_option linter.unusedSectionVars false

theorem place_eq (m : Mem K) (dim nfa r i n k : Nat) : place m dim nfa r i n k = addr dim m.q nfa r i n k := by
  unfold place addr; ring

theorem place1 (m : Mem K) (nfa r i n : Nat) : place m 1 nfa r i n 0 = addr 1 m.q nfa r i n 0 := place_eq ..

/-- P2 values from barycentric coordinates -/
def p2v (l : Nat → K) (i : Nat) : K := if i < 4 then l i * (2 * l i - 1) else 4 * l (tI (i - 4)) * l (tJ (i - 4))
/-- P2 derivatives -/
def p2d (l g : Nat → K) (i : Nat) : K :=
  if i < 4 then g i * (4 * l i - 1) else 4 * (g (tJ (i - 4)) * l (tI (i - 4)) + g (tI (i - 4)) * l (tJ (i - 4)))
/-- P3 values -/
def p3v (l : Nat → K) (i : Nat) : K :=
  if i < 4 then l i * (3 * l i - 1) * (3 * l i - 2) / 2
  else if i < 16 then
    let s1 := l (tI ((i - 4) / 2))
    let s2 := l (tJ ((i - 4) / 2))
    if (i - 4) % 2 = 0 then s1 * (3 * s1 - 1) * s2 * (9 / 2) else s1 * (3 * s2 - 1) * s2 * (9 / 2)
  else 27 * l (ipf (0 + 4 * (i - 16))) * l (ipf (1 + 4 * (i - 16))) * l (ipf (2 + 4 * (i - 16)))
/-- P3 derivatives -/
def p3d (L G : Nat → K) (i : Nat) : K :=
  if i < 4 then G i * ((27 / 2 * L i - 9) * L i + 1)
  else if i < 16 then
    let I := tI ((i - 4) / 2)
    let J := tJ ((i - 4) / 2)
    if (i - 4) % 2 = 0 then (G I * (6 * L I - 1) * L J + G J * (3 * L I - 1) * L I) * (9 / 2)
    else (G J * (6 * L J - 1) * L I + G I * (3 * L J - 1) * L J) * (9 / 2)
  else
    let a := ipf (4 * (i - 16))
    let b := ipf (1 + 4 * (i - 16))
    let c := ipf (2 + 4 * (i - 16))
    27 * (G a * L b * L c + L a * G b * L c + L a * L b * G c)
/-- B2 values -/
def b2v (l : Nat → K) (i : Nat) : K := 4 * l (tI i) * l (tJ i)
/-- B2 derivatives -/
def b2d (l g : Nat → K) (i : Nat) : K := 4 * (g (tJ i) * l (tI i) + g (tI i) * l (tJ i))
/-- B4 value -/
def b4v (l : Nat → K) : K := 256 * l 0 * l 1 * l 2 * l 3
/-- B4 derivative -/
def b4d (L G : Nat → K) : K := 256 * (G 0 * (L 1 * L 2 * L 3) + G 1 * (L 0 * L 2 * L 3) + G 2 * (L 0 * L 1 * L 3) +
  G 3 * (L 0 * L 1 * L 2))
/-- CR1 values -/
def cr1v (l : Nat → K) (i : Nat) : K := 1 - 3 * l (ipf3 i)
/-- CR1 derivatives -/
def cr1d (g : Nat → K) (i : Nat) : K := -3 * g (ipf3 i)

theorem gradL_eq (m : Mem K) (r j i : Nat) : gradL m r j i = gradP1 (0 + 3 * j) * m.psi (9 * r + (0 + 3 * i)) +
    gradP1 (1 + 3 * j) * m.psi (9 * r + (1 + 3 * i)) + gradP1 (2 + 3 * j) * m.psi (9 * r + (2 + 3 * i)) := by
  rw [gradL, fold3]

theorem p1S_eq (m : Mem K) (r : Nat) {i k : Nat} (hi : i < 4) (hk : k < 3) : p1S m r (k + 3 * i) = gradL m r i k := by
  rw [gradL_eq]
  interval_cases i <;> interval_cases k <;> simp [p1S, gradP1] <;> ring

section At
variable {m : Mem K} {U : Nat → K} {r n : Nat}

theorem p1Iden_val (hr : r < m.f) {i : Nat} (hi : i < 4) (hn : n < m.q) :
    p1Iden m U (place m 1 4 r i n 0) = m.xyl (i + 4 * n) := by rw [place1, p1Iden_at _ _ hr hi hn]
theorem p1Grad_val (hr : r < m.f) {i k : Nat} (hi : i < 4) (hn : n < m.q) (hk : k < 3) :
    p1Grad m U (place m 3 4 r i n k) = gradL m r i k := by rw [place_eq, p1Grad_at _ _ hr hi hn hk, p1S_eq _ _ hi hk]
theorem p1Dudx_val (hr : r < m.f) {i c : Nat} (hi : i < 4) (hn : n < m.q) (hc : c < 3) :
    p1Dudx c m U (place m 1 4 r i n 0) = gradL m r i c := by rw [place1, p1Dudx_at _ _ _ hr hi hn, p1S_eq _ _ hi hc]
theorem p2Iden_val (hr : r < m.f) {i : Nat} (hi : i < 10) (hn : n < m.q) :
    p2Iden m U (place m 1 10 r i n 0) = p2v (fun a => m.xyl (a + 4 * n)) i := by rw [place1, p2Iden_at _ _ hr hi hn]; rfl
theorem p3Iden_val (hr : r < m.f) {i : Nat} (hi : i < 20) (hn : n < m.q) :
    p3Iden m U (place m 1 20 r i n 0) = p3v (fun a => m.xyl (a + 4 * n)) i := by rw [place1, p3Iden_at _ _ hr hi hn]; rfl
theorem b2Iden_val (hr : r < m.f) {i : Nat} (hi : i < 6) (hn : n < m.q) :
    b2Iden m U (place m 1 6 r i n 0) = b2v (fun a => m.xyl (a + 4 * n)) i := by rw [place1, b2Iden_at _ _ hr hi hn]; rfl
theorem b4Iden_val (hr : r < m.f) (hn : n < m.q) :
    b4Iden m U (place m 1 1 r 0 n 0) = b4v (fun a => m.xyl (a + 4 * n)) := by rw [place1, b4Iden_at _ _ hr hn]; rfl
theorem cr1Iden_val (hr : r < m.f) {i : Nat} (hi : i < 4) (hn : n < m.q) :
    cr1Iden m U (place m 1 4 r i n 0) = cr1v (fun a => m.xyl (a + 4 * n)) i := by rw [place1, cr1Iden_at _ _ hr hi hn]; rfl
theorem cr1Grad_val (hr : r < m.f) {i k : Nat} (hi : i < 4) (hn : n < m.q) (hk : k < 3) :
    cr1Grad m U (place m 3 4 r i n k) = cr1d (fun a => gradL m r a k) i := by
  rw [place_eq, cr1Grad_at _ _ hr hi hn hk, cr1d, gradL_eq]; ring

theorem p2Grad_val (E : Nat → K) (hr : r < m.f) {i k : Nat} (hi : i < 10) (hn : n < m.q) (hk : k < 3) :
    p2Grad E m U (place m 3 10 r i n k) = p2d (fun a => m.xyl (a + 4 * n)) (fun a => gradL m r a k) i := by
  rw [place_eq, p2Grad, pullback_at _ _ _ _ hr hi hn hk, p2Table_at _ _ hi hn (by omega), p2Table_at _ _ hi hn (by omega),
    p2Table_at _ _ hi hn (by omega), p2d]
  split <;> simp only [gradL_eq] <;> ring

theorem p3Grad_val (E : Nat → K) (hr : r < m.f) {i k : Nat} (hi : i < 20) (hn : n < m.q) (hk : k < 3) :
    p3Grad E m U (place m 3 20 r i n k) = p3d (fun a => m.xyl (a + 4 * n)) (fun a => gradL m r a k) i := by
  rw [place_eq, p3Grad, pullback_at _ _ _ _ hr hi hn hk, p3Table_at _ _ hi hn (by omega), p3Table_at _ _ hi hn (by omega),
    p3Table_at _ _ hi hn (by omega), p3d]
  split
  · simp only [gradL_eq]; ring
  · split
    · split <;> simp only [gradL_eq] <;> ring
    · simp only [gradL_eq]; ring

theorem b2Grad_val (E : Nat → K) (hr : r < m.f) {i k : Nat} (hi : i < 6) (hn : n < m.q) (hk : k < 3) :
    b2Grad E m U (place m 3 6 r i n k) = b2d (fun a => m.xyl (a + 4 * n)) (fun a => gradL m r a k) i := by
  rw [place_eq, b2Grad, pullback_at _ _ _ _ hr hi hn hk, b2Table_at _ _ hi hn (by omega), b2Table_at _ _ hi hn (by omega),
    b2Table_at _ _ hi hn (by omega), b2d]
  simp only [gradL_eq]; ring

theorem b4Grad_val (E : Nat → K) (hr : r < m.f) {k : Nat} (hn : n < m.q) (hk : k < 3) :
    b4Grad E m U (place m 3 1 r 0 n k) = b4d (fun a => m.xyl (a + 4 * n)) (fun a => gradL m r a k) := by
  rw [place_eq, b4Grad, pullback_at _ _ _ _ hr (by omega) hn hk, b4Table_at _ _ hn (by omega), b4Table_at _ _ hn (by omega),
    b4Table_at _ _ hn (by omega), b4d]
  simp only [gradL_eq]; ring

end At

/-! ### Geometry of the gradients -/

/-- a vector is determined by its products with the edges -/
theorem eq_of_dots {p0 p1 p2 p3 u w : Nat → K} (hv : vol6 p0 p1 p2 p3 ≠ 0) (h1 : dot u (diff p1 p0) = dot w (diff p1 p0))
    (h2 : dot u (diff p2 p0) = dot w (diff p2 p0)) (h3 : dot u (diff p3 p0) = dot w (diff p3 p0)) : Same3 u w := by
  have e : ∀ (u : Nat → K) i, i < 3 → vol6 p0 p1 p2 p3 * u i =
      dot u (diff p1 p0) * cross (diff p2 p0) (diff p3 p0) i + dot u (diff p2 p0) * cross (diff p3 p0) (diff p1 p0) i +
        dot u (diff p3 p0) * cross (diff p1 p0) (diff p2 p0) i := by
    intro u i hi
    rw [vol6_eq]
    match i, hi with
    | 0, _ => simp only [dot, cross]; ring
    | 1, _ => simp only [dot, cross]; ring
    | 2, _ => simp only [dot, cross]; ring
  intro i hi
  have := e u i hi
  rw [h1, h2, h3, ← e w i hi] at this
  exact mul_left_cancel₀ hv this

variable {m : Mem K} {r : Nat} {T : Nat → Nat → K}

theorem grad_dot (h : AtTet m r T) {a b : Nat} (ha : a < 4) (hb : b < 4) :
    dot (gradL m r a) (diff (T b) (T 0)) = (if a = b then 1 else 0) - (if a = 0 then 1 else 0) := by
  obtain ⟨-, -, h⟩ := h
  rcases Nat.eq_zero_or_pos b with rfl | hb0
  · have : dot (gradL m r a) (diff (T 0) (T 0)) = 0 := by simp [dot, diff]
    rw [this, sub_self]
  · have e : ∀ g : Nat → K, dot g (diff (T b) (T 0)) = g 0 * (T b 0 - T 0 0) + g 1 * (T b 1 - T 0 1) +
      g 2 * (T b 2 - T 0 2) := fun g => rfl
    have h0 := h 0 (b - 1) (by omega) (by omega)
    have h1 := h 1 (b - 1) (by omega) (by omega)
    have h2 := h 2 (b - 1) (by omega) (by omega)
    rw [Nat.sub_add_cancel hb0, e] at h0 h1 h2
    rw [e]
    simp only [gradL_eq]
    interval_cases a <;> interval_cases b <;> simp [gradP1] at h0 h1 h2 ⊢ <;>
      first
      | linear_combination -h0 - h1 - h2
      | linear_combination h0
      | linear_combination h1
      | linear_combination h2

/-- differences of nodes -/
theorem grad_dot' (h : AtTet m r T) {a b c : Nat} (ha : a < 4) (hb : b < 4) (hc : c < 4) :
    dot (gradL m r a) (diff (T b) (T c)) = (if a = b then 1 else 0) - (if a = c then 1 else 0) := by
  have e : dot (gradL m r a) (diff (T b) (T c)) =
      dot (gradL m r a) (diff (T b) (T 0)) - dot (gradL m r a) (diff (T c) (T 0)) := by
    simp only [dot, diff]; ring
  rw [e, grad_dot h ha hb, grad_dot h ha hc]
  ring

/-- the gradients sum to zero -/
theorem grad_sum (m : Mem K) (r k : Nat) : gradL m r 0 k + gradL m r 1 k + gradL m r 2 k + gradL m r 3 k = 0 := by
  simp only [gradL_eq]
  simp [gradP1]
  ring

/-- the derivative of the barycentric coordinates reproduces the direction -/
theorem grad_repr (hv : Nondeg T) (h : AtTet m r T) (v : Nat → K) {k : Nat} (hk : k < 3) :
    dot (gradL m r 0) v * T 0 k + dot (gradL m r 1) v * T 1 k + dot (gradL m r 2) v * T 2 k + dot (gradL m r 3) v * T 3 k =
      v k := by
  have hw : ∀ b, b < 4 → ∀ k, k < 3 → dot (gradL m r 0) (diff (T b) (T 0)) * T 0 k +
      dot (gradL m r 1) (diff (T b) (T 0)) * T 1 k + dot (gradL m r 2) (diff (T b) (T 0)) * T 2 k +
      dot (gradL m r 3) (diff (T b) (T 0)) * T 3 k = diff (T b) (T 0) k := by
    intro b hb k hk
    simp only [grad_dot h (show 0 < 4 by omega) hb, grad_dot h (show 1 < 4 by omega) hb, grad_dot h (show 2 < 4 by omega) hb,
      grad_dot h (show 3 < 4 by omega) hb]
    interval_cases b <;> simp [diff] <;> ring
  -- as vectors in the direction: rows of the identity
  have row : Same3 (fun c => gradL m r 0 c * T 0 k + gradL m r 1 c * T 1 k + gradL m r 2 c * T 2 k + gradL m r 3 c * T 3 k)
      (fun c => if c = k then 1 else 0) := by
    have hh : ∀ b, b < 4 → dot (fun c => gradL m r 0 c * T 0 k + gradL m r 1 c * T 1 k + gradL m r 2 c * T 2 k +
        gradL m r 3 c * T 3 k) (diff (T b) (T 0)) = dot (fun c => if c = k then 1 else 0) (diff (T b) (T 0)) := by
      intro b hb
      have e1 := hw b hb k hk
      have e2 : dot (fun c => if c = k then (1 : K) else 0) (diff (T b) (T 0)) = diff (T b) (T 0) k := by
        interval_cases k <;> simp [dot]
      rw [e2, ← e1]
      simp only [dot]
      ring
    exact eq_of_dots hv (hh 1 (by omega)) (hh 2 (by omega)) (hh 3 (by omega))
  have r0 := row 0 (by omega)
  have r1 := row 1 (by omega)
  have r2 := row 2 (by omega)
  have e2 : dot (fun c => if c = k then (1 : K) else 0) v = v k := by
    interval_cases k <;> simp [dot]
  rw [← e2]
  simp only [dot] at r0 r1 r2 ⊢
  rw [← r0, ← r1, ← r2]
  ring

/-- barycentric coordinates along a line -/
theorem bary_line (hv : Nondeg T) (h : AtTet m r T) {x l : Nat → K} (hl : IsBary (T 0) (T 1) (T 2) (T 3) x l) (v : Nat → K)
    (t : K) : IsBary (T 0) (T 1) (T 2) (T 3) (fun k => x k + t * v k) (fun a => l a + t * dot (gradL m r a) v) := by
  obtain ⟨h1, h2⟩ := hl
  refine ⟨?_, fun k hk => ?_⟩
  · have s0 := grad_sum m r 0
    have s1 := grad_sum m r 1
    have s2 := grad_sum m r 2
    simp only [dot]
    linear_combination h1 + t * v 0 * s0 + t * v 1 * s1 + t * v 2 * s2
  · have e := grad_repr hv h v hk
    have := h2 k hk
    linear_combination this + t * e

theorem node_eq (h : AtTet m r T) {a k : Nat} (ha : a < 4) (hk : k < 3) : node m r a k = T a k - T 0 k := h.1 a k ha hk

theorem ipr_lt (k : Nat) : ipr k < 4 := by
  unfold ipr
  rcases Nat.lt_or_ge k 24 with h | h
  · interval_cases k <;> decide
  · rw [List.getD_eq_getElem?_getD, List.getElem?_eq_none (by simpa using h)]
    decide

theorem ipf_lt (k : Nat) : ipf k < 4 := by
  unfold ipf
  rcases Nat.lt_or_ge k 16 with h | h
  · interval_cases k <;> decide
  · rw [List.getD_eq_getElem?_getD, List.getElem?_eq_none (by simpa using h)]
    decide

theorem cross3_node (h : AtTet m r T) {a b c : Nat} (ha : a < 4) (hb : b < 4) (hc : c < 4) :
    Same3 (cross3 (node m r a) (node m r b) (node m r c)) (cross (diff (T a) (T c)) (diff (T b) (T c))) := by
  intro i hi
  rw [cross3_eq _ _ _ i hi]
  match i, hi with
  | 0, _ =>
    simp only [cross, diff, node_eq h ha (show 1 < 3 by omega), node_eq h ha (show 2 < 3 by omega),
      node_eq h hb (show 1 < 3 by omega), node_eq h hb (show 2 < 3 by omega), node_eq h hc (show 1 < 3 by omega),
      node_eq h hc (show 2 < 3 by omega)]
    ring
  | 1, _ =>
    simp only [cross, diff, node_eq h ha (show 0 < 3 by omega), node_eq h ha (show 2 < 3 by omega),
      node_eq h hb (show 0 < 3 by omega), node_eq h hb (show 2 < 3 by omega), node_eq h hc (show 0 < 3 by omega),
      node_eq h hc (show 2 < 3 by omega)]
    ring
  | 2, _ =>
    simp only [cross, diff, node_eq h ha (show 1 < 3 by omega), node_eq h ha (show 0 < 3 by omega),
      node_eq h hb (show 1 < 3 by omega), node_eq h hb (show 0 < 3 by omega), node_eq h hc (show 1 < 3 by omega),
      node_eq h hc (show 0 < 3 by omega)]
    ring

/-- the two vectors of an edge function are multiples of gradients -/
theorem nd0_vectors (hv : Nondeg T) (h : AtTet m r T) {i : Nat} (hi : i < 6) :
    Same3 (nd0N m r i) (fun k => m.det r * gradL m r (ipr (4 * i + 1)) k) ∧
    Same3 (nd0M m r i) (fun k => -(m.det r * gradL m r (ipr (4 * i)) k)) := by
  have hd := h.2.1
  have e1 : ∀ b, b < 4 → dot (fun k => m.det r * gradL m r (ipr (4 * i + 1)) k) (diff (T b) (T 0)) =
      m.det r * ((if ipr (4 * i + 1) = b then 1 else 0) - (if ipr (4 * i + 1) = 0 then 1 else 0)) := by
    intro b hb
    rw [← grad_dot h (ipr_lt _) hb]; simp only [dot]; ring
  have e2 : ∀ b, b < 4 → dot (fun k => -(m.det r * gradL m r (ipr (4 * i)) k)) (diff (T b) (T 0)) =
      -(m.det r * ((if ipr (4 * i) = b then 1 else 0) - (if ipr (4 * i) = 0 then 1 else 0))) := by
    intro b hb
    rw [← grad_dot h (ipr_lt _) hb]; simp only [dot]; ring
  have f1 : ∀ b, dot (nd0N m r i) (diff (T b) (T 0)) =
      dot (cross (diff (T (ipr (4 * i + 2))) (T (ipr (4 * i)))) (diff (T (ipr (4 * i + 3))) (T (ipr (4 * i)))))
        (diff (T b) (T 0)) := by
    intro b
    have := cross3_node h (ipr_lt (4 * i + 2)) (ipr_lt (4 * i + 3)) (ipr_lt (4 * i))
    rw [dot, nd0N, this 0 (by omega), this 1 (by omega), this 2 (by omega)]; rfl
  have f2 : ∀ b, dot (nd0M m r i) (diff (T b) (T 0)) =
      dot (cross (diff (T (ipr (4 * i + 2))) (T (ipr (4 * i + 1)))) (diff (T (ipr (4 * i + 3))) (T (ipr (4 * i + 1)))))
        (diff (T b) (T 0)) := by
    intro b
    have := cross3_node h (ipr_lt (4 * i + 2)) (ipr_lt (4 * i + 3)) (ipr_lt (4 * i + 1))
    rw [dot, nd0M, this 0 (by omega), this 1 (by omega), this 2 (by omega)]; rfl
  constructor
  · refine eq_of_dots hv ?_ ?_ ?_ <;> rw [f1, e1 _ (by omega), hd, vol6_eq] <;> interval_cases i <;>
      simp [ipr, dot, cross, diff] <;> ring
  · refine eq_of_dots hv ?_ ?_ ?_ <;> rw [f2, e2 _ (by omega), hd, vol6_eq] <;> interval_cases i <;>
      simp [ipr, dot, cross, diff] <;> ring

end Verif.Spaces
