import Verif.Model.DofCoord
import Verif.Spec.DofCoord
import Verif.Props.Spaces
import Verif.Model.Interp

/-!
**C50**: `DOF_coord` gives the point at which the interpolation takes the degree of freedom.
-/
namespace Verif.DofCoord

open Verif.Dense Verif.Spaces

variable {K : Type} [Field K]

/-- three numbers written one after another -/
theorem three (g : Nat → K) (coord : Nat → K) : (∀ k, k < 3 → loop 0 3 (fun i c => wr c i (g i)) coord k = g k) ∧
    ∀ k, 3 ≤ k → loop 0 3 (fun i c => wr c i (g i)) coord k = coord k := by
  have e : loop 0 3 (fun i c => wr c i (g i)) coord = wr (wr (wr coord 0 (g 0)) 1 (g 1)) 2 (g 2) := rfl
  rw [e]
  refine ⟨fun k hk => ?_, fun k hk => ?_⟩
  · interval_cases k <;> simp [wr]
  · rw [wr_ne _ _ (by omega), wr_ne _ _ (by omega), wr_ne _ _ (by omega)]

/-- the coordinates of the nodes in the array -/
def Nodes (T : Nat → Nat → K) (nodes : Nat → K) : Prop := ∀ a, a < 4 → ∀ k, k < 3 → nodes (3 * a + k) = T a k

section
variable {T : Nat → Nat → K} {nodes : Nat → K}

omit [Field K] in
theorem Nodes.all (hT : Nodes T nodes) {k : Nat} (hk : k < 3) :
    nodes k = T 0 k ∧ nodes (3 + k) = T 1 k ∧ nodes (6 + k) = T 2 k ∧ nodes (9 + k) = T 3 k := by
  refine ⟨?_, hT 1 (by omega) k hk, hT 2 (by omega) k hk, hT 3 (by omega) k hk⟩
  have := hT 0 (by omega) k hk
  rwa [show 3 * 0 + k = k by omega] at this

variable (hT : Nodes T nodes) (coord : Nat → K) {f : (Nat → K) → Nat → K} (hf : Pointwise f) (r : Nat)
include hT hf

/-- **C50** for P1: whatever `coord` contains, the value at the point computed is the degree of freedom. -/
theorem p1At_correct {i : Nat} (hi : i < 4) : p1Dof T f i r = f (p1At i nodes coord) r := by
  refine hf _ _ (fun k hk => ?_) r
  rw [p1At, copyNode, (three _ _).1 k hk, hT i hi k hk]

/-- **C50** for P2. -/
theorem p2At_correct {i : Nat} (hi : i < 10) : p2Dof T f i r = f (p2At i nodes coord) r := by
  unfold p2Dof p2At
  split
  · next h =>
    refine hf _ _ (fun k hk => ?_) r
    rw [copyNode, (three _ _).1 k hk, hT i h k hk]
  · next h =>
    refine hf _ _ (fun k hk => ?_) r
    rw [(three _ _).1 k hk, edgeMid]
    obtain ⟨h0, h1, h2, h3⟩ := hT.all hk
    interval_cases i <;> first | exact absurd (by omega) h | simp [lookup, edge1, h0, h1, h2, h3]

/-- **C50** for the edge bubbles. -/
theorem b2At_correct {i : Nat} (hi : i < 6) : b2Dof T f i r = f (b2At i nodes coord) r := by
  refine hf _ _ (fun k hk => ?_) r
  unfold b2At edgeMid
  rw [(three _ _).1 k hk]
  obtain ⟨h0, h1, h2, h3⟩ := hT.all hk
  interval_cases i <;> simp [lookup, h0, h1, h2, h3]

end

section
variable [CharZero K] {T : Nat → Nat → K} {nodes : Nat → K} (hT : Nodes T nodes) (coord : Nat → K)
  {f : (Nat → K) → Nat → K} (hf : Pointwise f) (r : Nat)

/-- the degrees of freedom 17 and 19 of P3 are exchanged in `DOF_coord` -/
def swap (i : Nat) : Nat := if i = 17 then 19 else if i = 19 then 17 else i

include hT hf

/-- what `DOF_coord` computes for P3 -/
theorem p3At_swap {i : Nat} (hi : i < 20) : p3Dof T f (swap i) r = f (p3At i nodes coord) r := by
  have hsame : ∀ g : Nat → K, ∀ x : Nat → K, (∀ k, k < 3 → x k = g k) →
      f x r = f (loop 0 3 (fun i c => wr c i (g i)) coord) r :=
    fun g x h => hf _ _ (fun k hk => by rw [(three _ _).1 k hk, h k hk]) r
  unfold p3At
  split
  · next h =>
    have : swap i = i := by unfold swap; rw [if_neg (by omega), if_neg (by omega)]
    rw [this, p3Dof, if_pos h]
    exact hsame _ _ fun k hk => (hT i h k hk).symm
  · next h =>
    split
    · next h' =>
      have hs : ¬ swap i < 4 ∧ ¬ swap i < 16 := by unfold swap; split <;> (try split) <;> omega
      rw [p3Dof, if_neg hs.1, if_neg hs.2]
      dsimp only
      refine hsame _ _ fun k hk => ?_
      obtain ⟨h0, h1, h2, h3⟩ := hT.all hk
      have h4 : i = 16 ∨ i = 17 ∨ i = 18 ∨ i = 19 := by omega
      rcases h4 with rfl | rfl | rfl | rfl <;> simp [swap, h0, h1, h2, h3] <;> ring
    · next h' =>
      have hs : swap i = i := by unfold swap; rw [if_neg (by omega), if_neg (by omega)]
      rw [hs, p3Dof, if_neg h, if_pos (by omega)]
      dsimp only
      refine hsame _ _ fun k hk => ?_
      obtain ⟨h0, h1, h2, h3⟩ := hT.all hk
      have hi' : i < 16 := by omega
      interval_cases i <;> first | exact absurd (by omega) h | (simp [lookup, edge1, h0, h1, h2, h3, wr] <;> ring)

/-- **C50** for P3, except two degrees of freedom of faces (see `p3At_wrong`). -/
theorem p3At_partial {i : Nat} (hi : i < 20) (h17 : i ≠ 17) (h19 : i ≠ 19) : p3Dof T f i r = f (p3At i nodes coord) r := by
  rw [← p3At_swap hT coord hf r hi, swap, if_neg h17, if_neg h19]

/-- **C50 (the code disagrees)**: for the degrees of freedom 17 and 19 of P3 the point of the other one is returned: the point for
17 is the middle of the face (0, 1, 3), the degree of freedom is the value in the middle of the face (1, 2, 3). -/
theorem p3At_wrong : p3Dof T f 19 r = f (p3At 17 nodes coord) r ∧ p3Dof T f 17 r = f (p3At 19 nodes coord) r :=
  ⟨p3At_swap hT coord hf r (i := 17) (by omega), p3At_swap hT coord hf r (i := 19) (by omega)⟩

end

section
variable [LinearOrder K] [IsStrictOrderedRing K] {T : Nat → Nat → K} {nodes : Nat → K} (hT : Nodes T nodes) (coord : Nat → K)
  {f : (Nat → K) → Nat → K} (hf : Affine f) (r : Nat)

/-- the integral of an affine function of the coordinates of a point by a rule -/
theorem quad_lin (rule : List (QPoint K)) (c a0 a1 a2 a3 : K) :
    quad rule (fun p => c + a0 * p 0 + a1 * p 1 + a2 * p 2 + a3 * p 3) =
      c * weight rule + a0 * moment rule 0 + a1 * moment rule 1 + a2 * moment rule 2 + a3 * moment rule 3 := by
  rw [quad_eq, weight, moment, moment, moment, moment]
  induction rule with
  | nil => simp
  | cons q L ih => simp only [List.map_cons, List.sum_cons] at ih ⊢; rw [ih]; ring

/-- what `DOF_coord` computes for P0: the old content of the result is added -/
theorem p0At_eq {k : Nat} (hk : k < 3) :
    p0At nodes coord k = (coord k + nodes k + nodes (3 + k) + nodes (6 + k) + nodes (9 + k)) / 4 := by
  have e : p0At nodes coord k = (loop 0 4 (fun i c => loop 0 3 (fun k c => wr c k (c k + nodes (3 * i + k))) c) coord k) / 4 := by
    unfold p0At
    generalize loop 0 4 (fun i c => loop 0 3 (fun k c => wr c k (c k + nodes (3 * i + k))) c) coord = c
    have e : loop 0 3 (fun k c => wr c k (c k / 4)) c = wr (wr (wr c 0 (c 0 / 4)) 1 (wr c 0 (c 0 / 4) 1 / 4)) 2
      (wr (wr c 0 (c 0 / 4)) 1 (wr c 0 (c 0 / 4) 1 / 4) 2 / 4) := rfl
    rw [e]
    interval_cases k <;> simp [wr]
  rw [e]
  have step : ∀ (i : Nat) (c : Nat → K), loop 0 3 (fun k c => wr c k (c k + nodes (3 * i + k))) c k = c k + nodes (3 * i + k) := by
    intro i c
    have e : loop 0 3 (fun k c => wr c k (c k + nodes (3 * i + k))) c =
      wr (wr (wr c 0 (c 0 + nodes (3 * i + 0))) 1 (wr c 0 (c 0 + nodes (3 * i + 0)) 1 + nodes (3 * i + 1))) 2
        (wr (wr c 0 (c 0 + nodes (3 * i + 0))) 1 (wr c 0 (c 0 + nodes (3 * i + 0)) 1 + nodes (3 * i + 1)) 2 + nodes (3 * i + 2)) := rfl
    rw [e]
    interval_cases k <;> simp [wr]
  have e4 : ∀ g : Nat → (Nat → K) → Nat → K, loop 0 4 g coord = g 3 (g 2 (g 1 (g 0 coord))) := fun g => rfl
  rw [e4, step, step, step, step]
  simp only [Nat.mul_zero, Nat.zero_add, Nat.mul_one, show 3 * 2 = 6 from rfl, show 3 * 3 = 9 from rfl]

include hT hf

/-- **C50** for P0: if the memory of the result was cleared, the point is the one where an affine function takes its mean value,
which is the degree of freedom (computed by any rule exact for affine functions). -/
theorem p0At_partial (rule : List (QPoint K)) (hw : weight rule = 1) (hm : ∀ c, c < 4 → moment rule c = 1 / 4)
    (h0 : ∀ k, k < 3 → coord k = 0) : p0Dof rule T f r = f (p0At nodes coord) r := by
  obtain ⟨c, hc⟩ := hf
  rw [hc, p0At_eq _ (by omega), p0At_eq _ (by omega), p0At_eq _ (by omega), p0Dof, h0 0 (by omega), h0 1 (by omega), h0 2 (by omega)]
  simp only [hc]
  have e : quad rule (fun p => c r 3 + c r 0 * (p 0 * T 0 0 + p 1 * T 1 0 + p 2 * T 2 0 + p 3 * T 3 0) +
      c r 1 * (p 0 * T 0 1 + p 1 * T 1 1 + p 2 * T 2 1 + p 3 * T 3 1) + c r 2 * (p 0 * T 0 2 + p 1 * T 1 2 + p 2 * T 2 2 + p 3 * T 3 2)) =
      quad rule (fun p => c r 3 + (c r 0 * T 0 0 + c r 1 * T 0 1 + c r 2 * T 0 2) * p 0 +
        (c r 0 * T 1 0 + c r 1 * T 1 1 + c r 2 * T 1 2) * p 1 + (c r 0 * T 2 0 + c r 1 * T 2 1 + c r 2 * T 2 2) * p 2 +
        (c r 0 * T 3 0 + c r 1 * T 3 1 + c r 2 * T 3 2) * p 3) := by
    congr 1; funext p; ring
  rw [e, quad_lin, hw, hm 0 (by omega), hm 1 (by omega), hm 2 (by omega), hm 3 (by omega)]
  obtain ⟨a0, a1, a2, a3⟩ := hT.all (k := 0) (by omega)
  obtain ⟨b0, b1, b2, b3⟩ := hT.all (k := 1) (by omega)
  obtain ⟨c0, c1, c2, c3⟩ := hT.all (k := 2) (by omega)
  rw [a0, a1, a2, a3, b0, b1, b2, b3, c0, c1, c2, c3]
  ring

/-- what `DOF_coord` computes for CR1: the point of the next degree of freedom -/
theorem cr1At_next (rule : List (QPoint K)) (hw : weight rule = 1) (hm : ∀ c, c < 3 → moment rule c = 1 / 3) {i : Nat} :
    cr1Dof rule T f ((i + 1) % 4) r = f (cr1At i nodes coord) r := by
  obtain ⟨c, hc⟩ := hf
  rw [hc, cr1At, (three _ _).1 0 (by omega), (three _ _).1 1 (by omega), (three _ _).1 2 (by omega), cr1Dof]
  simp only [hc, facePoint]
  generalize hA : T (((i + 1) % 4 + 0) % 4) = A
  generalize hB : T (((i + 1) % 4 + 1) % 4) = B
  generalize hC : T (((i + 1) % 4 + 2) % 4) = C
  have e : quad rule (fun p => c r 3 + c r 0 * (p 0 * A 0 + p 1 * B 0 + p 2 * C 0) +
      c r 1 * (p 0 * A 1 + p 1 * B 1 + p 2 * C 1) + c r 2 * (p 0 * A 2 + p 1 * B 2 + p 2 * C 2)) =
      quad rule (fun p => c r 3 + (c r 0 * A 0 + c r 1 * A 1 + c r 2 * A 2) * p 0 +
        (c r 0 * B 0 + c r 1 * B 1 + c r 2 * B 2) * p 1 + (c r 0 * C 0 + c r 1 * C 1 + c r 2 * C 2) * p 2 + 0 * p 3) := by
    congr 1; funext p; ring
  rw [e, quad_lin, hw, hm 0 (by omega), hm 1 (by omega), hm 2 (by omega), ← hA, ← hB, ← hC]
  have hn : ∀ a k, a < 4 → k < 3 → nodes (k + 3 * a) = T a k := fun a k ha hk => by rw [Nat.add_comm, hT a ha k hk]
  have hl : ∀ a, a % 4 < 4 := fun a => Nat.mod_lt _ (by omega)
  simp only [hn _ 0 (hl _) (by omega), hn _ 1 (hl _) (by omega), hn _ 2 (hl _) (by omega)]
  have e0 : ((i + 1) % 4 + 0) % 4 = (i + 1) % 4 := by omega
  have e1 : ((i + 1) % 4 + 1) % 4 = (i + 2) % 4 := by omega
  have e2 : ((i + 1) % 4 + 2) % 4 = (i + 3) % 4 := by omega
  rw [e0, e1, e2]
  ring

end

/-- the coordinates of the nodes of the unit tetrahedron -/
def unitNodes : Nat → ℚ := fun p => if p = 3 ∨ p = 7 ∨ p = 11 then 1 else 0
/-- the unit tetrahedron -/
def unitTet : Nat → Nat → ℚ := fun a k => if a = k + 1 then 1 else 0

theorem unit_nodes : Nodes unitTet unitNodes := by
  intro a ha k hk
  interval_cases a <;> interval_cases k <;> decide +kernel

/-- **C50 (the code disagrees)** for P0: the result depends on what the memory of the result contained. -/
theorem p0At_wrong : p0At unitNodes (fun _ => 3) 0 = 1 ∧ p0At unitNodes (fun _ => 0) 0 = 1 / 4 := by
  rw [p0At_eq _ (by omega), p0At_eq _ (by omega)]
  norm_num [unitNodes]

/-- **C50 (the code disagrees)** for CR1: the function with the coordinate `x` as its value has the mean value 1/3 on the face 1
(nodes 1, 2, 3), but the point returned for the degree of freedom 1 is in the face (2, 3, 0) and has `x = 0`. -/
theorem cr1At_wrong (rule : List (QPoint ℚ)) (hw : weight rule = 1) (hm : ∀ c, c < 3 → moment rule c = 1 / 3) :
    cr1Dof rule unitTet (fun x _ => x 0) 1 0 ≠ cr1At 1 unitNodes (fun _ => 0) 0 := by
  have h := cr1At_next unit_nodes (fun _ => 0) (f := fun x _ => x 0) ⟨fun _ k => if k = 0 then 1 else 0, fun x r => by simp⟩ 0 rule hw hm
    (i := 0)
  rw [show (0 + 1) % 4 = 1 from rfl] at h
  rw [h, cr1At, cr1At, (three _ _).1 0 (by omega), (three _ _).1 0 (by omega)]
  norm_num [unitNodes]

/-- **C50** for vectors: component `odf / nfa` of the function at the point computed is the degree of freedom written by the
interpolation of the vector space. -/
theorem vecAt_correct {d nfa : Nat} (hn : 0 < nfa) {val : Interp.Tet K → (Nat → K) → Nat → Nat → K}
    {dof : Interp.Tet K → Interp.Fn K → Nat → Nat → K} {base : Nat → (Nat → K) → (Nat → K) → Nat → K} {T : Nat → Nat → K}
    {nodes coord : Nat → K}
    (hb : ∀ f, Pointwise f → ∀ i, i < nfa → ∀ r, dof T f i r = f (base i nodes coord) r)
    {f : (Nat → K) → Nat → K} (hf : Pointwise f) {odf fusion r : Nat} (hr : r < fusion) (u : Nat → Nat → K) :
    (Interp.vec d (Interp.leaf 1 nfa val dof)).interp T f odf fusion u r odf = f (vecAt nfa base odf nodes coord) (d * r + odf / nfa) := by
  have hdm := Nat.div_add_mod odf nfa
  simp only [Interp.vec, Interp.leaf, Interp.unview, hr, if_true, true_and]
  have h1 : odf / nfa * nfa ≤ odf := Nat.div_mul_le_self odf nfa
  rw [if_pos h1, if_pos (by rw [Nat.mul_comm] at h1 ⊢; omega), hb _ _ _ (Nat.mod_lt _ hn)]
  · rw [vecAt, Interp.narrow]
    congr 1
    rw [Nat.div_one, Nat.mod_one, Nat.mul_one, Nat.mul_one]
    omega
  · intro x y h s
    exact hf x y h _

/-- the hypotheses of the theorems hold for the unit tetrahedron, a nonlinear function and a filled result -/
example : p2Dof unitTet (fun x _ => x 0 * x 1 + x 2) 7 0 = (fun x (_ : Nat) => x 0 * x 1 + x 2) (p2At 7 unitNodes fun _ => 5) 0 ∧
    p2Dof unitTet (fun x _ => x 0 * x 1 + x 2) 7 0 = 1 / 4 := by
  refine ⟨p2At_correct unit_nodes _ (fun x y h r => by rw [h 0 (by omega), h 1 (by omega), h 2 (by omega)]) 0 (by omega), ?_⟩
  decide +kernel

end Verif.DofCoord
