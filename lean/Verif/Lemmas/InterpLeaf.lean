import Verif.Lemmas.Interp
import Verif.Props.Spaces

/-!
The functionals of the basic spaces.
-/
set_option linter.unusedSectionVars false
namespace Verif.Interp

open Verif.Dense Verif.DofMap Verif.Spaces Verif.Geometry

variable {K : Type} [Field K] [LinearOrder K] [IsStrictOrderedRing K]

theorem leaf_dofs {dim nfa : Nat} {val : Tet K → (Nat → K) → Nat → Nat → K} {dof : Tet K → Fn K → Nat → Nat → K} {T : Tet K}
    {L : Nat → Fn K → K} (h1 : ∀ f i r, i < nfa → dof T f i r = L i (fun x k => f x (dim * r + k)))
    (h2 : ∀ i, i < nfa → ∀ g h : Fn K, (∀ x k, k < dim → g x k = h x k) → L i g = L i h)
    (h3 : ∀ i, i < nfa → ∀ g h : Fn K, L i (fun x k => g x k + h x k) = L i g + L i h)
    (h4 : ∀ i, i < nfa → ∀ (c : K) (g : Fn K), L i (fun x k => c * g x k) = c * L i g) :
    Dofs (leaf dim nfa val dof) T L := by
  refine ⟨fun f i fusion u hi r j => ?_, h2, h3, h4⟩
  show (if r < fusion ∧ j = i then dof T f i r else u r j) = _
  rw [h1 f i r hi]; rfl

/-- a functional that is the value at a point -/
theorem leaf_point {nfa : Nat} {val : Tet K → (Nat → K) → Nat → Nat → K} {dof : Tet K → Fn K → Nat → Nat → K} {T : Tet K}
    (P : Nat → Nat → K) (h : ∀ f i r, i < nfa → dof T f i r = f (P i) r) :
    Dofs (leaf 1 nfa val dof) T (fun i g => g (P i) 0) :=
  leaf_dofs (fun f i r hi => by rw [h f i r hi, Nat.one_mul]; rfl)
    (fun i _ g g' hg => hg _ 0 (by omega)) (fun _ _ _ _ => rfl) (fun _ _ _ _ => rfl)

theorem quad_congr (rule : List (QPoint K)) {g g' : (Nat → K) → K} (h : ∀ p, g p = g' p) : quad rule g = quad rule g' := by
  rw [show g = g' from funext h]

theorem quad_add (rule : List (QPoint K)) (g g' : (Nat → K) → K) : quad rule (fun p => g p + g' p) = quad rule g + quad rule g' := by
  rw [quad_eq, quad_eq, quad_eq]
  induction rule with
  | nil => simp
  | cons q L ih => simp only [List.map_cons, List.sum_cons] at ih ⊢; rw [ih]; ring

theorem quad_mul (rule : List (QPoint K)) (c : K) (g : (Nat → K) → K) : quad rule (fun p => c * g p) = c * quad rule g := by
  rw [quad_eq, quad_eq]
  induction rule with
  | nil => simp
  | cons q L ih => simp only [List.map_cons, List.sum_cons] at ih ⊢; rw [ih]; ring

/-- a functional that is a weighted sum of values at points -/
theorem leaf_mean {nfa : Nat} {val : Tet K → (Nat → K) → Nat → Nat → K} {dof : Tet K → Fn K → Nat → Nat → K} {T : Tet K}
    (rule : List (QPoint K)) (P : Nat → (Nat → K) → Nat → K)
    (h : ∀ f i r, i < nfa → dof T f i r = quad rule fun p => f (P i p) r) :
    Dofs (leaf 1 nfa val dof) T (fun i g => quad rule fun p => g (P i p) 0) :=
  leaf_dofs (fun f i r hi => by simp only [h f i r hi, Nat.one_mul, Nat.add_zero])
    (fun i _ g g' hg => quad_congr _ fun p => hg _ 0 (by omega)) (fun _ _ _ _ => quad_add _ _ _) (fun _ _ _ _ => quad_mul _ _ _)

/-- a functional that is a weighted sum of components of a vector function along fixed directions -/
theorem leaf_flux {nfa : Nat} {val : Tet K → (Nat → K) → Nat → Nat → K} {dof : Tet K → Fn K → Nat → Nat → K} {T : Tet K}
    (rule : List (QPoint K)) (P : Nat → (Nat → K) → Nat → K) (n : Nat → Nat → K)
    (h : ∀ f i r, i < nfa → dof T f i r = quad rule fun p =>
      f (P i p) (3 * r + 0) * n i 0 + f (P i p) (3 * r + 1) * n i 1 + f (P i p) (3 * r + 2) * n i 2) :
    Dofs (leaf 3 nfa val dof) T
      (fun i g => quad rule fun p => g (P i p) 0 * n i 0 + g (P i p) 1 * n i 1 + g (P i p) 2 * n i 2) :=
  leaf_dofs (fun f i r hi => by simp only [h f i r hi])
    (fun i _ g g' hg => quad_congr _ fun p => by rw [hg _ 0 (by omega), hg _ 1 (by omega), hg _ 2 (by omega)])
    (fun _ _ g g' => by rw [← quad_add]; exact quad_congr _ fun p => by ring)
    (fun _ _ c g => by rw [← quad_mul]; exact quad_congr _ fun p => by ring)

/-- the functionals of a basic space are dual when the code's are -/
theorem leaf_unisolvent {dim nfa : Nat} {val : Tet K → (Nat → K) → Nat → Nat → K} {dof : Tet K → Fn K → Nat → Nat → K}
    {T : Tet K} {L : Nat → Fn K → K} (h : Dofs (leaf dim nfa val dof) T L)
    (hd : ∀ i, i < nfa → ∀ j, j < nfa → dof T (fun x k => val T x j k) i 0 = if i = j then 1 else 0) :
    Unisolvent (leaf dim nfa val dof) T := by
  refine ⟨L, h, fun i hi j hj => ?_⟩
  have hr := h.run (fun x k => val T x j k) i 1 (fun _ _ => 0) hi 0 i
  rw [if_pos ⟨by omega, rfl⟩] at hr
  have hr2 : (if 0 < 1 ∧ i = i then dof T (fun x k => val T x j k) i 0 else 0) = L i fun x k => val T x j (dim * 0 + k) := hr
  rw [if_pos ⟨by omega, rfl⟩, hd i hi j hj] at hr2
  simp only [Nat.mul_zero, Nat.zero_add] at hr2
  exact hr2.symm

end Verif.Interp
