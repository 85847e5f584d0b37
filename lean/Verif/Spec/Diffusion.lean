import Verif.Spec.Driver
import Verif.Spec.Dense

/-!
Vocabulary of C66: what the elemental systems have to be and what the assembled system has to say.
-/
namespace Verif.Diffusion

open Verif.Dense Verif.Spaces Verif.Order Verif.Driver Finset

/-- The number of elements of a dimension. -/
def elems : Nat → Nat
  | 0 => 4 | 1 => 6 | 2 => 4 | _ => 1

/-- The sum over the cells and over their local numbers of the global number `i`. -/
def total {K : Type} [Field K] {C γ : Type} [Fintype C] [DecidableEq γ] (n : Nat) (loc : C → Nat → γ) (r : C → Nat → K) (i : γ) : K :=
  ∑ c, ∑ k ∈ range n, if loc c k = i then r c k else 0

/-- The points of the triangle `p0 p1 p2` (of its plane). -/
def onTri (p0 p1 p2 : Nat → ℝ) (x y : ℝ) (k : Nat) : ℝ := x * p0 k + y * p1 k + (1 - x - y) * p2 k

/-- The functions agree on the plane of the triangle. -/
def AgreeOn (p0 p1 p2 : Nat → ℝ) (g h : (Nat → ℝ) → ℝ) : Prop := ∀ x y, g (onTri p0 p1 p2 x y) = h (onTri p0 p1 p2 x y)

/-- The flux through a plane with the normal `ν`. -/
def through (q : Nat → (Nat → ℝ) → ℝ) (ν : Nat → ℝ) (y : Nat → ℝ) : ℝ := ∑ a ∈ range 3, ν a * q a y

/-- The vertices of a side. -/
def corner (T : Nat → Nat → ℝ) (s : Nat) (j : Fin 3) : Nat → ℝ := T ((s + j) % 4)

/-- A mesh with a discrete space: cells, the basis functions with their derivatives, the places `loc` of the local numbers, the areas and the outer normals
of the sides. -/
structure Disc (C γ : Type) where
  T : C → Nat → Nat → ℝ
  n : Nat
  loc : C → Nat → γ
  φ : C → Nat → (Nat → ℝ) → ℝ
  dφ : C → Nat → Nat → (Nat → ℝ) → ℝ
  area : C → Nat → ℝ
  ν : C → Nat → Nat → ℝ
  deg : Nat
  nondeg : ∀ c, Nondeg (T c)
  poly : ∀ c k, k < n → PolyLE deg (φ c k)
  der : ∀ c k, k < n → ∀ a, a < 3 → ∀ x, HasPartial (φ c k) x a (dφ c k a x)
  isArea : ∀ c s, s < 4 → IsArea (area c s) (T c s) (T c ((s + 1) % 4)) (T c ((s + 2) % 4))
  isNormal : ∀ c s, s < 4 → IsNormal (ν c s) (T c s) (T c ((s + 1) % 4)) (T c ((s + 2) % 4)) (T c ((s + 3) % 4))

variable {C γ : Type} [DecidableEq γ]

/-- The part on the cell of the basis function of the place `i`. -/
def Disc.psi (M : Disc C γ) (c : C) (i : γ) (y : Nat → ℝ) : ℝ := ∑ k ∈ range M.n, (if M.loc c k = i then 1 else 0) * M.φ c k y

/-- The flux of the discrete function with the values `x` for the tensor `κ`. -/
def Disc.flux (M : Disc C γ) (κ : C → (Nat → ℝ) → Nat → Nat → ℝ) (x : γ → ℝ) (c : C) (a : Nat) (y : Nat → ℝ) : ℝ :=
  ∑ b ∈ range 3, κ c y a b * ∑ k ∈ range M.n, x (M.loc c k) * M.dφ c k b y

/-- The integral over the side `s` of the cell `c`. -/
noncomputable def Disc.overSide (M : Disc C γ) (c : C) (s : Nat) (g : (Nat → ℝ) → ℝ) : ℝ :=
  overTri (M.area c s) (M.T c s) (M.T c ((s + 1) % 4)) (M.T c ((s + 2) % 4)) g

/-- The functions agree on the plane of the side. -/
def Disc.Agree (M : Disc C γ) (c : C) (s : Nat) (g h : (Nat → ℝ) → ℝ) : Prop :=
  AgreeOn (M.T c s) (M.T c ((s + 1) % 4)) (M.T c ((s + 2) % 4)) g h

/-- The side `s` of `c` is the side `s'` of the other cell `c'`; the basis functions of the places in `free` are continuous there, and so is the normal flux. -/
structure Disc.Glued (M : Disc C γ) (κ : C → (Nat → ℝ) → Nat → Nat → ℝ) (x : γ → ℝ) (free : γ → Prop) (c : C) (s : Nat) (c' : C) (s' : Nat) : Prop where
  other : (c', s') ≠ (c, s)
  same : ∃ π : Equiv.Perm (Fin 3), ∀ j, corner (M.T c') s' j = corner (M.T c) s (π j)
  cont : ∀ i, free i → M.Agree c s (M.psi c i) (M.psi c' i)
  normal : M.Agree c s (through (M.flux κ x c) (M.ν c s)) fun y => -through (M.flux κ x c') (M.ν c' s') y

/-- The elemental integrals are exact: the matrices, the loads, the loads of the sides. -/
structure Disc.Exact (M : Disc C γ) (κ : C → (Nat → ℝ) → Nat → Nat → ℝ) (f : C → (Nat → ℝ) → ℝ) (g : C → Nat → (Nat → ℝ) → ℝ)
    (A F : C → Nat → ℝ) (G : C → Nat → Nat → ℝ) : Prop where
  mat : ∀ c k j, k < M.n → j < M.n → ent M.n (A c) k j = overTet (M.T c) (form 3 3 (κ c) (M.dφ c j) (M.dφ c k))
  load : ∀ c k, k < M.n → F c k = overTet (M.T c) fun y => M.φ c k y * f c y
  side : ∀ c s k, s < 4 → k < M.n → G c s k = M.overSide c s fun y => M.φ c k y * g c s y

end Verif.Diffusion
