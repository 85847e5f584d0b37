import Verif.Model.Driver

/-!
Model of the memory of the integration drivers: how much they demand (`*_memory_requirements`), how they carve the arrays out of the memory of the
user, the arrays on the stack (`MemoryLegacy`), and what the tensor functions leave in `DIFF`.

Sizes are natural numbers: the overflow of `int` is not modelled.
-/
namespace Verif.Demand

open Verif.Dense

/-- What an operator tells of itself: `Dim`, `Nfa`, and `Usz`, `extraR`, `extraI` of `memoryRequirements` (`Usz`, `extraRsz`, `extraIsz`, `mtx_parts`
of `getMemoryRequirements`) for the number of points and tetrahedrons at hand.  (fem_memory.h:560-567, core.inl:195-201, 583-589) -/
structure Need where
  dim : Nat
  nfa : Nat
  usz : Nat
  exr : Nat
  exi : Nat
  parts : Nat

/-- `DotWithNormalHelper<..>::nD`. (operations/core.h:170-178) -/
def nD (normal : Bool) : Nat := if normal then 3 else 1

/-- `extraR` of both operators: core.inl:165-170, 196-201, 583-589, 641-647. -/
def both (same : Bool) (a b : Nat) : Nat := if same then a else max a b

/-- core.inl:186-215 `fem3D_memory_requirements_base` for compile-time operators: `dSize`, `iSize`. -/
def demandCt (normal copy same : Bool) (A B : Need) (q f : Nat) : Nat × Nat :=
  let usz := A.usz
  let vsz := if same then 0 else B.usz
  let exr := max (both same A.exr B.exr) (B.nfa * A.nfa * f)
  let du := B.dim * nD normal * q * A.nfa * f
  let diff := B.dim * max (A.dim * nD normal) A.nfa * q * f
  let nrm := if normal then 3 * f else 0
  let xyl := if copy then 4 * q else 0
  let wg := if copy then q else 0
  (usz + vsz + du + diff + 3 * q * f + 3 * 4 * f + 3 * 3 * f + f + f + nrm + exr + xyl + wg, both same A.exi B.exi)

/-- The arrays one after another from address `p` (`X.Init(p, n); p += n;`): the pairs of address and size.  (core.inl:148-183, 621-658) -/
def place : Nat → List Nat → List (Nat × Nat)
  | _, [] => []
  | p, n :: l => (p, n) :: place (p + n) l

/-- core.inl:139-185 `fem3Dtet_init_animem_from_plain_memory`: the sizes of `XYG`, `XYP`, `PSI`, `MES`, `NRM`, `DET`, `XYL`, `WG`, `U`, `V`, `DU`, `DIFF`,
`extraR` in their order; an absent array has size zero. -/
def carveCt (normal copy same : Bool) (A B : Need) (q f : Nat) : List Nat :=
  [3 * q * f, 3 * 4 * f, 3 * 3 * f, f, if normal then 3 * f else 0, f, if copy then 4 * q else 0, if copy then q else 0, A.usz,
    if same then 0 else B.usz, nD normal * B.dim * q * A.nfa * f, B.dim * max (nD normal * A.dim) A.nfa * q * f, both same A.exr B.exr]

/-- diff_tensor.h:190, 209 `memReq`: the memory of the tensor function. -/
def funcReq (normal : Bool) (A B : Need) : Nat := B.dim * nD normal * A.dim

/-- `mtx_parts` of both operators: core.inl:584-589, 641-647. -/
def partsBoth (same : Bool) (A B : Need) : Nat := if same then A.parts else A.parts + B.parts

/-- `Vprts`: core.inl:584, 587, 641, 645. -/
def partsV (same : Bool) (A B : Need) : Nat := if same then A.parts else B.parts

/-- core.inl:581-604 `fem3D_memory_requirements_base` for run-time operators: `dSize`, `iSize`, `mSize`. -/
def demandRt (normal copy same : Bool) (A B : Need) (q f : Nat) : Nat × Nat × Nat :=
  let usz := A.usz + (if same then 0 else B.usz)
  let exr := max (both same A.exr B.exr) (A.nfa * B.nfa * f)
  let du := B.dim * nD normal * q * A.nfa * f
  let diff := B.dim * max (A.dim * nD normal) A.nfa * q * f
  let nrm := if normal then 3 * f else 0
  let xyl := if copy then 4 * q else 0
  let wg := if copy then q else 0
  (usz + du + diff + 3 * q * f + 3 * 4 * f + 3 * 3 * f + f + f + nrm + exr + xyl + wg + funcReq normal A B,
    both same A.exi B.exi + (4 + 2 * partsBoth same A B),
    partsBoth same A B + (if 1 < partsV same A B then 2 * partsV same A B else 0))

/-- core.inl:606-658 `fem3D_init_animem_from_plain_memory`: the sizes of `XYG`, `XYP`, `PSI`, `DET`, `MES`, `NRM`, `XYL`, `WG`, `DU`, `DIFF`, `U`, `V`,
`extraR` and of the memory of the tensor function in their order. -/
def carveRt (normal copy same : Bool) (A B : Need) (q f : Nat) : List Nat :=
  [3 * q * f, 3 * 4 * f, 3 * 3 * f, f, f, if normal then 3 * f else 0, if copy then 4 * q else 0, if copy then q else 0,
    B.dim * nD normal * q * A.nfa * f, B.dim * max (A.dim * nD normal) A.nfa * q * f, A.usz, if same then 0 else B.usz, both same A.exr B.exr,
    nD normal * B.dim * A.dim]

/-- core.inl:651-656: the sizes of `extraI`, `MTXI_ROW`, `MTXI_COL` (integers) and of `MTX` (matrices). -/
def carveRtI (same : Bool) (A B : Need) : List Nat × Nat :=
  ([both same A.exi B.exi, 2 + 1 * partsBoth same A B, 2 + 1 * partsBoth same A B],
    partsBoth same A B + (if 1 < partsV same A B then 2 * partsV same A B else 0))

/-- core.inl:610-614: the check of the memory of the user. -/
def acceptsRt (normal copy same : Bool) (A B : Need) (q f dSize iSize mSize : Nat) : Bool :=
  let r := demandRt normal copy same A B q f
  !(decide (mSize < r.2.2) || decide (dSize < r.1) || decide (iSize < r.2.1))

/-- fem_memory.h:224-261 `MemoryLegacy`: the sizes of `U`, `V`, `DU`, `DIFF`, then of `extraR`, for at most `P` points and `FU` tetrahedrons. -/
def legacy (P FU : Nat) : Nat × Nat := (9 * P * 30 * FU, 3 * 20 * P * FU)

/-- int_tet.inl:97-104, int_face.inl:18-25, int_edge.inl:8-15: what the versions with arrays on the stack check, for `maxOrder` 6, 9, 20: the size
of the matrix, the order of the formula, the number of tetrahedrons.  The size is compared before `mem.f = f`: there `mem.f` is 1 (fem_memory.h:211). -/
def acceptsStack (maxOrder : Int) (nfA nfB size FU : Nat) (order : Int) (f : Nat) : Bool :=
  !(decide (size < nfB * nfA * 1) || decide (maxOrder < order) || decide (FU < f))

section
variable {K : Type} [CommRing K]
open Elemental

/-- `internal_Dfunc::applyDU` once more, here the memory `DIFF` afterwards: diff_tensor.h:279-897.  The values of the tensor function are left there. -/
def tensorMem (tr : Traits) (f : UserD K) (a : Args K) (D DU : Nat → K) : Nat → K :=
  match tr with
  | .constAny | .constScalar | .constFull => (dfunc f a.jdim a.idim (0, 0, 0) 0 0 D).2
  | .constNull | .null => D
  | .perPoint => loop 0 a.f (fun r D => loop 0 a.q (fun n D => fillPoint f a r n D) D) D
  | .perTetra => (loop 0 a.f (stepTetra f a) (D, DU)).1
  | .perSelection =>
    let t := dfunc f a.jdim a.idim (point a.xyg a.q 0 0) 0 0 D
    match t.1 with
    | .null => t.2
    | .scalar => fillSel f a (fun r => r) t.2
    | _ => fillSel f a (fun _ => 0) t.2
  | .full | .scalar => fillAll f a D

end

end Verif.Demand
