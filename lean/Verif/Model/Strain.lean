import Verif.Model.Tensor
import Verif.Model.AutoDiff

/-!
# Model of the strain measures and invariants (anifem++/autodiff/cauchy_strain_invariants.{h,inl},
# cauchy_strain_autodiff.h)

Matrices and tensors are the packed arrays of `Verif.Model.Tensor`, in the specialisations to three
dimensions.  Positions past the end of an array are never read.  An exact field stands for `double`,
the real numbers where a root is taken.  Loops that write are lists of writes; a sum of three terms that
the code writes out is written out.
-/

namespace Verif.Strain

open Verif.Tensor Verif.AutoDiff

section
variable {K : Type} [Field K]

/-- `SymMtx<3>::operator*(FT)`, `BiSymTensor4Rank<3>::operator*(FT)`: physical_tensors_3d.inl:132-133, 546-547. -/
def scale (c : K) (a : Store K) : Store K := fun p => a p * c

/-- `operator/(FT)`: physical_tensors_3d.inl:134, 548 (the same loop for both types). -/
def over (a : Store K) (c : K) : Store K := fun p => a p / c

/-- `operator+` of one type: physical_tensors_3d.inl:127, 281. -/
def plus (a b : Store K) : Store K := fun p => a p + b p

/-- `operator-` of one type: physical_tensors_3d.inl:128. -/
def minus (a b : Store K) : Store K := fun p => a p - b p

/-- `F_to_E`: cauchy_strain_invariants.inl:13-21. -/
def fToE (F : Store K) : Store K :=
  let f := mtxGet 3 F
  writes ((([(0, 1), (0, 2), (1, 2)] : List (Nat × Nat)).map fun q =>
      (symAt 3 q.1 q.2, (f 0 q.1 * f 0 q.2 + f 1 q.1 * f 1 q.2 + f 2 q.1 * f 2 q.2) / 2))
    ++ (List.range 3).map fun i =>
      (symAt 3 i i, (f 0 i * f 0 i + f 1 i * f 1 i + f 2 i * f 2 i - 1) / 2)) zeros

/-- `grU_to_E`: cauchy_strain_invariants.inl:23-29. -/
def gradToE (grU : Store K) : Store K :=
  let g := mtxGet 3 grU
  writes ((upper 3).map fun q => (symAt 3 q.1 q.2,
    (g q.1 q.2 + g q.2 q.1 + g 0 q.1 * g 0 q.2 + g 1 q.1 * g 1 q.2 + g 2 q.1 * g 2 q.2) / 2)) zeros

/-- `F_and_dF_to_dE`: cauchy_strain_invariants.inl:31-38. -/
def fToDE (F dF : Store K) : Store K :=
  let f := mtxGet 3 F
  let df := mtxGet 3 dF
  writes ((upper 3).map fun q => (symAt 3 q.1 q.2,
    (df 0 q.1 * f 0 q.2 + df 1 q.1 * f 1 q.2 + df 2 q.1 * f 2 q.2
      + f 0 q.1 * df 0 q.2 + f 1 q.1 * df 1 q.2 + f 2 q.1 * df 2 q.2) / 2)) zeros

/-- `grU_and_dgrU_to_dE`: cauchy_strain_invariants.inl:40-48. -/
def gradToDE (grU dgrU : Store K) : Store K :=
  let g := mtxGet 3 grU
  let dg := mtxGet 3 dgrU
  writes ((upper 3).map fun q => (symAt 3 q.1 q.2,
    (dg q.1 q.2 + dg q.2 q.1
      + dg 0 q.1 * g 0 q.2 + dg 1 q.1 * g 1 q.2 + dg 2 q.1 * g 2 q.2
      + g 0 q.1 * dg 0 q.2 + g 1 q.1 * dg 1 q.2 + g 2 q.1 * dg 2 q.2) / 2)) zeros

/-- `S_to_P`: cauchy_strain_invariants.h:36.  `S + grU * S` adds a symmetric and a general matrix; the
code of that sum calls the one with the operands swapped. -/
def sToP (grU S : Store K) : Store K := mtxAddSym 3 (mtxProdSym 3 grU S) S

/-- The first loop of `dS_to_dP`, `D(i, j, i, l) = S(l, j)` for `l ≥ j`:
cauchy_strain_invariants.inl:53-64. -/
def dpFirst (S : Store K) : Store K :=
  writes ((upper 3).flatMap fun q => (List.range 3).map fun i =>
    (stPos 3 (stSort 3 i q.1 i q.2), symGet 3 S q.2 q.1)) zeros

/-- `dS_to_dP`: cauchy_strain_invariants.inl:51-90. -/
def dsToDP (grU S dS : Store K) : Store K :=
  let f := mtxGet 3 (plus (mtxIdentity 3 1) grU)
  let s := bs3Get dS
  let D := adds ((square 3).map fun q =>
    let i := q.1
    let j := q.2
    (stPos 3 (stSort 3 i j i j),
      f i 0 * f i 0 * s 0 j 0 j + f i 1 * f i 1 * s 1 j 1 j + f i 2 * f i 2 * s 2 j 2 j
      + 2 * (f i 0 * f i 1 * s 0 j 1 j + f i 0 * f i 2 * s 0 j 2 j + f i 1 * f i 2 * s 1 j 2 j)))
    (dpFirst S)
  adds ((square 3).flatMap fun q =>
    let i := q.1
    let j := q.2
    (List.range' (i + 3 * j + 1) (9 - (i + 3 * j + 1))).map fun kl =>
      let k := kl % 3
      let l := kl / 3
      (stPos 3 (stSort 3 i j k l),
        total ((square 3).map fun nm => s nm.1 j nm.2 l * f i nm.1 * f k nm.2))) D

/-- `SymMtx3D::Identity() + 2*E`: cauchy_strain_invariants.h:70, 73, 83, 90. -/
def cauchy (E : Store K) : Store K := plus (sym3Identity 1) (scale 2 E)

/-- `C_I1`: cauchy_strain_invariants.h:44. -/
def cI1 (E : Store K) : K := 3 + 2 * sym3Trace E
/-- `C_I1_dE`: cauchy_strain_invariants.h:47. -/
def cI1dE : Store K := sym3Identity 2
/-- `C_I1_ddE`: cauchy_strain_invariants.h:52. -/
def cI1ddE : Store K := zeros

/-- `C_I2`: cauchy_strain_invariants.h:58. -/
def cI2 (E : Store K) : K :=
  3 + 4 * sym3Trace E + 2 * sym3Trace E * sym3Trace E - 2 * sym3Frob E
/-- `C_I2_dE`: cauchy_strain_invariants.h:61. -/
def cI2dE (E : Store K) : Store K := scale 4 (minus (sym3Identity (1 + sym3Trace E)) E)
/-- `C_I2_ddE`: cauchy_strain_invariants.inl:93-102. -/
def cI2ddE : Store K :=
  let c : K := 4
  writes [(bs3Pos (bsSort 0 0 1 1), c), (bs3Pos (bsSort 0 1 0 1), -c / 2),
    (bs3Pos (bsSort 0 0 2 2), c), (bs3Pos (bsSort 0 2 0 2), -c / 2),
    (bs3Pos (bsSort 1 1 2 2), c), (bs3Pos (bsSort 1 2 1 2), -c / 2)] zeros

/-- `C_I3`: cauchy_strain_invariants.h:70. -/
def cI3 (E : Store K) : K := sym3Det (cauchy E)
/-- `C_I3_dE`: cauchy_strain_invariants.h:73. -/
def cI3dE (E : Store K) : Store K := scale 2 (sym3Adj (cauchy E))
/-- `C_I3_ddE`: cauchy_strain_invariants.inl:104-123. -/
def cI3ddE (E : Store K) : Store K :=
  let t := sym3Trace E
  let e := symGet 3 E
  let c : K := 4
  writes [(bs3Pos (bsSort 0 0 1 1), ((1 + 2 * t) - 2 * (e 1 1 + e 0 0)) * c),
    (bs3Pos (bsSort 0 0 2 2), ((1 + 2 * t) - 2 * (e 2 2 + e 0 0)) * c),
    (bs3Pos (bsSort 1 1 2 2), ((1 + 2 * t) - 2 * (e 2 2 + e 1 1)) * c),
    (bs3Pos (bsSort 0 1 0 1), (-(1 + 2 * t) / 2 + (e 1 1 + e 0 0)) * c),
    (bs3Pos (bsSort 0 2 0 2), (-(1 + 2 * t) / 2 + (e 2 2 + e 0 0)) * c),
    (bs3Pos (bsSort 1 2 1 2), (-(1 + 2 * t) / 2 + (e 2 2 + e 1 1)) * c),
    (bs3Pos (bsSort 0 1 1 2), e 0 2 * c),
    (bs3Pos (bsSort 0 1 0 2), e 1 2 * c),
    (bs3Pos (bsSort 0 2 1 2), e 0 1 * c),
    (bs3Pos (bsSort 0 0 1 2), (-2 * e 1 2) * c),
    (bs3Pos (bsSort 0 2 1 1), (-2 * e 0 2) * c),
    (bs3Pos (bsSort 0 1 2 2), (-2 * e 0 1) * c)] zeros

/-- `C_I4fs`: cauchy_strain_invariants.h:90. -/
def cI4 (E f s : Store K) : K := sym3DotVec (cauchy E) f s
/-- `C_I4fs_dE`: cauchy_strain_invariants.inl:131-139. -/
def cI4dE (f s : Store K) : Store K :=
  writes (((List.range 3).map fun i => (symAt 3 i i, 2 * f i * s i))
    ++ ([(0, 1), (0, 2), (1, 2)] : List (Nat × Nat)).map fun q =>
      (symAt 3 q.1 q.2, f q.1 * s q.2 + f q.2 * s q.1)) zeros
/-- `C_I4fs_ddE`: cauchy_strain_invariants.h:98. -/
def cI4ddE : Store K := zeros

/-- `C_I5fs`: cauchy_strain_invariants.inl:142-145. -/
def cI5 (E f s : Store K) : K :=
  let Ef := sym3Mul E f
  let Es := sym3Mul E s
  (f 0 + 2 * Ef 0) * (s 0 + 2 * Es 0) + (f 1 + 2 * Ef 1) * (s 1 + 2 * Es 1)
    + (f 2 + 2 * Ef 2) * (s 2 + 2 * Es 2)
/-- `C_I5fs_dE`: cauchy_strain_invariants.inl:147-156. -/
def cI5dE (E f s : Store K) : Store K :=
  let Ef := sym3Mul E f
  let Es := sym3Mul E s
  let Cf := fun i => f i + 2 * Ef i
  let Cs := fun i => s i + 2 * Es i
  writes ((upper 3).map fun q => (symAt 3 q.1 q.2,
    Cf q.1 * s q.2 + Cf q.2 * s q.1 + f q.1 * Cs q.2 + f q.2 * Cs q.1)) zeros
/-- `C_I5fs_ddE`: cauchy_strain_invariants.inl:158-177. -/
def cI5ddE (f s : Store K) : Store K :=
  let fs := symGet 3 (sym3TensorSymMul2 f s)
  writes [(bs3Pos (bsSort 0 0 0 0), 4 * fs 0 0), (bs3Pos (bsSort 0 0 0 1), 2 * fs 0 1),
    (bs3Pos (bsSort 0 1 0 1), fs 0 0 + fs 1 1), (bs3Pos (bsSort 0 0 0 2), 2 * fs 0 2),
    (bs3Pos (bsSort 0 1 0 2), fs 1 2), (bs3Pos (bsSort 0 2 0 2), fs 0 0 + fs 2 2),
    (bs3Pos (bsSort 0 1 1 1), 2 * fs 0 1), (bs3Pos (bsSort 1 1 1 1), 4 * fs 1 1),
    (bs3Pos (bsSort 0 1 1 2), fs 0 2), (bs3Pos (bsSort 0 2 1 2), fs 0 1),
    (bs3Pos (bsSort 1 1 1 2), 2 * fs 1 2), (bs3Pos (bsSort 1 2 1 2), fs 1 1 + fs 2 2),
    (bs3Pos (bsSort 0 2 2 2), 2 * fs 0 2), (bs3Pos (bsSort 1 2 2 2), 2 * fs 1 2),
    (bs3Pos (bsSort 2 2 2 2), 4 * fs 2 2)] zeros

/-- `C_I0fs`: cauchy_strain_invariants.h:118. -/
def cI0 (f s : Store K) : K := f 0 * s 0 + f 1 * s 1 + f 2 * s 2
/-- `C_I0fs_dE`: cauchy_strain_invariants.h:123. -/
def cI0dE : Store K := zeros
/-- `C_I0fs_ddE`: cauchy_strain_invariants.h:128. -/
def cI0ddE : Store K := zeros

end

/-- `C_J`: cauchy_strain_invariants.h:80. -/
noncomputable def cJ (E : Store ℝ) : ℝ := Real.sqrt (cI3 E)
/-- `C_J_dE`: cauchy_strain_invariants.h:83. -/
noncomputable def cJdE (E : Store ℝ) : Store ℝ := over (sym3Adj (cauchy E)) (cJ E)
/-- `C_J_ddE`: cauchy_strain_invariants.inl:125-129. -/
noncomputable def cJddE (E : Store ℝ) : Store ℝ :=
  let J := cJ E
  minus (over (cI3ddE E) (2 * J)) (over (bs3Square (sym3Adj (cauchy E))) (J * J * J))

/-! ## The objects of the automatic differentiation -/

/-- The index of a variable: the entry of the strain.  `PhysSymTensorStorageSet<3>`
(cauchy_strain_autodiff.h:20) makes the gradient a `SymMtx<3>` and the Hessian a
`BiSymTensor4Rank<3>`; they are read by their entries. -/
abbrev Ix := Fin 3 × Fin 3

/-- The entries of a `SymMtx<3>`: physical_tensors_3d.inl:103-104. -/
def entries (a : Store ℝ) : Ix → ℝ := fun q => symGet 3 a q.1 q.2

/-- The entries of a `BiSymTensor4Rank<3>`: physical_tensors_3d.inl:525-526. -/
def entries4 (a : Store ℝ) : Ix → Ix → ℝ := fun q r => bs3Get a q.1 q.2 r.1 r.2

/-- `I0fs`: cauchy_strain_autodiff.h:18-39. -/
noncomputable def objI0 (numdif : Int) (f s : Store ℝ) : Ex Ix :=
  ⟨true, false, false, u8 numdif, cI0 f s, entries cI0dE, entries4 cI0ddE⟩

/-- `I1`: cauchy_strain_autodiff.h:43-64. -/
noncomputable def objI1 (numdif : Int) (E : Store ℝ) : Ex Ix :=
  ⟨true, true, false, u8 numdif, cI1 E, entries cI1dE, entries4 cI1ddE⟩

/-- `I4fs`: cauchy_strain_autodiff.h:68-91. -/
noncomputable def objI4 (numdif : Int) (E f s : Store ℝ) : Ex Ix :=
  ⟨true, true, false, u8 numdif, cI4 E f s, entries (if 1 ≤ numdif then cI4dE f s else zeros),
    entries4 cI4ddE⟩

/-- `I2`: cauchy_strain_autodiff.h:95-119. -/
noncomputable def objI2 (numdif : Int) (E : Store ℝ) : Ex Ix :=
  ⟨true, true, true, u8 numdif, cI2 E, entries (if 1 ≤ numdif then cI2dE E else zeros),
    entries4 cI2ddE⟩

/-- `I5fs`: cauchy_strain_autodiff.h:123-148. -/
noncomputable def objI5 (numdif : Int) (E f s : Store ℝ) : Ex Ix :=
  ⟨true, true, true, u8 numdif, cI5 E f s, entries (if 1 ≤ numdif then cI5dE E f s else zeros),
    entries4 (if 2 ≤ numdif then cI5ddE f s else zeros)⟩

/-- `I3`: cauchy_strain_autodiff.h:152-177. -/
noncomputable def objI3 (numdif : Int) (E : Store ℝ) : Ex Ix :=
  ⟨true, true, true, u8 numdif, cI3 E, entries (if 1 ≤ numdif then cI3dE E else zeros),
    entries4 (if 2 ≤ numdif then cI3ddE E else zeros)⟩

/-- `J`: cauchy_strain_autodiff.h:181-206. -/
noncomputable def objJ (numdif : Int) (E : Store ℝ) : Ex Ix :=
  ⟨true, true, true, u8 numdif, cJ E, entries (if 1 ≤ numdif then cJdE E else zeros),
    entries4 (if 2 ≤ numdif then cJddE E else zeros)⟩

end Verif.Strain
