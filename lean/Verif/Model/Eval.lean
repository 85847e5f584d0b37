import Verif.Model.Driver
import Verif.Model.Elemental

/-!
Model of the evaluation drivers of `anifem++/fem/operations/eval.inl`: `fem3DapplyL`, `fem3DapplyX` for compile-time operators (with arrays on the
stack or in memory of the user) and for run-time operators (without and with a tensor).

Every driver prepares the geometry (as in `Verif.Model.Driver`), applies the operator in `U` with the help of `extraR` and multiplies the matrix by
the degrees of freedom (`Elemental.fem3DApply`, `Elemental.fem3DApplyD`).  Simplified: the checks of the dimensions of `dofs`, `opU` and of the node
arrays are left out (all have the right dimensions), the points given by the user have three coordinates each.  Sizes are natural numbers.
-/
namespace Verif.Eval

open Verif.Dense Verif.Driver Verif.SpaceOp Verif.Order

/-- How a call ends: with a result, with one of the exceptions of eval.inl:31-53, 182-184, or past the end of
an array. -/
inductive Outcome (α : Type) where
  /-- with a result -/
  | ok (a : α)
  /-- with an exception, or the program does not compile -/
  | refused
  /-- it writes outside of an array -/
  | overrun

/-- The call goes on after the checks: eval.inl:31-53. -/
def Outcome.bind {α β : Type} (o : Outcome α) (g : α → Outcome β) : Outcome β :=
  match o with
  | .ok a => g a
  | .refused => .refused
  | .overrun => .overrun

/-- eval.inl:97-98, 168-172, 210-212 (without tensor), 189-193 (with): the arrays of `fem3DapplyL` for `nl` numbers `L` of barycentric coordinates. -/
noncomputable def setL (tensor : Bool) (L : Nat → ℝ) (nl f : Nat) (XY : Nat → Nat → Nat → ℝ) (a : Arr ℝ) : Arr ℝ :=
  let q := nl / 4
  let a := initGeom XY { a with q := q, f := f, xyl := L, wg := if tensor then fillN q 1 a.wg else a.wg }
  if tensor then { a with mes := fillN f 1 a.mes } else a

/-- eval.inl:109-123 (array `XYLp` of `cap` numbers on the stack), 135-150 (`cap` is `4*q`), 228-233 (with a tensor), 250-254 (`again`: the geometry
is initialised once more): the arrays of `fem3DapplyX` for `q` points `X`. -/
noncomputable def setX (tensor again : Bool) (cap : Nat) (X : Nat → ℝ) (q : Nat) (XY : Nat → Nat → Nat → ℝ) (a : Arr ℝ) : Outcome (Arr ℝ) :=
  let a := initTet XY { a with q := q, f := 1 }
  match baryAll (XY 0 0) X q (4 * q) cap a.psi a.xyl with
  | none => .overrun
  | some xyl =>
    let a := initXYG XY { a with xyl := xyl, wg := if tensor then fillN q 1 a.wg else a.wg }
    let a := if again then initGeom XY a else a
    .ok (if tensor then { a with mes := fillN 1 1 a.mes } else a)

/-- core.inl:369-404 `internalFem3DApply` for a compile-time operator: `U` is an array of `capU` numbers at `base`, `extraR` of `es` numbers behind it;
`capR` numbers may be written there.  The values of an operator with several parts at several points go through `dim*q*f` numbers of `extraR`. -/
noncomputable def runCt (a : Arr ℝ) (op : OpT) (F : Fem) (base capU es capR : Nat) (mem dofs opU : Nat → ℝ) : Outcome (Nat → ℝ) :=
  match ctOp Real.sqrt a.mem op F with
  | none => .refused
  | some A =>
    if A.usz ≤ capU ∧ A.exr ≤ es ∧ es ≤ capR then
      match A.apply base (base + capU) es mem with
      | none => .refused
      | some (m, M) =>
        let U := CtOp.conv M A.dim A.nfa
        if U.nparts ≠ 1 ∧ 1 < a.q ∧ capR < A.dim * a.q * a.f then .overrun
        else .ok (Elemental.fem3DApply (U.band m) A.dim A.nfa a.q a.f dofs (fun p => m (base + capU + p)) opU)
    else .overrun

/-- eval.inl:2-14, 58-62 `fem3DapplyL_memory_requirements` and `__internal_fem3DapplyL_setmem`: the size of `extraR`, the last of the arrays. -/
def exrSize (exr nfa f : Nat) : Nat := max exr (1 * nfa * f)

/-- eval.inl:2-14 `fem3DapplyL_memory_requirements`: `dSize`. -/
def reqL (usz exr nfa q f : Nat) : Nat := usz + 3 * q * f + 3 * 4 * f + 3 * 3 * f + f + f + exrSize exr nfa f

/-- eval.inl:16-22 `fem3DapplyX_memory_requirements`: `dSize`. -/
def reqX (usz exr nfa q f : Nat) : Nat := reqL usz exr nfa q f + 4 * q

/-- eval.inl:83-100 `fem3DapplyL` with arrays on the stack (`MemoryLegacy`, fem_memory.h:224-261) for at most `P` points and `FU` tetrahedrons.  The
points go to `XYG` of `3*P*FU` numbers. -/
noncomputable def applyLStack (P FU : Nat) (L : Nat → ℝ) (nl f : Nat) (XY : Nat → Nat → Nat → ℝ) (op : OpT) (F : Fem) (a : Arr ℝ)
    (mem dofs opU : Nat → ℝ) : Outcome (Nat → ℝ) :=
  if f = 0 ∨ FU < f ∨ P * 4 < nl / 4 then .refused
  else if 3 * P * FU < 3 * (nl / 4) * f then .overrun
  else runCt (setL false L nl f XY a) op F 0 (9 * P * 30 * FU) (3 * 20 * P * FU) (3 * 20 * P * FU) mem dofs opU

/-- eval.inl:102-125 `fem3DapplyX` with arrays on the stack. -/
noncomputable def applyXStack (P : Nat) (X : Nat → ℝ) (q : Nat) (XY : Nat → Nat → Nat → ℝ) (op : OpT) (F : Fem) (a : Arr ℝ)
    (mem dofs opU : Nat → ℝ) : Outcome (Nat → ℝ) :=
  if P * 4 < q then .refused
  else (setX false false (4 * P) X q XY a).bind fun a =>
    if 3 * P < 3 * q then .overrun
    else runCt a op F 0 (9 * P * 30) (3 * 20 * P) (3 * 20 * P) mem dofs opU

/-- eval.inl:154-174 with 56-81: `fem3DapplyL` in `size` numbers of the user.  The arrays before `U` have `3*q*f + 12*f + 9*f + f + f` numbers; only
`U` and `extraR` are laid out here, the others are modelled as memories of their own, and whether the arrays fit is looked at for all. -/
noncomputable def applyLPlain (size : Nat) (L : Nat → ℝ) (nl f : Nat) (XY : Nat → Nat → Nat → ℝ) (op : OpT) (F : Fem) (a : Arr ℝ)
    (mem dofs opU : Nat → ℝ) : Outcome (Nat → ℝ) :=
  let a := setL false L nl f XY a
  let head := 3 * (nl / 4) * f + 3 * 4 * f + 3 * 3 * f + f + f
  match ctOp Real.sqrt a.mem op F with
  | none => .refused
  | some A =>
    if f = 0 then .refused
    else if size < head + A.usz then .overrun
    else runCt a op F head A.usz (exrSize A.exr A.nfa f) (size - (head + A.usz)) mem dofs opU

/-- eval.inl:127-152 with 56-81: `fem3DapplyX` in `size` numbers of the user, `XYL` before the others. -/
noncomputable def applyXPlain (size : Nat) (X : Nat → ℝ) (q : Nat) (XY : Nat → Nat → Nat → ℝ) (op : OpT) (F : Fem) (a : Arr ℝ)
    (mem dofs opU : Nat → ℝ) : Outcome (Nat → ℝ) :=
  (setX false false (4 * q) X q XY a).bind fun a =>
    let head := 4 * q + (3 * q * 1 + 3 * 4 * 1 + 3 * 3 * 1 + 1 + 1)
    match ctOp Real.sqrt a.mem op F with
    | none => .refused
    | some A =>
      if size < head + A.usz then .overrun
      else runCt a op F head A.usz (exrSize A.exr A.nfa 1) (size - (head + A.usz)) mem dofs opU

/-- core.inl:731-734 (without tensor), 666-669 (with): `extraRsz` as it is demanded. -/
def rtExr (exr parts nfa dim q f : Nat) : Nat :=
  if 1 < parts ∧ 1 < q then max (max exr (nfa * 1 * f)) (dim * q * f) else max exr (nfa * 1 * f)

/-- core.inl:727-743 `fem3DapplyND_memory_requirements_base`: `dSize`. -/
def reqND (copy : Bool) (usz exr parts nfa dim q f : Nat) : Nat :=
  usz + 3 * q * f + 3 * 4 * f + 3 * 3 * f + f + f + rtExr exr parts nfa dim q f + (if copy then 4 * q else 0) + 0

/-- core.inl:662-683 `fem3DapplyD_memory_requirements_base` without normals: `dSize`; `func` is the memory of the tensor function. -/
def reqD (usz exr parts nfa dim ddim func q f : Nat) : Nat :=
  usz + dim * q * f + ddim * q * 1 * f + ddim * dim * q * f + 3 * q * f + 3 * 4 * f + 3 * 3 * f + f + f + 0 + rtExr exr parts nfa dim q f + 4 * q + q +
    func

/-- core.inl:477-517 `internalFem3DApply` for a run-time operator, with the layout of core.inl:744-783: `U` at `head`, `extraR` of `exr` numbers behind
it, and nothing more up to the end of the `size` numbers. -/
noncomputable def runRt (a : Arr ℝ) (op : OpT) (F : Fem) (head size : Nat) (st : OpStack.St ℝ) (dofs opU : Nat → ℝ) : Outcome (Nat → ℝ) :=
  match rtOp Real.sqrt a.mem F op with
  | none => .refused
  | some A =>
    match A.apply head (head + A.usz) A.exr st with
    | none => .refused
    | some (st, ref) =>
      if size < head + A.usz + A.exr then .overrun
      else if ref.nparts ≠ 1 ∧ 1 < a.q ∧ size < head + A.usz + A.dim * a.q * a.f then .overrun
      else .ok (Elemental.fem3DApply (st.band ref) A.dim A.nfa a.q a.f dofs (fun p => st.re (head + A.usz + p)) opU)

/-- core.inl:520-574 `internalFem3DApply` with a tensor, with the layout of core.inl:684-726: `DU` and `DIFF` before `U`, `V` between `U` and `extraR`,
the memory of the tensor function behind `extraR`.  `D` is the content of `DIFF`. -/
noncomputable def runRtD (a : Arr ℝ) (op : OpT) (F : Fem) (ddim head size : Nat) (tr : Elemental.Traits) (fn : Elemental.UserD ℝ) (st : OpStack.St ℝ)
    (D DU dofs opU : Nat → ℝ) : Outcome (Nat → ℝ) :=
  match rtOp Real.sqrt a.mem F op with
  | none => .refused
  | some A =>
    let u := head + ddim * a.q * 1 * a.f + ddim * A.dim * a.q * a.f
    let v := u + A.usz
    let ex := v + A.dim * a.q * a.f
    match A.apply u ex A.exr st with
    | none => .refused
    | some (st, ref) =>
      if size < ex + A.exr then .overrun
      else if ref.nparts ≠ 1 ∧ 1 < a.q ∧ size < ex + A.dim * a.q * a.f then .overrun
      else
        match Elemental.fem3DApplyD (fun x DU => Elemental.applyDU tr fn x D DU) (st.band ref) A.dim A.nfa ddim a.q a.f a.wg a.mes a.xyg none dofs
          (fun p => st.re (ex + p)) (fun p => st.re (v + p)) DU opU with
        | none => .refused
        | some R => .ok R

/-- eval.inl:200-214 `fem3DapplyL` for a run-time operator, in `size` numbers of the user (core.inl:748-751: refused if they are too few). -/
noncomputable def applyLRt (size : Nat) (L : Nat → ℝ) (nl f : Nat) (XY : Nat → Nat → Nat → ℝ) (op : OpT) (F : Fem) (a : Arr ℝ)
    (st : OpStack.St ℝ) (dofs opU : Nat → ℝ) : Outcome (Nat → ℝ) :=
  let a := setL false L nl f XY a
  match rtOp Real.sqrt a.mem F op with
  | none => .refused
  | some A =>
    if size < reqND false A.usz A.exr A.parts A.nfa A.dim (nl / 4) f then .refused
    else runRt a op F (3 * (nl / 4) * f + 3 * 4 * f + 3 * 3 * f + f + f) size st dofs opU

/-- eval.inl:240-256 `fem3DapplyX` for a run-time operator. -/
noncomputable def applyXRt (size : Nat) (X : Nat → ℝ) (q : Nat) (XY : Nat → Nat → Nat → ℝ) (op : OpT) (F : Fem) (a : Arr ℝ)
    (st : OpStack.St ℝ) (dofs opU : Nat → ℝ) : Outcome (Nat → ℝ) :=
  (setX false true (4 * q) X q XY a).bind fun a =>
    match rtOp Real.sqrt a.mem F op with
    | none => .refused
    | some A =>
      if size < reqND true A.usz A.exr A.parts A.nfa A.dim q 1 then .refused
      else runRt a op F (3 * q * 1 + 3 * 4 * 1 + 3 * 3 * 1 + 1 + 1 + 4 * q) size st dofs opU

/-- eval.inl:176-195 `fem3DapplyL` for a run-time operator and a tensor with `ddim` rows; `func` is the memory demanded by the traits of the tensor. -/
noncomputable def applyLRtD (size func : Nat) (L : Nat → ℝ) (nl f : Nat) (XY : Nat → Nat → Nat → ℝ) (op : OpT) (F : Fem) (ddim : Nat)
    (tr : Elemental.Traits) (fn : Elemental.UserD ℝ) (a : Arr ℝ) (st : OpStack.St ℝ) (D DU dofs opU : Nat → ℝ) : Outcome (Nat → ℝ) :=
  let a := setL true L nl f XY a
  match rtOp Real.sqrt a.mem F op with
  | none => .refused
  | some A =>
    if size < reqD A.usz A.exr A.parts A.nfa A.dim ddim func (nl / 4) f then .refused
    else runRtD a op F ddim (3 * (nl / 4) * f + 3 * 4 * f + 3 * 3 * f + f + f + 4 * (nl / 4) + nl / 4) size tr fn st D DU dofs opU

/-- eval.inl:215-235 `fem3DapplyX` for a run-time operator and a tensor. -/
noncomputable def applyXRtD (size func : Nat) (X : Nat → ℝ) (q : Nat) (XY : Nat → Nat → Nat → ℝ) (op : OpT) (F : Fem) (ddim : Nat)
    (tr : Elemental.Traits) (fn : Elemental.UserD ℝ) (a : Arr ℝ) (st : OpStack.St ℝ) (D DU dofs opU : Nat → ℝ) : Outcome (Nat → ℝ) :=
  (setX true false (4 * q) X q XY a).bind fun a =>
    match rtOp Real.sqrt a.mem F op with
    | none => .refused
    | some A =>
      if size < reqD A.usz A.exr A.parts A.nfa A.dim ddim func q 1 then .refused
      else runRtD a op F ddim (3 * q * 1 + 3 * 4 * 1 + 3 * 3 * 1 + 1 + 1 + 4 * q + q) size tr fn st D DU dofs opU

end Verif.Eval
