import Verif.Model.OpStack

/-!
Model of the operators of compile-time finite element spaces: how the operator of a vector, a composition, a union of types, a
partial derivative, a divergence and a curl is built from the operators of the parts (`operators.h`, `operators.inl`).

As in `Verif.Model.OpStack` the real memory is one function from addresses to values, `U` is an address, `mem.extraR` an address
and a size; a `DenseMatrix` is the address of its data and its number of rows.  The arrays of a `BandDenseMatrix`, which are written once in
increasing order, are functions of the index.  The template parameters are ordinary arguments.  What does not compile and a too
small `extraR` are `none`.
-/
namespace Verif.CtOp

open Verif.Dense

variable {K : Type}

/-- `BandDenseMatrix<NPART>` (fem_memory.h:145-155): the parts, the starts of their rows and columns. -/
structure Bnd where
  nparts : Nat
  data : Nat → Nat × Nat
  stRow : Nat → Nat
  stCol : Nat → Nat

/-- The type of the result of `apply`: `DenseMatrix` or `BandDenseMatrix<NPART>`. (operators.h:140, 279; operators.inl:481) -/
inductive Mx
  | dense (d : Nat × Nat)
  | band (b : Bnd)

/-- fem_memory.h:180-191 `convToBendMx`. -/
def conv (m : Mx) (dim nf : Nat) : Bnd :=
  match m with
  | .dense d => ⟨1, fun _ => d, fun j => if j = 0 then 0 else dim, fun j => if j = 0 then 0 else nf⟩
  | .band b => b

/-- `Operator<OP, FEMTYPE>` for a fixed number of points and tetrahedrons: `Dim`, `Nfa`, what `memoryRequirements` returns in `Usz`
and `extraR` (set to zero by all callers before, core.inl:163-165, 191-193), `apply`. (operators.h:127-152) -/
structure Op (K : Type) where
  dim : Nat
  nfa : Nat
  usz : Nat
  exr : Nat
  apply : Nat → Nat → Nat → (Nat → K) → Option ((Nat → K) × Mx)

/-- The operator of a simple type: it writes a dense matrix of `q*dim` rows at `U`.  The function `run` is a parameter (the spaces
themselves are modelled in `Verif.Model.Spaces`). (spaces/poly_1.h:12-41 and the like) -/
def fix (q dim nfa usz exr : Nat) (run : Nat → Nat → Nat → (Nat → K) → (Nat → K)) : Op K where
  dim := dim
  nfa := nfa
  usz := usz
  exr := exr
  apply u ex es m := some (run u ex es m, .dense (u, q * dim))

/-- operators.h:127-155 `Operator<OPERATOR, FemVec<DIM, FEM_TYPE>>`. -/
def vec (d : Nat) (a : Op K) : Op K where
  dim := d * a.dim
  nfa := d * a.nfa
  usz := a.usz
  exr := a.exr
  apply u ex es m :=
    match a.apply u ex es m with
    | some (m', .dense A) =>
      some (m', .band ⟨d, fun _ => A, fun i => if i < d then a.dim * i else d * a.dim,
        fun i => if i < d then a.nfa * i else d * a.nfa⟩)
    | _ => none

/-- operators.h:157-187 `Operator<OPERATOR, FemVecT<DIM, FEM_TYPE>>`; `convToBendMx` gets the dimensions of the vector (line 171), its
last starts are not used. -/
def vecT (d : Nat) (a : Op K) : Op K where
  dim := d * a.dim
  nfa := d * a.nfa
  usz := a.usz
  exr := a.exr
  apply u ex es m :=
    match a.apply u ex es m with
    | none => none
    | some (m', mx) =>
      let A := conv mx (d * a.dim) (d * a.nfa)
      some (m', .band ⟨d * A.nparts, fun j => A.data (j % A.nparts),
        fun j => if j < d * A.nparts then a.dim * (j / A.nparts) + A.stRow (j % A.nparts) else d * a.dim,
        fun j => if j < d * A.nparts then a.nfa * (j / A.nparts) + A.stCol (j % A.nparts) else d * a.nfa⟩)

/-- operators.h:212-233 `Apply::Impl` from type `I` on, with `DIMOFFSET`, `NFAOFFSET`; the part of the result from `PART` on is
returned, its end (operators.h:253-254) is what the offsets have become. -/
def comLoop (ex es : Nat) : List (Op K) → Nat → Nat → Nat → (Nat → K) → Option ((Nat → K) × Bnd)
  | [], _, dOff, nOff, m => some (m, ⟨0, fun _ => (0, 0), fun _ => dOff, fun _ => nOff⟩)
  | a :: as, u, dOff, nOff, m =>
    match a.apply u ex es m with
    | none => none
    | some (m', mx) =>
      let A := conv mx a.dim a.nfa
      match comLoop ex es as (u + a.usz) (dOff + a.dim) (nOff + a.nfa) m' with
      | none => none
      | some (m'', B) =>
        some (m'', ⟨A.nparts + B.nparts,
          fun p => if p < A.nparts then A.data p else B.data (p - A.nparts),
          fun p => if p < A.nparts then dOff + A.stRow p else B.stRow (p - A.nparts),
          fun p => if p < A.nparts then nOff + A.stCol p else B.stCol (p - A.nparts)⟩)

/-- operators.h:189-259 `Operator<OPERATOR, FemCom<Types...>>`; `DimCounter`, `NfaCounter`: operators.inl:44-48, 56-60. -/
def com (as : List (Op K)) : Op K where
  dim := (as.map Op.dim).sum
  nfa := (as.map Op.nfa).sum
  usz := (as.map Op.usz).sum
  exr := as.foldl (fun m b => max m b.exr) 0
  apply u ex es m := (comLoop ex es as u 0 0 m).map fun s => (s.1, .band s.2)

/-- operators.inl:443-452: the parts of one type of the union are copied into the columns `sh ..` of the matrix of `q*gdim` rows at
`u`. -/
def unionCopy (q f gdim nfa u sh : Nat) (B : Bnd) (m : Nat → K) : Nat → K :=
  loop 0 B.nparts (fun p m =>
    let nCol := B.stCol (p + 1) - B.stCol p
    let nRow := B.stRow (p + 1) - B.stRow p
    loop 0 f (fun r m => loop 0 nCol (fun i m => loop 0 q (fun n m => loop 0 nRow (fun k m =>
      wr m (u + ((k + B.stRow p + gdim * n) + q * gdim * (sh + i + B.stCol p + nfa * r)))
        (m ((B.data p).1 + ((k + nRow * n) + (B.data p).2 * (i + nCol * r))))) m) m) m) m) m

/-- operators.inl:427-468 `UnionApplySubset`; the number of basis functions of the operator `IDEN` (line 435), by which the columns are
shifted, is taken to be that of the operator. -/
def unionLoop (q f gdim nfa u ex es : Nat) : List (Op K) → Nat → (Nat → K) → Option (Nat → K)
  | [], _, m => some m
  | a :: as, sh, m =>
    if es < a.usz then none
    else
      match a.apply (ex + (es - a.usz)) ex (es - a.usz) m with
      | none => none
      | some (m', mx) =>
        unionLoop q f gdim nfa u ex es as (sh + a.nfa) (unionCopy q f gdim nfa u sh (conv mx a.dim a.nfa) m')

/-- operators.h:261-284, operators.inl:402-425 (`UnionMemReq`), 470-492 (`UnionOperatorApply`, one type and several): all types have to
have the dimension of the first one; a single type has to return a dense matrix. -/
def union [Zero K] (q f : Nat) (as : List (Op K)) : Op K where
  dim := (as.head?.map Op.dim).getD 0
  nfa := (as.map Op.nfa).sum
  usz := (as.head?.map Op.dim).getD 0 * q * f * (as.map Op.nfa).sum
  exr := as.foldl (fun m b => max m (b.exr + b.usz)) 0
  apply u ex es m :=
    match as with
    | [] => none
    | [a] =>
      match a.apply u ex es m with
      | some (m', .dense A) => some (m', .dense A)
      | _ => none
    | a :: b :: rest =>
      if (b :: rest).all (fun c => c.dim == a.dim) then
        let nfa := ((a :: b :: rest).map Op.nfa).sum
        (unionLoop q f a.dim nfa u ex es (a :: b :: rest) 0 (OpStack.setZero u (q * a.dim * (f * nfa)) m)).map
          fun m' => (m', .dense (u, q * a.dim))
      else none

/-- operators.h:286-311 `OperatorDUDXHelper<NCRD, FEM_TYPE>`: the partial derivative overwrites the gradient `g` it is taken from. -/
def dudx (q f ncrd : Nat) (g : Op K) : Op K where
  dim := g.dim / 3
  nfa := g.nfa
  usz := g.usz
  exr := g.exr
  apply u ex es m :=
    match g.apply u ex es m with
    | some (m', .dense A) =>
      let dim := g.dim / 3
      some (loop 0 f (fun r m => loop 0 g.nfa (fun i m => loop 0 q (fun n m => loop 0 dim (fun k m =>
        wr m (A.1 + ((k + n * dim) + q * dim * (i + g.nfa * r)))
          (m (A.1 + ((ncrd + 3 * k + n * g.dim) + A.2 * (i + g.nfa * r))))) m) m) m) m', .dense (A.1, q * dim))
    | _ => none

/-- operators.h:320-353 `Operator<DIV, FemVec<3, FEM_TYPE>>` from the gradient `g` of the type, which must have three rows (line
352). -/
def div (q f : Nat) (g : Op K) : Op K where
  dim := 1
  nfa := 3 * g.nfa
  usz := g.usz
  exr := g.exr + g.usz
  apply u ex es m :=
    let sz := 3 * q * f * g.nfa
    if g.dim = 3 ∧ sz ≤ es then
      match g.apply (ex + (es - sz)) ex (es - sz) m with
      | some (m', .dense A) =>
        some (loop 0 f (fun r m => loop 0 g.nfa (fun i m => loop 0 q (fun n m => loop 0 3 (fun k m =>
          wr m (u + (n + q * (i + g.nfa * (k + 3 * r)))) (m (A.1 + ((k + 3 * n) + A.2 * (i + g.nfa * r))))) m) m) m) m',
          .dense (u, q))
      | _ => none
    else none

/-- operators.h:390-407: one of the six loops over the basis functions. -/
def curlRow [Neg K] (q nfa u : Nat) (v : Nat × Nat) (r n : Nat) (i j l : Nat) (neg : Bool) (m : Nat → K) : Nat → K :=
  loop 0 nfa (fun d m =>
    let x := m (v.1 + ((j + n * 3) + v.2 * (d + nfa * r)))
    wr m (u + ((i + 3 * n) + 3 * q * (d + nfa * (l + 3 * r)))) (if neg then -x else x)) m

/-- operators.h:355-416 `Operator<CURL, FemVec<3, FEM_TYPE>>`. -/
def curl [Zero K] [Neg K] (q f : Nat) (g : Op K) : Op K where
  dim := 3
  nfa := 3 * g.nfa
  usz := g.usz * 3
  exr := g.exr + g.usz
  apply u ex es m :=
    let sz := 3 * q * f * g.nfa
    if g.dim = 3 ∧ sz ≤ es then
      match g.apply (ex + (es - sz)) ex (es - sz) m with
      | some (m', .dense A) =>
        some (loop 0 f (fun r m => loop 0 q (fun n m =>
            let m := curlRow q g.nfa u A r n 1 2 0 false m
            let m := curlRow q g.nfa u A r n 2 1 0 true m
            let m := curlRow q g.nfa u A r n 0 2 1 true m
            let m := curlRow q g.nfa u A r n 2 0 1 false m
            let m := curlRow q g.nfa u A r n 0 1 2 false m
            curlRow q g.nfa u A r n 1 0 2 true m) m) (OpStack.setZero u (3 * q * 3 * g.nfa * f) m'),
          .dense (u, 3 * q))
      | _ => none
    else none

/-- core.inl:285, 291, 297-298 with `CompV` of core.inl:13-26: both operators, the second one only if its type is another one; `u`, `v` are
`mem.U`, `mem.V`. -/
def applyTwo (same : Bool) (opU opV : Op K) (u v ex es : Nat) (m : Nat → K) : Option ((Nat → K) × Bnd × Bnd) :=
  match opU.apply u ex es m with
  | none => none
  | some (m1, U) =>
    if same then some (m1, conv U opU.dim opU.nfa, conv U opV.dim opV.nfa)
    else
      match opV.apply v ex es m1 with
      | none => none
      | some (m2, V) => some (m2, conv U opU.dim opU.nfa, conv V opV.dim opV.nfa)

end Verif.CtOp
