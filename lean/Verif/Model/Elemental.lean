import Verif.Model.Fused

/-!
Model of the elemental matrices: the block storage of operators of vector and composed spaces (`fem_memory.h:140-191`),
the product with the coefficient tensor (`diff_tensor.h`), the convolution with the normal (`operations/core.h:169-195`),
the elemental matrix `internalFem3Dtet` and the evaluation `internalFem3DApply` (`operations/core.inl`).

Scalars are an arbitrary commutative ring (rounding is not modelled), sizes and indices are natural numbers (no overflow),
memory is a function from positions to values, one function for every array of `AniMemory`.  A pointer into the middle of
an array is an offset.  An exception is `none`.  The tensor function of the user is a function of the point and the number
of the tetrahedron; it returns the type of the tensor and the contents of the memory handed to it.
-/
namespace Verif.Elemental

open Verif.Dense

variable {K : Type} [CommRing K]

/-- diff_tensor.h:16-22 `TensorType`. -/
inductive TT where
  | null
  | scalar
  | symmetric
  | general
deriving DecidableEq, Repr

/-- The two types with a full matrix in memory (`case TENSOR_GENERAL: case TENSOR_SYMMETRIC:`).
(diff_tensor.h:292-293, 504) -/
def TT.full : TT → Bool
  | .null => false
  | .scalar => false
  | .symmetric => true
  | .general => true

/-- fem_memory.h:157-170 `BandDenseMatrixX`: `data d` is the memory `data[d].data`, `nRow d` is `data[d].nRow`; part `d`
occupies rows `stRow d .. stRow (d+1)` and columns `stCol d .. stCol (d+1)`. -/
structure Band (K : Type) where
  nparts : Nat
  data : Nat → Nat → K
  nRow : Nat → Nat
  stRow : Nat → Nat
  stCol : Nat → Nat

/-- fem_memory.h:180-187 `convToBendMx` of a dense matrix with `nRow` rows. -/
def convToBand (A : Nat → K) (nRow dim nf : Nat) : Band K where
  nparts := 1
  data _ := A
  nRow _ := nRow
  stRow d := if d = 0 then 0 else dim
  stCol d := if d = 0 then 0 else nf

/-- The tensor function of the user, `TensorType(const Coord& X, Scalar* D, TensorDims, void*, int iTet)`
(diff_tensor.h:31): type and contents of `D` afterwards. -/
abbrev UserD (K : Type) := K × K × K → Nat → TT × (Nat → K)

/-- diff_tensor.h:77-100, the wrapper `operator()` with `Ddims = {jd, id}` and `D` pointing at offset `off` of the memory
`D`: a full matrix is transposed into the memory, a symmetric one is copied, a scalar occupies one position. -/
def dfunc (f : UserD K) (jd id : Nat) (x : K × K × K) (iTet off : Nat) (D : Nat → K) : TT × (Nat → K) :=
  let t := f x iTet
  (t.1, match t.1 with
    | .general => loop 0 id (fun i D => loop 0 jd (fun j D => wr D (off + (i + id * j)) (t.2 (j + jd * i))) D) D
    | .symmetric => loop 0 (jd * id) (fun p D => wr D (off + p) (t.2 p)) D
    | .null => D
    | .scalar => wr D (off + 0) (t.2 0))

/-- The point `n` of the tetrahedron `r`, e.g. diff_tensor.h:500: `{XYG[3*(n+r*q)], ...}`. -/
def point (xyg : Nat → K) (q n r : Nat) : K × K × K :=
  (xyg (3 * (n + r * q)), xyg (3 * (n + r * q) + 1), xyg (3 * (n + r * q) + 2))

/-- What `DU_comp_in` (diff_tensor.h:255-273) carries besides the tensor function: `U`, the dimensions, the weights, the
measures and the points. -/
structure Args (K : Type) where
  U : Band K
  idim : Nat
  jdim : Nat
  q : Nat
  f : Nat
  nfa : Nat
  w : Nat → K
  mes : Nat → K
  xyg : Nat → K

/-- The product with a full tensor on tetrahedron `r`, `locD n` being the memory of the tensor at point `n`; e.g.
diff_tensor.h:295-310 (the body of the loop over `r`), 467-482, 532-548, 575-593, 686-702, 796-812, 914-930. -/
def mulTet (a : Args K) (r : Nat) (locD : Nat → Nat → K) (DU : Nat → K) : Nat → K :=
  loop 0 a.U.nparts (fun d DU => loop (a.U.stCol d) (a.U.stCol (d + 1)) (fun i DU => loop 0 a.q (fun n DU =>
    loop 0 a.jdim (fun k DU =>
      wr DU (k + a.jdim * (n + a.q * (i + a.nfa * r)))
        (a.w n * a.mes r * loop (a.U.stRow d) (a.U.stRow (d + 1)) (fun j s => s + locD n (j + a.idim * k) *
          a.U.data d ((j - a.U.stRow d) + n * (a.U.stRow (d + 1) - a.U.stRow d) +
            a.U.nRow d * ((i - a.U.stCol d) + (a.U.stCol (d + 1) - a.U.stCol d) * r))) 0)) DU) DU) DU) DU

/-- The product with a scalar or identity tensor on tetrahedron `r`, `wg n * vol` being the factor at point `n`: only the
rows of the part are written; e.g. diff_tensor.h:319-331, 348-360, 606-620, 633-645, 723-735. -/
def diagTet (a : Args K) (r : Nat) (wg : Nat → K) (vol : K) (DU : Nat → K) : Nat → K :=
  loop 0 a.U.nparts (fun d DU => loop (a.U.stCol d) (a.U.stCol (d + 1)) (fun i DU => loop 0 a.q (fun n DU =>
    loop (a.U.stRow d) (a.U.stRow (d + 1)) (fun k DU =>
      wr DU (k + a.jdim * (n + a.q * (i + a.nfa * r)))
        (wg n * vol * a.U.data d ((k - a.U.stRow d) + n * (a.U.stRow (d + 1) - a.U.stRow d) +
            a.U.nRow d * ((i - a.U.stCol d) + (a.U.stCol (d + 1) - a.U.stCol d) * r)))) DU) DU) DU) DU

/-- The copy of row 0 into the rows `idim .. jdim-1` on tetrahedron `r`, "nfa=1 => FEM_P0"; e.g. diff_tensor.h:335-337,
622-624. -/
def spreadTet (a : Args K) (r : Nat) (DU : Nat → K) : Nat → K :=
  loop 0 a.q (fun n DU => loop a.idim a.jdim (fun k DU =>
    wr DU (k + a.jdim * (n + a.q * (0 + a.nfa * r))) (DU (0 + a.jdim * (n + a.q * (0 + a.nfa * r))))) DU) DU

/-- `if (jdim != idim)` the copies for all tetrahedrons; e.g. diff_tensor.h:333-338. -/
def spread (a : Args K) (DU : Nat → K) : Nat → K :=
  if a.jdim ≠ a.idim then loop 0 a.f (spreadTet a) DU else DU

/-- The condition under which the scalar and identity tensors throw, e.g. diff_tensor.h:315. -/
def clash (a : Args K) : Bool := decide (a.jdim ≠ a.idim ∧ (a.nfa ≠ 1 ∨ a.idim ≠ 1))

/-- The traits of the tensor (`IsConstant`, `TensorSparsity`) which select an overload of `applyDU`.
(diff_tensor.h:24-40, 279, 373, 409, 452, 488, 553) -/
inductive Traits where
  | constAny
  | constNull
  | constScalar
  | constFull
  | perPoint
  | perTetra
  | perSelection
  | full
  | scalar
  | null
deriving DecidableEq, Repr

/-- The evaluation of the tensor at all points of all tetrahedrons, memory block `idim*jdim*(n + q*r)`: diff_tensor.h:
786-793, 830-837. -/
def fillAll (f : UserD K) (a : Args K) (D : Nat → K) : Nat → K :=
  loop 0 a.f (fun r D => loop 0 a.q (fun n D =>
    (dfunc f a.jdim a.idim (point a.xyg a.q n r) r (a.idim * a.jdim * (n + a.q * r)) D).2) D) D

/-- The evaluation at the points of tetrahedron `r` after the first one, memory block `idim*jdim*n`: diff_tensor.h:570-574,
601-605. -/
def fillTet (f : UserD K) (a : Args K) (r : Nat) (D : Nat → K) : Nat → K :=
  loop 1 a.q (fun n D =>
    (dfunc f a.jdim a.idim (point a.xyg a.q n r) r (a.idim * a.jdim * n) D).2) D

/-- The evaluation at all points but the first one, memory block `idim*jdim*(n + q*r)`, the number of the tetrahedron handed
to the user being `num r`: diff_tensor.h:673-683 with `num r = 0` (line 682) and 711-721 with `num r = r` (line 720). -/
def fillSel (f : UserD K) (a : Args K) (num : Nat → Nat) (D : Nat → K) : Nat → K :=
  let D := loop 1 a.q (fun n D =>
    (dfunc f a.jdim a.idim (point a.xyg a.q n 0) 0 (a.idim * a.jdim * (n + a.q * 0)) D).2) D
  loop 1 a.f (fun r D => loop 0 a.q (fun n D =>
    (dfunc f a.jdim a.idim (point a.xyg a.q n r) (num r) (a.idim * a.jdim * (n + a.q * r)) D).2) D) D

/-- diff_tensor.h:511-514 and 521-524: the expansion of a scalar `s` into a matrix at offset `off`. -/
def expand (a : Args K) (off : Nat) (s : K) (D : Nat → K) : Nat → K :=
  let D := loop 0 (a.idim * a.jdim) (fun p D => wr D (off + p) 0) D
  loop 0 a.jdim (fun i D => wr D (off + (i + i * (if a.jdim = a.idim then a.idim else 0))) s) D

/-- diff_tensor.h:500-527: one point of the overload `PerPoint`. -/
def fillPoint (f : UserD K) (a : Args K) (r n : Nat) (D : Nat → K) : Nat → K :=
  let off := a.idim * a.jdim * (n + a.q * r)
  let t := dfunc f a.jdim a.idim (point a.xyg a.q n r) r off D
  match t.1 with
  | .general => t.2
  | .symmetric => t.2
  | .scalar => expand a off (t.2 (off + 0)) t.2
  | .null => expand a off 1 t.2

/-- diff_tensor.h:507, 518: some point of the overload `PerPoint` throws. -/
def clashPoint (f : UserD K) (a : Args K) : Bool :=
  (List.range a.f).any fun r => (List.range a.q).any fun n => !(f (point a.xyg a.q n r) r).1.full && clash a

/-- diff_tensor.h:563-654: one tetrahedron of the overload `PerTetra`; the state is the memory `DIFF` and `DU`. -/
def stepTetra (f : UserD K) (a : Args K) (r : Nat) (s : (Nat → K) × (Nat → K)) : (Nat → K) × (Nat → K) :=
  let t := dfunc f a.jdim a.idim (point a.xyg a.q 0 r) r 0 s.1
  match t.1 with
  | .null =>
    let DU := diagTet a r a.w (a.mes r) s.2
    (t.2, if a.jdim ≠ a.idim then spreadTet a r DU else DU)
  | .scalar =>
    let D := fillTet f a r t.2
    let DU := diagTet a r (fun n => D (0 + a.idim * a.jdim * n) * a.w n) (a.mes r) s.2
    (D, if a.jdim ≠ a.idim then spreadTet a r DU else DU)
  | _ =>
    let D := fillTet f a r t.2
    (D, mulTet a r (fun n p => D (a.idim * a.jdim * n + p)) s.2)

/-- diff_tensor.h:598, 630: some tetrahedron of the overload `PerTetra` throws. -/
def clashTetra (f : UserD K) (a : Args K) : Bool :=
  (List.range a.f).any fun r => !(f (point a.xyg a.q 0 r) r).1.full && clash a

/-- `internal_Dfunc::applyDU`, the overloads for one-point tensors, diff_tensor.h:279-897: constant with any type (279-372),
constant identity (373-408), constant scalar (409-451), constant full (452-486), per point (488-552), per tetrahedron
(553-656), per selection (657-775), full (776-816), scalar (817-861), identity (862-897).  The assertions about the returned
type are not modelled.  The result is the memory `DU`, `none` when the function throws. -/
def applyDU (tr : Traits) (f : UserD K) (a : Args K) (D DU : Nat → K) : Option (Nat → K) :=
  match tr with
  | .constAny =>
    let t := dfunc f a.jdim a.idim (0, 0, 0) 0 0 D
    match t.1 with
    | .null => if clash a then none else
        some (spread a (loop 0 a.f (fun r DU => diagTet a r a.w (a.mes r) DU) DU))
    | .scalar => if clash a then none else
        some (spread a (loop 0 a.f (fun r DU => diagTet a r a.w (t.2 0 * a.mes r) DU) DU))
    | _ => some (loop 0 a.f (fun r DU => mulTet a r (fun _ p => t.2 p) DU) DU)
  | .constNull => if clash a then none else
      some (spread a (loop 0 a.f (fun r DU => diagTet a r a.w (a.mes r) DU) DU))
  | .constScalar => if clash a then none else
      let t := dfunc f a.jdim a.idim (0, 0, 0) 0 0 D
      some (spread a (loop 0 a.f (fun r DU => diagTet a r a.w (t.2 0 * a.mes r) DU) DU))
  | .constFull =>
    let t := dfunc f a.jdim a.idim (0, 0, 0) 0 0 D
    some (loop 0 a.f (fun r DU => mulTet a r (fun _ p => t.2 p) DU) DU)
  | .perPoint => if clashPoint f a then none else
      let D := loop 0 a.f (fun r D => loop 0 a.q (fun n D => fillPoint f a r n D) D) D
      some (loop 0 a.f (fun r DU => mulTet a r (fun n p => D (a.idim * a.jdim * (n + a.q * r) + p)) DU) DU)
  | .perTetra => if clashTetra f a then none else
      some (loop 0 a.f (stepTetra f a) (D, DU)).2
  | .perSelection =>
    let t := dfunc f a.jdim a.idim (point a.xyg a.q 0 0) 0 0 D
    match t.1 with
    | .null => if clash a then none else
        some (spread a (loop 0 a.f (fun r DU => diagTet a r a.w (a.mes r) DU) DU))
    | .scalar => if clash a then none else
        let D := fillSel f a (fun r => r) t.2
        some (spread a (loop 0 a.f (fun r DU =>
          diagTet a r (fun n => D (a.idim * a.jdim * (n + a.q * r)) * a.w n) (a.mes r) DU) DU))
    | _ =>
        let D := fillSel f a (fun _ => 0) t.2
        some (loop 0 a.f (fun r DU => mulTet a r (fun n p => D (a.idim * a.jdim * (n + a.q * r) + p)) DU) DU)
  | .full =>
    let D := fillAll f a D
    some (loop 0 a.f (fun r DU => mulTet a r (fun n p => D (a.idim * a.jdim * (n + a.q * r) + p)) DU) DU)
  | .scalar => if clash a then none else
      let D := fillAll f a D
      some (spread a (loop 0 a.f (fun r DU =>
        diagTet a r (fun n => D (a.idim * a.jdim * (n + a.q * r)) * a.w n) (a.mes r) DU) DU))
  | .null => if clash a then none else
      some (spread a (loop 0 a.f (fun r DU => diagTet a r a.w (a.mes r) DU) DU))

/-- diff_tensor.h:116-138, the wrapper of a tensor function for the whole selection: `t` is what the user function returned
and left in `DIFF`; a full tensor is transposed block by block. -/
def dfuncFusive (t : TT × (Nat → K)) (a : Args K) : Nat → K :=
  match t.1 with
  | .general =>
    loop 0 a.f (fun r D => loop 0 a.q (fun n D =>
      let off := a.jdim * a.idim * (n + a.q * r)
      let lmem : Nat → K := fun p => D (off + p)
      loop 0 a.idim (fun i D => loop 0 a.jdim (fun j D => wr D (off + i + a.idim * j) (lmem (j + a.jdim * i))) D) D) D) t.2
  | _ => t.2

/-- diff_tensor.h:900-992: the overload for a tensor function of the whole selection; `const` is `IsConstant`. -/
def applyDUFusive (const : Bool) (t : TT × (Nat → K)) (a : Args K) (DU : Nat → K) : Option (Nat → K) :=
  let D := dfuncFusive t a
  let off := fun n r => if const then 0 else a.idim * a.jdim * (n + a.q * r)
  match t.1 with
  | .null => if clash a then none else
      some (spread a (loop 0 a.f (fun r DU => diagTet a r a.w (a.mes r) DU) DU))
  | .scalar => if clash a then none else
      some (spread a (loop 0 a.f (fun r DU => diagTet a r (fun n => D (off n r) * a.w n) (a.mes r) DU) DU))
  | _ => some (loop 0 a.f (fun r DU => mulTet a r (fun n p => D (off n r + p)) DU) DU)

/-- core.h:176-195 `DotWithNormalHelper<true>::ProcessNormal` for a matrix of `nRow` rows and `nCol` columns: in place, a
third of the rows remain. -/
def processNormal (nRow nCol q f : Nat) (nrm : Nat → K) (DU : Nat → K) : Nat → K :=
  let jdim := nRow / q / 3
  let nfA := nCol / f
  loop 0 f (fun r DU => loop 0 nfA (fun i DU => loop 0 q (fun n DU => loop 0 jdim (fun k DU =>
    wr DU (k + jdim * n + jdim * q * (i + nfA * r))
      (DU (0 + 3 * (k + jdim * n) + nRow * (i + nfA * r)) * nrm (3 * r) +
       DU (1 + 3 * (k + jdim * n) + nRow * (i + nfA * r)) * nrm (3 * r + 1) +
       DU (2 + 3 * (k + jdim * n) + nRow * (i + nfA * r)) * nrm (3 * r + 2))) DU) DU) DU) DU

/-- The effect on a memory of a function which gets the pointer `data + off`. (e.g. operations/core.inl:389-399) -/
def within (off : Nat) (g : (Nat → K) → (Nat → K)) (m : Nat → K) : Nat → K :=
  fun p => if p < off then m p else g (fun p => m (off + p)) (p - off)

/-- State of the loop over the parts in core.inl:316-337: `stDr`, `stAr`, `DIFF`, `extraR`. -/
structure PartState (K : Type) where
  stDr : Nat
  stAr : Nat
  diff : Nat → K
  extra : Nat → K

/-- core.inl:319-337 (447-464 of the run-time version): one part `db` of the test operator; `V` is the test operator. -/
def partStep (V : Band K) (dimB nfA q f : Nat) (DU : Nat → K) (db : Nat) (s : PartState K) : PartState K :=
  let ldim := V.stRow (db + 1) - V.stRow db
  let nrow := q * ldim
  let ncol := nfA * f
  let diff := loop 0 ncol (fun j D => loop 0 q (fun n D => loop (V.stRow db) (V.stRow (db + 1)) (fun i D =>
    wr D (s.stDr + ((i - V.stRow db + ldim * n) + nrow * j)) (DU (i + dimB * (n + q * j)))) D) D) s.diff
  let lnfb := V.stCol (db + 1) - V.stCol db
  { stDr := s.stDr + nrow * ncol
    stAr := s.stAr + lnfb * nfA * f
    diff := diff
    extra := within s.stAr (Fused.atMulB f nrow (V.data db) lnfb (fun p => diff (s.stDr + p)) nfA) s.extra }

/-- The offset `Ar[db].data` remembered in core.inl:334-335: the value of `stAr` before the part `db`. -/
def stAr (V : Band K) (nfA f : Nat) (db : Nat) : Nat :=
  loop 0 db (fun d s => s + (V.stCol (d + 1) - V.stCol d) * nfA * f) 0

/-- core.inl:313-342 (440-469 of the run-time version): the product with the transposed test operator. -/
def mulV (V : Band K) (dimB nfA nfB q f : Nat) (DU DIFF extraR A : Nat → K) : Nat → K :=
  if V.nparts = 1 then Fused.atMulB f (q * dimB) (V.data 0) nfB DU nfA A
  else
    let s := loop 0 V.nparts (partStep V dimB nfA q f DU) ⟨0, 0, DIFF, extraR⟩
    loop 0 (nfA * f) (fun j A => loop 0 V.nparts (fun db A => loop (V.stCol db) (V.stCol (db + 1)) (fun i A =>
      wr A (i + nfB * j)
        (s.extra (stAr V nfA f db + ((i - V.stCol db) + (V.stCol (db + 1) - V.stCol db) * j)))) A) A) A

/-- core.inl:301, 429-430: `DU` is filled with zeros when the trial operator has several parts. -/
def zeroDU (U : Band K) (size : Nat) (DU : Nat → K) : Nat → K :=
  if U.nparts > 1 then loop 0 size (fun p DU => wr DU p 0) DU else DU

/-- core.inl:277-367 and 406-475 `internalFem3Dtet`: the memory `A` afterwards.  `U`, `V` are the operators applied to the
basis functions; `nrm` is `some` of the normals in the version with the convolution with the normal; `apply` is the overload
of `applyDU` bound to the tensor function and the memory `DIFF`. -/
def fem3Dtet (apply : Args K → (Nat → K) → Option (Nat → K)) (U V : Band K) (dimA dimB nfA nfB q f : Nat)
    (w mes xyg : Nat → K) (nrm : Option (Nat → K)) (DU DIFF extraR A : Nat → K) : Option (Nat → K) :=
  let nD := if nrm.isSome then 3 else 1
  let a : Args K := ⟨U, dimA, dimB * nD, q, f, nfA, w, mes, xyg⟩
  (apply a (zeroDU U (q * f * dimB * nfA * nD) DU)).map fun DU =>
    let DU := match nrm with
      | none => DU
      | some nr => processNormal (dimB * nD * q) (nfA * f) q f nr DU
    mulV V dimB nfA nfB q f DU DIFF extraR A

/-- core.inl:369-404 and 477-518 `internalFem3DApply` without tensor: the memory `opU` afterwards; `U` is the operator,
`extraR` the temporary memory.  For several parts and one point the temporary memory is the result itself. -/
def fem3DApply (U : Band K) (dim nf q f : Nat) (dofs : Nat → K) (extraR opU : Nat → K) : Nat → K :=
  if U.nparts = 1 then Fused.aMulB f nf (U.data 0) (dim * q) dofs 1 opU
  else
    let tmp := loop 0 U.nparts (fun db T => loop 0 f (fun r T =>
      let vmRow := U.stRow (db + 1) - U.stRow db
      let vmCol := (U.stCol (db + 1) - U.stCol db) / f
      within (r * dim * q + U.stRow db * q)
        (Fused.aMulB f vmCol (fun p => U.data db (q * vmRow * vmCol * r + p)) (q * vmRow)
          (fun p => dofs (r * nf + U.stCol db + p)) 1) T) T) (if q ≤ 1 then opU else extraR)
    if q > 1 then
      loop 0 q (fun n R => loop 0 U.nparts (fun db R =>
        loop 0 (U.stRow (db + 1) - U.stRow db) (fun k R =>
          wr R (dim * n + U.stRow db + k)
            (tmp (U.stRow db * q + (U.stRow (db + 1) - U.stRow db) * n + k))) R) R) opU
    else tmp

/-- core.inl:520-574 `internalFem3DApply` with a tensor: the values go through `mem.V` (`mv`), are multiplied by the tensor as
a matrix with one column per tetrahedron, and are copied to `opU`.  `weights`: the memory `WG` and `MES`. -/
def fem3DApplyD (apply : Args K → (Nat → K) → Option (Nat → K)) (U : Band K) (dimA nfA ddim q f : Nat)
    (w mes xyg : Nat → K) (nrm : Option (Nat → K)) (dofs : Nat → K) (extraR mv DU opU : Nat → K) : Option (Nat → K) :=
  let nD := if nrm.isSome then 3 else 1
  let v := fem3DApply U dimA nfA q f dofs extraR mv
  let a : Args K := ⟨convToBand v (dimA * q) dimA 1, dimA, ddim, q, f, 1, w, mes, xyg⟩
  (apply a DU).map fun DU =>
    let DU := match nrm with
      | none => DU
      | some nr => processNormal (ddim * q) (1 * f) q f nr DU
    loop 0 (ddim * q * f / nD) (fun p R => wr R p (DU p)) opU

end Verif.Elemental
