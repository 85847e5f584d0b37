import Verif.Model.Spaces
import Verif.Model.DofMap
import Verif.Model.LU

/-!
Model of the interpolation on spaces composed from others: `interpolateOnDOF` of `VectorFemSpace`, `ComplexFemSpace` and
`UnionFemSpace`, the set-up of the union (`setupInterpolation`) and `interpolateByDOFs` (`anifem++/fem/fem_space.cpp`), and the
same for the compile-time spaces (`anifem++/fem/operators.h`, `operators.inl`).

A function to be interpolated yields at every point an array of numbers: `fusion` functions of `dim` components, one after
another.  The arrays `udofs[0], udofs[1], ...` are `u 0`, `u 1`, ...  Work memory, error codes of the function and user data are
not modelled.  Scalars are an ordered field (no rounding).
-/
namespace Verif.Interp

open Verif.Dense Verif.DofMap

/-- A function given to the interpolation: the numbers written for a point. (fem_space.h:78 `EvalFunc`, operators.h:553) -/
abbrev Fn (K : Type) := (Nat → K) → Nat → K
/-- The nodes of a tetrahedron. (geometry.h:144 `Tetra`) -/
abbrev Tet (K : Type) := Nat → Nat → K

/-- The virtual functions of a space used by the interpolation (fem_space.h:98-128): number of components, number of d.o.f. on
a tetrahedron, the values of `applyIDEN` (component `k` of function `i` at the point `x`), `interpolateOnDOF`: tetrahedron,
function, number of the d.o.f., `fusion`, arrays. -/
structure Space (K : Type) where
  dim : Nat
  nfa : Nat
  val : Tet K → (Nat → K) → Nat → Nat → K
  interp : Tet K → Fn K → Nat → Nat → (Nat → Nat → K) → Nat → Nat → K

variable {K : Type} [Field K]

/-- spaces/common.h:83-87 `GenSpace::interpolateOnDOF`: `Dof::interpolate` writes the d.o.f. number `idof` of the `fusion`
functions (poly_1.h:147-148 and so on); `dof` is the number written (`Verif.Spaces.p1Dof` and so on). -/
def leaf (dim nfa : Nat) (val : Tet K → (Nat → K) → Nat → Nat → K) (dof : Tet K → Fn K → Nat → Nat → K) : Space K where
  dim := dim
  nfa := nfa
  val := val
  interp T f idof fusion u := fun r i => if r < fusion ∧ i = idof then dof T f idof r else u r i

section Basic
open Verif.Spaces

/-- poly_0.h:90-106. -/
def p0S (rule : List (QPoint K)) (val : Tet K → (Nat → K) → Nat → Nat → K) : Space K := leaf 1 1 val fun T f _ r => p0Dof rule T f r
/-- poly_1.h:140-149. -/
def p1S (val : Tet K → (Nat → K) → Nat → Nat → K) : Space K := leaf 1 4 val fun T f i r => p1Dof T f i r
/-- poly_2.h:109-132. -/
def p2S (val : Tet K → (Nat → K) → Nat → Nat → K) : Space K := leaf 1 10 val fun T f i r => p2Dof T f i r
/-- poly_3.h:127-161. -/
def p3S (val : Tet K → (Nat → K) → Nat → Nat → K) : Space K := leaf 1 20 val fun T f i r => p3Dof T f i r
/-- bubble_2.h:101-113. -/
def b2S (val : Tet K → (Nat → K) → Nat → Nat → K) : Space K := leaf 1 6 val fun T f i r => b2Dof T f i r
/-- bubble_4.h:94-107. -/
def b4S (val : Tet K → (Nat → K) → Nat → Nat → K) : Space K := leaf 1 1 val fun T f _ r => b4Dof T f r
/-- crouzeix_raviart_1.h:94-110. -/
def cr1S (rule : List (QPoint K)) (val : Tet K → (Nat → K) → Nat → Nat → K) : Space K :=
  leaf 1 4 val fun T f i r => cr1Dof rule T f i r
/-- nedelec_0.h:190-216. -/
def nd0S (sqrt : K → K) (rule : List (QPoint K)) (val : Tet K → (Nat → K) → Nat → Nat → K) : Space K :=
  leaf 3 6 val fun T f i r => nd0Dof sqrt rule T f i r
/-- raviant_thomas_0.h:206-223. -/
def rt0S [LinearOrder K] (sqrt : K → K) (rule : List (QPoint K)) (val : Tet K → (Nat → K) → Nat → Nat → K) : Space K :=
  leaf 3 4 val fun T f i r => rt0Dof sqrt rule T f i r

end Basic

/-- fem_space.cpp:434-435, 726-727: the arrays `udofs[r]`, `r < fusion`, are moved by `sh`. -/
def view (fusion sh : Nat) (u : Nat → Nat → K) : Nat → Nat → K := fun r i => if r < fusion then u r (sh + i) else u r i

/-- fem_space.cpp:447-448, 739-740: the arrays are moved back; `v` are the arrays seen through `view`, `u` the memory before. -/
def unview (fusion sh : Nat) (u v : Nat → Nat → K) : Nat → Nat → K :=
  fun r i => if r < fusion then (if sh ≤ i then v r (i - sh) else u r i) else v r i

/-- fem_space.cpp:437-444, 729-736, operators.h:553-560, 612-619: the function `narrowing` takes from each of the `fusion`
functions with `gdim` components the components `off .. off + ldim - 1`.  (The array is given by formula: number `k` of
function `r` is at `k + ldim * r`.) -/
def narrow (off ldim gdim : Nat) (f : Fn K) : Fn K := fun X j => f X (off + gdim * (j / ldim) + j % ldim)

/-- fem_space.cpp:427-449 `VectorFemSpace::interpolateOnDOF` and tetdofmap.h:648 (`ComponentID`); operators.h:544-562,
573-591 (`FemVec`, `FemVecT`).  The values are those proved for `vec` in C46 (fem_space.cpp:505-520, operators.h:141-153). -/
def vec (d : Nat) (s : Space K) : Space K where
  dim := d * s.dim
  nfa := d * s.nfa
  val T x i k := if i / s.nfa = k / s.dim then s.val T x (i % s.nfa) (k % s.dim) else 0
  interp T f idof fusion u :=
    let nvar := idof / s.nfa
    let ldof := idof % s.nfa
    unview fusion (nvar * s.nfa) u
      (s.interp T (narrow (nvar * s.dim) s.dim (d * s.dim) f) ldof fusion (view fusion (nvar * s.nfa) u))

/-- tetdofmap.cpp:787-792 `ComplexDofMap::ComponentID`: the variable and the number inside of it. -/
def comp (ns : List Nat) (g : Nat) : Nat × Nat := (ubIdx ns g, g - pre ns (ubIdx ns g))

/-- The values of a product space (fem_space.cpp:829-831 `ComplexFemSpace::applyIDEN`, proved in C46): function `i` belongs to one
of the spaces and has only the components of this space. -/
def prodVal (ss : List (Space K)) (T : Tet K) (x : Nat → K) (i k : Nat) : K :=
  let c := comp (ss.map (·.nfa)) i
  match ss[c.1]? with
  | none => 0
  | some s =>
    let ds := pre (ss.map (·.dim)) c.1
    if ds ≤ k ∧ k < ds + s.dim then s.val T x c.2 (k - ds) else 0

/-- fem_space.cpp:717-741 `ComplexFemSpace::interpolateOnDOF`; the number of components before the variable is summed at lines
723-725. -/
def prod (ss : List (Space K)) : Space K where
  dim := (ss.map (·.dim)).sum
  nfa := (ss.map (·.nfa)).sum
  val := prodVal ss
  interp T f idof fusion u :=
    let c := comp (ss.map (·.nfa)) idof
    match ss[c.1]? with
    | none => u
    | some s =>
      let lshift := idof - c.2
      let dimShift := loop 0 c.1 (fun i d => d + ((ss.map (·.dim)).getD i 0)) 0
      unview fusion lshift u
        (s.interp T (narrow dimShift s.dim (ss.map (·.dim)).sum f) c.2 fusion (view fusion lshift u))

/-- operators.h:600-632, `Dof<FemCom>::Choose::interpolate`: the recursion over the types with `DIM_SHIFT` and `NFA_SHIFT`; the
arrays are moved at lines 608-610.  `none`: the exception of line 629. -/
def choose (gdim : Nat) (T : Tet K) (f : Fn K) (idof fusion : Nat) (u : Nat → Nat → K) :
    List (Space K) → Nat → Nat → Option (Nat → Nat → K)
  | [], _, _ => none
  | s :: ss, dimShift, nfaShift =>
    if idof - nfaShift < s.nfa then
      some (unview fusion nfaShift u
        (s.interp T (narrow dimShift s.dim gdim f) (idof - nfaShift) fusion (view fusion nfaShift u)))
    else choose gdim T f idof fusion u ss (dimShift + s.dim) (nfaShift + s.nfa)

/-- The values of a union (fem_space.cpp:1175-1177 `UnionFemSpace::applyIDEN`, proved in C46; operators.inl:428-457); the functions of
all spaces, each with all components. -/
def unionVal (ss : List (Space K)) (T : Tet K) (x : Nat → K) (i k : Nat) : K :=
  let c := comp (ss.map (·.nfa)) i
  match ss[c.1]? with
  | none => 0
  | some s => s.val T x c.2 k

/-- fem_space.cpp:986-1003, operators.h:700-710: `nf` numbers `j` with the nonzero weights `W[idof + nf * j]` are summed up; the
functional `j` is computed by its own space in the arrays `tmp_udofs`, zero before (lines 998-999). -/
def unionSum [DecidableEq K] (ss : List (Space K)) (W : Nat → K) (T : Tet K) (f : Fn K) (idof fusion : Nat) : Nat → K :=
  let nf := (ss.map (·.nfa)).sum
  loop 0 nf (fun j acc =>
    let w := W (idof + nf * j)
    if w = 0 then acc
    else
      let c := comp (ss.map (·.nfa)) j
      match ss[c.1]? with
      | none => acc
      | some s =>
        let t := s.interp T f c.2 fusion (fun _ _ => 0)
        fun r => if r < fusion then acc r + w * t r c.2 else acc r) (fun _ => 0)

/-- fem_space.cpp:965-1006 `UnionFemSpace::interpolateOnDOF` with the weights `W`, operators.h:690-713; lines 971-979: nothing is done when all
weights vanish (then `max_nfi` stays zero). -/
def unionInterp [DecidableEq K] (ss : List (Space K)) (W : Nat → K) (T : Tet K) (f : Fn K) (idof fusion : Nat)
    (u : Nat → Nat → K) : Nat → Nat → K :=
  let nf := (ss.map (·.nfa)).sum
  if ∀ j, j < nf → W (idof + nf * j) = 0 then u
  else fun r i => if r < fusion ∧ i = idof then unionSum ss W T f idof fusion r else u r i

/-- The union of spaces with the weights `W` (`m_orth_coefs`): fem_space.cpp:908-1017. -/
def union [DecidableEq K] (ss : List (Space K)) (W : Nat → K) : Space K where
  dim := (ss.map (·.dim)).headD 0
  nfa := (ss.map (·.nfa)).sum
  val := unionVal ss
  interp := unionInterp ss W

/-- fem_space.cpp:1040-1042: the tetrahedron on which the weights are computed. -/
def refTet : Tet K := fun a k => if a = k + 1 then 1 else 0

/-- fem_space.cpp:1087-1100 (`eval_basis_functions`) and 1117-1121 (`phi_f`): all functions of the space, one after another. -/
def phiF (s : Space K) : Fn K := fun X j => s.val refTet X (j / s.dim) (j % s.dim)

/-- fem_space.cpp:1116-1126: the rows of the space `si` (the first at `nfshi`) and the columns of the space `sj` (the first at
`nfshj`) of the matrix `B`; the values pass through the arrays `udofs`. -/
def gramBlock (nf nfshi nfshj : Nat) (si sj : Space K) (B : Nat → K) (u : Nat → Nat → K) : (Nat → K) × (Nat → Nat → K) :=
  loop 0 si.nfa (fun k st =>
    let u := si.interp refTet (phiF sj) k sj.nfa st.2
    (loop 0 sj.nfa (fun l B => wr B (nfshi + k + nf * (nfshj + l)) (u l k)) st.1, u)) (B, u)

/-- fem_space.cpp:1111-1128: the loop over `sj` for the space number `i`. -/
def gramRow (nf nfshi i : Nat) (si : Space K) : List (Space K) → Nat → Nat → (Nat → K) × (Nat → Nat → K) →
    (Nat → K) × (Nat → Nat → K)
  | [], _, _, st => st
  | sj :: rest, j, nfshj, st =>
    if j = i then gramRow nf nfshi i si rest (j + 1) (nfshj + si.nfa) st
    else gramRow nf nfshi i si rest (j + 1) (nfshj + sj.nfa) (gramBlock nf nfshi nfshj si sj st.1 st.2)

/-- fem_space.cpp:1106-1130: the loop over `si`; lines 1109-1110 put ones on the diagonal. -/
def gramRows (nf : Nat) (all : List (Space K)) : List (Space K) → Nat → Nat → (Nat → K) × (Nat → Nat → K) →
    (Nat → K) × (Nat → Nat → K)
  | [], _, _, st => st
  | si :: rest, i, nfshi, st =>
    let B := loop 0 si.nfa (fun k B => wr B (k + nfshi + nf * (k + nfshi)) 1) st.1
    gramRows nf all rest (i + 1) (nfshi + si.nfa) (gramRow nf nfshi i si all 0 0 (B, st.2))

/-- fem_space.cpp:1037-1038, 1102-1130, operators.inl:362-366: the matrix `B`, zero at first, with the arrays `udofs` (memory of `m_orth_coefs`, zero:
line 1028). -/
def gramMat (ss : List (Space K)) : Nat → K :=
  (gramRows ((ss.map (·.nfa)).sum) ss ss 0 0 (fun _ => 0, fun _ _ => 0)).1

section Ordered
variable [LinearOrder K]

/-- fem_space.cpp:1140-1149: the largest deviation of `A * B` from the identity and the largest entry of `B`. -/
def gramCheck (nf : Nat) (A B : Nat → K) : K × K :=
  loop 0 nf (fun i st => loop 0 nf (fun k st =>
    let s := loop 0 nf (fun j s => s + A (i + nf * j) * B (j + nf * k)) 0
    let target : K := if i = k then 1 else 0
    (max st.1 |s - target|, max st.2 |B (i + nf * k)|)) st) (0, 0)

/-- fem_space.cpp:1156: the largest absolute value of column `i` (`std::max_element` by absolute value). -/
def colMax (nf : Nat) (A : Nat → K) (i : Nat) : K := loop 0 nf (fun k m => max m |A (k + nf * i)|) 0

/-- fem_space.cpp:1155-1158: entries not larger than `small` (1e-7) times the largest of their column are set to zero. -/
def dropSmall (small : K) (nf : Nat) (A : Nat → K) : Nat → K :=
  loop 0 nf (fun i A =>
    let m := colMax nf A i
    loop 0 nf (fun k A => wr A (k + nf * i) (if |A (k + nf * i)| > m * small then A (k + nf * i) else 0)) A) A

/-- fem_space.cpp:1026-1159 `UnionFemSpace::setupInterpolation`, operators.inl:335-399: the weights.  `eps` is the machine
epsilon of the solver, `tol` is 1e-8, `small` is 1e-7.  `none`: undefined behaviour of the solver or the exception of line
1152. -/
def setup (eps tol small : K) (ss : List (Space K)) : Option (Nat → K) :=
  let nf := (ss.map (·.nfa)).sum
  if nf = 0 then some (fun _ => 0)
  else if ss.length ≤ 1 then some (loop 0 nf (fun i A => wr A (i + nf * i) 1) (fun _ => 0))
  else
    let B := gramMat ss
    match luInverse eps nf B (fun _ => 0) with
    | none => none
    | some A =>
      let e := gramCheck nf A B
      if e.1 > tol * (1 + e.2) then none else some (dropSmall small nf A)

end Ordered

/-- fem_space.cpp:373-376 `BaseFemSpace::interpolateByDOFs`: the d.o.f. `ids` of the chosen geometric elements one after
another, one function. -/
def byDofs (s : Space K) (T : Tet K) (f : Fn K) (ids : List Nat) (u : Nat → K) : Nat → K :=
  ids.foldl (fun u i => s.interp T f i 1 (fun r => if r = 0 then u else fun _ => 0) 0) u

/-- fem_space.cpp:497-503 (`VectorFemSpace::interpolateByDOFs`): the arrays `new_udofs[i]` are the parts of `udofs`, all `d`
components are interpolated at once. -/
def byDofsVec (d : Nat) (s : Space K) (T : Tet K) (f : Fn K) (ids : List Nat) (u : Nat → K) : Nat → K :=
  let v := ids.foldl (fun v i => s.interp T f i d v) (fun r i => u (r * s.nfa + i))
  fun t => if t < d * s.nfa then v (t / s.nfa) (t % s.nfa) else u t

end Verif.Interp
