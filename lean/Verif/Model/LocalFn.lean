import Verif.Model.Csc
import Verif.Spec.LocalFn

/-!
Model of the way from the functions of the user to the elemental matrix and right-hand side: the wrappers of
`/repo/anifem++/inmost_interface/assembler.{h,inl}` and `ElementalAssembler` (`elemental_assembler.{h,cpp}`), one element, one thread.

The two arrays of a thread, `m_A` and `m_F`, are the only targets of result pointers; a pointer is `none` when it is null.  A function of the
user is given by what one call does: assignments through the result pointers in their order (the values are those for the arguments of the
element), pointers which it puts behind its results, and the code it returns.  It does not read the arrays.  `none` as a result stands for
undefined behaviour: an assignment through a null pointer or outside of an array, reading a pattern which was never stored.
-/
namespace Verif.LocalFn
open Verif.Csc (View)

/-- the arrays `m_A` and `m_F` of `WorkMem` (assembler.h:253) -/
inductive Arr where
  | A
  | F
deriving DecidableEq, Repr

/-- assembler.inl:207: `m_A.resize(nRows*nRows), m_F.resize(nRows)` -/
def size (n : Nat) : Arr → Nat
  | .A => n * n
  | .F => n

/-- what a call of `MatFuncWrap::operator()` does (func_wrap.h:111-119): `nout` results, assignments `res[k][i] = v`, the pointers put into
`res[k]` for `k ≥ nout` (working part of `res`, func_wrap.h:113), the returned code, and `out_sparsity` (func_wrap.h:159) -/
structure Fn (K : Type) where
  nout : Nat
  writes : List (Nat × Nat × K)
  work : Nat → Option (Option Arr)
  code : Int
  view : Nat → View

variable {K : Type}

/-- one assignment `res[k][i] = v` through a pointer (func_wrap.h:113) -/
def store (n : Nat) (p : Option Arr) (i : Nat) (v : K) (m : Arr → Nat → K) : Option (Arr → Nat → K) :=
  match p with
  | none => none
  | some a => if i < size n a then some (fun b j => if b = a ∧ j = i then v else m b j) else none

/-- the assignments of a call one after another (func_wrap.h:113) -/
def writeAll (n : Nat) (res : Nat → Option Arr) : List (Nat × Nat × K) → (Arr → Nat → K) → Option (Arr → Nat → K)
  | [], m => some m
  | w :: ws, m => (store n (res w.1) w.2.1 w.2.2 m).bind (writeAll n res ws)

/-- a call of `MatFuncWrap::operator()` (func_wrap.h:119): the memory, the array `res` and the code afterwards -/
def Fn.call (n : Nat) (f : Fn K) (res : Nat → Option Arr) (m : Arr → Nat → K) : Option ((Arr → Nat → K) × (Nat → Option Arr) × Int) :=
  (writeAll n res f.writes m).map fun m => (m, (fun k => if k < f.nout then res k else (f.work k).getD (res k)), f.code)

/-- the wrappers `SystemFromMatRhsFWrap` (`m_mat`, `m_rhs`), `MatFromSystemFWrap` and `RhsFromSystemFWrap` (`is_rhs_func`), assembler.h:87-207 -/
inductive Wrap (K : Type) where
  | sys (mat : Fn K) (rhs : Option (Fn K))
  | matOf (f : Fn K)
  | rhsOf (isRhs : Bool) (f : Fn K)

/-- assembler.inl:970-980 and 1074-1079, assembler.h:97: `operator()` of the wrappers -/
def Wrap.call (n : Nat) (w : Wrap K) (res : Nat → Option Arr) (m : Arr → Nat → K) : Option ((Arr → Nat → K) × (Nat → Option Arr) × Int) :=
  match w with
  | .sys mat rhs =>
    let p := res 1
    (mat.call n res m).bind fun s1 =>
      match rhs with
      | none => some (s1.1, s1.2.1, s1.2.2 + 0)
      | some r =>
        if s1.2.2 = 0 then
          let res2 := fun k => if k = 1 then p else s1.2.1 k
          (r.call n (fun k => res2 (k + 1)) s1.1).map fun s2 =>
            (s2.1, (fun k => if k = 0 then res2 0 else s2.2.1 (k - 1)), s1.2.2 + s2.2.2)
        else some (s1.1, s1.2.1, s1.2.2 + 0)
  | .matOf f => f.call n res m
  | .rhsOf isRhs f =>
    (f.call n res m).map fun s => (s.1, (if isRhs then s.2.1 else fun k => if k = 0 then s.2.1 1 else if k = 1 then s.2.1 0 else s.2.1 k), s.2.2)

/-- assembler.h:110, 150, 191: `out_sparsity` of the wrappers -/
def Wrap.view (w : Wrap K) (k : Nat) : View :=
  match w with
  | .sys mat none => mat.view k
  | .sys mat (some r) => if k = 0 then mat.view k else r.view (k - 1)
  | .matOf f => f.view k
  | .rhsOf isRhs f => f.view (k + if isRhs then 0 else 1)

/-- `ElementalAssembler::UsageType` (elemental_assembler.cpp:10-13) -/
inductive Use where
  | rhs
  | mat
  | matRhs
deriving DecidableEq, Repr

/-- elemental_assembler.cpp:9-16 `make_result_buffer` -/
def setRes (u : Use) (res : Nat → Option Arr) : Nat → Option Arr :=
  match u with
  | .rhs => fun k => if k = 0 then some .F else res k
  | .mat => fun k => if k = 0 then some .A else res k
  | .matRhs => fun k => if k = 0 then some .A else if k = 1 then some .F else res k

/-- which arrays `loc_m`, `loc_rhs` hold and which result they belong to (assembler.inl:372-375, 543-545, 763-765) -/
def results (u : Use) : List (Arr × Nat) :=
  match u with
  | .rhs => [(.F, 0)]
  | .mat => [(.A, 0)]
  | .matRhs => [(.A, 0), (.F, 1)]

/-- elemental_assembler.cpp:105-117 `update`: zeros on the first `nnz` numbers -/
def zeros [Zero K] (w : Wrap K) (u : Use) (m : Arr → Nat → K) : Arr → Nat → K :=
  (results u).foldl (fun m a => fun b j => if b = a.1 ∧ j < (w.view a.2).nnz then 0 else m b j) m

/-- `m_fd.colindA, rowA` and `colindF, rowF` (assembler.h:277; filled for the first time): `none` is an empty vector -/
abbrev Patterns := Arr → Option ((Nat → Nat) × (Nat → Nat))

/-- assembler.inl:223, 229, 235: does a result need a pattern? -/
def View.partly (v : View) : Bool := decide (v.nnz ≠ v.sz1 * v.sz2)

/-- assembler.inl:224-225 and alike: `out_csc` into resized vectors -/
def csc (v : View) : (Nat → Nat) × (Nat → Nat) := Csc.copyCSC v (fun _ => 0) (fun _ => 0)

/-- assembler.inl:222-241, the part of `PrepareProblem` which stores the patterns -/
def prepare (mat rhs sys : Option (Fn K)) : Patterns :=
  let p0 : Patterns := fun _ => none
  let p1 : Patterns := match mat, sys with
    | some f, none => if View.partly (f.view 0) then fun a => if a = .A then some (csc (f.view 0)) else p0 a else p0
    | _, _ => p0
  let p2 : Patterns := match rhs, sys with
    | some f, none => if View.partly (f.view 0) then fun a => if a = .F then some (csc (f.view 0)) else p1 a else p1
    | _, _ => p1
  match sys with
  | some f => if View.partly (f.view 0) then fun a => if a = .A then some (csc (f.view 0)) else some (csc (f.view 1)) else p2
  | none => p2

/-- assembler.inl:370-375: the view of a result inside of an assembling and func_wrap.inl:11-31 `densify` of its array in place; `none` when the
array is too small or an empty pattern would be read -/
def densifyArr [Zero K] (n : Nat) (v : View) (p : Option ((Nat → Nat) × (Nat → Nat))) (a : Arr) (m : Arr → Nat → K) : Option (Arr → Nat → K) :=
  if size n a < v.sz1 * v.sz2 then none
  else if View.partly v then
    match p with
    | none => none
    | some c => some (fun b => if b = a then Csc.densify ⟨false, v.nnz, v.sz1, v.sz2, c.1, c.2⟩ 0 0 0 (m a) else m b)
  else some (fun b => if b = a then Csc.densify ⟨true, v.nnz, v.sz1, v.sz2, fun _ => 0, fun _ => 0⟩ 0 0 0 (m a) else m b)

/-- elemental_assembler.cpp:18-38 `densify_result`, the right-hand side first; the marks of the entries (`fillTemplate`) are left out, see C27 -/
def densifyAll [Zero K] (n : Nat) (w : Wrap K) (p : Patterns) : List (Arr × Nat) → (Arr → Nat → K) → Option (Arr → Nat → K)
  | [], m => some m
  | a :: l, m => (densifyArr n (w.view a.2) (p a.1) a.1 m).bind (densifyAll n w p l)

/-- elemental_assembler.cpp:60-117: the constructor, `update` and one `compute`: the arrays and the pointers in `res` afterwards.  The code returned by
the function is not used (line 86). -/
def compute [Zero K] (n : Nat) (w : Wrap K) (u : Use) (p : Patterns) (res : Nat → Option Arr) (m : Arr → Nat → K) :
    Option ((Arr → Nat → K) × (Nat → Option Arr)) :=
  (w.call n (setRes u res) (zeros w u m)).bind fun s => (densifyAll n w p (results u).reverse s.1).map fun m => (m, s.2.1)

/-- assembler.inl:1089-1099 `generate_mat_rhs_func` -/
def genSys (mat rhs sys : Option (Fn K)) : Option (Wrap K) :=
  match sys, mat, rhs with
  | some f, _, _ => some (.sys f none)
  | none, some f, some g => some (.sys f (some g))
  | _, _, _ => none

/-- assembler.inl:1100-1110 `generate_mat_func` -/
def genMat (mat sys : Option (Fn K)) : Option (Wrap K) :=
  match mat, sys with
  | some f, _ => some (.matOf f)
  | none, some f => some (.matOf f)
  | none, none => none

/-- assembler.inl:1111-1121 `generate_rhs_func` -/
def genRhs (rhs sys : Option (Fn K)) : Option (Wrap K) :=
  match rhs, sys with
  | some f, _ => some (.rhsOf true f)
  | none, some f => some (.rhsOf false f)
  | none, none => none

/-! ### Working memory -/

/-- the sizes `sz_args`, `sz_res`, `sz_w`, `sz_iw` of `working_sizes` (func_wrap.h:148-153), also the sizes of the arrays of a thread
(assembler.h:253-257) -/
structure Sizes where
  args : Nat
  res : Nat
  w : Nat
  iw : Nat
deriving DecidableEq, Repr

/-- assembler.inl:1053-1065: `SystemFromMatRhsFWrap::working_sizes` -/
def sysSizes (mat : Sizes) (rhs : Option Sizes) : Sizes :=
  match rhs with
  | none => mat
  | some r => ⟨if r.args > mat.args then r.args else mat.args, if r.res + 1 > mat.res then r.res + 1 else mat.res,
      if r.w > mat.w then r.w else mat.w, if r.iw > mat.iw then r.iw else mat.iw⟩

/-- assembler.inl:18-23, the arrays of one thread -/
def grow (s : Sizes) (t : Sizes) : Sizes :=
  ⟨if t.args < s.args then s.args else t.args, if t.res < s.res then s.res else t.res, if t.w < s.w then s.w else t.w,
    if t.iw < s.iw then s.iw else t.iw⟩

/-- assembler.inl:14-24 `extend_memory_for_fem_func`; an empty function does nothing -/
def extend (s : Option Sizes) (wm : List Sizes) : List Sizes :=
  match s with
  | none => wm
  | some s => wm.map (grow s)

/-- assembler.inl:26-46 `resize_work_memory` -/
def resizeWork (k : Nat) (wm : List Sizes) : List Sizes :=
  let wm := if k ≤ 1 then wm.take (min 1 wm.length) else wm
  if k ≤ wm.length then wm.take k else wm ++ List.replicate (k - wm.length) (wm.headD ⟨0, 0, 0, 0⟩)

/-- assembler.inl:205, 219-221: the work memory after `PrepareProblem` -/
def prepareWork (mat rhs sys : Option Sizes) (old : List Sizes) : List Sizes :=
  extend sys (extend rhs (extend mat (match old with | [] => [⟨0, 0, 0, 0⟩] | t :: _ => [t])))

/-- assembler.inl:1089-1099 and 318-321: the work memory of `Assemble` with `k` threads -/
def assembleWork (mat rhs sys : Option Sizes) (k : Nat) (wm : List Sizes) : List Sizes :=
  match sys, mat, rhs with
  | some _, _, _ => resizeWork k wm
  | none, some a, some b => resizeWork k (extend (some (sysSizes a (some b))) wm)
  | _, _, _ => wm

/-- `m_sz_w`, `m_sz_iw` of `MatFuncWrapDynamic` (func_wrap.h:305) -/
structure Dyn where
  szW : Nat
  szIw : Nat
deriving DecidableEq, Repr

/-- func_wrap.inl:116-124: the copy assignment, `*this` and the right side -/
def Dyn.assign (self a : Dyn) : Dyn :=
  let self := { self with szW := a.szW }
  { self with szW := a.szIw }

/-- func_wrap.h:292-294: the copy constructor -/
def Dyn.copy (a : Dyn) : Dyn := ⟨a.szW, a.szIw⟩

end Verif.LocalFn
