# Formal model of INMOST-FEM (AniFem++) — design

Source modelled: `/repo/anifem++` at the pinned commit.  The code was read as text; nothing in `/repo`
was built, run or changed.  All line numbers in model comments refer to that commit.

## Trusted base

* Lean 4.33.0's kernel.
* Axioms: every theorem named in `MANIFEST.json` depends on a subset of `propext`, `Classical.choice`, `Quot.sound`
  (the list by theorem is in `AXIOMS.md`).  There are no own axioms, no `sorry`, no `native_decide`, no `bv_decide`.
* Faithfulness of the hand translation C++ -> Lean (each definition cites file and lines and says what it simplifies).
  The quadrature tables are transcribed by `tools/gen_quadrature.py` from the source text.
* Arithmetic: machine integers are modelled as unbounded `Nat`/`Int` unless a theorem says otherwise
  (widths are modelled in C05, C17, C28, C29, C12, C13); floating point is modelled by an exact field or ring
  (ordered and with an exact square root where the code compares or takes roots); rounding is not modelled.
  Decimal literals of tables are modelled by their exact decimal value.
* Memory: arrays are lists or functions from positions to values, pointers are addresses or offsets.  An access outside
  an array is a distinct outcome (`none`, or an explicit precondition) where the property is about it.
* C++ exceptions are `none`.  Assertions (`assert`) are not part of the behaviour unless a definition says so.
* Concurrency: mutexes and row locks are mutual exclusion locks; a method which holds the mutex for its whole body is one
  step.  The C++ memory model is not modelled.
* INMOST (mesh storage, MPI, `Sparse::Row`, `LockService`), Eigen, SUNDIALS, CASADI are not modelled.  Assumed of INMOST:
  a sparse row is a list of (column, value) with the documented `operator[]`, `get_safe`, `Push`; `LockService` is a family
  of mutual exclusion locks; the global ids of the owned elements of one dimension are contiguous per process and ordered
  by process (`AssignGlobalID`).  The builds with Eigen replace some loops; the builds without Eigen are modelled.

## What is modelled and what is not

| module `Verif/Model/` | source | left out |
|---|---|---|
| `IntervalEnum` | `interval/interval_enum.{h,inl}` | wrap-around; `operator>=` of the iterator |
| `IntervalMap` | `interval/interval_map.{h,inl}` | `internal_lower_bound`, `internal_upper_bound` (they do not compile) |
| `ExtEnum` | `interval/ext_array_enum.{h,inl}`: `ext_range_array_enum` | `next_it`, the class `ext_array_enum`; `lower_bound` is in `ExtBound` |
| `ExtBound` | `interval/ext_array_enum.inl:737-850` `lower_bound`, `ext_array_enum.h` `upper_bound`, `find`, `-=`, `>=` | an iterator is its number; dereferencing the end and a failed assertion are `none` |
| `DofMap`, `GeomIter`, `Sparsity`, `Symmetry` | `fem/tetdofmap.{h,cpp,inl}` | shared pointer management, `operator~` |
| `RawMemory`, `DynMem`, `ThreadMem` | `fem/fem_memory.h`, `fem/fem_memory_parallel.h` | unlocked `DynMemParallel::get` |
| `ParFor` | `fem/mutex_type.h` | OpenMP variant |
| `Geometry`, `Cholesky`, `LU`, `Decomp` | `fem/geometry.h` | the build with Eigen |
| `Spaces` | `fem/spaces/*.h` | assertions about memory sizes |
| `Quadrature`, `QuadRules`, `QuadTables*` | `fem/quadrature_formulas.{h,cpp}` | rounding to `double` |
| `Fused`, `Elemental` | `fem/operations/core.{h,inl}`, `fem/diff_tensor.h`, part of `fem/fem_memory.h` | Eigen branches, timers |
| `OpStack` | `fem/fem_space.{cpp,inl}`: the operators of run-time spaces; `fem/spaces/common.h`: `InternalOp` | the integer memory, orders, interpolation |
| `Interp` | `fem/fem_space.cpp`: `interpolateOnDOF` and `interpolateByDOFs` of vector, product and union spaces, `setupInterpolation`; `fem/operators.{h,inl}`: the same for compile-time spaces | work memory, user data, error codes of the interpolated function, the quadrature orders |
| `Region` | `fem/fem_space.cpp`: `interpolateOnRegion` | the two calls of `fem3DpntL` are written as the sums they are (their evaluation is C44), the case of a node (it calls `interpolateByDOFs`), checks of the size of the work memory |
| `CtOp` | `fem/operators.h`: `Operator` of `FemVec`, `FemVecT`, `FemCom`, `FemUnionT`, `OperatorDUDXHelper`, `DIV`, `CURL`; `operators.inl`: unions; `core.inl`: `CompV` | template parameters are arguments; `extraI`, sizes of `ArrayView` in the matrices, `Nparts` (the number of parts follows from the results) |
| `SpaceOp` | the operators of `spaces/*.h` placed in the common memory (`U`, `extraR`), under the templates of `operators.h`: which operator of which composed type is defined, and how it is built | the geometry read by the operators is a constant of the run (C46, C51 prove that it is not written); `FemVecT<n, FemFix<..>>` is taken for `FemVec` |
| `SpaceOpRt` | which functions of `OpStack` the five operators of `GenSpace`, `VectorFemSpace`, `ComplexFemSpace`, `UnionFemSpace` are made of, with the exceptions | as `OpStack`, `SpaceOp` |
| `Driver` | `operations/int_tet.inl`, `int_face.inl`, `int_edge.inl`, `int_pnt.inl`: the arrays `XYL`, `WG`, `XYP`, `PSI`, `DET`, `MES`, `NRM`, `XYG`; the layout of `U`, `V`, `extraR` in the memory of the drivers and the sequence of calls (`core.inl`) | the arrays are separate (C14 is about their placement); points outside of the arrays are an error |
| `Eval` | `operations/eval.inl`: the arrays, checks, memory demands and calls of `fem3DapplyL`, `fem3DapplyX` on the stack and in memory of the user, with and without tensor (`core.inl:662-783`) | as for `Driver`; whether an array is left is an outcome (`overrun`) |
| `AutoDiff` | `autodiff/autodiff.h`, `autodiff.inl`: `State`, `ADVal`, `Param`, `Var`, all operators and functions, as functions on a value, a gradient and a Hessian with the State flags and `m_dif` | real numbers for `double`; gradient and Hessian are functions of indices (their packed storage is the subject of `Tensor`); expressions are trees; `std::` functions are the real functions |
| `Tensor` | `autodiff/physical_tensors.{h,inl}`, `physical_tensors_3d.inl`: numbering, multiplicities, entries and operations of `SymMtx`, `PhysMtx`, `Tensor4Rank`, `SymTensor4Rank`, `BiSymTensor4Rank` | arrays are functions of positions, an exact field for `double`; iterators; entrywise sums and scaling; `Det`, `Inv` for N other than 3; the operations of `BiSymTensor4Rank<N>` for N other than 3 (only the numbering) |
| `Strain` | `autodiff/cauchy_strain_invariants.{h,inl}`, `cauchy_strain_autodiff.h`: strains and their derivatives, the seven invariants with gradients and Hessians, the autodifferentiable objects, `S_to_P`, `dS_to_dP` | real numbers for `double`; entrywise sums and scalings of the packed types are functions of the position |
| `Decomp` | `fem/geometry.h:408-729`: `householderQR`, `jacobi_symmetric_eigen`, `sort_eigen_desc`, `complete_orthonormal_cols`, `gram_ata`, `gram_aat`, `jacobiSVD` | real numbers for the scalars, the machine epsilon is a parameter, `atan2` is the argument of a complex number; the parts of the work array are separate arrays; `U` and `V` are both asked for |
| `Demand` | `fem/operations/core.inl:139-215, 581-658`, `fem/fem_memory.h:222-261`, the checks of `int_tet.inl`, `int_face.inl`, `int_edge.inl` | natural numbers for sizes: the overflow of `int` is not modelled; the integer memory of the operators (`extraI`) is demanded and carved but no operator uses it |
| `SpaceAlg` | `fem_space.cpp:1190-1228` (`+`, `*`, `^`), `fem_space.inl:175-213`, `setup`, `subSpace` and `operator==` of `GenSpace`, `VectorFemSpace`, `ComplexFemSpace`, `UnionFemSpace` | spaces are values: shared pointers, empty spaces and the copy of a space are not modelled; the names of variables are left out |
| `Metric` | `utils/adapt_mesh.cpp:30-216, 271-473`, `cell_body` (664-738), `node_body` (792-821) | the build without Eigen; real numbers for the scalars, infinite values are `none`; the list of visible cells around a node and the flag whether any Hessian of the mesh is not zero are inputs; tags, exchange between processes and statistics are not modelled |
| `MetricHess` | `utils/adapt_mesh.cpp:224-268` `compute_H2_from_v2`, `681-685` | the matrices of the sides are inputs, the theorem on the drivers puts those of C54 there; the volume that INMOST returns is taken for the volume of the tetrahedron |
| `BoxMesh` | `utils/mesh_utils.cpp:20-150` `CreateNWTetElements`, `GenerateParallelepiped` | `ResolveShared` (INMOST) is not modelled: nodes of different processes are identified by their place in the grid; coordinates are real numbers; the ceiling of the quotient in double precision is taken as exact; the memory reserved at line 112 is not modelled |
| `Diffusion` | `utils/utils.cpp:388-462` `data_gatherer` and `local_assm` of `solve_stationary_diffusion`, `fem/tetdofmap.inl:900-904` `applyDirByDofs` | the elemental matrices and loads are inputs (they are those of C54), as are the values of the Dirichlet d.o.f.s (C45-C48); the global system is the sum of the elemental ones (C30); the linear solver, the tags and the shared work memory of `G` and `dof_values` are not modelled |
| `Order` | constants `Order` of `spaces/*.h`, `operators.h`; `operators.inl`: `DimCounter`, `OrderCounter`, `UnionOrderCounter`; `fem_space.*`: `orderOP`, `order`, `orderDIV`, `orderCURL`, `orderDUDX`, `orderDiff` | the value for "not a polynomial" of user spaces; `FemVecT<n, FemFix<..>>` is taken for `FemVec` |
| `DofCoord` | `fem/operators.h`: `DOF_coord` | products and unions (the recursion names a type where a call is meant and does not compile); RT0, ND0, B4 (no specialisation, the call throws) |
| `Dirichlet` | `fem/operations/dc_on_dof.{h,inl}` | — |
| `Enumerator`, `Ordered` | `inmost_interface/global_enumerator.{h,cpp}` | exchange of ghost tags, `createGlobalToLocalIDMap` |
| `GeomWalk` | `inmost_interface/global_enumerator.cpp:309-442` `iteratorByGeom` | the mesh database is given by four functions (last and next local id, validity, ghost status); a variable number out of range is undefined behaviour and excluded |
| `TagCopy` | `inmost_interface/global_enumerator.cpp:6-225` `CopyByEnumeration`, `CopyVarByEnumeration` | `ExchangeData` (INMOST), the assertions |
| `Ordering`, `OrderTable` | `inmost_interface/ordering.{h,inl}`, parts of `assembler.inl` | gathering of several variables at once |
| `Reorder` | `inmost_interface/ordering.inl:172-226, 354-402` `reorder_mesh_function_data`, `takeElementDOF` | d.o.f. maps other than a simple one (vector and composed maps), the loop over the sparsity that fills `reord` (every entry is computed), the assertion |
| `LocalFn` | `inmost_interface/elemental_assembler.cpp:9-117` `compute`; `inmost_interface/assembler.inl:200-244` (patterns and working sizes in `PrepareProblem`), `906-1142` wrappers and `resize_work_memory`; `func_wrap.inl` copies | the bodies of user functions (a function is its list of assignments), arguments of the functions, marks of sparsity templates (C27), tables of `GenerateElemRhs(f, nRow)`, which calls `make_as_dense` with a missing argument and does not compile when instantiated |
| `FnMem` | `inmost_interface/assembler.h:166-179`, `assembler.inl:993-1040` memory of `SystemFromMatRhsFWrap`, `func_wrap.h:257-269`, `fem/fem_memory_parallel.h:22-69` with signed indices | overflow of the index type, the contents of the memory, the interleaving of the threads (which slot a thread uses does not depend on it) |
| `Det` | `autodiff/physical_tensors.inl:319-390` generic `Det` of `PhysMtx` and `SymMtx`, `PhysMtx::Inv` | rounding; the conversion in `SymMtx::Inv` (C57) |
| `GidMap` | `inmost_interface/global_enumerator.cpp:456-560` the stored maps from global ids to local numbers, their use at 790-792 and 843-861 | the assigning of global ids, the tags of INMOST beyond their arrays |
| `MeshInt` | `utils/utils.inl:44-73`, `utils/utils.cpp:163-232` integration over a mesh | rounding (results of different schedules agree only up to it), the memory of the function, `Mesh::Integrate` beyond its sum, `Volume()` |
| `Gather` | `inmost_interface/ordering.inl:251-352` gathering of values on a cell, `fem/tetdofmap.cpp:975-998` iteration over a view | what is stored for a d.o.f. (C69), negative component numbers, 32-bit wrap-around |
| `InterpConst` | `fem/operations/interpolate.inl:8-13`, `fem/fem_space.inl:58-65` `interpolateConstant` | the rest of `interpolate.inl`: `interpolateByDOFs` is the loop of C47; the compile-time `interpolateByRegion` declares `wg` as a number and assigns a pointer to it (line 77, 85), so it cannot be instantiated; the run-time version is C48 |
| `VecIter` | `inmost_interface/global_enumerator.h:80-135` `iteratorByVector`, `300-318` `TagOwned` | overflow of `long`, the mesh database behind the tags (a tag is a number, the mesh gives new ones) |
| `NVector` | `kinsol_interface/SUNNonlinearSolver.cpp`: vector operations (146-148, 272-606), `SUNMatMatvec_Inmost` on one process (781-796), the codes of `SUNLinSolSolve_Inmost` (911-947) and of the assembling functions (1280-1323) | rounding, infinities and division by zero, the square root of the norms, `MPI_Allreduce` beyond its result; the functions of INMOST and KINSOL |
| `KinParam` | `kinsol_interface/SUNNonlinearSolver.cpp:1167-1277` the parameters of the nonlinear solver | KINSOL is its settings and a predicate of accepted values (a refused value changes nothing; 0 as a word for the default is left out); `atof`, `atoi`, `tolower` are given functions |
| `DirTwo` | `fem/tetdofmap.inl:833-939` Dirichlet conditions on a part of the tetrahedron with two maps of d.o.f.s | the iterations enter by the numbers they meet (C71 and the properties of the iterators say which); only the first column of the right-hand side is touched by the code |
| `LowerIndex` | `inmost_interface/global_enumerator.cpp:651-669` `getLowerOrderIndex` | the iterator is the number it holds; the element is given by any integer |
| `GlobEnum` | `inmost_interface/global_enumerator.h:392-428`, `global_enumerator.cpp:866-889` `GlobEnumeration` | an enumerator of the user is the function it numbers with; the copies of the fields of the enumerator (cpp:883-889) are not modelled |
| `VarTag` | `utils/utils.cpp:101-124` `createFemVarTag`; `utils/utils.cpp:92-93` | the tag is the number of values per element; `ENUMUNDEF` is not a number of d.o.f.s |
| `Csc` | `inmost_interface/func_wrap.{h,inl}`: `MatSparsityView` | function wrappers |
| `Codes`, `Assembly`, `Locking` | `inmost_interface/assembler.{h,inl}` | timers, logs, user callbacks |

Not modelled at all: the parts of `kinsol_interface/*` and of `utils/*` not named in the table, the expression evaluator `expr_interface` apart from what
the bases use, `dyn_ops`, the evaluation and printing functions of `fem_space.cpp`.

## Layout of the Lean project (`/verif/lean/Verif`)

* `Model/*.lean` — translation of the code, function by function, each definition citing `/repo` lines.
* `Spec/*.lean` — small independent specifications (where the property needs vocabulary).
* `Lemmas/*.lean` — helper lemmas.
* `Props/*.lean` — property theorems, each with a concrete witness (`example`) beside it, and counterexample
  theorems where the code violates the property.

A theorem with the suffix `_partial` proves its property under an additional condition stated in its comment.  A theorem with
the suffix `_wrong` proves that the code violates the property.  The one exception is `Locking.unlocked_wrong`, which is
about the steps of C30 without the locks.  `seeded/LOG.jsonl` is the log of the wrong programs tried.

## Where the code disagrees with the property

Each line is proved in Lean (theorem name) from the model of the code.

* C04: a one-sided infinite interval added on an occupied side; `interval_map` then loses or shifts pieces (`Verif.IntervalMap`,
  theorems `*_wrong`).
* C05: `setup` dereferences an empty map for an empty base set (`setup_empty_wrong`); `begin()` sums in an `int`, indexing
  fails from 2^31 arrays on (`unrank_wrong`); `lower_bound` dereferences the end of the base arrays at exactly the keys of
  `Off` (`lowerBound_off_wrong`, line 831), so `upper_bound` of every array over the largest base array is undefined when the
  value is inserted before the entry it depends on (`upperBound_last_wrong`); with an empty range its assertion fails
  (`lowerBound_empty_range_wrong`); `-=` moves forward and `>=` is `<` (`minusAssign_wrong`, `iterGe_wrong`).
* C08: `VectorDofMap::TetDofID` divides by the wrong count.
* C11: iteration by element set over powers and products skips d.o.f.s for irregular trees.
* C13: identity and composition fail on faces for the symmetry tables 341, 412.
* C15: releasing out of order lets `DynMem` hand out memory which is in use.
* C16: ranges of `DynMemParallel` are never taken from unused slots while anything is held, the pool grows.
* C17: 32-bit batch variables fail from 2^32 iterations on; line 124 of `mutex_type.h` omits the functor argument.
* C20: the last exchange of `LU_solve` applies the column permutation instead of its inverse.
* C21: MINIBLOCKS numbers collide; the inverse look-up reads out of range at the first oriented d.o.f.; `OrderedEnumerator`
  rejects the first number of the process.
* C22: a process which owns no element of a used dimension spoils the ranges.
* C23: splitting of a full index fails at the first oriented d.o.f. of an edge or face.
* C24: the array overload of `collectConnectivityInfo` copies four of six edges.
* C26: face orientations of neighbouring cells disagree; the assembler renumbers with the inverse permutation.
* C27: `MatSparsityView::make_as_sparse` stores the dense size as number of entries.
* C28: index codes assume a signed `char`; memory numbers above 2^16 collide; defragmentation by thread addresses slot 0.
* C33: `prepareOrder` stores the wrong component for vectors; d.o.f.s collide when there are more components than elements.
* C36: `Basis::eval` of P3 interchanges functions 17 and 19; RT0 and ND0 always throw.
* C38: the tetrahedron rules of orders 2 to 12 are symmetric only up to the last tabulated digits.
* C40: with several nonzero directions the imposed values are wrong; with one component the work memory is overrun.
* C41: `fusive_A_mul_B` clears the first block only.
* C43: with global ids the order is kept only if the kind precedes the element.
* C44: a full tensor of a type common to the selection is evaluated with the number of the first tetrahedron
  (`applyDU_selection_wrong`).
* C45: `internalFem3DApply` with several tetrahedra (`fem3DApply_wrong`, `fem3DApply_parts_wrong`).
* C46: the default divergence declares three rows (`baseDiv_rows_wrong`); the default partial derivative reads starts which it
  has overwritten (`baseDudx_wrong`); the divergences of products leave the stack pointer below their result, the next operator
  takes the same place (`div111_busy_wrong`, `div12_busy_wrong`).
* C47: the weights of a union are computed on the reference tetrahedron only; for RT0 + B4³ no weights serve both the reference
  tetrahedron and the same with two nodes exchanged (`union_rt0_wrong`).  Read but not modelled: the compile-time set-up passes a
  null array of determinants (operators.inl:354), which RT0 and ND0 dereference.
* C48: on edges and faces the coordinates of the points with respect to the nodes outside are never written, they are what the
  work memory contained (`edge_points_wrong`, `face_points_wrong`); with such memory a member of the space does not get its
  coefficients (`region_edge_wrong`).
* C50: `DOF_coord` of P0 adds to the old content of the result (`p0At_wrong`); of P3 it interchanges 17 and 19 (`p3At_wrong`); of
  CR1 it returns the point of the next degree of freedom (`cr1At_wrong`).
* C51: the partial derivative of `FemUnionT` of one type writes the gradient into a third of the memory it takes
  (`union_one_dudx_wrong`).
* C52: `OrderCounter` of `FemCom` takes the maximum of the order of the first type and the number of components of the others:
  `FemCom<P1, P2>` declares 1 instead of 2, `FemCom<P1, FemVec<3, P1>>` declares 3 (`ct_com_wrong`). `orderDIV` and `orderCURL` of the
  vector of a scalar space are the zero of the scalar space, though divergence and curl of P2³ are linear (`rt_div_wrong`).
- C54: `fem3DpntX` computes barycentric coordinates for all points given, also those without a weight, and writes them past `XYL` (`setPntX_wrong`); with stack memory it checks the number of weights, not of points. `fem3DpntL` with memory of the user takes as many weights as there are points, without a check (`setPntL_wrong`); the other versions take the smaller number.
- C55: the stack versions of `fem3DapplyX` and `fem3DapplyL` admit four times as many points as their arrays hold (`q > MAXPNTNUM*4`, `applyXStack_wrong`, `applyLStack_wrong`); the memory demanded by the compile-time versions does not cover the values of an operator with several parts at several points (`applyXPlain_wrong`); for several tetrahedrons the result is right only if its memory held zeros (`applyLPlain_wrong`).
- C56: a quotient whose denominator has a State with a first but no second derivative (a variable, `I1`, a sum of such) lacks the term 2fg'⊗g'/g³ in its Hessian: 1/x has second derivative 0 (`div_wrong`, `div_var_wrong`); `hypot` of one argument returns the argument, not its absolute value (`hypot_one_wrong`); `hypot` takes the number of orders from its first argument and loses the derivatives of the others (`hypot_first_wrong`).
- C57: the product of two symmetric matrices is stored as a symmetric matrix and so is wrong below (in 3D above) the diagonal unless the matrices commute (`symProd_wrong`, `sym3Prod_wrong`, exact condition `symProd_iff_partial`); the generic `BiSymTensor4Rank<N>::index` repeats `tj.i` and returns wrong indices for every N other than 3 (`bsIndex_wrong`).
- C56/C58: an energy divided by I1 (or by I4fs) never gets its true Hessian unless it vanishes there (`Verif.Strain.over_I1_wrong`): the quotient rule of C56 drops the term of the first derivatives when the State of the denominator declares no second derivative.
- C59: `householderQR` skips columns with an absolute tolerance, so that tiny entries are lost from `Q R` (`qr_tiny_wrong`).
- C59: the Jacobi method rotates entries above `tol` but ends only when the sum of all squares is at most `tol^2`: with three or more rows it can be idle in all sweeps and report a failure (`eigen_idle_wrong`, `eigen_idle_case_wrong`).
- C59: `jacobiSVD` leaves zero columns in `U` for singular values of at most `eps` (`svd_rank_wrong`, `svd_zero_wrong`), and `complete_orthonormal_cols` tries the same unit vector twice when one column is missing, for which it can add a zero column (`svd_completion_wrong`): `U` is not orthogonal as documented.
- C60: the versions with arrays on the stack check the order and the number of tetrahedrons but not the sizes of the operators: with 60 basis functions and 9 components `DU` is written past its end (`du_stack_wrong`); they compare the size of the matrix with the size for one tetrahedron, since `mem.f` is set later (`matrix_size_wrong`).
- C62: `VectorFemSpace::operator==` does not compare the exponents, so `P1^2 == P1^3` (`eqS_wrong`); an integration driver called with a trial space `b ^ n` and a test space `b ^ m`, `m < n`, then takes the trial operator for the test operator and writes past the end of the elemental matrix (`shared_wrong`).
- C63: the tolerance of the eigenvalues is absolute and a failure of the Jacobi method is replaced by the diagonal without notice: a Hessian with `90 eps` outside of the diagonal, whose eigenvalues are `180 eps` and `-90 eps`, is taken for zero (`spectralAbs_idle_wrong`).
- C63: the volume-weighted metric for nodes without a value above `M_lambda_min` is always clamped to `M_lambda_min I`, so that the weights have no effect (`weighted_useless_wrong`).
- C63: with `M_lambda_min` below the cube root of `kEigenEps` a regular Hessian can be replaced by the isotropic fallback (`absHToM_small_wrong`); with `M_lambda_min > M_lambda_max`, which is not refused, the upper bound wins (`clampAbs_wrong`).

* C65: `GenerateParallelepiped` gives every process of an axis but the last `ceil(s/p)` boxes.  If `ceil(s/p)*(p-1) > s` the last
  process starts beyond the end, its `localsize` wraps around (the `reserve` before the loops asks for about 2^32 nodes), and the
  process before it makes cells outside of the box, e.g. 4 processes and 5 x 1 x 1 boxes (`Verif.BoxMesh.generate_exceeds_wrong`).
  It cannot happen if `(p-1)^2 <= s` on every axis (`fits_of_many`), in particular not on one process.

* C66: `solve_stationary_diffusion` looks for Neumann sides only inside `if (geom_mask & DofT::FACE)`.  For spaces without d.o.f.s on the
  sides, e.g. P1 and P2, `is_neumann` stays 0 and the Neumann data are ignored: the natural condition is zero flux whatever the user gives
  (`Verif.Diffusion.neumann_none_wrong`, `neumann_ignored_wrong`).

* C67: `iteratorByGeom::find_begin` enters edges and faces with the unoriented kind whether or not the slice wants it.  A slice of oriented
  d.o.f.s only starts with an unoriented one if there are any (`Verif.GeomWalk.begin_wrong`).
* C68: the copies between a common array and the arrays of the variables compute the shift of the oriented d.o.f.s in an `unsigned char`; with
  256 or more unoriented d.o.f.s on an edge or a face the oriented ones are read and written at wrong places
  (`Verif.TagCopy.tagToTags_wrong`).

* C69: `reorder_mesh_function_data` wants to negate oriented values by `std::for_each(.., std::negate)`, which drops the results; and elements
  with S1 d.o.f.s only are skipped.  Oriented values keep their signs when the orientation of the element is turned
  (`Verif.Reorder.oriented_wrong`).  The sign computed for faces would be wrong, too (`Verif.Reorder.face_sign_wrong`).

* C70: a function for both asked for the matrix only writes through a null pointer unless the whole system was assembled before
  (`Verif.LocalFn.matrix_of_system_wrong`); asked for the right-hand side only it writes its matrix into the array of the right-hand side, past the
  end (`rhs_of_system_wrong`) or over entries (`rhs_mixed_wrong`).  The pattern of a right-hand side is not stored when the matrix of the same
  function is full (`rhs_pattern_wrong`), and patterns of `mat_rhs_func` are used for `mat_func` (`pattern_of_other_wrong`).  The returned code is
  used nowhere (`failure_lost_wrong`).  Copy assignment of a dynamic wrapper loses its working sizes (`assign_wrong`).

* C71: when only one of the two functions wants memory, the wrapper either never allocates it (`Verif.FnMem.rhs_only_wrong`) or gives it back at once
  and throws at the end (`mat_only_wrong`).  All threads defragment slot 0 of the right-hand side (`defragment_wrong`).  The threads use slots
  `0, .., k - 1` whatever range was allocated (`busy_wrong`); `65536` threads break the encoding (`many_threads_wrong`); with memory for a single
  thread the encoded number is used as a slot (`single_wrong`).

* C72: the generic determinants compare multipliers, which have no scale, with a tolerance that grows with the entries: for entries of `10^14` multipliers
  of size one are skipped and the result is wrong (`Verif.Det.det_scaled_wrong`).  The determinant of a symmetric matrix changes only one half of a row
  while pivots may be taken out of order: it is wrong as soon as a diagonal entry vanishes (`symDet_wrong`).  `Inv` inherits the wrong exchange of C20.

* C73: the maps are kept in tags of the mesh and taken over by every later setup; nothing forces an update, so after a change of the ids (a new
  distribution, an adaptation of the mesh) they lead to wrong elements (`Verif.GidMap.stale_wrong`).  The second array, of runs, lists the elements of all
  dimensions in the array of every dimension (`cont_wrong`); it is not read at present.
- **C75, gathering**: (a) in a product whose factors have d.o.f.s of both kinds on edges (or faces) the loop in the geometric
  order leaves a factor out, so its values are not gathered and the container keeps its old content (`product_wrong`).
  (b) Asked for a component, the version with one tag writes from the beginning of the container, the version with one tag
  per variable behind the shift of the variable (`component_place_wrong`).  (c) For a primitive map given with an array of
  one tag nothing is gathered, without an error (`single_tag_array_wrong`).
- **C76, constants**: (a) in a union with bubbles (`P1 + B4`) the coefficient of the bubble is set too, so the function is not
  the constant at any point off the faces (`mini_wrong`).  (b) In CR1 the functions of the other faces do not vanish on a face,
  so setting the constant on one closed face does not give the constant there (`cr1_face_wrong`).
- **C77, comparison**: `operator>=` of `iteratorByVector` is written with `<` and answers the opposite for every two iterators
  (`ge_wrong`).
- **C78, assignment**: the move assignment of `TagOwned` overwrites the tag of the target without deleting it; the tag goes on to
  exist without an owner (`assign_leaks_wrong`).
- **C79, length and root mean square norm**: `N_VGetLength_Inmost` returns the number of entries of the own process
  (`getLength_wrong`), and the weighted root mean square norms divide the sum over all processes by it, so processes with different
  numbers of entries get different norms of one vector (`wrms_wrong`).
- **C80, product**: in `SUNMatMatvec_Inmost` the declaration `Vector& xv = ..., yv = ...` makes `yv` a copy; the product is lost and
  the result vector keeps its old values (`matvec_wrong`).
- **C80, codes**: after a successful solve above the tolerance `SUNLinSolSolve_Inmost` reports "residual reduced" iff the residual has
  grown and "not converged" iff it is reduced (`code_swapped_wrong`); after a failed solve the codes are right.
- **C81, refused values**: the codes of the setters of KINSOL are not looked at. A refused power `EtaAlpha` is answered with true and
  remembered, and from then on every setting of `EtaGamma` is refused by KINSOL and answered with true (`refused_wrong`); the damping
  0 is let through against the documentation `0 < beta` (`damping_zero_wrong`).
- **C82, residual with unequal numbers**: in `applyDirResidual` with two maps the loop over the matrix stops at the shorter of the two
  iterations, the loop over the right-hand side does not: equations of test d.o.f.s without a partner stay in the matrix and lose
  their right-hand side (`residual_unpaired_wrong`).
- **C83, reversed order**: `getLowerOrderIndex` searches the lower bound in the order that is not reversed. In the reversed one the
  iterator starts with a d.o.f. that may come before the place (`lower_reverse_partial`), and for a place above all d.o.f.s of the
  process, all of which come after it, the iterator is at the end (`lower_reverse_wrong`).
- **C83, element before kind**: the search dereferences the end of the base arrays for some places (`lower_elem_first_wrong`; this is
  `lowerBound_off_wrong` of C05 reached through the enumerator).
- **C84, enumerator of the user**: `setBaseEnumerator` with a pointer or a value does not set the type to "unspecified", so that `setup`
  replaces the enumerator by one of the type set before, by default NATURAL (`glob_base_wrong`). Only the overload with a type sets it.
- **C84, unspecified type**: `setAssemblingType` tests the old type instead of the new one: the unspecified type is accepted and `setup`
  dereferences a null pointer, and after an enumerator of the user no type can be chosen (`glob_type_wrong`).
- **C84, ANITYPE**: the type is documented as ordered by element type, variable, component, d.o.f. and element "without distinction" of the
  oriented and the not oriented kinds. In fact the oriented d.o.f.s of an edge or a face come behind the others of all variables
  (`ani_order` is the order of the code, `ani_order_wrong` the disagreement; `ani_order_doc`: without oriented d.o.f.s there is none).
- **C86, 1000 iterations**: the copy of the digits into a string of four blanks starts at `begin() + 3 - size`, before the string for four
  and more digits (`its_wrong`).

## Plan per property

| id | modelled | proof |
|----|----------|-------|
| C01, C02 | `interval_enum` pair storage, `find_left/find_right/lower_bound_right` (binary search = `upper_bound` contract) | induction over the pair list; inverse + strict monotonicity against the set of values |
| C03 | `interval_map::insert/find/contains` on sorted list of pieces | refinement to `Key -> Option Val`; invariant over all histories |
| C04 | unbounded overloads of `insert`, boundary flags | counterexample by evaluation + partial theorem for the histories that are safe |
| C05 | `ext_range_array_enum` as rank function in lexicographic list | induction over extension steps; `lower_bound` by an invariant of its loop over the table of prefixes |
| C06 | `UniteDofMap` | arithmetic on prefix sums over the 25 tetrahedron elements |
| C07 | `ComplexDofMap` over an abstract base contract | induction on the factor list |
| C08 | `VectorDofMap` | div/mod; `TetDofID` of the code is wrong: negation proved by witness, partial theorem for the cell d.o.f.s and 1-dimensional case |
| C09 | `operator*`, `^`, `merge_with_simplifications`, compression as tree rewriting | structural induction, equality of the list of locations |
| C10 | nested view | induction on path |
| C11 | `BeginByGeomSparsity/IncrementByGeomSparsity` | iteration = filter of all numbers; Vector/Complex variants: counterexamples + partial |
| C12 | `TetGeomSparsity::set/unset` bit sets | finite incidence table, full decide lifted |
| C13 | symmetry tables `index_on_reorderd_elem` | full finite tables by kernel evaluation, lifted to all permutations |
| C14 | `allocateFromRaw/enoughRawSize` with integer addresses | linear arithmetic with `mod` |
| C15 | `DynMem` state machine | invariant under last-in-first-out histories (partial); aliasing witness for arbitrary histories |
| C16 | `DynMemParallel` state machine, operations atomic under the mutex | invariant over all histories |
| C17 | `ParallelFor` split | arithmetic induction |
| C18 | `inverse3x3`, `cross`, `face_normal` over reals | `ring`/`field_simp` |
| C19 | `cholesky_solve` in packed storage, any N | invariant of the elimination loops |
| C20 | `fullPivLU`, `LU_solve` | factorisation invariant; wrong final permutation: witness + partial for involutive column exchanges |
| C21 | `SimpleEnumerator` ANITYPE / MINIBLOCKS, `OrderedEnumerator` | block arithmetic; MINIBLOCKS counterexample |
| C22 | `setupIGlobEnumeration` ranges | prefix sums; counterexample with empty process, partial for non-empty |
| C23 | `getFullIndex`, `GetElemDofId` | prefix-sum search; boundary counterexample for oriented d.o.f.s; partial |
| C24 | `collectConnectivityInfo` | finite case analysis lifted to all ids by relabelling |
| C25 | `createOrderPermutation` | case analysis on order |
| C26 | `isPositivePermutationOrient` | edges: proof; faces: counterexample |
| C27 | `densify/sparsify/copyCSC/fillTemplate` over arrays | loop invariants including in-place overwriting |
| C28 | `assemble_index_encode/decode`, `encode_id/decode_id` | arithmetic |
| C29 | ordered merge of rows | induction on the two lists |
| C30 | assembly loop and interleavings | sum over commutative monoid; permutation invariance; interleaving semantics |
| C31 | template merge | set inclusion induction |
| C32 | status reduction | induction |
| C33 | `prepareOrder` | counterexample for dimension above the element count; partial below |
| C34–C36 | formulas of all primitive spaces | polynomial identities over the reals, `HasDerivAt`-style derivatives |
| C37, C38 | complete quadrature tables (generated module from the source text) | kernel evaluation on exact scaled integers for every monomial, lifted to all polynomials by linearity; integral formula proved |
| C39, C40 | `applyDir*`, `applyVectorDir*` | linear algebra over a field; counterexample for several directions |
| C41 | fused products on flat arrays | loop invariants; stale-buffer counterexample |
| C42 | `getBaryCoord`, geometry initialisation | field identities |
| C43 | `OrderedEnumerator::setArrangment/getArrangement/setup` on top of C05 and C21 | lexicographic comparison through the rank function |
| C44 | all overloads of `applyDU`, the tensor wrappers, `ProcessNormal`, `internalFem3Dtet` over flat memory | loop nests with disjoint addresses; cursor invariant for the in-place convolution; invariant over the parts |
| C45 | `internalFem3DApply` with and without tensor | fused products of C41; counterexamples for several tetrahedra |
| C46 | `GenSpace::InternalOp`, the operators of `VectorFemSpace`, `ComplexFemSpace`, `UnionFemSpace`, `BaseFemSpace` on the stack of `AniMemoryX` | contract `Correct` of an operator, closed under the constructions; frame conditions by address arithmetic |
| C47 | `interpolateOnDOF` of all spaces, the recursion of the compile-time product, the set-up of unions with its matrix, solver, check and dropping of small weights | contract `Dofs` (what is written is a linear functional), closed under the constructions; recovery of coefficients from duality; unions: equivalence with the weights being the inverse matrix; set-up: loop invariants, error bound without assumptions on the solver |
| C48 | the placement of the points, the matrix and the right hand side, the selection of the rows and columns, the solver of C19 and the writing back | the selected matrix is the Gram matrix of the points, symmetric and positive definite iff the functions are independent; minimiser from the normal equations; points by loop invariants |
| C49 | nothing new: the basis functions and degrees of freedom of C34 | P1, P2, P3, B2, B4: the functions are products of functions of one coordinate each, the points are closed under permutations of the nodes (full table); RT0: duality with a rule of one point and uniqueness of the outer normal; ND0: the tangential component is an antisymmetric form of the coordinates |
| C50 | `DOF_coord` of every space which has one | case analysis over the degrees of freedom; affine functions and moments of the rule for P0 and CR1 |
| C51 | operators of compile-time compositions | block matrices appended one after another; induction over the types; DIV and CURL by the theorems of C46 on the same loops; the in-place loop of DUDX flattened |
| C52 | declared polynomial orders | real multivariate polynomials; barycentric coordinates are affine, products of them bound the degree; restriction to a line gives the least degree; derivatives of a polynomial lower the degree by exactly one; induction over the composition |
| C53 | elemental matrices from true basis functions | the basis functions of a composed space are defined by recursion over the composition from those of C34; entries of an operator are components and derivatives (`HasDerivAt`); frame lemmas for every simple operator join C35 with C51; induction over the composition; then `fem3DtetC_exact`; the same for run-time spaces with the lemmas of C46 (`rtOp_right_partial`, `elemental_rt_partial`), where divergences of products of several spaces are excluded because they are wrong (`rtDiv_three_wrong`) |
| C54 | integration drivers | invariants of the loops give the prepared arrays (`Prepared`: points, weights, measures, normals stated by the nodes only); the layout discharges the separation hypotheses of C53; C37 gives the integrals over a simplex after an affine change of variables, C52 the degree of the form. `_partial`: `PerSelection` tensors are excluded (C44), run-time spaces as in C53, exact arithmetic |
| C55 | evaluation drivers | C54 gives the prepared arrays, C53 the matrix of the operator, C45 its product with the degrees of freedom; the operator is linear, so the product is the operator of the combination of the basis functions. `_partial`: one tetrahedron (several: simple spaces in cleared memory), memory as large as the code uses, run-time spaces as in C53, exact arithmetic |
| C56 | automatic differentiation | induction over the expression; each operation is proved to take right operands (value, gradient near the point, Hessian) to a right result by the chain and product rules in Mathlib. `_partial`: at order 2 denominators with a declared second derivative, `hypot` of one positive argument or with a first argument that carries the orders asked for, exact arithmetic |
| C57 | packed physical tensors | the row formula of the numbering is shown injective and onto for all N; loops over the stored entries become sums over the upper triangle and then full sums; loops that write become functions of the position; the tables of the 3D code are checked as a whole. `_partial`: product of symmetric matrices that do not commute, generic bisymmetric index, generic determinant and inverse |
| C58 | strain invariants and stresses | the invariants are polynomials in the entries of C, whose jets (value, gradient, Hessian) come from the product rule; the packed formulas of the code are compared with the jets entry by entry through the table of stored entries, for all values; J by the chain rule for the root; a second-order chain rule for maps between spaces gives the Piola stress and the tangent; the loops of `dS_to_dP` are shown to write every stored position once (whole table of positions) |
| C59 | QR, eigenvalues, singular values | the loops over columns are shown to be reflections `x - t (u, x) u`; before step `k` the remaining columns are the reflected columns of `A` and the finished ones agree with `R` up to an error that later reflections turn but do not lengthen; the Jacobi state keeps orthonormal vectors and the matrix of the form in their basis, a rotation takes exactly the square of the removed entry from the sum of squares; the singular value decomposition follows from the form of the Gram matrix; the sort is shown to permute pairs |
| C60 | memory of the integration drivers | the carved arrays are shown to tile the memory; every step (geometry, operators, tensor, products, blocks, matrix) is shown to leave all numbers behind its own array as they were; the sizes are compared with those demanded; the operators enter by their correctness (C46, C51), so that nothing is assumed about them beyond it |
| C61 | algebra of run-time spaces | a space is a tree; its basis functions are the relation `Nth` of C46, defined without the operations; the simplified products and sums are shown to have the same functions, sizes, orders and dof positions as the plain ones by induction on the trees; with C46 their operators evaluate alike; a sub-space is shown to be a part by induction on the path |
| C62 | equality of run-time spaces | the comparison is shown to be the relation `Alike`, an equivalence, which with equal exponents is equality; the condition of the driver theorem (C54) then follows; without equal exponents a number behind the end of the matrix is shown to be overwritten |
| C63 | metric at a node | a metric is described by the values of its quadratic form; the Jacobi state of C59 keeps orthonormal vectors and the trace whether or not the method succeeds, so that the clamped matrix is a metric in any case; accuracy enters only where `|H|` is compared with `H`; the searches are one lemma on folds that keep the best so far; determinants are computed from the values because the vectors are orthonormal |
| C64 | Hessian of a cell | the divergence theorem on a tetrahedron is proved for polynomials: with barycentric coordinates put in, the mean of a monomial over the cell and over a side are quotients of factorials, the area times the normal is the gradient of a barycentric coordinate times the volume; mixed derivatives of polynomials commute; then the loops, and the matrices of `fem3Dface` by C54 |
| C65 | generated mesh | the loops and the process grid are evaluated to the list of the boxes of each process; twelve families of planes cut the space such that every cell lies in a slab of width one of each family and every node that is not a vertex is cut off by one of the planes; a common point of two cells has weight zero at all vertices that are not common; the cover by cases on the order of the coordinates |
| C66 | diffusion solver | the marks by induction over the loops; the rows after the elimination of a list of Dirichlet d.o.f.s by induction on the list; the assembled system is compared row by row; the patch test by the divergence theorem on every cell (C64), the invariance of integrals over a side under permutations of its vertices, and the cancellation of the inner sides by an involution |
| C67 | iteration by geometry | the expected list of d.o.f.s is written down by nested `flatMap`s; a predicate "every element is followed by the next one" is proved level by level (d.o.f., component, variable, kind, element, dimension) and composed; the loop then equals a fold over the list |
| C68 | copies | a fold of assignments is characterised by the last assignment to a place; places by the tables of C23, loops by C67, numbers by C21 |
| C69 | change of the node enumeration | the meaning of an array is a function of group, copy and the letters at the nodes (`Represents`); the permutation computed from the two padded orders is the relation of the two ranks (from `createOrder_weak`), so by the table of C13 the moved value has the same letters; gathering reads the letters in local order; every array is represented by some function, so gathered values agree and the way back is the identity |
| C70 | local functions | a function is its list of assignments, `delivered` is the last of them; the result of `writeAll` is characterised by the last assignment to an array, zeroing covers exactly the stored entries, expansion of a pattern in place is C27; working sizes by monotonicity of `grow` |
| C71 | memory of the functions | idle pools give the range `[0, k)`; the two ranges are read back from the encoded pair for `k < 65536`; released slots are a permutation of all slots; induction over the assemblings |
| C72 | determinants | one step of the elimination is a row operation and an expansion along a column with one entry (Mathlib); the sign is the place of the row in the list of rows not visited; for symmetric storage the Schur complement stays symmetric when the pivots are met in order |
| C73 | stored maps | the loop of assignments writes different places for different ids; the smallest id is the start of the array; the runs are compared with the storage of C01; the element of a number through `locate` of C21 |
| C74 | integrals | sums over the cells of each thread are regrouped along the list of calls; exactness from C37, cell by cell |
| C75 | gathering | the states of the loop in the geometric order are listed element by element; the list is a rearrangement of the one of C11; assignments to different places commute |
| C76 | constants | the loop meets the chosen d.o.f.s (C11); the functions sum to one (C34) and those of elements outside of the closed element vanish on it |
| C77 | iterator | invariant: the remembered position is invalid or right; induction over the operations |
| C78 | tags | invariants over the reachable states: owners have different existing tags, deleted tags are different and do not exist |
| C79 | vector operations | a store of numbered vectors makes the coincidence of arguments visible; one lemma on loops that read and write the same index; folds over the parts of the processes equal those over the joined list |
| C80 | matrix, solver, assembling | the store with the copy as a further vector; case distinction on the codes; the minimum over the processes |
| C81 | parameters | the names as inductive relations; invariant: remembered values are those of KINSOL; case distinction on the name |
| C82 | Dirichlet, two maps | entries after one pair, then induction over the pairs; the branch for equal maps by C39 |
| C83 | iterator from a place | the lower bound by C05, the numbers of the d.o.f.s by C21; both count keys below, and a count below a key compares as the keys do |
| C84 | choice of the enumerator | the documented orders as keys; their arrangements are permutations with the kind before the element, then C21; ANITYPE: the list of addresses on an element is sorted, then blocks |
| C85 | place in a tag | induction over the search of a common size |
| C86 | printing the iterations | the number of decimal digits |
