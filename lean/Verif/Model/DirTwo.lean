import Verif.Model.Dirichlet

/-!
Model of the imposition of Dirichlet conditions on elemental systems with different maps of the trial and the test space,
`anifem++/fem/tetdofmap.inl:833-943`. The maps enter by the numbers `gid` met by their iteration over the part of the tetrahedron:
`rows` and `cols` for the test and the trial map in the geometric order, `own` for the trial map in its own order.
-/
namespace Verif.Dirichlet

open Verif.Dense

variable {K : Type} [Field K]

/-- the column `j` and then the row `i` are cleared (tetdofmap.inl:882-883, the same lines at 846-847, 917-918, 935-936) -/
def clearRC (n m : Nat) (A : Nat → K) (i j : Nat) : Nat → K :=
  let A := loop (j * n) ((j + 1) * n) (fun p A => wr A p 0) A
  loop 0 m (fun l A => wr A (i + l * n) 0) A

/-- the body of the loop of `applyDirMatrix` with two maps (tetdofmap.inl:845-848) -/
def dirMatrixRC (n m : Nat) (A : Nat → K) (i j : Nat) : Nat → K := wr (clearRC n m A i j) (i + j * n) 1

/-- the body of the loop of `applyDirByDofs` and `applyConstantDirByDofs` with two maps (tetdofmap.inl:912-919, 929-937); `bc` is the
value for the number of the trial d.o.f. -/
def dirRC (n m : Nat) (bc : Nat → K) (s : (Nat → K) × (Nat → K)) (c : Nat × Nat) : (Nat → K) × (Nat → K) :=
  let F := loop 0 n (fun l F => wr F l (F l - s.1 (l + c.2 * n) * bc c.2)) s.2
  let F := wr F c.1 (bc c.2)
  (dirMatrixRC n m s.1 c.1 c.2, F)

/-- `applyDirByDofs` with two maps (tetdofmap.inl:922-939); with a constant `bc` it is `applyConstantDirByDofs` (905-921). `same` is the
answer of `trial_map == test_map`; in that case the version for one map is called (899-904) -/
def dirByDofs (n m : Nat) (same : Bool) (own rows cols : List Nat) (bc : Nat → K) (s : (Nat → K) × (Nat → K)) :
    (Nat → K) × (Nat → K) :=
  if same then own.foldl (fun s k => dir n m s (k, bc k)) s
  else (rows.zip cols).foldl (dirRC n m bc) s

/-- `applyDirMatrix` with two maps (tetdofmap.inl:838-850) -/
def dirMatrixTwo (n m : Nat) (same : Bool) (own rows cols : List Nat) (A : Nat → K) : Nat → K :=
  if same then own.foldl (fun A k => dirMatrix n m A k) A
  else (rows.zip cols).foldl (fun A c => dirMatrixRC n m A c.1 c.2) A

/-- `applyDirResidual` with two maps (tetdofmap.inl:863-866): the matrix, then the right-hand side by the test map; `testOwn` are the
numbers of the test map in its own order (851-855) -/
def dirResidualTwo (n m : Nat) (same : Bool) (own testOwn rows cols : List Nat) (s : (Nat → K) × (Nat → K)) :
    (Nat → K) × (Nat → K) :=
  (dirMatrixTwo n m same own rows cols s.1, testOwn.foldl (fun F k => dirResidual F k) s.2)

/-- `applyDirNonExists` with two maps on the matrix (tetdofmap.inl:874-885) -/
def dirNonExistsTwo (n m : Nat) (same : Bool) (own rows cols : List Nat) (A : Nat → K) : Nat → K :=
  if same then own.foldl (fun A k => dirNonExists n m A k) A
  else (rows.zip cols).foldl (fun A c => clearRC n m A c.1 c.2) A

end Verif.Dirichlet
