import Mathlib.Analysis.SpecialFunctions.Complex.Arg
import Mathlib.Analysis.SpecialFunctions.Trigonometric.Basic
import Verif.Model.LU

/-!
# Model of the decompositions of dense matrices, `anifem++/fem/geometry.h:408-729`

`householderQR`, `jacobi_symmetric_eigen`, `sort_eigen_desc`, `complete_orthonormal_cols`, `gram_ata`,
`gram_aat` and `jacobiSVD` in the build without Eigen.  Real numbers stand for the scalars; the machine
epsilon is a parameter.  Memory is a function from positions to values; the parts of the work array `mem`
(geometry.h:428-429, 672-674) are separate functions.
-/

namespace Verif.Dense

/-! ## Householder QR -/

/-- The work arrays of `householderQR`: `W` is `mem`, `v` and `tau` follow it. (geometry.h:427-429) -/
structure QRState where
  W : Nat → ℝ
  v : Nat → ℝ
  tau : Nat → ℝ

/-- geometry.h:434-437: the norm of column `k` from the diagonal down. -/
noncomputable def qrNorm (N k : Nat) (W : Nat → ℝ) : ℝ :=
  Real.sqrt (loop k N (fun i s => s + W (i + k * N) * W (i + k * N)) 0)

/-- geometry.h:459-465 and, with `Q` for `W`, 484-490: the reflection of column `j`. -/
def reflectCol (N k : Nat) (v : Nat → ℝ) (t : ℝ) (j : Nat) (X : Nat → ℝ) : Nat → ℝ :=
  let dot := loop (k + 1) N (fun i d => d + v i * X (i + j * N)) (v k * X (k + j * N))
  let dot := dot * t
  let X := wr X (k + j * N) (X (k + j * N) - dot * v k)
  loop (k + 1) N (fun i X => wr X (i + j * N) (X (i + j * N) - dot * v i)) X

/-- geometry.h:434-466: step `k` of the factorisation. -/
noncomputable def qrStep (eps : ℝ) (N M k : Nat) (s : QRState) : QRState :=
  let norm := qrNorm N k s.W
  if norm ≤ eps then
    { s with tau := wr s.tau k 0, v := loop (k + 1) N (fun i v => wr v i 0) (wr s.v k 1) }
  else
    let alpha := s.W (k + k * N)
    let beta := if alpha ≥ 0 then -norm else norm
    let tau := wr s.tau k ((beta - alpha) / beta)
    let inv := 1 / (alpha - beta)
    let v := loop (k + 1) N (fun i v => wr v i (s.W (i + k * N) * inv)) (wr s.v k 1)
    let W := wr s.W (k + k * N) beta
    let W := loop (k + 1) N (fun i W => wr W (i + k * N) (v i)) W
    let W := loop (k + 1) M (fun j W => reflectCol N k v (tau k) j W) W
    ⟨W, v, tau⟩

/-- geometry.h:433-467: the factorisation; the arrays `v` and `tau` hold anything before. -/
noncomputable def qrFactor (eps : ℝ) (N M : Nat) (s : QRState) : QRState :=
  loop 0 M (fun k s => qrStep eps N M k s) s

/-- geometry.h:469-471: the upper triangle. -/
noncomputable def qrR (N M : Nat) (W R : Nat → ℝ) : Nat → ℝ :=
  loop 0 M (fun j R => loop 0 M (fun i R => wr R (i + j * M) (if i ≤ j then W (i + j * N) else 0)) R) R

/-- geometry.h:473-475 and 501-503: the identity. -/
def identFill (N : Nat) (Q : Nat → ℝ) : Nat → ℝ :=
  loop 0 N (fun j Q => loop 0 N (fun i Q => wr Q (i + j * N) (if i = j then 1 else 0)) Q) Q

/-- geometry.h:477-492: the reflections are applied to the identity, the last one first.  The state holds
`v` and `Q`. -/
noncomputable def qrQ (N M : Nat) (s : QRState) (Q : Nat → ℝ) : Nat → ℝ :=
  (loopDown 0 M (fun k (p : (Nat → ℝ) × (Nat → ℝ)) =>
    if s.tau k = 0 then p
    else
      let v := loop (k + 1) N (fun i v => wr v i (s.W (i + k * N))) (wr p.1 k 1)
      (v, loop 0 N (fun j Q => reflectCol N k v (s.tau k) j Q) p.2)) (s.v, identFill N Q)).2

/-- `householderQR`: geometry.h:416-495; the memory of `Q` and `R` afterwards. -/
noncomputable def householderQR (eps : ℝ) (N M : Nat) (A Q R v tau : Nat → ℝ) : (Nat → ℝ) × (Nat → ℝ) :=
  let s := qrFactor eps N M ⟨A, v, tau⟩
  (qrQ N M s Q, qrR N M s.W R)

/-! ## Jacobi's method -/

/-- The matrix and the eigenvectors. (geometry.h:500) -/
structure JState where
  sym : Nat → ℝ
  V : Nat → ℝ

/-- geometry.h:524-526: the angle; `std::atan2(y, x)` is the argument of `x + iy`. -/
noncomputable def jacobiAngle (app aqq apq : ℝ) : ℝ := 1 / 2 * Complex.arg ⟨aqq - app, 2 * apq⟩

/-- geometry.h:528-535: the rows and columns `p` and `q` outside of the crossing. -/
def rotSym (n p q : Nat) (c s : ℝ) (m : Nat → ℝ) : Nat → ℝ :=
  loop 0 n (fun k m =>
    if k = p ∨ k = q then m
    else
      let gkp := m (k + p * n)
      let gkq := m (k + q * n)
      let m := wr (wr m (p + k * n) (c * gkp - s * gkq)) (k + p * n) (c * gkp - s * gkq)
      wr (wr m (q + k * n) (s * gkp + c * gkq)) (k + q * n) (s * gkp + c * gkq)) m

/-- geometry.h:540-545: the columns `p` and `q` of the eigenvectors. -/
def rotV (n p q : Nat) (c s : ℝ) (V : Nat → ℝ) : Nat → ℝ :=
  loop 0 n (fun k V =>
    let vkp := V (k + p * n)
    let vkq := V (k + q * n)
    wr (wr V (k + p * n) (c * vkp - s * vkq)) (k + q * n) (s * vkp + c * vkq)) V

/-- geometry.h:519-545: one rotation. -/
noncomputable def jacobiRot (tol : ℝ) (n p q : Nat) (x : JState) : JState :=
  let apq := x.sym (p + q * n)
  if |apq| ≤ tol then x
  else
    let app := x.sym (p + p * n)
    let aqq := x.sym (q + q * n)
    let θ := jacobiAngle app aqq apq
    let c := Real.cos θ
    let s := Real.sin θ
    let m := rotSym n p q c s x.sym
    let m := wr m (p + p * n) (c * c * app - 2 * s * c * apq + s * s * aqq)
    let m := wr m (q + q * n) (s * s * app + 2 * s * c * apq + c * c * aqq)
    let m := wr (wr m (q + p * n) 0) (p + q * n) 0
    ⟨m, rotV n p q c s x.V⟩

/-- geometry.h:517-547: one sweep. -/
noncomputable def jacobiSweep (tol : ℝ) (n : Nat) (x : JState) : JState :=
  loop 0 n (fun p x => loop (p + 1) n (fun q x => jacobiRot tol n p q x) x) x

/-- geometry.h:508-511: the squares above the diagonal. -/
def jacobiOff (n : Nat) (m : Nat → ℝ) : ℝ :=
  loop 0 n (fun p o => loop (p + 1) n (fun q o => o + m (p + q * n) * m (p + q * n)) o) 0

/-- geometry.h:507-548: at most `f` more sweeps; `true` is `err = 1`. -/
noncomputable def jacobiRun (tol : ℝ) (n : Nat) : Nat → JState → Bool × JState
  | 0, x => (true, x)
  | f + 1, x =>
    if jacobiOff n x.sym ≤ tol * tol then (false, x) else jacobiRun tol n f (jacobiSweep tol n x)

/-- geometry.h:505 `tol`. -/
noncomputable def jacobiTol (eps : ℝ) (n : Nat) : ℝ := 10 * n * n * eps

/-- `jacobi_symmetric_eigen`: geometry.h:500-556 with the limit of sweeps of 19-20; `none` is the return
value 1, otherwise the memory of `eval` and `evecs` afterwards. -/
noncomputable def jacobiEigen (eps : ℝ) (n : Nat) (sym eval evecs : Nat → ℝ) :
    Option ((Nat → ℝ) × (Nat → ℝ)) :=
  let r := jacobiRun (jacobiTol eps n) n 50 ⟨sym, identFill n evecs⟩
  if r.1 then none
  else some (loop 0 n (fun i e => wr e i (r.2.sym (i + i * n))) eval, r.2.V)

/-! ## Singular values -/

/-- geometry.h:561-564: the place of the largest value from `i` on. -/
noncomputable def sortBest (n i : Nat) (eval : Nat → ℝ) : Nat :=
  loop (i + 1) n (fun j best => if eval j > eval best then j else best) i

/-- `sort_eigen_desc`: geometry.h:559-571. -/
noncomputable def sortDesc (n : Nat) (x : (Nat → ℝ) × (Nat → ℝ)) : (Nat → ℝ) × (Nat → ℝ) :=
  loop 0 n (fun i x =>
    let best := sortBest n i x.1
    if best = i then x
    else (swapAt x.1 i best, loop 0 n (fun k e => swapAt e (k + i * n) (k + best * n)) x.2)) x

/-- geometry.h:579-585 and 593-599: the projections on the columns before `j` are subtracted. -/
def gramSchmidt (n j : Nat) (q : Nat → ℝ) : Nat → ℝ :=
  loop 0 j (fun c q =>
    let dot := loop 0 n (fun i d => d + q (i + c * n) * q (i + j * n)) 0
    loop 0 n (fun i q => wr q (i + j * n) (q (i + j * n) - dot * q (i + c * n))) q) q

/-- geometry.h:586-589 and 600-603: the norm of column `j`. -/
noncomputable def colNorm (n j : Nat) (q : Nat → ℝ) : ℝ :=
  Real.sqrt (loop 0 n (fun i s => s + q (i + j * n) * q (i + j * n)) 0)

/-- geometry.h:577-578 and 591-592: column `j` is a unit vector. -/
def unitCol (n j e : Nat) (q : Nat → ℝ) : Nat → ℝ :=
  loop 0 n (fun i q => wr q (i + j * n) (if i = e then 1 else 0)) q

/-- geometry.h:577-607: column `j` is completed. -/
noncomputable def completeCol (eps : ℝ) (n done j : Nat) (q : Nat → ℝ) : Nat → ℝ :=
  let q := gramSchmidt n j (unitCol n j ((j - done) % n) q)
  let q := if colNorm n j q ≤ eps then gramSchmidt n j (unitCol n j ((j + 1) % n) q) else q
  if colNorm n j q > eps then
    let norm := colNorm n j q
    loop 0 n (fun i q => wr q (i + j * n) (q (i + j * n) / norm)) q
  else q

/-- `complete_orthonormal_cols`: geometry.h:574-609. -/
noncomputable def completeCols (eps : ℝ) (n done : Nat) (q : Nat → ℝ) : Nat → ℝ :=
  loop done n (fun j q => completeCol eps n done j q) q

/-- `gram_ata`: geometry.h:612-621. -/
def gramAta (a : Nat → ℝ) (n m : Nat) (g : Nat → ℝ) : Nat → ℝ :=
  loop 0 m (fun j g => loop j m (fun k g =>
    let s := loop 0 n (fun i s => s + a (i + j * n) * a (i + k * n)) 0
    wr (wr g (k + j * m) s) (j + k * m) s) g) g

/-- `gram_aat`: geometry.h:624-633. -/
def gramAat (a : Nat → ℝ) (n m : Nat) (g : Nat → ℝ) : Nat → ℝ :=
  loop 0 n (fun j g => loop j n (fun k g =>
    let s := loop 0 m (fun i s => s + a (j + i * n) * a (k + i * n)) 0
    wr (wr g (k + j * n) s) (j + k * n) s) g) g

/-- geometry.h:686-698: the images of the eigenvectors, divided by the singular values.  `row i t` is the
entry of `A` at 691 (and at 716 with `A` transposed). -/
noncomputable def svdImages (eps : ℝ) (N M : Nat) (row : Nat → Nat → ℝ) (S evecs U : Nat → ℝ) : Nat → ℝ :=
  loop 0 M (fun j U =>
    if S j > eps then
      loop 0 N (fun i U => wr U (i + j * N)
        (loop 0 M (fun t s => s + row i t * evecs (t + j * M)) 0 / S j)) U
    else loop 0 N (fun i U => wr U (i + j * N) 0) U) U

/-- geometry.h:682-683, 707-708: the singular values. -/
noncomputable def svdValues (K : Nat) (eval S : Nat → ℝ) : Nat → ℝ :=
  loop 0 K (fun i S => wr S i (Real.sqrt (max 0 (eval i)))) S

/-- The memory that `jacobiSVD` returns. (geometry.h:647) -/
structure SVD where
  U : Nat → ℝ
  S : Nat → ℝ
  V : Nat → ℝ

/-- `jacobiSVD`: geometry.h:647-729 with `U` and `V` asked for; `none` is the return value 1.  `x` is the
memory before, `g` and `e` are the parts `gram` and `eval` of the work array. -/
noncomputable def jacobiSVD (eps : ℝ) (A : Nat → ℝ) (N M : Nat) (x : SVD) (g e : Nat → ℝ) : Option SVD :=
  if N ≥ M then
    (jacobiEigen eps M (gramAta A N M g) e x.V).map fun r =>
      let r := sortDesc M r
      let S := svdValues M r.1 x.S
      ⟨completeCols eps N M (svdImages eps N M (fun i t => A (i + t * N)) S r.2 x.U), S, r.2⟩
  else
    (jacobiEigen eps N (gramAat A N M g) e x.U).map fun r =>
      let r := sortDesc N r
      let S := svdValues N r.1 x.S
      ⟨r.2, S, completeCols eps M N (svdImages eps M N (fun i t => A (t + i * N)) S r.2 x.V)⟩

end Verif.Dense
