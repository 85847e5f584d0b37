import Verif.Model.Cholesky

/-!
Model of the fused products of elemental matrices, `anifem++/fem/operations/core.inl:28-92`, in the build without Eigen
(or with `not_use_eigen`).  Scalars are an arbitrary commutative ring, memory is a function from positions to values.
-/
namespace Verif.Fused

open Verif.Dense

variable {K : Type} [CommRing K]

/-- core.inl:38-48 `fusive_AT_mul_B`: the result memory afterwards. -/
def atMulB (fuse nRow : Nat) (A : Nat → K) (aCol : Nat) (B : Nat → K) (bCol : Nat) (R : Nat → K) : Nat → K :=
  loop 0 fuse (fun r R => loop 0 bCol (fun ia R => loop 0 aCol (fun ib R =>
    wr R (ib + aCol * (ia + bCol * r))
      (loop 0 nRow (fun j s => s + B (j + nRow * (ia + bCol * r)) * A (j + nRow * (ib + aCol * r))) 0)) R) R) R

/-- core.inl:69-78 `fusive_A_mul_B`: the result memory afterwards.  The fill of line 73 covers only the first block. -/
def aMulB (fuse aCol : Nat) (A : Nat → K) (aRow : Nat) (B : Nat → K) (bCol : Nat) (R : Nat → K) : Nat → K :=
  let R := loop 0 (aRow * bCol) (fun p R => wr R p 0) R
  loop 0 fuse (fun r R => loop 0 aCol (fun j R => loop 0 aRow (fun ib R => loop 0 bCol (fun ia R =>
    wr R (ib + aRow * (ia + bCol * r)) (R (ib + aRow * (ia + bCol * r)) +
      A (ib + aRow * (j + aCol * r)) * B (j + aCol * (ia + bCol * r)))) R) R) R) R

end Verif.Fused
