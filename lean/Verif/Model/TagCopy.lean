import Verif.Spec.TagCopy
import Verif.Model.GeomWalk
import Mathlib.Logic.Function.Basic

/-!
Model of the copies between vectors and values stored on mesh elements
(`/repo/anifem++/inmost_interface/global_enumerator.cpp:6-225`).

A tag is a map from (dimension, local number, position) to values, a vector a map from numbers to values.  The exchange of values of ghost
elements between processes (`ExchangeData`) is part of INMOST and not modelled: the maps are those before the exchange.  The
assertions are left out.  `fuel` bounds the number of passes of the loops over the iterator.
-/
namespace Verif.TagCopy
open Verif.Enumerator Verif.GeomWalk Verif.DofMap

variable {R : Type}

/-- one assignment; `none` stands for an undefined index and changes nothing (shown not to occur), e.g. global_enumerator.cpp:15 -/
def store {κ : Type} [DecidableEq κ] (t : κ → R) : Option (κ × R) → κ → R
  | none => t
  | some (k, v) => Function.update t k v

section
variable (idx : Place → Option Nat) (vars : List Var) (m : Mesh) (fuel : Nat)

/-- global_enumerator.cpp:6-18 `CopyByEnumeration(Vector, Tag)` -/
def vecToTag (src : Nat → R) (dst : Cell → R) : Cell → R :=
  forEach everything m vars (fun t p => store t ((idx p).bind fun n => (fullIndex vars p.addr).map fun e =>
    ((dimOf p.addr.num, p.lid, e.elemDofId), src n))) fuel (begin everything m vars) dst

/-- global_enumerator.cpp:20-26 `CopyByEnumeration(Tag, Vector)` -/
def tagToVec (src : Cell → R) (dst : Nat → R) : Nat → R :=
  forEach everything m vars (fun w p => store w ((idx p).bind fun n => (fullIndex vars p.addr).map fun e =>
    (n, src (dimOf p.addr.num, p.lid, e.elemDofId)))) fuel (begin everything m vars) dst

/-- global_enumerator.cpp:28-35 `CopyByEnumeration(vector<Tag>, Vector)` -/
def tagsToVec (src : Nat × Cell → R) (dst : Nat → R) : Nat → R :=
  forEach everything m vars (fun w p => store w ((idx p).bind fun n => (fullIndex vars p.addr).map fun e =>
    (n, src (e.addr.var, dimOf p.addr.num, p.lid, e.singleDofId)))) fuel (begin everything m vars) dst

/-- global_enumerator.cpp:37-63 `CopyByEnumeration(Vector, vector<Tag>)` -/
def vecToTags (src : Nat → R) (dst : Nat × Cell → R) : Nat × Cell → R :=
  forEach everything m vars (fun t p => store t ((idx p).bind fun n => (fullIndex vars p.addr).map fun e =>
    ((e.addr.var, dimOf p.addr.num, p.lid, e.singleDofId), src n))) fuel (begin everything m vars) dst

/-- global_enumerator.cpp:143-157 `CopyVarByEnumeration(Vector, Tag, v)` -/
def vecToVarTag (v : Nat) (src : Nat → R) (dst : Cell → R) : Cell → R :=
  forEach (ofVar v) m vars (fun t p => store t ((idx p).bind fun n => (fullIndex vars p.addr).map fun e =>
    ((dimOf p.addr.num, p.lid, e.singleDofId), src n))) fuel (begin (ofVar v) m vars) dst

end

/-- global_enumerator.cpp:91, 122, 167, 194 `etnum_lookup_prt` -/
def lookup : Nat → Nat
  | 0 => 0 | 1 => 1 | 2 => 3 | 3 => 5 | _ => 6

/-- global_enumerator.cpp:100-104 (131-135, 175-179, 202-206): `tshift`, an `unsigned char` -/
def tshift (vars : List Var) (d e : Nat) : Nat :=
  (List.range' (lookup d) (e - lookup d)).foldl (fun s lt => (s + pre (vars.map (·.numDof lt)) vars.length) % 256) 0

/-- global_enumerator.cpp:100-104 (131-135, 175-179, 202-206): `tvshift`, an `unsigned char` -/
def tvshift (vars : List Var) (d e v : Nat) : Nat :=
  (List.range' (lookup d) (e - lookup d)).foldl (fun s lt =>
    (s + (pre (vars.map (·.numDof lt)) (v + 1) - pre (vars.map (·.numDof lt)) v)) % 256) 0

/-- global_enumerator.cpp:171-181 (198-208, 95-106, 126-137), the loop over the d.o.f.s of variable `v` of kind `e`: (place in the common array, place in the array of the
variable) -/
def pairs (vars : List Var) (d e v : Nat) : List (Nat × Nat) :=
  (List.range (pre (vars.map (·.numDof e)) (v + 1) - pre (vars.map (·.numDof e)) v)).map fun k =>
    (tshift vars d e + pre (vars.map (·.numDof e)) v + k, k + tvshift vars d e v)

/-- global_enumerator.cpp:94-109, 125-139: the pairs of all the variables on one element -/
def pairsAll (vars : List Var) (d : Nat) : List (Nat × Nat × Nat) :=
  (List.range' (lookup d) (lookup (d + 1) - lookup d)).flatMap fun e => (List.range vars.length).flatMap fun v =>
    (pairs vars d e v).map fun p => (v, p)

/-- global_enumerator.cpp:170-182, 197-209: the pairs of one variable on one element -/
def pairsVar (vars : List Var) (d v : Nat) : List (Nat × Nat) :=
  (List.range' (lookup d) (lookup (d + 1) - lookup d)).flatMap fun e => pairs vars d e v

/-- global_enumerator.cpp:78-111 `CopyByEnumeration(Tag, vector<Tag>)`, the arrays of one element; the passes for different elements touch
different arrays -/
def tagToTags (vars : List Var) (d : Nat) (src : Nat → R) (dst : Nat × Nat → R) : Nat × Nat → R :=
  (pairsAll vars d).foldl (fun t x => store t (some ((x.1, x.2.2), src x.2.1))) dst

/-- global_enumerator.cpp:113-141 `CopyByEnumeration(vector<Tag>, Tag)`, the arrays of one element -/
def tagsToTag (vars : List Var) (d : Nat) (src : Nat × Nat → R) (dst : Nat → R) : Nat → R :=
  (pairsAll vars d).foldl (fun t x => store t (some (x.2.1, src (x.1, x.2.2)))) dst

/-- global_enumerator.cpp:159-184 `CopyVarByEnumeration(Tag, Tag, v)`, the arrays of one element -/
def tagToVarTag (vars : List Var) (d v : Nat) (src dst : Nat → R) : Nat → R :=
  (pairsVar vars d v).foldl (fun t x => store t (some (x.2, src x.1))) dst

/-- global_enumerator.cpp:186-211 `CopyVarByEnumeration(Tag, v, Tag)`, the arrays of one element -/
def varTagToTag (vars : List Var) (d v : Nat) (src dst : Nat → R) : Nat → R :=
  (pairsVar vars d v).foldl (fun t x => store t (some (x.1, src x.2))) dst

/-- global_enumerator.cpp:73-74, 222-223: the first `n` values of an array are copied -/
def copyFirst (n : Nat) (src dst : Nat → R) : Nat → R := (List.range n).foldl (fun t k => store t (some (k, src k))) dst

/-- global_enumerator.cpp:65-76 `CopyByEnumeration(Tag, Tag)`, the arrays of one element -/
def tagToTag (vars : List Var) (d : Nat) (src dst : Nat → R) : Nat → R := copyFirst (inmostNumDof (numDofs vars) d) src dst

/-- global_enumerator.cpp:213-225 `CopyVarByEnumeration(v, Tag, Tag)`, the arrays of one element -/
def varTagToVarTag (x : Var) (d : Nat) (src dst : Nat → R) : Nat → R := copyFirst (inmostNumDof x.numDof d) src dst

end Verif.TagCopy
