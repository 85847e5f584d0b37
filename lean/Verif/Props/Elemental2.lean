import Verif.Props.Elemental
import Verif.Lemmas.Elemental3
import Mathlib.Tactic.IntervalCases
import Mathlib.Algebra.Ring.Int.Defs

/-!
C44: the elemental matrix is the quadrature sum of the bilinear form.
-/
set_option linter.unusedSectionVars false
set_option linter.unusedVariables false
namespace Verif.Elemental

open Verif.Dense

variable {K : Type} [CommRing K]

/-- The tensor which acts between the operators: the user's tensor, or its convolution with the normal over the index of
the coordinate. -/
def acting (nrm : Option (Nat → K)) (M : Nat → Nat → Nat → Nat → K) (n r k l : Nat) : K :=
  match nrm with
  | none => M n r k l
  | some nr => ∑ c ∈ Finset.range 3, M n r (c + 3 * k) l * nr (3 * r + c)

/-- The entry of the elemental matrix of tetrahedron `r` for trial function `i` and test function `j`:
`∑ w |T| (D U φ_i) · (V ψ_j)` over the points. -/
def entry (U V : Band K) (dimA dimB q : Nat) (w mes : Nat → K) (M : Nat → Nat → Nat → Nat → K) (r i j : Nat) : K :=
  ∑ n ∈ Finset.range q, w n * mes r * ∑ k ∈ Finset.range dimB, V.val q k n j r *
    ∑ l ∈ Finset.range dimA, M n r k l * U.val q l n i r

theorem zeroDU_cleared (a : Args K) (size : Nat) (hs : size = a.q * a.f * a.jdim * a.nfa) (DU : Nat → K) :
    Cleared a (zeroDU a.U size DU) ∨ a.U.nparts = 0 := by
  unfold zeroDU
  by_cases h : a.U.nparts > 1
  · left
    right
    intro r hr i hi n hn k hk
    rw [if_pos h]
    have hlt := addr_lt hk hn hi hr
    have : size = a.jdim * (a.q * (a.nfa * a.f)) := by rw [hs]; ring
    exact loop_at (fun _ => 0) (Nat.zero_le _) (by omega) (fun t => wr_same _ _ _) (fun j t _ _ hne => wr_ne _ _ (by omega))
  · by_cases h1 : a.U.nparts = 1
    · left
      left
      exact h1
    · right
      omega

/-- **C44**, for any overload of `applyDU` which fills `DU` rightly. -/
theorem fem3Dtet_of_isDU (apply : Args K → (Nat → K) → Option (Nat → K)) (U V : Band K) (dimA dimB nfA nfB q f : Nat)
    (w mes xyg : Nat → K) (nrm : Option (Nat → K)) (DU DIFF extraR A : Nat → K)
    (okU : U.Ok q dimA nfA) (okV : V.Ok q dimB nfB) (hn : 0 < nfA) (M : Nat → Nat → Nat → Nat → K)
    (happ : ∀ DU, Cleared ⟨U, dimA, dimB * (if nrm.isSome then 3 else 1), q, f, nfA, w, mes, xyg⟩ DU →
      ∃ DU', apply ⟨U, dimA, dimB * (if nrm.isSome then 3 else 1), q, f, nfA, w, mes, xyg⟩ DU = some DU' ∧
        IsDU ⟨U, dimA, dimB * (if nrm.isSome then 3 else 1), q, f, nfA, w, mes, xyg⟩ M DU') :
    ∃ A', fem3Dtet apply U V dimA dimB nfA nfB q f w mes xyg nrm DU DIFF extraR A = some A' ∧
      ∀ r, r < f → ∀ i, i < nfA → ∀ j, j < nfB → A' (j + nfB * (i + nfA * r)) =
        entry U V dimA dimB q w mes (acting nrm M) r i j := by
  have hclear := (zeroDU_cleared ⟨U, dimA, dimB * (if nrm.isSome then 3 else 1), q, f, nfA, w, mes, xyg⟩
    (q * f * dimB * nfA * (if nrm.isSome then 3 else 1)) (by ring) DU).resolve_right (by
      intro h0
      have h1 : U.nparts = 0 := h0
      have := okU.colN
      rw [h1, okU.col0] at this
      omega)
  obtain ⟨DU', h1, h2⟩ := happ _ hclear
  unfold fem3Dtet
  dsimp only
  rw [h1]
  refine ⟨_, rfl, fun r hr i hi j hj => ?_⟩
  dsimp only
  rw [mulV_at okV _ _ _ _ hr hi hj]
  unfold entry
  refine Finset.sum_congr rfl (fun n hn => ?_)
  rw [Finset.mul_sum]
  refine Finset.sum_congr rfl (fun k hk => ?_)
  have hn' := Finset.mem_range.mp hn
  have hk' := Finset.mem_range.mp hk
  cases nrm with
  | none =>
    have := h2 r hr i hi n hn' k (by simpa using hk')
    simp only [Option.isSome_none, Bool.false_eq_true, if_false, Nat.mul_one] at this
    simp only [acting, this]
    ring
  | some nr =>
    have h3 : ∀ c, c < 3 → DU' (addr (dimB * 3) q nfA (c + 3 * k) n i r) =
        w n * mes r * ∑ l ∈ Finset.range dimA, M n r (c + 3 * k) l * U.val q l n i r := by
      intro c hc
      have := h2 r hr i hi n hn' (c + 3 * k) (by simp only [Option.isSome_some, if_true]; omega)
      simp only [Option.isSome_some, if_true] at this
      exact this
    simp only [Option.isSome_some, if_true]
    rw [processNormal_at nr DU' hk' hn' hi hr, h3 0 (by decide), h3 1 (by decide), h3 2 (by decide)]
    simp only [acting, Finset.sum_range_succ, Finset.sum_range_zero, zero_add, Nat.add_zero, add_mul, Finset.sum_add_distrib,
      Finset.mul_sum, Finset.sum_mul, mul_add]
    congr 1
    congr 1
    all_goals exact Finset.sum_congr rfl (fun l _ => by ring)

/-- **C44.** `internalFem3Dtet`: whatever the operators (one part or several), the traits of the tensor (other than a type
common to the selection), the convolution with the normal and the previous contents of all memory, every entry of every
elemental matrix is the quadrature sum of the bilinear form with the user's tensor. -/
theorem fem3Dtet_exact (tr : Traits) (htr : tr ≠ .perSelection) (fn : UserD K) (U V : Band K)
    (dimA dimB nfA nfB q f : Nat) (w mes xyg : Nat → K) (nrm : Option (Nat → K)) (D DU DIFF extraR A : Nat → K)
    (okU : U.Ok q dimA nfA) (okV : V.Ok q dimB nfB) (hn : 0 < nfA) (hq : 0 < q) (hf : 0 < f)
    (hfit : ∀ r, r < f → ∀ n, n < q →
      Fits (dimB * (if nrm.isSome then 3 else 1)) dimA nfA (fn (xpt xyg q n r) r))
    (hold : tr.Holds fn ⟨U, dimA, dimB * (if nrm.isSome then 3 else 1), q, f, nfA, w, mes, xyg⟩) :
    ∃ A', fem3Dtet (fun a DU => applyDU tr fn a D DU) U V dimA dimB nfA nfB q f w mes xyg nrm DU DIFF extraR A = some A' ∧
      ∀ r, r < f → ∀ i, i < nfA → ∀ j, j < nfB → A' (j + nfB * (i + nfA * r)) =
        entry U V dimA dimB q w mes (acting nrm (fun n r k l =>
          tensor (dimB * (if nrm.isSome then 3 else 1)) dimA (fn (xpt xyg q n r) r) k l)) r i j :=
  fem3Dtet_of_isDU _ U V dimA dimB nfA nfB q f w mes xyg nrm DU DIFF extraR A okU okV hn _
    (fun DU hz => applyDU_exact tr htr fn ⟨U, dimA, dimB * (if nrm.isSome then 3 else 1), q, f, nfA, w, mes, xyg⟩ okU hq hf
      hfit hold D DU hz)

/-- **C44** for a type common to the selection: under the additional condition that a full tensor does not depend on the
number of the tetrahedron. -/
theorem fem3Dtet_selection_partial (fn : UserD K) (U V : Band K)
    (dimA dimB nfA nfB q f : Nat) (w mes xyg : Nat → K) (nrm : Option (Nat → K)) (D DU DIFF extraR A : Nat → K)
    (okU : U.Ok q dimA nfA) (okV : V.Ok q dimB nfB) (hn : 0 < nfA) (hq : 0 < q) (hf : 0 < f)
    (hfit : ∀ r, r < f → ∀ n, n < q →
      Fits (dimB * (if nrm.isSome then 3 else 1)) dimA nfA (fn (xpt xyg q n r) r))
    (hold : Traits.perSelection.Holds fn ⟨U, dimA, dimB * (if nrm.isSome then 3 else 1), q, f, nfA, w, mes, xyg⟩)
    (hnum : (fn (xpt xyg q 0 0) 0).1.full = true → ∀ r, r < f → ∀ n, n < q →
      fn (xpt xyg q n r) 0 = fn (xpt xyg q n r) r) :
    ∃ A', fem3Dtet (fun a DU => applyDU .perSelection fn a D DU) U V dimA dimB nfA nfB q f w mes xyg nrm DU DIFF extraR A =
        some A' ∧
      ∀ r, r < f → ∀ i, i < nfA → ∀ j, j < nfB → A' (j + nfB * (i + nfA * r)) =
        entry U V dimA dimB q w mes (acting nrm (fun n r k l =>
          tensor (dimB * (if nrm.isSome then 3 else 1)) dimA (fn (xpt xyg q n r) r) k l)) r i j :=
  fem3Dtet_of_isDU _ U V dimA dimB nfA nfB q f w mes xyg nrm DU DIFF extraR A okU okV hn _
    (fun DU hz => applyDU_selection_partial fn ⟨U, dimA, dimB * (if nrm.isSome then 3 else 1), q, f, nfA, w, mes, xyg⟩ okU hq
      hf hfit hold hnum D DU hz)

/-- A dense matrix is a storage with one part. -/
theorem convToBand_ok (A : Nat → K) (q dim nf : Nat) : (convToBand A (q * dim) dim nf).Ok q dim nf where
  row0 := rfl
  rowN := rfl
  rowMono d hd := by
    have : d < 1 := hd
    have : d = 0 := by omega
    subst this
    exact Nat.zero_le _
  col0 := rfl
  colN := rfl
  colMono d hd := by
    have : d < 1 := hd
    have : d = 0 := by omega
    subst this
    exact Nat.zero_le _
  rows d hd := by
    have : d < 1 := hd
    have : d = 0 := by omega
    subst this
    rfl

/-- The value stored by a dense matrix. -/
theorem convToBand_val (A : Nat → K) (q dim nf l n i r : Nat) (hl : l < dim) (hi : i < nf) :
    (convToBand A (q * dim) dim nf).val q l n i r = A (l + dim * n + q * dim * (i + nf * r)) := by
  rw [val_eq (convToBand_ok A q dim nf) (d := 0) (show 0 < 1 by decide) (Nat.zero_le _) hi]
  exact if_pos ⟨Nat.zero_le _, hl⟩

/-- An operator with two parts of one row and one column each: `diag(r + 2, 10 (r + 2))` on tetrahedron `r`, one point. -/
def demoU : Band ℤ where
  nparts := 2
  data d p := if d = 0 then (p : ℤ) + 2 else 10 * ((p : ℤ) + 2)
  nRow _ := 1
  stRow d := d
  stCol d := d

theorem demoU_ok : demoU.Ok 1 2 2 where
  row0 := rfl
  rowN := rfl
  rowMono d _ := Nat.le_succ d
  col0 := rfl
  colN := rfl
  colMono d _ := Nat.le_succ d
  rows d _ := by
    show 1 = 1 * (d + 1 - d)
    omega

/-- A full tensor `[[1, 3], [2, 4]]` scaled by the number of the tetrahedron plus one. -/
def demoD : UserD ℤ := fun _ t => (.general, fun p => (p + 1 : ℤ) * (t + 1))

/-- Two tetrahedrons, tensor evaluated per point, dirty memory: all hypotheses of `fem3Dtet_exact` hold. -/
example : ∃ A', fem3Dtet (fun a DU => applyDU .perPoint demoD a (fun _ => 7) DU) demoU demoU 2 2 2 2 1 2 (fun _ => 1)
      (fun _ => 1) (fun _ => 0) none (fun _ => 5) (fun _ => 6) (fun _ => 8) (fun _ => 9) = some A' ∧
    ∀ r, r < 2 → ∀ i, i < 2 → ∀ j, j < 2 → A' (j + 2 * (i + 2 * r)) =
      entry demoU demoU 2 2 1 (fun _ => 1) (fun _ => 1) (acting none (fun n r k l =>
        tensor 2 2 (demoD (xpt (fun _ => 0) 1 n r) r) k l)) r i j :=
  fem3Dtet_exact .perPoint (by decide) demoD demoU demoU 2 2 2 2 1 2 _ _ _ none _ _ _ _ _ demoU_ok demoU_ok (by decide)
    (by decide) (by decide) (fun _ _ _ _ => trivial) trivial

/-- The numbers of that case. -/
example : (fem3Dtet (fun a DU => applyDU .perPoint demoD a (fun _ => 7) DU) demoU demoU 2 2 2 2 1 2 (fun _ => 1)
      (fun _ => 1) (fun _ => 0) none (fun _ => 5) (fun _ => 6) (fun _ => 8) (fun _ => 9)).map
      (fun A => (List.range 9).map A) = some [4, 80, 120, 1600, 18, 360, 540, 7200, 9] := by decide +kernel

/-- The hypotheses of `applyDU_exact` hold for a type which differs from tetrahedron to tetrahedron: identity on the first,
a full matrix on the second. -/
def demoMix : UserD ℤ := fun _ t => if t = 0 then (.null, fun _ => 0) else (.general, fun p => (p + 1 : ℤ))

example : ∃ DU', applyDU .perTetra demoMix ⟨demoU, 2, 2, 1, 2, 2, fun _ => 1, fun r => r + 1, fun _ => 0⟩ (fun _ => 4)
      (fun _ => 0) = some DU' ∧ IsDU ⟨demoU, 2, 2, 1, 2, 2, fun _ => 1, fun r => r + 1, fun _ => 0⟩
        (atPoint demoMix ⟨demoU, 2, 2, 1, 2, 2, fun _ => 1, fun r => r + 1, fun _ => 0⟩) DU' := by
  refine applyDU_exact .perTetra (by decide) demoMix ⟨demoU, 2, 2, 1, 2, 2, fun _ => 1, fun r => r + 1, fun _ => 0⟩ demoU_ok
    (show 0 < 1 by decide) (show 0 < 2 by decide) (fun r hr n hn => ?_) (fun r hr n hn => ⟨rfl, fun _ => rfl⟩) _ _
    (Or.inr (fun _ _ _ _ _ _ _ _ => rfl))
  have hr2 : r = 0 ∨ r = 1 := by
    have : r < 2 := hr
    omega
  rcases hr2 with rfl | rfl
  · exact Or.inl rfl
  · exact trivial

example : (applyDU .perTetra demoMix ⟨demoU, 2, 2, 1, 2, 2, fun _ => 1, fun r => r + 1, fun _ => 0⟩ (fun _ => 4)
      (fun _ => 0)).map (fun DU => (List.range 8).map DU) = some [2, 0, 0, 20, 6, 12, 180, 240] := by decide +kernel

/-- A full tensor with a type common to the selection which depends on the point only. -/
def demoX : UserD ℤ := fun x _ => (.general, fun p => x.1 + p)

example : ∃ DU', applyDU .perSelection demoX ⟨demoU, 2, 2, 1, 2, 2, fun _ => 1,
      fun r => r + 1, fun p => (p : ℤ)⟩ (fun _ => 4) (fun _ => 0) = some DU' ∧
      IsDU ⟨demoU, 2, 2, 1, 2, 2, fun _ => 1, fun r => r + 1, fun p => (p : ℤ)⟩
        (atPoint demoX ⟨demoU, 2, 2, 1, 2, 2, fun _ => 1, fun r => r + 1,
          fun p => (p : ℤ)⟩) DU' :=
  applyDU_selection_partial demoX ⟨demoU, 2, 2, 1, 2, 2, fun _ => 1, fun r => r + 1, fun p => (p : ℤ)⟩ demoU_ok
    (show 0 < 1 by decide) (show 0 < 2 by decide) (fun _ _ _ _ => trivial) (fun r hr n hn => ⟨rfl, fun _ => rfl⟩)
    (fun _ _ _ _ _ => rfl) _ _ (Or.inr (fun _ _ _ _ _ _ _ _ => rfl))

/-- A scalar tensor between operators with two components and with three. -/
example : applyDU .scalar (fun _ _ => (.scalar, fun _ => (5 : ℤ))) ⟨demoU, 2, 3, 1, 2, 2, fun _ => 1, fun _ => 1, fun _ => 0⟩
    (fun _ => 4) (fun _ => 0) = none :=
  applyDU_throws .scalar _ _ (show 0 < 1 by decide) (show 0 < 2 by decide) ⟨show 3 ≠ 2 by decide, Or.inl (show 2 ≠ 1 by decide)⟩
    (fun _ _ _ _ => rfl) (Or.inl rfl) _ _

/-- The elemental matrix with a convolution with the normal `(1, 2, 3)`: a vector of length three for a function with one
degree of freedom and one test function. -/
example : (fem3Dtet (fun a DU => applyDU .full (fun _ _ => (.general, fun p => ([5, 7, 11] : List ℤ).getD p 0)) a (fun _ => 4) DU)
      (convToBand (fun _ => 2) (1 * 1) 1 1) (convToBand (fun _ => 10) (1 * 1) 1 1) 1 1 1 1 1 1 (fun _ => 1)
      (fun _ => 1) (fun _ => 0) (some (fun c => (c : ℤ) + 1)) (fun _ => 5) (fun _ => 6) (fun _ => 8) (fun _ => 9)).map
      (fun A => (List.range 2).map A) = some [1040, 9] := by decide +kernel

/-- **C44 fails** for a full tensor with a type common to the selection: the tensor function gets number 0 for every
tetrahedron, so a tensor given per tetrahedron is taken from the first one. -/
theorem applyDU_selection_wrong : ∃ (f : UserD ℤ) (a : Args ℤ), a.U.Ok a.q a.idim a.nfa ∧ 0 < a.q ∧ 0 < a.f ∧
    (∀ r, r < a.f → ∀ n, n < a.q → Fits a.jdim a.idim a.nfa (f (xpt a.xyg a.q n r) r)) ∧
    Traits.perSelection.Holds f a ∧ ∀ D DU, ∃ DU', applyDU .perSelection f a D DU = some DU' ∧ ¬ IsDU a (atPoint f a) DU' := by
  refine ⟨fun _ t => (.general, fun _ => (t : ℤ)), ⟨convToBand (fun _ => 1) (1 * 1) 1 1, 1, 1, 1, 2, 1, fun _ => 1, fun _ => 1,
    fun _ => 0⟩, convToBand_ok _ 1 1 1, by decide, by decide, fun _ _ _ _ => trivial, fun _ _ _ _ => ⟨rfl, fun h => rfl⟩,
    fun D DU => ⟨_, rfl, fun h => ?_⟩⟩
  have h1 := h 1 (by decide) 0 (by decide) 0 (by decide) 0 (by decide)
  rw [Finset.sum_range_one] at h1
  rw [show (convToBand (fun _ => (1 : ℤ)) (1 * 1) 1 1).val 1 0 0 0 1 = 1 from
    convToBand_val (fun _ => (1 : ℤ)) 1 1 1 0 0 0 1 (by decide) (by decide)] at h1
  revert h1
  rw [mul_all (a := ⟨convToBand (fun _ => (1 : ℤ)) (1 * 1) 1 1, 1, 1, 1, 2, 1, fun _ => 1, fun _ => 1,
    fun _ => 0⟩) (convToBand_ok _ 1 1 1) (r := 1) (by decide) (by decide) (by decide) (by decide)]
  rw [Finset.sum_range_one]
  rw [show (convToBand (fun _ => (1 : ℤ)) (1 * 1) 1 1).val 1 0 0 0 1 = 1 from
    convToBand_val (fun _ => (1 : ℤ)) 1 1 1 0 0 0 1 (by decide) (by decide)]
  have := fillSel_at (f := fun _ t => (.general, fun _ => (t : ℤ))) (num := fun _ => 0)
    (a := ⟨convToBand (fun _ => (1 : ℤ)) (1 * 1) 1 1, 1, 1, 1, 2, 1, fun _ => 1, fun _ => 1, fun _ => 0⟩) (r := 1) (n := 0)
    (p := 0) (by decide) (by decide) (by decide) 0 D (fun t =>
      dfunc_full (f := fun _ t => (.general, fun _ => (t : ℤ))) (nfa := 1) (jd := 1) (id := 1) (k := 0) (l := 0) rfl trivial (by decide) (by decide))
  intro h
  exact absurd (this.symm.trans (by simpa [point_eq] using h)) (by decide)

end Verif.Elemental
