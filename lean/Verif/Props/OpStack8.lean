import Verif.Props.OpStack7
import Verif.Props.Elemental2

/-!
Two operators on one stack, and the elemental matrix of run-time operators.
-/
namespace Verif.OpStack

open Verif.Dense Verif.Elemental

set_option linter.unusedSectionVars false

variable {K : Type} [CommRing K]

/-- C46: from an empty stack, the second operator leaves the block matrix of the first one as it was: both are well formed and
have their values. -/
theorem pair_correct {q f : Nat} {a b : Op K} {va vb : Vals K} (ha : Correct q f a va) (hb : Correct q f b vb) (st : St K)
    (hempty : st.busy = 0) (u v ex es : Nat) (hesa : a.exr ≤ es) (hesb : b.exr ≤ es) (hu : u + a.usz ≤ ex ∨ ex + es ≤ u)
    (hv : v + b.usz ≤ ex ∨ ex + es ≤ v) (huv : u + a.usz ≤ v ∨ v + b.usz ≤ u) :
    ∃ st2 refU refV, applyTwo false a b u v ex es st = some (st2, refU, refV) ∧
      (st2.band refU).Ok q a.dim a.nfa ∧ (st2.band refV).Ok q b.dim b.nfa ∧
      (∀ l, l < a.dim → ∀ n, n < q → ∀ i, i < a.nfa → ∀ r, r < f → (st2.band refU).val q l n i r = va l n i r) ∧
      (∀ l, l < b.dim → ∀ n, n < q → ∀ i, i < b.nfa → ∀ r, r < f → (st2.band refV).val q l n i r = vb l n i r) := by
  obtain ⟨st1, refU, e1, g1⟩ := ha st u ex es hesa hu
  obtain ⟨st2, refV, e2, g2⟩ := hb st1 v ex es hesb hv
  have hbusy := g1.busy
  have hpos := g1.pos
  have hidxU := g1.idx
  rw [if_pos hempty, hempty] at hidxU
  have hidxV := g2.idx
  rw [if_neg (by omega), hbusy, hempty] at hidxV
  have hdU := g1.data
  rw [hempty] at hdU
  have hm : ∀ d, d < refU.nparts → st2.mtx (refU.data + d) = st1.mtx (refU.data + d) := fun d hd => g2.mtxLow _ (by omega)
  have hr : ∀ d, d ≤ refU.nparts → st2.row (refU.idx + d) = st1.row (refU.idx + d) := fun d hd => g2.rowLow _ (by omega)
  have hc : ∀ d, d ≤ refU.nparts → st2.col (refU.idx + d) = st1.col (refU.idx + d) := fun d hd => g2.colLow _ (by omega)
  refine ⟨st2, refU, refV, ?_, ?_, g2.ok, fun l hl n hn i hi r hr' => ?_, g2.val⟩
  · unfold applyTwo
    rw [e1]
    dsimp only
    rw [if_neg (by decide), e2]
  · exact ok_congr g1.ok rfl hr hc (fun d hd => by
      show (st2.mtx (refU.data + d)).2 = (st1.mtx (refU.data + d)).2
      rw [hm d hd])
  · rw [← g1.val l hl n hn i hi r hr']
    refine val_congr (A := st1.band refU) (B := st2.band refU) hn hr' rfl hr hc (fun d hd p hp => ?_) l i
    show st2.re ((st2.mtx (refU.data + d)).1 + p) = st1.re ((st1.mtx (refU.data + d)).1 + p)
    rw [hm d hd]
    have hin := g1.inU d hd
    rw [← g1.data] at hin
    change p < q * (st1.row (refU.idx + (d + 1)) - st1.row (refU.idx + d)) *
      ((st1.col (refU.idx + (d + 1)) - st1.col (refU.idx + d)) * f) at hp
    exact g2.re _ (by omega) (by omega)

/-- C46: the elemental matrix of two run-time operators of vector, product and union spaces is the quadrature sum of the
bilinear form with the values of the operators, whatever memory and stack arrays held. -/
theorem fem3DtetX_exact {q f : Nat} {a b : Op K} {va vb : Vals K} (ha : Correct q f a va) (hb : Correct q f b vb) (same : Bool)
    (hsame : same = true → a = b ∧ va = vb) (st : St K)
    (hempty : st.busy = 0) (u v ex es : Nat) (hesa : a.exr ≤ es) (hesb : b.exr ≤ es) (hu : u + a.usz ≤ ex ∨ ex + es ≤ u)
    (hv : v + b.usz ≤ ex ∨ ex + es ≤ v) (huv : u + a.usz ≤ v ∨ v + b.usz ≤ u)
    (tr : Traits) (htr : tr ≠ .perSelection) (fn : UserD K) (w mes xyg : Nat → K) (nrm : Option (Nat → K))
    (D DU DIFF extraR A : Nat → K) (hn : 0 < a.nfa) (hq : 0 < q) (hf : 0 < f)
    (hfit : ∀ r, r < f → ∀ n, n < q →
      Fits (b.dim * (if nrm.isSome then 3 else 1)) a.dim a.nfa (fn (xpt xyg q n r) r))
    (hold : ∀ U, tr.Holds fn ⟨U, a.dim, b.dim * (if nrm.isSome then 3 else 1), q, f, a.nfa, w, mes, xyg⟩) :
    ∃ st2 refU refV A', applyTwo same a b u v ex es st = some (st2, refU, refV) ∧
      fem3Dtet (fun a DU => applyDU tr fn a D DU) (st2.band refU) (st2.band refV) a.dim b.dim a.nfa b.nfa q f w mes xyg nrm DU
        DIFF extraR A = some A' ∧
      ∀ r, r < f → ∀ i, i < a.nfa → ∀ j, j < b.nfa → A' (j + b.nfa * (i + a.nfa * r)) =
        ∑ n ∈ Finset.range q, w n * mes r * ∑ k ∈ Finset.range b.dim, vb k n j r * ∑ l ∈ Finset.range a.dim,
          acting nrm (fun n r k l => tensor (b.dim * (if nrm.isSome then 3 else 1)) a.dim (fn (xpt xyg q n r) r) k l) n r k l *
            va l n i r := by
  obtain ⟨st2, refU, refV, e, okU, okV, hvU, hvV⟩ : ∃ st2 refU refV, applyTwo same a b u v ex es st = some (st2, refU, refV) ∧
      (st2.band refU).Ok q a.dim a.nfa ∧ (st2.band refV).Ok q b.dim b.nfa ∧
      (∀ l, l < a.dim → ∀ n, n < q → ∀ i, i < a.nfa → ∀ r, r < f → (st2.band refU).val q l n i r = va l n i r) ∧
      (∀ l, l < b.dim → ∀ n, n < q → ∀ i, i < b.nfa → ∀ r, r < f → (st2.band refV).val q l n i r = vb l n i r) := by
    cases hs : same with
    | false => exact pair_correct ha hb st hempty u v ex es hesa hesb hu hv huv
    | true =>
      obtain ⟨rfl, rfl⟩ := hsame hs
      obtain ⟨st1, refU, e1, g1⟩ := ha st u ex es hesa hu
      refine ⟨st1, refU, refU, ?_, g1.ok, g1.ok, g1.val, g1.val⟩
      unfold applyTwo
      rw [e1]
      rfl
  obtain ⟨A', eA, hA⟩ := fem3Dtet_exact tr htr fn (st2.band refU) (st2.band refV) a.dim b.dim a.nfa b.nfa q f w mes xyg nrm D DU
    DIFF extraR A okU okV hn hq hf hfit (hold _)
  refine ⟨st2, refU, refV, A', e, eA, fun r hr i hi j hj => ?_⟩
  rw [hA r hr i hi j hj]
  unfold entry
  refine Finset.sum_congr rfl (fun n hn' => ?_)
  have hn'' := Finset.mem_range.mp hn'
  congr 1
  refine Finset.sum_congr rfl (fun k hk => ?_)
  rw [hvV k (Finset.mem_range.mp hk) n hn'' j hj r hr]
  congr 1
  refine Finset.sum_congr rfl (fun l hl => ?_)
  rw [hvU l (Finset.mem_range.mp hl) n hn'' i hi r hr]

-- the gradient of three copies of a scalar space against the union of two spaces of nine components, an identity tensor
example (st : St ℤ) (h : st.busy = 0) (w mes xyg D DU DIFF extraR A : Nat → ℤ) :
    ∃ st2 refU refV A', applyTwo false (vec 3 exGrad) exProd 0 100 500 10 st = some (st2, refU, refV) ∧
      fem3Dtet (fun a DU => applyDU .perPoint (fun _ _ => (.null, fun _ => 0)) a D DU) (st2.band refU) (st2.band refV) 9 9 12 9 2 3
        w mes xyg none DU DIFF extraR A = some A' := by
  obtain ⟨st2, refU, refV, A', h1, h2, -⟩ := fem3DtetX_exact (q := 2) (f := 3)
    (vec_correct exGrad_correct (show 1 ≤ 3 by decide)) exProd_correct false (fun h => absurd h (by decide)) st h 0 100 500 10
    (by decide) (by decide) (by decide) (by decide) (by decide) .perPoint (by decide) (fun _ _ => (.null, fun _ => 0)) w mes xyg none
    D DU DIFF extraR A (by decide) (by decide) (by decide) (fun _ _ _ _ => Or.inl rfl) (fun _ => trivial)
  exact ⟨st2, refU, refV, A', h1, h2⟩

end Verif.OpStack
