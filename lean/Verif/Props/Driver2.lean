import Verif.Props.DriverPnt
import Verif.Props.SpaceOpRt2

/-!
**C54**: the elemental matrices which the drivers compute from the prepared arrays, with the memory laid out by the library.
-/
namespace Verif.Driver

open Verif.Dense Verif.Spaces Verif.Order Verif.SpaceOp

section
variable {a : Arr ℝ} {q f : Nat} {T x : Nat → Nat → Nat → ℝ} {vol w : Nat → ℝ}

/-- the sum written with the arrays is the sum over the prepared points -/
theorem Prepared.sum (P : Prepared a q f T x vol w) (normal : Bool) (nb na : Nat) (fn : Elemental.UserD ℝ) {ν : Nat → Nat → ℝ}
    (hν : normal = true → ∀ r, r < f → ∀ c, c < 3 → a.nrm (3 * r + c) = ν r c) (α β : Nat → (Nat → ℝ) → ℝ) {r : Nat} (hr : r < f) :
    (∑ n ∈ Finset.range q, a.wg n * a.mes r * ∑ k ∈ Finset.range nb, β k (x r n) * ∑ l ∈ Finset.range na,
      Elemental.acting (if normal then some a.nrm else none) (fun n r k l => Elemental.tensor
        (nb * (if (if normal then some a.nrm else none).isSome then 3 else 1)) na (fn (Elemental.xpt a.xyg q n r) r) k l) n r k l * α l (x r n)) =
    ∑ n ∈ Finset.range q, w n * vol r * form na nb (actingAt normal nb na fn ν r) α β (x r n) := by
  refine Finset.sum_congr rfl fun n hn => ?_
  have hn := Finset.mem_range.1 hn
  rw [P.wg n hn, P.mes r hr, form]
  congr 1
  refine Finset.sum_congr rfl fun k _ => ?_
  congr 1
  refine Finset.sum_congr rfl fun l _ => ?_
  congr 1
  cases normal with
  | false =>
    change Elemental.tensor (nb * 1) na (fn (Elemental.xpt a.xyg q n r) r) k l = tensorAt nb na fn r (x r n) k l
    rw [P.xyg r hr n hn, Nat.mul_one, tensorAt]
  | true =>
    have h := hν rfl r hr
    change ∑ c ∈ Finset.range 3, Elemental.tensor (nb * 3) na (fn (Elemental.xpt a.xyg q n r) r) (c + 3 * k) l * a.nrm (3 * r + c) =
      dotNormal (tensorAt (nb * 3) na fn r) (ν r) (x r n) k l
    simp only [Finset.sum_range_succ, Finset.sum_range_zero, zero_add, dotNormal, tensorAt]
    rw [P.xyg r hr n hn, Nat.add_comm 1, Nat.add_comm 2, ← h 0 (by omega), ← h 1 (by omega), ← h 2 (by omega)]

/-- the traits and the type of the tensor at the points in the arrays -/
theorem Prepared.fit (P : Prepared a q f T x vol w) {normal : Bool} {nb na nfa : Nat} {fn : Elemental.UserD ℝ} (h : FitsAt normal nb na nfa q f fn x) :
    ∀ r, r < f → ∀ n, n < q → Elemental.Fits (nb * (if (if normal then some a.nrm else none).isSome then 3 else 1)) na nfa
      (fn (Elemental.xpt a.xyg q n r) r) := by
  intro r hr n hn
  rw [P.xyg r hr n hn]
  have := h r hr n hn
  cases normal <;> exact this

/-- **C54**: from prepared arrays, the driver for compile-time operators computes the quadrature sums of the bilinear form on the basis functions,
at the prepared points with the prepared weights and measures; the layout of the memory leaves every array its place. -/
theorem runCt_right (P : Prepared a q f T x vol w) {opa opb : OpT} (hopa : ∀ c, opa = .dudx c → c < 3) (hopb : ∀ c, opb = .dudx c → c < 3)
    {F H : Fem} (hF : Proper F) (hH : Proper H) (hA : (ctOp Real.sqrt a.mem opa F).isSome) (hB : (ctOp Real.sqrt a.mem opb H).isSome)
    (same : Bool) (hsame : same = true → opa = opb ∧ F = H)
    {φ ψ : Nat → Nat → Field} (hφ : ∀ r, r < f → ∀ i, i < nfa F → Nth (T r) F i (φ r i))
    (hψ : ∀ r, r < f → ∀ j, j < nfa H → Nth (T r) H j (ψ r j)) {α β : Nat → Nat → Nat → (Nat → ℝ) → ℝ}
    (hα : ∀ r, r < f → ∀ i, i < nfa F → AppliedTo opa F (φ r i) (α r i)) (hβ : ∀ r, r < f → ∀ j, j < nfa H → AppliedTo opb H (ψ r j) (β r j))
    (hn : 0 < nfa F) (base : Nat) (tr : Elemental.Traits) (htr : tr ≠ .perSelection) (fn : Elemental.UserD ℝ)
    (normal : Bool) {ν : Nat → Nat → ℝ} (hν : normal = true → ∀ r, r < f → ∀ c, c < 3 → a.nrm (3 * r + c) = ν r c)
    (hfit : FitsAt normal (opDim opb (dim H)) (opDim opa (dim F)) (nfa F) q f fn x)
    (hold : ∀ U nb, tr.Holds fn ⟨U, opDim opa (dim F), nb, q, f, nfa F, a.wg, a.mes, a.xyg⟩) (mem D DU DIFF extraR E : Nat → ℝ) :
    ∃ E', runCt a normal opa opb F H same base tr fn mem D DU DIFF extraR E = some E' ∧
      ∀ r, r < f → ∀ i, i < nfa F → ∀ j, j < nfa H → E' (j + nfa H * (i + nfa F * r)) =
        ∑ n ∈ Finset.range q, w n * vol r * form (opDim opa (dim F)) (opDim opb (dim H))
          (actingAt normal (opDim opb (dim H)) (opDim opa (dim F)) fn ν r) (α r i) (β r j) (x r n) := by
  obtain ⟨A, hA⟩ := Option.isSome_iff_exists.1 hA
  obtain ⟨B, hB⟩ := Option.isSome_iff_exists.1 hB
  have e1 : a.mem.q = q := P.points
  have e2 : a.mem.f = f := P.tetras
  have hAB : same = true → A = B := fun h => by
    obtain ⟨rfl, rfl⟩ := hsame h
    exact Option.some.inj (hA.symm.trans hB)
  obtain ⟨m2, U, V, E', h1, h2, h3⟩ := elemental_right P.geo hopa hopb hF hH hA hB same hsame (e2.symm ▸ hφ) (e2.symm ▸ hψ)
    (a := fun l n i r => α r i l (x r n)) (b := fun k n j r => β r j k (x r n))
    (fun l n i r hl _ hi hr => hα r (e2 ▸ hr) i hi l hl _) (fun k n j r hk _ hj hr => hβ r (e2 ▸ hr) j hj k hk _) mem
    (layout same base A.usz B.usz ((if normal then 3 else 1) * B.dim * a.q * A.nfa * a.f) (B.dim * max ((if normal then 3 else 1) * A.dim) A.nfa *
      a.q * a.f) (if same then A.exr else max A.exr B.exr)).1
    (layout same base A.usz B.usz ((if normal then 3 else 1) * B.dim * a.q * A.nfa * a.f) (B.dim * max ((if normal then 3 else 1) * A.dim) A.nfa *
      a.q * a.f) (if same then A.exr else max A.exr B.exr)).2.1
    (layout same base A.usz B.usz ((if normal then 3 else 1) * B.dim * a.q * A.nfa * a.f) (B.dim * max ((if normal then 3 else 1) * A.dim) A.nfa *
      a.q * a.f) (if same then A.exr else max A.exr B.exr)).2.2
    (if same then A.exr else max A.exr B.exr)
    (by split <;> first | exact le_refl _ | exact le_max_left ..)
    (by split
        · next h => rw [hAB h]
        · exact le_max_right ..)
    (by cases same
        · left; simp only [layout, Bool.false_eq_true, if_false]; omega
        · left; simp only [layout, if_true]; omega)
    (by cases same
        · left; simp only [layout, Bool.false_eq_true, if_false]; omega
        · right; simp only [layout, if_true]; omega)
    (by cases same
        · left; simp only [layout, Bool.false_eq_true, if_false]; omega
        · left; simp only [layout, if_true]; omega)
    tr htr fn a.wg a.mes a.xyg (if normal then some a.nrm else none) D DU DIFF extraR E hn
    (by rw [e1, e2]; exact P.fit hfit) (by rw [e1, e2]; exact fun U => hold U _)
  refine ⟨E', ?_, fun r hr i hi j hj => ?_⟩
  · unfold runCt
    simp only [hA, hB, Option.bind_eq_bind, Option.bind_some, h1]
    exact h2
  · rw [h3 r (e2.symm ▸ hr) i hi j hj, e1]
    exact P.sum normal _ _ fn hν (α r i) (β r j) hr

/-- **C54**: the same for the drivers of run-time operators, from an empty stack. -/
theorem runRt_right_partial (P : Prepared a q f T x vol w) {opa opb : OpT} (hopa : ∀ c, opa = .dudx c → c < 3) (hopb : ∀ c, opb = .dudx c → c < 3)
    {F H : Fem} (hF : Wf F) (hH : Wf H) (sF : Sound F opa) (sH : Sound H opb) (hA : (rtOp Real.sqrt a.mem F opa).isSome)
    (hB : (rtOp Real.sqrt a.mem H opb).isSome) (same : Bool) (hsame : same = true → opa = opb ∧ F = H)
    {φ ψ : Nat → Nat → Field} (hφ : ∀ r, r < f → ∀ i, i < nfa F → Nth (T r) F i (φ r i))
    (hψ : ∀ r, r < f → ∀ j, j < nfa H → Nth (T r) H j (ψ r j)) {α β : Nat → Nat → Nat → (Nat → ℝ) → ℝ}
    (hα : ∀ r, r < f → ∀ i, i < nfa F → AppliedTo opa F (φ r i) (α r i)) (hβ : ∀ r, r < f → ∀ j, j < nfa H → AppliedTo opb H (ψ r j) (β r j))
    (hn : 0 < nfa F) (base : Nat) (tr : Elemental.Traits) (htr : tr ≠ .perSelection) (fn : Elemental.UserD ℝ)
    (normal : Bool) {ν : Nat → Nat → ℝ} (hν : normal = true → ∀ r, r < f → ∀ c, c < 3 → a.nrm (3 * r + c) = ν r c)
    (hfit : FitsAt normal (opDim opb (dim H)) (opDim opa (dim F)) (nfa F) q f fn x)
    (hold : ∀ U nb, tr.Holds fn ⟨U, opDim opa (dim F), nb, q, f, nfa F, a.wg, a.mes, a.xyg⟩) (st : OpStack.St ℝ) (hempty : st.busy = 0)
    (D DU DIFF extraR E : Nat → ℝ) :
    ∃ E', runRt a normal opa opb F H same base tr fn st D DU DIFF extraR E = some E' ∧
      ∀ r, r < f → ∀ i, i < nfa F → ∀ j, j < nfa H → E' (j + nfa H * (i + nfa F * r)) =
        ∑ n ∈ Finset.range q, w n * vol r * form (opDim opa (dim F)) (opDim opb (dim H))
          (actingAt normal (opDim opb (dim H)) (opDim opa (dim F)) fn ν r) (α r i) (β r j) (x r n) := by
  obtain ⟨A, hA⟩ := Option.isSome_iff_exists.1 hA
  obtain ⟨B, hB⟩ := Option.isSome_iff_exists.1 hB
  have e1 : a.mem.q = q := P.points
  have e2 : a.mem.f = f := P.tetras
  have hAB : same = true → A = B := fun h => by
    obtain ⟨rfl, rfl⟩ := hsame h
    exact Option.some.inj (hA.symm.trans hB)
  obtain ⟨st2, U, V, E', h1, h2, h3⟩ := elemental_rt_partial P.geo hopa hopb hF hH sF sH hA hB same hsame (e2.symm ▸ hφ) (e2.symm ▸ hψ)
    (a := fun l n i r => α r i l (x r n)) (b := fun k n j r => β r j k (x r n))
    (fun l n i r hl _ hi hr => hα r (e2 ▸ hr) i hi l hl _) (fun k n j r hk _ hj hr => hβ r (e2 ▸ hr) j hj k hk _) st hempty
    (layout same (base + B.dim * (if normal then 3 else 1) * a.q * A.nfa * a.f + B.dim * max (A.dim * (if normal then 3 else 1)) A.nfa * a.q * a.f)
      A.usz B.usz 0 0 (if same then A.exr else max A.exr B.exr)).1
    (layout same (base + B.dim * (if normal then 3 else 1) * a.q * A.nfa * a.f + B.dim * max (A.dim * (if normal then 3 else 1)) A.nfa * a.q * a.f)
      A.usz B.usz 0 0 (if same then A.exr else max A.exr B.exr)).2.1
    (layout same (base + B.dim * (if normal then 3 else 1) * a.q * A.nfa * a.f + B.dim * max (A.dim * (if normal then 3 else 1)) A.nfa * a.q * a.f)
      A.usz B.usz 0 0 (if same then A.exr else max A.exr B.exr)).2.2
    (if same then A.exr else max A.exr B.exr)
    (by split <;> first | exact le_refl _ | exact le_max_left ..)
    (by split
        · next h => rw [hAB h]
        · exact le_max_right ..)
    (by cases same
        · left; simp only [layout, Bool.false_eq_true, if_false]; omega
        · left; simp only [layout, if_true]; omega)
    (by cases same
        · left; simp only [layout, Bool.false_eq_true, if_false]; omega
        · right; simp only [layout, if_true]; omega)
    (by cases same
        · left; simp only [layout, Bool.false_eq_true, if_false]; omega
        · left; simp only [layout, if_true]; omega)
    tr htr fn a.wg a.mes a.xyg (if normal then some a.nrm else none) D DU DIFF extraR E hn
    (by rw [e1, e2]; exact P.fit hfit) (by rw [e1, e2]; exact fun U => hold U _)
  refine ⟨E', ?_, fun r hr i hi j hj => ?_⟩
  · unfold runRt
    simp only [hA, hB, Option.bind_eq_bind, Option.bind_some, h1]
    exact h2
  · rw [h3 r (e2.symm ▸ hr) i hi j hj, e1]
    exact P.sum normal _ _ fn hν (α r i) (β r j) hr

end

end Verif.Driver
