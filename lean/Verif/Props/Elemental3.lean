import Verif.Props.Elemental2
import Verif.Props.Fused

/-!
C44 for tensor functions of the whole selection; C45: the evaluation of an operator on given degrees of freedom.
-/
set_option linter.unusedSectionVars false
set_option linter.unusedVariables false
namespace Verif.Elemental

open Verif.Dense

variable {K : Type} [CommRing K]

/-- The tensor given by a function of the whole selection at point `n` of tetrahedron `r`: the block of the point, or the
first block when the tensor is constant. -/
def atBlock (const : Bool) (t : TT × (Nat → K)) (a : Args K) (n r : Nat) : TT × (Nat → K) :=
  (t.1, fun p => t.2 ((if const then 0 else a.idim * a.jdim * (n + a.q * r)) + p))

theorem transpose_at {jd id off : Nat} {k l : Nat} (hk : k < jd) (hl : l < id) (m D : Nat → K) :
    loop 0 id (fun i D => loop 0 jd (fun j D => wr D (off + i + id * j) (m (j + jd * i))) D) D (off + (l + id * k)) =
      m (k + jd * l) := by
  have inj : ∀ {i j}, i < id → off + (l + id * k) = off + i + id * j → l = i ∧ k = j := fun hi e =>
    rad2 hl hi (by omega)
  refine loop_at (fun _ => m (k + jd * l)) (Nat.zero_le _) hl (fun t => ?_) (fun i t _ hi hne => ?_)
  · refine loop_at (fun _ => m (k + jd * l)) (Nat.zero_le _) hk (fun t => ?_) (fun j t _ hj hne => ?_)
    · rw [show off + (l + id * k) = off + l + id * k by omega, wr_same]
    · exact wr_ne _ _ (fun e => hne (inj hl e).2.symm)
  · exact loop_off (fun j t _ hj => wr_ne _ _ (fun e => hne (inj hi e).1.symm))

theorem transpose_off {jd id off p : Nat} (hp : p < off ∨ off + jd * id ≤ p) (m D : Nat → K) :
    loop 0 id (fun i D => loop 0 jd (fun j D => wr D (off + i + id * j) (m (j + jd * i))) D) D p = D p := by
  refine loop_off (fun i t _ hi => loop_off (fun j t _ hj => wr_ne _ _ ?_))
  have := rad_lt hi hj
  rw [Nat.mul_comm jd id] at hp
  omega

theorem dfuncFusive_at {t : TT × (Nat → K)} {a : Args K} (ht : t.1.full = true)
    {r n k l : Nat} (hr : r < a.f) (hn : n < a.q) (hk : k < a.jdim) (hl : l < a.idim)
    (hs : t.1 = .symmetric → t.2 (a.idim * a.jdim * (n + a.q * r) + (l + a.idim * k)) =
      t.2 (a.idim * a.jdim * (n + a.q * r) + (k + a.jdim * l))) :
    dfuncFusive t a (a.idim * a.jdim * (n + a.q * r) + (l + a.idim * k)) =
      t.2 (a.idim * a.jdim * (n + a.q * r) + (k + a.jdim * l)) := by
  unfold dfuncFusive
  cases h : t.1
  · rw [h] at ht
    exact absurd ht (by decide)
  · rw [h] at ht
    exact absurd ht (by decide)
  · exact hs h
  · dsimp only
    have hB : a.jdim * a.idim = a.idim * a.jdim := Nat.mul_comm _ _
    have hlt := rad_lt hl hk
    have hlt' := rad_lt hk hl
    have hpt : ∀ {n' r'}, n' < a.q → (n + a.q * r ≠ n' + a.q * r') →
        ∀ p, p < a.idim * a.jdim → (a.idim * a.jdim * (n + a.q * r) + p < a.jdim * a.idim * (n' + a.q * r') ∨
          a.jdim * a.idim * (n' + a.q * r') + a.jdim * a.idim ≤ a.idim * a.jdim * (n + a.q * r) + p) := by
      intro n' r' _ hne p hp
      rw [hB]
      exact blk_ne hne hp
    refine loop_ind (P := fun m (D : Nat → K) => (m ≤ r → ∀ p, p < a.idim * a.jdim →
        D (a.idim * a.jdim * (n + a.q * r) + p) = t.2 (a.idim * a.jdim * (n + a.q * r) + p)) ∧
        (r < m → D (a.idim * a.jdim * (n + a.q * r) + (l + a.idim * k)) =
          t.2 (a.idim * a.jdim * (n + a.q * r) + (k + a.jdim * l)))) (Nat.zero_le a.f)
      ⟨fun _ _ _ => rfl, fun h => by omega⟩ (fun m D _ hm hD => ?_) |>.2 hr
    by_cases hmr : m = r
    · subst hmr
      refine ⟨fun h => by omega, fun _ => ?_⟩
      refine loop_ind (P := fun m' (D : Nat → K) => (m' ≤ n → ∀ p, p < a.idim * a.jdim →
        D (a.idim * a.jdim * (n + a.q * m) + p) = t.2 (a.idim * a.jdim * (n + a.q * m) + p)) ∧
        (n < m' → D (a.idim * a.jdim * (n + a.q * m) + (l + a.idim * k)) =
          t.2 (a.idim * a.jdim * (n + a.q * m) + (k + a.jdim * l)))) (Nat.zero_le a.q)
        ⟨fun _ => hD.1 (Nat.le_refl _), fun h => by omega⟩ (fun m' D' _ hm' hD' => ?_) |>.2 hn
      by_cases hmn : m' = n
      · subst hmn
        refine ⟨fun h => by omega, fun _ => ?_⟩
        have := transpose_at (off := a.jdim * a.idim * (m' + a.q * m)) hk hl
          (fun p => D' (a.jdim * a.idim * (m' + a.q * m) + p)) D'
        rw [hB] at this ⊢
        rw [this]
        exact hD'.1 (Nat.le_refl _) _ (by rw [← hB]; exact hlt')
      · have hoff := fun p hp => transpose_off (hpt (r' := m) hm' (fun e => hmn (by omega)) p hp)
          (fun p => D' (a.jdim * a.idim * (m' + a.q * m) + p)) D'
        refine ⟨fun h p hp => ?_, fun h => ?_⟩
        · rw [hoff p hp]
          exact hD'.1 (by omega) p hp
        · rw [hoff _ hlt]
          exact hD'.2 (by omega)
    · have hoff : ∀ p, p < a.idim * a.jdim → loop 0 a.q (fun n D => loop 0 a.idim (fun i D' => loop 0 a.jdim (fun j D' =>
          wr D' (a.jdim * a.idim * (n + a.q * m) + i + a.idim * j)
            (D (a.jdim * a.idim * (n + a.q * m) + (j + a.jdim * i)))) D') D) D (a.idim * a.jdim * (n + a.q * r) + p) =
          D (a.idim * a.jdim * (n + a.q * r) + p) := by
        intro p hp
        exact loop_off (fun n' D' _ hn' => transpose_off (hpt hn' (fun e => hmr (pt_inj hn hn' e).2.symm) p hp)
          (fun p => D' (a.jdim * a.idim * (n' + a.q * m) + p)) D')
      refine ⟨fun h p hp => ?_, fun h => ?_⟩
      · rw [hoff p hp]
        exact hD.1 (by omega) p hp
      · rw [hoff _ hlt]
        exact hD.2 (by omega)

/-- **C44** for a tensor function of the whole selection. -/
theorem applyDUFusive_exact (const : Bool) (t : TT × (Nat → K)) (a : Args K) (ok : a.U.Ok a.q a.idim a.nfa)
    (hq : 0 < a.q) (hf : 0 < a.f)
    (hfit : ∀ r, r < a.f → ∀ n, n < a.q → Fits a.jdim a.idim a.nfa (atBlock const t a n r)) (DU : Nat → K)
    (hz : Cleared a DU) :
    ∃ DU', applyDUFusive const t a DU = some DU' ∧
      IsDU a (fun n r k l => tensor a.jdim a.idim (atBlock const t a n r) k l) DU' := by
  have hscal : clash a = false → t.1.full = false → ∀ {wg : Nat → Nat → K},
      (∀ r, r < a.f → ∀ n, n < a.q → wg r n = coef (atBlock const t a n r) * a.w n) →
      IsDU a (fun n r k l => tensor a.jdim a.idim (atBlock const t a n r) k l)
        (spread a (loop 0 a.f (fun r DU => diagTet a r (wg r) (a.mes r) DU) DU)) := by
    intro hc hnf wg hwg r hr i hi n hn k hk
    rw [scal_all ok hc hz hr hi hn hk]
    rw [sum_scal (t := atBlock const t a n r) hnf hc hk (fun l => a.U.val a.q l n i r), hwg r hr n hn]
    ring
  have hfull : t.1.full = true → IsDU a (fun n r k l => tensor a.jdim a.idim (atBlock const t a n r) k l)
      (loop 0 a.f (fun r DU => mulTet a r (fun n p =>
        dfuncFusive t a ((if const then 0 else a.idim * a.jdim * (n + a.q * r)) + p)) DU) DU) := by
    intro hfl r hr i hi n hn k hk
    have hmul := mul_all ok (locD := fun r n p =>
        dfuncFusive t a ((if const then 0 else a.idim * a.jdim * (n + a.q * r)) + p)) (DU := DU) hr hi hn hk
    rw [hmul]
    congr 1
    refine Finset.sum_congr rfl (fun l hl => ?_)
    congr 1
    have hl' := Finset.mem_range.mp hl
    have hten : tensor a.jdim a.idim (atBlock const t a n r) k l =
        t.2 ((if const then 0 else a.idim * a.jdim * (n + a.q * r)) + (k + a.jdim * l)) := by
      unfold tensor atBlock
      cases h : t.1 <;> first | rfl | (rw [h] at hfl; exact absurd hfl (by decide))
    refine Eq.trans ?_ hten.symm
    have hsym : t.1 = .symmetric → t.2 ((if const then 0 else a.idim * a.jdim * (n + a.q * r)) + (l + a.idim * k)) =
        t.2 ((if const then 0 else a.idim * a.jdim * (n + a.q * r)) + (k + a.jdim * l)) := by
      intro h
      have := hfit r hr n hn
      unfold Fits atBlock at this
      rw [h] at this
      dsimp only at this
      have e := this.2 l (by omega) k hk
      rw [← this.1] at e ⊢
      exact e
    cases const
    · exact dfuncFusive_at hfl hr hn hk hl' hsym
    · have := dfuncFusive_at (a := a) (t := t) (r := 0) (n := 0) hfl hf hq hk hl' (by simpa using hsym)
      simpa using this
  unfold applyDUFusive
  cases h : t.1
  · have hnf : t.1.full = false := by rw [h]; rfl
    have hc : clash a = false := fits_clash (t := atBlock const t a 0 0) hnf (hfit 0 hf 0 hq)
    dsimp only
    rw [hc]
    exact ⟨_, rfl, hscal hc hnf (wg := fun _ => a.w) (fun r _ n _ => by
      rw [coef_null (t := atBlock const t a n r) h, one_mul])⟩
  · have hnf : t.1.full = false := by rw [h]; rfl
    have hc : clash a = false := fits_clash (t := atBlock const t a 0 0) hnf (hfit 0 hf 0 hq)
    dsimp only
    rw [hc]
    refine ⟨_, rfl, hscal hc hnf (wg := fun r n =>
      dfuncFusive t a (if const then 0 else a.idim * a.jdim * (n + a.q * r)) * a.w n) (fun r _ n _ => ?_)⟩
    unfold coef atBlock dfuncFusive
    rw [h]
    simp
  · exact ⟨_, rfl, hfull (by rw [h]; rfl)⟩
  · exact ⟨_, rfl, hfull (by rw [h]; rfl)⟩

/-- **C44** for a tensor function of the whole selection: the elemental matrices. -/
theorem fem3Dtet_fusive_exact (const : Bool) (t : TT × (Nat → K)) (U V : Band K)
    (dimA dimB nfA nfB q f : Nat) (w mes xyg : Nat → K) (nrm : Option (Nat → K)) (DU DIFF extraR A : Nat → K)
    (okU : U.Ok q dimA nfA) (okV : V.Ok q dimB nfB) (hn : 0 < nfA) (hq : 0 < q) (hf : 0 < f)
    (hfit : ∀ r, r < f → ∀ n, n < q → Fits (dimB * (if nrm.isSome then 3 else 1)) dimA nfA
      (atBlock const t ⟨U, dimA, dimB * (if nrm.isSome then 3 else 1), q, f, nfA, w, mes, xyg⟩ n r)) :
    ∃ A', fem3Dtet (fun a DU => applyDUFusive const t a DU) U V dimA dimB nfA nfB q f w mes xyg nrm DU DIFF extraR A =
        some A' ∧
      ∀ r, r < f → ∀ i, i < nfA → ∀ j, j < nfB → A' (j + nfB * (i + nfA * r)) =
        entry U V dimA dimB q w mes (acting nrm (fun n r k l => tensor (dimB * (if nrm.isSome then 3 else 1)) dimA
          (atBlock const t ⟨U, dimA, dimB * (if nrm.isSome then 3 else 1), q, f, nfA, w, mes, xyg⟩ n r) k l)) r i j :=
  fem3Dtet_of_isDU _ U V dimA dimB nfA nfB q f w mes xyg nrm DU DIFF extraR A okU okV hn _
    (fun DU hz => applyDUFusive_exact const t ⟨U, dimA, dimB * (if nrm.isSome then 3 else 1), q, f, nfA, w, mes, xyg⟩ okU hq hf
      hfit DU hz)

/-- Two tetrahedrons, one matrix for each. -/
example : (fem3Dtet (fun a DU => applyDUFusive false (.general, fun p => (p + 1 : ℤ)) a DU) demoU demoU 2 2 2 2 1 2
      (fun _ => 1) (fun _ => 1) (fun _ => 0) none (fun _ => 5) (fun _ => 6) (fun _ => 8) (fun _ => 9)).map
      (fun A => (List.range 9).map A) = some [4, 80, 120, 1600, 45, 540, 630, 7200, 9] := by decide +kernel

example : ∃ A', fem3Dtet (fun a DU => applyDUFusive false (.general, fun p => (p + 1 : ℤ)) a DU) demoU demoU 2 2 2 2 1 2
      (fun _ => 1) (fun _ => 1) (fun _ => 0) none (fun _ => 5) (fun _ => 6) (fun _ => 8) (fun _ => 9) = some A' ∧
    ∀ r, r < 2 → ∀ i, i < 2 → ∀ j, j < 2 → A' (j + 2 * (i + 2 * r)) =
      entry demoU demoU 2 2 1 (fun _ => 1) (fun _ => 1) (acting none (fun n r k l => tensor 2 2
        (atBlock false (.general, fun p => (p + 1 : ℤ)) ⟨demoU, 2, 2, 1, 2, 2, fun _ => 1, fun _ => 1, fun _ => 0⟩ n r) k l))
        r i j :=
  fem3Dtet_fusive_exact false _ demoU demoU 2 2 2 2 1 2 _ _ _ none _ _ _ _ demoU_ok demoU_ok (by decide)
    (by decide) (by decide) (fun _ _ _ _ => trivial)

end Verif.Elemental
