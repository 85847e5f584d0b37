import Verif.Lemmas.Elemental2
import Mathlib.Tactic.NormNum

/-!
C44: the product of the coefficient tensor with the operator is the same for every traits of the tensor.
-/
set_option linter.unusedSectionVars false
set_option linter.unusedVariables false
namespace Verif.Elemental

open Verif.Dense

variable {K : Type} [CommRing K]

/-- The tensor at point `n` of tetrahedron `r`. -/
def atPoint (f : UserD K) (a : Args K) (n r k l : Nat) : K :=
  tensor a.jdim a.idim (f (xpt a.xyg a.q n r) r) k l

theorem isDU_scal {f : UserD K} {a : Args K} (ok : a.U.Ok a.q a.idim a.nfa) (hc : clash a = false) {DU : Nat → K}
    (hz : Cleared a DU) {wg : Nat → Nat → K} {vol : Nat → K}
    (ht : ∀ r, r < a.f → ∀ n, n < a.q → (f (xpt a.xyg a.q n r) r).1.full = false)
    (hco : ∀ r, r < a.f → ∀ n, n < a.q → 0 < a.idim * a.jdim →
      wg r n * vol r = coef (f (xpt a.xyg a.q n r) r) * (a.w n * a.mes r)) :
    IsDU a (atPoint f a) (spread a (loop 0 a.f (fun r DU => diagTet a r (wg r) (vol r) DU) DU)) := by
  intro r hr i hi n hn k hk
  have hc' := (clash_iff a).mp hc
  have h0 : 0 < a.idim * a.jdim := Nat.mul_pos (by omega) (by omega)
  rw [scal_all ok hc hz hr hi hn hk]
  unfold atPoint
  rw [sum_scal (ht r hr n hn) hc hk (fun l => a.U.val a.q l n i r), hco r hr n hn h0]
  ring

theorem isDU_mul {f : UserD K} {a : Args K} (ok : a.U.Ok a.q a.idim a.nfa) {DU : Nat → K} {locD : Nat → Nat → Nat → K}
    (h : ∀ r, r < a.f → ∀ n, n < a.q → ∀ k, k < a.jdim → ∀ l, l < a.idim → locD r n (l + a.idim * k) = atPoint f a n r k l) :
    IsDU a (atPoint f a) (loop 0 a.f (fun r DU => mulTet a r (locD r) DU) DU) := by
  intro r hr i hi n hn k hk
  rw [mul_all ok hr hi hn hk]
  congr 1
  refine Finset.sum_congr rfl (fun l hl => ?_)
  rw [h r hr n hn k hk l (Finset.mem_range.mp hl)]

theorem coef_null {t : TT × (Nat → K)} (h : t.1 = .null) : coef t = 1 := by
  unfold coef
  rw [if_pos h]

theorem clashPoint_false {f : UserD K} {a : Args K}
    (hfit : ∀ r, r < a.f → ∀ n, n < a.q → Fits a.jdim a.idim a.nfa (f (xpt a.xyg a.q n r) r)) : clashPoint f a = false := by
  unfold clashPoint
  simp only [point_eq]
  rw [List.any_eq_false]
  intro r hr
  rw [Bool.not_eq_true, List.any_eq_false]
  intro n hn
  have hr' := List.mem_range.mp hr
  have hn' := List.mem_range.mp hn
  cases hfull : (f (xpt a.xyg a.q n r) r).1.full
  · rw [fits_clash hfull (hfit r hr' n hn')]
    simp
  · simp

theorem clashTetra_false {f : UserD K} {a : Args K} (hq : 0 < a.q)
    (hfit : ∀ r, r < a.f → ∀ n, n < a.q → Fits a.jdim a.idim a.nfa (f (xpt a.xyg a.q n r) r)) : clashTetra f a = false := by
  unfold clashTetra
  simp only [point_eq]
  rw [List.any_eq_false]
  intro r hr
  have hr' := List.mem_range.mp hr
  cases hfull : (f (xpt a.xyg a.q 0 r) r).1.full
  · rw [fits_clash hfull (hfit r hr' 0 hq)]
    simp
  · simp

theorem dfunc_fst (f : UserD K) (jd id : Nat) (x : K × K × K) (iTet off : Nat) (D : Nat → K) :
    (dfunc f jd id x iTet off D).1 = (f x iTet).1 := rfl

theorem stepTetra_null {f : UserD K} {a : Args K} {r : Nat} {s : (Nat → K) × (Nat → K)}
    (h : (f (xpt a.xyg a.q 0 r) r).1 = .null) :
    (stepTetra f a r s).2 = if a.jdim ≠ a.idim then spreadTet a r (diagTet a r a.w (a.mes r) s.2)
      else diagTet a r a.w (a.mes r) s.2 := by
  unfold stepTetra
  simp only [dfunc_fst, point_eq, h]

theorem stepTetra_scalar {f : UserD K} {a : Args K} {r : Nat} {s : (Nat → K) × (Nat → K)}
    (h : (f (xpt a.xyg a.q 0 r) r).1 = .scalar) (wg : Nat → K)
    (hw : wg = fun n => fillTet f a r (dfunc f a.jdim a.idim (xpt a.xyg a.q 0 r) r 0 s.1).2 (0 + a.idim * a.jdim * n) * a.w n) :
    (stepTetra f a r s).2 = if a.jdim ≠ a.idim then spreadTet a r (diagTet a r wg (a.mes r) s.2)
      else diagTet a r wg (a.mes r) s.2 := by
  subst hw
  unfold stepTetra
  simp only [dfunc_fst, point_eq, h]

theorem stepTetra_full {f : UserD K} {a : Args K} {r : Nat} {s : (Nat → K) × (Nat → K)}
    (h : (f (xpt a.xyg a.q 0 r) r).1.full = true) :
    (stepTetra f a r s).2 = mulTet a r (fun n p => fillTet f a r (dfunc f a.jdim a.idim (xpt a.xyg a.q 0 r) r 0 s.1).2
      (a.idim * a.jdim * n + p)) s.2 := by
  unfold stepTetra
  cases hty : (f (xpt a.xyg a.q 0 r) r).1
  · rw [hty] at h
    exact absurd h (by decide)
  · rw [hty] at h
    exact absurd h (by decide)
  · simp only [dfunc_fst, point_eq, hty]
  · simp only [dfunc_fst, point_eq, hty]

/-- One tetrahedron of the overload `PerTetra`, at its own addresses. -/
theorem stepTetra_at {f : UserD K} {a : Args K} (ok : a.U.Ok a.q a.idim a.nfa) {r : Nat}
    (hfit : ∀ n, n < a.q → Fits a.jdim a.idim a.nfa (f (xpt a.xyg a.q n r) r))
    (hk : ∀ n, n < a.q → SameKind (f (xpt a.xyg a.q n r) r).1 (f (xpt a.xyg a.q 0 r) r).1)
    {s : (Nat → K) × (Nat → K)} (hz : a.U.nparts = 1 ∨ ∀ i, i < a.nfa → ∀ n, n < a.q → ∀ k, k < a.jdim →
      s.2 (addr a.jdim a.q a.nfa k n i r) = 0) {i n k : Nat} (hi : i < a.nfa) (hn : n < a.q) (hkk : k < a.jdim) :
    (stepTetra f a r s).2 (addr a.jdim a.q a.nfa k n i r) =
      a.w n * a.mes r * ∑ l ∈ Finset.range a.idim, atPoint f a n r k l * a.U.val a.q l n i r := by
  have hq : 0 < a.q := by omega
  have hz' : a.U.nparts = 1 ∨ ∀ k, k < a.jdim → s.2 (addr a.jdim a.q a.nfa k n i r) = 0 :=
    hz.imp _root_.id (fun h => h i hi n hn)
  cases hfull0 : (f (xpt a.xyg a.q 0 r) r).1.full
  · have hc : clash a = false := fits_clash hfull0 (hfit 0 hq)
    have hn1 := (hk n hn).2 hfull0
    have hnf : (f (xpt a.xyg a.q n r) r).1.full = false := by rw [(hk n hn).1, hfull0]
    have hc' := (clash_iff a).mp hc
    have h0 : 0 < a.idim * a.jdim := Nat.mul_pos (by omega) (by omega)
    unfold atPoint
    rw [sum_scal hnf hc hkk (fun l => a.U.val a.q l n i r)]
    cases hty : (f (xpt a.xyg a.q 0 r) r).1
    · rw [stepTetra_null hty, scal_tet ok hc hi hn hkk _ _ _ hz', coef_null (hn1.trans hty)]
      ring
    · rw [stepTetra_scalar hty _ rfl, scal_tet ok hc hi hn hkk _ _ _ hz']
      have := fillTet_at (f := f) (a := a) (r := r) (p := 0) hn h0 (coef (f (xpt a.xyg a.q n r) r)) s.1
        (fun t => by rw [Nat.add_zero]; exact dfunc_scalar (hn1.trans hty))
      rw [Nat.add_zero] at this
      rw [Nat.zero_add, this]
      ring
    · rw [hty] at hfull0
      exact absurd hfull0 (by decide)
    · rw [hty] at hfull0
      exact absurd hfull0 (by decide)
  · rw [stepTetra_full hfull0, mulTet_at ok hi hn hkk]
    congr 1
    refine Finset.sum_congr rfl (fun l hl => ?_)
    congr 1
    have hl' := Finset.mem_range.mp hl
    have hfull : (f (xpt a.xyg a.q n r) r).1.full = true := by rw [(hk n hn).1, hfull0]
    exact fillTet_at hn (rad_lt hl' hkk) _ s.1 (fun t => dfunc_full hfull (hfit n hn) hkk hl')

theorem stepTetra_off {f : UserD K} {a : Args K} (ok : a.U.Ok a.q a.idim a.nfa) {r r' : Nat} (hne : r ≠ r')
    (hc : (f (xpt a.xyg a.q 0 r) r).1.full = false → clash a = false) {s : (Nat → K) × (Nat → K)} {i n k : Nat}
    (hi : i < a.nfa) (hn : n < a.q) (hk : k < a.jdim) :
    (stepTetra f a r s).2 (addr a.jdim a.q a.nfa k n i r') = s.2 (addr a.jdim a.q a.nfa k n i r') := by
  have hd : clash a = false → ∀ wg vol DU, (if a.jdim ≠ a.idim then spreadTet a r (diagTet a r wg vol DU)
      else diagTet a r wg vol DU) (addr a.jdim a.q a.nfa k n i r') = DU (addr a.jdim a.q a.nfa k n i r') := by
    intro hc wg vol DU
    have hc' := (clash_iff a).mp hc
    have h1 := diagTet_off ok (show a.idim ≤ a.jdim by omega) hi hn hk hne wg vol DU
    split
    · rw [spreadTet_off hi hn hk hne, h1]
    · exact h1
  cases hfull0 : (f (xpt a.xyg a.q 0 r) r).1.full
  · cases hty : (f (xpt a.xyg a.q 0 r) r).1
    · rw [stepTetra_null hty]
      exact hd (hc hfull0) _ _ _
    · rw [stepTetra_scalar hty _ rfl]
      exact hd (hc hfull0) _ _ _
    · rw [hty] at hfull0
      exact absurd hfull0 (by decide)
    · rw [hty] at hfull0
      exact absurd hfull0 (by decide)
  · rw [stepTetra_full hfull0]
    exact mulTet_off ok hi hn hk hne _ _

theorem tetra_exact {f : UserD K} {a : Args K} (ok : a.U.Ok a.q a.idim a.nfa) (hq : 0 < a.q)
    (hfit : ∀ r, r < a.f → ∀ n, n < a.q → Fits a.jdim a.idim a.nfa (f (xpt a.xyg a.q n r) r))
    (hk : ∀ r, r < a.f → ∀ n, n < a.q → SameKind (f (xpt a.xyg a.q n r) r).1 (f (xpt a.xyg a.q 0 r) r).1)
    {DU : Nat → K} (hz : Cleared a DU) (D : Nat → K) :
    IsDU a (atPoint f a) (loop 0 a.f (stepTetra f a) (D, DU)).2 := by
  intro r hr i hi n hn k hkk
  have := loop_ind (P := fun m (s : (Nat → K) × (Nat → K)) => (m ≤ r → ∀ i, i < a.nfa → ∀ n, n < a.q → ∀ k, k < a.jdim →
      s.2 (addr a.jdim a.q a.nfa k n i r) = DU (addr a.jdim a.q a.nfa k n i r)) ∧
      (r < m → s.2 (addr a.jdim a.q a.nfa k n i r) =
        a.w n * a.mes r * ∑ l ∈ Finset.range a.idim, atPoint f a n r k l * a.U.val a.q l n i r))
    (f := stepTetra f a) (s := (D, DU)) (Nat.zero_le a.f)
    ⟨fun _ _ _ _ _ _ _ => rfl, fun h => by omega⟩
    (fun m t _ hm ht => by
      have hcm : (f (xpt a.xyg a.q 0 m) m).1.full = false → clash a = false :=
        fun h => fits_clash h (hfit m hm 0 hq)
      refine ⟨fun hle i hi n hn k hk => ?_, fun hlt => ?_⟩
      · rw [stepTetra_off ok (by omega) hcm hi hn hk, ht.1 (by omega) i hi n hn k hk]
      · by_cases he : m = r
        · subst he
          refine stepTetra_at ok (hfit m hm) (hk m hm) (hz.imp _root_.id (fun h i hi n hn k hk => ?_)) hi hn hkk
          rw [ht.1 (Nat.le_refl _) i hi n hn k hk]
          exact h m hm i hi n hn k hk
        · rw [stepTetra_off ok he hcm hi hn hkk, ht.2 (by omega)])
  exact this.2 hr

/-- **C44.** Every overload of `applyDU` but the one for a type common to the whole selection: when the tensor function
keeps the promise of the traits and its type is admissible, the function does not throw and `DU` holds the weighted product
of the user's tensor with the operator, at every point of every tetrahedron. -/
theorem applyDU_exact (tr : Traits) (htr : tr ≠ .perSelection) (f : UserD K) (a : Args K) (ok : a.U.Ok a.q a.idim a.nfa)
    (hq : 0 < a.q) (hf : 0 < a.f) (hfit : ∀ r, r < a.f → ∀ n, n < a.q → Fits a.jdim a.idim a.nfa (f (xpt a.xyg a.q n r) r))
    (hold : tr.Holds f a) (D DU : Nat → K) (hz : Cleared a DU) :
    ∃ DU', applyDU tr f a D DU = some DU' ∧ IsDU a (atPoint f a) DU' := by
  have hnull : clash a = false → (∀ r, r < a.f → ∀ n, n < a.q → (f (xpt a.xyg a.q n r) r).1 = .null) →
      IsDU a (atPoint f a) (spread a (loop 0 a.f (fun r DU => diagTet a r a.w (a.mes r) DU) DU)) := by
    intro hc h
    refine isDU_scal ok hc hz (wg := fun _ => a.w) (fun r hr n hn => by rw [h r hr n hn]; rfl) (fun r hr n hn _ => ?_)
    rw [coef_null (h r hr n hn), one_mul]
  have hconst : clash a = false → (∀ r, r < a.f → ∀ n, n < a.q → f (xpt a.xyg a.q n r) r = f (0, 0, 0) 0) →
      (f (0, 0, 0) 0).1 = .scalar → IsDU a (atPoint f a) (spread a (loop 0 a.f (fun r DU =>
        diagTet a r a.w ((dfunc f a.jdim a.idim (0, 0, 0) 0 0 D).2 0 * a.mes r) DU) DU)) := by
    intro hc h hs
    refine isDU_scal ok hc hz (wg := fun _ => a.w) (fun r hr n hn => by rw [h r hr n hn, hs]; rfl) (fun r hr n hn _ => ?_)
    rw [h r hr n hn, ← dfunc_scalar (jd := a.jdim) (id := a.idim) (off := 0) (D := D) hs]
    ring
  have hmulc : (∀ r, r < a.f → ∀ n, n < a.q → f (xpt a.xyg a.q n r) r = f (0, 0, 0) 0) →
      (f (0, 0, 0) 0).1.full = true → IsDU a (atPoint f a) (loop 0 a.f (fun r DU =>
        mulTet a r (fun _ p => (dfunc f a.jdim a.idim (0, 0, 0) 0 0 D).2 p) DU) DU) := by
    intro h hfull
    refine isDU_mul ok (locD := fun _ _ p => (dfunc f a.jdim a.idim (0, 0, 0) 0 0 D).2 p)
      (fun r hr n hn k hk l hl => ?_)
    have := dfunc_full (off := 0) (D := D) hfull (by rw [← h r hr n hn]; exact hfit r hr n hn) hk hl
    rw [Nat.zero_add] at this
    unfold atPoint
    rw [h r hr n hn]
    exact this
  have hone : ∀ {p : Nat → Nat → Prop}, (∀ r, r < a.f → ∀ n, n < a.q → p r n) → p 0 0 := fun h => h 0 hf 0 hq
  cases tr with
  | constAny =>
    have hold' : ∀ r, r < a.f → ∀ n, n < a.q → f (xpt a.xyg a.q n r) r = f (0, 0, 0) 0 := hold
    have hfit0 : Fits a.jdim a.idim a.nfa (f (0, 0, 0) 0) := by
      rw [← hold' 0 hf 0 hq]
      exact hfit 0 hf 0 hq
    unfold applyDU
    dsimp only
    rw [dfunc_fst]
    cases hty : (f (0, 0, 0) 0).1 <;> simp only
    · have hc : clash a = false := fits_clash (by rw [hty]; rfl) hfit0
      exact ⟨_, if_neg (by rw [hc]; decide), hnull hc (fun r hr n hn => by rw [hold' r hr n hn, hty])⟩
    · have hc : clash a = false := fits_clash (by rw [hty]; rfl) hfit0
      exact ⟨_, if_neg (by rw [hc]; decide), hconst hc hold' hty⟩
    · exact ⟨_, rfl, hmulc hold' (by rw [hty]; rfl)⟩
    · exact ⟨_, rfl, hmulc hold' (by rw [hty]; rfl)⟩
  | constNull =>
    have hold' : ∀ r, r < a.f → ∀ n, n < a.q → (f (xpt a.xyg a.q n r) r).1 = .null := hold
    have hc : clash a = false := fits_clash (by rw [hold' 0 hf 0 hq]; rfl) (hfit 0 hf 0 hq)
    exact ⟨_, if_neg (by rw [hc]; decide), hnull hc hold'⟩
  | constScalar =>
    have hold' : ∀ r, r < a.f → ∀ n, n < a.q →
      f (xpt a.xyg a.q n r) r = f (0, 0, 0) 0 ∧ (f (0, 0, 0) 0).1 = .scalar := hold
    have hs := (hold' 0 hf 0 hq).2
    have hc : clash a = false := fits_clash (by rw [(hold' 0 hf 0 hq).1, hs]; rfl) (hfit 0 hf 0 hq)
    exact ⟨_, if_neg (by rw [hc]; decide), hconst hc (fun r hr n hn => (hold' r hr n hn).1) hs⟩
  | constFull =>
    have hold' : ∀ r, r < a.f → ∀ n, n < a.q →
      f (xpt a.xyg a.q n r) r = f (0, 0, 0) 0 ∧ (f (0, 0, 0) 0).1.full = true := hold
    exact ⟨_, rfl, hmulc (fun r hr n hn => (hold' r hr n hn).1) (hold' 0 hf 0 hq).2⟩
  | perPoint =>
    refine ⟨_, if_neg (by rw [clashPoint_false hfit]; decide), ?_⟩
    refine isDU_mul ok (locD := fun r n p => loop 0 a.f (fun r D => loop 0 a.q (fun n D => fillPoint f a r n D) D) D
      (a.idim * a.jdim * (n + a.q * r) + p)) (fun r hr n hn k hk l hl => ?_)
    have hlt := rad_lt hl hk
    have hB : 0 < a.idim * a.jdim := by omega
    refine loop_at (fun _ => atPoint f a n r k l) (Nat.zero_le _) hr (fun t => ?_) (fun r' t _ hr' hne => ?_)
    · refine loop_at (fun _ => atPoint f a n r k l) (Nat.zero_le _) hn (fun t => fillPoint_at hk hl (hfit r hr n hn) t)
        (fun n' t _ hn' hne => ?_)
      exact fillPoint_off hB (blk_ne (fun e => hne (pt_inj hn hn' e).1.symm) hlt) (hfit r hr n' hn') t
    · exact loop_off (fun n' t _ hn' =>
        fillPoint_off hB (blk_ne (fun e => hne (pt_inj hn hn' e).2.symm) hlt) (hfit r' hr' n' hn') t)
  | perTetra =>
    exact ⟨_, if_neg (by rw [clashTetra_false hq hfit]; decide), tetra_exact ok hq hfit hold hz D⟩
  | perSelection => exact absurd rfl htr
  | full =>
    have hold' : ∀ r, r < a.f → ∀ n, n < a.q → (f (xpt a.xyg a.q n r) r).1.full = true := hold
    refine ⟨_, rfl, ?_⟩
    exact isDU_mul ok (locD := fun r n p => fillAll f a D (a.idim * a.jdim * (n + a.q * r) + p))
      (fun r hr n hn k hk l hl => fillAll_full hr hn hk hl (hold' r hr n hn) (hfit r hr n hn) D)
  | scalar =>
    have hold' : ∀ r, r < a.f → ∀ n, n < a.q → (f (xpt a.xyg a.q n r) r).1 = .scalar := hold
    have hc : clash a = false := fits_clash (by rw [hold' 0 hf 0 hq]; rfl) (hfit 0 hf 0 hq)
    refine ⟨_, if_neg (by rw [hc]; decide), ?_⟩
    refine isDU_scal ok hc hz (wg := fun r n => fillAll f a D (a.idim * a.jdim * (n + a.q * r)) * a.w n)
      (fun r hr n hn => by rw [hold' r hr n hn]; rfl) (fun r hr n hn h0 => ?_)
    rw [fillAll_scalar hr hn h0 (hold' r hr n hn)]
    ring
  | null =>
    have hold' : ∀ r, r < a.f → ∀ n, n < a.q → (f (xpt a.xyg a.q n r) r).1 = .null := hold
    have hc : clash a = false := fits_clash (by rw [hold' 0 hf 0 hq]; rfl) (hfit 0 hf 0 hq)
    exact ⟨_, if_neg (by rw [hc]; decide), hnull hc hold'⟩

/-- **C44**, the overload for a type common to the whole selection: the same, but only when a full tensor does not depend on
the number of the tetrahedron, because the function hands number 0 to the user. -/
theorem applyDU_selection_partial (f : UserD K) (a : Args K) (ok : a.U.Ok a.q a.idim a.nfa)
    (hq : 0 < a.q) (hf : 0 < a.f) (hfit : ∀ r, r < a.f → ∀ n, n < a.q → Fits a.jdim a.idim a.nfa (f (xpt a.xyg a.q n r) r))
    (hold : Traits.perSelection.Holds f a)
    (hnum : (f (xpt a.xyg a.q 0 0) 0).1.full = true → ∀ r, r < a.f → ∀ n, n < a.q →
      f (xpt a.xyg a.q n r) 0 = f (xpt a.xyg a.q n r) r) (D DU : Nat → K) (hz : Cleared a DU) :
    ∃ DU', applyDU .perSelection f a D DU = some DU' ∧ IsDU a (atPoint f a) DU' := by
  have hold' : ∀ r, r < a.f → ∀ n, n < a.q →
    SameKind (f (xpt a.xyg a.q n r) r).1 (f (xpt a.xyg a.q 0 0) 0).1 := hold
  have hfulls : (f (xpt a.xyg a.q 0 0) 0).1.full = true → IsDU a (atPoint f a) (loop 0 a.f (fun r DU =>
      mulTet a r (fun n p => fillSel f a (fun _ => 0) (dfunc f a.jdim a.idim (xpt a.xyg a.q 0 0) 0 0 D).2
        (a.idim * a.jdim * (n + a.q * r) + p)) DU) DU) := by
    intro hfull
    refine isDU_mul ok (locD := fun r n p => fillSel f a (fun _ => 0)
      (dfunc f a.jdim a.idim (xpt a.xyg a.q 0 0) 0 0 D).2 (a.idim * a.jdim * (n + a.q * r) + p))
      (fun r hr n hn k hk l hl => ?_)
    refine fillSel_at hr hn (rad_lt hl hk) _ D (fun t => ?_)
    have he := hnum hfull r hr n hn
    have : (if r = 0 then 0 else (fun _ : Nat => 0) r) = 0 := by split <;> rfl
    rw [this]
    unfold atPoint
    rw [← he]
    refine dfunc_full (nfa := a.nfa) ?_ ?_ hk hl
    · rw [he, (hold' r hr n hn).1, hfull]
    · rw [he]
      exact hfit r hr n hn
  unfold applyDU
  dsimp only
  rw [dfunc_fst, point_eq]
  cases hty : (f (xpt a.xyg a.q 0 0) 0).1 <;> simp only
  · have hc : clash a = false := fits_clash (by rw [hty]; rfl) (hfit 0 hf 0 hq)
    have h1 : ∀ r, r < a.f → ∀ n, n < a.q → (f (xpt a.xyg a.q n r) r).1 = .null := by
      intro r hr n hn
      have := (hold' r hr n hn).2
      rw [hty] at this
      exact this rfl
    refine ⟨_, if_neg (by rw [hc]; decide), ?_⟩
    refine isDU_scal ok hc hz (wg := fun _ => a.w) (fun r hr n hn => by rw [h1 r hr n hn]; rfl) (fun r hr n hn _ => ?_)
    rw [coef_null (h1 r hr n hn), one_mul]
  · have hc : clash a = false := fits_clash (by rw [hty]; rfl) (hfit 0 hf 0 hq)
    have h1 : ∀ r, r < a.f → ∀ n, n < a.q → (f (xpt a.xyg a.q n r) r).1 = .scalar := by
      intro r hr n hn
      have := (hold' r hr n hn).2
      rw [hty] at this
      exact this rfl
    refine ⟨_, if_neg (by rw [hc]; decide), ?_⟩
    refine isDU_scal ok hc hz (wg := fun r n => fillSel f a (fun r => r)
      (dfunc f a.jdim a.idim (xpt a.xyg a.q 0 0) 0 0 D).2 (a.idim * a.jdim * (n + a.q * r)) * a.w n)
      (fun r hr n hn => by rw [h1 r hr n hn]; rfl) (fun r hr n hn h0 => ?_)
    have := fillSel_at (f := f) (num := fun r => r) (p := 0) hr hn h0 (coef (f (xpt a.xyg a.q n r) r)) D (fun t => by
      have hif : (if r = 0 then 0 else (fun r : Nat => r) r) = r := by
        by_cases h : r = 0
        · rw [if_pos h, h]
        · rw [if_neg h]
      rw [hif]
      exact dfunc_scalar (h1 r hr n hn))
    rw [Nat.add_zero] at this
    rw [this]
    ring
  · exact ⟨_, rfl, hfulls (by rw [hty]; rfl)⟩
  · exact ⟨_, rfl, hfulls (by rw [hty]; rfl)⟩

/-- **C44.** An inadmissible scalar or identity tensor is rejected by every overload which sees it. -/
theorem applyDU_throws (tr : Traits) (f : UserD K) (a : Args K) (hq : 0 < a.q) (hf : 0 < a.f)
    (hcl : a.jdim ≠ a.idim ∧ (a.nfa ≠ 1 ∨ a.idim ≠ 1)) (hold : tr.Holds f a)
    (ht : (f (xpt a.xyg a.q 0 0) 0).1 = .scalar ∨ (f (xpt a.xyg a.q 0 0) 0).1 = .null)
    (D DU : Nat → K) : applyDU tr f a D DU = none := by
  have hc : clash a = true := by
    unfold clash
    exact decide_eq_true hcl
  have hnf : (f (xpt a.xyg a.q 0 0) 0).1.full = false := by
    rcases ht with h | h <;> rw [h] <;> rfl
  cases tr with
  | constAny =>
    have h0 : f (xpt a.xyg a.q 0 0) 0 = f (0, 0, 0) 0 := hold 0 hf 0 hq
    rw [h0] at ht
    unfold applyDU
    dsimp only
    rw [dfunc_fst]
    rcases ht with h | h <;> rw [h] <;> exact if_pos hc
  | constNull => exact if_pos hc
  | constScalar => exact if_pos hc
  | constFull =>
    have h0 : f (xpt a.xyg a.q 0 0) 0 = f (0, 0, 0) 0 ∧ (f (0, 0, 0) 0).1.full = true := hold 0 hf 0 hq
    rw [h0.1, h0.2] at hnf
    exact absurd hnf (by decide)
  | perPoint =>
    refine if_pos ?_
    unfold clashPoint
    rw [List.any_eq_true]
    refine ⟨0, List.mem_range.mpr hf, ?_⟩
    rw [List.any_eq_true]
    exact ⟨0, List.mem_range.mpr hq, by rw [point_eq, hnf, hc]; rfl⟩
  | perTetra =>
    refine if_pos ?_
    unfold clashTetra
    rw [List.any_eq_true]
    exact ⟨0, List.mem_range.mpr hf, by rw [point_eq, hnf, hc]; rfl⟩
  | perSelection =>
    unfold applyDU
    dsimp only
    rw [dfunc_fst, point_eq]
    rcases ht with h | h <;> rw [h] <;> exact if_pos hc
  | full =>
    have h0 : (f (xpt a.xyg a.q 0 0) 0).1.full = true := hold 0 hf 0 hq
    rw [h0] at hnf
    exact absurd hnf (by decide)
  | scalar => exact if_pos hc
  | null => exact if_pos hc

end Verif.Elemental
