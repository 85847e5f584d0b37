import Verif.Lemmas.Elemental

/-!
Lemmas for the evaluation of the tensor into memory and for the overloads of `applyDU`.
-/
set_option linter.unusedSectionVars false
set_option linter.unusedVariables false
namespace Verif.Elemental

open Verif.Dense

variable {K : Type} [CommRing K]

theorem scal_all {a : Args K} (ok : a.U.Ok a.q a.idim a.nfa) (hc : clash a = false) {DU : Nat → K} (hz : Cleared a DU)
    {r i n k : Nat} (hr : r < a.f) (hi : i < a.nfa) (hn : n < a.q) (hk : k < a.jdim) (wg : Nat → Nat → K) (vol : Nat → K) :
    spread a (loop 0 a.f (fun r DU => diagTet a r (wg r) (vol r) DU) DU) (addr a.jdim a.q a.nfa k n i r) =
    wg r n * vol r * a.U.val a.q (if a.jdim = a.idim then k else 0) n i r := by
  have hc' := (clash_iff a).mp hc
  have hij : 0 < a.idim → a.idim ≤ a.jdim := by omega
  have hid : 0 < a.idim := by omega
  have h1 : ∀ k, k < a.idim → loop 0 a.f (fun r DU => diagTet a r (wg r) (vol r) DU) DU (addr a.jdim a.q a.nfa k n i r) =
      wg r n * vol r * a.U.val a.q k n i r := by
    intro k hk
    refine tets_at hr hi hn (by have := hij hid; omega) _ (fun t ht => ?_)
      (fun r' r'' t _ hne i hi n hn k hk => diagTet_off ok (hij hid) hi hn hk hne _ _ _)
    refine diagTet_at ok (hij hid) hi hn hk _ _ _ (hz.imp _root_.id (fun h => ?_))
    rw [ht i hi n hn k (by have := hij hid; omega)]
    exact h r hr i hi n hn k (by have := hij hid; omega)
  unfold spread
  by_cases hd : a.jdim = a.idim
  · rw [if_neg (by omega), if_pos hd]
    exact h1 k (by omega)
  · rw [if_pos hd, if_neg hd]
    have hi0 : i = 0 := by omega
    subst hi0
    refine tets_at hr hi hn hk _ (fun t ht => ?_)
      (fun r' r'' t _ hne i hi n hn k hk => spreadTet_off hi hn hk hne _)
    rw [spreadTet_at hi hid (hij hid) hn hk]
    by_cases hk0 : a.idim ≤ k
    · rw [if_pos hk0, ht 0 hi n hn 0 (by omega), h1 0 hid]
    · rw [if_neg hk0, ht 0 hi n hn k hk]
      have : k = 0 := by omega
      subst this
      exact h1 0 hid

theorem mul_all {a : Args K} (ok : a.U.Ok a.q a.idim a.nfa) {DU : Nat → K}
    {r i n k : Nat} (hr : r < a.f) (hi : i < a.nfa) (hn : n < a.q) (hk : k < a.jdim) (locD : Nat → Nat → Nat → K) :
    loop 0 a.f (fun r DU => mulTet a r (locD r) DU) DU (addr a.jdim a.q a.nfa k n i r) =
      a.w n * a.mes r * ∑ l ∈ Finset.range a.idim, locD r n (l + a.idim * k) * a.U.val a.q l n i r :=
  tets_at hr hi hn hk _ (fun t _ => mulTet_at ok hi hn hk _ _)
    (fun r' r'' t _ hne i hi n hn k hk => mulTet_off ok hi hn hk hne _ _)

/-- the coefficient of a scalar or identity tensor -/
def coef (t : TT × (Nat → K)) : K := if t.1 = .null then 1 else t.2 0

theorem fits_clash {a : Args K} {t : TT × (Nat → K)} (ht : t.1.full = false) (h : Fits a.jdim a.idim a.nfa t) :
    clash a = false := by
  rw [clash_iff]
  unfold Fits at h
  rcases t with ⟨t, v⟩
  cases t <;> first | exact h | simp [TT.full] at ht

theorem sum_scal {a : Args K} {t : TT × (Nat → K)} (ht : t.1.full = false) (hc : clash a = false) {k : Nat}
    (hk : k < a.jdim) (u : Nat → K) :
    ∑ l ∈ Finset.range a.idim, tensor a.jdim a.idim t k l * u l = coef t * u (if a.jdim = a.idim then k else 0) := by
  have hc' := (clash_iff a).mp hc
  have hcf : ∀ l, tensor a.jdim a.idim t k l = if a.jdim = a.idim then (if k = l then coef t else 0) else coef t := by
    intro l
    unfold tensor coef
    rcases t with ⟨t, v⟩
    cases t <;> first | rfl | simp [TT.full] at ht
  by_cases hd : a.jdim = a.idim
  · rw [if_pos hd, Finset.sum_eq_single k]
    · rw [hcf, if_pos hd, if_pos rfl]
    · intro l _ hl
      rw [hcf, if_pos hd, if_neg (fun e => hl e.symm), zero_mul]
    · intro h
      exact absurd (Finset.mem_range.mpr (by omega)) h
  · rw [if_neg hd]
    have : a.idim = 1 := by omega
    rw [this, Finset.sum_range_one, ← this, hcf, if_neg hd]

/-- the model takes the points where the specification has them -/
theorem point_eq (xyg : Nat → K) (q n r : Nat) : point xyg q n r = xpt xyg q n r := by
  have e : ∀ k, 3 * (n + r * q) + k = 3 * q * r + 3 * n + k := fun k => by ring
  have e0 := e 0
  rw [Nat.add_zero] at e0
  simp only [point, xpt, e, e0]

theorem dfunc_full {f : UserD K} {jd id nfa : Nat} {x : K × K × K} {iTet off : Nat} {D : Nat → K}
    (ht : (f x iTet).1.full = true) (hfit : Fits jd id nfa (f x iTet)) {k l : Nat} (hk : k < jd) (hl : l < id) :
    (dfunc f jd id x iTet off D).2 (off + (l + id * k)) = tensor jd id (f x iTet) k l := by
  unfold dfunc tensor
  unfold Fits at hfit
  cases hty : (f x iTet).1 <;> simp only [hty] at ht hfit ⊢
  · simp [TT.full] at ht
  · simp [TT.full] at ht
  · obtain ⟨he, hs⟩ := hfit
    subst he
    rw [hs k hk l hl]
    refine loop_at (fun _ => (f x iTet).2 (l + jd * k)) (Nat.zero_le _) (rad_lt hl hk) (fun t => wr_same _ _ _)
      (fun j t _ _ hne => wr_ne _ _ (by omega))
  · refine loop_at (fun _ => (f x iTet).2 (k + jd * l)) (Nat.zero_le _) hl (fun t => ?_) (fun l' t _ hl' hne => ?_)
    · refine loop_at (fun _ => (f x iTet).2 (k + jd * l)) (Nat.zero_le _) hk (fun t => wr_same _ _ _)
        (fun k' t _ hk' hne => wr_ne _ _ (fun e => hne ?_))
      exact (rad2 hl hl (Nat.add_left_cancel e)).2.symm
    · exact loop_off (fun k' t _ hk' => wr_ne _ _ (fun e => hne (rad2 hl hl' (Nat.add_left_cancel e)).1.symm))

theorem dfunc_scalar {f : UserD K} {jd id : Nat} {x : K × K × K} {iTet off : Nat} {D : Nat → K}
    (ht : (f x iTet).1 = .scalar) : (dfunc f jd id x iTet off D).2 off = coef (f x iTet) := by
  unfold dfunc coef
  simp only [ht]
  rw [if_neg (by decide)]
  exact wr_same _ _ _

theorem dfunc_off {f : UserD K} {jd id : Nat} {x : K × K × K} {iTet off : Nat} {D : Nat → K} (h0 : 0 < id * jd) {p : Nat}
    (hp : p < off ∨ off + id * jd ≤ p) : (dfunc f jd id x iTet off D).2 p = D p := by
  unfold dfunc
  cases hty : (f x iTet).1 <;> simp only [hty]
  · exact wr_ne _ _ (by omega)
  · refine loop_off (fun i t _ hi => wr_ne _ _ ?_)
    rw [Nat.mul_comm] at hi
    omega
  · refine loop_off (fun i t _ hi => loop_off (fun j t _ hj => wr_ne _ _ ?_))
    have := rad_lt hi hj
    omega

theorem blk_ne {B m m' p : Nat} (h : m ≠ m') (hp : p < B) : B * m + p < B * m' ∨ B * m' + B ≤ B * m + p := by
  rcases Nat.lt_or_gt_of_ne h with h | h
  · left
    have : B * (m + 1) ≤ B * m' := Nat.mul_le_mul_left _ h
    rw [Nat.mul_add, Nat.mul_one] at this
    omega
  · right
    have : B * (m' + 1) ≤ B * m := Nat.mul_le_mul_left _ h
    rw [Nat.mul_add, Nat.mul_one] at this
    omega

theorem pt_inj {q n n' r r' : Nat} (hn : n < q) (hn' : n' < q) (h : n + q * r = n' + q * r') : n = n' ∧ r = r' :=
  rad2 hn hn' h

/-- reading a block filled by a nest over tetrahedrons and points -/
theorem blocks_at {B q f : Nat} {g : Nat → Nat → (Nat → K) → (Nat → K)} {r n p : Nat} (hr : r < f) (hn : n < q)
    (hp : p < B) (c : K) (hat : ∀ t, g r n t (B * (n + q * r) + p) = c)
    (hoff : ∀ r' n' t p', (p' < B * (n' + q * r') ∨ B * (n' + q * r') + B ≤ p') → g r' n' t p' = t p') (D : Nat → K) :
    loop 0 f (fun r D => loop 0 q (fun n D => g r n D) D) D (B * (n + q * r) + p) = c := by
  refine loop_at (fun _ => c) (Nat.zero_le _) hr (fun t => ?_) (fun r' t _ _ hne => ?_)
  · refine loop_at (fun _ => c) (Nat.zero_le _) hn hat (fun n' t _ hn' hne => ?_)
    exact hoff _ _ _ _ (blk_ne (fun e => hne (pt_inj hn hn' e).1.symm) hp)
  · exact loop_off (fun n' t _ hn' => hoff _ _ _ _ (blk_ne (fun e => hne (pt_inj hn hn' e).2.symm) hp))

theorem fillAll_full {f : UserD K} {a : Args K} {r n k l : Nat} (hr : r < a.f) (hn : n < a.q) (hk : k < a.jdim)
    (hl : l < a.idim) (ht : (f (xpt a.xyg a.q n r) r).1.full = true)
    (hfit : Fits a.jdim a.idim a.nfa (f (xpt a.xyg a.q n r) r)) (D : Nat → K) :
    fillAll f a D (a.idim * a.jdim * (n + a.q * r) + (l + a.idim * k)) =
      tensor a.jdim a.idim (f (xpt a.xyg a.q n r) r) k l := by
  have hlt := rad_lt hl hk
  exact blocks_at hr hn hlt _ (fun t => by rw [point_eq]; exact dfunc_full ht hfit hk hl)
    (fun r' n' t p' hp' => dfunc_off (by omega) hp') D

theorem fillAll_scalar {f : UserD K} {a : Args K} {r n : Nat} (hr : r < a.f) (hn : n < a.q) (h0 : 0 < a.idim * a.jdim)
    (ht : (f (xpt a.xyg a.q n r) r).1 = .scalar) (D : Nat → K) :
    fillAll f a D (a.idim * a.jdim * (n + a.q * r)) = coef (f (xpt a.xyg a.q n r) r) := by
  exact blocks_at (p := 0) hr hn h0 _ (fun t => by rw [point_eq]; exact dfunc_scalar ht) (fun r' n' t p' hp' => dfunc_off h0 hp') D

theorem fillTet_at {f : UserD K} {a : Args K} {r n p : Nat} (hn : n < a.q) (hp : p < a.idim * a.jdim) (c : K) (D : Nat → K)
    (hat : ∀ t, (dfunc f a.jdim a.idim (xpt a.xyg a.q n r) r (a.idim * a.jdim * n) t).2 (a.idim * a.jdim * n + p) = c) :
    fillTet f a r (dfunc f a.jdim a.idim (xpt a.xyg a.q 0 r) r 0 D).2 (a.idim * a.jdim * n + p) = c := by
  unfold fillTet
  simp only [point_eq]
  by_cases h0 : n = 0
  · subst h0
    rw [loop_off]
    · exact hat D
    · intro n' t h1 hn'
      exact dfunc_off (by omega) (blk_ne (by omega) hp)
  · refine loop_at (fun _ => c) (by omega) hn hat (fun n' t _ hn' hne => ?_)
    exact dfunc_off (by omega) (blk_ne (by omega) hp)

theorem fillSel_at {f : UserD K} {a : Args K} {num : Nat → Nat} {r n p : Nat} (hr : r < a.f) (hn : n < a.q)
    (hp : p < a.idim * a.jdim) (c : K) (D : Nat → K)
    (hat : ∀ t, (dfunc f a.jdim a.idim (xpt a.xyg a.q n r) (if r = 0 then 0 else num r)
      (a.idim * a.jdim * (n + a.q * r)) t).2 (a.idim * a.jdim * (n + a.q * r) + p) = c) :
    fillSel f a num (dfunc f a.jdim a.idim (xpt a.xyg a.q 0 0) 0 0 D).2 (a.idim * a.jdim * (n + a.q * r) + p) = c := by
  unfold fillSel
  simp only [point_eq]
  have hB : 0 < a.idim * a.jdim := by omega
  by_cases hr0 : r = 0
  · subst hr0
    rw [loop_off]
    · by_cases h0 : n = 0
      · subst h0
        rw [loop_off]
        · have := hat D
          simpa using this
        · intro n' t h1 hn'
          exact dfunc_off hB (blk_ne (by omega) hp)
      · refine loop_at (fun _ => c) (by omega) hn ?_ (fun n' t _ hn' hne => ?_)
        · intro t
          have := hat t
          rwa [if_pos rfl] at this
        · exact dfunc_off hB (blk_ne (by omega) hp)
    · intro r' t h1 hr'
      refine loop_off (fun n' t _ hn' => dfunc_off hB (blk_ne (fun e => ?_) hp))
      have := (pt_inj hn hn' e).2
      omega
  · refine loop_at (fun _ => c) (by omega) hr (fun t => ?_) (fun r' t _ hr' hne => ?_)
    · refine loop_at (fun _ => c) (Nat.zero_le _) hn ?_ (fun n' t _ hn' hne => ?_)
      · intro t
        have := hat t
        rwa [if_neg hr0] at this
      · exact dfunc_off hB (blk_ne (fun e => hne (pt_inj hn hn' e).1.symm) hp)
    · exact loop_off (fun n' t _ hn' => dfunc_off hB (blk_ne (fun e => hne (pt_inj hn hn' e).2.symm) hp))

theorem expand_at {a : Args K} (hc : clash a = false) {k l : Nat} (hk : k < a.jdim) (hl : l < a.idim) (off : Nat) (s : K)
    (D : Nat → K) :
    expand a off s D (off + (l + a.idim * k)) = if a.jdim = a.idim then (if k = l then s else 0) else s := by
  have hc' := (clash_iff a).mp hc
  have hlt := rad_lt hl hk
  unfold expand
  have hzero : loop 0 (a.idim * a.jdim) (fun p D => wr D (off + p) 0) D (off + (l + a.idim * k)) = 0 :=
    loop_at (fun _ => 0) (Nat.zero_le _) hlt (fun t => wr_same _ _ _) (fun j t _ _ hne => wr_ne _ _ (by omega))
  by_cases hd : a.jdim = a.idim
  · simp only [if_pos hd]
    by_cases hkl : k = l
    · subst hkl
      rw [if_pos rfl]
      refine loop_at (fun _ => s) (Nat.zero_le _) hk (fun t => ?_) (fun j t _ hj hne => wr_ne _ _ (fun e => ?_))
      · rw [Nat.mul_comm a.idim k]
        exact wr_same _ _ _
      · rw [Nat.mul_comm j] at e
        exact hne (rad2 hl (by omega) (Nat.add_left_cancel e)).1.symm
    · rw [if_neg hkl]
      refine Eq.trans ?_ hzero
      refine loop_off (fun j t _ hj => wr_ne _ _ (fun e => ?_))
      rw [Nat.mul_comm j] at e
      have := rad2 hl (by omega) (Nat.add_left_cancel e)
      omega
  · simp only [if_neg hd, Nat.mul_zero, Nat.add_zero]
    have h1 : a.idim = 1 := by omega
    have hl0 : l = 0 := by omega
    subst hl0
    rw [h1]
    refine loop_at (fun _ => s) (Nat.zero_le _) hk (fun t => ?_) (fun j t _ hj hne => wr_ne _ _ (by omega))
    have : off + (0 + 1 * k) = off + k := by omega
    rw [this]
    exact wr_same _ _ _

theorem expand_off {a : Args K} (hc : clash a = false) {off p : Nat}
    (hp : p < off ∨ off + a.idim * a.jdim ≤ p) (s : K) (D : Nat → K) : expand a off s D p = D p := by
  have hc' := (clash_iff a).mp hc
  unfold expand
  rw [loop_off, loop_off]
  · intro j t _ hj
    exact wr_ne _ _ (by omega)
  · intro j t _ hj
    refine wr_ne _ _ ?_
    by_cases hd : a.jdim = a.idim
    · rw [if_pos hd, Nat.mul_comm j]
      have := rad_lt (A := a.idim) (B := a.jdim) (a := j) (b := j) (by omega) hj
      omega
    · rw [if_neg hd]
      have h1 : a.idim = 1 := by omega
      rw [h1] at hp
      omega

theorem fillPoint_at {f : UserD K} {a : Args K} {r n k l : Nat} (hk : k < a.jdim) (hl : l < a.idim)
    (hfit : Fits a.jdim a.idim a.nfa (f (xpt a.xyg a.q n r) r)) (D : Nat → K) :
    fillPoint f a r n D (a.idim * a.jdim * (n + a.q * r) + (l + a.idim * k)) =
      tensor a.jdim a.idim (f (xpt a.xyg a.q n r) r) k l := by
  unfold fillPoint
  simp only [point_eq]
  have h1 : ∀ D, (dfunc f a.jdim a.idim (xpt a.xyg a.q n r) r (a.idim * a.jdim * (n + a.q * r)) D).1 =
    (f (xpt a.xyg a.q n r) r).1 := fun _ => rfl
  rw [h1]
  cases hty : (f (xpt a.xyg a.q n r) r).1
  · have hfull : (f (xpt a.xyg a.q n r) r).1.full = false := by rw [hty]; rfl
    refine (expand_at (fits_clash hfull hfit) hk hl _ _ _).trans ?_
    unfold tensor
    simp only [hty]
  · have hfull : (f (xpt a.xyg a.q n r) r).1.full = false := by rw [hty]; rfl
    refine (expand_at (fits_clash hfull hfit) hk hl _ _ _).trans ?_
    rw [Nat.add_zero, dfunc_scalar hty]
    unfold tensor coef
    simp only [hty]
    rfl
  · exact dfunc_full (by rw [hty]; rfl) hfit hk hl
  · exact dfunc_full (by rw [hty]; rfl) hfit hk hl

theorem fillPoint_off {f : UserD K} {a : Args K} (h0 : 0 < a.idim * a.jdim) {r n p : Nat}
    (hp : p < a.idim * a.jdim * (n + a.q * r) ∨ a.idim * a.jdim * (n + a.q * r) + a.idim * a.jdim ≤ p)
    (hfit : Fits a.jdim a.idim a.nfa (f (xpt a.xyg a.q n r) r)) (D : Nat → K) :
    fillPoint f a r n D p = D p := by
  unfold fillPoint
  simp only [point_eq]
  have h1 : ∀ D, (dfunc f a.jdim a.idim (xpt a.xyg a.q n r) r (a.idim * a.jdim * (n + a.q * r)) D).1 =
    (f (xpt a.xyg a.q n r) r).1 := fun _ => rfl
  rw [h1]
  cases hty : (f (xpt a.xyg a.q n r) r).1
  · have hfull : (f (xpt a.xyg a.q n r) r).1.full = false := by rw [hty]; rfl
    exact (expand_off (fits_clash hfull hfit) hp _ _).trans (dfunc_off h0 hp)
  · have hfull : (f (xpt a.xyg a.q n r) r).1.full = false := by rw [hty]; rfl
    exact (expand_off (fits_clash hfull hfit) hp _ _).trans (dfunc_off h0 hp)
  · exact dfunc_off h0 hp
  · exact dfunc_off h0 hp

end Verif.Elemental
