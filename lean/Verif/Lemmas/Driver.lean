import Verif.Spec.Driver
import Verif.Lemmas.Loops
import Verif.Props.Spaces

/-!
The geometry prepared by the drivers: `initTet`, `initXYG`, copies and fills.
-/
namespace Verif.Driver

open Verif.Dense Verif.Spaces Verif.Geometry Verif.SpaceOp

/-- The inverse depends on the nine entries of the matrix only. -/
theorem inverse_congr {m m' inv : Nat → ℝ} (h : ∀ t, t < 9 → m t = m' t) : inverse3x3 m inv = inverse3x3 m' inv := by
  unfold inverse3x3
  simp only [invLoop, List.foldl_cons, List.foldl_nil]
  simp [h 0 (by omega), h 1 (by omega), h 2 (by omega), h 3 (by omega), h 4 (by omega), h 5 (by omega), h 6 (by omega), h 7 (by omega),
    h 8 (by omega)]

theorem fillN_at {n p : Nat} (v : ℝ) (m : Nat → ℝ) (hp : p < n) : fillN n v m p = v :=
  loop_at (fun _ => v) (Nat.zero_le p) hp (fun t => Dense.wr_same ..) fun j t _ _ hj => Dense.wr_ne _ _ (Ne.symm hj)

theorem copyN_at {n p : Nat} (s m : Nat → ℝ) (hp : p < n) : copyN n s m p = s p :=
  loop_at (fun _ => s p) (Nat.zero_le p) hp (fun t => Dense.wr_same ..) fun j t _ _ hj => Dense.wr_ne _ _ (Ne.symm hj)

/-- three numbers written from the position `p` on -/
theorem three_at (p : Nat) (g : Nat → ℝ) (m : Nat → ℝ) {i : Nat} (hi : i < 3) :
    loop 0 3 (fun i m => Dense.wr m (i + p) (g i)) m (i + p) = g i :=
  loop_at (fun _ => g i) (Nat.zero_le i) hi (fun t => Dense.wr_same ..) fun j t _ _ hj => Dense.wr_ne _ _ (by omega)

theorem three_off (p : Nat) (g : Nat → ℝ) (m : Nat → ℝ) {t : Nat} (ht : t < p ∨ p + 3 ≤ t) :
    loop 0 3 (fun i m => Dense.wr m (i + p) (g i)) m t = m t :=
  loop_off fun i s _ _ => Dense.wr_ne _ _ (by omega)

section
variable (XY : Nat → Nat → Nat → ℝ) (r : Nat) (a : Arr ℝ)

/-- the edge vectors written for one tetrahedron -/
theorem tetStep_xyp {c k : Nat} (hc : c < 4) (hk : k < 3) : (tetStep XY r a).xyp (12 * r + (k + 3 * c)) = XY r c k - XY r 0 k := by
  simp only [tetStep, Nat.add_assoc]
  match c, hc with
  | 0, _ =>
    rw [three_off _ _ _ (by omega), three_off _ _ _ (by omega), three_off _ _ _ (by omega), show 12 * r + (k + 3 * 0) = k + 12 * r by omega,
      three_at _ _ _ hk, sub_self]
  | 1, _ =>
    rw [three_off _ _ _ (by omega), three_off _ _ _ (by omega), show 12 * r + (k + 3 * 1) = k + (3 + 12 * r) by omega, three_at _ _ _ hk]
  | 2, _ => rw [three_off _ _ _ (by omega), show 12 * r + (k + 3 * 2) = k + (6 + 12 * r) by omega, three_at _ _ _ hk]
  | 3, _ => rw [show 12 * r + (k + 3 * 3) = k + (9 + 12 * r) by omega, three_at _ _ _ hk]

theorem tetStep_xyp_off {p : Nat} (hp : p < 12 * r ∨ 12 * r + 12 ≤ p) : (tetStep XY r a).xyp p = a.xyp p := by
  simp only [tetStep, Nat.add_assoc]
  rw [three_off _ _ _ (by omega), three_off _ _ _ (by omega), three_off _ _ _ (by omega), three_off _ _ _ (by omega)]

/-- the matrix inverted is the one of `tetGeom` -/
theorem tetStep_inv (m : Nat → ℝ) : inverse3x3 (fun t => (tetStep XY r a).xyp (3 + 12 * r + t)) m =
    inverse3x3 (fun t => (tetGeom (XY r 0) (XY r 1) (XY r 2) (XY r 3) m).xyp (3 + t)) m := by
  refine inverse_congr fun t ht => ?_
  have key : ∀ c k, c < 4 → k < 3 → (tetGeom (XY r 0) (XY r 1) (XY r 2) (XY r 3) m).xyp (k + 3 * c) = XY r c k - XY r 0 k := by
    intro c k hc hk
    have hd : (k + 3 * c) / 3 = c := by omega
    have hm : (k + 3 * c) % 3 = k := by omega
    simp only [tetGeom, hd, hm]
    match c, hc with
    | 0, _ => simp
    | 1, _ => simp
    | 2, _ => simp
    | 3, _ => simp
  have h1 := tetStep_xyp XY r a (c := t / 3 + 1) (k := t % 3) (by omega) (by omega)
  have h2 := key (t / 3 + 1) (t % 3) (by omega) (by omega)
  rw [show 12 * r + (t % 3 + 3 * (t / 3 + 1)) = 3 + 12 * r + t by omega] at h1
  rw [show t % 3 + 3 * (t / 3 + 1) = 3 + t by omega] at h2
  exact h1.trans h2.symm

theorem tetStep_det : (tetStep XY r a).det r = vol6 (XY r 0) (XY r 1) (XY r 2) (XY r 3) := by
  have h : (tetStep XY r a).det r = (inverse3x3 (fun t => (tetStep XY r a).xyp (3 + 12 * r + t)) fun t => a.psi (9 * r + t)).1 :=
    Dense.wr_same ..
  rw [h, tetStep_inv]
  exact (tetGeom_measure (XY r 0) (XY r 1) (XY r 2) (XY r 3) fun t => a.psi (9 * r + t)).1

theorem tetStep_det_off {p : Nat} (hp : p ≠ r) : (tetStep XY r a).det p = a.det p := Dense.wr_ne _ _ hp

theorem tetStep_mes : (tetStep XY r a).mes r = |vol6 (XY r 0) (XY r 1) (XY r 2) (XY r 3)| / 6 := by
  have h : (tetStep XY r a).mes r = |(tetStep XY r a).det r| / 6 := Dense.wr_same ..
  rw [h, tetStep_det]

theorem tetStep_mes_off {p : Nat} (hp : p ≠ r) : (tetStep XY r a).mes p = a.mes p := Dense.wr_ne _ _ hp

theorem tetStep_psi (t : Nat) : (tetStep XY r a).psi (9 * r + t) =
    (tetGeom (XY r 0) (XY r 1) (XY r 2) (XY r 3) fun t => a.psi (9 * r + t)).psi t := by
  have h : (tetStep XY r a).psi (9 * r + t) =
      (inverse3x3 (fun t => (tetStep XY r a).xyp (3 + 12 * r + t)) fun t => a.psi (9 * r + t)).2 t := by
    have e : (tetStep XY r a).psi = inArray (9 * r) (fun m => (inverse3x3 (fun t => (tetStep XY r a).xyp (3 + 12 * r + t)) m).2) a.psi := rfl
    rw [e, inArray, if_pos (by omega), Nat.add_sub_cancel_left]
  rw [h, tetStep_inv]
  rfl

theorem tetStep_psi_off {p : Nat} (hp : p < 9 * r ∨ 9 * r + 9 ≤ p) : (tetStep XY r a).psi p = a.psi p := by
  have e : (tetStep XY r a).psi = inArray (9 * r) (fun m => (inverse3x3 (fun t => (tetStep XY r a).xyp (3 + 12 * r + t)) m).2) a.psi := rfl
  rw [e, inArray]
  split
  · rw [inverse_frame _ _ _ (by omega)]
    exact congrArg a.psi (by omega)
  · rfl

end

/-- what `initTet` has done before pass `i` -/
structure TetDone (XY : Nat → Nat → Nat → ℝ) (a0 : Arr ℝ) (i : Nat) (a : Arr ℝ) : Prop where
  q : a.q = a0.q
  f : a.f = a0.f
  xyl : a.xyl = a0.xyl
  wg : a.wg = a0.wg
  nrm : a.nrm = a0.nrm
  xyp : ∀ r, r < i → ∀ c k, c < 4 → k < 3 → a.xyp (12 * r + (k + 3 * c)) = XY r c k - XY r 0 k
  det : ∀ r, r < i → a.det r = vol6 (XY r 0) (XY r 1) (XY r 2) (XY r 3)
  mes : ∀ r, r < i → a.mes r = |vol6 (XY r 0) (XY r 1) (XY r 2) (XY r 3)| / 6
  psi : ∀ r, r < i → ∃ junk, ∀ t, t < 9 → a.psi (9 * r + t) = (tetGeom (XY r 0) (XY r 1) (XY r 2) (XY r 3) junk).psi t

theorem initTet_done (XY : Nat → Nat → Nat → ℝ) (a : Arr ℝ) : TetDone XY a a.f (initTet XY a) := by
  unfold initTet
  refine loop_ind (P := fun i s => TetDone XY a i s) (Nat.zero_le _) ⟨rfl, rfl, rfl, rfl, rfl, nofun, nofun, nofun, nofun⟩ ?_
  intro i s _ _ h
  refine ⟨h.q, h.f, h.xyl, h.wg, h.nrm, ?_, ?_, ?_, ?_⟩
  · intro r hr c k hc hk
    by_cases e : r = i
    · subst e; exact tetStep_xyp XY r s hc hk
    · rw [tetStep_xyp_off XY i s (by omega)]
      exact h.xyp r (by omega) c k hc hk
  · intro r hr
    by_cases e : r = i
    · subst e; exact tetStep_det XY r s
    · rw [tetStep_det_off XY i s e]
      exact h.det r (by omega)
  · intro r hr
    by_cases e : r = i
    · subst e; exact tetStep_mes XY r s
    · rw [tetStep_mes_off XY i s e]
      exact h.mes r (by omega)
  · intro r hr
    by_cases e : r = i
    · subst e; exact ⟨_, fun t _ => tetStep_psi XY r s t⟩
    · obtain ⟨j, hj⟩ := h.psi r (by omega)
      exact ⟨j, fun t ht => by rw [tetStep_psi_off XY i s (by omega)]; exact hj t ht⟩

/-- the tetrahedrons in the memory -/
theorem TetDone.atTet {XY : Nat → Nat → Nat → ℝ} {a0 a : Arr ℝ} {i r : Nat} (h : TetDone XY a0 i a) (hr : r < i) (hv : Nondeg (XY r)) :
    AtTet a.mem r (XY r) := by
  obtain ⟨junk, hj⟩ := h.psi r hr
  have hs := (single_atTet (XY r) (fun _ => 0) junk hv).2.2
  refine ⟨h.xyp r hr, h.det r hr, fun j b hj' hb => ?_⟩
  rw [← hs j b hj' hb]
  have e : ∀ k, k < 3 → a.mem.psi (9 * r + (j + 3 * k)) = (single (XY r) (fun _ => 0) junk).psi (9 * 0 + (j + 3 * k)) := by
    intro k hk
    refine (hj _ (by omega)).trans ?_
    rw [Nat.mul_zero, Nat.zero_add]
    rfl
  simp only [dot]
  rw [e 0 (by omega), e 1 (by omega), e 2 (by omega)]

/-- the points in the memory -/
theorem initXYG_at (XY : Nat → Nat → Nat → ℝ) (a : Arr ℝ) {r n k : Nat} (hr : r < a.f) (hn : n < a.q) (hk : k < 3) :
    (initXYG XY a).xyg (3 * a.q * r + 3 * n + k) = XY r 0 k + (a.xyl (1 + 4 * n) * a.xyp (12 * r + (k + 3 * 1)) +
      a.xyl (2 + 4 * n) * a.xyp (12 * r + (k + 3 * 2)) + a.xyl (3 + 4 * n) * a.xyp (12 * r + (k + 3 * 3))) := by
  have pos : 3 * a.q * r + 3 * n + k = k + 3 * (n + a.q * r) := by rw [Nat.mul_assoc]; omega
  have inj : ∀ r' n' k', n' < a.q → k' < 3 → k + 3 * (n + a.q * r) = k' + 3 * (n' + a.q * r') → k = k' ∧ n = n' ∧ r = r' := by
    intro r' n' k' hn' hk' e
    have e1 : k = k' := by omega
    have e2 : n + r * a.q = n' + r' * a.q := by rw [Nat.mul_comm r, Nat.mul_comm r']; omega
    exact ⟨e1, pos_inj hn hn' e2⟩
  rw [pos]
  have sum : loop 0 3 (fun l s => s + a.xyl (l + 1 + 4 * n) * a.xyp (k + 3 * (l + 1) + 12 * r)) (XY r 0 k) =
      XY r 0 k + (a.xyl (1 + 4 * n) * a.xyp (12 * r + (k + 3 * 1)) + a.xyl (2 + 4 * n) * a.xyp (12 * r + (k + 3 * 2)) +
        a.xyl (3 + 4 * n) * a.xyp (12 * r + (k + 3 * 3))) := by
    rw [loop_sum 3 (fun l => a.xyl (l + 1 + 4 * n) * a.xyp (k + 3 * (l + 1) + 12 * r)), Finset.sum_range_succ, Finset.sum_range_succ, Finset.sum_range_one]
    simp only [Nat.zero_add, Nat.reduceAdd]
    rw [Nat.add_comm (k + 3 * 1), Nat.add_comm (k + 3 * 2), Nat.add_comm (k + 3 * 3)]
  refine loop_at (fun _ => _) (Nat.zero_le r) hr (fun t => ?_) fun j t _ hj hne => ?_
  · refine loop_at (fun _ => _) (Nat.zero_le n) hn (fun t => ?_) fun j t _ hj hne => ?_
    · refine (loop_at (fun _ => _) (Nat.zero_le k) hk (fun t => Dense.wr_same ..) fun j t _ hj hne => Dense.wr_ne _ _ fun e => ?_).trans sum
      omega
    · exact loop_off fun i s _ hi => Dense.wr_ne _ _ fun e => hne (inj r j i hj hi e).2.1.symm
  · exact loop_off fun i s _ hi => loop_off fun i' s _ hi' => Dense.wr_ne _ _ fun e => hne (inj j i i' hi hi' e).2.2.symm

/-- what `initGeom` does to arrays whose points have barycentric coordinates summing to one -/
theorem initGeom_prepared (T : Nat → Nat → Nat → ℝ) (a : Arr ℝ) (hq : 0 < a.q) (hf : 0 < a.f) (hT : ∀ r, r < a.f → Nondeg (T r))
    (hl : ∀ n, n < a.q → a.xyl (4 * n) + a.xyl (4 * n + 1) + a.xyl (4 * n + 2) + a.xyl (4 * n + 3) = 1) :
    Prepared (initGeom T a) a.q a.f T (fun r n => mix (T r) fun c => a.xyl (4 * n + c)) (fun r => volume (T r)) a.wg := by
  have D := initTet_done T a
  have bary : ∀ r n, n < a.q → IsBary (T r 0) (T r 1) (T r 2) (T r 3) (mix (T r) fun c => a.xyl (4 * n + c)) fun c => a.xyl (c + 4 * n) := by
    intro r n hn
    simp only [fun c => Nat.add_comm c (4 * n)]
    exact ⟨hl n hn, fun _ _ => rfl⟩
  refine ⟨D.q, D.f, ⟨?_, ?_, ?_, ?_, ?_⟩, ?_, D.mes, fun n _ => congrFun D.wg n⟩
  · exact hq.trans_eq D.q.symm
  · exact hf.trans_eq D.f.symm
  · exact fun r hr => hT r (hr.trans_eq D.f)
  · exact fun r hr => D.atTet (hr.trans_eq D.f) (hT r (hr.trans_eq D.f))
  · intro r hr n hn
    have : (initGeom T a).mem.xyl = a.xyl := D.xyl
    rw [AtPoint, this]
    exact bary r n (hn.trans_eq D.q)
  · intro r hr n hn
    have key : ∀ k, k < 3 → (initGeom T a).xyg (3 * a.q * r + 3 * n + k) = mix (T r) (fun c => a.xyl (4 * n + c)) k := by
      intro k hk
      have h := initXYG_at T (initTet T a) (r := r) (n := n) (k := k) (hr.trans_eq D.f.symm) (hn.trans_eq D.q.symm) hk
      rw [D.q] at h
      refine h.trans ?_
      rw [D.xyl, D.xyp r hr 1 k (by omega) hk, D.xyp r hr 2 k (by omega) hk, D.xyp r hr 3 k (by omega) hk, Nat.add_comm 1, Nat.add_comm 2,
        Nat.add_comm 3, mix]
      linear_combination -T r 0 k * hl n hn
    exact Prod.ext (key 0 (by omega)) (Prod.ext (key 1 (by omega)) (key 2 (by omega)))

end Verif.Driver
