import Verif.Model.Demand
import Verif.Lemmas.Elemental3
import Verif.Lemmas.Driver
import Verif.Props.OpStack8
import Verif.Props.CtOp2
import Verif.Lemmas.SpaceOp
import Verif.Props.Geometry
import Verif.Model.QuadRules

/-!
C60: the integration drivers write only into the memory they demand.
-/
namespace Verif.Demand

open Verif.Dense Verif.Elemental

/-! ### The arrays -/

/-- the arrays lie one behind the other between `p` and `p` plus the sum of the sizes -/
theorem place_inside : ∀ (l : List Nat) (p : Nat) (x : Nat × Nat), x ∈ place p l → p ≤ x.1 ∧ x.1 + x.2 ≤ p + l.sum
  | [], _, _, h => by simp [place] at h
  | n :: l, p, x, h => by
    rw [place, List.mem_cons] at h
    rw [List.sum_cons]
    rcases h with rfl | h
    · exact ⟨Nat.le_refl _, by show p + n ≤ _; omega⟩
    · have := place_inside l (p + n) x h
      omega

theorem place_disjoint : ∀ (l : List Nat) (p : Nat), (place p l).Pairwise fun x y => x.1 + x.2 ≤ y.1
  | [], _ => List.Pairwise.nil
  | n :: l, p => by
    rw [place, List.pairwise_cons]
    exact ⟨fun y hy => (place_inside l (p + n) y hy).1, place_disjoint l (p + n)⟩

/-- The last array of a list of arrays. -/
theorem place_last (l : List Nat) (n : Nat) : ∀ p, (place p (l ++ [n])).getLast? = some (p + l.sum, n) := by
  induction l with
  | nil => intro p; rfl
  | cons a l ih =>
    intro p
    rw [List.cons_append, place, List.getLast?_cons, ih, List.sum_cons, Nat.add_assoc]
    rfl

variable {normal copy same : Bool} {A B : Need} {q f : Nat}

/-- **C60**: the arrays of the drivers for compile-time operators do not overlap, lie in the demanded memory, and the last of them, `extraR`, has room
for the blocks of the elemental matrix (`Nfa` of the test operator times `Nfa` of the trial operator numbers for every tetrahedron) before the end of
the demanded memory. -/
theorem carveCt_fits (normal copy same : Bool) (A B : Need) (q f : Nat) :
    ((place 0 (carveCt normal copy same A B q f)).Pairwise fun x y => x.1 + x.2 ≤ y.1) ∧
    (∀ x ∈ place 0 (carveCt normal copy same A B q f), x.1 + x.2 ≤ (demandCt normal copy same A B q f).1) ∧
    ∃ ex, (place 0 (carveCt normal copy same A B q f)).getLast? = some (ex, both same A.exr B.exr) ∧
      ex + B.nfa * (A.nfa * f) ≤ (demandCt normal copy same A B q f).1 := by
  have h1 : nD normal * B.dim * q * A.nfa * f = B.dim * nD normal * q * A.nfa * f := by rw [Nat.mul_comm (nD normal)]
  have h2 : nD normal * A.dim = A.dim * nD normal := Nat.mul_comm _ _
  have h3 : B.nfa * (A.nfa * f) = B.nfa * A.nfa * f := (Nat.mul_assoc ..).symm
  refine ⟨place_disjoint _ _, fun x hx => ?_, _, place_last [_, _, _, _, _, _, _, _, _, _, _, _] _ 0, ?_⟩
  · have := (place_inside _ _ _ hx).2
    refine this.trans ?_
    unfold carveCt demandCt
    simp only [List.sum_cons, List.sum_nil, h1, h2]
    have := Nat.le_max_left (both same A.exr B.exr) (B.nfa * A.nfa * f)
    omega
  · unfold demandCt
    simp only [List.sum_cons, List.sum_nil, h1, h2, h3]
    have := Nat.le_max_right (both same A.exr B.exr) (B.nfa * A.nfa * f)
    omega

-- `GRAD` of three copies of the linear space against `IDEN` of the same, 4 points, 2 tetrahedrons
example : ((place 0 (carveCt true true false ⟨9, 12, 288, 0, 0, 0⟩ ⟨3, 12, 96, 7, 0, 0⟩ 4 2)).map Prod.fst,
    (demandCt true true false ⟨9, 12, 288, 0, 0, 0⟩ ⟨3, 12, 96, 7, 0, 0⟩ 4 2).1) =
    ([0, 24, 48, 66, 68, 74, 76, 92, 96, 384, 480, 1344, 1992], 2280) := by decide

/-- **C60**: the same for run-time operators, when the memory of the user is accepted; behind `extraR` lies only the memory of the tensor function. -/
theorem carveRt_fits {dSize iSize mSize : Nat} (h : acceptsRt normal copy same A B q f dSize iSize mSize = true) :
    ((place 0 (carveRt normal copy same A B q f)).Pairwise fun x y => x.1 + x.2 ≤ y.1) ∧
    (∀ x ∈ place 0 (carveRt normal copy same A B q f), x.1 + x.2 ≤ dSize) ∧
    (∃ ex, (place 0 (carveRt normal copy same A B q f))[12]? = some (ex, both same A.exr B.exr) ∧ ex + B.nfa * (A.nfa * f) ≤ dSize) ∧
    ((place 0 (carveRtI same A B).1).Pairwise fun x y => x.1 + x.2 ≤ y.1) ∧
    (∀ x ∈ place 0 (carveRtI same A B).1, x.1 + x.2 ≤ iSize) ∧ (carveRtI same A B).2 ≤ mSize := by
  unfold acceptsRt at h
  simp only [Bool.not_eq_true', Bool.or_eq_false_iff, decide_eq_false_iff_not, Nat.not_lt] at h
  obtain ⟨⟨hm, hd⟩, hi⟩ := h
  have h1 : nD normal * B.dim * A.dim = funcReq normal A B := by unfold funcReq; rw [Nat.mul_comm (nD normal)]
  have h3 : B.nfa * (A.nfa * f) = A.nfa * B.nfa * f := by rw [← Nat.mul_assoc, Nat.mul_comm B.nfa]
  refine ⟨place_disjoint _ _, fun x hx => ?_, ⟨_, rfl, ?_⟩, place_disjoint _ _, fun x hx => ?_, hm⟩
  · refine ((place_inside _ _ _ hx).2).trans (le_trans ?_ hd)
    unfold carveRt demandRt
    simp only [List.sum_cons, List.sum_nil, h1]
    have := Nat.le_max_left (both same A.exr B.exr) (A.nfa * B.nfa * f)
    omega
  · refine le_trans ?_ hd
    unfold demandRt
    simp only [h3]
    have := Nat.le_max_right (both same A.exr B.exr) (A.nfa * B.nfa * f)
    omega
  · refine ((place_inside _ _ _ hx).2).trans (le_trans ?_ hi)
    unfold carveRtI demandRt
    simp only [List.sum_cons, List.sum_nil]
    omega

example : acceptsRt false false false ⟨9, 12, 288, 0, 0, 3⟩ ⟨3, 12, 96, 7, 0, 3⟩ 4 2 1345 16 12 = true ∧
    acceptsRt false false false ⟨9, 12, 288, 0, 0, 3⟩ ⟨3, 12, 96, 7, 0, 3⟩ 4 2 1344 16 12 = false := by decide

/-! ### The stack of the run-time operators -/

section
variable {K : Type} [CommRing K]

/-- What an operator of a run-time space demands. -/
def needOf (op : OpStack.Op K) (exi : Nat) : Need := ⟨op.dim, op.nfa, op.usz, op.exr, exi, op.parts⟩

/-- **C60**: two operators applied one after the other write only into `U`, `V` and `extraR` and into the arrays `MTX`, `MTXI_ROW`, `MTXI_COL` of the
demanded sizes, and leave room for the `2*nparts` matrices which the driver takes from the end of `MTX` when the test operator has several parts. -/
theorem stack_fits {a b : OpStack.Op K} {va vb : OpStack.Vals K} (ha : OpStack.Correct q f a va) (hb : OpStack.Correct q f b vb) (same : Bool)
    (hsame : same = true → a = b) (st : OpStack.St K) (hempty : st.busy = 0) (u v ex es exi : Nat) (hesa : a.exr ≤ es) (hesb : b.exr ≤ es)
    (hu : u + a.usz ≤ ex ∨ ex + es ≤ u) (hv : v + b.usz ≤ ex ∨ ex + es ≤ v) :
    ∃ st2 refU refV, OpStack.applyTwo same a b u v ex es st = some (st2, refU, refV) ∧
      (∀ p, (p < u ∨ u + a.usz ≤ p) → (same = true ∨ p < v ∨ v + b.usz ≤ p) → (p < ex ∨ ex + es ≤ p) → st2.re p = st.re p) ∧
      (∀ d, partsBoth same (needOf a exi) (needOf b exi) ≤ d → st2.mtx d = st.mtx d) ∧
      (∀ j, 2 + 1 * partsBoth same (needOf a exi) (needOf b exi) ≤ j → st2.row j = st.row j ∧ st2.col j = st.col j) ∧
      st2.busy ≤ partsBoth same (needOf a exi) (needOf b exi) ∧
      (refV.nparts ≠ 1 → st2.busy + 2 * refV.nparts ≤ (carveRtI same (needOf a exi) (needOf b exi)).2) := by
  obtain ⟨st1, refU, e1, g1⟩ := ha st u ex es hesa hu
  have hb1 := g1.busy
  have hn1 := g1.nparts
  have hp1 := g1.pos
  cases hs : same with
  | true =>
    obtain rfl := hsame hs
    refine ⟨st1, refU, refU, ?_, fun p h1 _ h3 => g1.re p h1 h3, fun d hd => g1.mtxHigh d ?_, fun j hj => ⟨g1.rowHigh j ?_, g1.colHigh j ?_⟩, ?_,
      fun hne => ?_⟩
    · unfold OpStack.applyTwo
      rw [e1]
      rfl
    all_goals simp only [partsBoth, partsV, carveRtI, needOf, if_true] at *
    · omega
    · omega
    · omega
    · omega
    · rw [if_pos (by omega)]
      omega
  | false =>
    obtain ⟨st2, refV, e2, g2⟩ := hb st1 v ex es hesb hv
    have hb2 := g2.busy
    have hn2 := g2.nparts
    have hp2 := g2.pos
    refine ⟨st2, refU, refV, ?_, fun p h1 h2 h3 => ?_, fun d hd => ?_, fun j hj => ⟨?_, ?_⟩, ?_, fun hne => ?_⟩
    · unfold OpStack.applyTwo
      rw [e1]
      dsimp only
      rw [if_neg (by decide), e2]
    · rw [g2.re p (by simpa using h2) h3, g1.re p h1 h3]
    all_goals simp only [partsBoth, partsV, carveRtI, needOf, Bool.false_eq_true, if_false] at *
    · rw [g2.mtxHigh d (by omega), g1.mtxHigh d (by omega)]
    · rw [g2.rowHigh j (by omega), g1.rowHigh j (by omega)]
    · rw [g2.colHigh j (by omega), g1.colHigh j (by omega)]
    · omega
    · rw [if_pos (by omega)]
      omega

end

example (st : OpStack.St ℤ) (h : st.busy = 0) : ∃ st2 refU refV,
    OpStack.applyTwo false (OpStack.vec 3 OpStack.exGrad) OpStack.exProd 0 100 500 10 st = some (st2, refU, refV) ∧
      ∀ p, 510 ≤ p → st2.re p = st.re p := by
  obtain ⟨st2, refU, refV, e, hre, -⟩ := stack_fits (q := 2) (f := 3) (OpStack.vec_correct OpStack.exGrad_correct (show 1 ≤ 3 by decide))
    OpStack.exProd_correct false (fun h => absurd h (by decide)) st h 0 100 500 10 0 (by decide) (by decide) (by decide) (by decide)
  refine ⟨st2, refU, refV, e, fun p hp => hre p (Or.inr (le_trans (by decide) hp)) (Or.inr (Or.inr (le_trans (by decide) hp))) (Or.inr hp)⟩

/-! ### The tensor, the products, the elemental matrix -/

section
variable {K : Type} [CommRing K] {a : Args K}

theorem blk_le {Bk qq ff n r p : Nat} (hn : n < qq) (hr : r < ff) (hp : Bk * (qq * ff) ≤ p) : Bk * (n + qq * r) + Bk ≤ p := by
  have h1 := Elemental.rad_lt hn hr
  have h2 : Bk * (n + qq * r + 1) ≤ Bk * (qq * ff) := Nat.mul_le_mul_left _ h1
  rw [Nat.mul_add, Nat.mul_one] at h2
  omega

theorem fillPoint_inside {fn : UserD K} (h0 : 0 < a.idim * a.jdim) {r n p : Nat} (hp : a.idim * a.jdim * (n + a.q * r) + a.idim * a.jdim ≤ p)
    (hc : (fn (point a.xyg a.q n r) r).1.full = false → clash a = false) (D : Nat → K) : fillPoint fn a r n D p = D p := by
  unfold fillPoint
  have h1 : ∀ D, (dfunc fn a.jdim a.idim (point a.xyg a.q n r) r (a.idim * a.jdim * (n + a.q * r)) D).1 = (fn (point a.xyg a.q n r) r).1 := fun _ => rfl
  simp only [h1]
  cases hty : (fn (point a.xyg a.q n r) r).1
  · exact (expand_off (hc (by rw [hty]; rfl)) (Or.inr hp) _ _).trans (dfunc_off h0 (Or.inr hp))
  · exact (expand_off (hc (by rw [hty]; rfl)) (Or.inr hp) _ _).trans (dfunc_off h0 (Or.inr hp))
  · exact dfunc_off h0 (Or.inr hp)
  · exact dfunc_off h0 (Or.inr hp)

theorem fillSel_inside {fn : UserD K} (h0 : 0 < a.idim * a.jdim) (hf : 0 < a.f) {num : Nat → Nat} {p : Nat}
    (hp : a.idim * a.jdim * (a.q * a.f) ≤ p) (D : Nat → K) : fillSel fn a num D p = D p := by
  unfold fillSel
  rw [loop_off (fun r D _ hr => loop_off (fun n D _ hn => dfunc_off h0 (Or.inr (blk_le hn hr hp)))),
    loop_off (fun n D _ hn => dfunc_off h0 (Or.inr (blk_le hn hf hp)))]

/-- **C60**: the values of the tensor function stay in `DIFF`. -/
theorem tensor_inside (tr : Traits) (fn : UserD K) (h0 : 0 < a.idim * a.jdim) (hq : 0 < a.q) (hf : 0 < a.f) (D DU : Nat → K)
    (hok : (applyDU tr fn a D DU).isSome) {p : Nat} (hp : a.idim * a.jdim * (a.q * a.f) ≤ p) : tensorMem tr fn a D DU p = D p := by
  have hone : 0 + a.idim * a.jdim ≤ p := by
    have := blk_le hq hf hp
    omega
  cases tr with
  | constAny => exact dfunc_off h0 (Or.inr hone)
  | constNull => rfl
  | constScalar => exact dfunc_off h0 (Or.inr hone)
  | constFull => exact dfunc_off h0 (Or.inr hone)
  | null => rfl
  | full => exact loop_off (fun r D _ hr => loop_off (fun n D _ hn => dfunc_off h0 (Or.inr (blk_le hn hr hp))))
  | scalar => exact loop_off (fun r D _ hr => loop_off (fun n D _ hn => dfunc_off h0 (Or.inr (blk_le hn hr hp))))
  | perPoint =>
    refine loop_off (fun r D _ hr => loop_off (fun n D _ hn => fillPoint_inside h0 (blk_le hn hr hp) (fun hfull => ?_) D))
    unfold applyDU at hok
    by_contra hcl
    have hcp : clashPoint fn a = true := by
      unfold clashPoint
      rw [List.any_eq_true]
      refine ⟨r, List.mem_range.2 hr, ?_⟩
      rw [List.any_eq_true]
      refine ⟨n, List.mem_range.2 hn, ?_⟩
      rw [hfull]
      simpa using hcl
    simp [hcp] at hok
  | perTetra =>
    have key : ∀ r (s : (Nat → K) × (Nat → K)), r < a.f → (stepTetra fn a r s).1 p = s.1 p := by
      intro r s hr
      have hfill : ∀ D, fillTet fn a r D p = D p := fun D => loop_off (fun n D _ hn => dfunc_off h0 (Or.inr (by
        have := blk_le (r := 0) hn hf hp
        simpa using this)))
      unfold stepTetra
      have h1 : (dfunc fn a.jdim a.idim (point a.xyg a.q 0 r) r 0 s.1).1 = (fn (point a.xyg a.q 0 r) r).1 := rfl
      simp only [h1]
      cases (fn (point a.xyg a.q 0 r) r).1
      · exact dfunc_off h0 (Or.inr hone)
      · exact (hfill _).trans (dfunc_off h0 (Or.inr hone))
      · exact (hfill _).trans (dfunc_off h0 (Or.inr hone))
      · exact (hfill _).trans (dfunc_off h0 (Or.inr hone))
    exact loop_ind (P := fun _ (s : (Nat → K) × (Nat → K)) => s.1 p = D p) (Nat.zero_le _) rfl (fun r s _ hr hs => (key r s hr).trans hs)
  | perSelection =>
    unfold tensorMem
    have h1 : (dfunc fn a.jdim a.idim (point a.xyg a.q 0 0) 0 0 D).1 = (fn (point a.xyg a.q 0 0) 0).1 := rfl
    simp only [h1]
    cases (fn (point a.xyg a.q 0 0) 0).1
    · exact dfunc_off h0 (Or.inr hone)
    · exact (fillSel_inside h0 hf hp _).trans (dfunc_off h0 (Or.inr hone))
    · exact (fillSel_inside h0 hf hp _).trans (dfunc_off h0 (Or.inr hone))
    · exact (fillSel_inside h0 hf hp _).trans (dfunc_off h0 (Or.inr hone))

/-- the values read by the products are those of `tensorMem` -/
theorem tensorMem_read (fn : UserD K) (D DU : Nat → K) :
    applyDU .full fn a D DU =
      some (loop 0 a.f (fun r DU' => mulTet a r (fun n p => tensorMem .full fn a D DU (a.idim * a.jdim * (n + a.q * r) + p)) DU') DU) ∧
    (clash a = false → applyDU .scalar fn a D DU = some (spread a (loop 0 a.f (fun r DU' =>
      diagTet a r (fun n => tensorMem .scalar fn a D DU (a.idim * a.jdim * (n + a.q * r)) * a.w n) (a.mes r) DU') DU))) ∧
    (clashPoint fn a = false → applyDU .perPoint fn a D DU =
      some (loop 0 a.f (fun r DU' => mulTet a r (fun n p => tensorMem .perPoint fn a D DU (a.idim * a.jdim * (n + a.q * r) + p)) DU') DU)) ∧
    applyDU .constFull fn a D DU = some (loop 0 a.f (fun r DU' => mulTet a r (fun _ p => tensorMem .constFull fn a D DU p) DU') DU) :=
  ⟨rfl, fun h => by unfold applyDU; simp only [h]; rfl, fun h => by unfold applyDU; simp only [h]; rfl, rfl⟩

theorem mulTet_inside (ok : a.U.Ok a.q a.idim a.nfa) {r : Nat} (hr : r < a.f) (locD : Nat → Nat → K) (DU : Nat → K) {p : Nat}
    (hp : a.jdim * (a.q * (a.nfa * a.f)) ≤ p) : mulTet a r locD DU p = DU p := by
  unfold mulTet
  refine loop_off (fun d t _ hd => loop_off (fun i t _ hi => loop_off (fun n t _ hn => loop_off (fun k t _ hk => wr_ne _ _ ?_))))
  have h1 := st_mono ok.colMono (show d + 1 ≤ a.U.nparts from hd) (Nat.le_refl _)
  rw [ok.colN] at h1
  have := rad_lt hk (rad_lt hn (rad_lt (show i < a.nfa by omega) hr))
  omega

theorem diagTet_inside (ok : a.U.Ok a.q a.idim a.nfa) (hij : a.idim ≤ a.jdim) {r : Nat} (hr : r < a.f) (wg : Nat → K) (vol : K) (DU : Nat → K)
    {p : Nat} (hp : a.jdim * (a.q * (a.nfa * a.f)) ≤ p) : diagTet a r wg vol DU p = DU p := by
  unfold diagTet
  refine loop_off (fun d t _ hd => loop_off (fun i t _ hi => loop_off (fun n t _ hn => loop_off (fun k t _ hk => wr_ne _ _ ?_))))
  have h1 := st_mono ok.colMono (show d + 1 ≤ a.U.nparts from hd) (Nat.le_refl _)
  have h2 := st_mono ok.rowMono (show d + 1 ≤ a.U.nparts from hd) (Nat.le_refl _)
  rw [ok.colN] at h1
  rw [ok.rowN] at h2
  have := rad_lt (show k < a.jdim by omega) (rad_lt hn (rad_lt (show i < a.nfa by omega) hr))
  omega

theorem spreadTet_inside (hn0 : 0 < a.nfa) {r : Nat} (hr : r < a.f) (DU : Nat → K) {p : Nat} (hp : a.jdim * (a.q * (a.nfa * a.f)) ≤ p) :
    spreadTet a r DU p = DU p := by
  unfold spreadTet
  refine loop_off (fun n t _ hn => loop_off (fun k t _ hk => wr_ne _ _ ?_))
  have := rad_lt hk (rad_lt hn (rad_lt hn0 hr))
  omega

theorem clash_le (hc : clash a = false) (h0 : 0 < a.idim * a.jdim) : a.idim ≤ a.jdim := by
  rcases (clash_iff a).1 hc with h | ⟨-, h⟩
  · omega
  · have := Nat.pos_of_mul_pos_left h0
    omega

theorem stepTetra_inside {fn : UserD K} (ok : a.U.Ok a.q a.idim a.nfa) (h0 : 0 < a.idim * a.jdim) (hn0 : 0 < a.nfa) {r : Nat} (hr : r < a.f)
    (hcl : (fn (point a.xyg a.q 0 r) r).1.full = false → clash a = false) (s : (Nat → K) × (Nat → K)) {p : Nat}
    (hp : a.jdim * (a.q * (a.nfa * a.f)) ≤ p) : (stepTetra fn a r s).2 p = s.2 p := by
  have hd : ∀ hc : clash a = false, ∀ g vol, diagTet a r g vol s.2 p = s.2 p := fun hc g vol => diagTet_inside ok (clash_le hc h0) hr g vol s.2 hp
  have hs : ∀ DU : Nat → K, (if a.jdim ≠ a.idim then spreadTet a r DU else DU) p = DU p := fun DU => by
    split
    · exact spreadTet_inside hn0 hr _ hp
    · rfl
  have hm : ∀ g, mulTet a r g s.2 p = s.2 p := fun g => mulTet_inside ok hr g s.2 hp
  unfold stepTetra
  have h1 : (dfunc fn a.jdim a.idim (point a.xyg a.q 0 r) r 0 s.1).1 = (fn (point a.xyg a.q 0 r) r).1 := rfl
  dsimp only
  rw [h1]
  generalize (dfunc fn a.jdim a.idim (point a.xyg a.q 0 r) r 0 s.1).2 = D1
  generalize fillTet fn a r D1 = D2
  cases hty : (fn (point a.xyg a.q 0 r) r).1 with
  | null =>
    dsimp only
    rw [hs, hd (hcl (by rw [hty]; rfl))]
  | scalar =>
    dsimp only
    rw [hs, hd (hcl (by rw [hty]; rfl))]
  | symmetric =>
    dsimp only
    rw [hm]
  | general =>
    dsimp only
    rw [hm]

/-- **C60**: the product with the tensor writes only into `DU`. -/
theorem du_inside (tr : Traits) (fn : UserD K) (ok : a.U.Ok a.q a.idim a.nfa) (h0 : 0 < a.idim * a.jdim) (hn0 : 0 < a.nfa) (D DU DU' : Nat → K)
    (h : applyDU tr fn a D DU = some DU') {p : Nat} (hp : a.jdim * (a.q * (a.nfa * a.f)) ≤ p) : DU' p = DU p := by
  have hmul : ∀ (g : Nat → Nat → Nat → K) DU, loop 0 a.f (fun r DU => mulTet a r (g r) DU) DU p = DU p := fun g DU =>
    loop_off (fun r t _ hr => mulTet_inside ok hr _ _ hp)
  have hspr : ∀ DU, spread a DU p = DU p := fun DU => by
    unfold spread
    split
    · exact loop_off (fun r t _ hr => spreadTet_inside hn0 hr _ hp)
    · rfl
  have hdiag : clash a = false → ∀ (g : Nat → Nat → K) (v : Nat → K) DU, loop 0 a.f (fun r DU => diagTet a r (g r) (v r) DU) DU p = DU p :=
    fun hc g v DU => loop_off (fun r t _ hr => diagTet_inside ok (clash_le hc h0) hr _ _ _ hp)
  have hboth : ∀ (hc : clash a = false) (g : Nat → Nat → K) (v : Nat → K) DU,
      spread a (loop 0 a.f (fun r DU => diagTet a r (g r) (v r) DU) DU) p = DU p := fun hc g v DU => (hspr _).trans (hdiag hc g v DU)
  have hdrop : ∀ {X : Nat → K}, (if clash a then none else some X) = some DU' → clash a = false ∧ X = DU' := by
    intro X hX
    cases hc : clash a
    · rw [hc] at hX
      exact ⟨rfl, Option.some.inj hX⟩
    · rw [hc] at hX
      cases hX
  unfold applyDU at h
  cases tr with
  | constAny =>
    dsimp only at h
    split at h
    · obtain ⟨hc, rfl⟩ := hdrop h
      exact hboth hc _ _ _
    · obtain ⟨hc, rfl⟩ := hdrop h
      exact hboth hc _ _ _
    · cases h
      exact hmul _ _
  | constNull =>
    obtain ⟨hc, rfl⟩ := hdrop h
    exact hboth hc _ _ _
  | constScalar =>
    obtain ⟨hc, rfl⟩ := hdrop h
    exact hboth hc _ _ _
  | constFull =>
    cases h
    exact hmul _ _
  | null =>
    obtain ⟨hc, rfl⟩ := hdrop h
    exact hboth hc _ _ _
  | full =>
    cases h
    exact hmul _ _
  | scalar =>
    obtain ⟨hc, rfl⟩ := hdrop h
    exact hboth hc _ _ _
  | perPoint =>
    dsimp only at h
    split at h
    · cases h
    · cases h
      exact hmul _ _
  | perTetra =>
    dsimp only at h
    split at h
    · cases h
    · next hct =>
      cases h
      have hcl : ∀ r, r < a.f → (fn (point a.xyg a.q 0 r) r).1.full = false → clash a = false := by
        intro r hr hfull
        by_contra hcl
        refine hct ?_
        unfold clashTetra
        rw [List.any_eq_true]
        refine ⟨r, List.mem_range.2 hr, ?_⟩
        rw [hfull]
        simpa using hcl
      have key := fun r s hr => stepTetra_inside ok h0 hn0 hr (hcl r hr) s hp
      exact loop_ind (P := fun _ (s : (Nat → K) × (Nat → K)) => s.2 p = DU p) (Nat.zero_le _) rfl (fun r s _ hr hs => (key r s hr).trans hs)
  | perSelection =>
    dsimp only at h
    split at h
    · obtain ⟨hc, rfl⟩ := hdrop h
      exact hboth hc _ _ _
    · obtain ⟨hc, rfl⟩ := hdrop h
      exact hboth hc _ _ _
    · cases h
      exact hmul _ _

/-- **C60**: the convolution with the normal works in place. -/
theorem normal_inside {jd nf : Nat} (hq : 0 < q) (hf : 0 < f) (nrm DU : Nat → K) {p : Nat} (hp : jd * (q * (nf * f)) ≤ p) :
    processNormal (jd * 3 * q) (nf * f) q f nrm DU p = DU p := by
  unfold processNormal
  have h1 : jd * 3 * q / q / 3 = jd := by rw [Nat.mul_div_cancel _ hq, Nat.mul_div_cancel _ (by decide)]
  have h2 : nf * f / f = nf := Nat.mul_div_cancel _ hf
  simp only [h1, h2]
  refine loop_off (fun r t _ hr => loop_off (fun i t _ hi => loop_off (fun n t _ hn => loop_off (fun k t _ hk => wr_ne _ _ ?_))))
  have h3 := rad_lt hk (rad_lt hn (rad_lt hi hr))
  have h4 : k + jd * (n + q * (i + nf * r)) = k + jd * n + jd * q * (i + nf * r) := by ring
  omega

/-- one part of the test operator -/
theorem partStep_inside {V : Band K} {dimB nfA nfB : Nat} (ok : V.Ok q dimB nfB) {d : Nat} (hd : d < V.nparts) (DU : Nat → K) {s : PartState K}
    (h1 : s.stDr = V.stRow d * (q * (nfA * f))) (h2 : s.stAr = V.stCol d * (nfA * f)) :
    (partStep V dimB nfA q f DU d s).stDr = V.stRow (d + 1) * (q * (nfA * f)) ∧ (partStep V dimB nfA q f DU d s).stAr = V.stCol (d + 1) * (nfA * f) ∧
      (∀ p, dimB * (q * (nfA * f)) ≤ p → (partStep V dimB nfA q f DU d s).diff p = s.diff p) ∧
      ∀ p, nfB * (nfA * f) ≤ p → (partStep V dimB nfA q f DU d s).extra p = s.extra p := by
  have hr := ok.rowMono d hd
  have hc := ok.colMono d hd
  have hr1 := st_mono ok.rowMono (show d + 1 ≤ V.nparts from hd) (Nat.le_refl _)
  have hc1 := st_mono ok.colMono (show d + 1 ≤ V.nparts from hd) (Nat.le_refl _)
  rw [ok.rowN] at hr1
  rw [ok.colN] at hc1
  obtain ⟨l, hl⟩ := Nat.le.dest hr
  obtain ⟨c, hc'⟩ := Nat.le.dest hc
  have el : V.stRow (d + 1) - V.stRow d = l := by omega
  have ec : V.stCol (d + 1) - V.stCol d = c := by omega
  have hl2 : V.stRow (d + 1) * (q * (nfA * f)) ≤ dimB * (q * (nfA * f)) := Nat.mul_le_mul_right _ hr1
  have hc2 : V.stCol (d + 1) * (nfA * f) ≤ nfB * (nfA * f) := Nat.mul_le_mul_right _ hc1
  rw [← hl, Nat.add_mul] at hl2
  rw [← hc', Nat.add_mul] at hc2
  refine ⟨?_, ?_, fun p hp => ?_, fun p hp => ?_⟩
  · unfold partStep
    dsimp only
    rw [el, h1, ← hl]
    ring
  · unfold partStep
    dsimp only
    rw [ec, h2, ← hc']
    ring
  · unfold partStep
    dsimp only
    rw [el]
    refine loop_off (fun j D _ hj => loop_off (fun n D _ hn => loop_off (fun i D h3 h4 => wr_ne _ _ ?_)))
    have h5 := rad_lt (A := l) (show i - V.stRow d < l by omega) (rad_lt hn hj)
    have h6 : i - V.stRow d + l * n + q * l * j = i - V.stRow d + l * (n + q * j) := by ring
    omega
  · unfold partStep
    dsimp only
    have hlt : ¬ p < s.stAr := by omega
    unfold within
    rw [if_neg hlt, Fused.atMulB_frame _ _ _ _ _ _ _ _ (by rw [ec, Nat.mul_assoc]; omega), Nat.add_sub_cancel' (by omega)]

/-- **C60**: the rearranged matrix stays in `DIFF` and the blocks of the elemental matrix in the room of `extraR`. -/
theorem parts_inside {V : Band K} {dimB nfA nfB : Nat} (ok : V.Ok q dimB nfB) (DU DIFF extraR : Nat → K) :
    (∀ p, dimB * (q * (nfA * f)) ≤ p → (loop 0 V.nparts (partStep V dimB nfA q f DU) ⟨0, 0, DIFF, extraR⟩).diff p = DIFF p) ∧
    ∀ p, nfB * (nfA * f) ≤ p → (loop 0 V.nparts (partStep V dimB nfA q f DU) ⟨0, 0, DIFF, extraR⟩).extra p = extraR p := by
  have key := loop_ind (P := fun m (s : PartState K) => s.stDr = V.stRow m * (q * (nfA * f)) ∧ s.stAr = V.stCol m * (nfA * f) ∧
      (∀ p, dimB * (q * (nfA * f)) ≤ p → s.diff p = DIFF p) ∧ ∀ p, nfB * (nfA * f) ≤ p → s.extra p = extraR p)
    (f := partStep V dimB nfA q f DU) (s := ⟨0, 0, DIFF, extraR⟩) (Nat.zero_le V.nparts)
    ⟨by rw [ok.row0, Nat.zero_mul], by rw [ok.col0, Nat.zero_mul], fun _ _ => rfl, fun _ _ => rfl⟩
    (fun m s _ hm hs => by
      obtain ⟨g1, g2, g3, g4⟩ := partStep_inside ok hm DU hs.1 hs.2.1
      exact ⟨g1, g2, fun p hp => (g3 p hp).trans (hs.2.2.1 p hp), fun p hp => (g4 p hp).trans (hs.2.2.2 p hp)⟩)
  exact ⟨key.2.2.1, key.2.2.2⟩

/-- **C60**: the elemental matrix is written into the `Nfa` times `Nfa` numbers of every tetrahedron only. -/
theorem matrix_inside {V : Band K} {dimB nfA nfB : Nat} (ok : V.Ok q dimB nfB) (DU DIFF extraR E : Nat → K) {p : Nat} (hp : nfB * (nfA * f) ≤ p) :
    mulV V dimB nfA nfB q f DU DIFF extraR E p = E p := by
  unfold mulV
  split
  · exact Fused.atMulB_frame _ _ _ _ _ _ _ _ (by rw [Nat.mul_assoc]; omega)
  · refine loop_off (fun j t _ hj => loop_off (fun d t _ hd => loop_off (fun i t h1 h2 => wr_ne _ _ ?_)))
    have hc1 := st_mono ok.colMono (show d + 1 ≤ V.nparts from hd) (Nat.le_refl _)
    rw [ok.colN] at hc1
    have := rad_lt (A := nfB) (show i < nfB by omega) hj
    omega

-- a test operator of two parts: sizes 1 × 2 and 2 × 1, one point, three trial functions, one tetrahedron
example : (⟨2, fun _ p => (p : ℤ), fun d => [1, 2].getD d 0, fun d => [0, 1, 3].getD d 0, fun d => [0, 2, 3].getD d 0⟩ : Band ℤ).Ok 1 3 3 := by
  constructor <;> decide

/-- **C60**: the whole elemental matrix, with and without the normals. -/
theorem integral_inside {U V : Band K} {dimA dimB nfA nfB : Nat} (ok : V.Ok q dimB nfB) (apply : Args K → (Nat → K) → Option (Nat → K))
    (w mes xyg : Nat → K) (nrm : Option (Nat → K)) (DU DIFF extraR E E' : Nat → K)
    (h : fem3Dtet apply U V dimA dimB nfA nfB q f w mes xyg nrm DU DIFF extraR E = some E') {p : Nat} (hp : nfB * nfA * f ≤ p) : E' p = E p := by
  unfold fem3Dtet at h
  obtain ⟨d, -, rfl⟩ := Option.map_eq_some_iff.1 h
  exact matrix_inside ok _ _ _ _ (by rwa [← Nat.mul_assoc])

/-- the zeros stay in `DU` -/
theorem zero_inside (U : Band K) (DU : Nat → K) {sz p : Nat} (hp : sz ≤ p) : zeroDU U sz DU p = DU p := by
  unfold zeroDU
  split
  · exact loop_off (fun i t _ hi => wr_ne _ _ (by omega))
  · rfl

/-- The sizes which the footprints above need are those of the arrays carved out: `DU` is as large as needed, `DIFF` holds the tensor at all points and
the rearranged matrix. -/
theorem sizes_enough (normal : Bool) (A B : Need) (q f : Nat) :
    B.dim * nD normal * (q * (A.nfa * f)) = B.dim * nD normal * q * A.nfa * f ∧
    A.dim * (B.dim * nD normal) * (q * f) ≤ B.dim * max (A.dim * nD normal) A.nfa * q * f ∧
    B.dim * (q * (A.nfa * f)) ≤ B.dim * max (A.dim * nD normal) A.nfa * q * f := by
  have h1 := Nat.mul_le_mul_right (q * f) (Nat.mul_le_mul_left B.dim (Nat.le_max_left (A.dim * nD normal) A.nfa))
  have h2 := Nat.mul_le_mul_right (q * f) (Nat.mul_le_mul_left B.dim (Nat.le_max_right (A.dim * nD normal) A.nfa))
  have e0 : B.dim * max (A.dim * nD normal) A.nfa * q * f = B.dim * max (A.dim * nD normal) A.nfa * (q * f) := by ring
  have e1 : A.dim * (B.dim * nD normal) * (q * f) = B.dim * (A.dim * nD normal) * (q * f) := by ring
  have e2 : B.dim * (q * (A.nfa * f)) = B.dim * A.nfa * (q * f) := by ring
  rw [e0, e1, e2]
  exact ⟨by ring, h1, h2⟩

end

/-! ### The operators of compile-time spaces -/

section
variable {K : Type} [CommRing K]

/-- What an operator of a compile-time space demands. -/
def needOfCt (op : CtOp.Op K) (exi : Nat) : Need := ⟨op.dim, op.nfa, op.usz, op.exr, exi, 0⟩

/-- **C60**: two compile-time operators applied one after the other write only into `U`, `V` and `extraR`. -/
theorem ct_fits {a b : CtOp.Op K} {va vb : OpStack.Vals K} (ha : CtOp.Correct q f a va) (hb : CtOp.Correct q f b vb) (same : Bool) (m : Nat → K)
    (u v ex es : Nat) (hesa : a.exr ≤ es) (hesb : b.exr ≤ es) (hu : u + a.usz ≤ ex ∨ ex + es ≤ u) (hv : v + b.usz ≤ ex ∨ ex + es ≤ v) :
    ∃ m2 U V, CtOp.applyTwo same a b u v ex es m = some (m2, U, V) ∧
      ∀ p, (p < u ∨ u + a.usz ≤ p) → (same = true ∨ p < v ∨ v + b.usz ≤ p) → (p < ex ∨ ex + es ≤ p) → m2 p = m p := by
  obtain ⟨m1, U, e1, -, g1⟩ := ha m u ex es hesa hu
  unfold CtOp.applyTwo
  rw [e1]
  dsimp only
  cases hs : same with
  | true => exact ⟨m1, _, _, rfl, fun p h1 _ h3 => g1.re p h1 h3⟩
  | false =>
    obtain ⟨m2, V, e2, -, g2⟩ := hb m1 v ex es hesb hv
    rw [e2]
    exact ⟨m2, _, _, rfl, fun p h1 h2 h3 => (g2.re p (by simpa using h2) h3).trans (g1.re p h1 h3)⟩

end

example (m : Nat → ℤ) : ∃ m2 U V, CtOp.applyTwo false (CtOp.vec 3 CtOp.exGrad) (CtOp.com [CtOp.exGrad, CtOp.exGrad, CtOp.exOne]) 0 100 500 10 m =
      some (m2, U, V) ∧ ∀ p, 510 ≤ p → m2 p = m p := by
  obtain ⟨m2, U, V, e, h⟩ := ct_fits (q := 2) (f := 3) (CtOp.vec_correct CtOp.exGrad_correct CtOp.exGrad_dense (show 1 ≤ 3 by decide))
    (CtOp.com_correct [(CtOp.exGrad, _), (CtOp.exGrad, _), (CtOp.exOne, _)] (by simp) (by
      intro x hx
      simp only [List.mem_cons, List.not_mem_nil, or_false] at hx
      rcases hx with rfl | rfl | rfl
      · exact CtOp.exGrad_correct
      · exact CtOp.exGrad_correct
      · exact CtOp.exOne_correct)) false m 0 100 500 10 (by decide) (by decide) (by decide) (by decide)
  exact ⟨m2, U, V, e, fun p hp => h p (Or.inr (le_trans (by decide) hp)) (Or.inr (Or.inr (le_trans (by decide) hp))) (Or.inr hp)⟩

/-! ### The geometry -/

section
open Driver
variable {K : Type} [Field K] [LinearOrder K]

/-- From `a` to `b` only numbers inside of the arrays carved for `q` points and `f` tetrahedrons changed. -/
structure Inside (q f : Nat) (a b : Arr K) : Prop where
  xyl : ∀ p, 4 * q ≤ p → b.xyl p = a.xyl p
  wg : ∀ p, q ≤ p → b.wg p = a.wg p
  xyp : ∀ p, 3 * 4 * f ≤ p → b.xyp p = a.xyp p
  psi : ∀ p, 3 * 3 * f ≤ p → b.psi p = a.psi p
  det : ∀ p, f ≤ p → b.det p = a.det p
  mes : ∀ p, f ≤ p → b.mes p = a.mes p
  nrm : ∀ p, 3 * f ≤ p → b.nrm p = a.nrm p
  xyg : ∀ p, 3 * q * f ≤ p → b.xyg p = a.xyg p

omit [Field K] [LinearOrder K] in
theorem Inside.refl (a : Arr K) : Inside q f a a :=
  ⟨fun _ _ => rfl, fun _ _ => rfl, fun _ _ => rfl, fun _ _ => rfl, fun _ _ => rfl, fun _ _ => rfl, fun _ _ => rfl, fun _ _ => rfl⟩

omit [Field K] [LinearOrder K] in
theorem Inside.trans {a b c : Arr K} (h : Inside q f a b) (g : Inside q f b c) : Inside q f a c :=
  ⟨fun p hp => (g.xyl p hp).trans (h.xyl p hp), fun p hp => (g.wg p hp).trans (h.wg p hp), fun p hp => (g.xyp p hp).trans (h.xyp p hp),
    fun p hp => (g.psi p hp).trans (h.psi p hp), fun p hp => (g.det p hp).trans (h.det p hp), fun p hp => (g.mes p hp).trans (h.mes p hp),
    fun p hp => (g.nrm p hp).trans (h.nrm p hp), fun p hp => (g.xyg p hp).trans (h.xyg p hp)⟩

omit [Field K] [LinearOrder K] in
theorem copyN_off {n p : Nat} (s m : Nat → K) (hp : n ≤ p) : copyN n s m p = m p := loop_off fun i _ _ _ => wr_ne _ _ (by omega)

omit [Field K] [LinearOrder K] in
theorem fillN_off {n p : Nat} (v : K) (m : Nat → K) (hp : n ≤ p) : fillN n v m p = m p := loop_off fun i _ _ _ => wr_ne _ _ (by omega)

theorem tetStep_inside (XY : Nat → Nat → Nat → K) {r : Nat} (hr : r < f) (a : Arr K) : Inside q f a (tetStep XY r a) ∧
    (tetStep XY r a).q = a.q ∧ (tetStep XY r a).f = a.f := by
  refine ⟨⟨fun _ _ => rfl, fun _ _ => rfl, fun p hp => ?_, fun p hp => ?_, fun p hp => ?_, fun p hp => ?_, fun _ _ => rfl, fun _ _ => rfl⟩, rfl, rfl⟩
  · unfold tetStep
    dsimp only
    rw [loop_off fun i _ _ _ => wr_ne _ _ (by omega), loop_off fun i _ _ _ => wr_ne _ _ (by omega), loop_off fun i _ _ _ => wr_ne _ _ (by omega),
      loop_off fun i _ _ _ => wr_ne _ _ (by omega)]
  · exact SpaceOp.inArray_ge (N := 9) (fun U p hp => Geometry.inverse_frame _ _ _ hp) (by omega)
  · exact wr_ne _ _ (by omega)
  · exact wr_ne _ _ (by omega)

theorem initTet_inside (XY : Nat → Nat → Nat → K) (a : Arr K) (ha : a.f = f) :
    Inside q f a (initTet XY a) ∧ (initTet XY a).q = a.q ∧ (initTet XY a).f = a.f := by
  unfold initTet
  rw [ha]
  exact loop_ind (P := fun _ s => Inside q f a s ∧ s.q = a.q ∧ s.f = f) (Nat.zero_le f) ⟨Inside.refl a, rfl, ha⟩ fun r s _ hr hs =>
    have g := tetStep_inside (q := q) XY hr s
    ⟨hs.1.trans g.1, g.2.1.trans hs.2.1, g.2.2.trans hs.2.2⟩

omit [LinearOrder K] in
theorem initXYG_inside (XY : Nat → Nat → Nat → K) (a : Arr K) (hq : a.q = q) (hf : a.f = f) : Inside q f a (initXYG XY a) := by
  refine ⟨fun _ _ => rfl, fun _ _ => rfl, fun _ _ => rfl, fun _ _ => rfl, fun _ _ => rfl, fun _ _ => rfl, fun _ _ => rfl, fun p hp => ?_⟩
  unfold initXYG
  dsimp only
  rw [hq, hf]
  refine loop_off fun r _ _ hr => loop_off fun n _ _ hn => loop_off fun k _ _ hk => wr_ne _ _ ?_
  have := Elemental.rad_lt (A := 3) hk (Elemental.rad_lt hn hr)
  rw [Nat.mul_assoc] at hp
  omega

theorem initGeom_inside (XY : Nat → Nat → Nat → K) (a : Arr K) (hq : a.q = q) (hf : a.f = f) :
    Inside q f a (initGeom XY a) ∧ (initGeom XY a).q = q ∧ (initGeom XY a).f = f := by
  have g := initTet_inside (q := q) XY a hf
  exact ⟨g.1.trans (initXYG_inside XY _ (g.2.1.trans hq) (g.2.2.trans hf)), g.2.1.trans hq, g.2.2.trans hf⟩

/-- the arrays of the formula replaced, then the geometry -/
theorem rule_inside (XY : Nat → Nat → Nat → K) (a : Arr K) (xyl wg : Nat → K) (hx : ∀ p, 4 * q ≤ p → xyl p = a.xyl p) (hw : ∀ p, q ≤ p → wg p = a.wg p) :
    Inside q f a (initGeom XY { a with q := q, f := f, xyl := xyl, wg := wg }) := by
  have h : Inside q f a { a with q := q, f := f, xyl := xyl, wg := wg } :=
    ⟨hx, hw, fun _ _ => rfl, fun _ _ => rfl, fun _ _ => rfl, fun _ _ => rfl, fun _ _ => rfl, fun _ _ => rfl⟩
  exact h.trans (initGeom_inside (q := q) (f := f) XY _ rfl rfl).1

omit [Field K] [LinearOrder K] in
theorem Inside.mes' {a b : Arr K} (h : Inside q f a b) (m : Nat → K) (hm : ∀ p, f ≤ p → m p = b.mes p) : Inside q f a { b with mes := m } :=
  ⟨h.xyl, h.wg, h.xyp, h.psi, h.det, fun p hp => (hm p hp).trans (h.mes p hp), h.nrm, h.xyg⟩

omit [LinearOrder K] in
theorem faceXYL_off (F : Rule K) (face : Nat) (xyl : Nat → K) (hface : face < 4) {p : Nat} (hp : 4 * F.q ≤ p) : faceXYL F face xyl p = xyl p := by
  unfold faceXYL
  refine loop_off fun n m _ hn => ?_
  rw [wr_ne _ _ (by omega), wr_ne _ _ (by omega), wr_ne _ _ (by omega), wr_ne _ _ (by omega)]

theorem lookup_lt (e : Nat) : lookup1 e < 4 ∧ lookup2 e < 4 := by
  unfold lookup1 lookup2
  match e with
  | 0 | 1 | 2 | 3 | 4 | 5 => decide
  | n + 6 => simp

omit [LinearOrder K] in
theorem edgeXYL_off (F : Rule K) (edge : Nat) (xyl : Nat → K) {p : Nat} (hp : 4 * F.q ≤ p) : edgeXYL F edge xyl p = xyl p := by
  unfold edgeXYL
  have := lookup_lt edge
  rw [loop_off fun n m _ hn => ?_, fillN_off _ _ hp]
  rw [wr_ne _ _ (by omega), wr_ne _ _ (by omega)]

/-- **C60**: the integration over tetrahedrons prepares its arrays inside of the carved memory. -/
theorem setTet_inside (F : Rule K) (f : Nat) (XY : Nat → Nat → Nat → K) (a : Arr K) : Inside F.q f a (setTet F f XY a) :=
  rule_inside XY a _ _ (fun _ hp => copyN_off _ _ hp) (fun _ hp => copyN_off _ _ hp)

theorem setFace0_inside (F : Rule K) {face : Nat} (hface : face < 4) (f : Nat) (XY : Nat → Nat → Nat → K) (a : Arr K) :
    Inside F.q f a (setFace0 F face f XY a) :=
  rule_inside XY a _ _ (fun _ hp => faceXYL_off F face _ hface hp) (fun _ hp => copyN_off _ _ hp)

/-- **C60**: the same for a face, -/
theorem setFace_inside (sqrt : K → K) (F : Rule K) {face : Nat} (hface : face < 4) (f : Nat) (XY : Nat → Nat → Nat → K) (a : Arr K) :
    Inside F.q f a (setFace sqrt F face f XY a) :=
  (setFace0_inside F hface f XY a).mes' _ fun _ hp => loop_off fun r _ _ hr => wr_ne _ _ (by omega)

/-- **C60**: for a face with the normals, -/
theorem setFaceN_inside (sqrt : K → K) (F : Rule K) {face : Nat} (hface : face < 4) (f : Nat) (XY : Nat → Nat → Nat → K) (a : Arr K) :
    Inside F.q f a (setFaceN sqrt F face f XY a) := by
  have h := setFace0_inside F hface f XY a
  have key : ∀ (g : Nat → K × (Nat → K)) (s0 : (Nat → K) × (Nat → K)),
      (∀ p, f ≤ p → (loop 0 f (fun r (s : (Nat → K) × (Nat → K)) => (wr s.1 r (g r).1, loop 0 3 (fun i m => wr m (i + 3 * r) ((g r).2 i)) s.2)) s0).1 p
        = s0.1 p) ∧
      (∀ p, 3 * f ≤ p → (loop 0 f (fun r (s : (Nat → K) × (Nat → K)) => (wr s.1 r (g r).1, loop 0 3 (fun i m => wr m (i + 3 * r) ((g r).2 i)) s.2)) s0).2 p
        = s0.2 p) := by
    intro g s0
    exact loop_ind (P := fun _ (s : (Nat → K) × (Nat → K)) => (∀ p, f ≤ p → s.1 p = s0.1 p) ∧ ∀ p, 3 * f ≤ p → s.2 p = s0.2 p) (Nat.zero_le f)
      ⟨fun _ _ => rfl, fun _ _ => rfl⟩ fun r s _ hr hs =>
        ⟨fun p hp => (wr_ne _ _ (by omega)).trans (hs.1 p hp), fun p hp => (loop_off fun i _ _ hi => wr_ne _ _ (by omega)).trans (hs.2 p hp)⟩
  have k := key (fun r =>
    let x := fun v i => (setFace0 F face f XY a).xyp (3 * v + i + 12 * r)
    Geometry.faceNormal sqrt (x face) (x ((face + 1) % 4)) (x ((face + 2) % 4)) (x ((face + 3) % 4))) ((setFace0 F face f XY a).mes, (setFace0 F face f XY a).nrm)
  exact ⟨h.xyl, h.wg, h.xyp, h.psi, h.det, fun p hp => (k.1 p hp).trans (h.mes p hp), fun p hp => (k.2 p hp).trans (h.nrm p hp), h.xyg⟩

/-- **C60**: for an edge, -/
theorem setEdge_inside (sqrt : K → K) (F : Rule K) (edge f : Nat) (XY : Nat → Nat → Nat → K) (a : Arr K) :
    Inside F.q f a (setEdge sqrt F edge f XY a) :=
  (rule_inside XY a _ _ (fun _ hp => edgeXYL_off F edge _ hp) (fun _ hp => copyN_off _ _ hp)).mes' _
    fun _ hp => loop_off fun r _ _ hr => wr_ne _ _ (by omega)

/-- **C60**: for a node, -/
theorem setNode_inside {node : Nat} (hnode : node < 4) (f : Nat) (XY : Nat → Nat → Nat → K) (a : Arr K) : Inside 1 f a (setNode node f XY a) :=
  (rule_inside XY a _ _ (fun _ hp => (wr_ne _ _ (by omega)).trans (fillN_off _ _ hp)) (fun _ hp => wr_ne _ _ (by omega))).mes' _
    fun _ hp => fillN_off _ _ hp

/-- **C60**: and for given points in the memory of the user, where the weights `W` are read in the place of the user: the barycentric coordinates stay
in their `4*q` numbers if there are not more points than weights.  (With more points they do not: `baryAll` is then `none`.) -/
theorem setPntX_inside (X W : Nat → K) (nx nw : Nat) (XY : Nat → Nat → Nat → K) (a b : Arr K) (h : setPntX false X W nx nw XY a = some b) :
    nx ≤ nw ∧ Inside nx 1 { a with wg := W } b := by
  unfold setPntX at h
  simp only [Bool.false_eq_true, false_and, if_false, Option.map_eq_some_iff] at h
  obtain ⟨xyl, hx, rfl⟩ := h
  unfold baryAll at hx
  split at hx
  · next hn =>
    have hle : nx ≤ nw := by omega
    have hm : min nx nw = nx := Nat.min_eq_left hle
    refine ⟨hle, ?_⟩
    simp only [hm, Option.some.injEq] at hx hn ⊢
    have g := initTet_inside (q := nx) (f := 1) XY { a with q := nx, f := 1, wg := W } rfl
    have hxy : ∀ p, 4 * nx ≤ p → xyl p = a.xyl p := fun p hp => by
      rw [← hx, loop_off fun n m _ hn => ?_, fillN_off _ _ hp]
      · exact g.1.xyl p hp
      · rw [loop_off fun i m _ hi => wr_ne _ _ (by omega), wr_ne _ _ (by omega),
          loop_off fun j m _ hj => loop_off fun i m _ hi => wr_ne _ _ (by omega)]
    have g1 : Inside nx 1 { a with wg := W } { initTet XY { a with q := nx, f := 1, wg := W } with xyl := xyl } :=
      ⟨hxy, g.1.wg, g.1.xyp, g.1.psi, g.1.det, g.1.mes, g.1.nrm, g.1.xyg⟩
    exact (g1.trans (initXYG_inside XY _ g.2.1 g.2.2)).mes' _ fun _ hp => fillN_off _ _ hp
  · cases hx

end

/-! ### The arrays on the stack -/

/-- the formulas which the versions with arrays on the stack accept have at most 24 points -/
theorem points_stack (order : Int) (F : Quad.Formula) :
    (order ≤ 6 → Quad.tetrahedron order = some F → F.np ≤ 24) ∧ (order ≤ 9 → Quad.triangle order = some F → F.np ≤ 24) ∧
      (order ≤ 20 → Quad.segment order = some F → F.np ≤ 24) := by
  have t1 : ∀ i, i < 7 → ∀ x ∈ Quad.tetTable[i]?, (Quad.tetRule x.1 x.2.1 x.2.2).np ≤ 24 := by decide +kernel
  have t2 : ∀ i, i < 10 → ∀ x ∈ Quad.triTable[i]?, (Quad.triRule x.1 x.2.1 x.2.2).np ≤ 24 := by decide +kernel
  have t3 : ∀ i, i < 21 → ∀ x ∈ Quad.segTable[i]?, (Quad.segRule x.1 x.2.1 x.2.2).np ≤ 24 := by decide +kernel
  refine ⟨fun ho h => ?_, fun ho h => ?_, fun ho h => ?_⟩
  · unfold Quad.tetrahedron at h
    split at h
    · cases h
    · obtain ⟨x, hx, rfl⟩ := Option.map_eq_some_iff.1 h
      exact t1 _ (by omega) x hx
  · unfold Quad.triangle at h
    split at h
    · cases h
    · obtain ⟨x, hx, rfl⟩ := Option.map_eq_some_iff.1 h
      exact t2 _ (by omega) x hx
  · unfold Quad.segment at h
    split at h
    · cases h
    · obtain ⟨x, hx, rfl⟩ := Option.map_eq_some_iff.1 h
      exact t3 _ (by omega) x hx

/-- **C60**: the arrays on the stack are large enough for operators of at most 9 components (3 of the test operator with the normals) and at most 30
basis functions, whose own memory is at most one dense matrix and 60 numbers for every point.  Partial: nothing checks these bounds, see `du_stack_wrong`. -/
theorem stack_enough_partial {maxOrder order : Int} {size FU : Nat} (h : acceptsStack maxOrder A.nfa B.nfa size FU order f = true) (hq : q ≤ 24)
    (hdB : B.dim * nD normal ≤ 9) (hdA : A.dim ≤ 9) (hA : A.nfa ≤ 30) (hB : B.nfa ≤ 30) (huA : A.usz ≤ A.dim * A.nfa * (q * f))
    (huB : B.usz ≤ B.dim * B.nfa * (q * f)) (hex : both same A.exr B.exr ≤ 60 * (q * f)) :
    A.usz ≤ (legacy 24 FU).1 ∧ B.usz ≤ (legacy 24 FU).1 ∧ B.dim * nD normal * q * A.nfa * f ≤ (legacy 24 FU).1 ∧
      A.dim * (B.dim * nD normal) * (q * f) ≤ (legacy 24 FU).1 ∧ B.dim * (q * (A.nfa * f)) ≤ (legacy 24 FU).1 ∧
      both same A.exr B.exr ≤ (legacy 24 FU).2 ∧ B.nfa * (A.nfa * f) ≤ (legacy 24 FU).2 := by
  unfold acceptsStack at h
  simp only [Bool.not_eq_true', Bool.or_eq_false_iff, decide_eq_false_iff_not, Nat.not_lt] at h
  have hf : f ≤ FU := h.2
  have hqf : q * f ≤ 24 * FU := Nat.mul_le_mul hq hf
  have hD : 1 ≤ nD normal := by unfold nD; split <;> decide
  have hdB' : B.dim ≤ 9 := le_trans (Nat.le_mul_of_pos_right _ hD) hdB
  have e1 : (legacy 24 FU).1 = 9 * 30 * (24 * FU) := by unfold legacy; ring
  have e2 : (legacy 24 FU).2 = 60 * (24 * FU) := by unfold legacy; ring
  have e3 : B.dim * nD normal * q * A.nfa * f = B.dim * nD normal * A.nfa * (q * f) := by ring
  have e4 : B.dim * (q * (A.nfa * f)) = B.dim * A.nfa * (q * f) := by ring
  rw [e1, e2, e3, e4]
  refine ⟨huA.trans (Nat.mul_le_mul (Nat.mul_le_mul hdA hA) hqf), huB.trans (Nat.mul_le_mul (Nat.mul_le_mul hdB' hB) hqf),
    Nat.mul_le_mul (Nat.mul_le_mul hdB hA) hqf, Nat.mul_le_mul (Nat.mul_le_mul hdA (hdB.trans (by decide))) hqf,
    Nat.mul_le_mul (Nat.mul_le_mul hdB' hA) hqf, hex.trans (Nat.mul_le_mul_left _ hqf), ?_⟩
  have := Nat.mul_le_mul hB (Nat.mul_le_mul hA hf)
  refine this.trans ?_
  omega

/-- **C60**: the same with the formulas which these versions take, of tetrahedrons, faces and edges: a request that passes the checks
never has more than the 24 points the arrays were made for. -/
theorem stack_points {maxOrder order : Int} {nA nB size FU f : Nat} (h : acceptsStack maxOrder nA nB size FU order f = true) (F : Quad.Formula)
    (hF : maxOrder = 6 ∧ Quad.tetrahedron order = some F ∨ maxOrder = 9 ∧ Quad.triangle order = some F ∨
      maxOrder = 20 ∧ Quad.segment order = some F) : F.np ≤ 24 ∧ F.np * f ≤ 24 * FU := by
  unfold acceptsStack at h
  simp only [Bool.not_eq_true', Bool.or_eq_false_iff, decide_eq_false_iff_not, Nat.not_lt] at h
  obtain ⟨p1, p2, p3⟩ := points_stack order F
  have hq : F.np ≤ 24 := by
    rcases hF with ⟨rfl, hF⟩ | ⟨rfl, hF⟩ | ⟨rfl, hF⟩
    · exact p1 (by omega) hF
    · exact p2 (by omega) hF
    · exact p3 (by omega) hF
  exact ⟨hq, Nat.mul_le_mul hq h.2⟩

-- `GRAD` of three copies of the quadratic space
example : acceptsStack 6 30 30 900 4 6 3 = true := by decide

/-- `GRAD` of three copies of a scalar cubic space (60 basis functions, 9 components), formula of order 6 with 24 points, one tetrahedron: accepted, but
the zeros of `DU` are written past the end of the array on the stack. -/
theorem du_stack_wrong {K : Type} [CommRing K] [Nontrivial K] (U : Band K) (hU : 1 < U.nparts) : acceptsStack 6 60 60 3600 1 6 1 = true ∧
    ∃ p, (legacy 24 1).1 ≤ p ∧ zeroDU U (24 * 1 * 9 * 60 * 1) (fun _ => (1 : K)) p ≠ 1 := by
  refine ⟨by decide, 6480, by decide, ?_⟩
  unfold zeroDU
  rw [if_pos hU, loop_at (fun _ => (0 : K)) (Nat.zero_le 6480) (by decide) (fun t => wr_same _ _ _) (fun j t _ _ hj => wr_ne _ _ (Ne.symm hj))]
  exact zero_ne_one

-- there is a formula of that order with 24 points
example : ∃ F, Quad.tetrahedron 6 = some F ∧ F.np = 24 := ⟨_, rfl, by decide +kernel⟩

/-- The size of the matrix is compared with the size for one tetrahedron: a matrix for one tetrahedron is accepted for two, and then numbers are written
past its end. -/
theorem matrix_size_wrong {K : Type} [CommRing K] [Nontrivial K] : acceptsStack 6 1 1 1 2 1 2 = true ∧
    ∃ (V : Band K) (DU DIFF extraR E : Nat → K), V.Ok 1 1 1 ∧ ∃ p, 1 ≤ p ∧ mulV V 1 1 1 1 2 DU DIFF extraR E p ≠ E p := by
  refine ⟨by decide, ⟨1, fun _ _ => 1, fun _ => 1, fun d => d, fun d => d⟩, fun _ => 1, fun _ => 0, fun _ => 0, fun _ => 0, ?_, 1, Nat.le_refl _, ?_⟩
  · constructor <;> simp
  · simp [mulV, Fused.atMulB, loop, wr, List.range']

end Verif.Demand
