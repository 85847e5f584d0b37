import Verif.Lemmas.OpStack

/-!
Operators of run-time spaces: the operator of a simple element pushed on the stack, of a vector space and of a product of
spaces.
-/
namespace Verif.OpStack

open Verif.Dense Verif.Elemental

set_option linter.unusedSectionVars false

variable {K : Type} [CommRing K]

theorem bshift_eq (b : Nat) : bshift b = if b = 0 then 0 else 1 := by
  unfold bshift
  by_cases h : b = 0
  · rw [if_pos h, if_neg (by omega)]
  · rw [if_neg h, if_pos (by omega)]

/-- a block matrix of one part -/
theorem single_ok {B : Band K} {q dim nf : Nat} (hp : B.nparts = 1) (r0 : B.stRow 0 = 0) (r1 : B.stRow 1 = dim)
    (c0 : B.stCol 0 = 0) (c1 : B.stCol 1 = nf) (hn : B.nRow 0 = q * dim) : B.Ok q dim nf where
  row0 := r0
  rowN := by rw [hp, r1]
  col0 := c0
  colN := by rw [hp, c1]
  rowMono d hd := by
    rw [hp] at hd
    obtain rfl : d = 0 := by omega
    rw [r0]
    exact Nat.zero_le _
  colMono d hd := by
    rw [hp] at hd
    obtain rfl : d = 0 := by omega
    rw [c0]
    exact Nat.zero_le _
  rows d hd := by
    rw [hp] at hd
    obtain rfl : d = 0 := by omega
    rw [hn, Nat.zero_add, r0, r1, Nat.sub_zero]

theorem single_val {B : Band K} {q dim nf l n i r : Nat} (hp : B.nparts = 1) (r0 : B.stRow 0 = 0) (r1 : B.stRow 1 = dim)
    (c0 : B.stCol 0 = 0) (c1 : B.stCol 1 = nf) (hl : l < dim) (hi : i < nf) :
    B.val q l n i r = B.data 0 (l + dim * n + q * dim * (i + nf * r)) := by
  unfold Band.val
  rw [hp, Finset.sum_range_one, Nat.zero_add, r0, r1, c0, c1, if_pos (by omega), Nat.sub_zero, Nat.sub_zero, Nat.sub_zero,
    Nat.sub_zero]

/-- a matrix at `u` is pushed on the stack -/
theorem push_good {q f dim nfa parts u usz ex es : Nat} {v : Vals K} {st t : St K} (hsz : q * dim * (nfa * f) ≤ usz)
    (hp : 1 ≤ parts)
    (hv : ∀ l, l < dim → ∀ n, n < q → ∀ i, i < nfa → ∀ r, r < f →
      t.re (u + (l + dim * n + q * dim * (i + nfa * r))) = v l n i r)
    (hre : ∀ p, (p < u ∨ u + usz ≤ p) → (p < ex ∨ ex + es ≤ p) → t.re p = st.re p)
    (m1 : ∀ d, d < st.busy → t.mtx d = st.mtx d) (m2 : ∀ d, st.busy + parts ≤ d → t.mtx d = st.mtx d)
    (r1 : ∀ j, j < st.busy + bshift st.busy → t.row j = st.row j)
    (r2 : ∀ j, st.busy + 1 + parts < j → t.row j = st.row j)
    (c1 : ∀ j, j < st.busy + bshift st.busy → t.col j = st.col j)
    (c2 : ∀ j, st.busy + 1 + parts < j → t.col j = st.col j) :
    Good q f dim nfa parts u usz ex es v st
      { t with
        mtx := wr t.mtx st.busy (u, q * dim)
        row := wr (wr t.row (st.busy + bshift st.busy) 0) (st.busy + bshift st.busy + 1) dim
        col := wr (wr t.col (st.busy + bshift st.busy) 0) (st.busy + bshift st.busy + 1) nfa
        busy := st.busy + 1 } ⟨1, st.busy, st.busy + bshift st.busy⟩ := by
  have hb : bshift st.busy ≤ 1 := by
    unfold bshift
    split <;> omega
  have hne : st.busy + bshift st.busy ≠ st.busy + bshift st.busy + 1 := by omega
  have R0 : wr (wr t.row (st.busy + bshift st.busy) 0) (st.busy + bshift st.busy + 1) dim (st.busy + bshift st.busy) = 0 := by
    rw [wr_ne _ _ hne, wr_same]
  have C0 : wr (wr t.col (st.busy + bshift st.busy) 0) (st.busy + bshift st.busy + 1) nfa (st.busy + bshift st.busy) = 0 := by
    rw [wr_ne _ _ hne, wr_same]
  have M0 : wr t.mtx st.busy (u, q * dim) st.busy = (u, q * dim) := wr_same _ _ _
  constructor
  · rfl
  · dsimp only
    rw [bshift_eq]
  · exact Nat.le_refl _
  · exact hp
  · rfl
  · exact single_ok rfl R0 (wr_same _ _ _) C0 (wr_same _ _ _) (congrArg Prod.snd M0)
  · intro l hl n hn i hi r hr
    refine (single_val rfl R0 (wr_same _ _ _) C0 (wr_same _ _ _) hl hi).trans ?_
    show t.re ((wr t.mtx st.busy (u, q * dim) st.busy).1 + _) = _
    rw [M0]
    exact hv l hl n hn i hi r hr
  · intro d hd
    obtain rfl : d = 0 := by
      change d < 1 at hd
      omega
    show u ≤ (wr t.mtx st.busy (u, q * dim) st.busy).1 ∧ (wr t.mtx st.busy (u, q * dim) st.busy).1 +
      q * (wr (wr t.row (st.busy + bshift st.busy) 0) (st.busy + bshift st.busy + 1) dim (st.busy + bshift st.busy + 1) -
        wr (wr t.row (st.busy + bshift st.busy) 0) (st.busy + bshift st.busy + 1) dim (st.busy + bshift st.busy)) *
      ((wr (wr t.col (st.busy + bshift st.busy) 0) (st.busy + bshift st.busy + 1) nfa (st.busy + bshift st.busy + 1) -
        wr (wr t.col (st.busy + bshift st.busy) 0) (st.busy + bshift st.busy + 1) nfa (st.busy + bshift st.busy)) * f) ≤ u + usz
    rw [M0, R0, C0, wr_same, wr_same, Nat.sub_zero, Nat.sub_zero]
    exact ⟨Nat.le_refl _, Nat.add_le_add_left hsz _⟩
  · intro p h1 h2
    exact hre p h1 h2
  · intro d hd
    exact (wr_ne _ _ (by omega)).trans (m1 d hd)
  · intro d hd
    exact (wr_ne _ _ (by omega)).trans (m2 d hd)
  · intro j hj
    change j < st.busy + bshift st.busy at hj
    exact (wr_ne _ _ (by omega)).trans ((wr_ne _ _ (by omega)).trans (r1 j hj))
  · intro j hj
    exact (wr_ne _ _ (by omega)).trans ((wr_ne _ _ (by omega)).trans (r2 j hj))
  · intro j hj
    change j < st.busy + bshift st.busy at hj
    exact (wr_ne _ _ (by omega)).trans ((wr_ne _ _ (by omega)).trans (c1 j hj))
  · intro j hj
    exact (wr_ne _ _ (by omega)).trans ((wr_ne _ _ (by omega)).trans (c2 j hj))

/-- C46: the operator of a simple finite element leaves its values on the stack. -/
theorem leaf_correct {q f dim nfa usz exr : Nat} {run : Nat → Nat → Nat → (Nat → K) → (Nat → K)} {v : Vals K}
    (h : LeafOk q f dim nfa usz exr run v) : Correct q f (leaf q dim nfa usz exr run) v := by
  intro st u ex es hes hdis
  obtain ⟨hv, hre⟩ := h.2 u ex es st.re hes hdis
  exact ⟨_, _, rfl, push_good (st := st) (t := { st with re := run u ex es st.re }) h.1 (Nat.le_refl _) hv hre
    (fun _ _ => rfl) (fun _ _ => rfl) (fun _ _ => rfl) (fun _ _ => rfl) (fun _ _ => rfl) (fun _ _ => rfl)⟩

/-! ### vector spaces -/

theorem repStarts_at {idx np sh d : Nat} {s : Nat → Nat} (hd : 1 ≤ d) (h0 : s idx = 0) (hN : s (idx + np) = sh)
    {j : Nat} (hj : j ≤ np) : repStarts idx np sh d s (idx + (d * np + j)) = s (idx + j) + sh * d := by
  unfold repStarts
  have hdn : np ≤ d * np := Nat.le_mul_of_pos_left _ hd
  by_cases e : j = np
  · have : idx + (d * np + j) = idx + (d + 1) * np := by rw [e, Nat.add_mul, Nat.one_mul]
    rw [this, wr_same, e, hN]
    ring
  · rw [wr_ne _ _ (by rw [Nat.add_mul, Nat.one_mul]; omega)]
    have := loop_ind (P := fun k (t : Nat → Nat) => (∀ i, i ≤ np → i < d * np → t (idx + i) = s (idx + i)) ∧
      ∀ i, i < k → t (idx + (d * np + i)) = s (idx + i) + sh * d)
      (f := fun j (t : Nat → Nat) => wr t (idx + d * np + j) (t (idx + j) + sh * d)) (s := s) (Nat.zero_le np)
      ⟨fun i _ _ => rfl, fun i hi => absurd hi (Nat.not_lt_zero i)⟩
      (fun k t _ hk ht => ⟨fun i hi hi' => by rw [wr_ne _ _ (by omega), ht.1 i hi hi'], fun i hi => by
        by_cases hik : i = k
        · rw [hik, Nat.add_assoc, wr_same, ht.1 k (by omega) (by omega)]
        · rw [wr_ne _ _ (by omega), ht.2 i (by omega)]⟩)
    exact this.2 j (by omega)

theorem repStarts_off {idx np sh d : Nat} {s : Nat → Nat} {p : Nat}
    (h : p < idx + d * np ∨ idx + (d + 1) * np < p) : repStarts idx np sh d s p = s p := by
  unfold repStarts
  rw [Nat.add_mul, Nat.one_mul] at *
  rw [wr_ne _ _ (by omega)]
  exact loop_off (fun j t _ hj => wr_ne _ _ (by omega))

theorem join_vec {d dim nfa l n i r : Nat} (v : Vals K) (hl : l < dim * (d + 1)) (hi : i < nfa * (d + 1)) :
    joinVals (dim * d) (nfa * d) (vecVals dim nfa v) v l n i r = vecVals dim nfa v l n i r := by
  rw [Nat.mul_succ] at hl hi
  have hdim : l < dim * d ∨ 0 < dim := by omega
  have hnfa : i < nfa * d ∨ 0 < nfa := by omega
  have small : ∀ {a b : Nat}, b < a * d → b / a < d := fun h => Nat.div_lt_of_lt_mul h
  have big : ∀ {a b : Nat}, a * d ≤ b → b < a * d + a → b / a = d ∧ b % a = b - a * d := by
    intro a b h1 h2
    have e : b = (b - a * d) + a * d := by omega
    have h3 : b / a = d := by
      rw [e, Nat.add_mul_div_left _ _ (by omega), Nat.div_eq_of_lt (by omega), Nat.zero_add]
    refine ⟨h3, ?_⟩
    rw [Nat.mod_eq_sub, h3]
  unfold joinVals
  by_cases h1 : l < dim * d <;> by_cases h2 : i < nfa * d
  · rw [if_pos ⟨h1, h2⟩]
  · rw [if_neg (by omega), if_neg (by omega)]
    unfold vecVals
    have := small h1
    have := big (by omega) hi
    rw [if_neg (by omega)]
  · rw [if_neg (by omega), if_neg (by omega)]
    unfold vecVals
    have := small h2
    have := big (by omega) hl
    rw [if_neg (by omega)]
  · rw [if_neg (by omega), if_pos (by omega)]
    unfold vecVals
    obtain ⟨a1, a2⟩ := big (show dim * d ≤ l by omega) hl
    obtain ⟨b1, b2⟩ := big (show nfa * d ≤ i by omega) hi
    rw [a1, a2, b1, b2, if_pos rfl]

/-- C46: the operator of `vdim` copies of a space is block diagonal with equal blocks. -/
theorem vec_correct {q f : Nat} {a : Op K} {v : Vals K} (h : Correct q f a v) {vdim : Nat} (hv : 1 ≤ vdim) :
    Correct q f (vec vdim a) (vecVals a.dim a.nfa v) := by
  intro st u ex es hes hdis
  obtain ⟨st', ref, happ, g⟩ := h st u ex es hes hdis
  refine ⟨_, _, by dsimp only [vec]; rw [happ]; rfl, ?_⟩
  obtain ⟨np, data, idx⟩ := ref
  have hnp := g.pos
  have hcol0 : st'.col idx = 0 := g.ok.col0
  have hrow0 : st'.row idx = 0 := g.ok.row0
  have hcolN : st'.col (idx + np) = a.nfa := g.ok.colN
  have hrowN : st'.row (idx + np) = a.dim := g.ok.rowN
  have hdata : data = st.busy := g.data
  have hidx : idx = st.busy + (if st.busy = 0 then 0 else 1) := g.idx
  change 1 ≤ np at hnp
  have key := loop_ind (P := fun d (t : St K) => t.re = st'.re ∧ t.busy = st'.busy + (vdim - 1) * np ∧
      (t.band ⟨np * d, data, idx⟩).Ok q (a.dim * d) (a.nfa * d) ∧
      (∀ l, l < a.dim * d → ∀ n, n < q → ∀ i, i < a.nfa * d → ∀ r, r < f →
        (t.band ⟨np * d, data, idx⟩).val q l n i r = vecVals a.dim a.nfa v l n i r) ∧
      (∀ e, e < np * d → u ≤ (t.mtx (data + e)).1 ∧ (t.mtx (data + e)).1 + q * (t.row (idx + (e + 1)) - t.row (idx + e)) *
        ((t.col (idx + (e + 1)) - t.col (idx + e)) * f) ≤ u + a.usz) ∧
      (∀ j, j ≤ np → t.row (idx + j) = st'.row (idx + j)) ∧ (∀ j, j ≤ np → t.col (idx + j) = st'.col (idx + j)) ∧
      (∀ j, j < np → t.mtx (data + j) = st'.mtx (data + j)) ∧
      (∀ p, (p < data ∨ data + np * d ≤ p) → t.mtx p = st'.mtx p) ∧
      (∀ p, (p < idx ∨ idx + np * d < p) → t.row p = st'.row p) ∧ (∀ p, (p < idx ∨ idx + np * d < p) → t.col p = st'.col p))
    (f := fun d t =>
      { t with
        mtx := loop 0 np (fun j m => wr m (data + d * np + j) (m (data + j))) t.mtx
        col := repStarts idx np (st'.col (idx + np)) d t.col
        row := repStarts idx np (st'.row (idx + np)) d t.row })
    (s := { st' with busy := st'.busy + (vdim - 1) * np }) hv
    (by
      refine ⟨rfl, rfl, ?_, ?_, ?_, fun _ _ => rfl, fun _ _ => rfl, fun _ _ => rfl, fun _ _ => rfl, fun _ _ => rfl,
        fun _ _ => rfl⟩
      · rw [Nat.mul_one, Nat.mul_one, Nat.mul_one]
        exact g.ok
      · intro l hl n hn i hi r hr
        rw [Nat.mul_one] at hl hi
        refine Eq.trans ?_ ((g.val l hl n hn i hi r hr).trans ?_)
        · rw [Nat.mul_one]
          rfl
        · unfold vecVals
          rw [Nat.div_eq_of_lt hl, Nat.div_eq_of_lt hi, if_pos rfl, Nat.mod_eq_of_lt hl, Nat.mod_eq_of_lt hi]
      · intro e he
        rw [Nat.mul_one] at he
        have := g.inU e he
        rw [← hdata] at this
        exact this)
    (fun d t hd1 hd2 ht => by
      obtain ⟨t1, t2, t3, t4, t5, t6, t7, t8, t9, t10, t11⟩ := ht
      have hnd : np ≤ np * d := Nat.le_mul_of_pos_right _ hd1
      have hmul : np * (d + 1) = np * d + np := Nat.mul_succ _ _
      have hcom : d * np = np * d := Nat.mul_comm _ _
      have mA : ∀ p, (p < data + np * d ∨ data + np * (d + 1) ≤ p) →
          loop 0 np (fun j m => wr m (data + d * np + j) (m (data + j))) t.mtx p = t.mtx p := by
        intro p hp
        exact loop_off (fun j m _ hj => wr_ne _ _ (by omega))
      have mB : ∀ e, e < np →
          loop 0 np (fun j m => wr m (data + d * np + j) (m (data + j))) t.mtx (data + (np * d + e)) = t.mtx (data + e) := by
        intro e he
        have := loop_ind (P := fun k (m : Nat → Nat × Nat) => (∀ i, i < np → m (data + i) = t.mtx (data + i)) ∧
          ∀ i, i < k → m (data + (np * d + i)) = t.mtx (data + i))
          (f := fun j m => wr m (data + d * np + j) (m (data + j))) (s := t.mtx) (Nat.zero_le np)
          ⟨fun i _ => rfl, fun i hi => absurd hi (Nat.not_lt_zero i)⟩
          (fun k m _ hk hm => ⟨fun i hi => by rw [wr_ne _ _ (by omega), hm.1 i hi], fun i hi => by
            by_cases hik : i = k
            · rw [hik, hcom, Nat.add_assoc, wr_same, hm.1 k hk]
            · rw [wr_ne _ _ (by omega), hm.2 i (by omega)]⟩)
        exact this.2 e he
      have t30 := t3.row0
      have t3c0 := t3.col0
      change t.row idx = 0 at t30
      change t.col idx = 0 at t3c0
      have t3N : t.row (idx + np * d) = a.dim * d := t3.rowN
      have t3cN : t.col (idx + np * d) = a.nfa * d := t3.colN
      have rB : ∀ j, j ≤ np → repStarts idx np (st'.row (idx + np)) d t.row (idx + (np * d + j)) =
          a.dim * d + st'.row (idx + j) := by
        intro j hj
        have := repStarts_at (s := t.row) hd1 t30 (t6 np (Nat.le_refl _)) hj
        rw [hcom] at this
        rw [this, t6 j hj, hrowN, Nat.add_comm]
      have cB : ∀ j, j ≤ np → repStarts idx np (st'.col (idx + np)) d t.col (idx + (np * d + j)) =
          a.nfa * d + st'.col (idx + j) := by
        intro j hj
        have := repStarts_at (s := t.col) hd1 t3c0 (t7 np (Nat.le_refl _)) hj
        rw [hcom] at this
        rw [this, t7 j hj, hcolN, Nat.add_comm]
      have rA : ∀ p, p ≤ idx + np * d → repStarts idx np (st'.row (idx + np)) d t.row p = t.row p := by
        intro p hp
        by_cases e : p = idx + np * d
        · have := rB 0 (Nat.zero_le _)
          rw [Nat.add_zero] at this
          rw [e, this, Nat.add_zero, hrow0, t3N, Nat.add_zero]
        · exact repStarts_off (by omega)
      have cA : ∀ p, p ≤ idx + np * d → repStarts idx np (st'.col (idx + np)) d t.col p = t.col p := by
        intro p hp
        by_cases e : p = idx + np * d
        · have := cB 0 (Nat.zero_le _)
          rw [Nat.add_zero] at this
          rw [e, this, Nat.add_zero, hcol0, t3cN, Nat.add_zero]
        · exact repStarts_off (by omega)
      have hcom1 : (d + 1) * np = np * d + np := by rw [Nat.add_mul, Nat.one_mul, hcom]
      have app : Appended (t.band ⟨np * d, data, idx⟩) (st'.band ⟨np, data, idx⟩)
          (St.band { t with
            mtx := loop 0 np (fun j m => wr m (data + d * np + j) (m (data + j))) t.mtx
            col := repStarts idx np (st'.col (idx + np)) d t.col
            row := repStarts idx np (st'.row (idx + np)) d t.row } ⟨np * (d + 1), data, idx⟩) (a.dim * d) (a.nfa * d) := by
        constructor
        · exact hmul
        · intro e he
          change e ≤ np * d at he
          exact rA (idx + e) (by omega)
        · intro e he
          change e ≤ np * d at he
          exact cA (idx + e) (by omega)
        · intro e he
          exact rB e he
        · intro e he
          exact cB e he
        · intro e he
          change e < np * d at he
          exact congrArg Prod.snd (mA (data + e) (by omega))
        · intro e he
          exact congrArg Prod.snd ((mB e he).trans (t8 e he))
        · intro e he
          change e < np * d at he
          funext p
          show t.re ((loop 0 np _ t.mtx (data + e)).1 + p) = _
          rw [mA _ (by omega)]
          rfl
        · intro e he
          funext p
          show t.re ((loop 0 np _ t.mtx (data + (np * d + e))).1 + p) = _
          rw [mB e he, t8 e he, t1]
          rfl
      refine ⟨t1, t2, app.ok t3 g.ok, ?_, ?_, ?_, ?_, ?_, ?_, ?_, ?_⟩
      · intro l hl n hn i hi r hr
        rw [app.val t3, ← join_vec v hl hi]
        rw [Nat.mul_succ] at hl hi
        unfold joinVals
        by_cases h1 : l < a.dim * d ∧ i < a.nfa * d
        · rw [if_pos h1, if_pos h1, t4 l h1.1 n hn i h1.2 r hr]
        · rw [if_neg h1, if_neg h1]
          by_cases h2 : a.dim * d ≤ l ∧ a.nfa * d ≤ i
          · rw [if_pos h2, if_pos h2]
            exact g.val _ (by omega) n hn _ (by omega) r hr
          · rw [if_neg h2, if_neg h2]
      · intro e he
        dsimp only
        by_cases hlt : e < np * d
        · rw [mA _ (by omega), rA _ (by omega), rA _ (by omega), cA _ (by omega), cA _ (by omega)]
          exact t5 e hlt
        · obtain ⟨j, rfl⟩ : ∃ j, e = np * d + j := ⟨e - np * d, by omega⟩
          have hj : j < np := by omega
          rw [mB j hj, t8 j hj, Nat.add_assoc (np * d) j 1, rB _ hj, rB _ (by omega), cB _ hj, cB _ (by omega),
            Nat.add_sub_add_left, Nat.add_sub_add_left]
          have := g.inU j hj
          rw [← hdata] at this
          exact this
      · intro j hj
        exact (rA _ (by omega)).trans (t6 j hj)
      · intro j hj
        exact (cA _ (by omega)).trans (t7 j hj)
      · intro j hj
        exact (mA _ (by omega)).trans (t8 j hj)
      · intro p hp
        exact (mA _ (by omega)).trans (t9 p (by omega))
      · intro p hp
        refine (repStarts_off ?_).trans (t10 p (by omega))
        omega
      · intro p hp
        refine (repStarts_off ?_).trans (t11 p (by omega))
        omega)
  dsimp only [realloc]
  obtain ⟨k1, k2, k3, k4, k5, -, -, -, k9, k10, k11⟩ := key
  have hparts : np ≤ a.parts := g.nparts
  have hmv : np * vdim ≤ a.parts * vdim := Nat.mul_le_mul_right _ hparts
  have hmm : (vdim - 1) * np + np = np * vdim := by
    obtain ⟨w, rfl⟩ : ∃ w, vdim = w + 1 := ⟨vdim - 1, by omega⟩
    rw [Nat.add_sub_cancel]
    ring
  have hpv : a.parts ≤ a.parts * vdim := Nat.le_mul_of_pos_right _ hv
  have hb1 : st'.busy = st.busy + np := g.busy
  have hif : (if st.busy = 0 then 0 else 1) ≤ 1 := by split <;> omega
  constructor
  · exact g.data
  · exact g.idx
  · have : np ≤ np * vdim := Nat.le_mul_of_pos_right _ hv
    show 1 ≤ np * vdim
    omega
  · exact hmv
  · rw [k2, hb1]
    dsimp only
    omega
  · exact k3
  · exact k4
  · intro d hd
    have := k5 d hd
    rw [← hdata]
    exact this
  · intro p h1 h2
    rw [k1]
    exact g.re p h1 h2
  · intro d hd
    rw [k9 d (by omega)]
    exact g.mtxLow d hd
  · intro d hd
    change st.busy + a.parts * vdim ≤ d at hd
    rw [k9 d (by omega)]
    exact g.mtxHigh d (by omega)
  · intro j hj
    rw [k10 j (Or.inl hj)]
    exact g.rowLow j hj
  · intro j hj
    change st.busy + 1 + a.parts * vdim < j at hj
    rw [k10 j (by omega)]
    exact g.rowHigh j (by omega)
  · intro j hj
    rw [k11 j (Or.inl hj)]
    exact g.colLow j hj
  · intro j hj
    change st.busy + 1 + a.parts * vdim < j at hj
    rw [k11 j (by omega)]
    exact g.colHigh j (by omega)

end Verif.OpStack
