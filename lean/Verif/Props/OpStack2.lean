import Verif.Props.OpStack

/-!
Operators of products of run-time spaces.
-/
namespace Verif.OpStack

open Verif.Dense Verif.Elemental

set_option linter.unusedSectionVars false

variable {K : Type} [CommRing K]

theorem appendStarts_at {ridx rp lidx np e : Nat} {s : Nat → Nat} (hl : ridx + rp ≤ lidx) {i : Nat} (h1 : 1 ≤ i) (h2 : i ≤ np) :
    appendStarts ridx rp lidx np e s (ridx + (rp + i)) = e + s (lidx + i) := by
  unfold appendStarts
  rw [wr_ne _ _ (by omega)]
  have := loop_ind (P := fun k (t : Nat → Nat) => (∀ p, ridx + rp + k ≤ p → t p = s p) ∧
    ∀ j, 1 ≤ j → j < k → t (ridx + (rp + j)) = e + s (lidx + j))
    (f := fun i t => wr t (ridx + (rp + i)) (e + t (lidx + i))) (s := s) (show 1 ≤ np + 1 by omega)
    ⟨fun _ _ => rfl, fun j h1 h2 => by omega⟩
    (fun k t hk1 hk2 ht => ⟨fun p hp => by rw [wr_ne _ _ (by omega), ht.1 p (by omega)], fun j hj1 hj2 => by
      by_cases hjk : j = k
      · rw [hjk, wr_same, ht.1 _ (by omega)]
      · rw [wr_ne _ _ (by omega), ht.2 j hj1 (by omega)]⟩)
  exact this.2 i h1 (by omega)

theorem appendStarts_start {ridx rp lidx np e : Nat} {s : Nat → Nat} : appendStarts ridx rp lidx np e s (ridx + rp) = e := by
  unfold appendStarts
  exact wr_same _ _ _

theorem appendStarts_off {ridx rp lidx np e : Nat} {s : Nat → Nat} {p : Nat} (h : p < ridx + rp ∨ ridx + rp + np < p) :
    appendStarts ridx rp lidx np e s p = s p := by
  unfold appendStarts
  rw [wr_ne _ _ (by omega)]
  exact loop_off (fun j t _ hj => wr_ne _ _ (by omega))

theorem join_assoc (d1 n1 d2 n2 : Nat) (v w x : Vals K) :
    joinVals (d1 + d2) (n1 + n2) (joinVals d1 n1 v w) x = joinVals d1 n1 v (joinVals d2 n2 w x) := by
  funext l n i r
  unfold joinVals
  by_cases a1 : l < d1 ∧ i < n1
  · rw [if_pos (by omega), if_pos a1, if_pos a1]
  · rw [if_neg a1, if_neg a1]
    by_cases a2 : d1 ≤ l ∧ n1 ≤ i
    · rw [if_pos a2, if_pos a2]
      by_cases a3 : l < d1 + d2 ∧ i < n1 + n2
      · rw [if_pos a3, if_pos (by omega)]
      · rw [if_neg a3, if_neg (by omega : ¬ (l - d1 < d2 ∧ i - n1 < n2))]
        by_cases a4 : d1 + d2 ≤ l ∧ n1 + n2 ≤ i
        · rw [if_pos a4, if_pos (by omega), Nat.sub_sub, Nat.sub_sub]
        · rw [if_neg a4, if_neg (by omega)]
    · rw [if_neg a2, if_neg a2]
      by_cases a3 : l < d1 + d2 ∧ i < n1 + n2
      · rw [if_pos a3]
      · rw [if_neg a3]
        rw [if_neg (by omega)]

theorem Good.congr {q f dim nfa parts u usz ex es : Nat} {v w : Vals K} {st st' : St K} {ref : Ref}
    (g : Good q f dim nfa parts u usz ex es v st st' ref)
    (h : ∀ l, l < dim → ∀ n, n < q → ∀ i, i < nfa → ∀ r, r < f → v l n i r = w l n i r) :
    Good q f dim nfa parts u usz ex es w st st' ref :=
  { g with val := fun l hl n hn i hi r hr => (g.val l hl n hn i hi r hr).trans (h l hl n hn i hi r hr) }

/-- the second operator after the first one, its starts appended to those of the first one -/
theorem join_step {q f dA nA pA u uA dB nB pB uB ex es : Nat} {v w : Vals K} {st0 st st1 : St K} {ref l : Ref}
    (a : Good q f dA nA pA u uA ex es v st0 st ref) (b : Good q f dB nB pB (u + uA) uB ex es w st st1 l)
    (hdis : u + (uA + uB) ≤ ex ∨ ex + es ≤ u) :
    Good q f (dA + dB) (nA + nB) (pA + pB) u (uA + uB) ex es (joinVals dA nA v w) st0
      { st1 with
        col := appendStarts ref.idx ref.nparts l.idx l.nparts nA st1.col
        row := appendStarts ref.idx ref.nparts l.idx l.nparts dA st1.row }
      { ref with nparts := ref.nparts + l.nparts } := by
  obtain ⟨rp, data, ridx⟩ := ref
  obtain ⟨np, ldata, lidx⟩ := l
  have adata : data = st0.busy := a.data
  have aidx : ridx = st0.busy + (if st0.busy = 0 then 0 else 1) := a.idx
  have apos : 1 ≤ rp := a.pos
  have anp : rp ≤ pA := a.nparts
  have abusy : st.busy = st0.busy + rp := a.busy
  have bdata : ldata = st.busy := b.data
  have bidx : lidx = st.busy + (if st.busy = 0 then 0 else 1) := b.idx
  have bpos : 1 ≤ np := b.pos
  have bnp : np ≤ pB := b.nparts
  have bbusy : st1.busy = st.busy + np := b.busy
  rw [if_neg (by omega)] at bidx
  have hif : (if st0.busy = 0 then 0 else 1) ≤ 1 := by split <;> omega
  have hl : ridx + rp ≤ lidx := by omega
  have bR0 : st1.row lidx = 0 := b.ok.row0
  have bC0 : st1.col lidx = 0 := b.ok.col0
  -- the starts of the first operator
  have rA : ∀ d, d ≤ rp → appendStarts ridx rp lidx np dA st1.row (ridx + d) = st.row (ridx + d) := by
    intro d hd
    by_cases e : d = rp
    · rw [e, appendStarts_start]
      exact a.ok.rowN.symm
    · rw [appendStarts_off (by omega)]
      exact b.rowLow _ (by show ridx + d < lidx; omega)
  have cA : ∀ d, d ≤ rp → appendStarts ridx rp lidx np nA st1.col (ridx + d) = st.col (ridx + d) := by
    intro d hd
    by_cases e : d = rp
    · rw [e, appendStarts_start]
      exact a.ok.colN.symm
    · rw [appendStarts_off (by omega)]
      exact b.colLow _ (by show ridx + d < lidx; omega)
  have rB : ∀ d, d ≤ np → appendStarts ridx rp lidx np dA st1.row (ridx + (rp + d)) = dA + st1.row (lidx + d) := by
    intro d hd
    by_cases e : d = 0
    · rw [e, Nat.add_zero, Nat.add_zero, appendStarts_start, bR0]
      rfl
    · exact appendStarts_at hl (by omega) hd
  have cB : ∀ d, d ≤ np → appendStarts ridx rp lidx np nA st1.col (ridx + (rp + d)) = nA + st1.col (lidx + d) := by
    intro d hd
    by_cases e : d = 0
    · rw [e, Nat.add_zero, Nat.add_zero, appendStarts_start, bC0]
      rfl
    · exact appendStarts_at hl (by omega) hd
  have mA : ∀ d, d < rp → st1.mtx (data + d) = st.mtx (data + d) := fun d hd => b.mtxLow _ (by omega)
  -- the first operator in the final memory
  have hA : ∀ d, d < rp → ∀ p, p < q * (st.row (ridx + (d + 1)) - st.row (ridx + d)) *
      ((st.col (ridx + (d + 1)) - st.col (ridx + d)) * f) →
      st1.re ((st1.mtx (data + d)).1 + p) = st.re ((st.mtx (data + d)).1 + p) := by
    intro d hd p hp
    rw [mA d hd]
    have := a.inU d hd
    rw [← adata] at this
    dsimp only at this
    exact b.re _ (by omega) (by omega)
  have okA : (St.band st1 ⟨rp, data, ridx⟩ |> fun B => { B with
      stRow := fun d => appendStarts ridx rp lidx np dA st1.row (ridx + d)
      stCol := fun d => appendStarts ridx rp lidx np nA st1.col (ridx + d) } : Band K).Ok q dA nA := by
    refine ok_congr a.ok rfl rA cA (fun d hd => ?_)
    exact congrArg Prod.snd (mA d hd)
  have app : Appended (St.band st1 ⟨rp, data, ridx⟩ |> fun B => { B with
      stRow := fun d => appendStarts ridx rp lidx np dA st1.row (ridx + d)
      stCol := fun d => appendStarts ridx rp lidx np nA st1.col (ridx + d) } : Band K) (st1.band ⟨np, ldata, lidx⟩)
      (St.band { st1 with
        col := appendStarts ridx rp lidx np nA st1.col
        row := appendStarts ridx rp lidx np dA st1.row } ⟨rp + np, data, ridx⟩) dA nA := by
    have hdd : ∀ d, st1.mtx (data + (rp + d)) = st1.mtx (ldata + d) := by
      intro d
      rw [bdata, abusy, adata, Nat.add_assoc]
    constructor
    · rfl
    · exact fun _ _ => rfl
    · exact fun _ _ => rfl
    · exact rB
    · exact cB
    · exact fun _ _ => rfl
    · intro d _
      exact congrArg Prod.snd (hdd d)
    · exact fun _ _ => rfl
    · intro d _
      funext p
      show st1.re ((st1.mtx (data + (rp + d))).1 + p) = _
      rw [hdd]
      rfl
  constructor
  · exact adata
  · exact aidx
  · show 1 ≤ rp + np
    omega
  · show rp + np ≤ pA + pB
    omega
  · show st1.busy = st0.busy + (rp + np)
    omega
  · exact app.ok okA b.ok
  · intro k hk n hn i hi r hr
    rw [app.val okA]
    unfold joinVals
    by_cases h1 : k < dA ∧ i < nA
    · rw [if_pos h1, if_pos h1, ← a.val k h1.1 n hn i h1.2 r hr]
      refine val_congr (A := st.band ⟨rp, data, ridx⟩) (B := { St.band st1 ⟨rp, data, ridx⟩ with
        stRow := fun d => appendStarts ridx rp lidx np dA st1.row (ridx + d)
        stCol := fun d => appendStarts ridx rp lidx np nA st1.col (ridx + d) }) hn hr rfl rA cA hA k i
    · rw [if_neg h1, if_neg h1]
      by_cases h2 : dA ≤ k ∧ nA ≤ i
      · rw [if_pos h2, if_pos h2]
        exact b.val _ (by omega) n hn _ (by omega) r hr
      · rw [if_neg h2, if_neg h2]
  · intro d hd
    change d < rp + np at hd
    dsimp only
    by_cases hlt : d < rp
    · rw [rA d (by omega), rA (d + 1) hlt, cA d (by omega), cA (d + 1) hlt, ← adata, mA d hlt]
      have := a.inU d hlt
      rw [← adata] at this
      dsimp only at this
      omega
    · obtain ⟨e, rfl⟩ : ∃ e, d = rp + e := ⟨d - rp, by omega⟩
      have he : e < np := by omega
      rw [Nat.add_assoc rp e 1, rB e (by omega), rB (e + 1) he, cB e (by omega), cB (e + 1) he, Nat.add_sub_add_left,
        Nat.add_sub_add_left]
      have := b.inU e he
      rw [abusy, Nat.add_assoc st0.busy rp e] at this
      dsimp only at this
      omega
  · intro p h1 h2
    exact (b.re p (by omega) h2).trans (a.re p (by omega) h2)
  · intro d hd
    exact (b.mtxLow d (by omega)).trans (a.mtxLow d hd)
  · intro d hd
    exact (b.mtxHigh d (by omega)).trans (a.mtxHigh d (by omega))
  · intro j hj
    change j < ridx at hj
    refine (appendStarts_off (ridx := ridx) (rp := rp) (np := np) (by omega)).trans ((b.rowLow j ?_).trans (a.rowLow j hj))
    show j < lidx
    omega
  · intro j hj
    exact (appendStarts_off (ridx := ridx) (rp := rp) (np := np) (by omega)).trans ((b.rowHigh j (by omega)).trans (a.rowHigh j (by omega)))
  · intro j hj
    change j < ridx at hj
    refine (appendStarts_off (ridx := ridx) (rp := rp) (np := np) (by omega)).trans ((b.colLow j ?_).trans (a.colLow j hj))
    show j < lidx
    omega
  · intro j hj
    exact (appendStarts_off (ridx := ridx) (rp := rp) (np := np) (by omega)).trans ((b.colHigh j (by omega)).trans (a.colHigh j (by omega)))

theorem foldl_max_le {as : List (Op K)} {m es : Nat} (h : as.foldl (fun m b => max m b.exr) m ≤ es) :
    m ≤ es ∧ ∀ b ∈ as, b.exr ≤ es := by
  induction as generalizing m with
  | nil => exact ⟨h, fun b hb => absurd hb List.not_mem_nil⟩
  | cons a as ih =>
    obtain ⟨h1, h2⟩ := ih h
    refine ⟨Nat.le_trans (Nat.le_max_left _ _) h1, fun b hb => ?_⟩
    rcases List.mem_cons.mp hb with rfl | hb
    · exact Nat.le_trans (Nat.le_max_right _ _) h1
    · exact h2 b hb

theorem cplxLoop_good {q f u ex es : Nat} (as : List (Op K × Vals K)) (hc : ∀ x ∈ as, Correct q f x.1 x.2)
    (hes : ∀ x ∈ as, x.1.exr ≤ es) {D N P U : Nat} {v : Vals K} {st0 st : St K} {ref : Ref}
    (g : Good q f D N P u U ex es v st0 st ref)
    (hdis : u + (U + ((as.map Prod.fst).map Op.usz).sum) ≤ ex ∨ ex + es ≤ u) :
    ∃ st' ref', cplxLoop u ex es (as.map Prod.fst) U (N, D) (st, ref) = some (st', ref') ∧
      Good q f (D + ((as.map Prod.fst).map Op.dim).sum) (N + ((as.map Prod.fst).map Op.nfa).sum)
        (P + ((as.map Prod.fst).map Op.parts).sum) u (U + ((as.map Prod.fst).map Op.usz).sum) ex es
        (joinVals D N v (prodVals (as.map (fun x => (x.1.dim, x.1.nfa, x.2))))) st0 st' ref' := by
  induction as generalizing D N P U v st ref with
  | nil =>
    refine ⟨st, ref, rfl, ?_⟩
    refine Good.congr g (fun l hl n _ i hi r _ => ?_)
    unfold joinVals
    rw [if_pos ⟨hl, hi⟩]
  | cons x as ih =>
    rw [List.map_cons, List.map_cons, List.map_cons, List.map_cons, List.map_cons, List.map_cons, List.sum_cons,
      List.sum_cons, List.sum_cons, List.sum_cons] at *
    obtain ⟨st1, l, happ, b⟩ := hc x List.mem_cons_self st (u + U) ex es (hes x List.mem_cons_self) (by omega)
    have g2 := join_step g b (by omega)
    obtain ⟨st', ref', h1, h2⟩ := ih (fun y hy => hc y (List.mem_cons_of_mem _ hy))
      (fun y hy => hes y (List.mem_cons_of_mem _ hy)) g2 (by omega)
    refine ⟨st', ref', ?_, ?_⟩
    · unfold cplxLoop
      rw [happ]
      dsimp only
      have e1 := g2.ok.colN
      have e2 := g2.ok.rowN
      simp only [St.band] at e1 e2
      rw [e1, e2]
      exact h1
    · rw [prodVals, ← join_assoc]
      simp only [← Nat.add_assoc] at h2 ⊢
      exact h2

/-- C46: the operator of a product of spaces is block diagonal, the blocks being the operators of the factors. -/
theorem cplx_correct {q f : Nat} (a : Op K × Vals K) (as : List (Op K × Vals K))
    (hc : ∀ x ∈ a :: as, Correct q f x.1 x.2) :
    Correct q f (cplx a.1 (as.map Prod.fst)) (prodVals ((a :: as).map (fun x => (x.1.dim, x.1.nfa, x.2)))) := by
  intro st u ex es hes hdis
  obtain ⟨h1, h2⟩ := foldl_max_le hes
  have hdis' : u + (a.1.usz + ((as.map Prod.fst).map Op.usz).sum) ≤ ex ∨ ex + es ≤ u := hdis
  obtain ⟨st', ref, happ, g⟩ := hc a List.mem_cons_self st u ex es (by omega) (by omega)
  obtain ⟨st2, ref2, hl, g2⟩ := cplxLoop_good as (fun x hx => hc x (List.mem_cons_of_mem _ hx))
    (fun x hx => h2 x.1 (List.mem_map_of_mem hx)) g hdis'
  refine ⟨st2, ref2, ?_, g2⟩
  dsimp only [cplx]
  rw [Nat.add_zero, happ]
  have e1 := g.ok.colN
  have e2 := g.ok.rowN
  simp only [St.band] at e1 e2
  dsimp only
  rw [e1, e2]
  exact hl

end Verif.OpStack
