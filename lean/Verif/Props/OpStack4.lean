import Verif.Props.OpStack3

/-!
Divergence and curl of three copies of a scalar space.
-/
namespace Verif.OpStack

open Verif.Dense Verif.Elemental

set_option linter.unusedSectionVars false

variable {K : Type} [CommRing K]

/-- The block matrices the operator leaves have one part. -/
def OnePart (a : Op K) : Prop := ∀ u ex es st st' ref, a.apply u ex es st = some (st', ref) → ref.nparts = 1

theorem leaf_onePart {q dim nfa usz exr : Nat} {run : Nat → Nat → Nat → (Nat → K) → (Nat → K)} :
    OnePart (leaf q dim nfa usz exr run) := by
  intro u ex es st st' ref h
  cases h
  rfl

theorem union_onePart {q f gdim : Nat} {as : List (Op K)} : OnePart (union q f gdim as) := by
  intro u ex es st st' ref h
  dsimp only [union] at h
  split at h
  · cases h
  · cases h
    rfl

/-- The operator computed from another one the result of which is at the end of `extraR`. -/
theorem top_good {q f dim nfa parts u usz ex es gdim gnfa gusz nRow : Nat} {v gv : Vals K} {st st' : St K} {ref : Ref}
    (g : Good q f gdim gnfa parts (ex + (es - gusz)) gusz ex (es - gusz) gv st st' ref) (hes : gusz ≤ es) (re : Nat → K)
    (hsz : q * dim * (nfa * f) ≤ usz) (hrow : nRow = q * dim)
    (hv : ∀ l n i r, l < dim → n < q → i < nfa → r < f → re (at4 q dim nfa u l n i r) = v l n i r)
    (hre : ∀ p, (p < u ∨ u + usz ≤ p) → re p = st'.re p) :
    Good q f dim nfa parts u usz ex es v st (replaceTop u nRow dim nfa st.busy { st' with re := re } ref).1
      (replaceTop u nRow dim nfa st.busy { st' with re := re } ref).2 := by
  have hidx : ref.idx = st.busy + bshift st.busy := by rw [bshift_eq]; exact g.idx
  have e : replaceTop u nRow dim nfa st.busy { st' with re := re } ref =
      ({ re := re
         mtx := wr st'.mtx st.busy (u, q * dim)
         row := wr (wr st'.row (st.busy + bshift st.busy) 0) (st.busy + bshift st.busy + 1) dim
         col := wr (wr st'.col (st.busy + bshift st.busy) 0) (st.busy + bshift st.busy + 1) nfa
         busy := st.busy + 1 }, ⟨1, st.busy, st.busy + bshift st.busy⟩) := by
    have h0 : ∀ s : Nat → Nat, s (st.busy + bshift st.busy) = 0 → wr s (st.busy + bshift st.busy) 0 = s := by
      intro s hs
      unfold wr
      rw [← hs]
      exact Function.update_eq_self _ _
    have r0 : st'.row ref.idx = 0 := g.ok.row0
    have c0 : st'.col ref.idx = 0 := g.ok.col0
    rw [hidx] at r0 c0
    rw [h0 _ r0, h0 _ c0]
    unfold replaceTop
    rw [hidx, hrow, g.data]
  rw [e]
  exact push_good (t := { st' with re := re }) hsz (Nat.le_trans g.pos g.nparts)
    (fun l hl n hn i hi r hr => hv l n i r hl hn hi hr)
    (fun p h1 h2 => (hre p h1).trans (g.re p (by omega) (by omega))) g.mtxLow g.mtxHigh (by rw [← hidx]; exact g.rowLow)
    g.rowHigh (by rw [← hidx]; exact g.colLow) g.colHigh

/-- the matrix of a result of one part -/
theorem one_part {q f dim nfa parts u usz ex es : Nat} {v : Vals K} {st st' : St K} {ref : Ref}
    (g : Good q f dim nfa parts u usz ex es v st st' ref) (h1 : ref.nparts = 1) :
    (st'.mtx ref.data).2 = q * dim ∧ u ≤ (st'.mtx ref.data).1 ∧ (st'.mtx ref.data).1 + q * dim * (nfa * f) ≤ u + usz ∧
    ∀ l n i r, l < dim → n < q → i < nfa → r < f →
      st'.re ((st'.mtx ref.data).1 + (l + dim * n + q * dim * (i + nfa * r))) = v l n i r := by
  have r0 : st'.row ref.idx = 0 := g.ok.row0
  have c0 : st'.col ref.idx = 0 := g.ok.col0
  have r1 : st'.row (ref.idx + 1) = dim := by
    have := g.ok.rowN
    rw [← h1]
    exact this
  have c1 : st'.col (ref.idx + 1) = nfa := by
    have := g.ok.colN
    rw [← h1]
    exact this
  have hrows : (st'.mtx ref.data).2 = q * dim := by
    have : (st'.mtx ref.data).2 = q * (st'.row (ref.idx + 1) - st'.row ref.idx) :=
      g.ok.rows 0 (by show 0 < ref.nparts; omega)
    rw [this, r0, r1, Nat.sub_zero]
  have hin := g.inU 0 (by omega)
  rw [← g.data] at hin
  change u ≤ (st'.mtx ref.data).1 ∧ (st'.mtx ref.data).1 + q * (st'.row (ref.idx + 1) - st'.row ref.idx) *
    ((st'.col (ref.idx + 1) - st'.col ref.idx) * f) ≤ u + usz at hin
  rw [r0, c0, r1, c1, Nat.sub_zero, Nat.sub_zero] at hin
  refine ⟨hrows, hin.1, hin.2, fun l n i r hl hn hi hr => ?_⟩
  rw [← g.val l hl n hn i hi r hr]
  exact (single_val (B := st'.band ref) h1 r0 r1 c0 c1 hl hi).symm

theorem rows_of {nfa c k i : Nat} (hi : i < nfa) (hc : c = i + nfa * k) : c / nfa = k ∧ c % nfa = i := by
  subst hc
  rw [Nat.add_mul_div_left _ _ (by omega), Nat.div_eq_of_lt hi, Nat.zero_add, Nat.add_mul_mod_self_left, Nat.mod_eq_of_lt hi]
  exact ⟨rfl, rfl⟩

theorem divVals_vec (nfa : Nat) (v : Vals K) {l n i k r : Nat} (hi : i < nfa) (hk : k < 3) :
    divVals (vecVals 3 nfa v) l n (i + nfa * k) r = v k n i r := by
  obtain ⟨h1, h2⟩ := rows_of hi (rfl : i + nfa * k = i + nfa * k)
  unfold divVals vecVals
  rw [h1, h2]
  obtain rfl | rfl | rfl : k = 0 ∨ k = 1 ∨ k = 2 := by omega
  all_goals simp

/-- C46: the divergence of three copies of a scalar space, from the gradient of the scalar space. -/
theorem vecDiv_correct {q f : Nat} {g : Op K} {v : Vals K} (h : Correct q f g v) (hdim : g.dim = 3) (h1 : OnePart g) :
    Correct q f (vecDiv q f g) (divVals (vecVals 3 g.nfa v)) := by
  intro st u ex es hes hdis
  change g.exr + g.usz ≤ es at hes
  change u + 3 * q * f * g.nfa ≤ ex ∨ ex + es ≤ u at hdis
  obtain ⟨st', ref, happ, gd⟩ := h st (ex + (es - g.usz)) ex (es - g.usz) (by omega) (by omega)
  have hone := h1 _ _ _ _ _ _ happ
  obtain ⟨m1, m2, m3, m4⟩ := one_part gd hone
  rw [hdim] at m1 m3 m4
  have hsz : q * 1 * (g.nfa * 3 * f) = 3 * q * f * g.nfa := by ring
  have main : Same (fun t => ∀ x, (x < u ∨ u + 3 * q * f * g.nfa ≤ x) → t x = st'.re x)
      (fun m => loop 0 f (fun r m => loop 0 g.nfa (fun i m => loop 0 q (fun n m => loop 0 3 (fun k m =>
        wr m (u + (n + q * (i + g.nfa * (k + 3 * r)))) (m ((st'.mtx ref.data).1 + ((k + 3 * n) +
          (st'.mtx ref.data).2 * (i + g.nfa * r))))) m) m) m) m)
      (fun m => loop 0 f (fun r m => loop 0 g.nfa (fun i m => loop 0 q (fun n m => loop 0 3 (fun k m =>
        wr m (at4 q 1 (g.nfa * 3) u 0 n (i + g.nfa * k) r) (v k n i r)) m) m) m) m) := by
    refine Same.loop (fun r _ hr => Same.loop (fun i _ hi => Same.loop (fun n _ hn => Same.loop (fun k _ hk t ht => ?_))))
    have hpos := at4_lt (u := u) (f := f) (nfa := g.nfa * 3) (D := 1) Nat.one_pos hn (rad_lt hi hk) hr
    rw [hsz] at hpos
    have ha : u + (n + q * (i + g.nfa * (k + 3 * r))) = at4 q 1 (g.nfa * 3) u 0 n (i + g.nfa * k) r := by
      unfold at4
      ring
    refine ⟨?_, fun x hx => ?_⟩
    · rw [ha, ht, m1, m4 k n i r hk hn hi hr]
      have : k + 3 * n + 3 * q * (i + g.nfa * r) < 3 * q * (g.nfa * f) := rad_lt (rad_lt hk hn) (rad_lt hi hr)
      rw [m1, Nat.mul_comm q 3]
      rw [Nat.mul_comm q 3] at m3
      omega
    · exact (wr_ne _ _ (by omega)).trans (ht x hx)
  obtain ⟨heq, hI⟩ := main st'.re (fun _ _ => rfl)
  dsimp only at heq hI
  have happly : (vecDiv q f g).apply u ex es st = some (replaceTop u q 1 (g.nfa * 3) st.busy { st' with
      re := loop 0 f (fun r m => loop 0 g.nfa (fun i m => loop 0 q (fun n m => loop 0 3 (fun k m =>
        wr m (at4 q 1 (g.nfa * 3) u 0 n (i + g.nfa * k) r) (v k n i r)) m) m) m) st'.re } ref) := by
    dsimp only [vecDiv]
    rw [if_neg (by omega), happ]
    dsimp only
    rw [if_pos hone, heq]
  refine ⟨_, _, happly, top_good (dim := 1) (nfa := g.nfa * 3) (v := divVals (vecVals 3 g.nfa v)) gd (by omega) _ (Nat.le_of_eq hsz) (by omega) ?_ hI⟩
  · intro l n c r hl hn hc hr
    obtain rfl : l = 0 := by omega
    have hnpos : 0 < g.nfa := by
      rcases Nat.eq_zero_or_pos g.nfa with e | e
      · rw [e] at hc
        omega
      · exact e
    obtain ⟨i, k, hi, hk, rfl⟩ : ∃ i k, i < g.nfa ∧ k < 3 ∧ c = i + g.nfa * k :=
      ⟨c % g.nfa, c / g.nfa, Nat.mod_lt _ hnpos, Nat.div_lt_of_lt_mul hc, (Nat.mod_add_div _ _).symm⟩
    rw [divVals_vec g.nfa v hi hk]
    have other : ∀ {r' i' n' k' t} (y : K), r' < f → i' < g.nfa → n' < q → k' < 3 → ¬ (r' = r ∧ i' = i ∧ n' = n ∧ k' = k) →
        wr t (at4 q 1 (g.nfa * 3) u 0 n' (i' + g.nfa * k') r') y (at4 q 1 (g.nfa * 3) u 0 n (i + g.nfa * k) r) =
          t (at4 q 1 (g.nfa * 3) u 0 n (i + g.nfa * k) r) := by
      intro r' i' n' k' t y hr' hi' hn' hk' hne
      refine wr_ne _ _ (fun e => hne ?_)
      obtain ⟨-, e2, e3, e4⟩ := at4_inj Nat.one_pos Nat.one_pos hn hn' (rad_lt hi hk) (rad_lt hi' hk') e
      obtain ⟨e5, e6⟩ := rad2 hi hi' e3
      exact ⟨e4.symm, e5.symm, e2.symm, e6.symm⟩
    refine loop_at (fun _ => v k n i r) (Nat.zero_le _) hr (fun t => loop_at (fun _ => v k n i r) (Nat.zero_le _) hi
      (fun t => loop_at (fun _ => v k n i r) (Nat.zero_le _) hn (fun t => loop_at (fun _ => v k n i r) (Nat.zero_le _) hk
        (fun t => wr_same _ _ _) ?_) ?_) ?_) ?_
    · intro k' t _ hk' hne
      exact other _ hr hi hn hk' (fun h => hne h.2.2.2)
    · intro n' t _ hn' hne
      exact loop_off (fun k' t _ hk' => other _ hr hi hn' hk' (fun h => hne h.2.2.1))
    · intro i' t _ hi' hne
      exact loop_off (fun n' t _ hn' => loop_off (fun k' t _ hk' => other _ hr hi' hn' hk' (fun h => hne h.2.1)))
    · intro r' t _ hr' hne
      exact loop_off (fun i' t _ hi' => loop_off (fun n' t _ hn' => loop_off (fun k' t _ hk' =>
        other _ hr' hi' hn' hk' (fun h => hne h.1))))

/-! ### curl -/

/-- `curlRow` with the values of the gradient instead of the memory -/
def curlRowV (q nfa u : Nat) (v : Vals K) (r n : Nat) (i j l : Nat) (neg : Bool) (m : Nat → K) : Nat → K :=
  loop 0 nfa (fun d m => wr m (at4 q 3 (nfa * 3) u i n (d + nfa * l) r) (if neg then -v j n d r else v j n d r)) m

theorem curlRowV_at {q nfa u : Nat} {v : Vals K} {r n i j l r' n' i' l' d : Nat} {neg : Bool} (hi : i < 3) (hi' : i' < 3)
    (hl : l < 3) (hl' : l' < 3) (hn : n < q) (hn' : n' < q) (hd : d < nfa) (m : Nat → K) :
    curlRowV q nfa u v r n i j l neg m (at4 q 3 (nfa * 3) u i' n' (d + nfa * l') r') =
      if i = i' ∧ l = l' ∧ n = n' ∧ r = r' then (if neg then -v j n d r else v j n d r)
      else m (at4 q 3 (nfa * 3) u i' n' (d + nfa * l') r') := by
  unfold curlRowV
  have other : ∀ (d0 : Nat) (t : Nat → K) (y : K), d0 < nfa → ¬ (i = i' ∧ l = l' ∧ n = n' ∧ r = r' ∧ d0 = d) →
      wr t (at4 q 3 (nfa * 3) u i n (d0 + nfa * l) r) y (at4 q 3 (nfa * 3) u i' n' (d + nfa * l') r') =
        t (at4 q 3 (nfa * 3) u i' n' (d + nfa * l') r') := by
    intro d0 t y hd0 hne
    refine wr_ne _ _ (fun e => hne ?_)
    obtain ⟨e1, e2, e3, e4⟩ := at4_inj hi' hi hn' hn (rad_lt hd hl') (rad_lt hd0 hl) e
    obtain ⟨e5, e6⟩ := rad2 hd hd0 e3
    exact ⟨e1.symm, e6.symm, e2.symm, e4.symm, e5.symm⟩
  by_cases h : i = i' ∧ l = l' ∧ n = n' ∧ r = r'
  · rw [if_pos h]
    obtain ⟨rfl, rfl, rfl, rfl⟩ := h
    exact loop_at (fun _ => if neg then -v j n d r else v j n d r) (Nat.zero_le _) hd (fun t => wr_same _ _ _)
      (fun d0 t _ hd0 hne => other d0 t _ hd0 (fun h => hne h.2.2.2.2))
  · rw [if_neg h]
    exact loop_off (fun d0 t _ hd0 => other d0 t _ hd0 (fun h' => h ⟨h'.1, h'.2.1, h'.2.2.1, h'.2.2.2.1⟩))

/-- the six loops at one point -/
def curlPoint (q nfa u : Nat) (v : Vals K) (r n : Nat) (m : Nat → K) : Nat → K :=
  curlRowV q nfa u v r n 1 0 2 true (curlRowV q nfa u v r n 0 1 2 false (curlRowV q nfa u v r n 2 0 1 false
    (curlRowV q nfa u v r n 0 2 1 true (curlRowV q nfa u v r n 2 1 0 true (curlRowV q nfa u v r n 1 2 0 false m)))))

theorem curlPoint_off {q nfa u : Nat} {v : Vals K} {r n r' n' i' l' d : Nat} (hi' : i' < 3) (hl' : l' < 3) (hn : n < q)
    (hn' : n' < q) (hd : d < nfa) (hne : ¬ (n = n' ∧ r = r')) (m : Nat → K) :
    curlPoint q nfa u v r n m (at4 q 3 (nfa * 3) u i' n' (d + nfa * l') r') =
      m (at4 q 3 (nfa * 3) u i' n' (d + nfa * l') r') := by
  have h : ∀ a b : Nat, ¬ (a = i' ∧ b = l' ∧ n = n' ∧ r = r') := fun a b h => hne h.2.2
  unfold curlPoint
  rw [curlRowV_at (by decide) hi' (by decide) hl' hn hn' hd, if_neg (h _ _),
    curlRowV_at (by decide) hi' (by decide) hl' hn hn' hd, if_neg (h _ _),
    curlRowV_at (by decide) hi' (by decide) hl' hn hn' hd, if_neg (h _ _),
    curlRowV_at (by decide) hi' (by decide) hl' hn hn' hd, if_neg (h _ _),
    curlRowV_at (by decide) hi' (by decide) hl' hn hn' hd, if_neg (h _ _),
    curlRowV_at (by decide) hi' (by decide) hl' hn hn' hd, if_neg (h _ _)]

theorem curlPoint_at {q nfa u : Nat} {v : Vals K} {r n i l d : Nat} (hi : i < 3) (hl : l < 3) (hn : n < q) (hd : d < nfa)
    (m : Nat → K) (hz : m (at4 q 3 (nfa * 3) u i n (d + nfa * l) r) = 0) :
    curlPoint q nfa u v r n m (at4 q 3 (nfa * 3) u i n (d + nfa * l) r) =
      curlVals (vecVals 3 nfa v) i n (d + nfa * l) r := by
  obtain ⟨h1, h2⟩ := rows_of hd (rfl : d + nfa * l = d + nfa * l)
  unfold curlPoint
  rw [curlRowV_at (by decide) hi (by decide) hl hn hn hd, curlRowV_at (by decide) hi (by decide) hl hn hn hd,
    curlRowV_at (by decide) hi (by decide) hl hn hn hd, curlRowV_at (by decide) hi (by decide) hl hn hn hd,
    curlRowV_at (by decide) hi (by decide) hl hn hn hd, curlRowV_at (by decide) hi (by decide) hl hn hn hd, hz]
  obtain rfl | rfl | rfl : i = 0 ∨ i = 1 ∨ i = 2 := by omega
  all_goals
    unfold curlVals vecVals
    simp only [h1, h2]
    obtain rfl | rfl | rfl : l = 0 ∨ l = 1 ∨ l = 2 := by omega
  all_goals simp

/-- C46: the curl of three copies of a scalar space, from the gradient of the scalar space. -/
theorem vecCurl_correct {q f : Nat} {g : Op K} {v : Vals K} (h : Correct q f g v) (hdim : g.dim = 3) (h1 : OnePart g) :
    Correct q f (vecCurl q f g) (curlVals (vecVals 3 g.nfa v)) := by
  intro st u ex es hes hdis
  change g.exr + g.usz ≤ es at hes
  change u + 9 * q * f * g.nfa ≤ ex ∨ ex + es ≤ u at hdis
  obtain ⟨st', ref, happ, gd⟩ := h st (ex + (es - g.usz)) ex (es - g.usz) (by omega) (by omega)
  have hone := h1 _ _ _ _ _ _ happ
  obtain ⟨m1, m2, m3, m4⟩ := one_part gd hone
  rw [hdim] at m1 m3 m4
  have hsz : q * 3 * (g.nfa * 3 * f) = 9 * q * f * g.nfa := by ring
  have hsz2 : 3 * q * 3 * g.nfa * f = 9 * q * f * g.nfa := by ring
  have row : ∀ r n i j l neg, r < f → n < q → i < 3 → j < 3 → l < 3 →
      Same (fun t => ∀ x, (x < u ∨ u + 9 * q * f * g.nfa ≤ x) → t x = st'.re x)
        (curlRow q g.nfa u (st'.mtx ref.data) r n i j l neg) (curlRowV q g.nfa u v r n i j l neg) := by
    intro r n i j l neg hr hn hi hj hl
    unfold curlRow curlRowV
    refine Same.loop (fun d _ hd t ht => ?_)
    have hpos := at4_lt (u := u) (f := f) (nfa := g.nfa * 3) (D := 3) hi hn (rad_lt hd hl) hr
    rw [hsz] at hpos
    have ha : u + ((i + 3 * n) + 3 * q * (d + g.nfa * (l + 3 * r))) = at4 q 3 (g.nfa * 3) u i n (d + g.nfa * l) r := by
      unfold at4
      ring
    refine ⟨?_, fun x hx => ?_⟩
    · dsimp only
      rw [ha, ht, m1, Nat.mul_comm n 3, m4 j n d r hj hn hd hr]
      have : j + 3 * n + 3 * q * (d + g.nfa * r) < 3 * q * (g.nfa * f) := rad_lt (rad_lt hj hn) (rad_lt hd hr)
      rw [m1, Nat.mul_comm q 3, Nat.mul_comm n 3]
      rw [Nat.mul_comm q 3] at m3
      omega
    · exact (wr_ne _ _ (by omega)).trans (ht x hx)
  have comp : ∀ {I : (Nat → K) → Prop} {f1 f2 g1 g2 : (Nat → K) → (Nat → K)}, Same I f1 f2 → Same I g1 g2 →
      Same I (fun m => g1 (f1 m)) (fun m => g2 (f2 m)) := by
    intro I f1 f2 g1 g2 hf hg t ht
    obtain ⟨a1, a2⟩ := hf t ht
    dsimp only
    rw [a1]
    exact hg _ a2
  have main : Same (fun t => ∀ x, (x < u ∨ u + 9 * q * f * g.nfa ≤ x) → t x = st'.re x)
      (fun m => loop 0 f (fun r m => loop 0 q (fun n m =>
        let m := curlRow q g.nfa u (st'.mtx ref.data) r n 1 2 0 false m
        let m := curlRow q g.nfa u (st'.mtx ref.data) r n 2 1 0 true m
        let m := curlRow q g.nfa u (st'.mtx ref.data) r n 0 2 1 true m
        let m := curlRow q g.nfa u (st'.mtx ref.data) r n 2 0 1 false m
        let m := curlRow q g.nfa u (st'.mtx ref.data) r n 0 1 2 false m
        curlRow q g.nfa u (st'.mtx ref.data) r n 1 0 2 true m) m) m)
      (fun m => loop 0 f (fun r m => loop 0 q (fun n m => curlPoint q g.nfa u v r n m) m) m) := by
    refine Same.loop (fun r _ hr => Same.loop (fun n _ hn => ?_))
    have hh := comp (comp (comp (comp (comp (row r n 1 2 0 false hr hn (by decide) (by decide) (by decide))
      (row r n 2 1 0 true hr hn (by decide) (by decide) (by decide)))
      (row r n 0 2 1 true hr hn (by decide) (by decide) (by decide)))
      (row r n 2 0 1 false hr hn (by decide) (by decide) (by decide)))
      (row r n 0 1 2 false hr hn (by decide) (by decide) (by decide)))
      (row r n 1 0 2 true hr hn (by decide) (by decide) (by decide))
    exact hh
  obtain ⟨heq, hI⟩ := main (setZero u (3 * q * 3 * g.nfa * f) st'.re) (fun x hx => setZero_off (by rw [hsz2]; exact hx) _)
  dsimp only at heq hI
  have happly : (vecCurl q f g).apply u ex es st = some (replaceTop u (3 * q) 3 (g.nfa * 3) st.busy { st' with
      re := loop 0 f (fun r m => loop 0 q (fun n m => curlPoint q g.nfa u v r n m) m)
        (setZero u (3 * q * 3 * g.nfa * f) st'.re) } ref) := by
    dsimp only [vecCurl]
    rw [if_neg (by omega), happ]
    dsimp only
    rw [if_pos hone, heq]
  refine ⟨_, _, happly, top_good (dim := 3) (nfa := g.nfa * 3) (v := curlVals (vecVals 3 g.nfa v)) gd (by omega) _ (Nat.le_of_eq hsz) (by omega) ?_ hI⟩
  · intro i n c r hi hn hc hr
    have hnpos : 0 < g.nfa := by
      rcases Nat.eq_zero_or_pos g.nfa with e | e
      · rw [e] at hc
        omega
      · exact e
    obtain ⟨d, l, hd, hl, rfl⟩ : ∃ i k, i < g.nfa ∧ k < 3 ∧ c = i + g.nfa * k :=
      ⟨c % g.nfa, c / g.nfa, Nat.mod_lt _ hnpos, Nat.div_lt_of_lt_mul hc, (Nat.mod_add_div _ _).symm⟩
    have hpos := at4_lt (u := u) hi hn (rad_lt hd hl) hr
    rw [hsz] at hpos
    obtain ⟨t1, s1, v1⟩ := loop_pick (X := fun x => x = at4 q 3 (g.nfa * 3) u i n (d + g.nfa * l) r) (Nat.zero_le r) hr
      (g := fun r m => loop 0 q (fun n m => curlPoint q g.nfa u v r n m) m)
      (s := setZero u (3 * q * 3 * g.nfa * f) st'.re)
      (fun r' t x _ hr' hne hx => by
        rw [hx]
        exact loop_off (fun n' t _ hn' => curlPoint_off hi hl hn' hn hd (fun h => hne h.2) t))
    obtain ⟨t2, s2, v2⟩ := loop_pick (X := fun x => x = at4 q 3 (g.nfa * 3) u i n (d + g.nfa * l) r) (Nat.zero_le n) hn
      (g := fun n m => curlPoint q g.nfa u v r n m) (s := t1)
      (fun n' t x _ hn' hne hx => by
        rw [hx]
        exact curlPoint_off hi hl hn' hn hd (fun h => hne h.1) t)
    rw [v1 _ rfl, v2 _ rfl]
    refine curlPoint_at hi hl hn hd t2 ?_
    rw [s2 _ rfl, s1 _ rfl]
    exact setZero_at hpos.1 (by rw [hsz2]; exact hpos.2) _

end Verif.OpStack
