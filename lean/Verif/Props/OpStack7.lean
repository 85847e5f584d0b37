import Verif.Props.OpStack6

/-!
Partial derivatives from the gradient, and concrete cases of all operators.
-/
namespace Verif.OpStack

open Verif.Dense Verif.Elemental

set_option linter.unusedSectionVars false

variable {K : Type} [CommRing K]

theorem align3_low {k : Nat} : align3 (k : Int) 0 true = k := by
  unfold align3
  simp

theorem align3_high {k dim : Nat} (hk : k < 3) (hdim : 1 ≤ dim) :
    align3 (k : Int) (((3 * dim : Nat) : Int) - 1) false = 3 * ((dim : Int) - 1) + k := by
  unfold align3
  rw [Int.tdiv_eq_ediv_of_nonneg (by omega), Int.tmod_eq_emod_of_nonneg (by omega)]
  simp only [Bool.false_eq_true, if_false]
  split <;> omega

/-- C46, partial: the default partial derivative `∂/∂x_k` of a space from its gradient.  Missing: gradients of several parts
(`baseDudx_wrong`). -/
theorem baseDudx_partial {q f k dim : Nat} {g : Op K} {v : Vals K} (h : Correct q f g v) (hk : k < 3) (hdim : 1 ≤ dim)
    (hg : g.dim = 3 * dim) (h1 : OnePart g) : Correct q f (baseDudx q f k dim g) (dudxVals k v) := by
  intro st u ex es hes hdis
  change g.exr + g.usz ≤ es at hes
  change u + min (dim * q * f * g.nfa) g.usz ≤ ex ∨ ex + es ≤ u at hdis
  obtain ⟨st', ref, happ, gd⟩ := h st (ex + (es - g.usz)) ex (es - g.usz) (by omega) (by omega)
  have hone := h1 _ _ _ _ _ _ happ
  obtain ⟨m1, m2, m3, m4⟩ := one_part gd hone
  rw [hg] at m1 m3 m4
  have hsz : q * dim * (g.nfa * f) = dim * q * f * g.nfa := by ring
  have h3 : q * (3 * dim) * (g.nfa * f) = 3 * (dim * q * f * g.nfa) := by ring
  have husz : min (dim * q * f * g.nfa) g.usz = q * dim * (g.nfa * f) := by
    rw [Nat.min_eq_left, hsz]
    omega
  rw [husz] at hdis
  have r0 : st'.row ref.idx = 0 := gd.ok.row0
  have c0 : st'.col ref.idx = 0 := gd.ok.col0
  have r1 : st'.row (ref.idx + 1) = 3 * dim := by
    have := gd.ok.rowN
    rw [← hg, ← hone]
    exact this
  have c1 : st'.col (ref.idx + 1) = g.nfa := by
    have := gd.ok.colN
    rw [← hone]
    exact this
  have main : Same (fun t => ∀ x, (x < u ∨ u + q * dim * (g.nfa * f) ≤ x) → t x = st'.re x)
      (fun m => loop 0 f (fun r m => loop 0 g.nfa (fun i m => loop 0 q (fun n m => loop 0 dim (fun id m =>
        wr m (u + ((id + dim * n) + q * dim * (i + g.nfa * r)))
          (m ((st'.mtx ref.data).1 + ((k + 3 * id + 3 * dim * n) + (st'.mtx ref.data).2 * (i + g.nfa * r))))) m) m) m) m)
      (nested 1 f q (fun _ => 0) (fun _ => g.nfa) (fun _ r i n m => loop 0 dim (fun id m =>
        wr m (at4 q dim g.nfa u id n i r) (v (3 * id + k) n i r)) m)) := by
    refine Same.loop (a := 0) (b := 1) (f := fun _ m => loop 0 f (fun r m => loop 0 g.nfa (fun i m => loop 0 q (fun n m =>
        loop 0 dim (fun id m => wr m (u + ((id + dim * n) + q * dim * (i + g.nfa * r)))
          (m ((st'.mtx ref.data).1 + ((k + 3 * id + 3 * dim * n) + (st'.mtx ref.data).2 * (i + g.nfa * r))))) m) m) m) m)
      (fun _ _ _ => Same.loop (fun r _ hr => Same.loop (fun i _ hi => Same.loop (fun n _ hn =>
        Same.loop (fun id _ hid t ht => ?_)))))
    have hpos := at4_lt (u := u) hid hn hi hr
    refine ⟨?_, fun x hx => ?_⟩
    · have hl : 3 * id + k < 3 * dim := by omega
      have hlt : 3 * id + k + 3 * dim * n + 3 * dim * q * (i + g.nfa * r) < 3 * dim * q * (g.nfa * f) :=
        rad_lt (rad_lt hl hn) (rad_lt hi hr)
      rw [Nat.mul_comm (3 * dim) q] at hlt
      rw [ht, m1, Nat.add_comm k, m4 (3 * id + k) n i r hl hn hi hr]
      · rfl
      · rw [m1, Nat.add_comm k]
        omega
    · exact (wr_ne _ _ (by omega)).trans (ht x hx)
  obtain ⟨heq, hI⟩ := main st'.re (fun _ _ => rfl)
  dsimp only at heq hI
  have happly : (baseDudx q f k dim g).apply u ex es st = some (replaceTop u (q * dim) dim g.nfa st.busy { st' with
      re := nested 1 f q (fun _ => 0) (fun _ => g.nfa) (fun _ r i n m => loop 0 dim (fun id m =>
        wr m (at4 q dim g.nfa u id n i r) (v (3 * id + k) n i r)) m) st'.re } ref) := by
    dsimp only [baseDudx]
    rw [if_neg (by omega), happ]
    dsimp only
    rw [hone, show loop 0 1 (dudxPart q f k u ref) (st', 0, 0) = dudxPart q f k u ref 0 (st', 0, 0) from rfl]
    have hnd : (if 3 * ((dim : Int) - 1) + k ≥ k then ((3 * ((dim : Int) - 1) + k - k).tdiv 3 + 1).toNat else 0) = dim := by
      rw [if_pos (by omega), Int.tdiv_eq_ediv_of_nonneg (by omega)]
      omega
    have hpart : dudxPart q f k u ref 0 (st', 0, 0) = (
        { re := nested 1 f q (fun _ => 0) (fun _ => g.nfa) (fun _ r i n m => loop 0 dim (fun id m =>
            wr m (at4 q dim g.nfa u id n i r) (v (3 * id + k) n i r)) m) st'.re
          mtx := wr st'.mtx ref.data (u, q * dim)
          row := wr st'.row (ref.idx + 1) dim
          col := wr st'.col (ref.idx + 1) g.nfa
          busy := st'.busy }, 1, 0 + q * dim * f * g.nfa) := by
      unfold dudxPart
      simp only [Nat.add_zero, Nat.zero_add, r0, c0, r1, c1]
      rw [show (((0 : Nat) : Int)) = 0 from rfl, align3_low, align3_high hk hdim, hnd, if_pos (by omega),
        show ((k : Int) - 0).toNat = k by omega, show (((3 * dim : Nat) : Int) - 0).toNat = 3 * dim by omega, Nat.sub_zero, heq]
    rw [hpart]
    rfl
  refine ⟨_, _, happly, top_good (dim := dim) (nfa := g.nfa) (v := dudxVals k v) (usz := min (dim * q * f * g.nfa) g.usz) gd
    (by omega) _ (Nat.le_of_eq husz.symm) rfl ?_ ?_⟩
  · intro l n i r hl hn hi hr
    obtain ⟨t, -, hv⟩ := nested_at (np := 1) (f := f) (q := q) (D := dim) (nfa := g.nfa) (u := u)
      (lo := fun _ => 0) (hi := fun _ => g.nfa) (cf := fun _ i => i)
      (F := fun _ r i n m => loop 0 dim (fun id m => wr m (at4 q dim g.nfa u id n i r) (v (3 * id + k) n i r)) m)
      (fun p i hp _ hi => hi)
      (fun p i p' i' hp a1 a2 hp' b1 b2 e => ⟨by omega, e⟩)
      (fun p r i n t x _ _ _ _ _ hx => loop_off (fun id t _ hid => wr_ne _ _ (hx id hid)))
      (p := 0) (r := r) (i := i) (n := n) Nat.one_pos hr (Nat.zero_le _) hi hn st'.re
    refine (hv l hl).trans ?_
    exact loop_at (fun _ => v (3 * l + k) n i r) (Nat.zero_le _) hl (fun t => wr_same _ _ _)
      (fun id t _ hid hne => wr_ne _ _ (fun e => hne (at4_inj hl hid hn hn hi hi e).1.symm))
  · rw [husz]
    exact hI

/-! ### concrete operators -/

theorem table_ok (q f dim nfa : Nat) (V : Nat → K) (exr : Nat) :
    LeafOk q f dim nfa (q * dim * (nfa * f)) exr (table (q * dim * (nfa * f)) V) (tableVals q dim nfa V) := by
  refine ⟨Nat.le_refl _, fun u ex es m _ _ => ⟨fun l hl n hn i hi r hr => ?_, fun p hp _ => ?_⟩⟩
  · have := at4_lt (u := u) hl hn hi hr
    unfold at4 at this
    unfold table tableVals
    rw [if_pos this, Nat.add_sub_cancel_left]
  · unfold table
    rw [if_neg (by omega)]

/-- an element with the table of values `V` -/
abbrev elem (q f dim nfa : Nat) (V : Nat → K) : Op K :=
  leaf q dim nfa (q * dim * (nfa * f)) 0 (table (q * dim * (nfa * f)) V)

theorem elem_correct (q f dim nfa : Nat) (V : Nat → K) : Correct q f (elem q f dim nfa V) (tableVals q dim nfa V) :=
  leaf_correct (table_ok q f dim nfa V 0)

theorem elem_scalar (q f nfa : Nat) (V : Nat → K) : Correct q f (elem q f 1 nfa V) (fun _ => tableVals q 1 nfa V 0) := by
  intro st u ex es h1 h2
  obtain ⟨st', ref, e, g⟩ := elem_correct q f 1 nfa V st u ex es h1 h2
  refine ⟨st', ref, e, { g with val := fun l hl n hn i hi r hr => ?_ }⟩
  obtain rfl : l = 0 := by
    change l < 1 at hl
    omega
  exact g.val 0 hl n hn i hi r hr

/-- a gradient of a scalar element with four basis functions, at two points of three tetrahedrons -/
def exGrad : Op ℤ := elem 2 3 3 4 (fun p => p)

theorem exGrad_correct : Correct 2 3 exGrad (tableVals 2 3 4 (fun p => (p : ℤ))) := elem_correct 2 3 3 4 _

-- `leaf_correct`
example : Correct 2 3 (elem 2 3 1 4 (fun p => (p : ℤ) * p)) (tableVals 2 1 4 (fun p => (p : ℤ) * p)) := leaf_correct (table_ok 2 3 1 4 _ 0)

-- `vec_correct`, the value of component 4 (of the second copy) on basis function 5 (the second of the second copy)
example : Correct 2 3 (vec 3 exGrad) (vecVals 3 4 (tableVals 2 3 4 (fun p => (p : ℤ)))) := vec_correct exGrad_correct (by decide)

example : vecVals 3 4 (tableVals 2 3 4 (fun p => (p : ℤ))) 4 1 5 2 = 1 + 3 * 1 + 6 * (1 + 4 * 2) := by decide

example : vecVals 3 4 (tableVals 2 3 4 (fun p => (p : ℤ))) 4 1 3 2 = 0 := by decide

-- `cplx_correct`: a scalar gradient and a vector space
example : Correct 2 3 (cplx exGrad [vec 3 exGrad]) (prodVals [(3, 4, tableVals 2 3 4 (fun p => (p : ℤ))),
    (9, 12, vecVals 3 4 (tableVals 2 3 4 (fun p => (p : ℤ))))]) :=
  cplx_correct (exGrad, _) [(vec 3 exGrad, _)] (by
    intro x hx
    simp only [List.mem_cons, List.not_mem_nil, or_false] at hx
    rcases hx with rfl | rfl
    · exact exGrad_correct
    · exact vec_correct exGrad_correct (by decide))

-- `union_correct`: four basis functions and one more
example : Correct 2 3 (union 2 3 3 [exGrad, elem 2 3 3 1 (fun p => (p : ℤ))])
    (unionVals [(4, tableVals 2 3 4 (fun p => (p : ℤ))), (1, tableVals 2 3 1 (fun p => (p : ℤ)))]) :=
  union_correct [(exGrad, _), (elem 2 3 3 1 (fun p => (p : ℤ)), _)] (List.cons_ne_nil _ _) (by
    intro x hx
    simp only [List.mem_cons, List.not_mem_nil, or_false] at hx
    rcases hx with rfl | rfl
    · exact ⟨exGrad_correct, rfl⟩
    · exact ⟨elem_correct 2 3 3 1 _, rfl⟩)

-- `vecDiv_correct`, `vecCurl_correct`
example : Correct 2 3 (vecDiv 2 3 exGrad) (divVals (vecVals 3 4 (tableVals 2 3 4 (fun p => (p : ℤ))))) :=
  vecDiv_correct exGrad_correct rfl leaf_onePart

example : Correct 2 3 (vecCurl 2 3 exGrad) (curlVals (vecVals 3 4 (tableVals 2 3 4 (fun p => (p : ℤ))))) :=
  vecCurl_correct exGrad_correct rfl leaf_onePart

-- the divergence of the union of two scalar spaces taken three times
example : Correct 2 3 (vecDiv 2 3 (union 2 3 3 [exGrad, elem 2 3 3 1 (fun p => (p : ℤ))]))
    (divVals (vecVals 3 5 (unionVals [(4, tableVals 2 3 4 (fun p => (p : ℤ))), (1, tableVals 2 3 1 (fun p => (p : ℤ)))]))) :=
  vecDiv_correct (union_correct [(exGrad, _), (elem 2 3 3 1 (fun p => (p : ℤ)), _)] (List.cons_ne_nil _ _) (by
    intro x hx
    simp only [List.mem_cons, List.not_mem_nil, or_false] at hx
    rcases hx with rfl | rfl
    · exact ⟨exGrad_correct, rfl⟩
    · exact ⟨elem_correct 2 3 3 1 _, rfl⟩)) rfl union_onePart

/-- the gradient of a product of three scalar spaces: three parts -/
def exProd : Op ℤ := cplx exGrad [exGrad, elem 2 3 3 1 (fun p => p)]

/-- its values -/
def exProdVals : Vals ℤ := prodVals [(3, 4, tableVals 2 3 4 (fun p => (p : ℤ))), (3, 4, tableVals 2 3 4 (fun p => (p : ℤ))),
  (3, 1, tableVals 2 3 1 (fun p => (p : ℤ)))]

theorem exProd_correct : Correct 2 3 exProd exProdVals :=
  cplx_correct (exGrad, _) [(exGrad, _), (elem 2 3 3 1 (fun p => (p : ℤ)), _)] (by
    intro x hx
    simp only [List.mem_cons, List.not_mem_nil, or_false] at hx
    rcases hx with rfl | rfl | rfl
    · exact exGrad_correct
    · exact exGrad_correct
    · exact elem_correct 2 3 3 1 _)

-- `baseCurl_correct`, `baseDiv_partial`, `baseDiv_rows_wrong`
example : Correct 2 3 (baseCurl 2 3 exProd) (curlVals exProdVals) := baseCurl_correct exProd_correct rfl

example : curlVals exProdVals 0 1 8 2 = 1 + 3 * 1 + 6 * 2 := by decide

example : ¬ Correct 2 3 (baseDiv 2 3 exProd) (divVals exProdVals) := baseDiv_rows_wrong exProd_correct rfl _

-- `div111_partial`, `div111_busy_wrong`
example : ∃ st' ref, (div111 2 3 (elem 2 3 1 4 (fun p => (p : ℤ))) (elem 2 3 1 4 (fun p => (p : ℤ)))
      (elem 2 3 1 1 (fun p => (p : ℤ)))).apply 0 54 24 ⟨fun _ => 0, fun _ => (0, 0), fun _ => 0, fun _ => 0, 0⟩ = some (st', ref) ∧
    st'.busy = 0 := by
  obtain ⟨st', ref, h1, h2, -⟩ := div111_partial (q := 2) (f := 3) (a := elem 2 3 1 4 (fun p => (p : ℤ)))
    (b := elem 2 3 1 4 (fun p => (p : ℤ))) (c := elem 2 3 1 1 (fun p => (p : ℤ)))
    (ga := fun _ => tableVals 2 1 4 (fun p => (p : ℤ)) 0) (gb := fun _ => tableVals 2 1 4 (fun p => (p : ℤ)) 0)
    (gc := fun _ => tableVals 2 1 1 (fun p => (p : ℤ)) 0)
    (elem_scalar 2 3 4 _) (elem_scalar 2 3 4 _) (elem_scalar 2 3 1 _)
    rfl rfl rfl leaf_onePart leaf_onePart leaf_onePart ⟨fun _ => 0, fun _ => (0, 0), fun _ => 0, fun _ => 0, 0⟩ 0 54 24
    (by decide) (by decide)
  exact ⟨st', ref, h1, h2⟩

example (st : St ℤ) : ∃ st1 ref1 st2 ref2, (div111 2 3 (elem 2 3 1 4 (fun p => (p : ℤ))) (elem 2 3 1 4 (fun p => (p : ℤ)))
      (elem 2 3 1 1 (fun p => (p : ℤ)))).apply 0 54 24 st = some (st1, ref1) ∧
    exGrad.apply 100 200 0 st1 = some (st2, ref2) ∧ ref2.data = ref1.data := by
  obtain ⟨st1, ref1, st2, ref2, h1, h2, h3, -⟩ := (div111_busy_wrong (q := 2) (f := 3) (a := elem 2 3 1 4 (fun p => (p : ℤ)))
    (b := elem 2 3 1 4 (fun p => (p : ℤ))) (c := elem 2 3 1 1 (fun p => (p : ℤ)))
    (ga := fun _ => tableVals 2 1 4 (fun p => (p : ℤ)) 0) (gb := fun _ => tableVals 2 1 4 (fun p => (p : ℤ)) 0)
    (gc := fun _ => tableVals 2 1 1 (fun p => (p : ℤ)) 0)
    (elem_scalar 2 3 4 _) (elem_scalar 2 3 4 _) (elem_scalar 2 3 1 _)
    rfl rfl rfl leaf_onePart leaf_onePart leaf_onePart exGrad_correct).2 st 0 54 24 100 200 0 (by decide) (by decide) (by decide)
    (by decide)
  exact ⟨st1, ref1, st2, ref2, h1, h2, h3⟩

-- `div12_partial`, `div12_busy_wrong`: a scalar space and two copies of a scalar space
example : ∀ v, ¬ Correct 2 3 (div12 2 3 (true, elem 2 3 1 4 (fun p => (p : ℤ))) (false, vec 2 exGrad)) v :=
  (div12_busy_wrong (a := (true, elem 2 3 1 4 (fun p => (p : ℤ)))) (b := (false, vec 2 exGrad))
    (ga := fun _ => tableVals 2 1 4 (fun p => (p : ℤ)) 0) ⟨elem_scalar 2 3 4 _, rfl, leaf_onePart⟩
    ⟨vec_correct exGrad_correct (by decide), rfl⟩ rfl exGrad_correct).1

-- `baseDudx_partial`
example : Correct 2 3 (baseDudx 2 3 1 1 exGrad) (dudxVals 1 (tableVals 2 3 4 (fun p => (p : ℤ)))) :=
  baseDudx_partial exGrad_correct (by decide) (by decide) rfl leaf_onePart

/-- two scalar spaces with one basis function each, gradients (1,2,3) and (10,20,30) -/
def exTwo : Op ℤ := cplx (elem 1 1 3 1 (fun p => (p + 1 : ℤ))) [elem 1 1 3 1 (fun p => (10 * (p + 1) : ℤ))]

/-- its values -/
def exTwoVals : Vals ℤ := prodVals [(3, 1, tableVals 1 3 1 (fun p => (p + 1 : ℤ))), (3, 1, tableVals 1 3 1 (fun p => (10 * (p + 1) : ℤ)))]

theorem exTwo_correct : Correct 1 1 exTwo exTwoVals :=
  cplx_correct (elem 1 1 3 1 (fun p => (p + 1 : ℤ)), _) [(elem 1 1 3 1 (fun p => (10 * (p + 1) : ℤ)), _)] (by
    intro x hx
    simp only [List.mem_cons, List.not_mem_nil, or_false] at hx
    rcases hx with rfl | rfl
    · exact elem_correct 1 1 3 1 _
    · exact elem_correct 1 1 3 1 _)

/-- C46: the default partial derivative is wrong for gradients of several parts: the starts of the first part of the result overwrite
those of the gradient, and the row of the second part is taken from a wrong place: `∂/∂x` of the second function is 30, the
value of `∂/∂z`, instead of 10. -/
theorem baseDudx_wrong : Correct 1 1 exTwo exTwoVals ∧ exTwo.dim = 3 * 2 ∧
    dudxVals 0 exTwoVals 1 0 1 0 = 10 ∧
    (((baseDudx 1 1 0 2 exTwo).apply 0 4 6 ⟨fun _ => 0, fun _ => (0, 0), fun _ => 0, fun _ => 0, 0⟩).map
      (fun s => (s.1.band s.2).val 1 1 0 1 0)) = some 30 ∧
    ¬ Correct 1 1 (baseDudx 1 1 0 2 exTwo) (dudxVals 0 exTwoVals) := by
  have hv : dudxVals 0 exTwoVals 1 0 1 0 = 10 := by decide
  have hc : (((baseDudx 1 1 0 2 exTwo).apply 0 4 6 ⟨fun _ => 0, fun _ => (0, 0), fun _ => 0, fun _ => 0, 0⟩).map
      (fun s => (s.1.band s.2).val 1 1 0 1 0)) = some 30 := by decide +kernel
  refine ⟨exTwo_correct, rfl, hv, hc, fun h => ?_⟩
  obtain ⟨st', ref, e, g⟩ := h ⟨fun _ => 0, fun _ => (0, 0), fun _ => 0, fun _ => 0, 0⟩ 0 4 6 (by decide) (by decide)
  rw [e] at hc
  have h1 := g.val 1 (by decide) 0 (by decide) 1 (by decide) 0 (by decide)
  rw [hv] at h1
  have h2 : (st'.band ref).val 1 1 0 1 0 = 30 := Option.some.inj hc
  rw [h1] at h2
  exact absurd h2 (by decide)

end Verif.OpStack
