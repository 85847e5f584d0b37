import Verif.Props.CtOp
import Verif.Props.OpStack8

/-!
Operators of compile-time spaces: partial derivative, divergence and curl; two operators and the elemental matrix.
-/
namespace Verif.CtOp

open Verif.Dense Verif.Elemental
open Verif.OpStack (Vals vecVals joinVals prodVals unionVals divVals curlVals dudxVals LeafOk at4 at4_lt val_congr ok_congr)

set_option linter.unusedSectionVars false

variable {K : Type} [CommRing K]

/-- two nested loops over the digits of an index are one loop -/
theorem loop_mul {S : Type} (a b : Nat) (g : Nat → S → S) (s : S) :
    loop 0 b (fun j s => loop 0 a (fun i s => g (i + a * j) s) s) s = loop 0 (a * b) g s := by
  induction b with
  | zero => rw [Nat.mul_zero, loop_empty (Nat.le_refl _), loop_empty (Nat.le_refl _)]
  | succ b ih =>
    rw [loop_succ, ih, Nat.mul_succ]
    clear ih
    generalize hN : a * b = N
    clear hN
    induction a with
    | zero => rw [loop_empty (Nat.le_refl _), Nat.add_zero]
    | succ a ih => rw [loop_succ, ih, ← Nat.add_assoc, loop_succ, Nat.add_comm a N]

/-- the loops of the partial derivative are one loop over the places of the result -/
theorem dudx_flat (q f nfa dim a ncrd : Nat) (m : Nat → K) :
    loop 0 f (fun r m => loop 0 nfa (fun i m => loop 0 q (fun n m => loop 0 dim (fun k m =>
        wr m (a + ((k + n * dim) + q * dim * (i + nfa * r)))
          (m (a + ((ncrd + 3 * k + n * (3 * dim)) + q * (3 * dim) * (i + nfa * r))))) m) m) m) m =
      loop 0 (dim * q * (nfa * f)) (fun p m => wr m (a + p) (m (a + (3 * p + ncrd)))) m := by
  rw [← loop_mul (dim * q) (nfa * f), ← loop_mul nfa f]
  refine loop_congr (fun r s _ _ => loop_congr (fun i s _ _ => ?_))
  rw [← loop_mul dim q]
  refine loop_congr (fun n s _ _ => loop_congr (fun k s _ _ => ?_))
  congr 2
  · ring
  · congr 1
    ring

/-- the loop in place never reads what it has written -/
theorem dudx_loop (N a c : Nat) (m : Nat → K) :
    (∀ p, p < N → loop 0 N (fun p m => wr m (a + p) (m (a + (3 * p + c)))) m (a + p) = m (a + (3 * p + c))) ∧
    (∀ x, (x < a ∨ a + N ≤ x) → loop 0 N (fun p m => wr m (a + p) (m (a + (3 * p + c)))) m x = m x) := by
  have := loop_ind (P := fun k (t : Nat → K) => (∀ p, p < k → t (a + p) = m (a + (3 * p + c))) ∧
      ∀ x, (x < a ∨ a + k ≤ x) → t x = m x) (f := fun p m => wr m (a + p) (m (a + (3 * p + c)))) (s := m) (Nat.zero_le N)
    ⟨fun p hp => absurd hp (Nat.not_lt_zero _), fun _ _ => rfl⟩
    (fun k t _ _ ht => by
      refine ⟨fun p hp => ?_, fun x hx => (wr_ne _ _ (by omega)).trans (ht.2 x (by omega))⟩
      by_cases h : p = k
      · subst h
        rw [wr_same, ht.2 _ (by omega)]
      · rw [wr_ne _ _ (by omega), ht.1 p (by omega)])
  exact this

/-- C51: the partial derivative takes the rows of the gradient `ncrd, ncrd+3, ...`. -/
theorem dudx_correct {q f ncrd dim : Nat} {g : Op K} {v : Vals K} (h : Correct q f g v) (hden : IsDense q g) (hdim : g.dim = 3 * dim)
    (hn : ncrd < 3) : Correct q f (dudx q f ncrd g) (dudxVals ncrd v) := by
  intro m u ex es hes hdis
  obtain ⟨m', mx, e, -, gd⟩ := h m u ex es hes hdis
  obtain rfl := hden _ _ _ _ _ _ e
  have hd3 : g.dim / 3 = dim := by omega
  obtain ⟨h1, h2⟩ := dudx_loop (dim * q * (g.nfa * f)) u ncrd m'
  have e' : (dudx q f ncrd g).apply u ex es m =
      some (loop 0 (dim * q * (g.nfa * f)) (fun p m => wr m (u + p) (m (u + (3 * p + ncrd)))) m', .dense (u, q * dim)) := by
    dsimp only [dudx]
    rw [e]
    dsimp only
    rw [hd3, hdim, dudx_flat]
  have hsz := h.size hden
  rw [hdim] at hsz
  have hsz3 : q * (3 * dim) * (g.nfa * f) = 3 * (q * dim * (g.nfa * f)) := by ring
  have hc : dim * q * (g.nfa * f) = q * dim * (g.nfa * f) := by ring
  have hD : (dudx q f ncrd g).dim = dim := hd3
  have hNf : (dudx q f ncrd g).nfa = g.nfa := rfl
  have hU : (dudx q f ncrd g).usz = g.usz := rfl
  rw [hD, hNf, hU]
  refine ⟨_, _, e', Nat.le_refl _, good_dense (by omega) ?_ ?_⟩
  · intro l hl n hn' i hi r hr
    have hp := at4_lt (u := 0) hl hn' hi hr
    unfold at4 at hp
    rw [h1 _ (by omega)]
    show _ = v (3 * l + ncrd) n i r
    rw [← gd.val (3 * l + ncrd) (by omega) n hn' i hi r hr]
    have hs := OpStack.single_val (B := (conv (.dense (u, q * g.dim)) g.dim g.nfa).band m') (q := q) (dim := g.dim) (nf := g.nfa)
      (l := 3 * l + ncrd) (n := n) (i := i) (r := r) rfl rfl rfl rfl rfl (by omega) hi
    rw [hs]
    show m' _ = m' (u + _)
    rw [hdim]
    congr 2
    ring
  · intro p a b
    rw [h2 p (by omega)]
    exact gd.re p a b

theorem dudx_dense {q f ncrd : Nat} {g : Op K} (hden : IsDense q g) : IsDense q (dudx q f ncrd g) := by
  intro u ex es m m' mx e
  dsimp only [dudx] at e
  split at e
  · rename_i m1 A e1
    have := hden _ _ _ _ _ _ e1
    cases this
    cases e
    rfl
  · cases e

/-- C51: the partial derivative of a union of one type which has no own partial derivative spoils the memory behind `U`: the
union demands a third of what the gradient written there takes. -/
theorem union_one_dudx_wrong [Nontrivial K] {q f ncrd dim : Nat} {g : Op K} {v : Vals K} (h : Correct q f g v) (hden : IsDense q g)
    (hdim : g.dim = 3 * dim) (hq : 0 < q) (hf : 0 < f) (hd : 0 < dim) (hnf : 0 < g.nfa) (w : Vals K) :
    ¬ Correct q f (union q f [dudx q f ncrd g]) w := by
  intro hC
  have hd3 : g.dim / 3 = dim := by omega
  obtain ⟨N, hN⟩ : ∃ N, N = dim * q * (g.nfa * f) := ⟨_, rfl⟩
  have hNpos : 0 < N := by
    rw [hN]
    exact Nat.mul_pos (Nat.mul_pos hd hq) (Nat.mul_pos hnf hf)
  have hsz := h.size hden
  rw [hdim] at hsz
  have hsz3 : q * (3 * dim) * (g.nfa * f) = 3 * N := by rw [hN]; ring
  have husz : (union q f [dudx q f ncrd g]).usz = N := by
    show g.dim / 3 * q * f * (g.nfa + 0) = N
    rw [hd3, hN]
    ring
  have hexr : (union q f [dudx q f ncrd g]).exr = g.exr + g.usz := Nat.zero_max _
  -- the place behind `U` belongs to the gradient
  obtain ⟨l, n, i, r, hl, hn, hi, hr, hpl⟩ : ∃ l n i r, l < g.dim ∧ n < q ∧ i < g.nfa ∧ r < f ∧
      N = l + g.dim * n + q * g.dim * (i + g.nfa * r) := by
    have hD : 0 < g.dim := by omega
    have hlt : N < (g.dim * q) * (g.nfa * f) := by
      rw [hdim, Nat.mul_comm (3 * dim) q]
      omega
    have h1 : N / (g.dim * q) < g.nfa * f := Nat.div_lt_of_lt_mul hlt
    refine ⟨N % (g.dim * q) % g.dim, N % (g.dim * q) / g.dim, N / (g.dim * q) % g.nfa, N / (g.dim * q) / g.nfa, Nat.mod_lt _ hD,
      Nat.div_lt_of_lt_mul (Nat.mod_lt _ (Nat.mul_pos hD hq)), Nat.mod_lt _ hnf, Nat.div_lt_of_lt_mul h1, ?_⟩
    rw [Nat.mod_add_div, Nat.mod_add_div, Nat.mul_comm q g.dim, Nat.mod_add_div]
  have key : ∀ m : Nat → K, m N = v l n i r := by
    intro m
    obtain ⟨m', mx, e, -, gd⟩ := hC m 0 g.usz (g.exr + g.usz) (Nat.le_of_eq hexr) (Or.inl (by rw [husz]; omega))
    rw [husz] at gd
    rw [← gd.re N (by omega) (by omega)]
    obtain ⟨m1, mx1, e1, -, g1⟩ := h m 0 g.usz (g.exr + g.usz) (by omega) (Or.inl (by omega))
    obtain rfl := hden _ _ _ _ _ _ e1
    have hm' : m' = loop 0 N (fun p m => wr m (0 + p) (m (0 + (3 * p + ncrd)))) m1 := by
      dsimp only [union, dudx] at e
      rw [e1] at e
      dsimp only at e
      rw [hd3, hdim, dudx_flat, ← hN] at e
      cases e
      rfl
    rw [hm', (dudx_loop N 0 ncrd m1).2 N (by omega), ← g1.val l hl n hn i hi r hr]
    have hs := OpStack.single_val (B := (conv (.dense (0, q * g.dim)) g.dim g.nfa).band m1) (q := q) (dim := g.dim) (nf := g.nfa)
      (l := l) (n := n) (i := i) (r := r) rfl rfl rfl rfl rfl hl hi
    rw [hs, ← hpl]
    show m1 N = m1 (0 + N)
    rw [Nat.zero_add]
  have h0 := key (fun _ => 0)
  have h1 := key (fun _ => 1)
  exact zero_ne_one (h0.trans h1.symm)

/-- a correct dense operator as a leaf of a run-time space -/
theorem leaf_of {q f : Nat} {g : Op K} {v : Vals K} (h : Correct q f g v) (hden : IsDense q g) :
    OpStack.Correct q f (OpStack.leaf q g.dim g.nfa g.usz g.exr (runOf g)) v :=
  OpStack.leaf_correct (h.leafOk hden)

/-- what `OpStack.Good` says of a single matrix at `u` -/
theorem good_of {q f dim nfa parts u usz ex es : Nat} {v : Vals K} {st st' : OpStack.St K} {ref : OpStack.Ref}
    (g : OpStack.Good q f dim nfa parts u usz ex es v st st' ref) (h1 : ref.nparts = 1) (hm : st'.mtx ref.data = (u, q * dim)) :
    Good q f dim nfa u usz ex es v st.re st'.re (conv (.dense (u, q * dim)) dim nfa) := by
  have r0 := g.ok.row0
  have rN := g.ok.rowN
  have c0 := g.ok.col0
  have cN := g.ok.colN
  change st'.row (ref.idx + 0) = 0 at r0
  change st'.row (ref.idx + ref.nparts) = dim at rN
  change st'.col (ref.idx + 0) = 0 at c0
  change st'.col (ref.idx + ref.nparts) = nfa at cN
  rw [h1] at rN cN
  have hin := g.inU 0 (by omega)
  rw [← g.data, Nat.add_zero, hm, Nat.add_zero] at hin
  rw [Nat.add_zero] at r0 c0
  simp only [Nat.add_zero, r0, rN, c0, cN, Nat.sub_zero] at hin
  refine good_dense (by omega) (fun l hl n hn i hi r hr => ?_) g.re
  rw [← g.val l hl n hn i hi r hr]
  have := OpStack.single_val (B := st'.band ref) (q := q) (dim := dim) (nf := nfa) (l := l) (n := n) (i := i) (r := r) h1 r0 rN c0 cN hl hi
  rw [this]
  show _ = st'.re ((st'.mtx (ref.data + 0)).1 + _)
  rw [Nat.add_zero, hm]

/-- C51: the divergence of three copies of a scalar type, from the gradient of the type. -/
theorem div_correct {q f : Nat} {g : Op K} {v : Vals K} (h : Correct q f g v) (hden : IsDense q g) (hdim : g.dim = 3)
    (hsz : g.usz = 3 * q * f * g.nfa) : Correct q f (div q f g) (divVals (vecVals 3 g.nfa v)) := by
  intro m u ex es hes hdis
  change g.exr + g.usz ≤ es at hes
  change u + g.usz ≤ ex ∨ ex + es ≤ u at hdis
  obtain ⟨st', ref, e, gd⟩ := OpStack.vecDiv_correct (leaf_of h hden) hdim OpStack.leaf_onePart ⟨m, fun _ => (0, 0), fun _ => 0, fun _ => 0, 0⟩
    u ex es hes (by show u + 3 * q * f * g.nfa ≤ ex ∨ _; rw [← hsz]; exact hdis)
  have hrun := apply_run h hden (u := ex + (es - g.usz)) (ex := ex) (es := es - g.usz) m (by omega) (by omega)
  have e' : (div q f g).apply u ex es m = some (st'.re, .dense (u, q * 1)) ∧ ref.nparts = 1 ∧ st'.mtx ref.data = (u, q * 1) := by
    dsimp only [div]
    rw [if_pos ⟨hdim, by omega⟩, ← hsz, hrun]
    dsimp only [OpStack.vecDiv, OpStack.leaf, OpStack.replaceTop] at e
    rw [if_neg (by omega), if_pos rfl] at e
    cases e
    rw [Nat.mul_one]
    exact ⟨rfl, rfl, rfl⟩
  refine ⟨_, _, e'.1, Nat.le_refl _, ?_⟩
  have hN : (OpStack.vecDiv q f (OpStack.leaf q g.dim g.nfa g.usz g.exr (runOf g))).nfa = 3 * g.nfa := Nat.mul_comm _ _
  have hU : (OpStack.vecDiv q f (OpStack.leaf q g.dim g.nfa g.usz g.exr (runOf g))).usz = g.usz := hsz.symm
  rw [hN, hU] at gd
  exact good_of gd e'.2.1 e'.2.2

theorem div_dense {q f : Nat} {g : Op K} : IsDense q (div q f g) := by
  intro u ex es m m' mx e
  dsimp only [div] at e
  split at e
  · split at e
    · cases e
      rw [show q * (div q f g).dim = q from Nat.mul_one q]
    · cases e
  · cases e

/-- C51: the curl of three copies of a scalar type, from the gradient of the type. -/
theorem curl_correct {q f : Nat} {g : Op K} {v : Vals K} (h : Correct q f g v) (hden : IsDense q g) (hdim : g.dim = 3)
    (hsz : g.usz = 3 * q * f * g.nfa) : Correct q f (curl q f g) (curlVals (vecVals 3 g.nfa v)) := by
  intro m u ex es hes hdis
  change g.exr + g.usz ≤ es at hes
  change u + g.usz * 3 ≤ ex ∨ ex + es ≤ u at hdis
  have hsz9 : g.usz * 3 = 9 * q * f * g.nfa := by rw [hsz]; ring
  obtain ⟨st', ref, e, gd⟩ := OpStack.vecCurl_correct (leaf_of h hden) hdim OpStack.leaf_onePart ⟨m, fun _ => (0, 0), fun _ => 0, fun _ => 0, 0⟩
    u ex es hes (by show u + 9 * q * f * g.nfa ≤ ex ∨ _; rw [← hsz9]; exact hdis)
  have hrun := apply_run h hden (u := ex + (es - g.usz)) (ex := ex) (es := es - g.usz) m (by omega) (by omega)
  have e' : (curl q f g).apply u ex es m = some (st'.re, .dense (u, q * 3)) ∧ ref.nparts = 1 ∧ st'.mtx ref.data = (u, q * 3) := by
    dsimp only [curl]
    rw [if_pos ⟨hdim, by omega⟩, ← hsz, hrun]
    dsimp only [OpStack.vecCurl, OpStack.leaf, OpStack.replaceTop] at e
    rw [if_neg (by omega), if_pos rfl] at e
    cases e
    rw [Nat.mul_comm q 3]
    exact ⟨rfl, rfl, rfl⟩
  refine ⟨_, _, e'.1, Nat.le_refl _, ?_⟩
  have hN : (OpStack.vecCurl q f (OpStack.leaf q g.dim g.nfa g.usz g.exr (runOf g))).nfa = 3 * g.nfa := Nat.mul_comm _ _
  have hU : (OpStack.vecCurl q f (OpStack.leaf q g.dim g.nfa g.usz g.exr (runOf g))).usz = g.usz * 3 := hsz9.symm
  rw [hN, hU] at gd
  exact good_of gd e'.2.1 e'.2.2

theorem curl_dense {q f : Nat} {g : Op K} : IsDense q (curl q f g) := by
  intro u ex es m m' mx e
  dsimp only [curl] at e
  split at e
  · split at e
    · cases e
      rw [show q * (curl q f g).dim = 3 * q from Nat.mul_comm q 3]
    · cases e
  · cases e

/-- C51: the second operator leaves the block matrix of the first one as it was. -/
theorem pair_correct {q f : Nat} {a b : Op K} {va vb : Vals K} (ha : Correct q f a va) (hb : Correct q f b vb) (m : Nat → K)
    (u v ex es : Nat) (hesa : a.exr ≤ es) (hesb : b.exr ≤ es) (hu : u + a.usz ≤ ex ∨ ex + es ≤ u)
    (hv : v + b.usz ≤ ex ∨ ex + es ≤ v) (huv : u + a.usz ≤ v ∨ v + b.usz ≤ u) :
    ∃ m2 U V, applyTwo false a b u v ex es m = some (m2, U, V) ∧
      (U.band m2).Ok q a.dim a.nfa ∧ (V.band m2).Ok q b.dim b.nfa ∧
      (∀ l, l < a.dim → ∀ n, n < q → ∀ i, i < a.nfa → ∀ r, r < f → (U.band m2).val q l n i r = va l n i r) ∧
      (∀ l, l < b.dim → ∀ n, n < q → ∀ i, i < b.nfa → ∀ r, r < f → (V.band m2).val q l n i r = vb l n i r) := by
  obtain ⟨m1, U, e1, -, g1⟩ := ha m u ex es hesa hu
  obtain ⟨m2, V, e2, -, g2⟩ := hb m1 v ex es hesb hv
  refine ⟨m2, conv U a.dim a.nfa, conv V b.dim b.nfa, ?_, ?_, g2.ok, ?_, g2.val⟩
  · unfold applyTwo
    rw [e1]
    dsimp only
    rw [if_neg (by decide), e2]
  · exact ok_congr g1.ok rfl (fun _ _ => rfl) (fun _ _ => rfl) (fun _ _ => rfl)
  · intro l hl n hn i hi r hr
    rw [← g1.val l hl n hn i hi r hr]
    refine val_congr (A := (conv U a.dim a.nfa).band m1) (B := (conv U a.dim a.nfa).band m2) hn hr rfl (fun _ _ => rfl) (fun _ _ => rfl)
      (fun d hd p hp => ?_) l i
    have hin := g1.inU d hd
    change p < q * ((conv U a.dim a.nfa).stRow (d + 1) - (conv U a.dim a.nfa).stRow d) *
      (((conv U a.dim a.nfa).stCol (d + 1) - (conv U a.dim a.nfa).stCol d) * f) at hp
    exact g2.re _ (by omega) (by omega)

/-- C51: the elemental matrix of two compile-time operators is the quadrature sum of the bilinear form with the values of the
operators, whatever the memory held; `same` is the case of one type (core.inl:13-26). -/
theorem fem3DtetC_exact {q f : Nat} {a b : Op K} {va vb : Vals K} (ha : Correct q f a va) (hb : Correct q f b vb) (same : Bool)
    (hsame : same = true → a = b ∧ va = vb) (m : Nat → K) (u v ex es : Nat) (hesa : a.exr ≤ es) (hesb : b.exr ≤ es)
    (hu : u + a.usz ≤ ex ∨ ex + es ≤ u) (hv : v + b.usz ≤ ex ∨ ex + es ≤ v) (huv : u + a.usz ≤ v ∨ v + b.usz ≤ u)
    (tr : Traits) (htr : tr ≠ .perSelection) (fn : UserD K) (w mes xyg : Nat → K) (nrm : Option (Nat → K))
    (D DU DIFF extraR A : Nat → K) (hn : 0 < a.nfa) (hq : 0 < q) (hf : 0 < f)
    (hfit : ∀ r, r < f → ∀ n, n < q →
      Fits (b.dim * (if nrm.isSome then 3 else 1)) a.dim a.nfa (fn (xpt xyg q n r) r))
    (hold : ∀ U, tr.Holds fn ⟨U, a.dim, b.dim * (if nrm.isSome then 3 else 1), q, f, a.nfa, w, mes, xyg⟩) :
    ∃ m2 U V A', applyTwo same a b u v ex es m = some (m2, U, V) ∧
      fem3Dtet (fun a DU => applyDU tr fn a D DU) (U.band m2) (V.band m2) a.dim b.dim a.nfa b.nfa q f w mes xyg nrm DU
        DIFF extraR A = some A' ∧
      ∀ r, r < f → ∀ i, i < a.nfa → ∀ j, j < b.nfa → A' (j + b.nfa * (i + a.nfa * r)) =
        ∑ n ∈ Finset.range q, w n * mes r * ∑ k ∈ Finset.range b.dim, vb k n j r * ∑ l ∈ Finset.range a.dim,
          acting nrm (fun n r k l => tensor (b.dim * (if nrm.isSome then 3 else 1)) a.dim (fn (xpt xyg q n r) r) k l) n r k l *
            va l n i r := by
  obtain ⟨m2, U, V, e, okU, okV, hvU, hvV⟩ : ∃ m2 U V, applyTwo same a b u v ex es m = some (m2, U, V) ∧
      (U.band m2).Ok q a.dim a.nfa ∧ (V.band m2).Ok q b.dim b.nfa ∧
      (∀ l, l < a.dim → ∀ n, n < q → ∀ i, i < a.nfa → ∀ r, r < f → (U.band m2).val q l n i r = va l n i r) ∧
      (∀ l, l < b.dim → ∀ n, n < q → ∀ i, i < b.nfa → ∀ r, r < f → (V.band m2).val q l n i r = vb l n i r) := by
    cases hs : same with
    | false => exact pair_correct ha hb m u v ex es hesa hesb hu hv huv
    | true =>
      obtain ⟨rfl, rfl⟩ := hsame hs
      obtain ⟨m1, U, e1, -, g1⟩ := ha m u ex es hesa hu
      refine ⟨m1, conv U a.dim a.nfa, conv U a.dim a.nfa, ?_, g1.ok, g1.ok, g1.val, g1.val⟩
      unfold applyTwo
      rw [e1]
      rfl
  obtain ⟨A', eA, hA⟩ := fem3Dtet_exact tr htr fn (U.band m2) (V.band m2) a.dim b.dim a.nfa b.nfa q f w mes xyg nrm D DU
    DIFF extraR A okU okV hn hq hf hfit (hold _)
  refine ⟨m2, U, V, A', e, eA, fun r hr i hi j hj => ?_⟩
  rw [hA r hr i hi j hj]
  unfold entry
  refine Finset.sum_congr rfl (fun n hn' => ?_)
  have hn'' := Finset.mem_range.mp hn'
  congr 1
  refine Finset.sum_congr rfl (fun k hk => ?_)
  rw [hvV k (Finset.mem_range.mp hk) n hn'' j hj r hr]
  congr 1
  refine Finset.sum_congr rfl (fun l hl => ?_)
  rw [hvU l (Finset.mem_range.mp hl) n hn'' i hi r hr]

section Examples

/-- an element whose operator is a table: the gradient of a scalar space with four basis functions at two points of three
tetrahedrons -/
def exGrad : Op ℤ := fix 2 3 4 72 0 (OpStack.table 72 (fun p => p))

/-- its values -/
def exGradVals : Vals ℤ := OpStack.tableVals 2 3 4 (fun p => p)

theorem exGrad_correct : Correct 2 3 exGrad exGradVals :=
  fix_correct (OpStack.table_ok 2 3 3 4 (fun p => (p : ℤ)) 0)

theorem exGrad_dense : IsDense 2 exGrad := fix_dense

/-- one basis function of three components -/
def exOne : Op ℤ := fix 2 3 1 18 0 (OpStack.table 18 (fun p => (p : ℤ) + 100))

/-- its values -/
def exOneVals : Vals ℤ := OpStack.tableVals 2 3 1 (fun p => (p : ℤ) + 100)

theorem exOne_correct : Correct 2 3 exOne exOneVals :=
  fix_correct (OpStack.table_ok 2 3 3 1 (fun p => (p : ℤ) + 100) 0)

-- a vector of compositions, a union, a divergence, a curl, a partial derivative
example : Correct 2 3 (vecT 2 (com [vec 3 exGrad, exOne]))
    (vecVals 12 13 (prodVals [(9, 12, vecVals 3 4 exGradVals), (3, 1, exOneVals)])) :=
  vecT_correct (com_correct [(vec 3 exGrad, _), (exOne, _)] (by simp) (by
    intro x hx
    rcases List.mem_cons.mp hx with rfl | hx
    · exact vec_correct exGrad_correct exGrad_dense (by decide)
    · obtain rfl := List.mem_singleton.mp hx
      exact exOne_correct)) (by decide)

example : (vecT 2 (com [vec 3 exGrad, exOne])).dim = 24 ∧ (vecT 2 (com [vec 3 exGrad, exOne])).nfa = 26 := by decide

example : Correct 2 3 (union 2 3 [exGrad, exOne]) (unionVals [(4, exGradVals), (1, exOneVals)]) :=
  union_correct (exGrad, _) (exOne, _) [] (by
    intro x hx
    rcases List.mem_cons.mp hx with rfl | hx
    · exact ⟨exGrad_correct, rfl⟩
    · obtain rfl := List.mem_singleton.mp hx
      exact ⟨exOne_correct, rfl⟩)

example : Correct 2 3 (union 2 3 [exGrad]) (unionVals [(4, exGradVals)]) := union_one_correct exGrad_correct exGrad_dense (by decide)

example : Correct 2 3 (div 2 3 exGrad) (divVals (vecVals 3 4 exGradVals)) := div_correct exGrad_correct exGrad_dense rfl (by decide)

example : Correct 2 3 (curl 2 3 exGrad) (curlVals (vecVals 3 4 exGradVals)) := curl_correct exGrad_correct exGrad_dense rfl (by decide)

example : Correct 2 3 (dudx 2 3 1 exGrad) (dudxVals 1 exGradVals) := dudx_correct (dim := 1) exGrad_correct exGrad_dense rfl (by decide)

example (w : Vals ℤ) : ¬ Correct 2 3 (union 2 3 [dudx 2 3 1 exGrad]) w :=
  union_one_dudx_wrong (dim := 1) exGrad_correct exGrad_dense rfl (by decide) (by decide) (by decide) (by decide) w

-- the values: the derivative of the basis function 2 along the second axis at the point 1 of the tetrahedron 2
example : dudxVals 1 exGradVals 0 1 2 2 = 64 := by decide

-- the divergence of the same function as second component of a vector
example : divVals (vecVals 3 4 exGradVals) 0 1 6 2 = 64 := by decide +kernel

-- an elemental matrix of two compositions
example (m w mes xyg D DU DIFF extraR A : Nat → ℤ) :
    ∃ m2 U V A', applyTwo false (vec 3 exGrad) (com [exGrad, exGrad, exOne]) 0 100 500 10 m = some (m2, U, V) ∧
      fem3Dtet (fun a DU => applyDU .perPoint (fun _ _ => (.null, fun _ => 0)) a D DU) (U.band m2) (V.band m2) 9 9 12 9 2 3
        w mes xyg none DU DIFF extraR A = some A' := by
  obtain ⟨m2, U, V, A', h1, h2, -⟩ := fem3DtetC_exact (q := 2) (f := 3)
    (vec_correct exGrad_correct exGrad_dense (show 1 ≤ 3 by decide))
    (com_correct [(exGrad, _), (exGrad, _), (exOne, _)] (by simp) (by
      intro x hx
      simp only [List.mem_cons, List.not_mem_nil, or_false] at hx
      rcases hx with rfl | rfl | rfl
      · exact exGrad_correct
      · exact exGrad_correct
      · exact exOne_correct)) false (fun h => absurd h (by decide)) m 0 100 500 10
    (by decide) (by decide) (by decide) (by decide) (by decide) .perPoint (by decide) (fun _ _ => (.null, fun _ => 0)) w mes xyg none
    D DU DIFF extraR A (by decide) (by decide) (by decide) (fun _ _ _ _ => Or.inl rfl) (fun _ => trivial)
  exact ⟨m2, U, V, A', h1, h2⟩

end Examples

end Verif.CtOp
