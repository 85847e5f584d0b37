import Verif.Lemmas.Interp
import Mathlib.Algebra.Order.BigOperators.Group.Finset
import Mathlib.Algebra.Order.Field.Basic
import Mathlib.Algebra.Order.AbsoluteValue.Basic
import Mathlib.LinearAlgebra.Matrix.NonsingularInverse

/-!
Lemmas for the interpolation on unions of spaces and for its set-up.
-/
set_option linter.unusedSectionVars false
namespace Verif.Interp

open Verif.Dense Verif.DofMap

variable {K : Type} [Field K]

/-- all functionals of the members, one after another -/
def allL (ss : List (Space K)) (Ls : Nat → Nat → Fn K → K) : Nat → Fn K → K :=
  fun q => Ls (comp (ss.map (·.nfa)) q).1 (comp (ss.map (·.nfa)) q).2

section Eval
variable [DecidableEq K]

theorem loop_sum_fn {n : Nat} (a : Nat → Nat → K) (fusion r : Nat) (hr : r < fusion)
    (step : Nat → (Nat → K) → Nat → K)
    (hs : ∀ j, j < n → ∀ acc, step j acc r = acc r + a j r) (acc : Nat → K) :
    loop 0 n step acc r = acc r + ∑ j ∈ Finset.range n, a j r := by
  refine loop_ind (P := fun m (b : Nat → K) => b r = acc r + ∑ j ∈ Finset.range m, a j r) (Nat.zero_le n) (by simp) ?_
  intro j b _ hj ih
  rw [hs j hj, ih, Finset.sum_range_succ, add_assoc]

theorem unionSum_eq {ss : List (Space K)} {T : Tet K} {Ls : Nat → Nat → Fn K → K}
    (h : ∀ m (hm : m < ss.length), Dofs ss[m] T (Ls m)) {dim : Nat} (hdim : ∀ m (hm : m < ss.length), ss[m].dim = dim)
    (W : Nat → K) (f : Fn K) (idof fusion r : Nat) (hr : r < fusion) :
    unionSum ss W T f idof fusion r =
      ∑ q ∈ Finset.range (ss.map (·.nfa)).sum, W (idof + (ss.map (·.nfa)).sum * q) * allL ss Ls q (fun x k => f x (dim * r + k)) := by
  unfold unionSum
  dsimp only
  rw [loop_sum_fn (fun q r => W (idof + (ss.map (·.nfa)).sum * q) * allL ss Ls q (fun x k => f x (dim * r + k))) fusion r hr]
  · rw [zero_add]
  · intro q hq acc
    obtain ⟨m, l, hm, hl, he, hc⟩ := space_at (ss := ss) hq
    by_cases hw : W (idof + (ss.map (·.nfa)).sum * q) = 0
    · rw [if_pos hw, hw, zero_mul, add_zero]
    · rw [if_neg hw, hc]
      dsimp only
      rw [List.getElem?_eq_getElem hm]
      dsimp only
      rw [if_pos hr, (h m hm).run f l fusion _ hl, if_pos ⟨hr, rfl⟩, hdim m hm]
      unfold allL
      rw [hc]

/-- the functionals of a union -/
def unionL (ss : List (Space K)) (W : Nat → K) (Ls : Nat → Nat → Fn K → K) : Nat → Fn K → K :=
  fun i g => ∑ q ∈ Finset.range (ss.map (·.nfa)).sum, W (i + (ss.map (·.nfa)).sum * q) * allL ss Ls q g

theorem allL_loc {ss : List (Space K)} {T : Tet K} {Ls : Nat → Nat → Fn K → K}
    (h : ∀ m (hm : m < ss.length), Dofs ss[m] T (Ls m)) {dim : Nat} (hdim : ∀ m (hm : m < ss.length), ss[m].dim = dim)
    {q : Nat} (hq : q < (ss.map (·.nfa)).sum) {g g' : Fn K} (hg : ∀ x k, k < dim → g x k = g' x k) :
    allL ss Ls q g = allL ss Ls q g' := by
  obtain ⟨m, l, hm, hl, he, hc⟩ := space_at (ss := ss) hq
  unfold allL; rw [hc]
  exact (h m hm).loc l hl _ _ fun x k hk => hg x k (by rw [← hdim m hm]; exact hk)

theorem union_dofs {ss : List (Space K)} {T : Tet K} {Ls : Nat → Nat → Fn K → K}
    (h : ∀ m (hm : m < ss.length), Dofs ss[m] T (Ls m)) (hdim : ∀ s ∈ ss, s.dim = (ss.map (·.dim)).headD 0)
    {W : Nat → K} (hW : ∀ i, i < (ss.map (·.nfa)).sum → ∃ q, q < (ss.map (·.nfa)).sum ∧ W (i + (ss.map (·.nfa)).sum * q) ≠ 0) :
    Dofs (union ss W) T (unionL ss W Ls) := by
  have hdim' : ∀ m (hm : m < ss.length), ss[m].dim = (ss.map (·.dim)).headD 0 := fun m hm => hdim _ (List.getElem_mem hm)
  constructor
  · intro f i fusion u hi r j
    show unionInterp ss W T f i fusion u r j = _
    unfold unionInterp
    rw [if_neg]
    · by_cases hc : r < fusion ∧ j = i
      · rw [if_pos hc, if_pos hc, unionSum_eq h hdim' W f i fusion r hc.1]
        rfl
      · rw [if_neg hc, if_neg hc]
    · intro hall
      obtain ⟨q, hq, hne⟩ := hW i hi
      exact hne (hall q hq)
  · intro i hi g g' hg
    unfold unionL
    refine Finset.sum_congr rfl fun q hq => ?_
    rw [allL_loc h hdim' (Finset.mem_range.1 hq) hg]
  · intro i hi g g'
    unfold unionL
    rw [← Finset.sum_add_distrib]
    refine Finset.sum_congr rfl fun q hq => ?_
    obtain ⟨m, l, hm, hl, he, hc⟩ := space_at (ss := ss) (Finset.mem_range.1 hq)
    unfold allL; rw [hc]
    dsimp only
    rw [(h m hm).add l hl, mul_add]
  · intro i hi c g
    unfold unionL
    rw [Finset.mul_sum]
    refine Finset.sum_congr rfl fun q hq => ?_
    obtain ⟨m, l, hm, hl, he, hc⟩ := space_at (ss := ss) (Finset.mem_range.1 hq)
    unfold allL; rw [hc]
    dsimp only
    rw [(h m hm).smul l hl]; ring

/-- A union recovers its members exactly when the weights invert the matrix of all functionals on all functions. -/
theorem union_recovers_iff' {ss : List (Space K)} {T : Tet K} {Ls : Nat → Nat → Fn K → K}
    (h : ∀ m (hm : m < ss.length), Dofs ss[m] T (Ls m)) (hdim : ∀ s ∈ ss, s.dim = (ss.map (·.dim)).headD 0) (W : Nat → K) :
    Recovers (union ss W) T ↔ ∀ i, i < (ss.map (·.nfa)).sum → ∀ j, j < (ss.map (·.nfa)).sum →
      ∑ q ∈ Finset.range (ss.map (·.nfa)).sum, W (i + (ss.map (·.nfa)).sum * q) * allL ss Ls q (fun x k => unionVal ss T x j k) =
        if i = j then 1 else 0 := by
  have hdim' : ∀ m (hm : m < ss.length), ss[m].dim = (ss.map (·.dim)).headD 0 := fun m hm => hdim _ (List.getElem_mem hm)
  constructor
  · intro hr i hi j hj
    have key := hr (fun _ q => if q = j then 1 else 0) (fun x k => unionVal ss T x j k) i 1 (fun _ _ => 0) hi
      (by
        intro r hr x k hk
        have hr0 : r = 0 := by omega
        subst hr0
        rw [Finset.sum_eq_single j]
        · rw [if_pos rfl, one_mul, Nat.mul_zero, Nat.zero_add]; rfl
        · intro q _ hq; rw [if_neg hq, zero_mul]
        · intro hn; exact absurd (Finset.mem_range.2 hj) hn) 0 i
    rw [if_pos ⟨by omega, rfl⟩] at key
    rw [← key]
    show _ = unionInterp ss W T _ i 1 _ 0 i
    unfold unionInterp
    dsimp only
    by_cases hall : ∀ q, q < (ss.map (·.nfa)).sum → W (i + (ss.map (·.nfa)).sum * q) = 0
    · rw [if_pos hall]
      refine Finset.sum_eq_zero fun q hq => ?_
      rw [hall q (Finset.mem_range.1 hq), zero_mul]
    · rw [if_neg hall]
      rw [if_pos ⟨by omega, rfl⟩, unionSum_eq h hdim' W _ i 1 0 (by omega)]
      simp only [Nat.mul_zero, Nat.zero_add]
  · intro hW
    refine recovers_of_unisolvent ⟨unionL ss W Ls, union_dofs h hdim ?_, fun i hi j hj => hW i hi j hj⟩
    intro i hi
    by_contra hn
    have := hW i hi i hi
    rw [if_pos rfl, Finset.sum_eq_zero] at this
    · exact zero_ne_one this
    · intro q hq
      have : W (i + (ss.map (·.nfa)).sum * q) = 0 := by
        by_contra hne; exact hn ⟨q, Finset.mem_range.1 hq, hne⟩
      rw [this, zero_mul]

end Eval

/-! ### the matrix of the set-up -/

theorem phiF_at {s : Space K} (hd : dim = s.dim) (x : Nat → K) (r k : Nat) (hk : k < dim) :
    phiF s x (dim * r + k) = s.val refTet x r k := by
  unfold phiF
  rw [hd] at hk ⊢
  rw [Nat.mul_add_div (by omega), Nat.mul_add_mod, Nat.mod_eq_of_lt hk, Nat.div_eq_of_lt hk, Nat.add_zero]

theorem idx2_inj {nf i j i' j' : Nat} (hi : i < nf) (hi' : i' < nf) (h : i + nf * j = i' + nf * j') : i = i' ∧ j = j' := by
  have h1 : (i + nf * j) % nf = (i' + nf * j') % nf := by rw [h]
  rw [Nat.add_mul_mod_self_left, Nat.add_mul_mod_self_left, Nat.mod_eq_of_lt hi, Nat.mod_eq_of_lt hi'] at h1
  refine ⟨h1, ?_⟩
  subst h1
  have h2 : nf * j = nf * j' := by omega
  exact Nat.eq_of_mul_eq_mul_left (by omega) h2

/-- a block of the matrix -/
theorem gramBlock_at {nf a b : Nat} {si sj : Space K} {L : Nat → Fn K → K} (h : Dofs si refTet L) (hd : si.dim = sj.dim)
    (ha : a + si.nfa ≤ nf) (B : Nat → K) (u : Nat → Nat → K) (i j : Nat) (hi : i < nf) :
    (gramBlock nf a b si sj B u).1 (i + nf * j) =
      if (a ≤ i ∧ i < a + si.nfa) ∧ (b ≤ j ∧ j < b + sj.nfa) then L (i - a) (fun x k => sj.val refTet x (j - b) k)
      else B (i + nf * j) := by
  unfold gramBlock
  have key := loop_ind (P := fun m (st : (Nat → K) × (Nat → Nat → K)) => ∀ i j, i < nf → st.1 (i + nf * j) =
      if (a ≤ i ∧ i < a + m) ∧ (b ≤ j ∧ j < b + sj.nfa) then L (i - a) (fun x k => sj.val refTet x (j - b) k)
      else B (i + nf * j)) (a := 0) (b := si.nfa) (s := (B, u)) (f := fun k st =>
    let u := si.interp refTet (phiF sj) k sj.nfa st.2
    (loop 0 sj.nfa (fun l B => wr B (a + k + nf * (b + l)) (u l k)) st.1, u)) (Nat.zero_le _)
    (by intro i j _; rw [if_neg (by omega)])
    (by
      intro k st _ hk ih i j hi
      dsimp only
      have inner := loop_ind (P := fun m (B' : Nat → K) => ∀ i j, i < nf → B' (i + nf * j) =
          if i = a + k ∧ (b ≤ j ∧ j < b + m) then L k (fun x t => sj.val refTet x (j - b) t) else st.1 (i + nf * j))
          (a := 0) (b := sj.nfa) (s := st.1)
          (f := fun l B => wr B (a + k + nf * (b + l)) (si.interp refTet (phiF sj) k sj.nfa st.2 l k)) (Nat.zero_le _)
          (by intro i j _; rw [if_neg (by omega)])
          (by
            intro l B' _ hl ihl i j hi
            have hval : si.interp refTet (phiF sj) k sj.nfa st.2 l k = L k (fun x t => sj.val refTet x l t) := by
              rw [h.run _ _ _ _ hk, if_pos ⟨hl, rfl⟩]
              exact h.loc k hk _ _ fun x t ht => phiF_at hd x l t ht
            by_cases he : i = a + k ∧ j = b + l
            · rw [he.1, he.2, wr_same, hval, if_pos (by omega), show b + l - b = l by omega]
            · rw [wr_ne _ _ (fun e => he (idx2_inj hi (by omega) e)), ihl i j hi]
              by_cases hc : i = a + k ∧ (b ≤ j ∧ j < b + l)
              · rw [if_pos hc, if_pos (by omega)]
              · rw [if_neg hc, if_neg (by omega)])
      rw [inner i j hi, ih i j hi]
      by_cases hc : i = a + k ∧ (b ≤ j ∧ j < b + sj.nfa)
      · rw [if_pos hc, if_pos (by omega), show i - a = k by omega]
      · rw [if_neg hc]
        by_cases hc2 : (a ≤ i ∧ i < a + k) ∧ (b ≤ j ∧ j < b + sj.nfa)
        · rw [if_pos hc2, if_pos (by omega)]
        · rw [if_neg hc2, if_neg (by omega)])
  exact key i j hi

theorem gramRow_at {nf a i : Nat} {si : Space K} {L : Nat → Fn K → K} (h : Dofs si refTet L) (ha : a + si.nfa ≤ nf) :
    ∀ (rest : List (Space K)) (t b : Nat) (st : (Nat → K) × (Nat → Nat → K)), (∀ s ∈ rest, si.dim = s.dim) →
      (∀ (m : Nat) (hm : m < rest.length), t + m = i → rest[m].nfa = si.nfa) →
      ∀ r c, r < nf → 
      (∀ (m l : Nat) (hm : m < rest.length), l < rest[m].nfa → c = b + pre (rest.map (·.nfa)) m + l → t + m ≠ i →
        a ≤ r → r < a + si.nfa →
        (gramRow nf a i si rest t b st).1 (r + nf * c) = L (r - a) (fun x k => rest[m].val refTet x l k)) ∧
      ((¬ (a ≤ r ∧ r < a + si.nfa) ∨ c < b ∨ b + (rest.map (·.nfa)).sum ≤ c ∨
        ∃ m l, ∃ hm : m < rest.length, l < rest[m].nfa ∧ c = b + pre (rest.map (·.nfa)) m + l ∧ t + m = i) →
        (gramRow nf a i si rest t b st).1 (r + nf * c) = st.1 (r + nf * c)) := by
  intro rest
  induction rest with
  | nil =>
    intro t b st _ _ r c _
    refine ⟨fun m l hm => absurd hm (by simp), fun _ => rfl⟩
  | cons s rest ih =>
    intro t b st hd hi r c hr
    have hd' : ∀ s' ∈ rest, si.dim = s'.dim := fun s' hs => hd s' (List.mem_cons_of_mem _ hs)
    have hi' : ∀ (m : Nat) (hm : m < rest.length), t + 1 + m = i → rest[m].nfa = si.nfa := by
      intro m hm he
      have := hi (m + 1) (by simpa using hm) (by omega)
      simpa using this
    -- what the step does
    obtain ⟨st', hst, hstep⟩ : ∃ st' : (Nat → K) × (Nat → Nat → K),
        gramRow nf a i si (s :: rest) t b st = gramRow nf a i si rest (t + 1) (b + s.nfa) st' ∧
        ∀ c, st'.1 (r + nf * c) = if t ≠ i ∧ (a ≤ r ∧ r < a + si.nfa) ∧ (b ≤ c ∧ c < b + s.nfa) then
          L (r - a) (fun x k => s.val refTet x (c - b) k) else st.1 (r + nf * c) := by
      by_cases ht : t = i
      · refine ⟨st, ?_, fun c => by rw [if_neg (fun hh => hh.1 ht)]⟩
        rw [gramRow, if_pos ht]
        have h0 := hi 0 (by simp) (by omega)
        rw [List.getElem_cons_zero] at h0
        rw [← h0]
      · refine ⟨gramBlock nf a b si s st.1 st.2, ?_, fun c => ?_⟩
        · rw [gramRow, if_neg ht]
        · rw [gramBlock_at h (hd s (List.mem_cons_self)) ha _ _ _ _ hr]
          by_cases hc : (a ≤ r ∧ r < a + si.nfa) ∧ (b ≤ c ∧ c < b + s.nfa)
          · rw [if_pos hc, if_pos ⟨ht, hc⟩]
          · rw [if_neg hc, if_neg (fun hh => hc hh.2)]
    rw [hst]
    obtain ⟨ih1, ih2⟩ := ih (t + 1) (b + s.nfa) st' hd' hi' r c hr
    constructor
    · intro m l hm hl hc hne hra hrb
      cases m with
      | zero =>
        rw [List.getElem_cons_zero] at hl
        rw [List.map_cons, pre_zero] at hc
        rw [ih2 (Or.inr (Or.inl (by omega))), hstep, if_pos ⟨by omega, ⟨hra, hrb⟩, by omega, by omega⟩,
          show c - b = l by omega]
        rfl
      | succ m =>
        simp only [List.getElem_cons_succ] at hl ⊢
        rw [List.map_cons, pre_cons_succ] at hc
        exact ih1 m l (by simpa using hm) hl (by omega) (by omega) hra hrb
    · intro hout
      have hback : st'.1 (r + nf * c) = st.1 (r + nf * c) → (gramRow nf a i si rest (t + 1) (b + s.nfa) st').1 (r + nf * c) =
          st'.1 (r + nf * c) → (gramRow nf a i si rest (t + 1) (b + s.nfa) st').1 (r + nf * c) = st.1 (r + nf * c) :=
        fun h1 h2 => h2.trans h1
      rcases hout with h1 | h1 | h1 | ⟨m, l, hm, hl, hc, he⟩
      · exact hback (by rw [hstep, if_neg (fun hh => h1 hh.2.1)]) (ih2 (Or.inl h1))
      · exact hback (by rw [hstep, if_neg (fun hh => by omega)]) (ih2 (Or.inr (Or.inl (by omega))))
      · rw [List.map_cons, List.sum_cons] at h1
        exact hback (by rw [hstep, if_neg (fun hh => by omega)]) (ih2 (Or.inr (Or.inr (Or.inl (by omega)))))
      · cases m with
        | zero =>
          rw [List.getElem_cons_zero] at hl
          rw [List.map_cons, pre_zero] at hc
          exact hback (by rw [hstep, if_neg (fun hh => by omega)]) (ih2 (Or.inr (Or.inl (by omega))))
        | succ m =>
          simp only [List.getElem_cons_succ] at hl
          rw [List.map_cons, pre_cons_succ] at hc
          exact hback (by rw [hstep, if_neg (fun hh => by omega)])
            (ih2 (Or.inr (Or.inr (Or.inr ⟨m, l, by simpa using hm, hl, by omega, by omega⟩))))

theorem diag_at (nf a n : Nat) (B : Nat → K) (ha : a + n ≤ nf) (r c : Nat) (hr : r < nf) :
    loop 0 n (fun k B => wr B (k + a + nf * (k + a)) 1) B (r + nf * c) =
      if r = c ∧ a ≤ r ∧ r < a + n then 1 else B (r + nf * c) := by
  have key := loop_ind (P := fun m (B' : Nat → K) => B' (r + nf * c) = if r = c ∧ a ≤ r ∧ r < a + m then 1 else B (r + nf * c))
    (a := 0) (b := n) (s := B) (f := fun k B => wr B (k + a + nf * (k + a)) 1) (Nat.zero_le _)
    (by rw [if_neg (by omega)])
    (by
      intro k B' _ hk ih
      by_cases he : r = k + a ∧ c = k + a
      · rw [he.1, he.2, wr_same, if_pos (by omega)]
      · rw [wr_ne _ _ (fun e => he (idx2_inj hr (by omega) e)), ih]
        by_cases hc : r = c ∧ a ≤ r ∧ r < a + k
        · rw [if_pos hc, if_pos (by omega)]
        · rw [if_neg hc, if_neg (by omega)])
  exact key

/-- the rows of the spaces `i, i + 1, ...` -/
theorem gramRows_at {nf : Nat} {all : List (Space K)} {Ls : Nat → Nat → Fn K → K} {dim : Nat}
    (hall : ∀ m (hm : m < all.length), Dofs all[m] refTet (Ls m)) (hdim : ∀ s ∈ all, s.dim = dim)
    (hnf : nf = (all.map (·.nfa)).sum) :
    ∀ (rest : List (Space K)) (i : Nat) (st : (Nat → K) × (Nat → Nat → K)), all.drop i = rest → i ≤ all.length →
      ∀ r c, r < nf → c < nf →
      (r < pre (all.map (·.nfa)) i → (gramRows nf all rest i (pre (all.map (·.nfa)) i) st).1 (r + nf * c) = st.1 (r + nf * c)) ∧
      (pre (all.map (·.nfa)) i ≤ r → ∀ m l m' l', ∀ (hm : m < all.length) (hm' : m' < all.length),
        l < all[m].nfa → l' < all[m'].nfa → r = pre (all.map (·.nfa)) m + l → c = pre (all.map (·.nfa)) m' + l' →
        (gramRows nf all rest i (pre (all.map (·.nfa)) i) st).1 (r + nf * c) =
          if m = m' then (if l = l' then 1 else st.1 (r + nf * c))
          else Ls m l (fun x k => all[m'].val refTet x l' k)) := by
  intro rest
  induction rest with
  | nil =>
    intro i st hdrop hi r c hr hc
    have hlen : all.length ≤ i := by
      have := List.drop_eq_nil_iff.1 hdrop; exact this
    refine ⟨fun _ => rfl, ?_⟩
    intro h1 m l m' l' hm hm' hl hl' he he'
    exfalso
    have h2 : i = (all.map (·.nfa)).length := by simp; omega
    rw [h2, pre_length] at h1
    omega
  | cons si rest ih =>
    intro i st hdrop hi r c hr hc
    have hilt : i < all.length := by
      by_contra hn
      rw [List.drop_eq_nil_iff.2 (by omega)] at hdrop
      cases hdrop
    have hsi : si = all[i] := by
      have := List.drop_eq_getElem_cons hilt
      rw [hdrop] at this
      exact (List.cons.inj this).1
    have hrest : all.drop (i + 1) = rest := by
      have := List.drop_eq_getElem_cons hilt
      rw [hdrop] at this
      exact (List.cons.inj this).2.symm
    have hpre : pre (all.map (·.nfa)) (i + 1) = pre (all.map (·.nfa)) i + si.nfa := by
      rw [pre_succ _ _ (by simpa using hilt), List.getElem_map, hsi]
    have hle : pre (all.map (·.nfa)) i + si.nfa ≤ nf := by
      rw [← hpre, hnf]; exact pre_le_sum _ _
    obtain ⟨st', hst, hstep1, hstep2, hstep3⟩ : ∃ st' : (Nat → K) × (Nat → Nat → K),
        gramRows nf all (si :: rest) i (pre (all.map (·.nfa)) i) st =
          gramRows nf all rest (i + 1) (pre (all.map (·.nfa)) (i + 1)) st' ∧
        (¬ (pre (all.map (·.nfa)) i ≤ r ∧ r < pre (all.map (·.nfa)) i + si.nfa) → st'.1 (r + nf * c) = st.1 (r + nf * c)) ∧
        (∀ l' , l' < si.nfa → c = pre (all.map (·.nfa)) i + l' → pre (all.map (·.nfa)) i ≤ r →
          r < pre (all.map (·.nfa)) i + si.nfa → st'.1 (r + nf * c) = if r = c then 1 else st.1 (r + nf * c)) ∧
        (∀ m' l', ∀ hm' : m' < all.length, l' < all[m'].nfa → c = pre (all.map (·.nfa)) m' + l' → m' ≠ i →
          pre (all.map (·.nfa)) i ≤ r → r < pre (all.map (·.nfa)) i + si.nfa →
          st'.1 (r + nf * c) = Ls i (r - pre (all.map (·.nfa)) i) (fun x k => all[m'].val refTet x l' k)) := by
      refine ⟨gramRow nf (pre (all.map (·.nfa)) i) i si all 0 0
        (loop 0 si.nfa (fun k B => wr B (k + pre (all.map (·.nfa)) i + nf * (k + pre (all.map (·.nfa)) i)) 1) st.1, st.2), ?_, ?_, ?_, ?_⟩
      · rw [gramRows, hpre]
      all_goals
        have hL : Dofs si refTet (Ls i) := by rw [hsi]; exact hall i hilt
        have hd : ∀ s ∈ all, si.dim = s.dim := fun s hs => by
          rw [hdim s hs, hsi]; exact hdim _ (List.getElem_mem hilt)
        have hh : ∀ (m : Nat) (hm : m < all.length), 0 + m = i → all[m].nfa = si.nfa := by
          intro m hm he
          have : m = i := by omega
          subst this; rw [hsi]
        obtain ⟨g1, g2⟩ := gramRow_at (i := i) hL hle all 0 0
          (loop 0 si.nfa (fun k B => wr B (k + pre (all.map (·.nfa)) i + nf * (k + pre (all.map (·.nfa)) i)) 1) st.1, st.2) hd hh r c hr
      · intro hout
        rw [g2 (Or.inl hout)]
        dsimp only
        rw [diag_at _ _ _ _ hle _ _ hr, if_neg (fun hh => hout hh.2)]
      · intro l' hl' hc' hr1 hr2
        rw [g2 (Or.inr (Or.inr (Or.inr ⟨i, l', hilt, by rw [← hsi]; exact hl', by omega, by omega⟩)))]
        dsimp only
        rw [diag_at _ _ _ _ hle _ _ hr]
        by_cases he : r = c
        · rw [if_pos ⟨he, hr1, hr2⟩, if_pos he]
        · rw [if_neg (fun hh => he hh.1), if_neg he]
      · intro m' l' hm' hl' hc' hne hr1 hr2
        exact g1 m' l' hm' hl' (by omega) (by omega) hr1 hr2
    rw [hst]
    obtain ⟨ih1, ih2⟩ := ih (i + 1) st' hrest hilt r c hr hc
    constructor
    · intro hlt
      rw [ih1 (by omega), hstep1 (by omega)]
    · intro hge m l m' l' hm hm' hl hl' he he'
      by_cases hr2 : r < pre (all.map (·.nfa)) i + si.nfa
      · -- the row belongs to space i
        have hmi : m = i ∧ l = r - pre (all.map (·.nfa)) i := by
          have := place_inj (ns := all.map (·.nfa)) (m := m) (l := l) (m' := i) (l' := r - pre (all.map (·.nfa)) i)
            (by simpa using hm) (by rw [getD_map hm]; exact hl) (by simpa using hilt)
            (by rw [getD_map hilt, ← hsi]; omega) (by omega)
          exact this
        obtain ⟨h1, h2⟩ := hmi
        subst h1
        rw [ih1 (by omega)]
        by_cases hmm : m = m'
        · subst hmm
          rw [if_pos rfl, hstep2 l' (by rw [hsi]; exact hl') he' hge hr2]
          by_cases hll : l = l'
          · rw [if_pos (by omega), if_pos hll]
          · rw [if_neg (by omega), if_neg hll]
        · rw [if_neg hmm, hstep3 m' l' hm' hl' he' (fun h => hmm h.symm) hge hr2, h2]
      · rw [ih2 (by omega) m l m' l' hm hm' hl hl' he he']
        by_cases hmm : m = m'
        · rw [if_pos hmm, if_pos hmm]
          by_cases hll : l = l'
          · rw [if_pos hll, if_pos hll]
          · rw [if_neg hll, if_neg hll, hstep1 (by omega)]
        · rw [if_neg hmm, if_neg hmm]

/-- The matrix computed by the set-up is the matrix of all functionals on all functions on the reference tetrahedron. -/
theorem gramMat_eq {ss : List (Space K)} {Ls : Nat → Nat → Fn K → K} {dim : Nat}
    (h : ∀ m (hm : m < ss.length), Dofs ss[m] refTet (Ls m)) (hdim : ∀ s ∈ ss, s.dim = dim)
    (hdual : ∀ m (hm : m < ss.length), ∀ i, i < ss[m].nfa → ∀ j, j < ss[m].nfa →
      Ls m i (fun x k => ss[m].val refTet x j k) = if i = j then 1 else 0)
    (i j : Nat) (hi : i < (ss.map (·.nfa)).sum) (hj : j < (ss.map (·.nfa)).sum) :
    gramMat ss (i + (ss.map (·.nfa)).sum * j) = allL ss Ls i (fun x k => unionVal ss refTet x j k) := by
  obtain ⟨m, l, hm, hl, he, hc⟩ := space_at (ss := ss) hi
  obtain ⟨m', l', hm', hl', he', hc'⟩ := space_at (ss := ss) hj
  have key := (gramRows_at h hdim rfl ss 0 (fun _ => 0, fun _ _ => 0) (by simp) (Nat.zero_le _) i j hi hj).2
    (by rw [pre_zero]; omega) m l m' l' hm hm' hl hl' he he'
  rw [pre_zero] at key
  unfold gramMat
  rw [key]
  have hv : (fun x k => unionVal ss refTet x j k) = fun x k => ss[m'].val refTet x l' k := by
    funext x k
    unfold unionVal
    rw [hc']
    dsimp only
    rw [List.getElem?_eq_getElem hm']
  rw [hv]
  unfold allL
  rw [hc]
  dsimp only
  by_cases hmm : m = m'
  · subst hmm
    rw [if_pos rfl, hdual m hm l hl l' hl']
  · rw [if_neg hmm]

end Verif.Interp
