import Verif.Props.OpStack4

/-!
Divergence and curl of any space from its gradient.
-/
namespace Verif.OpStack

open Verif.Dense Verif.Elemental

set_option linter.unusedSectionVars false

variable {K : Type} [CommRing K]

section Parts

variable {q f nfa u usz : Nat} {st : St K} {ref : Ref}

/-- the place of a value in a part -/
def src (q : Nat) (st : St K) (ref : Ref) (p l n i r : Nat) : Nat :=
  (st.mtx (ref.data + p)).1 + ((l - st.row (ref.idx + p) + (st.row (ref.idx + (p + 1)) - st.row (ref.idx + p)) * n) +
    (st.mtx (ref.data + p)).2 * ((i - st.col (ref.idx + p)) + (st.col (ref.idx + (p + 1)) - st.col (ref.idx + p)) * r))

theorem src_val {D : Nat} (ok : (st.band ref).Ok q D nfa) {p l n i r : Nat} (hp : p < ref.nparts)
    (h1 : st.col (ref.idx + p) ≤ i) (h2 : i < st.col (ref.idx + (p + 1))) :
    (st.band ref).val q l n i r =
      if st.row (ref.idx + p) ≤ l ∧ l < st.row (ref.idx + (p + 1)) then st.re (src q st ref p l n i r) else 0 := by
  rw [val_eq ok hp h1 h2]
  have : (st.mtx (ref.data + p)).2 = _ := ok.rows p hp
  unfold src
  rw [this]
  rfl

theorem src_apart {D n0 : Nat} (ok : (st.band ref).Ok q D nfa) (hap : Apart q f st ref u n0) {p l n i r : Nat} (hp : p < ref.nparts)
    (h1 : st.col (ref.idx + p) ≤ i) (h2 : i < st.col (ref.idx + (p + 1)))
    (h3 : st.row (ref.idx + p) ≤ l) (h4 : l < st.row (ref.idx + (p + 1))) (hn : n < q) (hr : r < f) :
    src q st ref p l n i r < u ∨ u + n0 ≤ src q st ref p l n i r := by
  unfold src
  refine hap p hp _ ?_
  have h5 : (st.mtx (ref.data + p)).2 = q * (st.row (ref.idx + (p + 1)) - st.row (ref.idx + p)) := ok.rows p hp
  rw [h5]
  have := rad_lt (show l - st.row (ref.idx + p) < st.row (ref.idx + (p + 1)) - st.row (ref.idx + p) by omega) hn
  rw [Nat.mul_comm (st.row (ref.idx + (p + 1)) - st.row (ref.idx + p)) q] at this
  exact rad_lt this (rad_lt (by omega) hr)

theorem col_inj {D : Nat} (ok : (st.band ref).Ok q D nfa) {p p' i : Nat} (hp : p < ref.nparts) (hp' : p' < ref.nparts)
    (h1 : st.col (ref.idx + p) ≤ i) (h2 : i < st.col (ref.idx + (p + 1)))
    (h3 : st.col (ref.idx + p') ≤ i) (h4 : i < st.col (ref.idx + (p' + 1))) : p = p' :=
  part_unique ok.colMono hp hp' h1 h2 h3 h4

/-! ### divergence -/

/-- the innermost loop of `divParts` reading from the fixed memory -/
def divPoint (q nfa u : Nat) (st : St K) (ref : Ref) (p r i n : Nat) (m : Nat → K) : Nat → K :=
  loop 0 3 (fun c m =>
    if st.row (ref.idx + p) ≤ 4 * c ∧ 4 * c < st.row (ref.idx + (p + 1)) then
      wr m (at4 q 1 nfa u 0 n (st.col (ref.idx + p) + i) r)
        (m (at4 q 1 nfa u 0 n (st.col (ref.idx + p) + i) r) + st.re (src q st ref p (4 * c) n (st.col (ref.idx + p) + i) r))
    else m) m

theorem divPoint_off {p r i n : Nat} {m : Nat → K} {x : Nat} (hx : x ≠ at4 q 1 nfa u 0 n (st.col (ref.idx + p) + i) r) :
    divPoint q nfa u st ref p r i n m x = m x := by
  unfold divPoint
  refine loop_off (fun c t _ _ => ?_)
  split
  · exact wr_ne _ _ hx
  · rfl

theorem divPoint_at {p r i n : Nat} {m : Nat → K} :
    divPoint q nfa u st ref p r i n m (at4 q 1 nfa u 0 n (st.col (ref.idx + p) + i) r) =
      m (at4 q 1 nfa u 0 n (st.col (ref.idx + p) + i) r) + ∑ c ∈ Finset.range 3,
        if st.row (ref.idx + p) ≤ 4 * c ∧ 4 * c < st.row (ref.idx + (p + 1)) then
          st.re (src q st ref p (4 * c) n (st.col (ref.idx + p) + i) r) else 0 := by
  unfold divPoint
  refine loop_add_at 3 _ (fun c t _ => ?_)
  split
  · rw [wr_same]
  · rw [add_zero]

theorem divParts_eq (ok : (st.band ref).Ok q 9 nfa) (hap : Apart q f st ref u (q * 1 * (nfa * f))) (m : Nat → K)
    (hm : ∀ x, (x < u ∨ u + q * 1 * (nfa * f) ≤ x) → m x = st.re x) :
    divParts q f nfa u st ref m = nested ref.nparts f q (fun _ => 0)
      (fun p => st.col (ref.idx + (p + 1)) - st.col (ref.idx + p)) (divPoint q nfa u st ref) m := by
  have main : Same (fun t => ∀ x, (x < u ∨ u + q * 1 * (nfa * f) ≤ x) → t x = st.re x)
      (divParts q f nfa u st ref) (nested ref.nparts f q (fun _ => 0)
      (fun p => st.col (ref.idx + (p + 1)) - st.col (ref.idx + p)) (divPoint q nfa u st ref)) := by
    unfold divParts nested divPoint
    refine Same.loop (fun p _ hp => Same.loop (fun r _ hr => Same.loop (fun i _ hi => Same.loop (fun n _ hn =>
      Same.loop (fun c _ hc t ht => ?_)))))
    obtain ⟨f1, f2, f3, f4, f5⟩ := part_facts ok hp
    have hpos := at4_lt (u := u) Nat.one_pos hn (show st.col (ref.idx + p) + i < nfa by omega) hr
    have ha : u + ((0 + n) + q * (st.col (ref.idx + p) + i + nfa * r)) =
        at4 q 1 nfa u 0 n (st.col (ref.idx + p) + i) r := by
      unfold at4
      ring
    rw [ha]
    split
    · rename_i hrow
      have hs := src_apart ok hap (n := n) (r := r) hp (Nat.le_add_right _ i) (by omega) hrow.1 hrow.2 hn hr
      refine ⟨?_, fun x hx => ?_⟩
      · rw [← ht _ hs]
        unfold src
        rw [Nat.add_sub_cancel_left]
      · exact (wr_ne _ _ (by omega)).trans (ht x hx)
    · exact ⟨rfl, ht⟩
  exact (main m hm).1

theorem divParts_at (ok : (st.band ref).Ok q 9 nfa) (hap : Apart q f st ref u (q * 1 * (nfa * f))) (m : Nat → K)
    (hm : ∀ x, (x < u ∨ u + q * 1 * (nfa * f) ≤ x) → m x = st.re x) {n i r : Nat} (hn : n < q) (hi : i < nfa) (hr : r < f)
    (hz : m (at4 q 1 nfa u 0 n i r) = 0) :
    divParts q f nfa u st ref m (at4 q 1 nfa u 0 n i r) = divVals ((st.band ref).val q) 0 n i r := by
  rw [divParts_eq ok hap m hm]
  obtain ⟨p, hp, h1, h2⟩ := part_of ok hi
  change st.col (ref.idx + p) ≤ i at h1
  change i < st.col (ref.idx + (p + 1)) at h2
  change p < ref.nparts at hp
  obtain ⟨t, ht, hv⟩ := nested_at (np := ref.nparts) (f := f) (q := q) (D := 1) (nfa := nfa) (u := u) (lo := fun _ => 0)
    (hi := fun p => st.col (ref.idx + (p + 1)) - st.col (ref.idx + p)) (cf := fun p i => st.col (ref.idx + p) + i)
    (F := divPoint q nfa u st ref)
    (fun p i hp _ hi => by
      have := part_facts ok hp
      omega)
    (fun p i p' i' hp _ hi hp' _ hi' e => by
      have : p = p' := col_inj ok (i := st.col (ref.idx + p) + i) hp hp' (by omega) (by omega) (by omega) (by omega)
      subst this
      exact ⟨rfl, by omega⟩)
    (fun p r i n t x _ _ _ _ _ hx => divPoint_off (hx 0 Nat.one_pos))
    (p := p) (r := r) (i := i - st.col (ref.idx + p)) (n := n) hp hr (Nat.zero_le _) (by omega) hn m
  have hc : st.col (ref.idx + p) + (i - st.col (ref.idx + p)) = i := by omega
  have hv' := hv 0 Nat.one_pos
  have ht' := ht 0 Nat.one_pos
  rw [divPoint_at] at hv'
  rw [hc] at hv' ht'
  rw [hv', ht', hz, zero_add, Finset.sum_range_succ, Finset.sum_range_succ, Finset.sum_range_one]
  unfold divVals
  rw [src_val ok hp h1 h2, src_val ok hp h1 h2, src_val ok hp h1 h2]

theorem divParts_off (ok : (st.band ref).Ok q 9 nfa) (hap : Apart q f st ref u (q * 1 * (nfa * f))) (m : Nat → K)
    (hm : ∀ x, (x < u ∨ u + q * 1 * (nfa * f) ≤ x) → m x = st.re x) {x : Nat} (hx : x < u ∨ u + q * 1 * (nfa * f) ≤ x) :
    divParts q f nfa u st ref m x = m x := by
  rw [divParts_eq ok hap m hm]
  refine nested_off (D := 1) (nfa := nfa) (u := u) (cf := fun p i => st.col (ref.idx + p) + i)
    (fun p r i n t x _ _ _ _ _ hx => divPoint_off (hx 0 Nat.one_pos)) ?_
  intro p r i n l hp hr _ hi hn hl
  obtain ⟨f1, f2, f3, f4, f5⟩ := part_facts ok hp
  have := at4_lt (u := u) hl hn (show st.col (ref.idx + p) + i < nfa by omega) hr
  omega

/-! ### curl -/

/-- the innermost loop of `curlParts` reading from the fixed memory -/
def curlPointP (q nfa u : Nat) (st : St K) (ref : Ref) (p r i n : Nat) (m : Nat → K) : Nat → K :=
  loop 0 3 (fun k m =>
    let m := if st.row (ref.idx + p) ≤ dlookup (2 * k) ∧ dlookup (2 * k) < st.row (ref.idx + (p + 1)) then
        wr m (at4 q 3 nfa u k n i r) (m (at4 q 3 nfa u k n i r) + st.re (src q st ref p (dlookup (2 * k)) n i r)) else m
    if st.row (ref.idx + p) ≤ dlookup (2 * k + 1) ∧ dlookup (2 * k + 1) < st.row (ref.idx + (p + 1)) then
      wr m (at4 q 3 nfa u k n i r) (m (at4 q 3 nfa u k n i r) - st.re (src q st ref p (dlookup (2 * k + 1)) n i r)) else m) m

theorem curlPointP_off {p r i n : Nat} {m : Nat → K} {x : Nat} (hx : ∀ l, l < 3 → x ≠ at4 q 3 nfa u l n i r) :
    curlPointP q nfa u st ref p r i n m x = m x := by
  unfold curlPointP
  refine loop_off (fun k t _ hk => ?_)
  have h1 : ∀ (t : Nat → K) (c : Prop) [Decidable c] (y : K), (if c then wr t (at4 q 3 nfa u k n i r) y else t) x = t x := by
    intro t c _ y
    split
    · exact wr_ne _ _ (hx k hk)
    · rfl
  rw [h1, h1]

theorem curlPointP_at {p r i n k : Nat} {m : Nat → K} (hk : k < 3) (hn : n < q) (hi : i < nfa) :
    curlPointP q nfa u st ref p r i n m (at4 q 3 nfa u k n i r) = m (at4 q 3 nfa u k n i r) +
      (if st.row (ref.idx + p) ≤ dlookup (2 * k) ∧ dlookup (2 * k) < st.row (ref.idx + (p + 1)) then
        st.re (src q st ref p (dlookup (2 * k)) n i r) else 0) -
      (if st.row (ref.idx + p) ≤ dlookup (2 * k + 1) ∧ dlookup (2 * k + 1) < st.row (ref.idx + (p + 1)) then
        st.re (src q st ref p (dlookup (2 * k + 1)) n i r) else 0) := by
  unfold curlPointP
  refine loop_at (fun y => y + (if st.row (ref.idx + p) ≤ dlookup (2 * k) ∧ dlookup (2 * k) < st.row (ref.idx + (p + 1)) then
        st.re (src q st ref p (dlookup (2 * k)) n i r) else 0) -
      (if st.row (ref.idx + p) ≤ dlookup (2 * k + 1) ∧ dlookup (2 * k + 1) < st.row (ref.idx + (p + 1)) then
        st.re (src q st ref p (dlookup (2 * k + 1)) n i r) else 0)) (Nat.zero_le _) hk (fun t => ?_) (fun j t _ hj hne => ?_)
  · skip
    by_cases c1 : st.row (ref.idx + p) ≤ dlookup (2 * k) ∧ dlookup (2 * k) < st.row (ref.idx + (p + 1)) <;>
      by_cases c2 : st.row (ref.idx + p) ≤ dlookup (2 * k + 1) ∧ dlookup (2 * k + 1) < st.row (ref.idx + (p + 1))
    · simp only [if_pos c1, if_pos c2, wr_same]
    · simp only [if_pos c1, if_neg c2, wr_same, sub_zero]
    · simp only [if_neg c1, if_pos c2, wr_same, add_zero]
    · simp only [if_neg c1, if_neg c2, sub_zero, add_zero]
  · have h1 : ∀ (t : Nat → K) (c : Prop) [Decidable c] (y : K),
        (if c then wr t (at4 q 3 nfa u j n i r) y else t) (at4 q 3 nfa u k n i r) = t (at4 q 3 nfa u k n i r) := by
      intro t c _ y
      split
      · exact wr_ne _ _ (fun e => hne (at4_inj hk hj hn hn hi hi e).1.symm)
      · rfl
    rw [h1, h1]

theorem loop_id {S : Type} {a b : Nat} {g : Nat → S → S} (s : S) (h : ∀ i t, a ≤ i → i < b → g i t = t) : loop a b g s = s := by
  rcases Nat.le_total a b with hab | hab
  · exact loop_ind (P := fun _ t => t = s) hab rfl (fun i t h1 h2 ht => by rw [h i t h1 h2, ht])
  · exact loop_empty hab g s

theorem curlParts_eq (ok : (st.band ref).Ok q 9 nfa) (hap : Apart q f st ref u (q * 3 * (nfa * f))) (m : Nat → K)
    (hm : ∀ x, (x < u ∨ u + q * 3 * (nfa * f) ≤ x) → m x = st.re x) :
    curlParts q f nfa u st ref m = nested ref.nparts f q (fun p => st.col (ref.idx + p))
      (fun p => st.col (ref.idx + (p + 1))) (curlPointP q nfa u st ref) m := by
  have main : Same (fun t => ∀ x, (x < u ∨ u + q * 3 * (nfa * f) ≤ x) → t x = st.re x)
      (curlParts q f nfa u st ref) (nested ref.nparts f q (fun p => st.col (ref.idx + p))
      (fun p => st.col (ref.idx + (p + 1))) (curlPointP q nfa u st ref)) := by
    unfold curlParts nested
    refine Same.loop (fun p _ hp => ?_)
    dsimp only
    by_cases hcond : st.row (ref.idx + (p + 1)) - st.row (ref.idx + p) > 1 ∨
        (st.row (ref.idx + p) ≠ 0 ∧ st.row (ref.idx + p) ≠ 4 ∧ st.row (ref.idx + p) ≠ 8)
    · simp only [if_pos hcond]
      unfold curlPointP
      refine Same.loop (fun r _ hr => Same.loop (fun i hi1 hi2 => Same.loop (fun n _ hn =>
        Same.loop (fun k _ hk t ht => ?_))))
      obtain ⟨f1, f2, f3, f4, f5⟩ := part_facts ok hp
      have hpos := at4_lt (u := u) hk hn (show i < nfa by omega) hr
      have ha : u + ((k + 3 * n) + q * 3 * (i + nfa * r)) = at4 q 3 nfa u k n i r := rfl
      dsimp only
      rw [ha]
      have step : ∀ (t : Nat → K) (l : Nat), (∀ x, (x < u ∨ u + q * 3 * (nfa * f) ≤ x) → t x = st.re x) →
          st.row (ref.idx + p) ≤ l ∧ l < st.row (ref.idx + (p + 1)) →
          t ((st.mtx (ref.data + p)).1 + ((l - st.row (ref.idx + p) +
            (st.row (ref.idx + (p + 1)) - st.row (ref.idx + p)) * n) + (st.mtx (ref.data + p)).2 *
            ((i - st.col (ref.idx + p)) + (st.col (ref.idx + (p + 1)) - st.col (ref.idx + p)) * r))) =
          st.re (src q st ref p l n i r) := by
        intro t l ht hl
        exact ht _ (src_apart ok hap hp hi1 hi2 hl.1 hl.2 hn hr)
      have keep : ∀ (t : Nat → K) (c : Prop) [Decidable c] (y : K),
          (∀ x, (x < u ∨ u + q * 3 * (nfa * f) ≤ x) → t x = st.re x) →
          ∀ x, (x < u ∨ u + q * 3 * (nfa * f) ≤ x) → (if c then wr t (at4 q 3 nfa u k n i r) y else t) x = st.re x := by
        intro t c _ y ht x hx
        split
        · exact (wr_ne _ _ (by omega)).trans (ht x hx)
        · exact ht x hx
      have e1 : (if st.row (ref.idx + p) ≤ dlookup (2 * k) ∧ dlookup (2 * k) < st.row (ref.idx + (p + 1)) then
          wr t (at4 q 3 nfa u k n i r) (t (at4 q 3 nfa u k n i r) + t ((st.mtx (ref.data + p)).1 +
            ((dlookup (2 * k) - st.row (ref.idx + p) + (st.row (ref.idx + (p + 1)) - st.row (ref.idx + p)) * n) +
            (st.mtx (ref.data + p)).2 *
            ((i - st.col (ref.idx + p)) + (st.col (ref.idx + (p + 1)) - st.col (ref.idx + p)) * r)))) else t) =
          (if st.row (ref.idx + p) ≤ dlookup (2 * k) ∧ dlookup (2 * k) < st.row (ref.idx + (p + 1)) then
          wr t (at4 q 3 nfa u k n i r) (t (at4 q 3 nfa u k n i r) + st.re (src q st ref p (dlookup (2 * k)) n i r)) else t) := by
        split
        · rename_i hl
          rw [step t _ ht hl]
        · rfl
      rw [e1]
      have ht1 := keep t (st.row (ref.idx + p) ≤ dlookup (2 * k) ∧ dlookup (2 * k) < st.row (ref.idx + (p + 1)))
        (t (at4 q 3 nfa u k n i r) + st.re (src q st ref p (dlookup (2 * k)) n i r)) ht
      generalize (if st.row (ref.idx + p) ≤ dlookup (2 * k) ∧ dlookup (2 * k) < st.row (ref.idx + (p + 1)) then
          wr t (at4 q 3 nfa u k n i r) (t (at4 q 3 nfa u k n i r) + st.re (src q st ref p (dlookup (2 * k)) n i r)) else t) = t1
        at ht1 ⊢
      refine ⟨?_, keep t1 _ _ ht1⟩
      split
      · rename_i hl
        rw [step t1 _ ht1 hl]
      · rfl
    · simp only [if_neg hcond]
      have hno : ∀ k, k < 3 → ¬ (st.row (ref.idx + p) ≤ dlookup (2 * k) ∧ dlookup (2 * k) < st.row (ref.idx + (p + 1))) ∧
          ¬ (st.row (ref.idx + p) ≤ dlookup (2 * k + 1) ∧ dlookup (2 * k + 1) < st.row (ref.idx + (p + 1))) := by
        intro k hk
        obtain rfl | rfl | rfl : k = 0 ∨ k = 1 ∨ k = 2 := by omega
        all_goals
          simp only [dlookup]
          omega
      intro t ht
      have : loop 0 f (fun r m => loop (st.col (ref.idx + p)) (st.col (ref.idx + (p + 1))) (fun i m =>
          loop 0 q (fun n m => curlPointP q nfa u st ref p r i n m) m) m) t = t := by
        refine loop_id _ (fun r t _ _ => loop_id _ (fun i t _ _ => loop_id _ (fun n t _ _ => ?_)))
        unfold curlPointP
        refine loop_id _ (fun k t _ hk => ?_)
        dsimp only
        rw [if_neg (hno k hk).1, if_neg (hno k hk).2]
      refine ⟨this.symm, ?_⟩
      show ∀ x, (x < u ∨ u + q * 3 * (nfa * f) ≤ x) → loop 0 f _ t x = st.re x
      rw [this]
      exact ht
  exact (main m hm).1

theorem curlParts_at (ok : (st.band ref).Ok q 9 nfa) (hap : Apart q f st ref u (q * 3 * (nfa * f))) (m : Nat → K)
    (hm : ∀ x, (x < u ∨ u + q * 3 * (nfa * f) ≤ x) → m x = st.re x) {k n i r : Nat} (hk : k < 3) (hn : n < q) (hi : i < nfa)
    (hr : r < f) (hz : m (at4 q 3 nfa u k n i r) = 0) :
    curlParts q f nfa u st ref m (at4 q 3 nfa u k n i r) = curlVals ((st.band ref).val q) k n i r := by
  rw [curlParts_eq ok hap m hm]
  obtain ⟨p, hp, h1, h2⟩ := part_of ok hi
  change st.col (ref.idx + p) ≤ i at h1
  change i < st.col (ref.idx + (p + 1)) at h2
  change p < ref.nparts at hp
  obtain ⟨t, ht, hv⟩ := nested_at (np := ref.nparts) (f := f) (q := q) (D := 3) (nfa := nfa) (u := u)
    (lo := fun p => st.col (ref.idx + p)) (hi := fun p => st.col (ref.idx + (p + 1))) (cf := fun _ i => i)
    (F := curlPointP q nfa u st ref)
    (fun p i hp _ hi => by
      have := part_facts ok hp
      omega)
    (fun p i p' i' hp a1 a2 hp' b1 b2 e => by
      subst e
      exact ⟨col_inj ok hp hp' a1 a2 b1 b2, rfl⟩)
    (fun p r i n t x _ _ _ _ _ hx => curlPointP_off hx)
    (p := p) (r := r) (i := i) (n := n) hp hr h1 h2 hn m
  rw [hv k hk, curlPointP_at hk hn hi, ht k hk, hz, zero_add, ← src_val ok hp h1 h2, ← src_val ok hp h1 h2]
  obtain rfl | rfl | rfl : k = 0 ∨ k = 1 ∨ k = 2 := by omega
  all_goals rfl

theorem curlParts_off (ok : (st.band ref).Ok q 9 nfa) (hap : Apart q f st ref u (q * 3 * (nfa * f))) (m : Nat → K)
    (hm : ∀ x, (x < u ∨ u + q * 3 * (nfa * f) ≤ x) → m x = st.re x) {x : Nat} (hx : x < u ∨ u + q * 3 * (nfa * f) ≤ x) :
    curlParts q f nfa u st ref m x = m x := by
  rw [curlParts_eq ok hap m hm]
  refine nested_off (D := 3) (nfa := nfa) (u := u) (cf := fun _ i => i)
    (fun p r i n t x _ _ _ _ _ hx => curlPointP_off hx) ?_
  intro p r i n l hp hr _ hi hn hl
  obtain ⟨f1, f2, f3, f4, f5⟩ := part_facts ok hp
  have := at4_lt (u := u) hl hn (show i < nfa by omega) hr
  omega

end Parts

/-- the memory after the gradient lies outside of the target -/
theorem apart_of {q f gdim gnfa parts u n0 ex es gusz : Nat} {gv : Vals K} {st st' : St K} {ref : Ref}
    (g : Good q f gdim gnfa parts (ex + (es - gusz)) gusz ex (es - gusz) gv st st' ref) (hes : gusz ≤ es)
    (hdis : u + n0 ≤ ex ∨ ex + es ≤ u) : Apart q f st' ref u n0 := by
  intro d hd o ho
  have := g.inU d hd
  rw [← g.data] at this
  omega

/-- C46: the curl of any space of vector functions, of products in particular, from its gradient. -/
theorem baseCurl_correct {q f : Nat} {g : Op K} {v : Vals K} (h : Correct q f g v) (hdim : g.dim = 9) :
    Correct q f (baseCurl q f g) (curlVals v) := by
  intro st u ex es hes hdis
  change g.exr + g.usz ≤ es at hes
  change u + 3 * q * f * g.nfa ≤ ex ∨ ex + es ≤ u at hdis
  have hsz : q * 3 * (g.nfa * f) = 3 * q * f * g.nfa := by ring
  have hsz' : q * 3 * (f * g.nfa) = 3 * q * f * g.nfa := by ring
  obtain ⟨st', ref, happ, gd⟩ := h st (ex + (es - g.usz)) ex (es - g.usz) (by omega) (by omega)
  have ok := gd.ok
  rw [hdim] at ok
  have hap : Apart q f st' ref u (q * 3 * (g.nfa * f)) := apart_of gd (by omega) (by rw [hsz]; exact hdis)
  have hm : ∀ x, (x < u ∨ u + q * 3 * (g.nfa * f) ≤ x) → setZero u (q * 3 * (f * g.nfa)) st'.re x = st'.re x :=
    fun x hx => setZero_off (by rw [hsz', ← hsz]; exact hx) _
  have happly : (baseCurl q f g).apply u ex es st = some (replaceTop u (q * 3) 3 g.nfa st.busy { st' with
      re := curlParts q f g.nfa u st' ref (setZero u (q * 3 * (f * g.nfa)) st'.re) } ref) := by
    dsimp only [baseCurl]
    rw [if_neg (by omega), happ]
  refine ⟨_, _, happly, top_good (dim := 3) (nfa := g.nfa) (v := curlVals v) gd (by omega) _ (Nat.le_of_eq hsz) rfl ?_ ?_⟩
  · intro k n i r hk hn hi hr
    have hpos := at4_lt (u := u) hk hn hi hr
    rw [hsz] at hpos
    rw [curlParts_at ok hap _ hm hk hn hi hr (setZero_at hpos.1 (by rw [hsz']; exact hpos.2) _)]
    have hval : ∀ l, l < 9 → (st'.band ref).val q l n i r = v l n i r :=
      fun l hl => gd.val l (by omega) n hn i hi r hr
    obtain rfl | rfl | rfl : k = 0 ∨ k = 1 ∨ k = 2 := by omega
    all_goals
      simp only [curlVals]
      rw [hval _ (by decide), hval _ (by decide)]
  · intro p hp
    change p < u ∨ u + 3 * q * f * g.nfa ≤ p at hp
    rw [← hsz] at hp
    rw [curlParts_off ok hap _ hm hp, hm p hp]

/-- C46, partial: the default divergence leaves the right numbers at `U` and a stack which would be right if the rows of the
result ended at 1.  Missing: the rows end at 3 (`baseDiv_rows_wrong`). -/
theorem baseDiv_partial {q f : Nat} {g : Op K} {v : Vals K} (h : Correct q f g v) (hdim : g.dim = 9) (st : St K) (u ex es : Nat)
    (hes : (baseDiv q f g).exr ≤ es) (hdis : u + (baseDiv q f g).usz ≤ ex ∨ ex + es ≤ u) :
    ∃ st' ref, (baseDiv q f g).apply u ex es st = some (st', ref) ∧ st'.row (ref.idx + 1) = 3 ∧
      Good q f 1 g.nfa g.parts u (baseDiv q f g).usz ex es (divVals v) st
        { st' with row := wr st'.row (ref.idx + 1) 1 } ref := by
  change g.exr + g.usz ≤ es at hes
  change u + 1 * q * f * g.nfa ≤ ex ∨ ex + es ≤ u at hdis
  have hsz : q * 1 * (g.nfa * f) = 1 * q * f * g.nfa := by ring
  have hsz' : q * 1 * (f * g.nfa) = 1 * q * f * g.nfa := by ring
  obtain ⟨st', ref, happ, gd⟩ := h st (ex + (es - g.usz)) ex (es - g.usz) (by omega) (by omega)
  have ok := gd.ok
  rw [hdim] at ok
  have hap : Apart q f st' ref u (q * 1 * (g.nfa * f)) := apart_of gd (by omega) (by rw [hsz]; exact hdis)
  have hm : ∀ x, (x < u ∨ u + q * 1 * (g.nfa * f) ≤ x) → setZero u (q * 1 * (f * g.nfa)) st'.re x = st'.re x :=
    fun x hx => setZero_off (by rw [hsz', ← hsz]; exact hx) _
  have happly : (baseDiv q f g).apply u ex es st = some (replaceTop u (q * 1) 3 g.nfa st.busy { st' with
      re := divParts q f g.nfa u st' ref (setZero u (q * 1 * (f * g.nfa)) st'.re) } ref) := by
    dsimp only [baseDiv]
    rw [if_neg (by omega), happ]
  have hgood := top_good (dim := 1) (nfa := g.nfa) (u := u) (usz := 1 * q * f * g.nfa) (v := divVals v) gd (by omega)
    (divParts q f g.nfa u st' ref (setZero u (q * 1 * (f * g.nfa)) st'.re)) (Nat.le_of_eq hsz) (rfl : q * 1 = q * 1)
    (by
      intro l n i r hl hn hi hr
      obtain rfl : l = 0 := by omega
      have hpos := at4_lt (u := u) hl hn hi hr
      rw [hsz] at hpos
      rw [divParts_at ok hap _ hm hn hi hr (setZero_at hpos.1 (by rw [hsz']; exact hpos.2) _)]
      have hval : ∀ l, l < 9 → (st'.band ref).val q l n i r = v l n i r :=
        fun l hl => gd.val l (by omega) n hn i hi r hr
      unfold divVals
      rw [hval _ (by decide), hval _ (by decide), hval _ (by decide)])
    (by
      intro p hp
      rw [← hsz] at hp
      rw [divParts_off ok hap _ hm hp, hm p hp])
  refine ⟨_, _, happly, wr_same _ _ _, ?_⟩
  have e : wr (wr st'.row (ref.idx + 1) 3) (ref.idx + 1) 1 = wr st'.row (ref.idx + 1) 1 := by
    unfold wr
    exact Function.update_idem ..
  dsimp only
  rw [e]
  exact hgood

/-- C46: the default divergence of `BaseFemSpace` is not right for any space: the rows of its result end at 3, the dimension of
a divergence is 1. -/
theorem baseDiv_rows_wrong {q f : Nat} {g : Op K} {v : Vals K} (h : Correct q f g v) (hdim : g.dim = 9) (w : Vals K) :
    ¬ Correct q f (baseDiv q f g) w := by
  intro hc
  have st : St K := ⟨fun _ => 0, fun _ => (0, 0), fun _ => 0, fun _ => 0, 0⟩
  obtain ⟨st1, ref1, e1, hrow, g1⟩ := baseDiv_partial h hdim st 0 (baseDiv q f g).usz (baseDiv q f g).exr (Nat.le_refl _)
    (Or.inl (by omega))
  obtain ⟨st2, ref2, e2, g2⟩ := hc st 0 (baseDiv q f g).usz (baseDiv q f g).exr (Nat.le_refl _) (Or.inl (by omega))
  rw [e1] at e2
  cases e2
  have hp := g1.pos
  have h1 : st1.row (ref1.idx + ref1.nparts) = 1 := g2.ok.rowN
  by_cases hn : ref1.nparts = 1
  · rw [hn, hrow] at h1
    omega
  · have m := st_mono g2.ok.rowMono (show 1 ≤ (st1.band ref1).nparts from hp) (Nat.le_refl _)
    change st1.row (ref1.idx + 1) ≤ st1.row (ref1.idx + ref1.nparts) at m
    rw [h1, hrow] at m
    omega

end Verif.OpStack
