import Verif.Props.OpStack5

/-!
Divergence of products of scalar spaces and of a scalar space and a space of two components.
-/
namespace Verif.OpStack

open Verif.Dense Verif.Elemental

set_option linter.unusedSectionVars false

variable {K : Type} [CommRing K]

section Parts

variable {q f nfa lnfa D u sh ds : Nat} {st : St K} {ref : Ref}

/-- the innermost body of `gradAdd` reading from the fixed memory -/
def gradPoint (q nfa u sh ds : Nat) (st : St K) (ref : Ref) (p r i n : Nat) (m : Nat → K) : Nat → K :=
  let m := if st.row (ref.idx + p) ≤ ds ∧ ds < st.row (ref.idx + (p + 1)) then
      wr m (at4 q 1 nfa u 0 n (sh + i) r) (m (at4 q 1 nfa u 0 n (sh + i) r) + st.re (src q st ref p ds n i r)) else m
  if st.row (ref.idx + p) ≤ ds + 4 ∧ ds + 4 < st.row (ref.idx + (p + 1)) then
    wr m (at4 q 1 nfa u 0 n (sh + i) r) (m (at4 q 1 nfa u 0 n (sh + i) r) + st.re (src q st ref p (ds + 4) n i r)) else m

theorem gradPoint_off {p r i n : Nat} {m : Nat → K} {x : Nat} (hx : x ≠ at4 q 1 nfa u 0 n (sh + i) r) :
    gradPoint q nfa u sh ds st ref p r i n m x = m x := by
  have h1 : ∀ (t : Nat → K) (c : Prop) [Decidable c] (y : K), (if c then wr t (at4 q 1 nfa u 0 n (sh + i) r) y else t) x = t x := by
    intro t c _ y
    split
    · exact wr_ne _ _ hx
    · rfl
  unfold gradPoint
  rw [h1, h1]

theorem gradPoint_at {p r i n : Nat} {m : Nat → K} :
    gradPoint q nfa u sh ds st ref p r i n m (at4 q 1 nfa u 0 n (sh + i) r) = m (at4 q 1 nfa u 0 n (sh + i) r) +
      (if st.row (ref.idx + p) ≤ ds ∧ ds < st.row (ref.idx + (p + 1)) then st.re (src q st ref p ds n i r) else 0) +
      (if st.row (ref.idx + p) ≤ ds + 4 ∧ ds + 4 < st.row (ref.idx + (p + 1)) then
        st.re (src q st ref p (ds + 4) n i r) else 0) := by
  unfold gradPoint
  by_cases c1 : st.row (ref.idx + p) ≤ ds ∧ ds < st.row (ref.idx + (p + 1)) <;>
    by_cases c2 : st.row (ref.idx + p) ≤ ds + 4 ∧ ds + 4 < st.row (ref.idx + (p + 1))
  · simp only [if_pos c1, if_pos c2, wr_same]
  · simp only [if_pos c1, if_neg c2, wr_same, add_zero]
  · simp only [if_neg c1, if_pos c2, wr_same, add_zero]
  · simp only [if_neg c1, if_neg c2, add_zero]

theorem gradAdd_eq (ok : (st.band ref).Ok q D lnfa) (hsh : sh + lnfa ≤ nfa)
    (hap : Apart q f st ref u (q * 1 * (nfa * f))) :
    gradAdd q f nfa u sh ds st ref st.re = nested ref.nparts f q (fun p => st.col (ref.idx + p))
      (fun p => st.col (ref.idx + (p + 1))) (gradPoint q nfa u sh ds st ref) st.re := by
  have main : Same (fun t => ∀ x, (x < u ∨ u + q * 1 * (nfa * f) ≤ x) → t x = st.re x)
      (gradAdd q f nfa u sh ds st ref) (nested ref.nparts f q (fun p => st.col (ref.idx + p))
      (fun p => st.col (ref.idx + (p + 1))) (gradPoint q nfa u sh ds st ref)) := by
    unfold gradAdd nested gradPoint
    refine Same.loop (fun p _ hp => Same.loop (fun r _ hr => Same.loop (fun i hi1 hi2 => Same.loop (fun n _ hn t ht => ?_))))
    obtain ⟨f1, f2, f3, f4, f5⟩ := part_facts ok hp
    have hpos := at4_lt (u := u) Nat.one_pos hn (show sh + i < nfa by omega) hr
    have ha : u + (n + q * (sh + i + nfa * r)) = at4 q 1 nfa u 0 n (sh + i) r := by
      unfold at4
      ring
    have step : ∀ (t : Nat → K) (l : Nat), (∀ x, (x < u ∨ u + q * 1 * (nfa * f) ≤ x) → t x = st.re x) →
        st.row (ref.idx + p) ≤ l ∧ l < st.row (ref.idx + (p + 1)) →
        t ((st.mtx (ref.data + p)).1 + ((l - st.row (ref.idx + p) +
          (st.row (ref.idx + (p + 1)) - st.row (ref.idx + p)) * n) + (st.mtx (ref.data + p)).2 *
          ((i - st.col (ref.idx + p)) + (st.col (ref.idx + (p + 1)) - st.col (ref.idx + p)) * r))) =
        st.re (src q st ref p l n i r) := by
      intro t l ht hl
      exact ht _ (src_apart ok hap hp hi1 hi2 hl.1 hl.2 hn hr)
    have keep : ∀ (t : Nat → K) (c : Prop) [Decidable c] (y : K),
        (∀ x, (x < u ∨ u + q * 1 * (nfa * f) ≤ x) → t x = st.re x) →
        ∀ x, (x < u ∨ u + q * 1 * (nfa * f) ≤ x) → (if c then wr t (at4 q 1 nfa u 0 n (sh + i) r) y else t) x = st.re x := by
      intro t c _ y ht x hx
      split
      · exact (wr_ne _ _ (by omega)).trans (ht x hx)
      · exact ht x hx
    dsimp only
    rw [ha]
    have e1 : (if st.row (ref.idx + p) ≤ ds ∧ ds < st.row (ref.idx + (p + 1)) then
        wr t (at4 q 1 nfa u 0 n (sh + i) r) (t (at4 q 1 nfa u 0 n (sh + i) r) + t ((st.mtx (ref.data + p)).1 +
          ((ds - st.row (ref.idx + p) + (st.row (ref.idx + (p + 1)) - st.row (ref.idx + p)) * n) +
          (st.mtx (ref.data + p)).2 *
          ((i - st.col (ref.idx + p)) + (st.col (ref.idx + (p + 1)) - st.col (ref.idx + p)) * r)))) else t) =
        (if st.row (ref.idx + p) ≤ ds ∧ ds < st.row (ref.idx + (p + 1)) then
        wr t (at4 q 1 nfa u 0 n (sh + i) r) (t (at4 q 1 nfa u 0 n (sh + i) r) + st.re (src q st ref p ds n i r)) else t) := by
      split
      · rename_i hl
        rw [step t _ ht hl]
      · rfl
    rw [e1]
    have ht1 := keep t (st.row (ref.idx + p) ≤ ds ∧ ds < st.row (ref.idx + (p + 1)))
      (t (at4 q 1 nfa u 0 n (sh + i) r) + st.re (src q st ref p ds n i r)) ht
    generalize (if st.row (ref.idx + p) ≤ ds ∧ ds < st.row (ref.idx + (p + 1)) then
        wr t (at4 q 1 nfa u 0 n (sh + i) r) (t (at4 q 1 nfa u 0 n (sh + i) r) + st.re (src q st ref p ds n i r)) else t) = t1
      at ht1 ⊢
    refine ⟨?_, keep t1 _ _ ht1⟩
    split
    · rename_i hl
      rw [step t1 _ ht1 hl]
    · rfl
  exact (main st.re (fun _ _ => rfl)).1

theorem gradAdd_at (ok : (st.band ref).Ok q D lnfa) (hsh : sh + lnfa ≤ nfa) (hap : Apart q f st ref u (q * 1 * (nfa * f)))
    {n i r : Nat} (hn : n < q) (hi : i < lnfa) (hr : r < f) (hz : st.re (at4 q 1 nfa u 0 n (sh + i) r) = 0) :
    gradAdd q f nfa u sh ds st ref st.re (at4 q 1 nfa u 0 n (sh + i) r) =
      (st.band ref).val q ds n i r + (st.band ref).val q (ds + 4) n i r := by
  rw [gradAdd_eq ok hsh hap]
  obtain ⟨p, hp, h1, h2⟩ := part_of ok hi
  change st.col (ref.idx + p) ≤ i at h1
  change i < st.col (ref.idx + (p + 1)) at h2
  change p < ref.nparts at hp
  obtain ⟨t, ht, hv⟩ := nested_at (np := ref.nparts) (f := f) (q := q) (D := 1) (nfa := nfa) (u := u)
    (lo := fun p => st.col (ref.idx + p)) (hi := fun p => st.col (ref.idx + (p + 1))) (cf := fun _ i => sh + i)
    (F := gradPoint q nfa u sh ds st ref)
    (fun p i hp _ hi => by
      have := part_facts ok hp
      omega)
    (fun p i p' i' hp a1 a2 hp' b1 b2 e => by
      obtain rfl : i = i' := by omega
      exact ⟨col_inj ok hp hp' a1 a2 b1 b2, rfl⟩)
    (fun p r i n t x _ _ _ _ _ hx => gradPoint_off (hx 0 Nat.one_pos))
    (p := p) (r := r) (i := i) (n := n) hp hr h1 h2 hn st.re
  rw [hv 0 Nat.one_pos, gradPoint_at, ht 0 Nat.one_pos, hz, zero_add, ← src_val ok hp h1 h2, ← src_val ok hp h1 h2]

theorem gradAdd_off (ok : (st.band ref).Ok q D lnfa) (hsh : sh + lnfa ≤ nfa) (hap : Apart q f st ref u (q * 1 * (nfa * f)))
    {x : Nat} (hx : ∀ n c r, n < q → sh ≤ c → c < sh + lnfa → r < f → x ≠ at4 q 1 nfa u 0 n c r) :
    gradAdd q f nfa u sh ds st ref st.re x = st.re x := by
  rw [gradAdd_eq ok hsh hap]
  refine nested_off (D := 1) (nfa := nfa) (u := u) (cf := fun _ i => sh + i)
    (fun p r i n t x _ _ _ _ _ hx => gradPoint_off (hx 0 Nat.one_pos)) ?_
  intro p r i n l hp hr _ hi hn hl
  obtain rfl : l = 0 := by omega
  have := part_facts ok hp
  exact hx n (sh + i) r hn (by omega) (by omega) hr

/-- `copyRow` reading from the fixed memory -/
theorem copyRow_eq {d : Nat × Nat} {m : Nat → K} (hd : d.2 = q * 1) (hsh : sh + lnfa ≤ nfa)
    (hap : ∀ o, o < q * 1 * (lnfa * f) → d.1 + o < u ∨ u + q * 1 * (nfa * f) ≤ d.1 + o) :
    copyRow q f nfa lnfa u sh d m = nested 1 f q (fun _ => 0) (fun _ => lnfa) (fun _ r i n t =>
      wr t (at4 q 1 nfa u 0 n (sh + i) r) (m (d.1 + (n + q * (i + lnfa * r))))) m := by
  have main : Same (fun t => ∀ x, (x < u ∨ u + q * 1 * (nfa * f) ≤ x) → t x = m x)
      (copyRow q f nfa lnfa u sh d) (nested 1 f q (fun _ => 0) (fun _ => lnfa) (fun _ r i n t =>
      wr t (at4 q 1 nfa u 0 n (sh + i) r) (m (d.1 + (n + q * (i + lnfa * r)))))) := by
    unfold nested
    rw [show (fun m' => loop 0 1 (fun p m' => loop 0 f (fun r m' => loop 0 lnfa (fun i m' => loop 0 q (fun n m' =>
        wr m' (at4 q 1 nfa u 0 n (sh + i) r) (m (d.1 + (n + q * (i + lnfa * r))))) m') m') m') m') =
      (fun m' => loop 0 f (fun r m' => loop 0 lnfa (fun i m' => loop 0 q (fun n m' =>
        wr m' (at4 q 1 nfa u 0 n (sh + i) r) (m (d.1 + (n + q * (i + lnfa * r))))) m') m') m') from rfl]
    unfold copyRow
    refine Same.loop (fun r _ hr => Same.loop (fun i _ hi => Same.loop (fun n _ hn t ht => ?_)))
    have hpos := at4_lt (u := u) Nat.one_pos hn (show sh + i < nfa by omega) hr
    have ha : u + (n + q * (sh + i + nfa * r)) = at4 q 1 nfa u 0 n (sh + i) r := by
      unfold at4
      ring
    rw [ha, show d.2 = q by rw [hd, Nat.mul_one]]
    refine ⟨?_, fun x hx => ?_⟩
    · rw [ht _ (hap _ ?_)]
      rw [Nat.mul_one]
      exact rad_lt hn (rad_lt hi hr)
    · exact (wr_ne _ _ (by omega)).trans (ht x hx)
  exact (main m (fun _ _ => rfl)).1

theorem copyRow_at {d : Nat × Nat} {m : Nat → K} (hd : d.2 = q * 1) (hsh : sh + lnfa ≤ nfa)
    (hap : ∀ o, o < q * 1 * (lnfa * f) → d.1 + o < u ∨ u + q * 1 * (nfa * f) ≤ d.1 + o)
    {n i r : Nat} (hn : n < q) (hi : i < lnfa) (hr : r < f) :
    copyRow q f nfa lnfa u sh d m (at4 q 1 nfa u 0 n (sh + i) r) = m (d.1 + (n + q * (i + lnfa * r))) := by
  rw [copyRow_eq hd hsh hap]
  obtain ⟨t, ht, hv⟩ := nested_at (np := 1) (f := f) (q := q) (D := 1) (nfa := nfa) (u := u)
    (lo := fun _ => 0) (hi := fun _ => lnfa) (cf := fun _ i => sh + i)
    (F := fun _ r i n t => wr t (at4 q 1 nfa u 0 n (sh + i) r) (m (d.1 + (n + q * (i + lnfa * r)))))
    (fun p i hp _ hi => by omega)
    (fun p i p' i' hp a1 a2 hp' b1 b2 e => ⟨by omega, by omega⟩)
    (fun p r i n t x _ _ _ _ _ hx => wr_ne _ _ (hx 0 Nat.one_pos))
    (p := 0) (r := r) (i := i) (n := n) Nat.one_pos hr (Nat.zero_le _) hi hn m
  rw [hv 0 Nat.one_pos, wr_same]

theorem copyRow_off {d : Nat × Nat} {m : Nat → K} (hd : d.2 = q * 1) (hsh : sh + lnfa ≤ nfa)
    (hap : ∀ o, o < q * 1 * (lnfa * f) → d.1 + o < u ∨ u + q * 1 * (nfa * f) ≤ d.1 + o) {x : Nat}
    (hx : ∀ n c r, n < q → sh ≤ c → c < sh + lnfa → r < f → x ≠ at4 q 1 nfa u 0 n c r) :
    copyRow q f nfa lnfa u sh d m x = m x := by
  rw [copyRow_eq hd hsh hap]
  refine nested_off (D := 1) (nfa := nfa) (u := u) (cf := fun _ i => sh + i)
    (fun p r i n t x _ _ _ _ _ hx => wr_ne _ _ (hx 0 Nat.one_pos)) ?_
  intro p r i n l hp hr _ hi hn hl
  obtain rfl : l = 0 := by omega
  exact hx n (sh + i) r hn (by omega) (by omega) hr

end Parts

/-- values of the columns of the divergence: the partial derivative of a scalar space, the two diagonal derivatives of a space
of two components -/
def stepVals : List (Bool × Op K × Vals K) → Nat → Vals K
  | [], _ => fun _ _ _ _ => 0
  | a :: as, ds => fun l n i r =>
    if i < a.2.1.nfa then (if a.1 then a.2.2 0 n i r else a.2.2 ds n i r + a.2.2 (ds + 4) n i r)
    else stepVals as (ds + if a.1 then 1 else 2) l n (i - a.2.1.nfa) r

theorem div12Loop_good {q f nfa u ex es busy P : Nat} (hdis : u + q * 1 * (nfa * f) ≤ ex ∨ ex + es ≤ u) (Z : Prop)
    (as : List (Bool × Op K × Vals K)) (ds sh : Nat)
    (hc : ∀ x ∈ as, Correct q f x.2.1 x.2.2 ∧ x.2.1.exr + x.2.1.usz ≤ es ∧ x.2.1.parts ≤ P ∧
      (if x.1 then x.2.1.dim = 1 ∧ OnePart x.2.1 else x.2.1.dim = 6 ∧ Z))
    (hds : ds + (as.map (fun x => if x.1 then 1 else 2)).sum ≤ 3)
    (hnfa : sh + (as.map (fun x => x.2.1.nfa)).sum = nfa) (st : St K) (hb : st.busy = busy)
    (hz : Z → ∀ n c r, n < q → sh ≤ c → c < nfa → r < f → st.re (at4 q 1 nfa u 0 n c r) = 0) :
    ∃ st', div12Loop q f nfa u ex es busy (as.map (fun x => (x.1, x.2.1))) ds sh st = some st' ∧ st'.busy = busy ∧
      (as ≠ [] → st'.row (busy + bshift busy) = 0 ∧ st'.col (busy + bshift busy) = 0) ∧
      (∀ n c r, n < q → sh ≤ c → c < nfa → r < f → st'.re (at4 q 1 nfa u 0 n c r) = stepVals as ds 0 n (c - sh) r) ∧
      (∀ n c r, n < q → c < sh → r < f → st'.re (at4 q 1 nfa u 0 n c r) = st.re (at4 q 1 nfa u 0 n c r)) ∧
      (∀ p, (p < u ∨ u + q * 1 * (nfa * f) ≤ p) → (p < ex ∨ ex + es ≤ p) → st'.re p = st.re p) ∧
      (∀ d, d < busy → st'.mtx d = st.mtx d) ∧
      (∀ d, busy + P ≤ d → st'.mtx d = st.mtx d) ∧
      (∀ j, j < busy + bshift busy → st'.row j = st.row j) ∧
      (∀ j, busy + 1 + P < j → st'.row j = st.row j) ∧
      (∀ j, j < busy + bshift busy → st'.col j = st.col j) ∧
      (∀ j, busy + 1 + P < j → st'.col j = st.col j) := by
  induction as generalizing sh ds st with
  | nil =>
    refine ⟨st, rfl, hb, fun h => absurd rfl h, fun n c r hn h1 h2 hr => ?_, fun _ _ _ _ _ _ => rfl, fun _ _ _ => rfl,
      fun _ _ => rfl, fun _ _ => rfl, fun _ _ => rfl, fun _ _ => rfl, fun _ _ => rfl, fun _ _ => rfl⟩
    simp only [List.map_nil, List.sum_nil] at hnfa
    omega
  | cons x as ih =>
    simp only [List.map_cons, List.sum_cons] at hnfa hds ⊢
    obtain ⟨hcor, hesx, hP, hkind⟩ := hc x List.mem_cons_self
    obtain ⟨st1, ref, happ, g⟩ := hcor st (ex + (es - x.2.1.usz)) ex (es - x.2.1.usz) (by omega) (by omega)
    have hsub : sh + x.2.1.nfa ≤ nfa := by omega
    have gidx := g.idx
    rw [← bshift_eq, hb] at gidx
    have hif : bshift busy ≤ 1 := by unfold bshift; split <;> omega
    have hap : Apart q f st1 ref u (q * 1 * (nfa * f)) := apart_of g (by omega) hdis
    have hz1 : ∀ n c r, n < q → c < nfa → r < f →
        st1.re (at4 q 1 nfa u 0 n c r) = st.re (at4 q 1 nfa u 0 n c r) := by
      intro n c r hn h2 hr
      have := at4_lt (u := u) Nat.one_pos hn h2 hr
      exact g.re _ (by omega) (by omega)
    -- one step
    obtain ⟨re, hre, hat, hoff⟩ : ∃ re : Nat → K,
        div12Loop q f nfa u ex es busy ((x.1, x.2.1) :: as.map (fun x => (x.1, x.2.1))) ds sh st =
          div12Loop q f nfa u ex es busy (as.map (fun x => (x.1, x.2.1))) (ds + if x.1 then 1 else 2) (sh + x.2.1.nfa)
            { st1 with re := re, busy := busy } ∧
        (∀ n i r, n < q → i < x.2.1.nfa → r < f → re (at4 q 1 nfa u 0 n (sh + i) r) =
          if x.1 then x.2.2 0 n i r else x.2.2 ds n i r + x.2.2 (ds + 4) n i r) ∧
        (∀ y, (∀ n c r, n < q → sh ≤ c → c < sh + x.2.1.nfa → r < f → y ≠ at4 q 1 nfa u 0 n c r) → re y = st1.re y) := by
      by_cases hx : x.1 = true
      · rw [if_pos hx] at hkind
        have hone := hkind.2 _ _ _ _ _ _ happ
        obtain ⟨m1, m2, m3, m4⟩ := one_part g hone
        rw [hkind.1] at m1 m3 m4
        have hap' : ∀ o, o < q * 1 * (x.2.1.nfa * f) → (st1.mtx ref.data).1 + o < u ∨
            u + q * 1 * (nfa * f) ≤ (st1.mtx ref.data).1 + o := by
          intro o ho
          omega
        refine ⟨copyRow q f nfa x.2.1.nfa u sh (st1.mtx ref.data) st1.re, ?_, ?_, ?_⟩
        · rw [div12Loop, if_neg (by dsimp only; omega)]
          dsimp only
          rw [happ]
          dsimp only
          rw [if_pos hx, if_pos hone, if_pos hx]
        · intro n i r hn hi hr
          rw [copyRow_at m1 hsub hap' hn hi hr, if_pos hx, ← m4 0 n i r Nat.one_pos hn hi hr]
          congr 2
          rw [Nat.mul_one]
          omega
        · intro y hy
          exact copyRow_off m1 hsub hap' hy
      · rw [if_neg hx] at hkind
        have gok := g.ok
        rw [if_neg hx] at hds
        refine ⟨gradAdd q f nfa u sh ds st1 ref st1.re, ?_, ?_, ?_⟩
        · rw [div12Loop, if_neg (by dsimp only; omega)]
          dsimp only
          rw [happ]
          dsimp only
          rw [if_neg hx, if_neg hx]
        · intro n i r hn hi hr
          rw [gradAdd_at gok hsub hap hn hi hr ((hz1 n _ r hn (by omega) hr).trans
            (hz hkind.2 n _ r hn (by omega) (by omega) hr)), if_neg hx,
            g.val ds (by omega) n hn i hi r hr, g.val (ds + 4) (by omega) n hn i hi r hr]
        · intro y hy
          exact gradAdd_off gok hsub hap hy
    have hcol : ∀ n c r, n < q → c < nfa → r < f → (c < sh ∨ sh + x.2.1.nfa ≤ c) →
        re (at4 q 1 nfa u 0 n c r) = st.re (at4 q 1 nfa u 0 n c r) := by
      intro n c r hn h2 hr hcc
      refine (hoff _ (fun n' c' r' hn' a1 a2 hr' e => ?_)).trans (hz1 n c r hn h2 hr)
      have := (at4_inj Nat.one_pos Nat.one_pos hn hn' h2 (by omega) e).2.2.1
      omega
    obtain ⟨st', e0, eb, ei, e1, e2, e3, e4, e5, e6, e7, e8, e9⟩ := ih (ds + if x.1 then 1 else 2) (sh + x.2.1.nfa)
      (fun y hy => hc y (List.mem_cons_of_mem _ hy)) (by omega)
      (by omega) { st1 with re := re, busy := busy } rfl
      (by
        intro hZ n c r hn h1 h2 hr
        exact (hcol n c r hn h2 hr (Or.inr h1)).trans (hz hZ n c r hn (by omega) h2 hr))
    dsimp only at e1 e2 e3 e4 e5 e6 e7 e8 e9
    refine ⟨st', hre.trans e0, eb, fun _ => ?_, ?_, ?_, ?_, ?_, ?_, ?_, ?_, ?_, ?_⟩
    · cases as with
      | nil =>
        rw [List.map_nil, div12Loop] at e0
        cases e0
        rw [← gidx]
        exact ⟨g.ok.row0, g.ok.col0⟩
      | cons y ys => exact ei (List.cons_ne_nil _ _)
    · intro n c r hn h1 h2 hr
      rw [stepVals]
      dsimp only
      by_cases hlt : c - sh < x.2.1.nfa
      · rw [if_pos hlt, e2 n c r hn (by omega) hr]
        obtain ⟨i, rfl⟩ := Nat.exists_eq_add_of_le h1
        rw [Nat.add_sub_cancel_left] at hlt ⊢
        exact hat n i r hn hlt hr
      · rw [if_neg hlt, e1 n c r hn (by omega) h2 hr, Nat.sub_sub]
    · intro n c r hn h1 hr
      rw [e2 n c r hn (by omega) hr]
      exact hcol n c r hn (by omega) hr (Or.inl h1)
    · intro p h1 h2
      rw [e3 p h1 h2]
      refine (hoff p (fun n' c' r' hn' a1 a2 hr' e => ?_)).trans (g.re p (by omega) (by omega))
      have := at4_lt (u := u) Nat.one_pos hn' (show c' < nfa by omega) hr'
      omega
    · intro d hd
      exact (e4 d hd).trans (g.mtxLow d (by omega))
    · intro d hd
      exact (e5 d hd).trans (g.mtxHigh d (by omega))
    · intro j hj
      exact (e6 j hj).trans (g.rowLow j (by omega))
    · intro j hj
      exact (e7 j hj).trans (g.rowHigh j (by omega))
    · intro j hj
      exact (e8 j hj).trans (g.colLow j (by omega))
    · intro j hj
      exact (e9 j hj).trans (g.colHigh j (by omega))

theorem div111Loop_eq (q f nfa u ex es busy : Nat) (as : List (Op K)) (ds sh : Nat) (st : St K) :
    div111Loop q f nfa u ex es busy as sh st = div12Loop q f nfa u ex es busy (as.map (fun a => (true, a))) ds sh st := by
  induction as generalizing ds sh st with
  | nil => rfl
  | cons a as ih =>
    rw [div111Loop, List.map_cons, div12Loop]
    dsimp only
    split
    · rfl
    · cases a.apply (ex + (es - a.usz)) ex (es - a.usz) st with
      | none => rfl
      | some x =>
        obtain ⟨st1, ref⟩ := x
        dsimp only
        rw [if_pos rfl]
        split
        · exact ih _ _ _
        · rfl

/-- the stack of the product divergences, had `busy_mtx_parts` been advanced -/
theorem end_good {q f nfa parts u usz ex es : Nat} {v : Vals K} {st st' : St K} (hsz : q * 1 * (nfa * f) = usz) (hparts : 1 ≤ parts)
    (hidx : st'.row (st.busy + bshift st.busy) = 0 ∧ st'.col (st.busy + bshift st.busy) = 0)
    (hv : ∀ n c r, n < q → c < nfa → r < f → st'.re (at4 q 1 nfa u 0 n c r) = v 0 n c r)
    (hre : ∀ p, (p < u ∨ u + usz ≤ p) → (p < ex ∨ ex + es ≤ p) → st'.re p = st.re p)
    (mlow : ∀ d, d < st.busy → st'.mtx d = st.mtx d) (mhigh : ∀ d, st.busy + parts ≤ d → st'.mtx d = st.mtx d)
    (rlow : ∀ j, j < st.busy + bshift st.busy → st'.row j = st.row j)
    (rhigh : ∀ j, st.busy + 1 + parts < j → st'.row j = st.row j)
    (clow : ∀ j, j < st.busy + bshift st.busy → st'.col j = st.col j)
    (chigh : ∀ j, st.busy + 1 + parts < j → st'.col j = st.col j) :
    Good q f 1 nfa parts u usz ex es v st
      { st' with
        mtx := wr st'.mtx st.busy (u, q)
        row := wr st'.row (st.busy + bshift st.busy + 1) 1
        col := wr st'.col (st.busy + bshift st.busy + 1) nfa
        busy := st.busy + 1 } ⟨1, st.busy, st.busy + bshift st.busy⟩ := by
  have h0 : ∀ s : Nat → Nat, s (st.busy + bshift st.busy) = 0 → wr s (st.busy + bshift st.busy) 0 = s := by
    intro s hs
    unfold wr
    rw [← hs]
    exact Function.update_eq_self _ _
  have hp := push_good (q := q) (f := f) (dim := 1) (nfa := nfa) (parts := parts) (u := u) (usz := usz) (ex := ex) (es := es)
    (v := v) (st := st) (t := st') (Nat.le_of_eq hsz) hparts
    (fun l hl n hn i hi r hr => by
      obtain rfl : l = 0 := by omega
      exact hv n i r hn hi hr)
    hre mlow mhigh rlow rhigh clow chigh
  rw [h0 _ hidx.1, h0 _ hidx.2, Nat.mul_one] at hp
  exact hp

/-- C46, partial: the divergence of a product of three scalar spaces, from the partial derivatives `∂/∂x`, `∂/∂y`, `∂/∂z` of the first,
second and third, leaves the right values and a right block matrix at the top of the stack.  Missing: the stack
pointer is not advanced over it (`div111_busy_wrong`). -/
theorem div111_partial {q f : Nat} {a b c : Op K} {ga gb gc : Vals K}
    (ha : Correct q f a (fun _ => ga 0)) (hb : Correct q f b (fun _ => gb 1)) (hc : Correct q f c (fun _ => gc 2))
    (da : a.dim = 1) (db : b.dim = 1) (dc : c.dim = 1) (oa : OnePart a) (ob : OnePart b) (oc : OnePart c)
    (st : St K) (u ex es : Nat) (hes : (div111 q f a b c).exr ≤ es) (hdis : u + (div111 q f a b c).usz ≤ ex ∨ ex + es ≤ u) :
    ∃ st' ref, (div111 q f a b c).apply u ex es st = some (st', ref) ∧ st'.busy = st.busy ∧
      Good q f 1 (div111 q f a b c).nfa (div111 q f a b c).parts u (div111 q f a b c).usz ex es
        (divVals (prodVals [(3, a.nfa, ga), (3, b.nfa, gb), (3, c.nfa, gc)])) st { st' with busy := st.busy + 1 } ref := by
  change max (max (a.exr + a.usz) (b.exr + b.usz)) (c.exr + c.usz) ≤ es at hes
  change u + q * f * (a.nfa + b.nfa + c.nfa) ≤ ex ∨ ex + es ≤ u at hdis
  have hsz : q * 1 * ((a.nfa + b.nfa + c.nfa) * f) = q * f * (a.nfa + b.nfa + c.nfa) := by ring
  obtain ⟨st', e0, eb, ei, e1, e2, e3, e4, e5, e6, e7, e8, e9⟩ := div12Loop_good (K := K) (q := q) (f := f)
    (nfa := a.nfa + b.nfa + c.nfa) (u := u) (ex := ex) (es := es) (busy := st.busy)
    (P := max (max (max 1 a.parts) b.parts) c.parts + 2) (by rw [hsz]; exact hdis) False
    [(true, a, fun _ => ga 0), (true, b, fun _ => gb 1), (true, c, fun _ => gc 2)] 0 0
    (by
      intro x hx
      simp only [List.mem_cons, List.not_mem_nil, or_false] at hx
      obtain rfl | rfl | rfl := hx
      · exact ⟨ha, by dsimp only; omega, by dsimp only; omega, da, oa⟩
      · exact ⟨hb, by dsimp only; omega, by dsimp only; omega, db, ob⟩
      · exact ⟨hc, by dsimp only; omega, by dsimp only; omega, dc, oc⟩)
    (by simp) (by simp; omega) st rfl (fun h => h.elim)
  have happ : (div111 q f a b c).apply u ex es st = some ({ st' with
        mtx := wr st'.mtx st.busy (u, q)
        row := wr st'.row (st.busy + bshift st.busy + 1) 1
        col := wr st'.col (st.busy + bshift st.busy + 1) (a.nfa + b.nfa + c.nfa) },
      ⟨1, st.busy, st.busy + bshift st.busy⟩) := by
    dsimp only [div111]
    rw [div111Loop_eq (ds := 0)]
    change (match div12Loop q f (a.nfa + b.nfa + c.nfa) u ex es st.busy [(true, a), (true, b), (true, c)] 0 0 st with
      | none => none
      | some st' => _) = _
    change div12Loop q f (a.nfa + b.nfa + c.nfa) u ex es st.busy [(true, a), (true, b), (true, c)] 0 0 st = _ at e0
    rw [e0]
  refine ⟨_, _, happ, eb, ?_⟩
  refine end_good hsz (Nat.le_trans (Nat.le_max_left 1 a.parts) ?_) (ei (List.cons_ne_nil _ _)) ?_ ?_ e4 e5 e6 e7 e8 e9
  · change _ ≤ max (max (max 1 a.parts) b.parts) c.parts + 2
    omega
  · intro n i r hn hi hr
    rw [e1 n i r hn (Nat.zero_le _) hi hr]
    change i < a.nfa + b.nfa + c.nfa at hi
    simp only [stepVals, divVals, prodVals, joinVals, Nat.sub_zero, if_true]
    by_cases h1 : i < a.nfa
    · have h2 : ¬ a.nfa ≤ i := by omega
      simp [h1, h2]
    · have h2 : a.nfa ≤ i := by omega
      by_cases h3 : i - a.nfa < b.nfa
      · have h4 : ¬ b.nfa ≤ i - a.nfa := by omega
        simp [h1, h2, h3, h4]
      · have h4 : b.nfa ≤ i - a.nfa := by omega
        have h5 : i - a.nfa - b.nfa < c.nfa := by omega
        have h6 : ¬ c.nfa ≤ i - a.nfa - b.nfa := by omega
        simp [h1, h2, h3, h4, h5, h6]
  · intro p h1 h2
    refine e3 p ?_ h2
    rw [hsz]
    exact h1

/-- C46, partial: the divergence of a product of a scalar space and a space of two components, from the partial derivative of
the former and the gradient of the latter.  Missing: the stack pointer (`div12_busy_wrong`). -/
theorem div12_partial {q f : Nat} {a b : Bool × Op K} {ga gb : Vals K}
    (ha : if a.1 then Correct q f a.2 (fun _ => ga 0) ∧ a.2.dim = 1 ∧ OnePart a.2 else Correct q f a.2 ga ∧ a.2.dim = 6)
    (hb : if b.1 then Correct q f b.2 (fun _ => gb 2) ∧ b.2.dim = 1 ∧ OnePart b.2 else Correct q f b.2 gb ∧ b.2.dim = 6)
    (hab : b.1 = !a.1)
    (st : St K) (u ex es : Nat) (hes : (div12 q f a b).exr ≤ es) (hdis : u + (div12 q f a b).usz ≤ ex ∨ ex + es ≤ u) :
    ∃ st' ref, (div12 q f a b).apply u ex es st = some (st', ref) ∧ st'.busy = st.busy ∧
      Good q f 1 (div12 q f a b).nfa (div12 q f a b).parts u (div12 q f a b).usz ex es
        (divVals (prodVals [(if a.1 then 3 else 6, a.2.nfa, ga), (if b.1 then 3 else 6, b.2.nfa, gb)])) st
        { st' with busy := st.busy + 1 } ref := by
  change max (a.2.exr + a.2.usz) (b.2.exr + b.2.usz) ≤ es at hes
  change u + q * f * (a.2.nfa + b.2.nfa) ≤ ex ∨ ex + es ≤ u at hdis
  have hsz : q * 1 * ((a.2.nfa + b.2.nfa) * f) = q * f * (a.2.nfa + b.2.nfa) := by ring
  have hsz' : q * (f * (a.2.nfa + b.2.nfa)) = q * f * (a.2.nfa + b.2.nfa) := by ring
  obtain ⟨ba, a⟩ := a
  obtain ⟨bb, b⟩ := b
  dsimp only at hab ha hb hes hdis hsz hsz'
  subst hab
  obtain ⟨st', e0, eb, ei, e1, e2, e3, e4, e5, e6, e7, e8, e9⟩ := div12Loop_good (K := K) (q := q) (f := f)
    (nfa := a.nfa + b.nfa) (u := u) (ex := ex) (es := es) (busy := st.busy)
    (P := max (max 1 a.parts) b.parts + 2) (by rw [hsz]; exact hdis) True
    [(ba, a, if ba then fun _ => ga 0 else ga), (!ba, b, if ba then gb else fun _ => gb 2)] 0 0
    (by
      intro x hx
      simp only [List.mem_cons, List.not_mem_nil, or_false] at hx
      obtain rfl | rfl := hx
      · cases ba
        · exact ⟨ha.1, by dsimp only; omega, by dsimp only; omega, ha.2, trivial⟩
        · exact ⟨ha.1, by dsimp only; omega, by dsimp only; omega, ha.2⟩
      · cases ba
        · exact ⟨hb.1, by dsimp only; omega, by dsimp only; omega, hb.2⟩
        · exact ⟨hb.1, by dsimp only; omega, by dsimp only; omega, hb.2, trivial⟩)
    (by cases ba <;> simp) (by simp) { st with re := setZero u (q * (f * (a.nfa + b.nfa))) st.re } rfl
    (by
      intro _ n c r hn _ h2 hr
      have := at4_lt (u := u) Nat.one_pos hn h2 hr
      exact setZero_at (by omega) (by rw [hsz', ← hsz]; omega) _)
  have happ : (div12 q f (ba, a) (!ba, b)).apply u ex es st = some ({ st' with
        mtx := wr st'.mtx st.busy (u, q)
        row := wr st'.row (st.busy + bshift st.busy + 1) 1
        col := wr st'.col (st.busy + bshift st.busy + 1) (a.nfa + b.nfa) },
      ⟨1, st.busy, st.busy + bshift st.busy⟩) := by
    dsimp only [div12]
    change div12Loop q f (a.nfa + b.nfa) u ex es st.busy [(ba, a), (!ba, b)] 0 0 _ = _ at e0
    rw [e0]
  refine ⟨_, _, happ, eb, ?_⟩
  refine end_good hsz (Nat.le_trans (Nat.le_max_left 1 a.parts) ?_) (ei (List.cons_ne_nil _ _)) ?_ ?_ e4 e5 e6 e7 e8 e9
  · change _ ≤ max (max 1 a.parts) b.parts + 2
    omega
  · intro n i r hn hi hr
    rw [e1 n i r hn (Nat.zero_le _) hi hr]
    change i < a.nfa + b.nfa at hi
    simp only [stepVals, divVals, prodVals, joinVals, Nat.sub_zero]
    by_cases h1 : i < a.nfa
    · have h2 : ¬ a.nfa ≤ i := by omega
      cases ba <;> simp [h1, h2]
    · have h2 : a.nfa ≤ i := by omega
      have h3 : i - a.nfa < b.nfa := by omega
      have h4 : ¬ b.nfa ≤ i - a.nfa := by omega
      cases ba <;> simp [h1, h2, h3, h4]
  · intro p h1 h2
    rw [e3 p (by rw [hsz]; exact h1) h2]
    exact setZero_off (by rw [hsz']; exact h1) _

/-- a result on a stack which was not advanced shares its place with the next one -/
theorem not_advanced {q f dim nfa parts u usz ex es : Nat} {v w : Vals K} {st st' : St K} {ref : Ref}
    (g : Good q f dim nfa parts u usz ex es v st { st' with busy := st.busy + 1 } ref) (hb : st'.busy = st.busy) {next : Op K}
    (hn : Correct q f next w) {u2 ex2 es2 : Nat} (h1 : next.exr ≤ es2) (h2 : u2 + next.usz ≤ ex2 ∨ ex2 + es2 ≤ u2) :
    ∃ st2 ref2, next.apply u2 ex2 es2 st' = some (st2, ref2) ∧ ref2.data = ref.data ∧ ref2.idx = ref.idx ∧
      u2 ≤ (st2.mtx ref.data).1 ∧ (st2.mtx ref.data).1 ≤ u2 + next.usz := by
  obtain ⟨st2, ref2, e, g2⟩ := hn st' u2 ex2 es2 h1 h2
  have hd : ref2.data = ref.data := by rw [g2.data, g.data, hb]
  have hi : ref2.idx = ref.idx := by rw [g2.idx, g.idx, hb]
  have hin := g2.inU 0 g2.pos
  rw [← g2.data, hd, Nat.add_zero] at hin
  exact ⟨st2, ref2, e, hd, hi, hin.1, by omega⟩

/-- C46: the divergence of a product of three scalar spaces is not right: it leaves the stack pointer below its result, and
whatever operator is applied next (the second operator of an elemental matrix, for instance) puts its block matrix on the same
place, so that both references mean the same matrix. -/
theorem div111_busy_wrong {q f : Nat} {a b c next : Op K} {ga gb gc w : Vals K}
    (ha : Correct q f a (fun _ => ga 0)) (hb : Correct q f b (fun _ => gb 1)) (hc : Correct q f c (fun _ => gc 2))
    (da : a.dim = 1) (db : b.dim = 1) (dc : c.dim = 1) (oa : OnePart a) (ob : OnePart b) (oc : OnePart c)
    (hn : Correct q f next w) :
    (∀ v, ¬ Correct q f (div111 q f a b c) v) ∧
    ∀ (st : St K) (u ex es u2 ex2 es2 : Nat), (div111 q f a b c).exr ≤ es → (u + (div111 q f a b c).usz ≤ ex ∨ ex + es ≤ u) →
      next.exr ≤ es2 → (u2 + next.usz ≤ ex2 ∨ ex2 + es2 ≤ u2) →
      ∃ st1 ref1 st2 ref2, (div111 q f a b c).apply u ex es st = some (st1, ref1) ∧
        next.apply u2 ex2 es2 st1 = some (st2, ref2) ∧ ref2.data = ref1.data ∧ ref2.idx = ref1.idx ∧
        u2 ≤ (st2.mtx ref1.data).1 ∧ (st2.mtx ref1.data).1 ≤ u2 + next.usz := by
  refine ⟨fun v hv => ?_, fun st u ex es u2 ex2 es2 h1 h2 h3 h4 => ?_⟩
  · have st : St K := ⟨fun _ => 0, fun _ => (0, 0), fun _ => 0, fun _ => 0, 0⟩
    obtain ⟨st1, ref1, e1, eb, -⟩ := div111_partial ha hb hc da db dc oa ob oc st 0 (div111 q f a b c).usz
      (div111 q f a b c).exr (Nat.le_refl _) (Or.inl (by omega))
    obtain ⟨st2, ref2, e2, g2⟩ := hv st 0 (div111 q f a b c).usz (div111 q f a b c).exr (Nat.le_refl _) (Or.inl (by omega))
    rw [e1] at e2
    cases e2
    have := g2.busy
    have := g2.pos
    omega
  · obtain ⟨st1, ref1, e1, eb, g1⟩ := div111_partial ha hb hc da db dc oa ob oc st u ex es h1 h2
    obtain ⟨st2, ref2, e2, e3, e4, e5, e6⟩ := not_advanced g1 eb hn h3 h4
    exact ⟨st1, ref1, st2, ref2, e1, e2, e3, e4, e5, e6⟩

/-- C46: nor is that of a product of a scalar space and a space of two components. -/
theorem div12_busy_wrong {q f : Nat} {a b : Bool × Op K} {next : Op K} {ga gb w : Vals K}
    (ha : if a.1 then Correct q f a.2 (fun _ => ga 0) ∧ a.2.dim = 1 ∧ OnePart a.2 else Correct q f a.2 ga ∧ a.2.dim = 6)
    (hb : if b.1 then Correct q f b.2 (fun _ => gb 2) ∧ b.2.dim = 1 ∧ OnePart b.2 else Correct q f b.2 gb ∧ b.2.dim = 6)
    (hab : b.1 = !a.1) (hn : Correct q f next w) :
    (∀ v, ¬ Correct q f (div12 q f a b) v) ∧
    ∀ (st : St K) (u ex es u2 ex2 es2 : Nat), (div12 q f a b).exr ≤ es → (u + (div12 q f a b).usz ≤ ex ∨ ex + es ≤ u) →
      next.exr ≤ es2 → (u2 + next.usz ≤ ex2 ∨ ex2 + es2 ≤ u2) →
      ∃ st1 ref1 st2 ref2, (div12 q f a b).apply u ex es st = some (st1, ref1) ∧
        next.apply u2 ex2 es2 st1 = some (st2, ref2) ∧ ref2.data = ref1.data ∧ ref2.idx = ref1.idx ∧
        u2 ≤ (st2.mtx ref1.data).1 ∧ (st2.mtx ref1.data).1 ≤ u2 + next.usz := by
  refine ⟨fun v hv => ?_, fun st u ex es u2 ex2 es2 h1 h2 h3 h4 => ?_⟩
  · have st : St K := ⟨fun _ => 0, fun _ => (0, 0), fun _ => 0, fun _ => 0, 0⟩
    obtain ⟨st1, ref1, e1, eb, -⟩ := div12_partial ha hb hab st 0 (div12 q f a b).usz
      (div12 q f a b).exr (Nat.le_refl _) (Or.inl (by omega))
    obtain ⟨st2, ref2, e2, g2⟩ := hv st 0 (div12 q f a b).usz (div12 q f a b).exr (Nat.le_refl _) (Or.inl (by omega))
    rw [e1] at e2
    cases e2
    have := g2.busy
    have := g2.pos
    omega
  · obtain ⟨st1, ref1, e1, eb, g1⟩ := div12_partial ha hb hab st u ex es h1 h2
    obtain ⟨st2, ref2, e2, e3, e4, e5, e6⟩ := not_advanced g1 eb hn h3 h4
    exact ⟨st1, ref1, st2, ref2, e1, e2, e3, e4, e5, e6⟩

end Verif.OpStack
