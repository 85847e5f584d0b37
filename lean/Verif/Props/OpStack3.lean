import Verif.Props.OpStack2
import Verif.Lemmas.OpStack2

/-!
Operators of unions of run-time spaces.
-/
namespace Verif.OpStack

open Verif.Dense Verif.Elemental

set_option linter.unusedSectionVars false

variable {K : Type} [CommRing K]

/-- where the parts of a block matrix lie: outside of the target -/
def Apart (q f : Nat) (st : St K) (ref : Ref) (u n : Nat) : Prop :=
  ∀ d, d < ref.nparts → ∀ o, o < q * (st.row (ref.idx + (d + 1)) - st.row (ref.idx + d)) *
    ((st.col (ref.idx + (d + 1)) - st.col (ref.idx + d)) * f) →
    (st.mtx (ref.data + d)).1 + o < u ∨ u + n ≤ (st.mtx (ref.data + d)).1 + o

/-- the loops of `unionCopy` reading from the fixed memory `m0` -/
def copyFrom (q f gdim nfa u sh : Nat) (st : St K) (ref : Ref) (m0 : Nat → K) : (Nat → K) → (Nat → K) :=
  nested ref.nparts f q (fun _ => 0) (fun p => st.col (ref.idx + (p + 1)) - st.col (ref.idx + p)) (fun p r i n m =>
    loop 0 (st.row (ref.idx + (p + 1)) - st.row (ref.idx + p)) (fun k m =>
      wr m (at4 q gdim nfa u (k + st.row (ref.idx + p)) n (sh + i + st.col (ref.idx + p)) r)
        (m0 ((st.mtx (ref.data + p)).1 + ((k + (st.row (ref.idx + (p + 1)) - st.row (ref.idx + p)) * n) +
          (st.mtx (ref.data + p)).2 * (i + (st.col (ref.idx + (p + 1)) - st.col (ref.idx + p)) * r))))) m)

section Copy

variable {q f gdim nfa lnfa u sh : Nat} {st : St K} {ref : Ref}

theorem part_facts (ok : (st.band ref).Ok q gdim lnfa) {p : Nat} (hp : p < ref.nparts) :
    st.row (ref.idx + p) ≤ st.row (ref.idx + (p + 1)) ∧ st.row (ref.idx + (p + 1)) ≤ gdim ∧
    st.col (ref.idx + p) ≤ st.col (ref.idx + (p + 1)) ∧ st.col (ref.idx + (p + 1)) ≤ lnfa ∧
    (st.mtx (ref.data + p)).2 = q * (st.row (ref.idx + (p + 1)) - st.row (ref.idx + p)) := by
  refine ⟨ok.rowMono p hp, rowEnd_le ok hp, ok.colMono p hp, ?_, ok.rows p hp⟩
  have := st_mono ok.colMono (show p + 1 ≤ (st.band ref).nparts from hp) (Nat.le_refl _)
  rw [ok.colN] at this
  exact this

theorem unionCopy_eq (ok : (st.band ref).Ok q gdim lnfa) (hsh : sh + lnfa ≤ nfa)
    (hap : Apart q f st ref u (q * gdim * (nfa * f))) :
    unionCopy q f gdim nfa u sh st ref st.re = copyFrom q f gdim nfa u sh st ref st.re st.re := by
  have main : Same (fun t => ∀ x, (x < u ∨ u + q * gdim * (nfa * f) ≤ x) → t x = st.re x)
      (unionCopy q f gdim nfa u sh st ref) (copyFrom q f gdim nfa u sh st ref st.re) := by
    unfold unionCopy copyFrom nested
    refine Same.loop (fun p _ hp => Same.loop (fun r _ hr => Same.loop (fun i _ hi => Same.loop (fun n _ hn =>
      Same.loop (fun k _ hk => ?_)))))
    obtain ⟨f1, f2, f3, f4, f5⟩ := part_facts ok hp
    intro t ht
    have hpos := at4_lt (u := u) (show k + st.row (ref.idx + p) < gdim by omega) hn
      (show sh + i + st.col (ref.idx + p) < nfa by omega) hr
    refine ⟨?_, fun x hx => ?_⟩
    · dsimp only
      rw [ht _ (hap p hp _ ?_)]
      · rfl
      · rw [f5]
        have h1 := rad_lt hk hn
        rw [Nat.mul_comm (st.row (ref.idx + (p + 1)) - st.row (ref.idx + p)) q] at h1
        exact rad_lt h1 (rad_lt hi hr)
    · exact (wr_ne _ _ (by omega)).trans (ht x hx)
  exact (main st.re (fun _ _ => rfl)).1

theorem copyFrom_hF {m0 : Nat → K} (ok : (st.band ref).Ok q gdim lnfa) (p r i n : Nat) (t : Nat → K) (x : Nat) (hp : p < ref.nparts)
    (hx : ∀ l, l < gdim → x ≠ at4 q gdim nfa u l n (sh + i + st.col (ref.idx + p)) r) :
    loop 0 (st.row (ref.idx + (p + 1)) - st.row (ref.idx + p)) (fun k m =>
      wr m (at4 q gdim nfa u (k + st.row (ref.idx + p)) n (sh + i + st.col (ref.idx + p)) r)
        (m0 ((st.mtx (ref.data + p)).1 + ((k + (st.row (ref.idx + (p + 1)) - st.row (ref.idx + p)) * n) +
          (st.mtx (ref.data + p)).2 * (i + (st.col (ref.idx + (p + 1)) - st.col (ref.idx + p)) * r))))) t x = t x := by
  obtain ⟨f1, f2, f3, f4, f5⟩ := part_facts ok hp
  exact loop_off (fun k t _ hk => wr_ne _ _ (hx _ (by omega)))

/-- the copy of a block matrix into zeros holds its values -/
theorem unionCopy_at (ok : (st.band ref).Ok q gdim lnfa) (hsh : sh + lnfa ≤ nfa)
    (hap : Apart q f st ref u (q * gdim * (nfa * f))) {l n i r : Nat} (hl : l < gdim) (hn : n < q) (hi : i < lnfa) (hr : r < f)
    (hz : st.re (at4 q gdim nfa u l n (sh + i) r) = 0) :
    unionCopy q f gdim nfa u sh st ref st.re (at4 q gdim nfa u l n (sh + i) r) = (st.band ref).val q l n i r := by
  rw [unionCopy_eq ok hsh hap]
  obtain ⟨p, hp, h1, h2⟩ := part_of ok hi
  rw [val_eq ok hp h1 h2]
  change st.col (ref.idx + p) ≤ i at h1
  change i < st.col (ref.idx + (p + 1)) at h2
  change p < ref.nparts at hp
  obtain ⟨f1, f2, f3, f4, f5⟩ := part_facts ok hp
  obtain ⟨t, ht, hv⟩ := nested_at (np := ref.nparts) (f := f) (q := q) (D := gdim) (nfa := nfa) (u := u) (lo := fun _ => 0)
    (hi := fun p => st.col (ref.idx + (p + 1)) - st.col (ref.idx + p)) (cf := fun p i => sh + i + st.col (ref.idx + p))
    (F := fun p r i n m =>
      loop 0 (st.row (ref.idx + (p + 1)) - st.row (ref.idx + p)) (fun k m =>
        wr m (at4 q gdim nfa u (k + st.row (ref.idx + p)) n (sh + i + st.col (ref.idx + p)) r)
          (st.re ((st.mtx (ref.data + p)).1 + ((k + (st.row (ref.idx + (p + 1)) - st.row (ref.idx + p)) * n) +
            (st.mtx (ref.data + p)).2 * (i + (st.col (ref.idx + (p + 1)) - st.col (ref.idx + p)) * r))))) m)
    (fun p i hp _ hi => by
      have := part_facts ok hp
      omega)
    (fun p i p' i' hp _ hi hp' _ hi' e => by
      have a := part_facts ok hp
      have b := part_facts ok hp'
      have : p = p' := part_unique (i := i + st.col (ref.idx + p)) ok.colMono hp hp'
        (show st.col (ref.idx + p) ≤ _ by omega) (show _ < st.col (ref.idx + (p + 1)) by omega)
        (show st.col (ref.idx + p') ≤ _ by omega) (show _ < st.col (ref.idx + (p' + 1)) by omega)
      subst this
      exact ⟨rfl, by omega⟩)
    (fun p r i n t x hp _ _ _ _ hx => copyFrom_hF ok p r i n t x hp hx)
    (p := p) (r := r) (i := i - st.col (ref.idx + p)) (n := n) hp hr (Nat.zero_le _)
    (show i - st.col (ref.idx + p) < st.col (ref.idx + (p + 1)) - st.col (ref.idx + p) by omega) hn st.re
  have hc : sh + (i - st.col (ref.idx + p)) + st.col (ref.idx + p) = sh + i := by omega
  have hv' := hv l hl
  have ht' := ht l hl
  rw [hc] at hv' ht'
  refine hv'.trans ?_
  show _ = if st.row (ref.idx + p) ≤ l ∧ l < st.row (ref.idx + (p + 1)) then st.re ((st.mtx (ref.data + p)).1 +
    ((l - st.row (ref.idx + p)) + (st.row (ref.idx + (p + 1)) - st.row (ref.idx + p)) * n +
      q * (st.row (ref.idx + (p + 1)) - st.row (ref.idx + p)) * ((i - st.col (ref.idx + p)) +
        (st.col (ref.idx + (p + 1)) - st.col (ref.idx + p)) * r))) else 0
  have other : ∀ (k : Nat) (t : Nat → K) (y : K), k < st.row (ref.idx + (p + 1)) - st.row (ref.idx + p) →
      k + st.row (ref.idx + p) ≠ l →
      wr t (at4 q gdim nfa u (k + st.row (ref.idx + p)) n (sh + i) r) y (at4 q gdim nfa u l n (sh + i) r) =
        t (at4 q gdim nfa u l n (sh + i) r) := by
    intro k t y hk hne
    refine wr_ne _ _ (fun e => hne ?_)
    exact (at4_inj hl (by omega) hn hn (by omega) (by omega) e).1.symm
  by_cases hrow : st.row (ref.idx + p) ≤ l ∧ l < st.row (ref.idx + (p + 1))
  · rw [if_pos hrow]
    have := loop_at (a := 0) (b := st.row (ref.idx + (p + 1)) - st.row (ref.idx + p)) (i := l - st.row (ref.idx + p))
      (p := at4 q gdim nfa u l n (sh + i) r) (s := t)
      (f := fun k m => wr m (at4 q gdim nfa u (k + st.row (ref.idx + p)) n (sh + i) r)
          (st.re ((st.mtx (ref.data + p)).1 + ((k + (st.row (ref.idx + (p + 1)) - st.row (ref.idx + p)) * n) +
            (st.mtx (ref.data + p)).2 * ((i - st.col (ref.idx + p)) +
              (st.col (ref.idx + (p + 1)) - st.col (ref.idx + p)) * r)))))
      (fun _ => st.re ((st.mtx (ref.data + p)).1 + (((l - st.row (ref.idx + p)) +
        (st.row (ref.idx + (p + 1)) - st.row (ref.idx + p)) * n) + (st.mtx (ref.data + p)).2 * ((i - st.col (ref.idx + p)) +
              (st.col (ref.idx + (p + 1)) - st.col (ref.idx + p)) * r))))
      (Nat.zero_le _) (by omega)
      (fun t => by
        rw [show l - st.row (ref.idx + p) + st.row (ref.idx + p) = l by omega, wr_same])
      (fun k t _ hk hne => other k t _ hk (by omega))
    rw [f5] at this
    simp only [f5]
    exact this
  · rw [if_neg hrow]
    refine Eq.trans (loop_off (fun k t _ hk => other k t _ hk (by omega))) (ht'.trans hz)

theorem unionCopy_off (ok : (st.band ref).Ok q gdim lnfa) (hsh : sh + lnfa ≤ nfa)
    (hap : Apart q f st ref u (q * gdim * (nfa * f))) {x : Nat}
    (hx : ∀ l n c r, l < gdim → n < q → sh ≤ c → c < sh + lnfa → r < f → x ≠ at4 q gdim nfa u l n c r) :
    unionCopy q f gdim nfa u sh st ref st.re x = st.re x := by
  rw [unionCopy_eq ok hsh hap]
  unfold copyFrom
  refine nested_off (D := gdim) (nfa := nfa) (u := u) (cf := fun p i => sh + i + st.col (ref.idx + p))
    (fun p r i n t x hp _ _ _ _ hx => copyFrom_hF ok p r i n t x hp hx) ?_
  intro p r i n l hp hr _ hi hn hl
  have := part_facts ok hp
  exact hx l n _ r hl hn (by omega) (by omega) hr

end Copy

theorem unionLoop_good {q f gdim nfa u ex es : Nat} (hdis : u + q * gdim * (nfa * f) ≤ ex ∨ ex + es ≤ u)
    (as : List (Op K × Vals K)) (hc : ∀ x ∈ as, Correct q f x.1 x.2 ∧ x.1.dim = gdim ∧ x.1.exr + x.1.usz ≤ es) (sh : Nat)
    (hnfa : sh + ((as.map Prod.fst).map Op.nfa).sum = nfa) (st : St K)
    (hz : ∀ l n c r, l < gdim → n < q → sh ≤ c → c < nfa → r < f → st.re (at4 q gdim nfa u l n c r) = 0) :
    ∃ st', unionLoop q f gdim nfa u ex es (as.map Prod.fst) sh st = some st' ∧
      (∀ l n c r, l < gdim → n < q → sh ≤ c → c < nfa → r < f → st'.re (at4 q gdim nfa u l n c r) =
        unionVals (as.map (fun x => (x.1.nfa, x.2))) l n (c - sh) r) ∧
      (∀ l n c r, l < gdim → n < q → c < sh → r < f → st'.re (at4 q gdim nfa u l n c r) = st.re (at4 q gdim nfa u l n c r)) ∧
      (∀ p, (p < u ∨ u + q * gdim * (nfa * f) ≤ p) → (p < ex ∨ ex + es ≤ p) → st'.re p = st.re p) ∧
      (∀ d, d < st.busy → st'.mtx d = st.mtx d) ∧
      (∀ d, st.busy + ((as.map Prod.fst).map Op.parts).sum ≤ d → st'.mtx d = st.mtx d) ∧
      (∀ j, j < st.busy + bshift st.busy → st'.row j = st.row j) ∧
      (∀ j, st.busy + 1 + ((as.map Prod.fst).map Op.parts).sum < j → st'.row j = st.row j) ∧
      (∀ j, j < st.busy + bshift st.busy → st'.col j = st.col j) ∧
      (∀ j, st.busy + 1 + ((as.map Prod.fst).map Op.parts).sum < j → st'.col j = st.col j) := by
  induction as generalizing sh st with
  | nil =>
    refine ⟨st, rfl, fun l n c r hl hn h1 h2 hr => hz l n c r hl hn h1 h2 hr, fun _ _ _ _ _ _ _ _ => rfl, fun _ _ _ => rfl,
      fun _ _ => rfl, fun _ _ => rfl, fun _ _ => rfl, fun _ _ => rfl, fun _ _ => rfl, fun _ _ => rfl⟩
  | cons x as ih =>
    simp only [List.map_cons, List.sum_cons] at hnfa ⊢
    obtain ⟨hcor, hdim, hesx⟩ := hc x List.mem_cons_self
    obtain ⟨st1, ref, happ, g⟩ := hcor st (ex + (es - x.1.usz)) ex (es - x.1.usz) (by omega) (by omega)
    have hsub : sh + x.1.nfa ≤ nfa := by omega
    have gok := g.ok
    rw [hdim] at gok
    have gbusy := g.busy
    have gnp := g.nparts
    have gidx := g.idx
    rw [← bshift_eq] at gidx
    have hif : ∀ b, bshift b ≤ 1 := fun b => by unfold bshift; split <;> omega
    have hifp : ∀ b, 0 < b → bshift b = 1 := fun b hb => if_pos hb
    have gpos := g.pos
    have hap : Apart q f st1 ref u (q * gdim * (nfa * f)) := by
      intro d hd o ho
      have := g.inU d hd
      rw [← g.data] at this
      omega
    have hz1 : ∀ l n c r, l < gdim → n < q → c < nfa → r < f →
        st1.re (at4 q gdim nfa u l n c r) = st.re (at4 q gdim nfa u l n c r) := by
      intro l n c r hl hn h2 hr
      have := at4_lt (u := u) hl hn h2 hr
      exact g.re _ (by omega) (by omega)
    obtain ⟨st', e0, e1, e2, e3, e4, e5, e6, e7, e8, e9⟩ := ih (fun y hy => hc y (List.mem_cons_of_mem _ hy)) (sh + x.1.nfa)
      (by omega) { st1 with re := unionCopy q f gdim nfa u sh st1 ref st1.re }
      (by
        intro l n c r hl hn h1 h2 hr
        refine (unionCopy_off gok hsub hap (fun l' n' c' r' hl' hn' a1 a2 hr' e => ?_)).trans
          ((hz1 l n c r hl hn h2 hr).trans (hz l n c r hl hn (by omega) h2 hr))
        have := (at4_inj hl hl' hn hn' h2 (by omega) e).2.2.1
        omega)
    dsimp only at e1 e2 e3 e4 e5 e6 e7 e8 e9
    refine ⟨st', ?_, ?_, ?_, ?_, ?_, ?_, ?_, ?_, ?_, ?_⟩
    · unfold unionLoop
      rw [if_neg (by omega), happ]
      exact e0
    · intro l n c r hl hn h1 h2 hr
      rw [unionVals]
      dsimp only
      by_cases hlt : c - sh < x.1.nfa
      · rw [if_pos hlt, e2 l n c r hl hn (by omega) hr]
        obtain ⟨i, rfl⟩ := Nat.exists_eq_add_of_le h1
        rw [Nat.add_sub_cancel_left] at hlt ⊢
        rw [unionCopy_at gok hsub hap hl hn hlt hr ((hz1 l n _ r hl hn h2 hr).trans (hz l n _ r hl hn h1 h2 hr))]
        exact g.val l (by omega) n hn i hlt r hr
      · rw [if_neg hlt, e1 l n c r hl hn (by omega) h2 hr, Nat.sub_sub]
    · intro l n c r hl hn h1 hr
      rw [e2 l n c r hl hn (by omega) hr]
      refine (unionCopy_off gok hsub hap (fun l' n' c' r' hl' hn' a1 a2 hr' e => ?_)).trans (hz1 l n c r hl hn (by omega) hr)
      have := (at4_inj hl hl' hn hn' (by omega) (by omega) e).2.2.1
      omega
    · intro p h1 h2
      rw [e3 p h1 h2]
      refine (unionCopy_off gok hsub hap (fun l' n' c' r' hl' hn' a1 a2 hr' e => ?_)).trans (g.re p (by omega) (by omega))
      have := at4_lt (u := u) hl' hn' (show c' < nfa by omega) hr'
      omega
    · intro d hd
      exact (e4 d (by omega)).trans (g.mtxLow d hd)
    · intro d hd
      exact (e5 d (by omega)).trans (g.mtxHigh d (by omega))
    · intro j hj
      have := hif st.busy
      have := hifp st1.busy (by omega)
      exact (e6 j (by omega)).trans (g.rowLow j (by omega))
    · intro j hj
      exact (e7 j (by omega)).trans (g.rowHigh j (by omega))
    · intro j hj
      have := hif st.busy
      have := hifp st1.busy (by omega)
      exact (e8 j (by omega)).trans (g.colLow j (by omega))
    · intro j hj
      exact (e9 j (by omega)).trans (g.colHigh j (by omega))

theorem foldl_max_le' {as : List (Op K)} {m es : Nat} (h : as.foldl (fun m b => max m (b.exr + b.usz)) m ≤ es) :
    m ≤ es ∧ ∀ b ∈ as, b.exr + b.usz ≤ es := by
  induction as generalizing m with
  | nil => exact ⟨h, fun b hb => absurd hb List.not_mem_nil⟩
  | cons a as ih =>
    obtain ⟨h1, h2⟩ := ih h
    refine ⟨Nat.le_trans (Nat.le_max_left _ _) h1, fun b hb => ?_⟩
    rcases List.mem_cons.mp hb with rfl | hb
    · exact Nat.le_trans (Nat.le_max_right _ _) h1
    · exact h2 b hb

theorem parts_pos {q f : Nat} {a : Op K} {v : Vals K} (h : Correct q f a v) : 1 ≤ a.parts := by
  obtain ⟨st', ref, -, g⟩ := h ⟨fun _ => 0, fun _ => (0, 0), fun _ => 0, fun _ => 0, 0⟩ 0 a.usz a.exr (Nat.le_refl _)
    (Or.inl (by omega))
  exact Nat.le_trans g.pos g.nparts

/-- C46: the operator of a union of spaces of functions of the same dimension has the basis functions one after another. -/
theorem union_correct {q f gdim : Nat} (as : List (Op K × Vals K)) (hne : as ≠ [])
    (hc : ∀ x ∈ as, Correct q f x.1 x.2 ∧ x.1.dim = gdim) :
    Correct q f (union q f gdim (as.map Prod.fst)) (unionVals (as.map (fun x => (x.1.nfa, x.2)))) := by
  intro st u ex es hes hdis
  obtain ⟨-, h2⟩ := foldl_max_le' hes
  have hsz : q * gdim * (((as.map Prod.fst).map Op.nfa).sum * f) = gdim * q * f * ((as.map Prod.fst).map Op.nfa).sum := by ring
  have hsz' : q * gdim * (f * ((as.map Prod.fst).map Op.nfa).sum) = gdim * q * f * ((as.map Prod.fst).map Op.nfa).sum := by ring
  change u + gdim * q * f * ((as.map Prod.fst).map Op.nfa).sum ≤ ex ∨ _ at hdis
  obtain ⟨st', e0, e1, -, e3, e4, e5, e6, e7, e8, e9⟩ := unionLoop_good (u := u) (ex := ex) (es := es)
    (by rw [hsz]; exact hdis) as
    (fun x hx => ⟨(hc x hx).1, (hc x hx).2, h2 x.1 (List.mem_map_of_mem hx)⟩) 0 (Nat.zero_add _)
    { st with re := setZero u (q * gdim * (f * ((as.map Prod.fst).map Op.nfa).sum)) st.re }
    (by
      intro l n c r hl hn _ h2 hr
      have := at4_lt (u := u) hl hn h2 hr
      exact setZero_at (by omega) (by rw [hsz', ← hsz]; omega) _)
  dsimp only at e1 e3 e4 e5 e6 e7 e8 e9
  refine ⟨_, _, by dsimp only [union]; rw [e0], ?_⟩
  refine push_good (Nat.le_of_eq hsz) ?_ ?_ ?_ e4 e5 e6 e7 e8 e9
  · obtain ⟨x, as, rfl⟩ := List.exists_cons_of_ne_nil hne
    have := parts_pos (hc x List.mem_cons_self).1
    show 1 ≤ (((x :: as).map Prod.fst).map Op.parts).sum
    rw [List.map_cons, List.map_cons, List.sum_cons]
    omega
  · intro l hl n hn i hi r hr
    exact e1 l n i r hl hn (Nat.zero_le _) hi hr
  · intro p h1 h2
    change p < u ∨ u + gdim * q * f * ((as.map Prod.fst).map Op.nfa).sum ≤ p at h1
    rw [e3 p (by rw [hsz]; exact h1) h2]
    exact setZero_off (by rw [hsz']; exact h1) _

end Verif.OpStack
