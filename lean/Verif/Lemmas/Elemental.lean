import Verif.Spec.Elemental
import Verif.Lemmas.Loops
import Mathlib.Tactic.Ring
import Mathlib.Tactic.Linarith

/-!
Lemmas for the product of the tensor with the operator.
-/
set_option linter.unusedSectionVars false
namespace Verif.Elemental

open Verif.Dense

variable {K : Type} [CommRing K]

theorem rad2 {A a a' b b' : Nat} (ha : a < A) (ha' : a' < A) (h : a + A * b = a' + A * b') : a = a' ∧ b = b' := by
  have h1 : (a + A * b) % A = a := by rw [Nat.add_mul_mod_self_left, Nat.mod_eq_of_lt ha]
  have h2 : (a' + A * b') % A = a' := by rw [Nat.add_mul_mod_self_left, Nat.mod_eq_of_lt ha']
  have h3 : a = a' := by rw [← h1, ← h2, h]
  refine ⟨h3, ?_⟩
  subst h3
  have : A * b = A * b' := by omega
  exact Nat.eq_of_mul_eq_mul_left (by omega) this

theorem addr_inj {jd q nf k n i r k' n' i' r' : Nat} (hk : k < jd) (hk' : k' < jd) (hn : n < q) (hn' : n' < q)
    (hi : i < nf) (hi' : i' < nf) (h : addr jd q nf k n i r = addr jd q nf k' n' i' r') :
    k = k' ∧ n = n' ∧ i = i' ∧ r = r' := by
  unfold addr at h
  obtain ⟨h1, h2⟩ := rad2 hk hk' h
  obtain ⟨h3, h4⟩ := rad2 hn hn' h2
  obtain ⟨h5, h6⟩ := rad2 hi hi' h4
  exact ⟨h1, h3, h5, h6⟩

theorem rad_lt {A B a b : Nat} (ha : a < A) (hb : b < B) : a + A * b < A * B := by
  have : A * (b + 1) ≤ A * B := Nat.mul_le_mul_left _ hb
  rw [Nat.mul_add, Nat.mul_one] at this
  omega

theorem addr_lt {jd q nf f k n i r : Nat} (hk : k < jd) (hn : n < q) (hi : i < nf) (hr : r < f) :
    addr jd q nf k n i r < jd * (q * (nf * f)) := rad_lt hk (rad_lt hn (rad_lt hi hr))

theorem loop_sum_from (a b : Nat) (f : Nat → K) (c : K) :
    loop a b (fun p t => t + f p) c = c + ∑ p ∈ Finset.Ico a b, f p := by
  rcases Nat.le_total a b with hab | hab
  · exact loop_ind (P := fun k (t : K) => a ≤ k → t = c + ∑ p ∈ Finset.Ico a k, f p) hab
      (fun _ => by rw [Finset.Ico_self, Finset.sum_empty, add_zero])
      (fun i t h1 _ ht _ => by rw [ht h1, Finset.sum_Ico_succ_top h1, add_assoc]) hab
  · rw [loop_empty hab, Finset.Ico_eq_empty (by omega), Finset.sum_empty, add_zero]

/-- monotone starts -/
theorem st_mono {st : Nat → Nat} {N : Nat} (h : ∀ d, d < N → st d ≤ st (d + 1)) {a b : Nat} (hab : a ≤ b) (hb : b ≤ N) :
    st a ≤ st b := by
  induction b, hab using Nat.le_induction with
  | base => exact Nat.le_refl _
  | succ b _ ih => exact Nat.le_trans (ih (by omega)) (h b (by omega))

theorem part_unique {st : Nat → Nat} {N : Nat} (h : ∀ d, d < N → st d ≤ st (d + 1)) {d d' i : Nat} (hd : d < N)
    (hd' : d' < N) (h1 : st d ≤ i) (h2 : i < st (d + 1)) (h3 : st d' ≤ i) (h4 : i < st (d' + 1)) : d = d' := by
  rcases Nat.lt_trichotomy d d' with hlt | heq | hlt
  · have := st_mono h (show d + 1 ≤ d' from hlt) (by omega)
    omega
  · exact heq
  · have := st_mono h (show d' + 1 ≤ d from hlt) (by omega)
    omega

theorem part_exists {st : Nat → Nat} {N i : Nat} (h0 : st 0 = 0) (hN : i < st N) :
    ∃ d, d < N ∧ st d ≤ i ∧ i < st (d + 1) := by
  induction N with
  | zero => omega
  | succ N ih =>
    by_cases hlt : i < st N
    · obtain ⟨d, hd, h⟩ := ih hlt
      exact ⟨d, by omega, h⟩
    · exact ⟨N, by omega, by omega, hN⟩

/-- the value through the part of the column -/
theorem val_eq {U : Band K} {q dim nf : Nat} (ok : U.Ok q dim nf) {d l n i r : Nat} (hd : d < U.nparts)
    (h1 : U.stCol d ≤ i) (h2 : i < U.stCol (d + 1)) :
    U.val q l n i r = if U.stRow d ≤ l ∧ l < U.stRow (d + 1) then
      U.data d ((l - U.stRow d) + (U.stRow (d + 1) - U.stRow d) * n +
        q * (U.stRow (d + 1) - U.stRow d) * ((i - U.stCol d) + (U.stCol (d + 1) - U.stCol d) * r)) else 0 := by
  unfold Band.val
  rw [Finset.sum_eq_single d]
  · by_cases h : U.stRow d ≤ l ∧ l < U.stRow (d + 1)
    · rw [if_pos h, if_pos ⟨h, h1, h2⟩]
    · rw [if_neg h, if_neg (fun c => h c.1)]
  · intro d' hd' hne
    rw [if_neg]
    rintro ⟨_, h3, h4⟩
    exact hne (part_unique ok.colMono (Finset.mem_range.mp hd') hd h3 h4 h1 h2)
  · intro h
    exact absurd (Finset.mem_range.mpr hd) h

theorem sum_val {U : Band K} {q dim nf : Nat} (ok : U.Ok q dim nf) {d n i r : Nat} (hd : d < U.nparts)
    (h1 : U.stCol d ≤ i) (h2 : i < U.stCol (d + 1)) (g : Nat → K) :
    ∑ l ∈ Finset.range dim, g l * U.val q l n i r = ∑ l ∈ Finset.Ico (U.stRow d) (U.stRow (d + 1)), g l *
      U.data d ((l - U.stRow d) + (U.stRow (d + 1) - U.stRow d) * n +
        q * (U.stRow (d + 1) - U.stRow d) * ((i - U.stCol d) + (U.stCol (d + 1) - U.stCol d) * r)) := by
  have hsub : Finset.Ico (U.stRow d) (U.stRow (d + 1)) ⊆ Finset.range dim := by
    intro l hl
    rw [Finset.mem_Ico] at hl
    have := st_mono ok.rowMono (show d + 1 ≤ U.nparts from hd) (Nat.le_refl _)
    rw [ok.rowN] at this
    exact Finset.mem_range.mpr (by omega)
  rw [← Finset.sum_subset hsub]
  · refine Finset.sum_congr rfl (fun l hl => ?_)
    rw [val_eq ok hd h1 h2, if_pos (Finset.mem_Ico.mp hl)]
  · intro l _ hl
    rw [val_eq ok hd h1 h2, if_neg (fun c => hl (Finset.mem_Ico.mpr c)), mul_zero]

/-- Reading a nest of four loops which writes at the addresses of tetrahedron `r`, parts outermost. -/
theorem nest_at {st : Nat → Nat} {N jd q nf : Nat} (hm : ∀ d, d < N → st d ≤ st (d + 1)) (hN : st N = nf)
    {lo hi : Nat → Nat} (hhi : ∀ d, d < N → hi d ≤ jd) (v : Nat → Nat → Nat → Nat → K) {r d k n i : Nat}
    (hd : d < N) (h1 : st d ≤ i) (h2 : i < st (d + 1)) (hn : n < q) (hk : k < jd) (DU : Nat → K) :
    loop 0 N (fun d DU => loop (st d) (st (d + 1)) (fun i DU => loop 0 q (fun n DU => loop (lo d) (hi d) (fun k DU =>
      wr DU (addr jd q nf k n i r) (v d i n k)) DU) DU) DU) DU (addr jd q nf k n i r) =
    if lo d ≤ k ∧ k < hi d then v d i n k else DU (addr jd q nf k n i r) := by
  have hlt : ∀ {d i}, d < N → i < st (d + 1) → i < nf := by
    intro d i hd hi
    have := st_mono hm (show d + 1 ≤ N from hd) (Nat.le_refl _)
    omega
  have hin := hlt hd h2
  refine loop_at (fun o => if lo d ≤ k ∧ k < hi d then v d i n k else o) (Nat.zero_le _) hd (fun t => ?_)
    (fun d' t _ hd' hne => ?_)
  · refine loop_at (fun o => if lo d ≤ k ∧ k < hi d then v d i n k else o) h1 h2 (fun t => ?_) (fun i' t ha hb hne => ?_)
    · refine loop_at (fun o => if lo d ≤ k ∧ k < hi d then v d i n k else o) (Nat.zero_le _) hn (fun t => ?_)
        (fun n' t _ hb hne => ?_)
      · by_cases hc : lo d ≤ k ∧ k < hi d
        · rw [if_pos hc]
          refine loop_at (fun _ => v d i n k) hc.1 hc.2 (fun t => wr_same _ _ _) (fun k' t ha hb hne => ?_)
          exact wr_ne _ _ (fun e => hne (addr_inj hk (by have := hhi d hd; omega) hn hn hin hin e).1.symm)
        · rw [if_neg hc]
          refine loop_off (fun k' t ha hb => wr_ne _ _ (fun e => hc ?_))
          have := (addr_inj hk (by have := hhi d hd; omega) hn hn hin hin e).1
          omega
      · exact loop_off (fun k' t ha' hb' => wr_ne _ _ (fun e =>
          hne (addr_inj hk (by have := hhi d hd; omega) hn hb hin hin e).2.1.symm))
    · exact loop_off (fun n' t _ hn' => loop_off (fun k' t ha' hb' => wr_ne _ _ (fun e =>
          hne (addr_inj hk (by have := hhi d hd; omega) hn hn' hin (hlt hd hb) e).2.2.1.symm)))
  · refine loop_off (fun i' t ha hb => loop_off (fun n' t _ hn' => loop_off (fun k' t ha' hb' => wr_ne _ _ (fun e => ?_))))
    have := (addr_inj hk (by have := hhi d' hd'; omega) hn hn' hin (hlt hd' hb) e).2.2.1
    subst this
    exact hne (part_unique hm hd' hd ha hb h1 h2)

theorem nest_off {st : Nat → Nat} {N jd q nf : Nat} (hm : ∀ d, d < N → st d ≤ st (d + 1)) (hN : st N = nf)
    {lo hi : Nat → Nat} (hhi : ∀ d, d < N → hi d ≤ jd) (v : Nat → Nat → Nat → Nat → K) {r r' k n i : Nat}
    (hi' : i < nf) (hn : n < q) (hk : k < jd) (hne : r ≠ r') (DU : Nat → K) :
    loop 0 N (fun d DU => loop (st d) (st (d + 1)) (fun i DU => loop 0 q (fun n DU => loop (lo d) (hi d) (fun k DU =>
      wr DU (addr jd q nf k n i r) (v d i n k)) DU) DU) DU) DU (addr jd q nf k n i r') = DU (addr jd q nf k n i r') := by
  refine loop_off (fun d t _ hd => loop_off (fun i' t ha hb => loop_off (fun n' t _ hn' => loop_off (fun k' t ha' hb' =>
    wr_ne _ _ (fun e => ?_)))))
  have hin : i' < nf := by
    have := st_mono hm (show d + 1 ≤ N from hd) (Nat.le_refl _)
    omega
  exact hne (addr_inj hk (by have := hhi d hd; omega) hn hn' hi' hin e).2.2.2.symm

theorem part_of {U : Band K} {q dim nf i : Nat} (ok : U.Ok q dim nf) (hi : i < nf) :
    ∃ d, d < U.nparts ∧ U.stCol d ≤ i ∧ i < U.stCol (d + 1) :=
  part_exists ok.col0 (by rw [ok.colN]; exact hi)

theorem mulTet_at {a : Args K} (ok : a.U.Ok a.q a.idim a.nfa) {r i n k : Nat} (hi : i < a.nfa) (hn : n < a.q)
    (hk : k < a.jdim) (locD : Nat → Nat → K) (DU : Nat → K) :
    mulTet a r locD DU (addr a.jdim a.q a.nfa k n i r) =
      a.w n * a.mes r * ∑ l ∈ Finset.range a.idim, locD n (l + a.idim * k) * a.U.val a.q l n i r := by
  obtain ⟨d, hd, h1, h2⟩ := part_of ok hi
  unfold mulTet
  have := nest_at (lo := fun _ => 0) (hi := fun _ => a.jdim) (nf := a.nfa) (q := a.q) (jd := a.jdim) (r := r)
    ok.colMono ok.colN (fun _ _ => Nat.le_refl _)
    (fun d i n k => a.w n * a.mes r * loop (a.U.stRow d) (a.U.stRow (d + 1)) (fun j s => s + locD n (j + a.idim * k) *
          a.U.data d ((j - a.U.stRow d) + n * (a.U.stRow (d + 1) - a.U.stRow d) +
            a.U.nRow d * ((i - a.U.stCol d) + (a.U.stCol (d + 1) - a.U.stCol d) * r))) 0) hd h1 h2 hn hk DU
  rw [if_pos ⟨Nat.zero_le _, hk⟩] at this
  refine Eq.trans this ?_
  rw [loop_sum_from, zero_add, sum_val ok hd h1 h2]
  congr 1
  refine Finset.sum_congr rfl (fun l _ => ?_)
  rw [ok.rows d hd, Nat.mul_comm n]

theorem mulTet_off {a : Args K} (ok : a.U.Ok a.q a.idim a.nfa) {r r' i n k : Nat} (hi : i < a.nfa) (hn : n < a.q)
    (hk : k < a.jdim) (hne : r ≠ r') (locD : Nat → Nat → K) (DU : Nat → K) :
    mulTet a r locD DU (addr a.jdim a.q a.nfa k n i r') = DU (addr a.jdim a.q a.nfa k n i r') := by
  unfold mulTet
  exact nest_off (lo := fun _ => 0) (hi := fun _ => a.jdim) (nf := a.nfa) (q := a.q) (jd := a.jdim) (r := r)
    ok.colMono ok.colN (fun _ _ => Nat.le_refl _) _ hi hn hk hne DU

theorem rowEnd_le {U : Band K} {q dim nf : Nat} (ok : U.Ok q dim nf) {d : Nat} (hd : d < U.nparts) :
    U.stRow (d + 1) ≤ dim := by
  have := st_mono ok.rowMono (show d + 1 ≤ U.nparts from hd) (Nat.le_refl _)
  rwa [ok.rowN] at this

/-- a row the part of which is not the part of the column keeps its value -/
theorem diagTet_at {a : Args K} (ok : a.U.Ok a.q a.idim a.nfa) (hij : a.idim ≤ a.jdim) {r i n k : Nat} (hi : i < a.nfa)
    (hn : n < a.q) (hk : k < a.idim) (wg : Nat → K) (vol : K) (DU : Nat → K)
    (hz : a.U.nparts = 1 ∨ DU (addr a.jdim a.q a.nfa k n i r) = 0) :
    diagTet a r wg vol DU (addr a.jdim a.q a.nfa k n i r) = wg n * vol * a.U.val a.q k n i r := by
  obtain ⟨d, hd, h1, h2⟩ := part_of ok hi
  unfold diagTet
  have := nest_at (lo := a.U.stRow) (hi := fun d => a.U.stRow (d + 1)) (nf := a.nfa) (q := a.q) (jd := a.jdim) (r := r)
    ok.colMono ok.colN (fun d hd => Nat.le_trans (rowEnd_le ok hd) hij)
    (fun d i n k => wg n * vol * a.U.data d ((k - a.U.stRow d) + n * (a.U.stRow (d + 1) - a.U.stRow d) +
            a.U.nRow d * ((i - a.U.stCol d) + (a.U.stCol (d + 1) - a.U.stCol d) * r))) hd h1 h2 hn
    (show k < a.jdim by omega) DU
  refine Eq.trans this ?_
  rw [val_eq ok hd h1 h2]
  by_cases hc : a.U.stRow d ≤ k ∧ k < a.U.stRow (d + 1)
  · rw [if_pos hc, if_pos hc, ok.rows d hd, Nat.mul_comm n]
  · rw [if_neg hc, if_neg hc, mul_zero]
    rcases hz with hz | hz
    · exfalso
      apply hc
      have hd0 : d = 0 := by omega
      subst hd0
      have h0 := ok.row0
      have hN := ok.rowN
      rw [hz] at hN
      change a.U.stRow 0 ≤ k ∧ k < a.U.stRow 1
      omega
    · exact hz

theorem diagTet_off {a : Args K} (ok : a.U.Ok a.q a.idim a.nfa) (hij : a.idim ≤ a.jdim) {r r' i n k : Nat}
    (hi : i < a.nfa) (hn : n < a.q) (hk : k < a.jdim) (hne : r ≠ r') (wg : Nat → K) (vol : K) (DU : Nat → K) :
    diagTet a r wg vol DU (addr a.jdim a.q a.nfa k n i r') = DU (addr a.jdim a.q a.nfa k n i r') := by
  unfold diagTet
  exact nest_off (lo := a.U.stRow) (hi := fun d => a.U.stRow (d + 1)) (nf := a.nfa) (q := a.q) (jd := a.jdim) (r := r)
    ok.colMono ok.colN (fun d hd => Nat.le_trans (rowEnd_le ok hd) hij) _ hi hn hk hne DU

theorem spreadTet_at {a : Args K} {r n k : Nat} (hf : 0 < a.nfa) (hd : 0 < a.idim) (hij : a.idim ≤ a.jdim) (hn : n < a.q)
    (hk : k < a.jdim) (DU : Nat → K) :
    spreadTet a r DU (addr a.jdim a.q a.nfa k n 0 r) =
      if a.idim ≤ k then DU (addr a.jdim a.q a.nfa 0 n 0 r) else DU (addr a.jdim a.q a.nfa k n 0 r) := by
  have hj : 0 < a.jdim := by omega
  unfold spreadTet
  -- row 0 is never written
  have row0 : ∀ n' t n'', n' < a.q → n'' < a.q →
      loop a.idim a.jdim (fun k DU => wr DU (k + a.jdim * (n' + a.q * (0 + a.nfa * r)))
        (DU (0 + a.jdim * (n' + a.q * (0 + a.nfa * r))))) t (addr a.jdim a.q a.nfa 0 n'' 0 r) =
      (t : Nat → K) (addr a.jdim a.q a.nfa 0 n'' 0 r) := by
    intro n' t n'' hn' hn''
    refine loop_off (fun k' t ha hb => wr_ne _ _ (fun e => ?_))
    have := (addr_inj (jd := a.jdim) (q := a.q) (nf := a.nfa) hj hb hn'' hn' hf hf e).1
    omega
  have H := loop_ind (P := fun m (t : Nat → K) =>
      (∀ n, n < a.q → t (addr a.jdim a.q a.nfa 0 n 0 r) = DU (addr a.jdim a.q a.nfa 0 n 0 r)) ∧
      t (addr a.jdim a.q a.nfa k n 0 r) = if n < m ∧ a.idim ≤ k then DU (addr a.jdim a.q a.nfa 0 n 0 r)
        else DU (addr a.jdim a.q a.nfa k n 0 r)) (f := fun n DU => loop a.idim a.jdim (fun k DU =>
    wr DU (k + a.jdim * (n + a.q * (0 + a.nfa * r))) (DU (0 + a.jdim * (n + a.q * (0 + a.nfa * r))))) DU) (s := DU)
    (Nat.zero_le a.q) ⟨fun _ _ => rfl, by rw [if_neg (by omega)]⟩
    (fun n' t _ hn' ht => by
      refine ⟨fun n'' hn'' => by rw [row0 n' t n'' hn' hn'', ht.1 n'' hn''], ?_⟩
      by_cases hnn : n' = n
      · subst hnn
        by_cases hc : a.idim ≤ k
        · rw [if_pos ⟨by omega, hc⟩]
          have := loop_ind (P := fun k' (t : Nat → K) =>
            t (addr a.jdim a.q a.nfa 0 n' 0 r) = DU (addr a.jdim a.q a.nfa 0 n' 0 r) ∧
            (k < k' → t (addr a.jdim a.q a.nfa k n' 0 r) = DU (addr a.jdim a.q a.nfa 0 n' 0 r)))
            (f := fun k DU => wr DU (k + a.jdim * (n' + a.q * (0 + a.nfa * r)))
              (DU (0 + a.jdim * (n' + a.q * (0 + a.nfa * r))))) (s := t) hij
            ⟨ht.1 n' hn', fun h => by omega⟩
            (fun k' t ha hb ht => by
              refine ⟨?_, fun hkk => ?_⟩
              · rw [← ht.1]
                refine wr_ne _ _ (fun e => ?_)
                have := (addr_inj (jd := a.jdim) (q := a.q) (nf := a.nfa) hj hb hn' hn' hf hf e).1
                omega
              · by_cases he : k = k'
                · subst he
                  exact (wr_same _ _ _).trans ht.1
                · rw [← ht.2 (by omega)]
                  refine wr_ne _ _ (fun e => ?_)
                  exact he (addr_inj (jd := a.jdim) (q := a.q) (nf := a.nfa) hk hb hn' hn' hf hf e).1)
          exact this.2 hk
        · rw [if_neg (fun h => hc h.2)]
          rw [if_neg (fun h => hc h.2)] at ht
          rw [← ht.2]
          refine loop_off (fun k' t ha hb => wr_ne _ _ (fun e => ?_))
          have := (addr_inj (jd := a.jdim) (q := a.q) (nf := a.nfa) hk hb hn' hn' hf hf e).1
          omega
      · have hoff : loop a.idim a.jdim (fun k DU => wr DU (k + a.jdim * (n' + a.q * (0 + a.nfa * r)))
              (DU (0 + a.jdim * (n' + a.q * (0 + a.nfa * r))))) t (addr a.jdim a.q a.nfa k n 0 r) =
              t (addr a.jdim a.q a.nfa k n 0 r) := by
          refine loop_off (fun k' t ha hb => wr_ne _ _ (fun e => ?_))
          exact hnn (addr_inj (jd := a.jdim) (q := a.q) (nf := a.nfa) hk hb hn hn' hf hf e).2.1.symm
        rw [hoff, ht.2]
        by_cases hc : n < n' ∧ a.idim ≤ k
        · rw [if_pos hc, if_pos ⟨by omega, hc.2⟩]
        · rw [if_neg hc, if_neg (by omega)])
  rw [H.2]
  by_cases hc : a.idim ≤ k
  · rw [if_pos ⟨hn, hc⟩, if_pos hc]
  · rw [if_neg (fun h => hc h.2), if_neg hc]

theorem spreadTet_off {a : Args K} {r r' n k i : Nat} (hi : i < a.nfa) (hn : n < a.q)
    (hk : k < a.jdim) (hne : r ≠ r') (DU : Nat → K) :
    spreadTet a r DU (addr a.jdim a.q a.nfa k n i r') = DU (addr a.jdim a.q a.nfa k n i r') := by
  unfold spreadTet
  refine loop_off (fun n' t _ hn' => loop_off (fun k' t ha hb => wr_ne _ _ (fun e => ?_)))
  exact hne (addr_inj (jd := a.jdim) (q := a.q) (nf := a.nfa) hk hb hn hn' hi (by omega) e).2.2.2.symm

theorem clash_iff (a : Args K) : clash a = false ↔ a.jdim = a.idim ∨ (a.nfa = 1 ∧ a.idim = 1) := by
  unfold clash
  rw [decide_eq_false_iff_not]
  omega

/-- one tetrahedron of a scalar tensor, copies included -/
theorem scal_tet {a : Args K} (ok : a.U.Ok a.q a.idim a.nfa) (hc : clash a = false) {r i n k : Nat}
    (hi : i < a.nfa) (hn : n < a.q) (hk : k < a.jdim) (wg : Nat → K) (vol : K) (DU : Nat → K)
    (hz : a.U.nparts = 1 ∨ ∀ k, k < a.jdim → DU (addr a.jdim a.q a.nfa k n i r) = 0) :
    (if a.jdim ≠ a.idim then spreadTet a r (diagTet a r wg vol DU) else diagTet a r wg vol DU)
      (addr a.jdim a.q a.nfa k n i r) =
    wg n * vol * a.U.val a.q (if a.jdim = a.idim then k else 0) n i r := by
  rw [clash_iff] at hc
  by_cases hd : a.jdim = a.idim
  · rw [if_neg (by omega), if_pos hd]
    exact diagTet_at ok (by omega) hi hn (by omega) wg vol DU (hz.imp id (fun h => h k hk))
  · rw [if_pos hd, if_neg hd]
    have hi0 : i = 0 := by omega
    subst hi0
    have h1 : a.idim = 1 := by omega
    have hj : a.idim ≤ a.jdim := by omega
    rw [spreadTet_at hi (by omega) hj hn hk]
    have h0 := diagTet_at ok hj (r := r) hi hn (show 0 < a.idim by omega) wg vol DU (hz.imp id (fun h => h 0 (by omega)))
    by_cases hk0 : a.idim ≤ k
    · rw [if_pos hk0, h0]
    · rw [if_neg hk0]
      have : k = 0 := by omega
      subst this
      exact h0

/-- a loop over the tetrahedrons whose pass `r` only concerns the addresses of `r` -/
theorem tets_at {a : Args K} {DU : Nat → K} {g : Nat → (Nat → K) → (Nat → K)} {r i n k : Nat} (hr : r < a.f) (hi : i < a.nfa)
    (hn : n < a.q) (hk : k < a.jdim) (c : K)
    (hat : ∀ t : Nat → K, (∀ i, i < a.nfa → ∀ n, n < a.q → ∀ k, k < a.jdim →
      t (addr a.jdim a.q a.nfa k n i r) = DU (addr a.jdim a.q a.nfa k n i r)) → g r t (addr a.jdim a.q a.nfa k n i r) = c)
    (hoff : ∀ r' r'' t, r' < a.f → r' ≠ r'' → ∀ i, i < a.nfa → ∀ n, n < a.q → ∀ k, k < a.jdim →
      g r' t (addr a.jdim a.q a.nfa k n i r'') = t (addr a.jdim a.q a.nfa k n i r'')) :
    loop 0 a.f g DU (addr a.jdim a.q a.nfa k n i r) = c := by
  have := loop_ind (P := fun m (t : Nat → K) => (m ≤ r → ∀ i, i < a.nfa → ∀ n, n < a.q → ∀ k, k < a.jdim →
      t (addr a.jdim a.q a.nfa k n i r) = DU (addr a.jdim a.q a.nfa k n i r)) ∧
      (r < m → t (addr a.jdim a.q a.nfa k n i r) = c)) (f := g) (s := DU) (Nat.zero_le a.f)
    ⟨fun _ _ _ _ _ _ _ => rfl, fun h => by omega⟩
    (fun m t _ hm ht => by
      refine ⟨fun hle i hi n hn k hk => ?_, fun hlt => ?_⟩
      · rw [hoff m r t hm (by omega) i hi n hn k hk, ht.1 (by omega) i hi n hn k hk]
      · by_cases he : m = r
        · subst he
          exact hat t (ht.1 (Nat.le_refl _))
        · rw [hoff m r t hm he i hi n hn k hk, ht.2 (by omega)])
  exact this.2 hr

end Verif.Elemental
