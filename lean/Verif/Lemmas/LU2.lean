import Verif.Lemmas.LU

/-!
The invariant of the fully pivoted LU factorisation and the triangular solves.
-/
set_option linter.unusedSectionVars false

namespace Verif.Dense

open Finset

variable {K : Type} [Field K] [LinearOrder K] [IsStrictOrderedRing K]

/-- unit lower triangle -/
def lF (N : Nat) (C : Nat → K) (i t : Nat) : K := if t < i then ent N C i t else if t = i then 1 else 0

/-- upper triangle -/
def uF (N : Nat) (C : Nat → K) (t j : Nat) : K := if t ≤ j then ent N C t j else 0

theorem PermOn.swap {N : Nat} {p : Nat → Nat} (h : PermOn N p) {x y : Nat} (hx : x < N) (hy : y < N) :
    PermOn N (swapAt p x y) := by
  obtain ⟨p', h'⟩ := h
  refine ⟨fun i => sw x y (p' i), ?_⟩
  intro i hi
  rw [swapAt_sw]
  have h1 := sw_lt hx hy hi
  refine ⟨(h' _ h1).1, sw_lt hx hy (h' i hi).2.1, ?_, ?_⟩
  · show sw x y (p' (p (sw x y i))) = i
    rw [(h' _ h1).2.2.1, sw_sw]
  · rw [swapAt_sw, sw_sw]
    exact (h' i hi).2.2.2

theorem PermOn.id (N : Nat) : PermOn N id := ⟨fun i => i, fun _ hi => ⟨hi, hi, rfl, rfl⟩⟩

theorem PermOn.sum {N : Nat} {p : Nat → Nat} (h : PermOn N p) (f : Nat → K) :
    ∑ j ∈ range N, f (p j) = ∑ j ∈ range N, f j := by
  obtain ⟨p', h'⟩ := h
  refine sum_nbij' p p' ?_ ?_ ?_ ?_ ?_
  · intro a ha; rw [mem_range] at ha ⊢; exact (h' a ha).1
  · intro a ha; rw [mem_range] at ha ⊢; exact (h' a ha).2.1
  · intro a ha; rw [mem_range] at ha; exact (h' a ha).2.2.1
  · intro a ha; rw [mem_range] at ha; exact (h' a ha).2.2.2
  · intro a _; rfl

/-- after `k` steps the exchanged matrix is the product of the computed triangles plus the remaining block -/
structure LInv (N : Nat) (A0 : Nat → K) (k : Nat) (s : LUState K) : Prop where
  prod : ∀ i j, i < N → j < N → ent N A0 (s.p i) (s.q j) =
    ∑ t ∈ range k, lF N s.A i t * uF N s.A t j + if k ≤ i ∧ k ≤ j then ent N s.A i j else 0
  piv : ∀ t, t < k → t < N → ent N s.A t t ≠ 0
  permP : PermOn N s.p
  permQ : PermOn N s.q

/-- exchange of a row and of a column that are not eliminated yet -/
theorem LInv.swap {N k : Nat} (hk : k < N) {A0 : Nat → K} {s : LUState K} (h : LInv N A0 k s) {pi pj : Nat}
    (hpi : k ≤ pi) (hpi' : pi < N) (hpj : k ≤ pj) (hpj' : pj < N) :
    LInv N A0 k ⟨swapCols N k pj (swapRows N k pi s.A), swapAt s.p k pi, swapAt s.q k pj⟩ := by
  have e : ∀ r c, r < N → c < N →
      ent N (swapCols N k pj (swapRows N k pi s.A)) r c = ent N s.A (sw k pi r) (sw k pj c) := by
    intro r c hr hc
    rw [swapCols_ent hk hpj' _ hr hc, swapRows_ent hk hpi' _ hr (sw_lt hk hpj' hc)]
  constructor
  · intro i j hi hj
    show ent N A0 (swapAt s.p k pi i) (swapAt s.q k pj j) = _
    rw [swapAt_sw, swapAt_sw, h.prod _ _ (sw_lt hk hpi' hi) (sw_lt hk hpj' hj)]
    congr 1
    · refine sum_congr rfl fun t ht => ?_
      rw [mem_range] at ht
      congr 1
      · unfold lF
        rcases Nat.lt_or_ge i k with hik | hik
        · rw [sw_of_lt hpi hik]
          by_cases hb : t < i
          · rw [if_pos hb, if_pos hb, e i t hi (by omega), sw_of_lt hpi hik, sw_of_lt hpj ht]
          · rw [if_neg hb, if_neg hb]
        · have := (sw_ge (z := i) hpi).mpr hik
          rw [if_pos (by omega), if_pos (by omega), e i t hi (by omega), sw_of_lt hpj ht]
      · unfold uF
        rcases Nat.lt_or_ge j k with hjk | hjk
        · rw [sw_of_lt hpj hjk]
          by_cases hb : t ≤ j
          · rw [if_pos hb, if_pos hb, e t j (by omega) hj, sw_of_lt hpj hjk, sw_of_lt hpi ht]
          · rw [if_neg hb, if_neg hb]
        · have := (sw_ge (z := j) hpj).mpr hjk
          rw [if_pos (by omega), if_pos (by omega), e t j (by omega) hj, sw_of_lt hpi ht]
    · have h1 := sw_ge (z := i) hpi
      have h2 := sw_ge (z := j) hpj
      by_cases hb : k ≤ i ∧ k ≤ j
      · rw [if_pos hb, if_pos ⟨h1.mpr hb.1, h2.mpr hb.2⟩]
        exact (e i j hi hj).symm
      · rw [if_neg hb, if_neg (fun hc => hb ⟨h1.mp hc.1, h2.mp hc.2⟩)]
  · intro t ht htN
    show ent N (swapCols N k pj (swapRows N k pi s.A)) t t ≠ 0
    rw [e t t htN htN, sw_of_lt hpi ht, sw_of_lt hpj ht]
    exact h.piv t ht htN
  · exact h.permP.swap hk hpi'
  · exact h.permQ.swap hk hpj'

/-- elimination of one column; `C'` is the matrix afterwards -/
theorem LInv.elim {N k : Nat} (hk : k < N) {A0 : Nat → K} {s : LUState K} (h : LInv N A0 k s) (hp : ent N s.A k k ≠ 0)
    {C' : Nat → K}
    (hC : ∀ r c, r < N → c < N → ent N C' r c =
      if k < r ∧ k < c then ent N s.A r c - ent N s.A r k / ent N s.A k k * ent N s.A k c
      else if k < r ∧ c = k then ent N s.A r k / ent N s.A k k else ent N s.A r c) :
    LInv N A0 (k + 1) ⟨C', s.p, s.q⟩ := by
  have hlo : ∀ i t, i < N → t < k → lF N C' i t = lF N s.A i t := by
    intro i t hi ht
    unfold lF
    by_cases hb : t < i
    · rw [if_pos hb, if_pos hb, hC i t hi (by omega), if_neg (by omega), if_neg (by omega)]
    · rw [if_neg hb, if_neg hb]
  have hup : ∀ t j, j < N → t ≤ k → uF N C' t j = uF N s.A t j := by
    intro t j hj ht
    unfold uF
    by_cases hb : t ≤ j
    · rw [if_pos hb, if_pos hb, hC t j (by omega) hj, if_neg (by omega), if_neg (by omega)]
    · rw [if_neg hb, if_neg hb]
  constructor
  · intro i j hi hj
    show ent N A0 (s.p i) (s.q j) = ∑ t ∈ range (k + 1), lF N C' i t * uF N C' t j +
      if k + 1 ≤ i ∧ k + 1 ≤ j then ent N C' i j else 0
    rw [h.prod i j hi hj, sum_range_succ]
    have e : ∑ t ∈ range k, lF N C' i t * uF N C' t j = ∑ t ∈ range k, lF N s.A i t * uF N s.A t j := by
      refine sum_congr rfl fun t ht => ?_
      rw [mem_range] at ht
      rw [hlo i t hi ht, hup t j hj (by omega)]
    rw [e, hup k j hj (Nat.le_refl _)]
    rcases Nat.lt_trichotomy i k with hik | hik | hik
    · rw [if_neg (by omega), if_neg (by omega)]
      unfold lF
      rw [if_neg (show ¬ k < i by omega), if_neg (show ¬ k = i by omega)]; ring
    · subst hik
      rw [if_neg (show ¬ (i + 1 ≤ i ∧ i + 1 ≤ j) by omega)]
      have : lF N C' i i = 1 := by unfold lF; rw [if_neg (by omega), if_pos rfl]
      rw [this]
      unfold uF
      by_cases hb : i ≤ j
      · rw [if_pos ⟨Nat.le_refl _, hb⟩, if_pos hb]; ring
      · rw [if_neg (fun hc => hb hc.2), if_neg hb]; ring
    · have hl : lF N C' i k = ent N s.A i k / ent N s.A k k := by
        unfold lF; rw [if_pos hik, hC i k hi hk, if_neg (by omega), if_pos ⟨hik, rfl⟩]
      rw [hl]
      unfold uF
      rcases Nat.lt_trichotomy j k with hjk | hjk | hjk
      · rw [if_neg (by omega), if_neg (by omega), if_neg (by omega)]; ring
      · subst hjk
        rw [if_pos (by omega), if_pos (by omega), if_neg (by omega)]
        field_simp
        ring
      · rw [if_pos (by omega), if_pos (by omega), if_pos (by omega), hC i j hi hj, if_pos (by omega)]
        ring
  · intro t ht htN
    show ent N C' t t ≠ 0
    rw [hC t t htN htN, if_neg (by omega), if_neg (by omega)]
    rcases Nat.lt_or_ge t k with hb | hb
    · exact h.piv t hb htN
    · have : t = k := by omega
      rw [this]; exact hp
  · exact h.permP
  · exact h.permQ

/-- one step of the factorisation with an exact test -/
theorem LInv.step {N k : Nat} (hk : k < N) {A0 : Nat → K} {s s' : LUState K} (h : LInv N A0 k s)
    (hs : luStep 0 N k s = some s') : LInv N A0 (k + 1) s' := by
  unfold luStep at hs
  obtain ⟨hmx, _, hsome⟩ := pivot_spec (Nat.le_of_lt hk) s.A
  generalize hpiv : luPivot N k s.A = pv at hs hmx hsome
  obtain ⟨o, mx⟩ := pv
  match o, hs with
  | some (pi, pj), hs =>
    obtain ⟨h1, h2, h3, h4, h5, h6⟩ := hsome pi pj rfl
    have hsw := h.swap hk h1 h2 h3 h4
    have hkk : ent N (swapCols N k pj (swapRows N k pi s.A)) k k = ent N s.A pi pj := by
      rw [swapCols_ent hk h4 _ hk hk, swapRows_ent hk h2 _ hk (sw_lt hk h4 hk)]
      simp [sw]
    have hne : ent N (swapCols N k pj (swapRows N k pi s.A)) k k ≠ 0 := by
      rw [hkk]; intro h0; rw [h0, abs_zero] at h5; rw [← h5] at h6; exact lt_irrefl _ h6
    simp only at hs
    split at hs
    · simp only [Option.some.injEq] at hs
      rw [← hs]
      exact hsw.elim hk hne (fun r c hr hc => elim_ent hk _ hr hc)
    · rename_i hcond
      simp only [Option.some.injEq] at hs
      rw [← hs]
      obtain ⟨m1, m2⟩ := max1_spec hk (swapCols N k pj (swapRows N k pi s.A))
      have h6' : 0 < mx := h6
      have hm0 : luMax1 N k (swapCols N k pj (swapRows N k pi s.A)) = 0 := by
        by_contra hb
        have hpos := lt_of_le_of_ne m1 (Ne.symm hb)
        exact hcond ⟨h6', hpos, div_pos hpos h6'⟩
      rw [hm0] at m2
      refine hsw.elim hk hne ?_
      intro r c hr hc
      have hz : k < r → ent N (swapCols N k pj (swapRows N k pi s.A)) r k = 0 := fun hkr =>
        abs_nonpos_iff.mp (m2 r hkr hr)
      by_cases hb : k < r
      · by_cases hb2 : k < c
        · rw [if_pos ⟨hb, hb2⟩]
          show ent N _ r c = _
          rw [hz hb]; ring
        · rw [if_neg (by omega)]
          by_cases hb3 : c = k
          · rw [if_pos ⟨hb, hb3⟩, hb3]
            show ent N _ r k = _
            rw [hz hb]; ring
          · rw [if_neg (by omega)]
      · rw [if_neg (by omega), if_neg (by omega)]

theorem LInv.zero {N : Nat} (A0 : Nat → K) : LInv N A0 0 ⟨A0, id, id⟩ := by
  constructor
  · intro i j _ _
    rw [range_zero, sum_empty, if_pos ⟨Nat.zero_le _, Nat.zero_le _⟩, zero_add]; rfl
  · intro t ht; omega
  · exact PermOn.id N
  · exact PermOn.id N

/-- all steps: a full factorisation, or a step at which the remaining block is zero -/
theorem lu_cases {N : Nat} (A0 : Nat → K) : ∀ n, n ≤ N →
    (∃ s, (List.range n).foldlM (fun s k => luStep 0 N k s) ⟨A0, id, id⟩ = some s ∧ LInv N A0 n s) ∨
    ((List.range n).foldlM (fun s k => luStep 0 N k s) ⟨A0, id, id⟩ = none ∧
      ∃ k s, k < N ∧ LInv N A0 k s ∧ ∀ i j, k ≤ i → i < N → k ≤ j → j < N → ent N s.A i j = 0) := by
  intro n
  induction n with
  | zero => intro _; exact Or.inl ⟨_, rfl, LInv.zero A0⟩
  | succ n ih =>
    intro hn
    rw [List.range_succ, List.foldlM_append]
    rcases ih (by omega) with ⟨s, h1, h2⟩ | ⟨h1, h2⟩
    · rw [h1]
      simp only [List.foldlM_cons, List.foldlM_nil, Option.bind_eq_bind, Option.bind_some, Option.pure_def]
      cases hst : luStep 0 N n s with
      | none =>
        right
        refine ⟨rfl, n, s, by omega, h2, ?_⟩
        unfold luStep at hst
        obtain ⟨hmx, hnone, _⟩ := pivot_spec (show n ≤ N by omega) s.A
        generalize luPivot N n s.A = pv at hst hmx hnone
        obtain ⟨o, mx⟩ := pv
        match o, hst with
        | none, _ =>
          intro i j a b c d
          have := hmx i j a b c d
          have h0 : mx = 0 := hnone rfl
          rw [h0] at this
          exact abs_nonpos_iff.mp this
        | some (pi, pj), hst =>
          simp only at hst
          split at hst <;> cases hst
      | some s' => exact Or.inl ⟨s', rfl, h2.step (by omega) hst⟩
    · rw [h1]
      exact Or.inr ⟨rfl, h2⟩

/-- a vector annihilated by the computed rows of the upper triangle -/
theorem upper_null {N k : Nat} {C : Nat → K} (hp : ∀ t, t < k → ent N C t t ≠ 0) : ∀ m, m ≤ k →
    ∃ x : Nat → K, x k = 1 ∧ (∀ i, k < i → x i = 0) ∧
      ∀ t, k ≤ t + m → t < k → ∑ j ∈ Ico t (k + 1), ent N C t j * x j = 0 := by
  intro m
  induction m with
  | zero =>
    intro _
    refine ⟨fun i => if i = k then 1 else 0, if_pos rfl, fun i hi => if_neg (by omega), ?_⟩
    intro t h1 h2; omega
  | succ m ih =>
    intro hm
    obtain ⟨x, h1, h2, h3⟩ := ih (by omega)
    let t0 := k - (m + 1)
    have ht0 : t0 < k := by omega
    refine ⟨Function.update x t0 (-(∑ j ∈ Ico (t0 + 1) (k + 1), ent N C t0 j * x j) / ent N C t0 t0), ?_, ?_, ?_⟩
    · rw [Function.update_of_ne (by omega)]; exact h1
    · intro i hi
      rw [Function.update_of_ne (by omega)]; exact h2 i hi
    · intro t ha hb
      rw [sum_eq_sum_Ico_succ_bot (by omega)]
      have e : ∑ j ∈ Ico (t + 1) (k + 1), ent N C t j * Function.update x t0
            (-(∑ j ∈ Ico (t0 + 1) (k + 1), ent N C t0 j * x j) / ent N C t0 t0) j =
          ∑ j ∈ Ico (t + 1) (k + 1), ent N C t j * x j := by
        refine sum_congr rfl fun i hi => ?_
        rw [mem_Ico] at hi
        rw [Function.update_of_ne (by omega)]
      rw [e]
      rcases Nat.lt_or_ge t0 t with h | h
      · rw [Function.update_of_ne (by omega)]
        have h4 := h3 t (by omega) hb
        rw [sum_eq_sum_Ico_succ_bot (by omega)] at h4
        exact h4
      · have : t = t0 := by omega
        rw [this, Function.update_self]
        have := hp t0 ht0
        field_simp
        ring

/-- a full factorisation: products with the exchanged matrix -/
theorem LInv.apply {N : Nat} {A0 : Nat → K} {s : LUState K} (h : LInv N A0 N s) (z : Nat → K) {i : Nat} (hi : i < N) :
    ∑ j ∈ range N, ent N A0 (s.p i) (s.q j) * z j =
      ∑ t ∈ range N, lF N s.A i t * ∑ j ∈ range N, uF N s.A t j * z j := by
  have e : ∑ j ∈ range N, ent N A0 (s.p i) (s.q j) * z j =
      ∑ j ∈ range N, ∑ t ∈ range N, lF N s.A i t * (uF N s.A t j * z j) := by
    refine sum_congr rfl fun j hj => ?_
    rw [mem_range] at hj
    rw [h.prod i j hi hj, if_neg (by omega), add_zero, sum_mul]
    exact sum_congr rfl fun t _ => by ring
  rw [e, sum_comm]
  exact sum_congr rfl fun t _ => by rw [mul_sum]

end Verif.Dense
