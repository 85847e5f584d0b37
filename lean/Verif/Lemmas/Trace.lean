import Verif.Spec.Trace
import Verif.Props.Spaces
import Mathlib.Algebra.BigOperators.Group.Finset.Basic

/-!
Lemmas about traces: shape functions that are products over the nodes.
-/
namespace Verif.Trace

open Verif.Geometry Verif.Spaces

variable {K : Type} [Field K] [LinearOrder K] [IsStrictOrderedRing K]

theorem opp_lt (s : Nat) : opp s < 4 := Nat.mod_lt _ (by omega)

/-- the nodes of a face -/
def nodes (s : Nat) : Finset Nat := (Finset.range 4).erase (opp s)

theorem mem_nodes {s a : Nat} : a ∈ nodes s ↔ a < 4 ∧ a ≠ opp s := by
  unfold nodes
  rw [Finset.mem_erase, Finset.mem_range, and_comm]

theorem card_nodes (s : Nat) : (nodes s).card = 3 := by
  unfold nodes
  rw [Finset.card_erase_of_mem (Finset.mem_range.2 (opp_lt s)), Finset.card_range]

theorem shares_bij {T T' : Nat → Nat → K} {s s' : Nat} {π : Nat → Nat} (h : Shares T s T' s' π) :
    (nodes s).image π = nodes s' := by
  refine Finset.eq_of_subset_of_card_le (fun b hb => ?_) ?_
  · obtain ⟨a, ha, rfl⟩ := Finset.mem_image.1 hb
    have ha := mem_nodes.1 ha
    exact mem_nodes.2 ⟨(h a ha.1 ha.2).1, (h a ha.1 ha.2).2.1⟩
  · rw [card_nodes, Finset.card_image_of_injOn, card_nodes]
    intro a ha b hb e
    have ha := mem_nodes.1 ha
    have hb := mem_nodes.1 hb
    exact (h a ha.1 ha.2).2.2.2 b hb.1 hb.2 e

theorem shares_prod {M : Type} [CommMonoid M] {T T' : Nat → Nat → K} {s s' : Nat} {π : Nat → Nat} (h : Shares T s T' s' π)
    (g : Nat → M) : ∏ b ∈ nodes s', g b = ∏ a ∈ nodes s, g (π a) := by
  rw [← shares_bij h, Finset.prod_image]
  intro a ha b hb e
  have ha := mem_nodes.1 ha
  have hb := mem_nodes.1 hb
  exact (h a ha.1 ha.2).2.2.2 b hb.1 hb.2 e

theorem shares_sum {M : Type} [AddCommMonoid M] {T T' : Nat → Nat → K} {s s' : Nat} {π : Nat → Nat} (h : Shares T s T' s' π)
    (g : Nat → M) : ∑ b ∈ nodes s', g b = ∑ a ∈ nodes s, g (π a) := by
  rw [← shares_bij h, Finset.sum_image]
  intro a ha b hb e
  have ha := mem_nodes.1 ha
  have hb := mem_nodes.1 hb
  exact (h a ha.1 ha.2).2.2.2 b hb.1 hb.2 e

theorem split_sum {M : Type} [AddCommMonoid M] (s : Nat) (g : Nat → M) :
    ∑ a ∈ Finset.range 4, g a = g (opp s) + ∑ a ∈ nodes s, g a :=
  (Finset.add_sum_erase _ g (Finset.mem_range.2 (opp_lt s))).symm

theorem split_prod {M : Type} [CommMonoid M] (s : Nat) (g : Nat → M) :
    ∏ a ∈ Finset.range 4, g a = g (opp s) * ∏ a ∈ nodes s, g a :=
  (Finset.mul_prod_erase _ g (Finset.mem_range.2 (opp_lt s))).symm

theorem bary_iff (T : Nat → Nat → K) (x l : Nat → K) : IsBary (T 0) (T 1) (T 2) (T 3) x l ↔
    (∑ a ∈ Finset.range 4, l a = 1 ∧ ∀ k, k < 3 → x k = ∑ a ∈ Finset.range 4, l a * T a k) := by
  unfold IsBary
  simp only [Finset.sum_range_succ, Finset.sum_range_zero, zero_add]
  exact and_congr_right fun _ => forall₂_congr fun _ _ => eq_comm

/-- the coordinates with respect to the other tetrahedron of a point of a shared face -/
theorem shares_bary {T T' : Nat → Nat → K} {s s' : Nat} {π : Nat → Nat} (h : Shares T s T' s' π) (hv' : Nondeg T') {x x' l l' : Nat → K}
    (hl : IsBary (T 0) (T 1) (T 2) (T 3) x l) (hl' : IsBary (T' 0) (T' 1) (T' 2) (T' 3) x' l') (hx : SamePt x x')
    (h0 : l (opp s) = 0) : l' (opp s') = 0 ∧ ∀ a, a < 4 → a ≠ opp s → l' (π a) = l a := by
  classical
  -- the coordinates read back
  have hinj : ∀ a ∈ nodes s, ∀ b ∈ nodes s, π a = π b → a = b := by
    intro a ha b hb e
    have ha := mem_nodes.1 ha
    have hb := mem_nodes.1 hb
    exact (h a ha.1 ha.2).2.2.2 b hb.1 hb.2 e
  let m : Nat → K := fun b => ∑ a ∈ nodes s, if π a = b then l a else 0
  have hm : ∀ a ∈ nodes s, m (π a) = l a := by
    intro a ha
    show ∑ b ∈ nodes s, (if π b = π a then l b else 0) = l a
    rw [Finset.sum_eq_single a]
    · simp
    · intro b hb hne
      rw [if_neg (fun e => hne (hinj b hb a ha e))]
    · intro h; exact absurd ha h
  have hmo : m (opp s') = 0 := by
    refine Finset.sum_eq_zero (fun a ha => if_neg ?_)
    have ha := mem_nodes.1 ha
    exact (h a ha.1 ha.2).2.1
  rw [bary_iff] at hl
  have hmb : IsBary (T' 0) (T' 1) (T' 2) (T' 3) x' m := by
    rw [bary_iff]
    refine ⟨?_, fun k hk => ?_⟩
    · rw [split_sum s', hmo, zero_add, shares_sum h, ← hl.1, split_sum s, h0, zero_add]
      exact Finset.sum_congr rfl hm
    · rw [← hx k hk, hl.2 k hk, split_sum s, h0, zero_mul, zero_add, split_sum s', hmo, zero_mul, zero_add, shares_sum h]
      refine Finset.sum_congr rfl (fun a ha => ?_)
      rw [hm a ha]
      have ha := mem_nodes.1 ha
      rw [(h a ha.1 ha.2).2.2.1 k hk]
  have hu := bary_unique hv' hl' hmb
  refine ⟨by rw [hu _ (opp_lt s'), hmo], fun a ha hne => ?_⟩
  rw [hu _ (h a ha hne).1, hm a (mem_nodes.2 ⟨ha, hne⟩)]

/-- shares is symmetric -/
theorem shares_symm {T T' : Nat → Nat → K} {s s' : Nat} {π : Nat → Nat} (h : Shares T s T' s' π) :
    ∃ ρ, Shares T' s' T s ρ ∧ ∀ a, a < 4 → a ≠ opp s → ρ (π a) = a := by
  classical
  have hex : ∀ b, b ∈ nodes s' → ∃ a, a ∈ nodes s ∧ π a = b := by
    intro b hb
    rw [← shares_bij h] at hb
    exact Finset.mem_image.1 hb
  let ρ : Nat → Nat := fun b => if hb : b ∈ nodes s' then (hex b hb).choose else 0
  have hρ : ∀ b, b ∈ nodes s' → ρ b ∈ nodes s ∧ π (ρ b) = b := by
    intro b hb
    show (if hb : b ∈ nodes s' then (hex b hb).choose else 0) ∈ nodes s ∧
      π (if hb : b ∈ nodes s' then (hex b hb).choose else 0) = b
    rw [dif_pos hb]
    exact (hex b hb).choose_spec
  refine ⟨ρ, fun b hb hne => ?_, fun a ha hne => ?_⟩
  · have h1 := hρ b (mem_nodes.2 ⟨hb, hne⟩)
    have h2 := mem_nodes.1 h1.1
    refine ⟨h2.1, h2.2, fun k hk => ?_, fun c hc hcne e => ?_⟩
    · have := (h _ h2.1 h2.2).2.2.1 k hk
      rw [h1.2] at this
      exact this.symm
    · have h3 := hρ c (mem_nodes.2 ⟨hc, hcne⟩)
      rw [← h1.2, ← h3.2, e]
  · have h1 := h a ha hne
    have h2 := hρ (π a) (mem_nodes.2 ⟨h1.1, h1.2.1⟩)
    have h3 := mem_nodes.1 h2.1
    exact (h _ h3.1 h3.2).2.2.2 a ha hne h2.2

/-! ### Shape functions that are products -/

/-- the value of the shape function at barycentric coordinates is a product over the nodes of a function `G` of the coordinate and
of that of the point of the degree of freedom; `G` is one if the latter vanishes and else vanishes with the coordinate -/
structure Product (n : Nat) (val : (Nat → K) → Nat → K) (pts : Nat → Nat → ℚ) (G : ℚ → K → K) : Prop where
  prod : ∀ l i, i < n → val l i = ∏ a ∈ Finset.range 4, G (pts i a) (l a)
  one : ∀ x, G 0 x = 1
  zero : ∀ i, i < n → ∀ a, a < 4 → pts i a ≠ 0 → G (pts i a) 0 = 0
  sum : ∀ i, i < n → pts i 0 + pts i 1 + pts i 2 + pts i 3 = 1

variable {n : Nat} {val : (Nat → K) → Nat → K} {pts : Nat → Nat → ℚ} {G : ℚ → K → K}

/-- functions of points outside the face vanish on the face -/
theorem Product.vanish (hp : Product n val pts G) {i s : Nat} (hi : i < n) {l : Nat → K} (h0 : l (opp s) = 0)
    (hne : pts i (opp s) ≠ 0) : val l i = 0 := by
  rw [hp.prod l i hi, split_prod s, h0, hp.zero i hi _ (opp_lt s) hne, zero_mul]

/-- functions of the same point agree on the shared face -/
theorem Product.agree (hp : Product n val pts G) {T T' : Nat → Nat → K} {s s' : Nat} {π : Nat → Nat} (h : Shares T s T' s' π)
    (hv : Nondeg T) (hv' : Nondeg T') {x l l' : Nat → K}
    (hl : IsBary (T 0) (T 1) (T 2) (T 3) x l) (hl' : IsBary (T' 0) (T' 1) (T' 2) (T' 3) x l') (h0 : l (opp s) = 0)
    {i j : Nat} (hi : i < n) (hj : j < n) (hy : SamePt (ratPoint T (pts i)) (ratPoint T' (pts j))) : val l i = val l' j := by
  obtain ⟨h0', hll⟩ := shares_bary h hv' hl hl' (fun _ _ => rfl) h0
  have hb := ratPoint_bary T (hp.sum i hi)
  have hb' := ratPoint_bary T' (hp.sum j hj)
  by_cases hz : pts i (opp s) = 0
  · obtain ⟨hz', hpp⟩ := shares_bary h hv' hb hb' hy (by simp only [hz, Rat.cast_zero])
    have hz' : pts j (opp s') = 0 := by exact_mod_cast hz'
    rw [hp.prod l i hi, hp.prod l' j hj, split_prod s, split_prod s', hz, hz', hp.one, hp.one, one_mul, one_mul, shares_prod h]
    refine Finset.prod_congr rfl (fun a ha => ?_)
    have ha := mem_nodes.1 ha
    have : pts j (π a) = pts i a := by
      have := hpp a ha.1 ha.2
      exact_mod_cast this
    rw [this, hll a ha.1 ha.2]
  · have hz' : pts j (opp s') ≠ 0 := by
      intro hz'
      obtain ⟨ρ, hρ, -⟩ := shares_symm h
      obtain ⟨h1, -⟩ := shares_bary hρ hv hb' hb (fun k hk => (hy k hk).symm) (by simp only [hz', Rat.cast_zero])
      exact hz (by exact_mod_cast h1)
    rw [hp.vanish hi h0 hz, hp.vanish hj h0' hz']

/-- every point on a face has its partner in every arrangement of the nodes of the other face -/
def Closed (n : Nat) (pts : Nat → Nat → ℚ) : Prop :=
  ∀ i, i < n → ∀ s, s < 4 → pts i (opp s) = 0 → ∀ s', s' < 4 → ∀ a, a < 4 → ∀ b, b < 4 → ∀ c, c < 4 →
    (a ≠ opp s' ∧ b ≠ opp s' ∧ c ≠ opp s' ∧ b ≠ a ∧ c ≠ a ∧ c ≠ b) →
    ∃ j, j < n ∧ pts j (opp s') = 0 ∧ pts j a = pts i s ∧ pts j b = pts i ((s + 1) % 4) ∧ pts j c = pts i ((s + 2) % 4)

/-- the check of the same -/
def closedCheck (n : Nat) (pts : Nat → Nat → ℚ) : Bool :=
  (List.range n).all fun i => (List.range 4).all fun s => !decide (pts i (opp s) = 0) ||
    (List.range 4).all fun s' => (List.range 4).all fun a => (List.range 4).all fun b => (List.range 4).all fun c =>
      !decide (a ≠ opp s' ∧ b ≠ opp s' ∧ c ≠ opp s' ∧ b ≠ a ∧ c ≠ a ∧ c ≠ b) ||
      (List.range n).any fun j => decide (pts j (opp s') = 0 ∧ pts j a = pts i s ∧ pts j b = pts i ((s + 1) % 4) ∧
        pts j c = pts i ((s + 2) % 4))

theorem closed_of_check {n : Nat} {pts : Nat → Nat → ℚ} (h : closedCheck n pts = true) : Closed n pts := by
  intro i hi s hs hz s' hs' a ha b hb c hc hd
  have hall : ∀ {m : Nat} {p : Nat → Bool}, (List.range m).all p = true → ∀ k, k < m → p k = true :=
    fun h k hk => List.all_eq_true.1 h k (List.mem_range.2 hk)
  have h1 := hall (hall h i hi) s hs
  rw [decide_eq_true hz, Bool.not_true, Bool.false_or] at h1
  have h2 := hall (hall (hall (hall h1 s' hs') a ha) b hb) c hc
  rw [decide_eq_true hd, Bool.not_true, Bool.false_or] at h2
  obtain ⟨j, hj, hjj⟩ := List.any_eq_true.1 h2
  exact ⟨j, List.mem_range.1 hj, of_decide_eq_true hjj⟩

theorem opp_mod (s : Nat) : opp (s % 4) = opp s := by unfold opp; omega

theorem nodes_cases {s a : Nat} (ha : a < 4) (hne : a ≠ opp s) : a = s % 4 ∨ a = (s + 1) % 4 ∨ a = (s + 2) % 4 := by
  unfold opp at hne; omega

theorem Closed.partner (hc : Closed n pts) {T T' : Nat → Nat → K} {s s' : Nat} {π : Nat → Nat} (h : Shares T s T' s' π)
    {i : Nat} (hi : i < n) (hz : pts i (opp s) = 0) :
    ∃ j, j < n ∧ pts j (opp s') = 0 ∧ ∀ a, a < 4 → a ≠ opp s → pts j (π a) = pts i a := by
  have hlt : ∀ a : Nat, a % 4 < 4 := fun a => Nat.mod_lt _ (by omega)
  have h0 := h (s % 4) (hlt _) (by unfold opp; omega)
  have h1 := h ((s + 1) % 4) (hlt _) (by unfold opp; omega)
  have h2 := h ((s + 2) % 4) (hlt _) (by unfold opp; omega)
  have e10 : π ((s + 1) % 4) ≠ π (s % 4) := fun e => by
    have := h1.2.2.2 (s % 4) (hlt _) (by unfold opp; omega) e; omega
  have e20 : π ((s + 2) % 4) ≠ π (s % 4) := fun e => by
    have := h2.2.2.2 (s % 4) (hlt _) (by unfold opp; omega) e; omega
  have e21 : π ((s + 2) % 4) ≠ π ((s + 1) % 4) := fun e => by
    have := h2.2.2.2 ((s + 1) % 4) (hlt _) (by unfold opp; omega) e; omega
  have := hc i hi (s % 4) (hlt _) (by rw [opp_mod]; exact hz) (s' % 4) (hlt _)
  rw [opp_mod] at this
  obtain ⟨j, hj, hz', q0, q1, q2⟩ := this _ h0.1 _ h1.1 _ h2.1 ⟨h0.2.1, h1.2.1, h2.2.1, e10, e20, e21⟩
  rw [show (s % 4 + 1) % 4 = (s + 1) % 4 by omega] at q1
  rw [show (s % 4 + 2) % 4 = (s + 2) % 4 by omega] at q2
  refine ⟨j, hj, hz', fun a ha hne => ?_⟩
  rcases nodes_cases ha hne with rfl | rfl | rfl
  · exact q0
  · exact q1
  · exact q2

/-- the points with the same coordinates at the shared nodes are the same -/
theorem partner_pt {T T' : Nat → Nat → K} {s s' : Nat} {π : Nat → Nat} (h : Shares T s T' s' π) {c c' : Nat → ℚ}
    (h0 : c (opp s) = 0) (h0' : c' (opp s') = 0) (hc : ∀ a, a < 4 → a ≠ opp s → c' (π a) = c a) :
    SamePt (ratPoint T c) (ratPoint T' c') := by
  intro k hk
  have e : ∀ (T : Nat → Nat → K) (c : Nat → ℚ), ratPoint T c k = ∑ a ∈ Finset.range 4, (c a : K) * T a k := by
    intro T c
    unfold ratPoint
    simp only [Finset.sum_range_succ, Finset.sum_range_zero, zero_add]
  rw [e, e, split_sum s, split_sum s', h0, h0', Rat.cast_zero, zero_mul, zero_mul, zero_add, zero_add, shares_sum h]
  refine Finset.sum_congr rfl (fun a ha => ?_)
  have ha := mem_nodes.1 ha
  rw [hc a ha.1 ha.2, (h a ha.1 ha.2).2.2.1 k hk]

/-- **continuity**: two functions with the same degrees of freedom at the same points agree on the shared face -/
theorem Product.continuous (hp : Product n val pts G) (hc : Closed n pts)
    (hinj : ∀ i, i < n → ∀ j, j < n → (∀ a, a < 4 → pts i a = pts j a) → i = j)
    {T T' : Nat → Nat → K} {s s' : Nat} {π : Nat → Nat} (h : Shares T s T' s' π)
    (hv : Nondeg T) (hv' : Nondeg T') {x l l' : Nat → K}
    (hl : IsBary (T 0) (T 1) (T 2) (T 3) x l) (hl' : IsBary (T' 0) (T' 1) (T' 2) (T' 3) x l') (h0 : l (opp s) = 0)
    (d d' : Nat → K)
    (hd : ∀ i, i < n → ∀ j, j < n → SamePt (ratPoint T (pts i)) (ratPoint T' (pts j)) → d i = d' j) :
    ∑ i ∈ Finset.range n, d i * val l i = ∑ j ∈ Finset.range n, d' j * val l' j := by
  classical
  obtain ⟨h0', -⟩ := shares_bary h hv' hl hl' (fun _ _ => rfl) h0
  have e1 : ∑ i ∈ Finset.range n, d i * val l i = ∑ i ∈ (Finset.range n).filter (fun i => pts i (opp s) = 0), d i * val l i := by
    symm
    refine Finset.sum_subset (Finset.filter_subset _ _) (fun i hi hne => ?_)
    have hi' := Finset.mem_range.1 hi
    rw [hp.vanish hi' h0 (fun e => hne (Finset.mem_filter.2 ⟨hi, e⟩)), mul_zero]
  have e2 : ∑ j ∈ Finset.range n, d' j * val l' j = ∑ j ∈ (Finset.range n).filter (fun j => pts j (opp s') = 0), d' j * val l' j := by
    symm
    refine Finset.sum_subset (Finset.filter_subset _ _) (fun i hi hne => ?_)
    have hi' := Finset.mem_range.1 hi
    rw [hp.vanish hi' h0' (fun e => hne (Finset.mem_filter.2 ⟨hi, e⟩)), mul_zero]
  rw [e1, e2]
  have hpart : ∀ i ∈ (Finset.range n).filter (fun i => pts i (opp s) = 0), ∃ j, j < n ∧ pts j (opp s') = 0 ∧
      ∀ a, a < 4 → a ≠ opp s → pts j (π a) = pts i a := fun i hi => by
    have := Finset.mem_filter.1 hi
    exact hc.partner h (Finset.mem_range.1 this.1) this.2
  refine Finset.sum_bij (fun i hi => (hpart i hi).choose) ?_ ?_ ?_ ?_
  · intro i hi
    have := (hpart i hi).choose_spec
    exact Finset.mem_filter.2 ⟨Finset.mem_range.2 this.1, this.2.1⟩
  · intro i hi i' hi' e
    have q := (hpart i hi).choose_spec.2.2
    have q' := (hpart i' hi').choose_spec.2.2
    rw [← e] at q'
    refine hinj i (Finset.mem_range.1 (Finset.mem_filter.1 hi).1) i' (Finset.mem_range.1 (Finset.mem_filter.1 hi').1) (fun a ha => ?_)
    by_cases hao : a = opp s
    · rw [hao, (Finset.mem_filter.1 hi).2, (Finset.mem_filter.1 hi').2]
    · rw [← q a ha hao, ← q' a ha hao]
  · intro j hj
    obtain ⟨ρ, hρ, hinv⟩ := shares_symm h
    have hj' := Finset.mem_filter.1 hj
    obtain ⟨i, hi, hz, hpi⟩ := hc.partner hρ (Finset.mem_range.1 hj'.1) hj'.2
    have him : i ∈ (Finset.range n).filter (fun i => pts i (opp s) = 0) := Finset.mem_filter.2 ⟨Finset.mem_range.2 hi, hz⟩
    refine ⟨i, him, ?_⟩
    have q := (hpart i him).choose_spec
    refine hinj _ q.1 j (Finset.mem_range.1 hj'.1) (fun b hb => ?_)
    by_cases hbo : b = opp s'
    · rw [hbo, q.2.1, hj'.2]
    · have h1 := hρ b hb hbo
      have h2 := hpi b hb hbo
      obtain ⟨a, ha, hab⟩ : ∃ a, a ∈ nodes s ∧ π a = b := by
        have : b ∈ (nodes s).image π := by rw [shares_bij h]; exact mem_nodes.2 ⟨hb, hbo⟩
        exact Finset.mem_image.1 this
      have ha := mem_nodes.1 ha
      have h3 := hinv a ha.1 ha.2
      rw [hab] at h3
      have h4 := q.2.2 a ha.1 ha.2
      rw [hab] at h4
      rw [h4, ← h2, h3]
  · intro i hi
    have q := (hpart i hi).choose_spec
    have hi' := Finset.mem_filter.1 hi
    have hsp := partner_pt (T := T) (T' := T') h hi'.2 q.2.1 q.2.2
    rw [hd i (Finset.mem_range.1 hi'.1) _ q.1 hsp, hp.agree h hv hv' hl hl' h0 (Finset.mem_range.1 hi'.1) q.1 hsp]

end Verif.Trace
