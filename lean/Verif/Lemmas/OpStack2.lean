import Verif.Lemmas.OpStack

/-!
Nested loops which write into a matrix and read from elsewhere.
-/
namespace Verif.OpStack

open Verif.Dense Verif.Elemental

set_option linter.unusedSectionVars false

variable {K : Type}

/-- two steps which agree on memories with the invariant, which they keep -/
def Same (I : (Nat → K) → Prop) (f g : (Nat → K) → (Nat → K)) : Prop := ∀ t, I t → f t = g t ∧ I (g t)

theorem loop_succ' {S : Type} {a n : Nat} (f : Nat → S → S) (s : S) :
    loop a (a + n + 1) f s = f (a + n) (loop a (a + n) f s) := by
  unfold loop
  rw [show a + n + 1 - a = n + 1 by omega, show a + n - a = n by omega, List.range'_1_concat, List.foldl_append]
  rfl

theorem Same.loop {I : (Nat → K) → Prop} {a b : Nat} {f g : Nat → (Nat → K) → (Nat → K)}
    (h : ∀ i, a ≤ i → i < b → Same I (f i) (g i)) : Same I (loop a b f) (loop a b g) := by
  intro t ht
  rcases Nat.le_total a b with hab | hab
  · have : ∀ n, a + n ≤ b → Dense.loop a (a + n) f t = Dense.loop a (a + n) g t ∧ I (Dense.loop a (a + n) g t) := by
      intro n
      induction n with
      | zero =>
        intro _
        rw [loop_empty (by omega), loop_empty (by omega)]
        exact ⟨rfl, ht⟩
      | succ n ih =>
        intro hn
        obtain ⟨e, i⟩ := ih (by omega)
        rw [← Nat.add_assoc, loop_succ', loop_succ', e]
        exact h (a + n) (by omega) (by omega) _ i
    obtain ⟨n, rfl⟩ := Nat.exists_eq_add_of_le hab
    exact this n (Nat.le_refl _)
  · rw [loop_empty hab, loop_empty hab]
    exact ⟨rfl, ht⟩

/-- a loop read at positions which only one of its steps writes -/
theorem loop_pick {X : Nat → Prop} {a b i : Nat} {g : Nat → (Nat → K) → (Nat → K)} {s : Nat → K} (ha : a ≤ i) (hb : i < b)
    (h : ∀ j t x, a ≤ j → j < b → j ≠ i → X x → g j t x = t x) :
    ∃ t, (∀ x, X x → t x = s x) ∧ ∀ x, X x → loop a b g s x = g i t x := by
  have := loop_ind (P := fun k (t : Nat → K) => (k ≤ i → ∀ x, X x → t x = s x) ∧
    (i < k → ∃ t0 : Nat → K, (∀ x, X x → t0 x = s x) ∧ ∀ x, X x → t x = g i t0 x)) (f := g) (s := s)
    (show a ≤ b by omega) ⟨fun _ x _ => rfl, fun hk => by omega⟩
    (fun k t h1 h2 ht => by
      refine ⟨fun hk x hx => ?_, fun hk => ?_⟩
      · rw [h k t x h1 h2 (by omega) hx]
        exact ht.1 (by omega) x hx
      · by_cases e : k = i
        · subst e
          exact ⟨t, ht.1 (Nat.le_refl _), fun x _ => rfl⟩
        · obtain ⟨t0, h3, h4⟩ := ht.2 (by omega)
          exact ⟨t0, h3, fun x hx => (h k t x h1 h2 e hx).trans (h4 x hx)⟩)
  exact this.2 hb

/-- place of the component `l` at point `n` of the column `c` of tetrahedron `r` -/
def at4 (q D nfa u l n c r : Nat) : Nat := u + (l + D * n + q * D * (c + nfa * r))

theorem at4_inj {q D nfa u l n c r l' n' c' r' : Nat} (hl : l < D) (hl' : l' < D) (hn : n < q) (hn' : n' < q) (hc : c < nfa)
    (hc' : c' < nfa) (h : at4 q D nfa u l n c r = at4 q D nfa u l' n' c' r') : l = l' ∧ n = n' ∧ c = c' ∧ r = r' := by
  unfold at4 at h
  have h0 := Nat.add_left_cancel h
  rw [Nat.mul_comm q D] at h0
  obtain ⟨h1, h2⟩ := rad2 (rad_lt hl hn) (rad_lt hl' hn') h0
  obtain ⟨h3, h4⟩ := rad2 hl hl' h1
  obtain ⟨h5, h6⟩ := rad2 hc hc' h2
  exact ⟨h3, h4, h5, h6⟩

theorem at4_lt {q D nfa f u l n c r : Nat} (hl : l < D) (hn : n < q) (hc : c < nfa) (hr : r < f) :
    u ≤ at4 q D nfa u l n c r ∧ at4 q D nfa u l n c r < u + q * D * (nfa * f) := by
  unfold at4
  have : l + D * n + D * q * (c + nfa * r) < D * q * (nfa * f) := rad_lt (rad_lt hl hn) (rad_lt hc hr)
  rw [Nat.mul_comm D q] at this
  omega

section Nested

variable {np f q D nfa u : Nat} {lo hi : Nat → Nat} {cf : Nat → Nat → Nat}
  {F : Nat → Nat → Nat → Nat → (Nat → K) → (Nat → K)}

/-- loops over parts, tetrahedrons, columns of the part and points -/
def nested (np f q : Nat) (lo hi : Nat → Nat) (F : Nat → Nat → Nat → Nat → (Nat → K) → (Nat → K)) (m : Nat → K) : Nat → K :=
  loop 0 np (fun p m => loop 0 f (fun r m => loop (lo p) (hi p) (fun i m => loop 0 q (fun n m => F p r i n m) m) m) m) m

theorem nested_off
    (hF : ∀ p r i n t x, p < np → r < f → lo p ≤ i → i < hi p → n < q →
      (∀ l, l < D → x ≠ at4 q D nfa u l n (cf p i) r) → F p r i n t x = t x) {m : Nat → K} {x : Nat}
    (hx : ∀ p r i n l, p < np → r < f → lo p ≤ i → i < hi p → n < q → l < D → x ≠ at4 q D nfa u l n (cf p i) r) :
    nested np f q lo hi F m x = m x := by
  unfold nested
  exact loop_off (fun p _ _ hp => loop_off (fun r _ _ hr => loop_off (fun i _ h1 h2 => loop_off (fun n t _ hn =>
    hF p r i n t x hp hr h1 h2 hn (fun l hl => hx p r i n l hp hr h1 h2 hn hl)))))

theorem nested_at
    (hcf : ∀ p i, p < np → lo p ≤ i → i < hi p → cf p i < nfa)
    (hinj : ∀ p i p' i', p < np → lo p ≤ i → i < hi p → p' < np → lo p' ≤ i' → i' < hi p' → cf p i = cf p' i' → p = p' ∧ i = i')
    (hF : ∀ p r i n t x, p < np → r < f → lo p ≤ i → i < hi p → n < q →
      (∀ l, l < D → x ≠ at4 q D nfa u l n (cf p i) r) → F p r i n t x = t x)
    {p r i n : Nat} (hp : p < np) (hr : r < f) (h1 : lo p ≤ i) (h2 : i < hi p) (hn : n < q) (m : Nat → K) :
    ∃ t, (∀ l, l < D → t (at4 q D nfa u l n (cf p i) r) = m (at4 q D nfa u l n (cf p i) r)) ∧
      ∀ l, l < D → nested np f q lo hi F m (at4 q D nfa u l n (cf p i) r) = F p r i n t (at4 q D nfa u l n (cf p i) r) := by
  have other : ∀ p' r' i' n', p' < np → r' < f → lo p' ≤ i' → i' < hi p' → n' < q →
      ¬ (p' = p ∧ r' = r ∧ i' = i ∧ n' = n) → ∀ t l, l < D →
      F p' r' i' n' t (at4 q D nfa u l n (cf p i) r) = t (at4 q D nfa u l n (cf p i) r) := by
    intro p' r' i' n' hp' hr' a1 a2 hn' hne t l hl
    refine hF p' r' i' n' t _ hp' hr' a1 a2 hn' (fun l' hl' e => hne ?_)
    obtain ⟨-, e2, e3, e4⟩ := at4_inj hl hl' hn hn' (hcf p i hp h1 h2) (hcf p' i' hp' a1 a2) e
    obtain ⟨e5, e6⟩ := hinj p i p' i' hp h1 h2 hp' a1 a2 e3
    exact ⟨e5.symm, e4.symm, e6.symm, e2.symm⟩
  obtain ⟨t1, s1, v1⟩ := loop_pick (X := fun x => ∃ l, l < D ∧ x = at4 q D nfa u l n (cf p i) r) (Nat.zero_le p) hp
    (g := fun p m => loop 0 f (fun r m => loop (lo p) (hi p) (fun i m => loop 0 q (fun n m => F p r i n m) m) m) m) (s := m)
    (fun p' t x _ hp' hne hx => by
      obtain ⟨l, hl, rfl⟩ := hx
      exact loop_off (fun r' _ _ hr' => loop_off (fun i' _ a1 a2 => loop_off (fun n' t _ hn' =>
        other p' r' i' n' hp' hr' a1 a2 hn' (fun h => hne h.1) t l hl))))
  obtain ⟨t2, s2, v2⟩ := loop_pick (X := fun x => ∃ l, l < D ∧ x = at4 q D nfa u l n (cf p i) r) (Nat.zero_le r) hr
    (g := fun r m => loop (lo p) (hi p) (fun i m => loop 0 q (fun n m => F p r i n m) m) m) (s := t1)
    (fun r' t x _ hr' hne hx => by
      obtain ⟨l, hl, rfl⟩ := hx
      exact loop_off (fun i' _ a1 a2 => loop_off (fun n' t _ hn' =>
        other p r' i' n' hp hr' a1 a2 hn' (fun h => hne h.2.1) t l hl)))
  obtain ⟨t3, s3, v3⟩ := loop_pick (X := fun x => ∃ l, l < D ∧ x = at4 q D nfa u l n (cf p i) r) h1 h2
    (g := fun i m => loop 0 q (fun n m => F p r i n m) m) (s := t2)
    (fun i' t x a1 a2 hne hx => by
      obtain ⟨l, hl, rfl⟩ := hx
      exact loop_off (fun n' t _ hn' =>
        other p r i' n' hp hr a1 a2 hn' (fun h => hne h.2.2.1) t l hl))
  obtain ⟨t4, s4, v4⟩ := loop_pick (X := fun x => ∃ l, l < D ∧ x = at4 q D nfa u l n (cf p i) r) (Nat.zero_le n) hn
    (g := fun n m => F p r i n m) (s := t3)
    (fun n' t x _ hn' hne hx => by
      obtain ⟨l, hl, rfl⟩ := hx
      exact other p r i n' hp hr h1 h2 hn' (fun h => hne h.2.2.2) t l hl)
  refine ⟨t4, fun l hl => ?_, fun l hl => ?_⟩
  · rw [s4 _ ⟨l, hl, rfl⟩, s3 _ ⟨l, hl, rfl⟩, s2 _ ⟨l, hl, rfl⟩, s1 _ ⟨l, hl, rfl⟩]
  · unfold nested
    rw [v1 _ ⟨l, hl, rfl⟩, v2 _ ⟨l, hl, rfl⟩, v3 _ ⟨l, hl, rfl⟩, v4 _ ⟨l, hl, rfl⟩]

end Nested

theorem setZero_at [Zero K] {u n p : Nat} (h1 : u ≤ p) (h2 : p < u + n) (m : Nat → K) : setZero u n m p = 0 := by
  unfold setZero
  obtain ⟨k, rfl⟩ := Nat.exists_eq_add_of_le h1
  exact loop_at (fun _ => (0 : K)) (Nat.zero_le k) (by omega) (fun t => wr_same _ _ _)
    (fun j t _ _ hne => wr_ne _ _ (by omega))

theorem setZero_off [Zero K] {u n p : Nat} (h : p < u ∨ u + n ≤ p) (m : Nat → K) : setZero u n m p = m p := by
  unfold setZero
  exact loop_off (fun j t _ hj => wr_ne _ _ (by omega))

end Verif.OpStack
