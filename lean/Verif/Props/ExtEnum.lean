import Verif.Lemmas.ExtUnrankLow
import Mathlib.Data.Finset.Card

/-!
C05: the enumeration of arrays extended by a ranged value is the lexicographical one.

The base arrays have the length `N`, come in any order and with repetitions; a value smaller than `rg a[m]` is inserted at
the position `n ≤ N` of every base array `a`.
-/
namespace Verif.ExtEnum
open Verif.Spec.ExtEnum

variable {N n m : Nat} {rg : Nat → Nat} {base : List Key}

/-- The tables of an enumeration: `E` is what `setup` leaves after the base set is given. -/
def Built (N n m : Nat) (rg : Nat → Nat) (base : List Key) (E : Ext) : Prop :=
  m < N ∧ n ≤ N ∧ (∀ a ∈ base, a.length = N) ∧ setup N n m rg (baseSet base) = some E

/-! A base set given out of order with a repetition; the range grows with the second entry. -/
section
def exBase : List Key := [[1, 0], [0, 2], [0, 1], [1, 0]]
def exHigh : Ext := (setup 2 2 1 (fun v => v + 1) (baseSet exBase)).getD ⟨0, 0, 0, id, [], [], [], [], [], [], 0⟩
def exLow : Ext := (setup 2 0 1 (fun v => v + 1) (baseSet exBase)).getD ⟨0, 0, 0, id, [], [], [], [], [], [], 0⟩
theorem exHigh_built : Built 2 2 1 (fun v => v + 1) exBase exHigh := ⟨by decide, by decide, by decide, rfl⟩
theorem exLow_built : Built 2 0 1 (fun v => v + 1) exBase exLow := ⟨by decide, by decide, by decide, rfl⟩
end

theorem built_good {E : Ext} (h : Built N n m rg base E) :
    Good E (baseSet base) ∧ E.N = N ∧ E.n = n ∧ E.m = m ∧ E.rg = rg := by
  obtain ⟨hm, hn, hl, hE⟩ := h
  have hA : baseSet base ≠ [] ∨ m = 0 := by
    by_contra hc
    rw [not_or, not_not] at hc
    have := setup_nil (N := N) (n := n) rg (m := m) (by omega)
    rw [hc.1, this] at hE; cases hE
  obtain ⟨E', h1, h2, h3⟩ := setup_good (n := n) hm hn rg (baseSet_sorted base) (fun a ha => hl a (baseSet_mem.1 ha)) hA
  rw [h1] at hE
  cases hE
  exact ⟨h2, h3⟩

theorem mem_extSet {x : Key} : x ∈ extSet n m rg base ↔ ∃ a ∈ base, ∃ s < rg (nth a m), x = insertAt n a s := by
  rw [extSet, List.mem_toFinset, mem_arrays]

theorem extSet_base : extSet n m rg (baseSet base) = extSet n m rg base := by
  ext x; simp only [mem_extSet, baseSet_mem]

theorem insertAt_inj {a b : Key} {s t : Nat} (ha : a.length = N) (hb : b.length = N) (hn : n ≤ N) (h : insertAt n a s = insertAt n b t) :
    a = b ∧ s = t := by
  have h1 := insertAt_base ha hn s
  have h2 := insertAt_nth ha hn s
  rw [h] at h1 h2
  rw [insertAt_base hb hn] at h1
  rw [insertAt_nth hb hn] at h2
  exact ⟨h1.symm, h2.symm⟩

theorem arrays_nodup {A : List Key} (hA : A.Nodup) (hl : ∀ a ∈ A, a.length = N) (hn : n ≤ N) : (arrays n m rg A).Nodup := by
  unfold arrays
  rw [List.nodup_flatMap]
  refine ⟨fun a ha => ?_, ?_⟩
  · exact List.Nodup.map_on (fun s _ t _ h => (insertAt_inj (hl a ha) (hl a ha) hn h).2) List.nodup_range
  · refine hA.imp_of_mem fun {a b} ha hb hab => ?_
    intro x hx hy
    obtain ⟨s, _, hs⟩ := List.mem_map.1 hx
    obtain ⟨t, _, ht⟩ := List.mem_map.1 hy
    exact hab (insertAt_inj (hl a ha) (hl b hb) hn (hs.trans ht.symm)).1

theorem number_place (hl : ∀ a ∈ base, a.length = N) (hn : n ≤ N) (x : Key) :
    number n m rg (baseSet base) x = place (extSet n m rg base) x := by
  have h := arrays_nodup (n := n) (m := m) (rg := rg) (sorted_nodup (baseSet_sorted base)) (fun a ha => hl a (baseSet_mem.1 ha)) hn
  rw [place, ← extSet_base, extSet, number, List.countP_eq_length_filter]
  have e : (arrays n m rg (baseSet base)).toFinset.filter (· < x) = ((arrays n m rg (baseSet base)).filter fun y => decide (y < x)).toFinset := by
    ext y; simp
  rw [e, List.toFinset_card_of_nodup (h.filter _)]

/-- **C05**: the tables are built whenever there is a base array, or the value depends on the first entry. -/
theorem setup_total (hm : m < N) (hn : n ≤ N) (hl : ∀ a ∈ base, a.length = N) (hb : base ≠ [] ∨ m = 0) :
    ∃ E, Built N n m rg base E := by
  have hA : baseSet base ≠ [] ∨ m = 0 := by
    refine hb.imp_left fun h h' => ?_
    obtain ⟨a, ha⟩ := List.exists_mem_of_ne_nil _ h
    have := (baseSet_mem (l := base)).2 ha
    rw [h'] at this; simp at this
  obtain ⟨E, h1, _⟩ := setup_good (n := n) hm hn rg (baseSet_sorted base) (fun a ha => hl a (baseSet_mem.1 ha)) hA
  exact ⟨E, hm, hn, hl, h1⟩

example : ∃ E, Built 2 0 1 (fun v => v + 1) exBase E := setup_total (by decide) (by decide) (by decide) (Or.inl (by decide))

/-- **C05**, the exception: without base arrays `setup` dereferences the beginning of an empty map unless the value depends
on the first entry. -/
theorem setup_empty_wrong (hm : 0 < m) : setup N n m rg (baseSet []) = none := setup_nil rg hm

example : setup 4 3 2 (fun _ => 1) (baseSet []) = none := setup_empty_wrong (by decide)

/-- **C05**: the size is the number of the arrays. -/
theorem size_eq {E : Ext} (h : Built N n m rg base E) : E.size = (extSet n m rg base).card := by
  obtain ⟨G, hN, hn, hm, hr⟩ := built_good h
  have hnd := arrays_nodup (n := n) (m := m) (rg := rg) (sorted_nodup (baseSet_sorted base)) (fun a ha => h.2.2.1 a (baseSet_mem.1 ha)) h.2.1
  rw [← extSet_base, extSet, List.toFinset_card_of_nodup hnd, G.size, hm, hr, arrays, List.length_flatMap]
  simp [nth]

example : exHigh.size = 6 ∧ exHigh.size = (extSet 2 1 (fun v => v + 1) exBase).card := ⟨by decide, size_eq exHigh_built⟩

/-- **C05**: the number of an array is its place in the lexicographical order. -/
theorem rank_eq {E : Ext} (h : Built N n m rg base E) {x : Key} (hx : x ∈ extSet n m rg base) :
    rank E x = some (place (extSet n m rg base) x) := by
  obtain ⟨G, hN, hn, hm, hr⟩ := built_good h
  obtain ⟨a, ha, s, hs, rfl⟩ := mem_extSet.1 hx
  have := rank_value G (baseSet_mem.2 ha) (s := s) (by rw [hm, hr]; exact hs)
  rw [hn, hm, hr, number_place h.2.2.1 h.2.1] at this
  exact this

example : rank exHigh [1, 0, 0] = some 5 ∧ rank exHigh [0, 2, 1] = some 3 := by decide
example : rank exLow [1, 0, 2] = some 4 ∧ rank exLow [0, 1, 0] = some 2 := by decide
example : rank exLow [1, 0, 2] = some (place (extSet 0 1 (fun v => v + 1) exBase) [1, 0, 2]) :=
  rank_eq exLow_built (mem_extSet.2 ⟨[0, 2], by decide, 1, by decide, rfl⟩)

/-- **C05**: the arrays out of the set are rejected. -/
theorem rank_none {E : Ext} (h : Built N n m rg base E) {x : Key} (hl : x.length = N + 1) (hx : x ∉ extSet n m rg base) : rank E x = none := by
  obtain ⟨G, hN, hn, hm, hr⟩ := built_good h
  by_cases h1 : nth x n < rg (nth (x.take n ++ x.drop (n + 1)) m)
  · by_cases h2 : x.take n ++ x.drop (n + 1) ∈ base
    · exfalso
      refine hx (mem_extSet.2 ⟨_, h2, nth x n, h1, ?_⟩)
      have hnN := h.2.1
      rw [insertAt, List.take_append_of_le_length (by simp; omega), List.take_take, Nat.min_self, List.drop_append_of_le_length (by simp; omega),
        List.drop_of_length_le (i := n) (l := x.take n) (by simp), List.nil_append]
      rw [nth, List.getD_eq_getElem?_getD, List.getElem?_eq_getElem (by omega), Option.getD_some, ← List.drop_eq_getElem_cons,
        List.take_append_drop]
    · unfold rank
      have : x.take n ++ x.drop (n + 1) ∉ E.ord := by rw [G.ord, baseSet_mem]; exact h2
      simp [guard, hn, this]
  · unfold rank
    simp [guard, hn, hm, hr, h1]

example : rank exHigh [0, 1, 2] = none ∧ [0, 1, 2] ∉ extSet 2 1 (fun v => v + 1) exBase := by decide
example : rank exHigh [0, 1, 2] = none := rank_none exHigh_built rfl (by decide)

/-- **C05**: `contains` is the membership. -/
theorem contains_iff {E : Ext} (h : Built N n m rg base E) {x : Key} (hl : x.length = N + 1) :
    contains E x = true ↔ x ∈ extSet n m rg base := by
  obtain ⟨G, hN, hn, hm, hr⟩ := built_good h
  have hnN := h.2.1
  set id := x.take n ++ x.drop (n + 1) with hid
  have hidl : id.length = N := by simp [hid]; omega
  have hx : x = insertAt n id (nth x n) := by
    rw [insertAt, hid, List.take_append_of_le_length (by simp; omega), List.take_take, Nat.min_self, List.drop_append_of_le_length (by simp; omega),
      List.drop_of_length_le (i := n) (l := x.take n) (by simp), List.nil_append]
    rw [nth, List.getD_eq_getElem?_getD, List.getElem?_eq_getElem (by omega), Option.getD_some, ← List.drop_eq_getElem_cons,
      List.take_append_drop]
  have hset : x ∈ extSet n m rg base ↔ nth x n < rg (nth id m) ∧ id ∈ base := by
    rw [mem_extSet]
    constructor
    · rintro ⟨a, ha, s, hs, he⟩
      obtain ⟨h1, h2⟩ := insertAt_inj hidl (h.2.2.1 a ha) hnN (hx.symm.trans he)
      rw [h1, h2]; exact ⟨hs, ha⟩
    · rintro ⟨h1, h2⟩; exact ⟨id, h2, _, h1, hx⟩
  rw [hset, contains, hn, hm, hr, ← hid, G.ord]
  by_cases h1 : nth x n < rg (nth id m)
  · rw [if_neg (not_not.2 h1), lbOrd_eq G.sorted (by omega) le_rfl]
    simp only [h1, true_and, beq_iff_eq]
    have hle : ((baseSet base).countP fun x => lexLt x id) ≤ (baseSet base).length := List.countP_le_length
    rw [show max 0 (min (baseSet base).length ((baseSet base).countP fun x => lexLt x id)) = (baseSet base).countP fun x => lexLt x id by omega]
    constructor
    · intro h2; exact baseSet_mem.1 (List.mem_of_getElem? h2)
    · intro h2; exact getElem?_countP G.sorted (baseSet_mem.2 h2)
  · rw [if_pos h1]; simp [h1]

example : contains exLow [1, 0, 2] = true ∧ contains exLow [2, 0, 1] = false := by decide
example : [1, 0, 2] ∈ extSet 0 1 (fun v => v + 1) exBase := (contains_iff exLow_built rfl).1 (by decide)

/-- **C05**: the numbers increase with the lexicographical order; in particular different arrays have different numbers. -/
theorem rank_lt_iff {E : Ext} (h : Built N n m rg base E) {x y : Key} (hx : x ∈ extSet n m rg base) (hy : y ∈ extSet n m rg base) :
    ∃ i j, rank E x = some i ∧ rank E y = some j ∧ (x < y ↔ i < j) := by
  refine ⟨_, _, rank_eq h hx, rank_eq h hy, ?_⟩
  have mono : ∀ {x y : Key}, x ∈ extSet n m rg base → x < y → place (extSet n m rg base) x < place (extSet n m rg base) y := by
    intro x y hx hxy
    refine Finset.card_lt_card (Finset.ssubset_iff_of_subset ?_ |>.2 ⟨x, by simp [hx, hxy], by simp⟩)
    intro z hz
    rw [Finset.mem_filter] at hz ⊢
    exact ⟨hz.1, hz.2.trans hxy⟩
  refine ⟨mono hx, fun hlt => ?_⟩
  rcases lt_trichotomy x y with h1 | h1 | h1
  · exact h1
  · rw [h1] at hlt; omega
  · have := mono hy h1; omega

example : ∃ i j, rank exHigh [0, 2, 2] = some i ∧ rank exHigh [1, 0, 0] = some j ∧ ([0, 2, 2] < [1, 0, 0] ↔ i < j) :=
  rank_lt_iff exHigh_built (mem_extSet.2 ⟨[0, 2], by decide, 2, by decide, rfl⟩) (mem_extSet.2 ⟨[1, 0], by decide, 0, by decide, rfl⟩)

theorem rank_inj {E : Ext} (h : Built N n m rg base E) {x y : Key} (hx : x ∈ extSet n m rg base) (hy : y ∈ extSet n m rg base)
    (he : rank E x = rank E y) : x = y := by
  obtain ⟨i, j, h1, h2, h3⟩ := rank_lt_iff h hx hy
  obtain ⟨j', i', h4, h5, h6⟩ := rank_lt_iff h hy hx
  rw [h1, h2] at he
  rw [h2] at h4; rw [h1] at h5
  cases he; cases h4; cases h5
  rcases lt_trichotomy x y with h | h | h
  · exact absurd (h3.1 h) (lt_irrefl _)
  · exact h
  · exact absurd (h6.1 h) (lt_irrefl _)

/-- **C05**: the numbers are exactly those smaller than the size. -/
theorem rank_onto {E : Ext} (h : Built N n m rg base E) (i : Nat) : i < E.size ↔ ∃ x ∈ extSet n m rg base, rank E x = some i := by
  rw [size_eq h]
  have hlt : ∀ x ∈ extSet n m rg base, place (extSet n m rg base) x < (extSet n m rg base).card := fun x hx =>
    Finset.card_lt_card (Finset.filter_ssubset.2 ⟨x, hx, lt_irrefl _⟩)
  constructor
  · intro hi
    have hmaps : Set.MapsTo (place (extSet n m rg base)) (extSet n m rg base) (Finset.range (extSet n m rg base).card) := fun x hx => by
      simpa using hlt x hx
    have hinj : Set.InjOn (place (extSet n m rg base)) (extSet n m rg base) := fun x hx y hy he =>
      rank_inj h hx hy (by rw [rank_eq h hx, rank_eq h hy, he])
    obtain ⟨x, hx, he⟩ := Finset.surjOn_of_injOn_of_card_le _ hmaps hinj (by simp) (show i ∈ (Finset.range (extSet n m rg base).card : Set Nat) by simpa using hi)
    exact ⟨x, hx, by rw [rank_eq h hx, he]⟩
  · rintro ⟨x, hx, he⟩
    rw [rank_eq h hx] at he
    cases he
    exact hlt x hx

example : ∃ x ∈ extSet 0 1 (fun v => v + 1) exBase, rank exLow x = some 5 := (rank_onto exLow_built 5).1 (by decide)

/-- **C05**, for less than `2 ^ 31` arrays: indexing inverts the numbering.  Missing: larger sets, where it fails, see
`unrank_wrong`. -/
theorem unrank_rank_partial {E : Ext} (h : Built N n m rg base E) (hsz : E.size < 2 ^ 31) {x : Key} (hx : x ∈ extSet n m rg base) :
    (rank E x).bind (unrank E) = some x := by
  obtain ⟨G, hN, hn, hm, hr⟩ := built_good h
  rw [rank_eq h hx, Option.bind_some]
  obtain ⟨a, ha, s, hs, rfl⟩ := mem_extSet.1 hx
  have := (unrank_value G hsz (baseSet_mem.2 ha) (s := s) (by rw [hm, hr]; exact hs)).2
  rw [hn, hm, hr, number_place h.2.2.1 h.2.1] at this
  exact this

example : unrank exHigh 3 = some [0, 2, 1] ∧ unrank exLow 4 = some [1, 0, 2] := by decide
example : (rank exLow [1, 0, 2]).bind (unrank exLow) = some [1, 0, 2] :=
  unrank_rank_partial exLow_built (by decide) (mem_extSet.2 ⟨[0, 2], by decide, 1, by decide, rfl⟩)

/-- **C05**, for less than `2 ^ 31` arrays: every number is indexed, and the array found has this number. -/
theorem rank_unrank_partial {E : Ext} (h : Built N n m rg base E) (hsz : E.size < 2 ^ 31) {i : Nat} (hi : i < E.size) :
    ∃ x ∈ extSet n m rg base, unrank E i = some x ∧ rank E x = some i := by
  obtain ⟨x, hx, he⟩ := (rank_onto h i).1 hi
  have := unrank_rank_partial h hsz hx
  rw [he] at this
  exact ⟨x, hx, this, he⟩

example : ∃ x ∈ extSet 2 1 (fun v => v + 1) exBase, unrank exHigh 4 = some x ∧ rank exHigh x = some 4 :=
  rank_unrank_partial exHigh_built (by decide) (by decide)

/-- **C05**: numbers not smaller than the size are rejected. -/
theorem unrank_out {E : Ext} {i : Nat} (hi : E.size ≤ i) : unrank E i = none := by
  unfold unrank; rw [if_neg (by omega)]

example : unrank exHigh 6 = none := unrank_out (by decide)

/-- **C05**, the violation: the sums of `begin` are kept in an `int`, so that with `2 ^ 31` arrays or more a wrong array is found. -/
theorem unrank_wrong : ∃ E, Built 1 1 0 (fun _ => 2 ^ 31) [[0], [1]] E ∧ rank E [1, 0] = some (2 ^ 31) ∧ unrank E (2 ^ 31) ≠ some [1, 0] :=
  ⟨_, ⟨by decide, by decide, by decide, rfl⟩, by decide +kernel, by decide +kernel⟩

end Verif.ExtEnum
