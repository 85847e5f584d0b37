import Verif.Lemmas.ExtBound
import Verif.Props.ExtEnum

/-!
C05: `lower_bound`, `upper_bound` and `find` of the enumeration of arrays extended by a ranged value.

`lower_bound(x)` should give the first enumerated array that is not below `x`, whether `x` is enumerated or not, that is the
iterator with the number of the arrays below `x`; `upper_bound(x)` the one with the number of the arrays not above `x`.
-/
namespace Verif.ExtEnum
open Verif.Spec.ExtEnum

variable {N n m : Nat} {rg : Nat → Nat} {base : List Key}

/-- The keys at which the search runs off the base arrays: the value is inserted before the entry it depends on, all base
arrays are below the key without the value, and one of them agrees with it up to the entry `m`, whose range holds the value. -/
def Off (n m : Nat) (rg : Nat → Nat) (base : List Key) (x : Key) : Prop :=
  let id := x.take n ++ x.drop (n + 1)
  n ≤ m ∧ (∃ a ∈ base, a.take (m + 1) = id.take (m + 1)) ∧ nth x n < rg (nth id m) ∧ ∀ a ∈ base, a < id

/-- **C05**: an enumerated array is its own lower bound. -/
theorem lowerBound_mem {E : Ext} (h : Built N n m rg base E) {x : Key} (hx : x ∈ extSet n m rg base) :
    lowerBound E x = some (place (extSet n m rg base) x) := by
  obtain ⟨G, rfl, rfl, rfl, rfl⟩ := built_good h
  rw [← rank_eq h hx]
  obtain ⟨a, ha, s, hs, rfl⟩ := mem_extSet.1 hx
  have hl := h.2.2.1 a ha
  refine lowerBound_self G (by simp [insertAt]; omega) ?_ ?_
  · rw [insertAt_base hl h.2.1]; exact baseSet_mem.2 ha
  · rw [insertAt_base hl h.2.1, insertAt_nth hl h.2.1]; exact hs

example : lowerBound exLow [1, 0, 2] = some 4 := by decide
example : lowerBound exLow [1, 0, 2] = some (place (extSet 0 1 (fun v => v + 1) exBase) [1, 0, 2]) :=
  lowerBound_mem exLow_built (mem_extSet.2 ⟨[0, 2], by decide, 1, by decide, rfl⟩)

/-- **C05**, partial: for positive ranges `lower_bound` gives the number of the arrays below the key, enumerated or not, but
for the keys of `Off`.  Missing: the keys of `Off` (`lowerBound_off_wrong`) and empty ranges (`lowerBound_empty_range_wrong`). -/
theorem lowerBound_eq_partial {E : Ext} (h : Built N n m rg base E) (hb : base ≠ []) (hp : ∀ a ∈ base, 0 < rg (nth a m)) {x : Key}
    (hx : x.length = N + 1) (ho : ¬ Off n m rg base x) : lowerBound E x = some (place (extSet n m rg base) x) := by
  obtain ⟨G, rfl, rfl, rfl, rfl⟩ := built_good h
  rw [← number_place h.2.2.1 h.2.1]
  refine lowerBound_good G ?_ (fun a ha => hp a (baseSet_mem.1 ha)) hx ?_
  · intro hc
    obtain ⟨a, ha⟩ := List.exists_mem_of_ne_nil _ hb
    have := (baseSet_mem (l := base)).2 ha
    rw [hc] at this; cases this
  · rintro ⟨h1, ⟨a, ha, h2⟩, h3, h4⟩
    exact ho ⟨h1, ⟨a, baseSet_mem.1 ha, h2⟩, h3, fun a ha => (lexLt_iff _ _).1 (h4 a (baseSet_mem.2 ha))⟩

example : ¬ Off 0 1 (fun v => v + 1) exBase [1, 0, 1] := by unfold Off; decide
example : lowerBound exLow [1, 0, 3] = some 5 ∧ lowerBound exLow [0, 0, 7] = some 2 ∧ lowerBound exLow [2, 0, 3] = some 6 := by decide
example : lowerBound exHigh [0, 1, 2] = some 2 ∧ lowerBound exHigh [0, 7, 2] = some 5 ∧ lowerBound exHigh [1, 0, 1] = some 6 := by decide
example : lowerBound exLow [1, 0, 1] = some (place (extSet 0 1 (fun v => v + 1) exBase) [1, 0, 1]) :=
  lowerBound_eq_partial exLow_built (by decide) (by decide) rfl (by unfold Off; decide)

/-- **C05**: a value inserted behind the entry it depends on has no exceptions. -/
theorem lowerBound_high {E : Ext} (h : Built N n m rg base E) (hb : base ≠ []) (hp : ∀ a ∈ base, 0 < rg (nth a m)) (hnm : m < n) {x : Key}
    (hx : x.length = N + 1) : lowerBound E x = some (place (extSet n m rg base) x) :=
  lowerBound_eq_partial h hb hp hx fun ho => by have := ho.1; omega

example : lowerBound exHigh [0, 7, 2] = some (place (extSet 2 1 (fun v => v + 1) exBase) [0, 7, 2]) :=
  lowerBound_high exHigh_built (by decide) (by decide) (by decide) rfl

/-- **C05**, the exception: at the keys of `Off` the end of the base arrays is dereferenced, whatever the ranges are
(ext_array_enum.inl:831). -/
theorem lowerBound_off_wrong {E : Ext} (h : Built N n m rg base E) {x : Key} (hx : x.length = N + 1) (ho : Off n m rg base x) :
    lowerBound E x = none := by
  obtain ⟨G, rfl, rfl, rfl, rfl⟩ := built_good h
  obtain ⟨h1, ⟨a, ha, h2⟩, h3, h4⟩ := ho
  exact lowerBound_reach G hx h1 (baseSet_mem.2 ha) h2 h3 (Or.inl ⟨fun a ha => (lexLt_iff _ _).2 (h4 a (baseSet_mem.1 ha)), rfl⟩)

/-- The base arrays of the exceptions: pairs, the range depends on the first entry and the value comes first. -/
def exOff : Ext := (setup 2 0 0 (fun v => v + 1) (baseSet exBase)).getD ⟨0, 0, 0, id, [], [], [], [], [], [], 0⟩
theorem exOff_built : Built 2 0 0 (fun v => v + 1) exBase exOff := ⟨by decide, by decide, by decide, rfl⟩

example : lowerBound exOff [0, 1, 1] = none ∧ exOff.size = 4 ∧ place (extSet 0 0 (fun v => v + 1) exBase) [0, 1, 1] = 3 := by decide
example : lowerBound exOff [0, 1, 1] = none := lowerBound_off_wrong exOff_built rfl (by unfold Off; decide)

/-- The arrays below `x` with the last entry increased are those not above `x`. -/
theorem lt_incr_last {x y : Key} (hx : x.length = N + 1) (hy : y.length = N + 1) : y < incr x N ↔ y ≤ x := by
  have h := lexLt_incr (a := y) (z := x) (k := N) (by omega) (by omega)
  rw [show zeroFrom (N + 1) x = x by rw [← hx, zeroFrom_full], List.take_of_length_le (by omega), List.take_of_length_le (by omega)] at h
  rw [← lexLt_iff, h, ← not_lt, ← lexLt_iff, Bool.not_eq_true]

theorem length_extSet {x : Key} (hl : ∀ a ∈ base, a.length = N) (hx : x ∈ extSet n m rg base) : x.length = N + 1 := by
  obtain ⟨a, ha, s, -, rfl⟩ := mem_extSet.1 hx
  have := hl a ha
  simp [insertAt]; omega

/-- **C05**, partial: for positive ranges `upper_bound` gives the number of the arrays not above the key, but for the keys which
increased at the last entry are of `Off` (`upperBound_last_wrong`). -/
theorem upperBound_eq_partial {E : Ext} (h : Built N n m rg base E) (hb : base ≠ []) (hp : ∀ a ∈ base, 0 < rg (nth a m)) {x : Key}
    (hx : x.length = N + 1) (ho : ¬ Off n m rg base (incr x N)) : upperBound E x = some ((extSet n m rg base).filter (· ≤ x)).card := by
  obtain ⟨G, hN, -⟩ := built_good h
  rw [upperBound, hN, lowerBound_eq_partial h hb hp (by simpa [incr] using hx) ho, place]
  congr 2
  refine Finset.filter_congr fun y hy => ?_
  exact lt_incr_last hx (length_extSet h.2.2.1 hy)

example : upperBound exLow [1, 0, 2] = some 5 ∧ upperBound exHigh [0, 1, 1] = some 2 := by decide
example : upperBound exLow [1, 0, 2] = some ((extSet 0 1 (fun v => v + 1) exBase).filter (· ≤ [1, 0, 2])).card :=
  upperBound_eq_partial exLow_built (by decide) (by decide) rfl (by unfold Off; decide)

theorem lt_incr_self {a : Key} {k : Nat} (hk : k + 1 = a.length) {b : Key} (hb : b.length = a.length) (h : b ≤ a) : b < incr a k := by
  have := lt_incr_last (N := k) (x := a) (y := b) (by omega) (by omega)
  exact this.2 h

/-- **C05**, the exception: `upper_bound` of every enumerated array over the largest base array dereferences the end, whenever the
value is inserted before the entry it depends on and this is not the last entry. -/
theorem upperBound_last_wrong {E : Ext} (h : Built N n m rg base E) (hnm : n ≤ m) (hm : m + 1 < N) {a : Key} (ha : a ∈ base)
    (hmax : ∀ b ∈ base, b ≤ a) {s : Nat} (hs : s < rg (nth a m)) :
    insertAt n a s ∈ extSet n m rg base ∧ upperBound E (insertAt n a s) = none := by
  refine ⟨mem_extSet.2 ⟨a, ha, s, hs, rfl⟩, ?_⟩
  have hl := h.2.2.1 a ha
  obtain ⟨G, hN, -⟩ := built_good h
  have hxl : (insertAt n a s).length = N + 1 := by simp [insertAt]; omega
  have e : incr (insertAt n a s) N = insertAt n (incr a (N - 1)) s := by
    refine key_ext (by simp [incr, insertAt]) fun i hi => ?_
    have hi' : i < N + 1 := by simpa [incr, hxl] using hi
    have key : ∀ (c : Key) (j : Nat), c.length = N → nth (insertAt n c s) j = if j < n then nth c j else if j = n then s else nth c (j - 1) := by
      intro c j hc
      unfold nth insertAt
      simp only [List.getD_eq_getElem?_getD]
      by_cases h1 : j < n
      · rw [if_pos h1, List.getElem?_append_left (by simp; omega), List.getElem?_take_of_lt h1]
      · rw [if_neg h1, List.getElem?_append_right (by simp; omega), List.length_take, Nat.min_eq_left (by omega)]
        by_cases h2 : j = n
        · simp [h2]
        · rw [if_neg h2, show j - n = (j - n - 1) + 1 by omega, List.getElem?_cons_succ, List.getElem?_drop]
          congr 2; omega
    rw [key _ _ (by simp [incr, hl]), incr, nth_set, hxl]
    simp only [incr, nth_set, hl, key a _ hl]
    by_cases h1 : N = i
    · subst h1
      rw [if_pos ⟨rfl, by omega⟩, if_neg (by omega), if_neg (by omega), if_neg (by omega), if_neg (by omega), if_pos ⟨rfl, by omega⟩]
    · rw [if_neg (c := N = i ∧ i < N + 1) (by tauto)]
      by_cases h2 : i < n
      · rw [if_pos h2, if_pos h2, if_neg (by omega)]
      · rw [if_neg h2, if_neg h2]
        by_cases h3 : i = n
        · rw [if_pos h3, if_pos h3]
        · rw [if_neg h3, if_neg h3, if_neg (by omega)]
  rw [upperBound, hN, e]
  have hil : (incr a (N - 1)).length = N := by simp [incr, hl]
  refine lowerBound_off_wrong h (by simp [insertAt]; omega) ?_
  unfold Off
  dsimp only
  rw [insertAt_base hil h.2.1, insertAt_nth hil h.2.1]
  have ht : a.take (m + 1) = (incr a (N - 1)).take (m + 1) := by
    rw [incr, List.take_set_of_le (by omega)]
  refine ⟨hnm, ⟨a, ha, ht⟩, ?_, fun b hb => lt_incr_self (by omega) (by rw [h.2.2.1 b hb, hl]) (hmax b hb)⟩
  rw [← nth_of_take_eq ht (by omega)]; exact hs

example : upperBound exOff [0, 1, 0] = none := (upperBound_last_wrong (a := [1, 0]) (s := 0) exOff_built (by decide) (by decide) (by decide) (by decide) (by decide)).2

/-- **C05**: `find` gives the number of an enumerated array, and the end for any other. -/
theorem findKey_eq {E : Ext} (h : Built N n m rg base E) {x : Key} (hx : x.length = N + 1) :
    findKey E x = some (if x ∈ extSet n m rg base then place (extSet n m rg base) x else (extSet n m rg base).card) := by
  unfold findKey
  by_cases hc : x ∈ extSet n m rg base
  · rw [if_pos hc, if_pos ((contains_iff h hx).2 hc), rank_eq h hc]
  · rw [if_neg hc, if_neg (fun h' => hc ((contains_iff h hx).1 h')), size_eq h]

example : findKey exHigh [1, 0, 0] = some 5 ∧ findKey exHigh [0, 1, 2] = some 6 := by decide
example : findKey exHigh [0, 1, 2] = some 6 := (findKey_eq exHigh_built rfl).trans (by decide)

/-- The index of the middle array has no elements. -/
def exEmpty : Ext := (setup 1 1 0 (fun v => if v = 1 then 0 else 1) (baseSet [[0], [1], [2]])).getD ⟨0, 0, 0, id, [], [], [], [], [], [], 0⟩
theorem exEmpty_built : Built 1 1 0 (fun v => if v = 1 then 0 else 1) [[0], [1], [2]] exEmpty := ⟨by decide, by decide, by decide, rfl⟩

/-- **C05**, the exception: with an empty range the assertion of `operator[]` fails for a key that is not enumerated. -/
theorem lowerBound_empty_range_wrong : ∃ E : Ext, Built 1 1 0 (fun v => if v = 1 then 0 else 1) [[0], [1], [2]] E ∧ lowerBound E [0, 1] = none ∧
    place (extSet 1 0 (fun v => if v = 1 then 0 else 1) [[0], [1], [2]]) [0, 1] = 1 ∧
    (extSet 1 0 (fun v => if v = 1 then 0 else 1) [[0], [1], [2]]).card = 2 :=
  ⟨exEmpty, exEmpty_built, by decide, by decide, by decide⟩

/-- **C05**, the exception: moving an iterator back moves it forward, unless it does not move. -/
theorem minusAssign_wrong (i k : Nat) : minusAssign (plusAssign i k) k = i ↔ k = 0 := by unfold minusAssign plusAssign; omega

example : minusAssign (plusAssign 3 2) 2 ≠ 3 := fun h => by have := (minusAssign_wrong 3 2).1 h; omega

/-- **C05**, the exception: `a >= b` of iterators is false exactly when `a` does not stand before `b`. -/
theorem iterGe_wrong (i j : Nat) : iterGe i j = true ↔ ¬ j ≤ i := by unfold iterGe; simp

example : iterGe 3 3 = false := by decide

end Verif.ExtEnum
