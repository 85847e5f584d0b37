import Mathlib.Tactic.Tauto
import Verif.Lemmas.ExtLex

/-! The tables built by `setup`, by what they sum. -/
namespace Verif.ExtEnum

/-- Sorted by the keys. -/
def MSorted {α : Type} (M : List (Key × α)) : Prop := M.Pairwise fun a b => lexLt a.1 b.1 = true

/-- The sum of the values weighted by a function of the key. -/
def tot (f : Key → Nat) (M : KMap) : Nat := (M.map fun e => f e.1 * e.2).sum

/-- The same over numbers. -/
def totV (f : Nat → Nat) (M : List (Nat × Nat)) : Nat := (M.map fun e => f e.1 * e.2).sum

@[simp] theorem tot_nil (f : Key → Nat) : tot f [] = 0 := rfl
@[simp] theorem tot_cons (f : Key → Nat) (e : Key × Nat) (M : KMap) : tot f (e :: M) = f e.1 * e.2 + tot f M := by simp [tot]
@[simp] theorem totV_nil (f : Nat → Nat) : totV f [] = 0 := rfl
@[simp] theorem totV_cons (f : Nat → Nat) (e : Nat × Nat) (M : List (Nat × Nat)) : totV f (e :: M) = f e.1 * e.2 + totV f M := by
  simp [totV]

theorem tot_append (f : Key → Nat) (M L : KMap) : tot f (M ++ L) = tot f M + tot f L := by simp [tot]

theorem tot_congr {f g : Key → Nat} {M : KMap} (h : ∀ e ∈ M, f e.1 = g e.1) : tot f M = tot g M := by
  unfold tot; congr 1; exact List.map_congr_left fun e he => by rw [h e he]

/-- Dropping the entries that do not count. -/
theorem tot_filter (f : Key → Nat) (q : Key × Nat → Bool) (M : KMap) :
    (((M.filter q).map fun e => f e.1 * e.2).sum) = ((M.map fun e => (if q e then f e.1 else 0) * e.2).sum) := by
  induction M with
  | nil => rfl
  | cons e M ih => cases hq : q e <;> simp [hq, ih]

theorem nth_set {a : Key} {i j v : Nat} : nth (a.set i v) j = if i = j ∧ j < a.length then v else nth a j := by
  unfold nth
  rw [List.getD_eq_getElem?_getD, List.getD_eq_getElem?_getD, List.getElem?_set]
  by_cases h : i = j
  · subst h
    by_cases h2 : i < a.length
    · simp [h2]
    · simp [h2]
  · simp [h]

theorem key_ext {a b : Key} (hl : a.length = b.length) (h : ∀ i < a.length, nth a i = nth b i) : a = b := by
  apply List.ext_getElem hl
  intro i h1 h2
  have := h i h1
  simpa [nth, h1, h2] using this

theorem take_eq_iff {a b : Key} (hl : a.length = b.length) {k : Nat} :
    a.take k = b.take k ↔ ∀ i < k, nth a i = nth b i := by
  constructor
  · intro h i hi; exact nth_of_take_eq h hi
  · intro h
    refine key_ext (by simp [hl]) fun i hi => ?_
    have hi' : i < k := by simp at hi; omega
    rw [nth_take hi', nth_take hi', h i hi']

/-- The order of prefixes follows the order. -/
theorem take_mono {a b : Key} (hl : a.length = b.length) (k : Nat) (h : lexLt b a = false) : lexLt (b.take k) (a.take k) = false := by
  cases h' : lexLt (b.take k) (a.take k) with
  | false => rfl
  | true =>
    have := (lexLt_append (take_length_eq hl.symm) (b.drop k) (a.drop k)).2 (Or.inl h')
    rw [List.take_append_drop, List.take_append_drop, h] at this
    cases this

theorem take_mono' {a b : Key} (hl : a.length = b.length) (k : Nat) (h : lexLt a b = true) : lexLt (b.take k) (a.take k) = false :=
  take_mono hl k (lexLt_asymm h)

/-! ### `find`, `emplace`, `+=` -/

theorem addTo_keys {k x : Key} {v : Nat} {M : KMap} : x ∈ (addTo k v M).map Prod.fst ↔ x = k ∨ x ∈ M.map Prod.fst := by
  induction M with
  | nil => simp [addTo]
  | cons e M ih =>
    unfold addTo
    split
    · rename_i h; subst h; simp
    · split
      · simp
      · simp only [List.map_cons, List.mem_cons, ih]; tauto

theorem tot_addTo (f : Key → Nat) (k : Key) (v : Nat) (M : KMap) : tot f (addTo k v M) = tot f M + f k * v := by
  induction M with
  | nil => simp [addTo]
  | cons e M ih =>
    unfold addTo
    split
    · rename_i h; subst h; simp; ring
    · split
      · simp; ring
      · simp only [tot_cons, ih]; ring

theorem addTo_sorted {k : Key} {v : Nat} {M : KMap} (h : MSorted M) : MSorted (addTo k v M) := by
  induction M with
  | nil => simp [addTo, MSorted]
  | cons e M ih =>
    obtain ⟨h1, h2⟩ := List.pairwise_cons.1 h
    unfold addTo
    split
    · exact List.pairwise_cons.2 ⟨h1, h2⟩
    · rename_i hne
      split
      · rename_i hlt
        exact List.pairwise_cons.2 ⟨fun y hy => by
          rcases List.mem_cons.1 hy with rfl | hy
          · exact hlt
          · exact lexLt_trans hlt (h1 y hy), h⟩
      · rename_i hlt
        refine List.pairwise_cons.2 ⟨fun y hy => ?_, ih h2⟩
        have hy' := List.mem_map_of_mem (f := Prod.fst) hy
        rcases addTo_keys.1 hy' with h' | h'
        · rw [h']
          rcases lexLt_total e.1 k with h | h | h
          · exact h
          · exact absurd h.symm hne
          · exact absurd h hlt
        · obtain ⟨z, hz, hz'⟩ := List.mem_map.1 h'
          rw [← hz']; exact h1 z hz

theorem ins_keys {k x : Key} {v : Nat} {M : KMap} : x ∈ (ins k v M).map Prod.fst ↔ x = k ∨ x ∈ M.map Prod.fst := by
  induction M with
  | nil => simp [ins]
  | cons e M ih =>
    unfold ins
    split
    · rename_i h; subst h; simp
    · split
      · simp
      · simp only [List.map_cons, List.mem_cons, ih]; tauto

theorem ins_sorted {k : Key} {v : Nat} {M : KMap} (h : MSorted M) : MSorted (ins k v M) := by
  induction M with
  | nil => simp [ins, MSorted]
  | cons e M ih =>
    obtain ⟨h1, h2⟩ := List.pairwise_cons.1 h
    unfold ins
    split
    · exact List.pairwise_cons.2 ⟨h1, h2⟩
    · rename_i hne
      split
      · rename_i hlt
        exact List.pairwise_cons.2 ⟨fun y hy => by
          rcases List.mem_cons.1 hy with rfl | hy
          · exact hlt
          · exact lexLt_trans hlt (h1 y hy), h⟩
      · rename_i hlt
        refine List.pairwise_cons.2 ⟨fun y hy => ?_, ih h2⟩
        have hy' := List.mem_map_of_mem (f := Prod.fst) hy
        rcases ins_keys.1 hy' with h' | h'
        · rw [h']
          rcases lexLt_total e.1 k with h | h | h
          · exact h
          · exact absurd h.symm hne
          · exact absurd h hlt
        · obtain ⟨z, hz, hz'⟩ := List.mem_map.1 h'
          rw [← hz']; exact h1 z hz

theorem tot_ins (f : Key → Nat) {k : Key} (v : Nat) {M : KMap} (h : k ∉ M.map Prod.fst) : tot f (ins k v M) = tot f M + f k * v := by
  induction M with
  | nil => simp [ins]
  | cons e M ih =>
    simp only [List.map_cons, List.mem_cons, not_or] at h
    unfold ins
    rw [if_neg h.1]
    split
    · simp; ring
    · simp only [tot_cons, ih h.2]; ring

theorem tot_ins_zero (f : Key → Nat) {k : Key} {M : KMap} : tot f (ins k 0 M) = tot f M := by
  induction M with
  | nil => simp [ins]
  | cons e M ih =>
    unfold ins
    split
    · rfl
    · split
      · simp
      · simp [ih]

theorem addVal_keys {k x v : Nat} {M : List (Nat × Nat)} : x ∈ (addVal k v M).map Prod.fst ↔ x = k ∨ x ∈ M.map Prod.fst := by
  induction M with
  | nil => simp [addVal]
  | cons e M ih =>
    unfold addVal
    split
    · rename_i h; subst h; simp
    · split
      · simp
      · simp only [List.map_cons, List.mem_cons, ih]; tauto

theorem totV_addVal (f : Nat → Nat) (k v : Nat) (M : List (Nat × Nat)) : totV f (addVal k v M) = totV f M + f k * v := by
  induction M with
  | nil => simp [addVal]
  | cons e M ih =>
    unfold addVal
    split
    · rename_i h; subst h; simp; ring
    · split
      · simp; ring
      · simp only [totV_cons, ih]; ring

theorem addVal_sorted {k v : Nat} {M : List (Nat × Nat)} (h : M.Pairwise fun a b => a.1 < b.1) :
    (addVal k v M).Pairwise fun a b => a.1 < b.1 := by
  induction M with
  | nil => simp [addVal]
  | cons e M ih =>
    obtain ⟨h1, h2⟩ := List.pairwise_cons.1 h
    unfold addVal
    split
    · exact List.pairwise_cons.2 ⟨h1, h2⟩
    · rename_i hne
      split
      · rename_i hlt
        exact List.pairwise_cons.2 ⟨fun y hy => by
          rcases List.mem_cons.1 hy with rfl | hy
          · exact hlt
          · exact Nat.lt_trans hlt (h1 y hy), h⟩
      · rename_i hlt
        refine List.pairwise_cons.2 ⟨fun y hy => ?_, ih h2⟩
        have hy' := List.mem_map_of_mem (f := Prod.fst) hy
        rcases addVal_keys.1 hy' with h' | h'
        · rw [h']; omega
        · obtain ⟨z, hz, hz'⟩ := List.mem_map.1 h'
          rw [← hz']; exact h1 z hz

/-- The value at a key of a sorted table is the sum over the entries with this key. -/
theorem tot_single {M : KMap} (h : MSorted M) {e : Key × Nat} (he : e ∈ M) : tot (fun k => if k = e.1 then 1 else 0) M = e.2 := by
  induction M with
  | nil => simp at he
  | cons x M ih =>
    obtain ⟨h1, h2⟩ := List.pairwise_cons.1 h
    rw [tot_cons]
    rcases List.mem_cons.1 he with rfl | he
    · have : tot (fun k => if k = e.1 then 1 else 0) M = 0 := by
        unfold tot
        rw [List.sum_eq_zero]
        intro y hy
        obtain ⟨z, hz, rfl⟩ := List.mem_map.1 hy
        simp [(ne_of_lexLt (h1 z hz)).symm]
      simp [this]
    · simp [ne_of_lexLt (h1 e he), ih h2 he]

theorem tot_absent {M : KMap} {k0 : Key} (h : k0 ∉ M.map Prod.fst) : tot (fun k => if k = k0 then 1 else 0) M = 0 := by
  unfold tot
  rw [List.sum_eq_zero]
  intro y hy
  obtain ⟨z, hz, rfl⟩ := List.mem_map.1 hy
  have : z.1 ≠ k0 := fun e => h (e ▸ List.mem_map_of_mem hz)
  simp [this]

/-! ### Searches -/

/-- The first entry not below the key. -/
theorem lbKey_split {α : Type} {M1 M2 : List (Key × α)} {e : Key × α} (h : MSorted (M1 ++ e :: M2)) {z : Key} (he : lexLt e.1 z = false) :
    lbKey (M1 ++ e :: M2) z = (M1.filter fun x => !lexLt x.1 z) ++ e :: M2 := by
  unfold lbKey
  induction M1 with
  | nil => simp [he]
  | cons x M1 ih =>
    obtain ⟨h1, h2⟩ := List.pairwise_cons.1 h
    cases hx : lexLt x.1 z with
    | true => simp [hx, ih h2]
    | false =>
      have : M1.filter (fun x => !lexLt x.1 z) = M1 := by
        rw [List.filter_eq_self]
        intro y hy
        have := h1 y (by simp [hy])
        cases hy : lexLt y.1 z with
        | false => rfl
        | true => have := lexLt_trans this hy; rw [hx] at this; cases this
      simp [hx, this]

/-- The loop from the lower bound of a prefix while the prefix agrees visits the entries with this prefix. -/
theorem scan_eq_filter {α : Type} {M : List (Key × α)} {q : Key × α → Bool} {z : Key}
    (h : MSorted M) (hz : ∀ e ∈ M, lexLt e.1 z = true → q e = false)
    (hq : ∀ a ∈ M, ∀ b ∈ M, lexLt a.1 b.1 = true → lexLt a.1 z = false → q a = false → q b = false) :
    (lbKey M z).takeWhile q = M.filter q := by
  unfold lbKey
  induction M with
  | nil => rfl
  | cons x M ih =>
    obtain ⟨h1, h2⟩ := List.pairwise_cons.1 h
    have ih' := ih h2 (fun e he => hz e (by simp [he])) (fun a ha b hb => hq a (by simp [ha]) b (by simp [hb]))
    cases hx : lexLt x.1 z with
    | true =>
      rw [List.dropWhile_cons_of_pos (by exact hx), List.filter_cons_of_neg (by simp [hz x (by simp) hx]), ih']
    | false =>
      rw [List.dropWhile_cons_of_neg (by simp [hx])]
      refine takeWhile_eq_filter ?_
      refine List.Pairwise.imp_of_mem ?_ h
      intro a b ha hb hab hqa
      refine hq a ha b hb hab ?_ hqa
      rcases List.mem_cons.1 ha with rfl | ha
      · exact hx
      · cases h' : lexLt a.1 z with
        | false => rfl
        | true => have := lexLt_trans (h1 a ha) h'; rw [hx] at this; cases this

/-- The loop over the entries with a given prefix. -/
theorem scan_prefix {α : Type} {M : List (Key × α)} {N k : Nat} {z : Key} (h : MSorted M) (hl : ∀ e ∈ M, e.1.length = N) (hzl : z.length = N) :
    (lbKey M (zeroFrom k z)).takeWhile (fun e => same k e.1 z) = M.filter fun e => same k e.1 z := by
  refine scan_eq_filter h ?_ ?_
  · intro e he h1
    rw [lexLt_zeroFrom (by rw [hl e he, hzl])] at h1
    simp [same, ne_of_lexLt h1]
  · intro a ha b hb hab h1 h2
    rw [lexLt_zeroFrom (by rw [hl a ha, hzl])] at h1
    simp only [same, decide_eq_false_iff_not] at *
    intro h3
    have h4 := take_mono' (by rw [hl a ha, hl b hb]) k hab
    rw [h3] at h4
    rcases lexLt_total (a.1.take k) (z.take k) with h | h | h
    · rw [h1] at h; cases h
    · exact h2 h
    · rw [h4] at h; cases h

/-- The same with the further condition on the next entry. -/
theorem scan_prefix_lt {α : Type} {M : List (Key × α)} {N k v : Nat} {z z' : Key} (h : MSorted M) (hl : ∀ e ∈ M, e.1.length = N) (hzl : z.length = N)
    (hz' : z.take k = z'.take k) (hk : k < N) :
    (lbKey M (zeroFrom k z)).takeWhile (fun e => same k e.1 z' && decide (nth e.1 k < v)) =
      M.filter fun e => same k e.1 z' && decide (nth e.1 k < v) := by
  have hs : ∀ e : Key × α, same k e.1 z' = same k e.1 z := fun e => by simp [same, hz']
  simp only [hs]
  refine scan_eq_filter h ?_ ?_
  · intro e he h1
    rw [lexLt_zeroFrom (by rw [hl e he, hzl])] at h1
    simp [same, ne_of_lexLt h1]
  · intro a ha b hb hab h1 h2
    rw [lexLt_zeroFrom (by rw [hl a ha, hzl])] at h1
    simp only [same, Bool.and_eq_false_iff, decide_eq_false_iff_not] at *
    by_contra hc
    rw [not_or, not_not, not_not] at hc
    obtain ⟨h3, h3'⟩ := hc
    have h4 := take_mono' (by rw [hl a ha, hl b hb]) k hab
    rw [h3] at h4
    have h5 : a.1.take k = z.take k := by
      rcases lexLt_total (a.1.take k) (z.take k) with h | h | h
      · rw [h1] at h; cases h
      · exact h
      · rw [h4] at h; cases h
    rcases h2 with h2 | h2
    · exact h2 h5
    · obtain ⟨d, L, hd⟩ := exists_diff (hl a ha) (hl b hb)
      have h6 : k ≤ d := (hd.eq k hk.le).1 (h5.trans h3.symm)
      have h7 := (hd.lt N le_rfl)
      rw [List.take_of_length_le (by rw [hl a ha]), List.take_of_length_le (by rw [hl b hb])] at h7
      obtain ⟨h8, h9⟩ := h7.1 hab
      rcases Nat.lt_or_ge k d with h | h
      · have := hd.nth_eq k h; omega
      · obtain rfl : k = d := by omega
        have := (hd.nth_lt h8).2 h9; omega

/-! ### The sums over the arrays -/

/-- `ww[j]` keeps the first `j` entries and the entry `m`. -/
def shp (m j : Nat) (a : Key) : Key := (zeroFrom j a).set m (nth a m)

theorem shp_length (m j : Nat) (a : Key) : (shp m j a).length = a.length := by simp [shp, zeroFrom_length]

theorem nth_shp {m j i : Nat} (a : Key) (hm : m < a.length) : nth (shp m j a) i = if i = m then nth a m else if i < j then nth a i else 0 := by
  rw [shp, nth_set, zeroFrom_length, nth_zeroFrom]
  by_cases h : m = i
  · subst h; simp [hm]
  · rw [if_neg (by tauto), if_neg (Ne.symm h)]

theorem take_shp {m j k : Nat} (a : Key) (hk : k ≤ j) (hm : k ≤ m) : (shp m j a).take k = a.take k := by
  rw [shp, List.take_set_of_le hm, take_zeroFrom a hk]

theorem shp_top {m : Nat} (a : Key) (hm : m < a.length) : shp m m a = zeroFrom (m + 1) a := by
  refine key_ext (by simp [shp_length, zeroFrom_length]) fun i _ => ?_
  rw [nth_shp a hm, nth_zeroFrom]
  split
  · rename_i h; subst h; rw [if_pos (by omega)]
  · split
    · rw [if_pos (by omega)]
    · rw [if_neg (by omega)]

theorem shp_step {m j : Nat} (a : Key) (hm : m < a.length) (hj : j < m) : (shp m (j + 1) a).set j 0 = shp m j a := by
  refine key_ext (by simp [shp_length]) fun i _ => ?_
  rw [nth_set, nth_shp a hm, nth_shp a hm, shp_length]
  by_cases h : j = i
  · subst h
    rw [if_pos ⟨rfl, by omega⟩, if_neg (by omega), if_neg (by omega)]
  · rw [if_neg (by tauto)]
    split
    · rfl
    · by_cases h2 : i < j
      · rw [if_pos (by omega), if_pos h2]
      · rw [if_neg (by omega), if_neg h2]

theorem shp_shp {m j k : Nat} (a : Key) (hm : m < a.length) (h : k ≤ j) : shp m k (shp m j a) = shp m k a := by
  refine key_ext (by simp [shp_length]) fun i _ => ?_
  rw [nth_shp _ (by rwa [shp_length]), nth_shp a hm, nth_shp a hm, nth_shp a hm]
  split
  · rw [if_pos rfl]
  · split
    · rw [if_pos (by omega)]
    · rfl

theorem shp_set_zero {m j : Nat} (a : Key) (hj : j ≤ m) : (shp m j a).set m 0 = zeroFrom j a := by
  refine key_ext (by simp [shp_length, zeroFrom_length]) fun i hi => ?_
  rw [List.length_set, shp_length] at hi
  rw [nth_set, shp_length, nth_zeroFrom]
  by_cases h : m = i
  · subst h; rw [if_pos ⟨rfl, hi⟩, if_neg (by omega)]
  · rw [if_neg (by tauto), shp, nth_set, if_neg (by tauto), nth_zeroFrom]

/-- What a table holds: the arrays of `A` collected under the keys `g a`. -/
structure Collects (A : List Key) (g : Key → Key) (M : KMap) : Prop where
  sorted : MSorted M
  tot : ∀ f, tot f M = (A.map fun a => f (g a)).sum
  keys : ∀ k, k ∈ M.map Prod.fst ↔ ∃ a ∈ A, k = g a

theorem rLoop_spec {m N : Nat} (hm : m < N) (fuel : Nat) (l : List Key) (r : KMap) (hf : l.length ≤ fuel) (hs : Sorted l)
    (hl : ∀ a ∈ l, a.length = N) (hr : MSorted r) (hlt : ∀ k ∈ r.map Prod.fst, ∀ a ∈ l, lexLt k (zeroFrom (m + 1) a) = true) :
    MSorted (rLoop m fuel l r) ∧ (∀ f, tot f (rLoop m fuel l r) = tot f r + (l.map fun a => f (zeroFrom (m + 1) a)).sum) ∧
    ∀ k, k ∈ (rLoop m fuel l r).map Prod.fst ↔ k ∈ r.map Prod.fst ∨ ∃ a ∈ l, k = zeroFrom (m + 1) a := by
  induction fuel generalizing l r with
  | zero =>
    obtain rfl : l = [] := List.length_eq_zero_iff.1 (by omega)
    simp [rLoop, hr]
  | succ fuel ih =>
    rcases l with _ | ⟨x, l⟩
    · simp [rLoop, hr]
    obtain ⟨hs1, hs2⟩ := List.pairwise_cons.1 hs
    have hxl : x.length = N := hl x (by simp)
    have hll : ∀ a ∈ l, a.length = N := fun a ha => hl a (by simp [ha])
    set b := zeroFrom (m + 1) x with hb
    have hsplit : l = (l.takeWhile fun y => lexLt y (incr b m)) ++ l.dropWhile fun y => lexLt y (incr b m) :=
      (List.takeWhile_append_dropWhile).symm
    have hch : ∀ y ∈ l.takeWhile (fun y => lexLt y (incr b m)), zeroFrom (m + 1) y = b := by
      intro y hy
      have h1 := List.mem_takeWhile_imp hy
      have hyl : y ∈ l := (List.takeWhile_sublist _).mem hy
      rw [hb, lexLt_incr (by rw [hll y hyl, hxl]) (by omega)] at h1
      have h2 := take_mono' (by rw [hll y hyl, hxl]) (m + 1) (hs1 y hyl)
      refine zeroFrom_congr (by rw [hll y hyl, hxl]) ?_
      rcases lexLt_total (y.take (m + 1)) (x.take (m + 1)) with h | h | h
      · rw [h2] at h; cases h
      · exact h
      · rw [h1] at h; cases h
    have hrest : ∀ y ∈ l.dropWhile (fun y => lexLt y (incr b m)), lexLt b (zeroFrom (m + 1) y) = true := by
      intro y hy
      have hyl : y ∈ l := (List.dropWhile_sublist _).mem hy
      have h1 : lexLt y (incr b m) = false := by
        rcases hd : l.dropWhile (fun y => lexLt y (incr b m)) with _ | ⟨z, l'⟩
        · rw [hd] at hy; simp at hy
        · have hz : lexLt z (incr b m) = false := by
            have := List.head_dropWhile_not (p := fun x => lexLt x (incr b m)) (l := l) (w := by simp [hd])
            simpa [hd] using this
          rw [hd] at hy
          rcases List.mem_cons.1 hy with rfl | hy
          · exact hz
          · have hp : (z :: l').Pairwise fun a b' => lexLt a (incr b m) = false → lexLt b' (incr b m) = false := by
              rw [← hd]; exact List.Pairwise.sublist (List.dropWhile_sublist _) (sorted_lt_closed hs2 _)
            exact (List.pairwise_cons.1 hp).1 y hy hz
      have h2 : lexLt (x.take (m + 1)) (y.take (m + 1)) = true := by
        have := lexLt_incr (a := y) (z := x) (k := m) (by rw [hll y hyl, hxl]) (by omega)
        rw [← hb, h1] at this
        cases h : lexLt (x.take (m + 1)) (y.take (m + 1)) with
        | true => rfl
        | false => simp [h] at this
      rw [lexLt_zeroFrom (by rw [hb, zeroFrom_length, hxl, hll y hyl]), hb, take_zeroFrom x le_rfl]
      exact h2
    have hbn : b ∉ r.map Prod.fst := fun h => absurd (hlt b h x (by simp)) (by rw [← hb, lexLt_irrefl]; simp)
    set ch := l.takeWhile fun y => lexLt y (incr b m) with hchd
    set rest := l.dropWhile fun y => lexLt y (incr b m) with hrestd
    have hlen : l.length = ch.length + rest.length := by rw [← List.length_append, ← hsplit]
    have hrl : rest.length ≤ l.length := by omega
    obtain ⟨i1, i2, i3⟩ := ih rest (ins b (l.length + 1 - rest.length) r) (by simp at hf; omega)
      (List.Pairwise.sublist (List.dropWhile_sublist _) hs2) (fun a ha => hll a ((List.dropWhile_sublist _).mem ha)) (ins_sorted hr) (by
        intro k hk a ha
        rcases ins_keys.1 hk with rfl | hk
        · exact hrest a ha
        · exact hlt k hk a (by simp [(List.dropWhile_sublist _).mem ha]))
    have hstep : rLoop m (fuel + 1) (x :: l) r = rLoop m fuel rest (ins b (l.length + 1 - rest.length) r) := rfl
    rw [hstep]
    refine ⟨i1, fun f => ?_, fun k => ?_⟩
    · rw [i2 f, tot_ins f _ hbn]
      have h1 : (ch.map fun a => f (zeroFrom (m + 1) a)).sum = ch.length * f b := by
        rw [List.map_congr_left (g := fun _ => f b) (fun y hy => by rw [hch y hy])]
        simp
      rw [List.map_cons, List.sum_cons, ← hb]
      conv_rhs => rw [hsplit]
      rw [List.map_append, List.sum_append, h1, hlen]
      have : ch.length + rest.length + 1 - rest.length = ch.length + 1 := by omega
      rw [this]; ring
    · rw [i3 k, ins_keys]
      constructor
      · rintro ((rfl | h) | ⟨a, ha, rfl⟩)
        · exact Or.inr ⟨x, by simp, rfl⟩
        · exact Or.inl h
        · exact Or.inr ⟨a, by simp [(List.dropWhile_sublist _).mem ha], rfl⟩
      · rintro (h | ⟨a, ha, rfl⟩)
        · exact Or.inl (Or.inr h)
        · rcases List.mem_cons.1 ha with rfl | ha
          · exact Or.inl (Or.inl rfl)
          · rw [hsplit] at ha
            rcases List.mem_append.1 ha with ha | ha
            · exact Or.inl (Or.inl (hch a ha))
            · exact Or.inr ⟨a, ha, rfl⟩

theorem r_collects {m N : Nat} (hm : m < N) {A : List Key} (hs : Sorted A) (hl : ∀ a ∈ A, a.length = N) :
    Collects A (zeroFrom (m + 1)) (rLoop m A.length A []) := by
  obtain ⟨h1, h2, h3⟩ := rLoop_spec hm A.length A [] le_rfl hs hl (by simp [MSorted]) (by simp)
  exact ⟨h1, fun f => by simp [h2 f], fun k => by simp [h3 k]⟩

/-- Collecting a table under further keys. -/
theorem fold_addTo {α : Type} (key : α → Key) (val : α → Nat) (M : List α) (acc : KMap) (hacc : MSorted acc) :
    MSorted (M.foldl (fun acc e => addTo (key e) (val e) acc) acc) ∧
    (∀ f, tot f (M.foldl (fun acc e => addTo (key e) (val e) acc) acc) = tot f acc + (M.map fun e => f (key e) * val e).sum) ∧
    ∀ k, k ∈ (M.foldl (fun acc e => addTo (key e) (val e) acc) acc).map Prod.fst ↔ k ∈ acc.map Prod.fst ∨ ∃ e ∈ M, k = key e := by
  induction M generalizing acc with
  | nil => simp [hacc]
  | cons e M ih =>
    obtain ⟨h1, h2, h3⟩ := ih (addTo (key e) (val e) acc) (addTo_sorted hacc)
    refine ⟨h1, fun f => ?_, fun k => ?_⟩
    · rw [List.foldl_cons, h2 f, tot_addTo, List.map_cons, List.sum_cons]; ring
    · rw [List.foldl_cons, h3 k, addTo_keys]
      simp only [List.mem_cons, exists_eq_or_imp]
      tauto

theorem wwAt_collects {m N : Nat} (hm : m < N) {A : List Key} (hl : ∀ a ∈ A, a.length = N) {r : KMap}
    (hr : Collects A (zeroFrom (m + 1)) r) (d : Nat) (hd : d ≤ m) : Collects A (shp m (m - d)) (wwAt m r d) := by
  induction d with
  | zero =>
    have e : ∀ a ∈ A, zeroFrom (m + 1) a = shp m m a := fun a ha => (shp_top a (by rw [hl a ha]; exact hm)).symm
    refine ⟨hr.sorted, fun f => ?_, fun k => ?_⟩
    · rw [wwAt, hr.tot f]; congr 1
      exact List.map_congr_left fun a ha => by rw [e a ha]; rfl
    · rw [wwAt, hr.keys k]
      constructor
      · rintro ⟨a, ha, rfl⟩; exact ⟨a, ha, e a ha⟩
      · rintro ⟨a, ha, rfl⟩; exact ⟨a, ha, (e a ha).symm⟩
  | succ d ih =>
    have h := ih (by omega)
    have e : ∀ a ∈ A, (shp m (m - d) a).set (m - (d + 1)) 0 = shp m (m - (d + 1)) a := by
      intro a ha
      have := shp_step (m := m) (j := m - (d + 1)) a (by rw [hl a ha]; exact hm) (by omega)
      rwa [show m - (d + 1) + 1 = m - d by omega] at this
    obtain ⟨h1, h2, h3⟩ := fold_addTo (fun e : Key × Nat => e.1.set (m - (d + 1)) 0) (fun e => e.2) (wwAt m r d) [] (by simp [MSorted])
    refine ⟨h1, fun f => ?_, fun k => ?_⟩
    · have h4 := h2 f
      have h5 := h.tot fun k => f (k.set (m - (d + 1)) 0)
      simp only [tot_nil, Nat.zero_add] at h4
      rw [wwAt, wwStep, h4]
      refine Eq.trans h5 ?_
      congr 1
      exact List.map_congr_left fun a ha => by rw [e a ha]
    · rw [wwAt, wwStep, h3 k]
      simp only [List.map_nil, List.not_mem_nil, false_or]
      constructor
      · rintro ⟨x, hx, rfl⟩
        obtain ⟨a, ha, hxa⟩ := (h.keys x.1).1 (List.mem_map_of_mem hx)
        exact ⟨a, ha, by rw [hxa, e a ha]⟩
      · rintro ⟨a, ha, rfl⟩
        obtain ⟨x, hx, hxa⟩ := List.mem_map.1 ((h.keys _).2 ⟨a, ha, rfl⟩)
        exact ⟨x, hx, by rw [hxa, e a ha]⟩

end Verif.ExtEnum
