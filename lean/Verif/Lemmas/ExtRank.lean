import Verif.Lemmas.ExtSetup
import Verif.Spec.ExtEnum

/-! The number computed by `operator[]`. -/
namespace Verif.ExtEnum
open Verif.Spec.ExtEnum

theorem lexLt_iff (a b : Key) : lexLt a b = true ↔ a < b := by
  induction a generalizing b with
  | nil => cases b <;> simp [lexLt]
  | cons x a ih =>
    rcases b with _ | ⟨y, b⟩
    · simp [lexLt]
    · rw [List.cons_lt_cons_iff, ← ih b]
      simp [lexLt]

/-- Sum over the arrays. -/
def S (A : List Key) (f : Key → Nat) : Nat := (A.map f).sum

theorem S_add (A : List Key) (f g : Key → Nat) : S A (fun a => f a + g a) = S A f + S A g := by
  unfold S; induction A with
  | nil => rfl
  | cons a A ih => simp only [List.map_cons, List.sum_cons, ih]; ring
theorem S_mul (A : List Key) (c : Nat) (f : Key → Nat) : S A (fun a => c * f a) = c * S A f := by
  unfold S; induction A with
  | nil => rfl
  | cons a A ih => simp only [List.map_cons, List.sum_cons, ih]; ring
theorem S_congr {A : List Key} {f g : Key → Nat} (h : ∀ a ∈ A, f a = g a) : S A f = S A g := by
  unfold S; congr 1; exact List.map_congr_left h
theorem S_le {A : List Key} {f g : Key → Nat} (h : ∀ a ∈ A, f a ≤ g a) : S A f ≤ S A g := by
  unfold S; exact List.sum_le_sum h
theorem S_zero (A : List Key) : S A (fun _ => 0) = 0 := by unfold S; simp
theorem countP_eq_S (p : Key → Bool) (A : List Key) : A.countP p = S A fun a => if p a = true then 1 else 0 := by
  unfold S; induction A with
  | nil => rfl
  | cons a A ih => rw [List.countP_cons, ih, List.map_cons, List.sum_cons]; ring
theorem one_le_S {A : List Key} {f : Key → Nat} {a : Key} (ha : a ∈ A) (h : 1 ≤ f a) : 1 ≤ S A f :=
  h.trans (List.single_le_sum (fun _ _ => Nat.zero_le _) _ (List.mem_map_of_mem (f := f) ha))

/-- The arrays of the base array `a` before the array `id` with `s`. -/
theorem count_one {N n d : Nat} {L : Prop} [Decidable L] {a id : Key} (hn : n ≤ N) (ha : a.length = N) (hid : id.length = N) (h : Diff N a id d L) (s R : Nat) :
    ((List.range R).map (insertAt n a)).countP (fun y => decide (y < insertAt n id s)) =
      if d < n then (if L then R else 0) else min s R + if s < R ∧ d < N ∧ L then 1 else 0 := by
  rw [List.countP_map]
  have hp : ∀ t, ((fun y => decide (y < insertAt n id s)) ∘ insertAt n a) t = true ↔
      ((d < n ∧ L) ∨ (n ≤ d ∧ (t < s ∨ t = s ∧ d < N ∧ L))) := by
    intro t
    simp only [Function.comp, decide_eq_true_eq]
    rw [← lexLt_iff]
    unfold insertAt
    rw [lexLt_append (by simp [ha, hid]), h.lt n hn, h.eq n hn]
    constructor
    · rintro (h1 | ⟨h1, h2⟩)
      · exact Or.inl h1
      · refine Or.inr ⟨h1, ?_⟩
        simpa [lexLt, h.tail n h1] using h2
    · rintro (h1 | ⟨h1, h2⟩)
      · exact Or.inl h1
      · refine Or.inr ⟨h1, ?_⟩
        simpa [lexLt, h.tail n h1] using h2
  have hc : ∀ (p q : Nat → Bool), (∀ t, p t = true ↔ q t = true) → (List.range R).countP p = (List.range R).countP q := by
    intro p q hpq
    exact List.countP_congr fun t _ => hpq t
  by_cases h1 : d < n
  · rw [if_pos h1]
    by_cases hL : L
    · rw [if_pos hL, hc _ (fun _ => true) (fun t => by rw [hp t]; simp [h1, hL])]
      simp
    · rw [if_neg hL, hc _ (fun _ => false) (fun t => by rw [hp t]; simp [h1, hL])]
      simp
  · rw [if_neg h1]
    have hcount : ∀ R, (List.range R).countP (fun t => decide (t < s)) = min s R ∧ (List.range R).countP (fun t => decide (t < s + 1)) = min s R + if s < R then 1 else 0 := by
      intro R
      induction R with
      | zero => simp
      | succ R ih =>
        rw [List.range_succ, List.countP_append, List.countP_append, ih.1, ih.2]
        simp only [List.countP_cons, List.countP_nil, decide_eq_true_eq]
        constructor
        · split <;> omega
        · split <;> split <;> split <;> omega
    by_cases h2 : d < N ∧ L
    · rw [hc _ (fun t => decide (t < s + 1)) (fun t => by
        rw [hp t]; simp only [decide_eq_true_eq]
        constructor
        · rintro (h3 | ⟨_, h3 | h3⟩)
          · exact absurd h3.1 h1
          · omega
          · omega
        · intro h3
          refine Or.inr ⟨by omega, ?_⟩
          rcases Nat.lt_or_ge t s with h4 | h4
          · exact Or.inl h4
          · exact Or.inr ⟨by omega, h2⟩), (hcount R).2]
      simp [h2]
    · rw [hc _ (fun t => decide (t < s)) (fun t => by
        rw [hp t]; simp only [decide_eq_true_eq]
        constructor
        · rintro (h3 | ⟨_, h3 | h3⟩)
          · exact absurd h3.1 h1
          · omega
          · exact absurd h3.2 h2
        · intro h3; exact Or.inr ⟨by omega, Or.inl h3⟩), (hcount R).1]
      simp [h2]

theorem number_eq_S (n m : Nat) (rg : Nat → Nat) (A : List Key) (x : Key) :
    number n m rg A x = S A fun a => ((List.range (rg (nth a m))).map (insertAt n a)).countP fun y => decide (y < x) := by
  unfold number arrays S
  rw [List.countP_flatMap]
  rfl

theorem insertAt_take {N n : Nat} {a : Key} (ha : a.length = N) (hn : n ≤ N) (s : Nat) : (insertAt n a s).take n = a.take n := by
  unfold insertAt; rw [List.take_append_of_le_length (by simp; omega), List.take_take, Nat.min_self]
theorem insertAt_drop {N n : Nat} {a : Key} (ha : a.length = N) (hn : n ≤ N) (s : Nat) : (insertAt n a s).drop (n + 1) = a.drop n := by
  unfold insertAt
  have : (a.take n).length = n := by simp; omega
  rw [List.drop_append, this]
  simp [List.drop_eq_nil_of_le]
theorem insertAt_nth {N n : Nat} {a : Key} (ha : a.length = N) (hn : n ≤ N) (s : Nat) : nth (insertAt n a s) n = s := by
  unfold insertAt nth
  have : (a.take n).length = n := by simp; omega
  rw [List.getD_eq_getElem?_getD, List.getElem?_append_right (by omega), this]
  simp
theorem insertAt_base {N n : Nat} {a : Key} (ha : a.length = N) (hn : n ≤ N) (s : Nat) :
    (insertAt n a s).take n ++ (insertAt n a s).drop (n + 1) = a := by
  rw [insertAt_take ha hn, insertAt_drop ha hn, List.take_append_drop]

theorem mem_arrays {n m : Nat} {rg : Nat → Nat} {A : List Key} {x : Key} :
    x ∈ arrays n m rg A ↔ ∃ a ∈ A, ∃ s < rg (nth a m), x = insertAt n a s := by
  unfold arrays
  simp only [List.mem_flatMap, List.mem_map, List.mem_range]
  constructor
  · rintro ⟨a, ha, s, hs, rfl⟩; exact ⟨a, ha, s, hs, rfl⟩
  · rintro ⟨a, ha, s, hs, rfl⟩; exact ⟨a, ha, s, hs, rfl⟩

/-! ### The positions among the base arrays -/

/-- The number of base arrays with a smaller prefix. -/
def C (A : List Key) (k : Nat) (id : Key) : Nat := S A fun a => if lexLt (a.take k) (id.take k) = true then 1 else 0

theorem C_eq {N : Nat} {A : List Key} (hl : ∀ a ∈ A, a.length = N) {id : Key} (hid : id.length = N) (k : Nat) :
    (A.countP fun x => lexLt x (zeroFrom k id)) = C A k id := by
  rw [countP_eq_S]
  exact S_congr fun a ha => by rw [lexLt_zeroFrom (by rw [hl a ha, hid])]

theorem C_mono {N : Nat} {A : List Key} (hl : ∀ a ∈ A, a.length = N) {id : Key} (hid : id.length = N) {j k : Nat} (h : j ≤ k) (hk : k ≤ N) :
    C A j id ≤ C A k id := by
  refine S_le fun a ha => ?_
  obtain ⟨d, L, hd⟩ := exists_diffB (hl a ha) hid
  simp only [hd.lt j (by omega), hd.lt k hk]
  split
  · rename_i h1; rw [if_pos ⟨by omega, h1.2⟩]
  · omega

theorem C_top {N : Nat} {A : List Key} (hl : ∀ a ∈ A, a.length = N) {id : Key} (hid : id.length = N) :
    (A.countP fun x => lexLt x id) = C A N id := by
  have := C_eq hl hid N
  rwa [show zeroFrom N id = id by rw [← hid, zeroFrom_full]] at this

/-- The number of base arrays with a prefix not above. -/
theorem C_incr {N : Nat} {A : List Key} (hl : ∀ a ∈ A, a.length = N) {id : Key} (hid : id.length = N) {k : Nat} (h0 : 0 < k) (hk : k ≤ N) :
    (A.countP fun x => lexLt x (incr (zeroFrom k id) (k - 1))) = C A k id + S A fun a => if a.take k = id.take k then 1 else 0 := by
  rw [countP_eq_S, C, ← S_add]
  refine S_congr fun a ha => ?_
  have h1 := lexLt_incr (a := a) (z := id) (k := k - 1) (by rw [hl a ha, hid]) (by omega)
  rw [show k - 1 + 1 = k by omega] at h1
  simp only [h1]
  rcases lexLt_total (a.take k) (id.take k) with h | h | h
  · simp [h, lexLt_asymm h, ne_of_lexLt h]
  · simp [h, lexLt_irrefl]
  · simp [h, lexLt_asymm h, (ne_of_lexLt h).symm]

theorem C_incr_ge {N : Nat} {A : List Key} (hl : ∀ a ∈ A, a.length = N) {id : Key} (hid : id ∈ A) {k : Nat} (hk : k ≤ N) :
    C A N id + 1 ≤ C A k id + S A fun a => if a.take k = id.take k then 1 else 0 := by
  have hidl := hl id hid
  have h1 : 1 ≤ S A fun a => if a = id then 1 else 0 := one_le_S hid (by simp)
  have h2 : C A N id + S A (fun a => if a = id then 1 else 0) ≤ C A k id + S A fun a => if a.take k = id.take k then 1 else 0 := by
    rw [C, C, ← S_add, ← S_add]
    refine S_le fun a ha => ?_
    obtain ⟨d, L, hd⟩ := exists_diffB (hl a ha) hidl
    have h3 : a = id ↔ N ≤ d := by
      rw [← hd.eq N le_rfl, List.take_of_length_le (hl a ha).le, List.take_of_length_le hidl.le]
    simp only [hd.lt k hk, hd.lt N le_rfl, hd.eq k hk, h3]
    have := hd.le
    have hidN : ¬ N ≤ d ↔ d < N := by omega
    by_cases h4 : N ≤ d
    · rw [if_neg (by omega), if_pos h4, if_neg (by omega), if_pos (by omega)]
    · by_cases h5 : L = true
      · simp only [h5, and_true]
        rw [if_pos (by omega), if_neg h4]
        by_cases h6 : d < k
        · rw [if_pos h6]; omega
        · rw [if_pos (by omega : k ≤ d)]; omega
      · simp [h5, h4]
  omega

theorem C_split {N : Nat} {A : List Key} (hl : ∀ a ∈ A, a.length = N) {id : Key} (hid : id.length = N) {j k : Nat} (h : j ≤ k) (hk : k ≤ N) :
    C A k id = C A j id + S A fun a => if a.take j = id.take j ∧ lexLt (a.take k) (id.take k) = true then 1 else 0 := by
  rw [C, C, ← S_add]
  refine S_congr fun a ha => ?_
  obtain ⟨d, L, hd⟩ := exists_diffB (hl a ha) hid
  simp only [hd.lt j (by omega), hd.lt k hk, hd.eq j (by omega)]
  by_cases h1 : d < j
  · have h2 : d < k := by omega
    have h3 : ¬ j ≤ d := by omega
    simp [h1, h2, h3]
  · have h3 : j ≤ d := by omega
    simp [h1, h3]

/-! ### The sum -/

/-- The value of `operator[]` for an enumerated array. -/
theorem rank_value {E : Ext} {A : List Key} (G : Good E A) {id : Key} (hid : id ∈ A) {s : Nat} (hs : s < E.rg (nth id E.m)) :
    rank E (insertAt E.n id s) = some (number E.n E.m E.rg A (insertAt E.n id s)) := by
  obtain ⟨N, n, m, rg, ord, Er, Ew, Ep, Eqq, Eqr, Esize⟩ := E
  have hidl : id.length = N := G.len id hid
  have hm : m < N := G.hm
  have hn : n ≤ N := G.hn
  have hord : ord = A := G.ord
  have hlenA : ∀ a ∈ A, a.length = N := G.len
  have hs : s < rg (nth id m) := hs
  subst hord
  have hml : ∀ a ∈ ord, m < a.length := fun a ha => by rw [hlenA a ha]; exact hm
  -- the entries of `k_id`
  set t := if m < n then n else m + 1 with ht
  have htN : t ≤ N := by rw [ht]; split <;> omega
  have hkId : (if n ≠ N then zeroFrom t id else id) = zeroFrom t id := by
    split
    · rfl
    · rename_i h
      have : t = N := by rw [ht, if_pos (by omega)]; omega
      rw [this, ← hidl, zeroFrom_full]
  have hitId : (ord.findIdx fun y => decide (y = id)) = C ord N id := by rw [findIdx_eq G.sorted hid, C_top hlenA hidl]
  have hlen : C ord N id < ord.length := by
    rw [← hitId]; exact List.findIdx_lt_length_of_exists ⟨id, hid, by simp⟩
  have hitK : (if n ≠ N then lbOrd ord 0 (C ord N id + 1) (zeroFrom t id) else C ord N id) = C ord t id := by
    split
    · rw [lbOrd_eq G.sorted (by omega) (by omega), C_eq hlenA hidl]
      have := C_mono hlenA hidl htN le_rfl
      omega
    · rename_i h
      have : t = N := by rw [ht, if_pos (by omega)]; omega
      rw [this]
  unfold rank
  simp only [insertAt_base hidl hn, insertAt_nth hidl hn, ← ht, hkId, hitId, hitK]
  have hg : ∀ P : Prop, [Decidable P] → P → (guard P : Option Unit) = some () := fun P _ h => by simp [guard, h]
  rw [hg _ hs, hg _ hid]
  simp only [Option.bind_eq_bind, Option.bind_some]
  congr 1
  -- w
  have hw : (if 0 < min m n then valAt Ew (zeroFrom (min m n) (zeroFrom t id)) else 0) = S ord fun a => if lexLt (a.take (min m n)) (id.take (min m n)) = true then rg (nth a m) else 0 := by
    have htl : min m n ≤ t := by rw [ht]; split <;> omega
    rw [zeroFrom_zeroFrom id htl]
    split
    · rename_i h0
      have h1 := G.w_val h0 id hid
      dsimp only at h1
      obtain ⟨e, he, hek⟩ := List.mem_map.1 ((G.w_keys h0 _).2 ⟨id, hid, rfl⟩)
      dsimp only at he hek
      obtain ⟨M1, M2, hM⟩ := List.append_of_mem he
      have hsrt : MSorted Ew := G.w_sorted h0
      have h2 := tot_single hsrt he
      rw [hM] at hsrt
      have hlb : lbKey Ew (zeroFrom (min m n) id) = e :: M2 := by
        rw [hM, lbKey_split hsrt (by rw [hek, lexLt_irrefl]), List.filter_eq_nil_iff.2, List.nil_append]
        intro y hy
        have := (List.pairwise_append.1 hsrt).2.2 y hy e (by simp)
        rw [hek] at this
        simp [this]
      simp only [valAt, hlb, hek, if_true]
      rw [← h2, hek]
      exact h1
    · rename_i h0
      have : min m n = 0 := by omega
      rw [this]
      simp [lexLt, S_zero]
  rw [hw]
  -- r
  have hr : ∀ F : Nat → Nat, (((lbKey Er (zeroFrom m (zeroFrom t id))).takeWhile fun e => same m e.1 (zeroFrom t id) && decide (nth e.1 m < nth id m)).map fun e =>
      F (nth e.1 m) * e.2).sum = S ord fun a => if a.take m = id.take m ∧ nth a m < nth id m then F (nth a m) else 0 := by
    intro F
    have htm : m ≤ t := by rw [ht]; split <;> omega
    have hEl : ∀ e ∈ Er, e.1.length = N := by
      intro e he
      obtain ⟨a, ha, hea⟩ := G.r.mem he
      rw [hea, zeroFrom_length, hlenA a ha]
    rw [zeroFrom_zeroFrom id htm, scan_prefix_lt (N := N) G.r.sorted hEl hidl (take_zeroFrom id htm).symm hm, tot_filter (fun k => F (nth k m))]
    refine G.r.tot' (fun k => if (same m k (zeroFrom t id) && decide (nth k m < nth id m)) = true then F (nth k m) else 0) _ fun a ha => ?_
    simp only [same, take_zeroFrom a (Nat.le_succ m), take_zeroFrom id htm, nth_zeroFrom, Nat.lt_succ_self, if_true, Bool.and_eq_true, decide_eq_true_eq]
  -- k
  have hk : C ord N id - C ord t id = S ord fun a => if a.take t = id.take t ∧ lexLt a id = true then 1 else 0 := by
    rw [C_split hlenA hidl htN le_rfl, Nat.add_sub_cancel_left]
    refine S_congr fun a ha => ?_
    rw [List.take_of_length_le (i := N) (hlenA a ha).le, List.take_of_length_le (i := N) hidl.le]
  rw [hk, number_eq_S]
  rcases Nat.lt_or_ge m n with hnm | hnm
  · -- n > m
    have ht' : t = n := by rw [ht, if_pos hnm]
    rw [ht']
    simp only [ht'] at hr
    simp only [if_pos hnm, if_neg (Nat.not_le.2 hnm), Nat.min_eq_left hnm.le]
    rw [hr rg]
    have hp : lbOrd ord (C ord N id + 1) ord.length (incr (zeroFrom n id) (n - 1)) - C ord n id = S ord fun a => if a.take n = id.take n then 1 else 0 := by
      rw [lbOrd_eq G.sorted (by omega) le_rfl]
      have h1 := C_incr hlenA hidl (k := n) (by omega) hn
      have h2 := C_incr_ge hlenA hid hn
      have h3 : (ord.countP fun x => lexLt x (incr (zeroFrom n id) (n - 1))) ≤ ord.length := List.countP_le_length
      omega
    have hq : (if m + 1 < n then rg (nth id m) * (C ord n id - lbOrd ord 0 (C ord n id + 1) (zeroFrom (m + 1) (zeroFrom n id))) else
        if n ≤ m ∧ s ≠ 0 then
      (((lbKey Eqq (zeroFrom n (zeroFrom n id))).takeWhile fun e => same m e.1 (zeroFrom n (zeroFrom n id))).map fun e =>
        min s (rg (nth e.1 m)) * e.2).sum
      else 0) = S ord fun a => rg (nth id m) * if a.take (m + 1) = id.take (m + 1) ∧ lexLt (a.take n) (id.take n) = true then 1 else 0 := by
      rw [S_mul]
      split
      · rename_i h0
        rw [zeroFrom_zeroFrom id (by omega), lbOrd_eq G.sorted (by omega) (by have := C_mono hlenA hidl hn le_rfl; omega), C_eq hlenA hidl]
        have h1 := C_split hlenA hidl (j := m + 1) (k := n) (by omega) hn
        have h2 := C_mono hlenA hidl (j := m + 1) (k := n) (by omega) hn
        congr 1
        omega
      · rw [if_neg (by omega)]
        rename_i h0
        have h1 := C_split hlenA hidl (j := m + 1) (k := n) (by omega) hn
        have : m + 1 = n := by omega
        rw [this] at h1 ⊢
        rw [show (S ord fun a => if a.take n = id.take n ∧ lexLt (a.take n) (id.take n) = true then 1 else 0) = 0 by omega, Nat.mul_zero]
    rw [hp, hq, ← S_mul ord s, ← S_add, ← S_add, ← S_add, ← S_add]
    refine S_congr fun a ha => ?_
    obtain ⟨d, L, hd⟩ := exists_diffB (hlenA a ha) hidl
    rw [count_one hn (hlenA a ha) hidl hd]
    have hlt : lexLt a id = true ↔ d < N ∧ L := by
      have := hd.lt N le_rfl
      rwa [List.take_of_length_le (hlenA a ha).le, List.take_of_length_le hidl.le] at this
    simp only [hd.lt m hm.le, hd.lt n hn, hd.eq m hm.le, hd.eq (m + 1) hm, hd.eq n hn, hlt]
    have h1 : m ≤ d ∧ nth a m < nth id m ↔ d = m ∧ L := by
      constructor
      · rintro ⟨h1, h2⟩
        rcases Nat.lt_or_ge m d with h | h
        · have := hd.nth_eq m h; omega
        · obtain rfl : m = d := by omega
          exact ⟨rfl, (hd.nth_lt (by omega)).1 h2⟩
      · rintro ⟨rfl, h2⟩
        exact ⟨le_rfl, (hd.nth_lt (by omega)).2 h2⟩
    simp only [h1]
    have hdN := hd.le
    have hR : m < d → rg (nth a m) = rg (nth id m) := fun h => by rw [hd.nth_eq m h]
    clear hw hr hk hp hq
    generalize rg (nth a m) = R at *
    generalize rg (nth id m) = R' at *
    cases L <;> simp only [Bool.false_eq_true, and_true, and_false, if_true, if_false, mul_ite, mul_one, mul_zero] <;>
      rcases Nat.lt_or_ge m d with h2 | h2 <;> try have := hR h2
    all_goals split_ifs <;> omega
  · -- n ≤ m
    have ht' : t = m + 1 := by rw [ht, if_neg (by omega)]
    rw [ht']
    simp only [ht'] at hr
    simp only [if_neg (Nat.not_lt.2 hnm), if_pos hnm, Nat.min_eq_right hnm]
    have hr' := hr fun v => if s < rg v then 1 else 0
    rw [hr']
    have hq : (if m + 1 < n then rg (nth id m) * (C ord (m + 1) id - lbOrd ord 0 (C ord (m + 1) id + 1) (zeroFrom (m + 1) (zeroFrom (m + 1) id))) else
        if n ≤ m ∧ s ≠ 0 then
      (((lbKey Eqq (zeroFrom n (zeroFrom (m + 1) id))).takeWhile fun e => same m e.1 (zeroFrom n (zeroFrom (m + 1) id))).map fun e =>
        min s (rg (nth e.1 m)) * e.2).sum
      else 0) = S ord fun a => if a.take n = id.take n then min s (rg (nth a m)) else 0 := by
      rw [if_neg (by omega), zeroFrom_zeroFrom id (by omega)]
      by_cases hs0 : s = 0
      · rw [if_neg (by tauto), hs0]; simp [S_zero]
      · rw [if_pos ⟨hnm, hs0⟩]
        have hq := G.q hnm
        have hEl : ∀ e ∈ Eqq, e.1.length = N := by
          intro e he
          obtain ⟨a, ha, hea⟩ := hq.mem he
          rw [hea, shp_length, hlenA a ha]
        have hz : zeroFrom n id = zeroFrom m (zeroFrom n id) := by
          refine key_ext (by simp [zeroFrom_length]) fun i _ => ?_
          rw [nth_zeroFrom, nth_zeroFrom, nth_zeroFrom]
          split
          · rw [if_pos (by omega)]
          · split <;> rfl
        have hscan := scan_prefix (k := m) (z := zeroFrom n id) hq.sorted hEl (by rw [zeroFrom_length, hidl])
        rw [← hz] at hscan
        rw [hscan, tot_filter (fun k => min s (rg (nth k m)))]
        refine hq.tot' (fun k => if same m k (zeroFrom n id) = true then min s (rg (nth k m)) else 0) _ fun a ha => ?_
        have h1 : nth (shp m n a) m = nth a m := by rw [nth_shp a (hml a ha), if_pos rfl]
        have h2 : same m (shp m n a) (zeroFrom n id) = true ↔ a.take n = id.take n := by
          rw [same, decide_eq_true_eq, take_eq_iff (by rw [shp_length, zeroFrom_length, hlenA a ha, hidl]), take_eq_iff (by rw [hlenA a ha, hidl])]
          constructor
          · intro h i hi
            have := h i (by omega)
            rwa [nth_shp a (hml a ha), if_neg (by omega), if_pos hi, nth_zeroFrom, if_pos hi] at this
          · intro h i hi
            rw [nth_shp a (hml a ha), if_neg (by omega), nth_zeroFrom]
            split
            · exact h i ‹_›
            · rfl
        simp only [h1, h2]
    have hp : (if n + 1 ≤ m then
        (((lbKey Ep ((zeroFrom (m + 1) id).set m 0)).takeWhile fun e => same m e.1 ((zeroFrom (m + 1) id).set m 0)).map fun e =>
          if s < rg (nth e.1 m) then e.2 else 0).sum else 0) =
        S ord fun a => if a.take n = id.take n ∧ lexLt (a.take m) (id.take m) = true then (if s < rg (nth a m) then 1 else 0) else 0 := by
      have hz : (zeroFrom (m + 1) id).set m 0 = zeroFrom m id := by
        rw [← shp_top id (by rw [hidl]; exact hm), shp_set_zero id le_rfl]
      rw [hz]
      split
      · rename_i h0
        have hEl : ∀ e ∈ Ep, e.1.length = N := fun e he => (G.p_shape h0 e.1 (List.mem_map_of_mem he)).1
        have hscan := scan_prefix (k := m) (z := zeroFrom m id) (G.p_sorted h0) hEl (by rw [zeroFrom_length, hidl])
        rw [zeroFrom_zeroFrom id le_rfl] at hscan
        rw [hscan]
        have h1 := G.p_sums h0 id hid fun v => if s < rg v then 1 else 0
        dsimp only at h1
        refine Eq.trans ?_ h1
        have h2 := tot_filter (fun k => if s < rg (nth k m) then 1 else 0) (fun e => same m e.1 (zeroFrom m id)) Ep
        have h3 : ∀ e : Key × Nat, (if s < rg (nth e.1 m) then e.2 else 0) = (if s < rg (nth e.1 m) then 1 else 0) * e.2 := by
          intro e; split <;> simp
        simp only [h3]
        rw [h2]
        refine tot_congr (M := Ep) (f := fun k => if same m k (zeroFrom m id) = true then (if s < rg (nth k m) then 1 else 0) else 0) fun e he => ?_
        simp only [same, take_zeroFrom id le_rfl, decide_eq_true_eq]
      · rename_i h0
        have : n = m := by omega
        rw [this]
        refine Eq.trans (S_zero ord).symm (S_congr fun a _ => (if_neg ?_).symm)
        rintro ⟨h1, h2⟩
        rw [h1, lexLt_irrefl] at h2; cases h2
    rw [hp, hq, ← S_add, ← S_add, ← S_add, ← S_add]
    refine S_congr fun a ha => ?_
    obtain ⟨d, L, hd⟩ := exists_diffB (hlenA a ha) hidl
    rw [count_one hn (hlenA a ha) hidl hd]
    have hlt : lexLt a id = true ↔ d < N ∧ L := by
      have := hd.lt N le_rfl
      rwa [List.take_of_length_le (hlenA a ha).le, List.take_of_length_le hidl.le] at this
    simp only [hd.lt m hm.le, hd.lt n hn, hd.eq m hm.le, hd.eq (m + 1) hm, hd.eq n hn, hlt]
    have h1 : m ≤ d ∧ nth a m < nth id m ↔ d = m ∧ L := by
      constructor
      · rintro ⟨h1, h2⟩
        rcases Nat.lt_or_ge m d with h | h
        · have := hd.nth_eq m h; omega
        · obtain rfl : m = d := by omega
          exact ⟨rfl, (hd.nth_lt (by omega)).1 h2⟩
      · rintro ⟨rfl, h2⟩
        exact ⟨le_rfl, (hd.nth_lt (by omega)).2 h2⟩
    simp only [h1]
    have hdN := hd.le
    have hR : m < d → rg (nth a m) = rg (nth id m) := fun h => by rw [hd.nth_eq m h]
    clear hw hr hk hp hq
    generalize rg (nth a m) = R at *
    generalize rg (nth id m) = R' at *
    cases L <;> simp only [Bool.false_eq_true, and_true, and_false, if_true, if_false] <;>
      rcases Nat.lt_or_ge m d with h2 | h2 <;> try have := hR h2
    all_goals split_ifs <;> omega

end Verif.ExtEnum
