import Mathlib.Tactic.Ring
import Mathlib.Algebra.Order.BigOperators.Group.List
import Mathlib.Data.List.TakeWhile
import Mathlib.Data.List.TakeDrop
import Verif.Model.ExtEnum

/-! The lexicographical order of arrays, and searches in sorted lists. -/
namespace Verif.ExtEnum

theorem lexLt_irrefl (a : Key) : lexLt a a = false := by
  induction a with
  | nil => rfl
  | cons x a ih => simp [lexLt, ih]

theorem lexLt_trans {a b c : Key} (h1 : lexLt a b = true) (h2 : lexLt b c = true) : lexLt a c = true := by
  induction a generalizing b c with
  | nil => cases b <;> cases c <;> simp_all [lexLt]
  | cons x a ih =>
    rcases b with _ | ⟨y, b⟩
    · simp [lexLt] at h1
    · rcases c with _ | ⟨z, c⟩
      · simp [lexLt] at h2
      · simp only [lexLt, Bool.or_eq_true, decide_eq_true_eq, Bool.and_eq_true] at *
        rcases h1 with h1 | ⟨rfl, h1⟩ <;> rcases h2 with h2 | ⟨rfl, h2⟩
        · left; omega
        · left; omega
        · left; omega
        · exact Or.inr ⟨rfl, ih h1 h2⟩

theorem lexLt_asymm {a b : Key} (h : lexLt a b = true) : lexLt b a = false := by
  cases h' : lexLt b a with
  | false => rfl
  | true => have := lexLt_trans h h'; rw [lexLt_irrefl] at this; cases this

theorem lexLt_total (a b : Key) : lexLt a b = true ∨ a = b ∨ lexLt b a = true := by
  induction a generalizing b with
  | nil => cases b <;> simp [lexLt]
  | cons x a ih =>
    rcases b with _ | ⟨y, b⟩
    · simp [lexLt]
    · simp only [lexLt, Bool.or_eq_true, decide_eq_true_eq, Bool.and_eq_true, List.cons.injEq]
      rcases Nat.lt_trichotomy x y with h | rfl | h
      · exact Or.inl (Or.inl h)
      · rcases ih b with h | h | h
        · exact Or.inl (Or.inr ⟨rfl, h⟩)
        · exact Or.inr (Or.inl ⟨rfl, h⟩)
        · exact Or.inr (Or.inr (Or.inr ⟨rfl, h⟩))
      · exact Or.inr (Or.inr (Or.inl h))

theorem ne_of_lexLt {a b : Key} (h : lexLt a b = true) : a ≠ b := by
  rintro rfl; rw [lexLt_irrefl] at h; cases h

/-- Not less, and another order fact. -/
theorem lexLt_of_le_of_lt {a b c : Key} (h1 : lexLt b a = false) (h2 : lexLt b c = true) : lexLt a c = true := by
  rcases lexLt_total a b with h | rfl | h
  · exact lexLt_trans h h2
  · exact h2
  · rw [h1] at h; cases h
theorem lexLt_of_lt_of_le {a b c : Key} (h1 : lexLt a b = true) (h2 : lexLt c b = false) : lexLt a c = true := by
  rcases lexLt_total b c with h | rfl | h
  · exact lexLt_trans h1 h
  · exact h1
  · rw [h2] at h; cases h

theorem lexLt_append {a b : Key} (h : a.length = b.length) (c d : Key) :
    lexLt (a ++ c) (b ++ d) = true ↔ lexLt a b = true ∨ (a = b ∧ lexLt c d = true) := by
  induction a generalizing b with
  | nil =>
    obtain rfl : b = [] := by cases b <;> simp_all
    simp [lexLt]
  | cons x a ih =>
    rcases b with _ | ⟨y, b⟩
    · simp at h
    · have := ih (b := b) (by simpa using h)
      simp only [List.cons_append, lexLt, Bool.or_eq_true, decide_eq_true_eq, Bool.and_eq_true, this, List.cons.injEq]
      tauto

theorem not_lexLt_zero (c : Key) : lexLt c (List.replicate c.length 0) = false := by
  induction c with
  | nil => rfl
  | cons x c ih => simp [List.replicate_succ, lexLt, ih]

/-- How two arrays of the same length are ordered: `d` is the first place where they differ (or the length), `L` tells which
one is smaller there. -/
structure Diff (N : Nat) (a b : Key) (d : Nat) (L : Prop) : Prop where
  le : d ≤ N
  eq : ∀ k ≤ N, a.take k = b.take k ↔ k ≤ d
  lt : ∀ k ≤ N, lexLt (a.take k) (b.take k) = true ↔ d < k ∧ L
  nth_eq : ∀ k < d, nth a k = nth b k
  nth_lt : d < N → (nth a d < nth b d ↔ L)
  nth_ne : d < N → nth a d ≠ nth b d
  tail : ∀ k ≤ d, lexLt (a.drop k) (b.drop k) = true ↔ d < N ∧ L

theorem exists_diff {N : Nat} {a b : Key} (ha : a.length = N) (hb : b.length = N) : ∃ d L, Diff N a b d L := by
  induction N generalizing a b with
  | zero =>
    obtain rfl := List.length_eq_zero_iff.1 ha
    obtain rfl := List.length_eq_zero_iff.1 hb
    exact ⟨0, False, ⟨le_refl _, by simp, by simp [lexLt], by simp, by simp, by simp, by simp [lexLt]⟩⟩
  | succ N ih =>
    rcases a with _ | ⟨x, a⟩
    · simp at ha
    rcases b with _ | ⟨y, b⟩
    · simp at hb
    by_cases hxy : x = y
    · subst hxy
      obtain ⟨d, L, h⟩ := ih (a := a) (b := b) (by simpa using ha) (by simpa using hb)
      refine ⟨d + 1, L, ⟨by have := h.le; omega, ?_, ?_, ?_, ?_, ?_, ?_⟩⟩
      · intro k hk
        rcases k with _ | k
        · simp
        · simp [h.eq k (by omega)]
      · intro k hk
        rcases k with _ | k
        · simp [lexLt]
        · simp [lexLt, h.lt k (by omega)]
      · intro k hk
        rcases k with _ | k
        · rfl
        · exact h.nth_eq k (by omega)
      · intro hd; exact h.nth_lt (by omega)
      · intro hd; exact h.nth_ne (by omega)
      · intro k hk
        rcases k with _ | k
        · have := h.tail 0 (by omega)
          simp only [List.drop_zero] at this
          simp [lexLt, this]
        · simpa using h.tail k (by omega)
    · refine ⟨0, x < y, ⟨by omega, ?_, ?_, by simp, ?_, ?_, ?_⟩⟩
      · intro k hk
        rcases k with _ | k <;> simp [hxy]
      · intro k hk
        rcases k with _ | k <;> simp [lexLt, hxy]
      · intro _; simp [nth]
      · intro _; simpa [nth] using hxy
      · intro k hk
        obtain rfl : k = 0 := by omega
        simp [lexLt, hxy]

theorem exists_diffB {N : Nat} {a b : Key} (ha : a.length = N) (hb : b.length = N) : ∃ d, ∃ L : Bool, Diff N a b d (L = true) := by
  classical
  obtain ⟨d, L, h⟩ := exists_diff ha hb
  exact ⟨d, decide L, by simpa using h⟩

theorem take_length_eq {a b : Key} {k : Nat} (h : a.length = b.length) : (a.take k).length = (b.take k).length := by simp [h]

/-- An array is below a prefix filled with zeros iff its prefix is below. -/
theorem lexLt_zeroFrom {a z : Key} (h : a.length = z.length) (k : Nat) :
    lexLt a (zeroFrom k z) = lexLt (a.take k) (z.take k) := by
  have e : lexLt a (zeroFrom k z) = lexLt (a.take k ++ a.drop k) (zeroFrom k z) := by rw [List.take_append_drop]
  rw [e, zeroFrom, Bool.eq_iff_iff, lexLt_append (take_length_eq h)]
  have hl : z.length - k = (a.drop k).length := by rw [List.length_drop, h]
  rw [hl, not_lexLt_zero]
  simp

theorem zeroFrom_length (k : Nat) (z : Key) : (zeroFrom k z).length = z.length := by
  simp [zeroFrom]; omega

theorem take_zeroFrom {k j : Nat} (z : Key) (h : j ≤ k) : (zeroFrom k z).take j = z.take j := by
  rw [zeroFrom]
  by_cases hk : k ≤ z.length
  · rw [List.take_append_of_le_length (by simp; omega), List.take_take, Nat.min_eq_left h]
  · rw [show z.length - k = 0 by omega]
    simp [List.take_take, Nat.min_eq_left h]

theorem zeroFrom_zeroFrom {k j : Nat} (z : Key) (h : j ≤ k) : zeroFrom j (zeroFrom k z) = zeroFrom j z := by
  rw [zeroFrom, take_zeroFrom z h, zeroFrom_length, zeroFrom]

theorem zeroFrom_full (z : Key) : zeroFrom z.length z = z := by simp [zeroFrom]

theorem zeroFrom_congr {k : Nat} {a b : Key} (hl : a.length = b.length) (h : a.take k = b.take k) : zeroFrom k a = zeroFrom k b := by
  rw [zeroFrom, zeroFrom, h, hl]

theorem nth_zeroFrom {k j : Nat} (z : Key) : nth (zeroFrom k z) j = if j < k then nth z j else 0 := by
  unfold nth zeroFrom
  by_cases h : j < k
  · rw [if_pos h]
    by_cases hz : j < z.length
    · rw [List.getD_eq_getElem?_getD, List.getD_eq_getElem?_getD, List.getElem?_append_left (by simp; omega), List.getElem?_take_of_lt h]
    · rw [List.getD_eq_getElem?_getD, List.getD_eq_getElem?_getD, List.getElem?_eq_none (by simp; omega),
        List.getElem?_eq_none (by omega)]
  · rw [if_neg h, List.getD_eq_getElem?_getD]
    by_cases hz : j < z.length
    · rw [List.getElem?_append_right (by simp; omega), List.getElem?_replicate]
      split <;> rfl
    · rw [List.getElem?_eq_none (by simp; omega)]; rfl

theorem nth_take {a : Key} {k j : Nat} (h : j < k) : nth (a.take k) j = nth a j := by
  unfold nth
  rw [List.getD_eq_getElem?_getD, List.getD_eq_getElem?_getD, List.getElem?_take_of_lt h]

theorem nth_of_take_eq {a b : Key} {k j : Nat} (h : a.take k = b.take k) (hj : j < k) : nth a j = nth b j := by
  rw [← nth_take hj, h, nth_take hj]

/-- Below an increased prefix: the prefix is not above. -/
theorem lexLt_incr {a z : Key} {k : Nat} (h : a.length = z.length) (hk : k < z.length) :
    lexLt a (incr (zeroFrom (k + 1) z) k) = true ↔ lexLt (z.take (k + 1)) (a.take (k + 1)) = false := by
  have e : incr (zeroFrom (k + 1) z) k = z.take k ++ (nth z k + 1) :: List.replicate (z.length - (k + 1)) 0 := by
    unfold incr
    rw [nth_zeroFrom, if_pos (by omega), zeroFrom]
    rw [List.set_append_left _ _ (by simp; omega)]
    have : z.take (k + 1) = z.take k ++ [z[k]] := by simp
    rw [this, List.set_append_right _ _ (by simp)]
    simp [Nat.min_eq_left (Nat.le_of_lt hk)]
  have ea : a = a.take k ++ nth a k :: a.drop (k + 1) := by
    have hk' : k < a.length := by omega
    conv_lhs => rw [← List.take_append_drop k a, List.drop_eq_getElem_cons hk']
    congr 2
    simp [nth, hk']
  have et : ∀ b : Key, k < b.length → b.take (k + 1) = b.take k ++ [nth b k] := by
    intro b hb
    simp [nth, hb]
  rw [e, et z hk, et a (by omega)]
  conv_lhs => rw [ea]
  rw [lexLt_append (by simp; omega)]
  have hlen : (z.take k).length = (a.take k).length := by simp; omega
  have hneg : lexLt (z.take k ++ [nth z k]) (a.take k ++ [nth a k]) = false ↔
      ¬ (lexLt (z.take k) (a.take k) = true ∨ (z.take k = a.take k ∧ lexLt [nth z k] [nth a k] = true)) := by
    rw [← lexLt_append hlen, Bool.not_eq_true]
  rw [hneg]
  have hd : z.length - (k + 1) = (a.drop (k + 1)).length := by rw [List.length_drop, h]
  simp only [lexLt, hd, not_lexLt_zero, decide_eq_true_eq, Bool.and_false, Bool.or_false]
  rcases lexLt_total (a.take k) (z.take k) with h1 | h1 | h1
  · simp [h1, lexLt_asymm h1, (ne_of_lexLt h1).symm]
  · rw [h1]; simp [lexLt_irrefl]; omega
  · simp [h1, lexLt_asymm h1, (ne_of_lexLt h1).symm]

/-! ### Sorted lists -/

/-- Strictly increasing. -/
def Sorted (l : List Key) : Prop := l.Pairwise fun a b => lexLt a b = true

theorem insKey_mem {k x : Key} {l : List Key} : x ∈ insKey k l ↔ x = k ∨ x ∈ l := by
  induction l with
  | nil => simp [insKey]
  | cons a l ih =>
    unfold insKey
    split
    · rename_i h; subst h; simp
    · split
      · simp
      · simp [ih]; tauto

theorem insKey_sorted {k : Key} {l : List Key} (h : Sorted l) : Sorted (insKey k l) := by
  induction l with
  | nil => simp [insKey, Sorted]
  | cons a l ih =>
    obtain ⟨h1, h2⟩ := List.pairwise_cons.1 h
    unfold insKey
    split
    · exact h
    · rename_i hne
      split
      · rename_i hlt
        exact List.pairwise_cons.2 ⟨fun y hy => by
          rcases List.mem_cons.1 hy with rfl | hy
          · exact hlt
          · exact lexLt_trans hlt (h1 y hy), h⟩
      · rename_i hlt
        refine List.pairwise_cons.2 ⟨fun y hy => ?_, ih h2⟩
        rcases insKey_mem.1 hy with rfl | hy
        · rcases lexLt_total a y with h | h | h
          · exact h
          · exact absurd h.symm hne
          · exact absurd h hlt
        · exact h1 y hy

theorem baseSet_sorted (l : List Key) : Sorted (baseSet l) := by
  induction l with
  | nil => simp [baseSet, Sorted]
  | cons a l ih => exact insKey_sorted ih

theorem baseSet_mem {x : Key} {l : List Key} : x ∈ baseSet l ↔ x ∈ l := by
  induction l with
  | nil => simp [baseSet]
  | cons a l ih => rw [show baseSet (a :: l) = insKey a (baseSet l) from rfl, insKey_mem, ih, List.mem_cons]

theorem takeWhile_eq_filter {α : Type} {p : α → Bool} {l : List α} (h : l.Pairwise fun a b => p a = false → p b = false) :
    l.takeWhile p = l.filter p := by
  induction l with
  | nil => rfl
  | cons a l ih =>
    obtain ⟨h1, h2⟩ := List.pairwise_cons.1 h
    cases ha : p a with
    | true => rw [List.takeWhile_cons_of_pos ha, List.filter_cons_of_pos ha, ih h2]
    | false =>
      rw [List.takeWhile_cons_of_neg (by simp [ha]), List.filter_cons_of_neg (by simp [ha])]
      rw [eq_comm, List.filter_eq_nil_iff]
      intro b hb
      simp [h1 b hb ha]

theorem sorted_lt_closed {l : List Key} (h : Sorted l) (key : Key) :
    l.Pairwise fun a b => lexLt a key = false → lexLt b key = false := by
  refine h.imp fun {a b} hab ha => ?_
  cases hb : lexLt b key with
  | false => rfl
  | true => have := lexLt_trans hab hb; rw [ha] at this; cases this

/-- `std::lower_bound` on a part of the array, by counting. -/
theorem lbOrd_eq {ord : List Key} (h : Sorted ord) {b e : Nat} (hbe : b ≤ e) (he : e ≤ ord.length) (key : Key) :
    lbOrd ord b e key = max b (min e (ord.countP fun x => lexLt x key)) := by
  have hcl := sorted_lt_closed h key
  have hsplit : ord = (ord.filter fun x => lexLt x key) ++ ord.dropWhile fun x => lexLt x key := by
    rw [← takeWhile_eq_filter hcl, List.takeWhile_append_dropWhile]
  have hc : (ord.filter fun x => lexLt x key).length = ord.countP fun x => lexLt x key := List.countP_eq_length_filter.symm
  unfold lbOrd
  have hsub : ((ord.take e).drop b).takeWhile (fun x => lexLt x key) = ((ord.filter fun x => lexLt x key).take e).drop b := by
    rw [takeWhile_eq_filter (List.Pairwise.sublist ((List.drop_sublist _ _).trans (List.take_sublist _ _)) hcl)]
    have hlt : ∀ x ∈ ord.filter (fun x => lexLt x key), lexLt x key = true := fun x hx => (List.mem_filter.1 hx).2
    have hge : ∀ x ∈ ord.dropWhile (fun x => lexLt x key), lexLt x key = false := by
      intro x hx
      rcases hd : ord.dropWhile (fun x => lexLt x key) with _ | ⟨y, l⟩
      · rw [hd] at hx; simp at hx
      · have hy : lexLt y key = false := by
          have := List.head_dropWhile_not (p := fun x => lexLt x key) (l := ord) (w := by simp [hd])
          simpa [hd] using this
        rw [hd] at hx
        rcases List.mem_cons.1 hx with rfl | hx
        · exact hy
        · have hp : (y :: l).Pairwise fun a b => lexLt a key = false → lexLt b key = false := by
            rw [← hd]; exact List.Pairwise.sublist (List.dropWhile_sublist _) hcl
          exact (List.pairwise_cons.1 hp).1 x hx hy
    generalize hF : ord.filter (fun x => lexLt x key) = F at *
    generalize ord.dropWhile (fun x => lexLt x key) = G at *
    subst hsplit
    rw [List.take_append, List.drop_append, List.filter_append]
    rw [List.filter_eq_self.2, List.filter_eq_nil_iff.2, List.append_nil]
    · intro x hx
      simp [hge x (List.mem_of_mem_take (List.mem_of_mem_drop hx))]
    · intro x hx
      exact hlt x (List.mem_of_mem_take (List.mem_of_mem_drop hx))
  rw [hsub, List.length_drop, List.length_take, hc]
  omega

theorem sorted_nodup {l : List Key} (h : Sorted l) : l.Nodup := h.imp fun hab => ne_of_lexLt hab

/-- The position of an array. -/
theorem findIdx_eq {ord : List Key} (h : Sorted ord) {id : Key} (hid : id ∈ ord) :
    (ord.findIdx fun y => decide (y = id)) = ord.countP fun x => lexLt x id := by
  induction ord with
  | nil => simp at hid
  | cons a l ih =>
    obtain ⟨h1, h2⟩ := List.pairwise_cons.1 h
    by_cases ha : a = id
    · subst ha
      rw [List.findIdx_cons, List.countP_cons]
      have : l.countP (fun x => lexLt x a) = 0 := by
        rw [List.countP_eq_zero]
        intro x hx
        simp [lexLt_asymm (h1 x hx)]
      simp [this, lexLt_irrefl]
    · have hl : id ∈ l := by
        rcases List.mem_cons.1 hid with h | h
        · exact absurd h.symm ha
        · exact h
      rw [List.findIdx_cons, List.countP_cons, ih h2 hl]
      simp [ha, h1 id hl]

theorem getElem?_countP {ord : List Key} (h : Sorted ord) {id : Key} (hid : id ∈ ord) :
    ord[ord.countP fun x => lexLt x id]? = some id := by
  rw [← findIdx_eq h hid]
  have hlt : (ord.findIdx fun y => decide (y = id)) < ord.length := List.findIdx_lt_length_of_exists ⟨id, hid, by simp⟩
  rw [List.getElem?_eq_getElem hlt]
  have := List.findIdx_getElem (p := fun y => decide (y = id)) (xs := ord) (w := hlt)
  simpa using this

end Verif.ExtEnum
