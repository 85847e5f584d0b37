import Verif.Lemmas.ExtScan

/-! The array found by `begin(i)`. -/
namespace Verif.ExtEnum
open Verif.Spec.ExtEnum

theorem nodup_inj {α : Type} {l : List α} (h : l.Nodup) {i j : Nat} (hi : i < l.length) (hj : j < l.length) :
    l[i] = l[j] ↔ i = j := by
  constructor
  · intro he
    have := List.pairwise_iff_getElem.1 h
    rcases Nat.lt_trichotomy i j with h1 | h1 | h1
    · exact absurd he (this i j hi hj h1)
    · exact h1
    · exact absurd he.symm (this j i hj hi h1)
  · rintro rfl; rfl

/-- The base array at its position. -/
theorem ord_at {N : Nat} {A : List Key} (hs : Sorted A) (hl : ∀ a ∈ A, a.length = N) {id : Key} (hid : id ∈ A) : A[C A N id]? = some id := by
  rw [← C_top hl (hl id hid)]; exact getElem?_countP hs hid

/-- The positions of the base arrays with a given prefix. -/
theorem at_block {N k j : Nat} {A : List Key} (hs : Sorted A) (hl : ∀ a ∈ A, a.length = N) {id : Key} (hid : id ∈ A)
    (h1 : C A k id ≤ j) (h2 : j < C A k id + S A fun a => if a.take k = id.take k then 1 else 0) :
    ∃ a ∈ A, A[j]? = some a ∧ a.take k = id.take k := by
  have hidl := hl id hid
  have hlen : j < A.length := by
    have : (C A k id + S A fun a => if a.take k = id.take k then 1 else 0) ≤ S A fun _ => 1 := by
      rw [C, ← S_add]
      refine S_le fun a _ => ?_
      rcases lexLt_total (a.take k) (id.take k) with h | h | h
      · simp [h, ne_of_lexLt h]
      · simp [h, lexLt_irrefl]
      · simp [lexLt_asymm h, (ne_of_lexLt h).symm]
    have e : (S A fun _ => 1) = A.length := by simp [S]
    omega
  refine ⟨A[j], List.getElem_mem hlen, List.getElem?_eq_getElem hlen, ?_⟩
  set a := A[j] with had
  have ha : a ∈ A := List.getElem_mem hlen
  have hal := hl a ha
  have hj : C A N a = j := by
    have h3 := ord_at hs hl ha
    obtain ⟨h4, h5⟩ := List.getElem?_eq_some_iff.1 h3
    exact (nodup_inj (sorted_nodup hs) h4 hlen).1 (h5.trans had)
  rcases lexLt_total (a.take k) (id.take k) with h | h | h
  · exfalso
    have h3 : C A N a + S A (fun b => if b = a then 1 else 0) ≤ C A k id := by
      rw [C, C, ← S_add]
      refine S_le fun b hb => ?_
      have hbl := hl b hb
      rw [List.take_of_length_le hbl.le, List.take_of_length_le hal.le]
      rcases lexLt_total b a with h4 | h4 | h4
      · have h5 := take_mono' (by rw [hbl, hal]) k h4
        rw [if_pos h4, if_neg (ne_of_lexLt h4), if_pos (lexLt_of_le_of_lt h5 h)]
      · rw [h4, if_neg (by simp [lexLt_irrefl]), if_pos rfl, if_pos h]
      · rw [if_neg (by simp [lexLt_asymm h4]), if_neg (ne_of_lexLt h4).symm]; omega
    have h6 : 1 ≤ S A fun b => if b = a then 1 else 0 := one_le_S ha (by simp)
    omega
  · exact h
  · exfalso
    have h3 : (C A k id + S A fun a => if a.take k = id.take k then 1 else 0) ≤ C A N a := by
      rw [C, C, ← S_add]
      refine S_le fun b hb => ?_
      have hbl := hl b hb
      rw [List.take_of_length_le hbl.le, List.take_of_length_le hal.le]
      have h7 : lexLt (b.take k) (a.take k) = true → lexLt b a = true := by
        intro h8
        have := (lexLt_append (a := b.take k) (b := a.take k) (by simp [hbl, hal]) (b.drop k) (a.drop k)).2 (Or.inl h8)
        rwa [List.take_append_drop, List.take_append_drop] at this
      rcases lexLt_total (b.take k) (id.take k) with h4 | h4 | h4
      · rw [if_pos h4, if_neg (ne_of_lexLt h4), if_pos (h7 (lexLt_trans h4 h))]
      · rw [if_neg (by rw [h4]; simp [lexLt_irrefl]), if_pos h4, if_pos (h7 (by rw [h4]; exact h))]
      · rw [if_neg (by simp [lexLt_asymm h4]), if_neg (ne_of_lexLt h4).symm]; omega
    omega

/-! ### The inserted value, `n ≤ m` -/

theorem insNat_mem {k x : Nat} {l : List Nat} : x ∈ insNat k l ↔ x = k ∨ x ∈ l := by
  induction l with
  | nil => simp [insNat]
  | cons a l ih =>
    unfold insNat
    split
    · rename_i h; subst h; simp
    · split
      · simp
      · simp [ih]; tauto

theorem insNat_sorted {k : Nat} {l : List Nat} (h : l.Pairwise (· < ·)) : (insNat k l).Pairwise (· < ·) := by
  induction l with
  | nil => simp [insNat]
  | cons a l ih =>
    obtain ⟨h1, h2⟩ := List.pairwise_cons.1 h
    unfold insNat
    split
    · exact h
    · split
      · exact List.pairwise_cons.2 ⟨fun y hy => by
          rcases List.mem_cons.1 hy with rfl | hy
          · assumption
          · have := h1 y hy; omega, h⟩
      · refine List.pairwise_cons.2 ⟨fun y hy => ?_, ih h2⟩
        rcases insNat_mem.1 hy with rfl | hy
        · omega
        · exact h1 y hy

theorem fold_insNat {α : Type} (g : α → Nat) (l : List α) (acc : List Nat) (h : acc.Pairwise (· < ·)) :
    (l.foldl (fun acc e => insNat (g e) acc) acc).Pairwise (· < ·) ∧
    ∀ v, v ∈ l.foldl (fun acc e => insNat (g e) acc) acc ↔ v ∈ acc ∨ ∃ e ∈ l, v = g e := by
  induction l generalizing acc with
  | nil => simp [h]
  | cons e l ih =>
    obtain ⟨h1, h2⟩ := ih (insNat (g e) acc) (insNat_sorted h)
    refine ⟨h1, fun v => ?_⟩
    rw [List.foldl_cons, h2 v, insNat_mem]
    simp only [List.mem_cons, exists_eq_or_imp]
    tauto

/-- A sorted list cut at a value. -/
theorem sorted_cut {s : Nat} (l : List Nat) (h : l.Pairwise (· < ·)) : l = (l.filter fun v => decide (v ≤ s)) ++ l.filter fun v => decide (s < v) := by
  induction l with
  | nil => rfl
  | cons a l ih =>
    obtain ⟨h1, h2⟩ := List.pairwise_cons.1 h
    by_cases ha : a ≤ s
    · rw [List.filter_cons_of_pos (by simpa using ha), List.filter_cons_of_neg (by simpa using ha), List.cons_append, ← ih h2]
    · have h3 : l.filter (fun v => decide (v ≤ s)) = [] := by
        rw [List.filter_eq_nil_iff]
        intro v hv
        have := h1 v hv
        simp; omega
      have h4 : l.filter (fun v => decide (s < v)) = l := by
        rw [List.filter_eq_self]
        intro v hv
        have := h1 v hv
        simp; omega
      rw [List.filter_cons_of_neg (by simpa using ha), List.filter_cons_of_pos (by simpa using ha), h3, h4, List.nil_append]

theorem betaFind_spec {vs : List Nat} (hvs : vs.Pairwise (· < ·)) {Q : Nat → Nat} {s i Cn : Nat}
    (hQ : ∀ u v, u ≤ v → Q u ≤ Q v) (h0 : Q 0 = 0) (hsi : Q s ≤ i) (his : i < Q (s + 1)) (hs : ∃ v ∈ vs, s < v)
    (hlin : ∀ u, (∀ v ∈ vs, v ≤ s → v ≤ u) → u ≤ s → Q s = Q u + (s - u) * Cn)
    (hlin' : ∀ u, (∀ v ∈ vs, s < v → u ≤ v) → s ≤ u → Q u = Q s + (u - s) * Cn) :
    betaFind (vs.map fun v => (v, Q v)) i = some (s, i - Q s) := by
  set e1 := vs.filter fun v => decide (v ≤ s) with he1
  set e2 := vs.filter fun v => decide (s < v) with he2
  have hcut : vs = e1 ++ e2 := sorted_cut vs hvs
  have hrev : (vs.map fun v => (v, Q v)).reverse = (e2.map fun v => (v, Q v)).reverse ++ (e1.map fun v => (v, Q v)).reverse := by
    conv_lhs => rw [hcut, List.map_append, List.reverse_append]
  have p2 : ∀ a ∈ (e2.map fun v => (v, Q v)).reverse, decide (i < a.2) = true := by
    intro a ha
    obtain ⟨v, hv, rfl⟩ := List.mem_map.1 (List.mem_reverse.1 ha)
    have : s < v := by simpa using (List.mem_filter.1 hv).2
    have := hQ (s + 1) v (by omega)
    simp only [decide_eq_true_eq]; omega
  have p1 : ∀ a ∈ (e1.map fun v => (v, Q v)).reverse, decide (i < a.2) = false := by
    intro a ha
    obtain ⟨v, hv, rfl⟩ := List.mem_map.1 (List.mem_reverse.1 ha)
    have : v ≤ s := by simpa using (List.mem_filter.1 hv).2
    have := hQ v s this
    simp only [decide_eq_false_iff_not]; omega
  have htw : ∀ l : List (Nat × Nat), (∀ a ∈ l, decide (i < a.2) = false) → l.takeWhile (fun a => decide (i < a.2)) = [] ∧ l.dropWhile (fun a => decide (i < a.2)) = l := by
    intro l hl
    rcases l with _ | ⟨a, l⟩
    · simp
    · have := hl a (by simp)
      simp [this]
  have ht : ((vs.map fun v => (v, Q v)).reverse.takeWhile fun a => decide (i < a.2)) = (e2.map fun v => (v, Q v)).reverse := by
    rw [hrev, List.takeWhile_append_of_pos p2, (htw _ p1).1, List.append_nil]
  have hd : ((vs.map fun v => (v, Q v)).reverse.dropWhile fun a => decide (i < a.2)) = (e1.map fun v => (v, Q v)).reverse := by
    rw [hrev, List.dropWhile_append_of_pos p2, (htw _ p1).2]
  -- the neighbours of `s`
  obtain ⟨v1, l2, hl2⟩ : ∃ v1 l2, e2 = v1 :: l2 := by
    obtain ⟨v, hv, hsv⟩ := hs
    have : v ∈ e2 := List.mem_filter.2 ⟨hv, by simpa using hsv⟩
    exact List.exists_cons_of_ne_nil (by rintro h; rw [h] at this; simp at this)
  have hv1m : v1 ∈ e2 := by rw [hl2]; simp
  have hv1 : s < v1 := by simpa using (List.mem_filter.1 hv1m).2
  have hv1min : ∀ v ∈ vs, s < v → v1 ≤ v := by
    intro v hv hsv
    have : v ∈ e2 := List.mem_filter.2 ⟨hv, by simpa using hsv⟩
    rw [hl2] at this
    rcases List.mem_cons.1 this with rfl | h
    · exact le_rfl
    · have hp : (v1 :: l2).Pairwise (· < ·) := by rw [← hl2]; exact List.Pairwise.filter _ hvs
      exact ((List.pairwise_cons.1 hp).1 v h).le
  have hlast : (e2.map fun v => (v, Q v)).reverse.getLast? = some (v1, Q v1) := by
    rw [List.getLast?_reverse, hl2]; rfl
  obtain ⟨v0, hv0, hv0s, hv0max⟩ : ∃ v0, (e1.map fun v => (v, Q v)).reverse.head?.getD (0, 0) = (v0, Q v0) ∧ v0 ≤ s ∧ ∀ v ∈ vs, v ≤ s → v ≤ v0 := by
    rcases List.eq_nil_or_concat e1 with h | ⟨l1, v0, h⟩
    · refine ⟨0, by rw [h]; simp [h0], by omega, fun v hv hvs' => ?_⟩
      have : v ∈ e1 := List.mem_filter.2 ⟨hv, by simpa using hvs'⟩
      rw [h] at this; simp at this
    · rw [List.concat_eq_append] at h
      have hv0m : v0 ∈ e1 := by rw [h]; simp
      refine ⟨v0, by rw [h]; simp, by simpa using (List.mem_filter.1 hv0m).2, fun v hv hvs' => ?_⟩
      have hm : v ∈ e1 := List.mem_filter.2 ⟨hv, by simpa using hvs'⟩
      have hp : (l1 ++ [v0]).Pairwise (· < ·) := by rw [← h]; exact List.Pairwise.filter _ hvs
      rw [h] at hm
      rcases List.mem_append.1 hm with hm | hm
      · exact ((List.pairwise_append.1 hp).2.2 v hm v0 (by simp)).le
      · rw [List.mem_singleton.1 hm]
  have q0 := hlin v0 hv0max hv0s
  have q1 := hlin' v1 hv1min hv1.le
  have q2 := hlin' (s + 1) (fun v hv hsv => by omega) (by omega)
  rw [Nat.add_sub_cancel_left, Nat.one_mul] at q2
  have hC : 0 < Cn := by omega
  have hw : (Q v1 - Q v0) / (v1 - v0) = Cn := by
    have : Q v1 - Q v0 = (v1 - v0) * Cn := by
      rw [show v1 - v0 = (v1 - s) + (s - v0) by omega, Nat.add_mul]; omega
    rw [this, Nat.mul_div_cancel_left _ (by omega)]
  have hi : i - Q v0 = (i - Q s) + (s - v0) * Cn := by omega
  unfold betaFind
  simp only [ht, hd, hlast, hv0, Option.bind_some]
  rw [if_neg (by omega), hw, if_neg (by omega), hi, Nat.add_mul_div_right _ _ hC, Nat.add_mul_mod_self_right,
    Nat.div_eq_of_lt (by omega), Nat.mod_eq_of_lt (by omega)]
  congr 2
  omega

/-! ### The search -/

/-- What precedes, among the arrays of the base array `a`. -/
def pre (n : Nat) (rg : Nat → Nat) (m : Nat) (id : Key) (s : Nat) (a : Key) : Nat :=
  ((List.range (rg (nth a m))).map (insertAt n a)).countP fun y => decide (y < insertAt n id s)

theorem pre_self {n N m s : Nat} {rg : Nat → Nat} {id : Key} (hn : n ≤ N) (hid : id.length = N) (hs : s < rg (nth id m)) :
    pre n rg m id s id = s := by
  obtain ⟨d, L, hd⟩ := exists_diffB hid hid
  have h1 : N ≤ d := (hd.eq N le_rfl).1 rfl
  rw [pre, count_one hn hid hid hd, if_neg (by omega), if_neg (by omega)]
  omega

theorem take_eq_of_full {N : Nat} {a : Key} (h : a.length = N) : a.take N = a := List.take_of_length_le h.le

/-- The first entries. -/
theorem wFind_spec {E : Ext} {A : List Key} (G : Good E A) {id : Key} (hid : id ∈ A) {s : Nat} (hs : s < E.rg (nth id E.m)) :
    wFind E.N (min E.n E.m) E.w (number E.n E.m E.rg A (insertAt E.n id s)) =
      some (S A fun a => if a.take (min E.n E.m) = id.take (min E.n E.m) then pre E.n E.rg E.m id s a else 0, zeroFrom (min E.n E.m) id) := by
  have hidl := G.len id hid
  have hn := G.hn
  have hm := G.hm
  set l := min E.n E.m with hl
  have hlN : l ≤ E.N := by omega
  have hnum : number E.n E.m E.rg A (insertAt E.n id s) = S A (pre E.n E.rg E.m id s) := number_eq_S _ _ _ _ _
  have hsplit : S A (pre E.n E.rg E.m id s) = (S A fun a => if lexLt (a.take l) (id.take l) = true then E.rg (nth a E.m) else 0) +
      S A fun a => if a.take l = id.take l then pre E.n E.rg E.m id s a else 0 := by
    rw [← S_add]
    refine S_congr fun a ha => ?_
    obtain ⟨d, L, hd⟩ := exists_diffB (G.len a ha) hidl
    rw [pre, count_one hn (G.len a ha) hidl hd]
    simp only [hd.lt l hlN, hd.eq l hlN]
    cases L <;> simp only [Bool.false_eq_true, and_true, and_false, if_true, if_false] <;> split_ifs <;> omega
  unfold wFind
  by_cases h0 : 0 < l
  · rw [if_pos h0]
    have h0' : 0 < min E.m E.n := by rw [Nat.min_comm]; exact h0
    have hc : min E.m E.n = l := by rw [Nat.min_comm]
    obtain ⟨e, he, hek⟩ := List.mem_map.1 ((G.w_keys h0' _).2 ⟨id, hid, rfl⟩)
    have hval : ∀ x ∈ E.w, ∀ a' ∈ A, x.1 = zeroFrom l a' → x.2 = S A fun a => if lexLt (a.take l) (a'.take l) = true then E.rg (nth a E.m) else 0 := by
      intro x hx a' ha' hxa
      rw [← tot_single (G.w_sorted h0') hx, hxa]
      have := G.w_val h0' a' ha'
      rw [hc] at this
      exact this
    rw [hc] at hek
    obtain ⟨M1, M2, hM⟩ := List.append_of_mem he
    have hsrt := G.w_sorted h0'
    rw [hM] at hsrt
    have hlt : ∀ x ∈ M2.reverse, decide (number E.n E.m E.rg A (insertAt E.n id s) < x.2) = true := by
      intro x hx
      have hxM := List.mem_reverse.1 hx
      have hxw : x ∈ E.w := by rw [hM]; simp [hxM]
      obtain ⟨a', ha', hxa⟩ := (G.w_keys h0' x.1).1 (List.mem_map_of_mem hxw)
      rw [hc] at hxa
      have hex := (List.pairwise_cons.1 (List.pairwise_append.1 hsrt).2.1).1 x hxM
      rw [hek, hxa, lexLt_zeroFrom (by rw [zeroFrom_length, hidl, G.len a' ha']), take_zeroFrom _ le_rfl] at hex
      rw [decide_eq_true_eq, hval x hxw a' ha' hxa, hnum]
      refine S_lt hid (fun b hb => ?_) ?_
      · obtain ⟨d, L, hd⟩ := exists_diffB (G.len b hb) hidl
        rw [pre, count_one hn (G.len b hb) hidl hd]
        by_cases hbl : lexLt (b.take l) (a'.take l) = true
        · rw [if_pos hbl]
          cases L <;> simp only [Bool.false_eq_true, and_true, and_false, if_true, if_false] <;> split_ifs <;> omega
        · have h5 : ¬ (l ≤ d) := fun h => by
            rw [(hd.eq l hlN).2 h] at hbl
            exact hbl hex
          have h6 : ¬ (L = true) := fun h => by
            have := (hd.lt l hlN).2 ⟨by omega, h⟩
            exact hbl (lexLt_trans this hex)
          rw [if_pos (by omega), if_neg h6]; omega
      · rw [pre_self hn hidl hs, if_pos hex]; exact hs
    have hle : decide (number E.n E.m E.rg A (insertAt E.n id s) < e.2) = false := by
      rw [decide_eq_false_iff_not, hnum, hval e he id hid hek]; omega
    have hdw : (E.w.reverse.dropWhile fun a => decide (number E.n E.m E.rg A (insertAt E.n id s) < a.2)) = e :: M1.reverse := by
      rw [hM, List.reverse_append, List.reverse_cons, List.append_assoc, List.dropWhile_append_of_pos hlt]
      simp only [List.singleton_append]
      rw [List.dropWhile_cons_of_neg (by simpa using hle)]
    rw [hdw]
    simp only
    rw [hnum, hsplit, hval e he id hid hek, Nat.add_sub_cancel_left, hek, take_zeroFrom _ le_rfl, zeroFrom, hidl]
  · rw [if_neg h0, hnum, hsplit]
    have : l = 0 := by omega
    rw [this]
    simp [lexLt, S_zero, zeroFrom, hidl]

end Verif.ExtEnum
