import Verif.Model.ExtBound
import Verif.Lemmas.ExtUnrankLow

/-! Lemmas for the bounds of the enumeration of arrays extended by a ranged value. -/
namespace Verif.ExtEnum
open Verif.Spec.ExtEnum

theorem put_eq (n : Nat) (b : Key) (s : Nat) : put n b s = insertAt n b s := rfl

/-! ### The first array not below a key -/

theorem first_some {A : List Key} (hs : Sorted A) {key b : Key} (h : A[A.countP fun x => lexLt x key]? = some b) :
    b ∈ A ∧ lexLt b key = false ∧ ∀ a ∈ A, lexLt a key = false → lexLt a b = false := by
  induction A with
  | nil => simp at h
  | cons c A ih =>
    obtain ⟨h1, h2⟩ := List.pairwise_cons.1 hs
    cases hc : lexLt c key with
    | true =>
      rw [List.countP_cons_of_pos (by simpa using hc), List.getElem?_cons_succ] at h
      obtain ⟨i1, i2, i3⟩ := ih h2 h
      refine ⟨List.mem_cons_of_mem _ i1, i2, fun a ha hk => ?_⟩
      rcases List.mem_cons.1 ha with rfl | ha
      · rw [hc] at hk; cases hk
      · exact i3 a ha hk
    | false =>
      have h0 : (A.countP fun x => lexLt x key) = 0 := by
        rw [List.countP_eq_zero]
        intro a ha hk
        have := lexLt_trans (h1 a ha) hk
        rw [hc] at this; cases this
      rw [List.countP_cons_of_neg (by simp [hc]), h0] at h
      simp only [List.length_cons, Nat.zero_lt_succ, getElem?_pos, List.getElem_cons_zero, Option.some.injEq] at h
      subst h
      refine ⟨by simp, hc, fun a ha _ => ?_⟩
      rcases List.mem_cons.1 ha with rfl | ha
      · exact lexLt_irrefl _
      · exact lexLt_asymm (h1 a ha)

theorem first_end {A : List Key} {key : Key} (h : (A.countP fun x => lexLt x key) = A.length) : ∀ a ∈ A, lexLt a key = true :=
  List.countP_eq_length.1 h

theorem first_get {A : List Key} {key : Key} (h : (A.countP fun x => lexLt x key) ≠ A.length) :
    ∃ b, A[A.countP fun x => lexLt x key]? = some b := by
  have : (A.countP fun x => lexLt x key) ≤ A.length := List.countP_le_length
  exact ⟨_, List.getElem?_eq_getElem (by omega)⟩

/-- A search from a position that is not too far. -/
theorem lbOrd_from {A : List Key} (hs : Sorted A) {k1 k2 : Key} (h : lexLt k2 k1 = false) :
    lbOrd A (A.countP fun x => lexLt x k1) A.length k2 = A.countP fun x => lexLt x k2 := by
  have h1 : (A.countP fun x => lexLt x k1) ≤ A.length := List.countP_le_length
  have h2 : (A.countP fun x => lexLt x k2) ≤ A.length := List.countP_le_length
  rw [lbOrd_eq hs h1 le_rfl]
  have : (A.countP fun x => lexLt x k1) ≤ A.countP fun x => lexLt x k2 := by
    refine List.countP_mono_left fun a _ ha => ?_
    exact lexLt_of_lt_of_le ha h
  omega

theorem lbOrd_zero {A : List Key} (hs : Sorted A) (k2 : Key) : lbOrd A 0 A.length k2 = A.countP fun x => lexLt x k2 := by
  have h2 : (A.countP fun x => lexLt x k2) ≤ A.length := List.countP_le_length
  rw [lbOrd_eq hs (by omega) le_rfl]; omega

/-! ### The order of the extended arrays -/

theorem lt_insertAt {n N : Nat} {a b : Key} (ha : a.length = N) (hb : b.length = N) (u t : Nat) :
    insertAt n a u < insertAt n b t ↔
      lexLt (a.take n) (b.take n) = true ∨ (a.take n = b.take n ∧ (u < t ∨ (u = t ∧ lexLt (a.drop n) (b.drop n) = true))) := by
  rw [← lexLt_iff, insertAt, insertAt, lexLt_append (take_length_eq (by rw [ha, hb]))]
  simp [lexLt]

theorem lexLt_split {n N : Nat} {a b : Key} (ha : a.length = N) (hb : b.length = N) :
    lexLt a b = true ↔ lexLt (a.take n) (b.take n) = true ∨ (a.take n = b.take n ∧ lexLt (a.drop n) (b.drop n) = true) := by
  have := lexLt_append (a := a.take n) (b := b.take n) (take_length_eq (by rw [ha, hb])) (a.drop n) (b.drop n)
  rwa [List.take_append_drop, List.take_append_drop] at this

/-- The number of `x` is that of the first array not below it. -/
theorem number_first {n m : Nat} {rg : Nat → Nat} {A : List Key} {x y : Key} (h1 : ¬ y < x)
    (h2 : ∀ a ∈ A, ∀ u < rg (nth a m), ¬ insertAt n a u < x → ¬ insertAt n a u < y) :
    number n m rg A y = number n m rg A x := by
  unfold number
  refine List.countP_congr fun z hz => ?_
  obtain ⟨a, ha, u, hu, rfl⟩ := mem_arrays.1 hz
  simp only [decide_eq_true_eq]
  constructor
  · intro h; by_contra hc; exact h2 a ha u hu hc h
  · intro h; exact lt_of_lt_of_le h (not_lt.1 h1)

theorem number_end {n m : Nat} {rg : Nat → Nat} {A : List Key} {x : Key}
    (h2 : ∀ a ∈ A, ∀ u < rg (nth a m), insertAt n a u < x) :
    number n m rg A x = (A.map fun a => rg (nth a m)).sum := by
  unfold number
  rw [List.countP_eq_length.2]
  · unfold arrays; rw [List.length_flatMap]; simp [nth]
  · intro z hz
    obtain ⟨a, ha, u, hu, rfl⟩ := mem_arrays.1 hz
    simpa using h2 a ha u hu

/-- `b` with `t` is the first array not below `id` with `s`. -/
theorem rank_first {E : Ext} {A : List Key} (G : Good E A) {id b : Key} {s t : Nat} (hid : id.length = E.N) (hb : b ∈ A)
    (ht : t < E.rg (nth b E.m))
    (h1 : lexLt (id.take E.n) (b.take E.n) = true ∨ (id.take E.n = b.take E.n ∧ (s < t ∨ (s = t ∧ lexLt (b.drop E.n) (id.drop E.n) = false))))
    (h2 : ∀ a ∈ A, ∀ u < E.rg (nth a E.m), ¬ insertAt E.n a u < insertAt E.n id s → ¬ insertAt E.n a u < insertAt E.n b t) :
    rank E (insertAt E.n b t) = some (number E.n E.m E.rg A (insertAt E.n id s)) := by
  rw [rank_value G hb ht, number_first ?_ h2]
  rw [lt_insertAt (G.len b hb) hid]
  rintro (h | ⟨h, h'⟩)
  · rcases h1 with h1 | ⟨h1, -⟩
    · rw [lexLt_asymm h] at h1; cases h1
    · rw [h1, lexLt_irrefl] at h; cases h
  · rcases h1 with h1 | ⟨h1, h1'⟩
    · rw [h, lexLt_irrefl] at h1; cases h1
    · rcases h1' with h1' | ⟨h1', h1''⟩ <;> rcases h' with h' | ⟨h', h''⟩
      · omega
      · omega
      · omega
      · rw [h1''] at h''; cases h''

/-- The position where the search starts. -/
theorem lbStart_eq {E : Ext} {A : List Key} (G : Good E A) {id : Key} (hid : id.length = E.N) :
    lbStart E id = A.countP fun x => lexLt x (zeroFrom E.n id) := by
  unfold lbStart
  rw [G.ord]
  split
  · exact lbOrd_zero G.sorted _
  · rename_i h
    have h0 : E.n = 0 := by omega
    symm
    rw [List.countP_eq_zero]
    intro a ha hc
    rw [lexLt_zeroFrom (by rw [G.len a ha, hid]), h0] at hc
    simp [lexLt] at hc

/-- All ranges are positive. -/
def Positive (E : Ext) (A : List Key) : Prop := ∀ a ∈ A, 0 < E.rg (nth a E.m)

theorem lbAfter_eq {E : Ext} {A : List Key} (G : Good E A) (hp : Positive E A) {id : Key} (hid : id.length = E.N) {s : Nat} (hn : 0 < E.n)
    (h : ∀ a ∈ A, a.take E.n = id.take E.n → ∀ u < E.rg (nth a E.m), insertAt E.n a u < insertAt E.n id s) :
    lbAfter E id = some (number E.n E.m E.rg A (insertAt E.n id s)) := by
  have hnN := G.hn
  have hinc : ∀ a ∈ A, lexLt a (incr (zeroFrom E.n id) (E.n - 1)) = true ↔ lexLt (id.take E.n) (a.take E.n) = false := by
    intro a ha
    have := lexLt_incr (a := a) (z := id) (k := E.n - 1) (by rw [G.len a ha, hid]) (by omega)
    rwa [show E.n - 1 + 1 = E.n by omega] at this
  unfold lbAfter
  rw [lbStart_eq G hid, G.ord]
  have hk : lexLt (incr (zeroFrom E.n id) (E.n - 1)) (zeroFrom E.n id) = false := by
    have hlen : (incr (zeroFrom E.n id) (E.n - 1)).length = id.length := by simp [incr, zeroFrom_length]
    rw [lexLt_zeroFrom hlen]
    cases hc : lexLt ((incr (zeroFrom E.n id) (E.n - 1)).take E.n) (id.take E.n) with
    | false => rfl
    | true =>
      have := lexLt_incr (a := id) (z := id) (k := E.n - 1) rfl (by omega)
      rw [show E.n - 1 + 1 = E.n by omega, lexLt_irrefl] at this
      have h3 := take_mono' (k := E.n) (a := id) (b := incr (zeroFrom E.n id) (E.n - 1)) hlen.symm (this.2 rfl)
      rw [hc] at h3; cases h3
  rw [lbOrd_from G.sorted hk]
  beta_reduce
  have hup : ∀ a ∈ A, ∀ u < E.rg (nth a E.m), ¬ insertAt E.n a u < insertAt E.n id s → lexLt (id.take E.n) (a.take E.n) = true := by
    intro a ha u hu hge
    rcases lexLt_total (id.take E.n) (a.take E.n) with h1 | h1 | h1
    · exact h1
    · exact absurd (h a ha h1.symm u hu) hge
    · exact absurd ((lt_insertAt (G.len a ha) hid u s).2 (Or.inl h1)) hge
  by_cases he : (A.countP fun x => lexLt x (incr (zeroFrom E.n id) (E.n - 1))) = A.length
  · rw [if_pos he, G.size, number_end]
    intro a ha u hu
    by_contra hc
    have h1 := hup a ha u hu hc
    rw [(hinc a ha).1 (first_end he a ha)] at h1; cases h1
  · rw [if_neg he]
    obtain ⟨b, hb⟩ := first_get he
    obtain ⟨h1, h2, h3⟩ := first_some G.sorted hb
    rw [hb, Option.bind_some, put_eq]
    refine rank_first G hid h1 (hp b h1) (Or.inl ?_) fun a ha u hu hge hlt => ?_
    · cases hc : lexLt (id.take E.n) (b.take E.n) with
      | true => rfl
      | false => rw [(hinc b h1).2 hc] at h2; cases h2
    · have h4 := hup a ha u hu hge
      have h5 : lexLt a b = false := h3 a ha (by
        cases hc : lexLt a (incr (zeroFrom E.n id) (E.n - 1)) with
        | false => rfl
        | true => rw [(hinc a ha).1 hc] at h4; cases h4)
      have h6 : ¬ (lexLt a b = true) := by rw [h5]; simp
      rw [lexLt_split (n := E.n) (G.len a ha) (G.len b h1)] at h6
      rw [lt_insertAt (G.len a ha) (G.len b h1)] at hlt
      rcases hlt with hlt | ⟨hlt, hlt' | ⟨-, hlt'⟩⟩
      · exact h6 (Or.inl hlt)
      · omega
      · exact h6 (Or.inr ⟨hlt, hlt'⟩)

theorem lexLt_self_zeroFrom (k : Nat) (id : Key) : lexLt id (zeroFrom k id) = false := by
  rw [lexLt_zeroFrom rfl, lexLt_irrefl]

theorem lbHigh_eq {E : Ext} {A : List Key} (G : Good E A) (hp : Positive E A) {id : Key} (hid : id.length = E.N) {s : Nat} (hnm : E.m < E.n)
    {c : Key} (hc : c ∈ A) (hci : c.take E.n = id.take E.n) :
    lbHigh E id s = some (number E.n E.m E.rg A (insertAt E.n id s)) := by
  have hrg : ∀ a : Key, a.take E.n = id.take E.n → E.rg (nth a E.m) = E.rg (nth id E.m) := fun a ha => by rw [nth_of_take_eq ha hnm]
  unfold lbHigh
  by_cases h0 : E.rg (nth id E.m) ≤ s
  · rw [if_pos h0]
    refine lbAfter_eq G hp hid (by omega) fun a ha hai u hu => ?_
    rw [hrg a hai] at hu
    exact (lt_insertAt (G.len a ha) hid u s).2 (Or.inr ⟨hai, Or.inl (by omega)⟩)
  rw [if_neg h0, lbStart_eq G hid, G.ord, lbOrd_from G.sorted (lexLt_self_zeroFrom _ _)]
  dsimp only
  -- no array with the same beginning and the same value
  have key : (∀ a ∈ A, a.take E.n = id.take E.n → lexLt a id = true) →
      (if s + 1 < E.rg (nth id E.m) then
        A[A.countP fun x => lexLt x (zeroFrom E.n id)]?.bind fun b => rank E (id.take E.n ++ (s + 1) :: b.drop E.n)
      else if (A.countP fun x => lexLt x id) = A.length then some E.size
      else A[A.countP fun x => lexLt x id]?.bind fun b => rank E (put E.n b 0)) = some (number E.n E.m E.rg A (insertAt E.n id s)) := by
    intro hno
    have hlow : ∀ a ∈ A, a.take E.n = id.take E.n → lexLt (a.drop E.n) (id.drop E.n) = true := by
      intro a ha hai
      have := (lexLt_split (n := E.n) (G.len a ha) hid).1 (hno a ha hai)
      rcases this with h | ⟨-, h⟩
      · rw [hai, lexLt_irrefl] at h; cases h
      · exact h
    by_cases h1 : s + 1 < E.rg (nth id E.m)
    · rw [if_pos h1]
      have hne : (A.countP fun x => lexLt x (zeroFrom E.n id)) ≠ A.length := by
        intro he
        have := first_end he c hc
        rw [lexLt_zeroFrom (by rw [G.len c hc, hid]), hci, lexLt_irrefl] at this; cases this
      obtain ⟨b, hb⟩ := first_get hne
      obtain ⟨b1, b2, b3⟩ := first_some G.sorted hb
      have b2' : lexLt (b.take E.n) (id.take E.n) = false := by rwa [lexLt_zeroFrom (by rw [G.len b b1, hid])] at b2
      have hbi : b.take E.n = id.take E.n := by
        have h3 := b3 c hc (by rw [lexLt_zeroFrom (by rw [G.len c hc, hid]), hci, lexLt_irrefl])
        have h4 := take_mono (k := E.n) (a := b) (b := c) (by rw [G.len b b1, G.len c hc]) h3
        rw [hci] at h4
        rcases lexLt_total (b.take E.n) (id.take E.n) with h | h | h
        · rw [b2'] at h; cases h
        · exact h
        · rw [h4] at h; cases h
      rw [hb, Option.bind_some, ← hbi]
      refine rank_first G hid b1 (by rw [hrg b hbi]; exact h1) (Or.inr ⟨hbi.symm, Or.inl (by omega)⟩) fun a ha u hu hge hlt => ?_
      rw [lt_insertAt (G.len a ha) (G.len b b1)] at hlt
      rw [lt_insertAt (G.len a ha) hid] at hge
      rcases hlt with hlt | ⟨hlt, hlt' | ⟨h5, hlt'⟩⟩
      · rw [hbi] at hlt; exact hge (Or.inl hlt)
      · have hai := hlt.trans hbi
        rcases Nat.lt_or_ge u s with h5 | h5
        · exact hge (Or.inr ⟨hai, Or.inl h5⟩)
        · exact hge (Or.inr ⟨hai, Or.inr ⟨by omega, hlow a ha hai⟩⟩)
      · have hai := hlt.trans hbi
        have h6 := b3 a ha (by rw [lexLt_zeroFrom (by rw [G.len a ha, hid]), hai, lexLt_irrefl])
        rw [(lexLt_split (n := E.n) (G.len a ha) (G.len b b1)).2 (Or.inr ⟨hlt, hlt'⟩)] at h6; cases h6
    · rw [if_neg h1]
      have hup : ∀ a ∈ A, ∀ u < E.rg (nth a E.m), ¬ insertAt E.n a u < insertAt E.n id s → lexLt (id.take E.n) (a.take E.n) = true := by
        intro a ha u hu hge
        rw [lt_insertAt (G.len a ha) hid] at hge
        rcases lexLt_total (id.take E.n) (a.take E.n) with h2 | h2 | h2
        · exact h2
        · exfalso
          rw [hrg a h2.symm] at hu
          rcases Nat.lt_or_ge u s with h5 | h5
          · exact hge (Or.inr ⟨h2.symm, Or.inl h5⟩)
          · exact hge (Or.inr ⟨h2.symm, Or.inr ⟨by omega, hlow a ha h2.symm⟩⟩)
        · exact absurd (Or.inl h2) hge
      have hup' : ∀ a ∈ A, lexLt (id.take E.n) (a.take E.n) = true → lexLt a id = false := by
        intro a ha h2
        exact lexLt_asymm ((lexLt_split (n := E.n) hid (G.len a ha)).2 (Or.inl h2))
      by_cases he : (A.countP fun x => lexLt x id) = A.length
      · rw [if_pos he, G.size, number_end]
        intro a ha u hu
        by_contra hcc
        have h2 := hup' a ha (hup a ha u hu hcc)
        rw [first_end he a ha] at h2; cases h2
      · rw [if_neg he]
        obtain ⟨b, hb⟩ := first_get he
        obtain ⟨b1, b2, b3⟩ := first_some G.sorted hb
        rw [hb, Option.bind_some, put_eq]
        refine rank_first G hid b1 (hp b b1) (Or.inl ?_) fun a ha u hu hge hlt => ?_
        · rcases lexLt_total (id.take E.n) (b.take E.n) with h2 | h2 | h2
          · exact h2
          · rw [hno b b1 h2.symm] at b2; cases b2
          · rw [(lexLt_split (n := E.n) (G.len b b1) hid).2 (Or.inl h2)] at b2; cases b2
        · have h6 : ¬ (lexLt a b = true) := by rw [b3 a ha (hup' a ha (hup a ha u hu hge))]; simp
          rw [lexLt_split (n := E.n) (G.len a ha) (G.len b b1)] at h6
          rw [lt_insertAt (G.len a ha) (G.len b b1)] at hlt
          rcases hlt with hlt | ⟨hlt, hlt' | ⟨-, hlt'⟩⟩
          · exact h6 (Or.inl hlt)
          · omega
          · exact h6 (Or.inr ⟨hlt, hlt'⟩)
  split
  · rename_i e0
    refine key fun a ha _ => ?_
    have h1 : (A.countP fun x => lexLt x id) ≤ A.length := List.countP_le_length
    exact first_end (le_antisymm h1 (List.getElem?_eq_none_iff.1 e0)) a ha
  · rename_i b hb
    obtain ⟨b1, b2, b3⟩ := first_some G.sorted hb
    by_cases h2 : same E.n id b = true
    · rw [if_pos h2]
      have hbi : id.take E.n = b.take E.n := by simpa [same] using h2
      rw [hbi]
      have hlow : lexLt (b.drop E.n) (id.drop E.n) = false := by
        cases h3 : lexLt (b.drop E.n) (id.drop E.n) with
        | false => rfl
        | true => rw [(lexLt_split (n := E.n) (G.len b b1) hid).2 (Or.inr ⟨hbi.symm, h3⟩)] at b2; cases b2
      refine rank_first G hid b1 (by rw [hrg b hbi.symm]; omega) (Or.inr ⟨hbi, Or.inr ⟨rfl, hlow⟩⟩) fun a ha u hu hge hlt => ?_
      rw [lt_insertAt (G.len a ha) (G.len b b1)] at hlt
      rw [lt_insertAt (G.len a ha) hid] at hge
      rcases hlt with hlt | ⟨hlt, hlt' | ⟨h5, hlt'⟩⟩
      · rw [← hbi] at hlt; exact hge (Or.inl hlt)
      · exact hge (Or.inr ⟨hlt.trans hbi.symm, Or.inl hlt'⟩)
      · have h6 : lexLt a id = false := by
          cases h7 : lexLt a id with
          | false => rfl
          | true =>
            exfalso
            rcases (lexLt_split (n := E.n) (G.len a ha) hid).1 h7 with h8 | ⟨h8, h9⟩
            · exact hge (Or.inl h8)
            · exact hge (Or.inr ⟨h8, Or.inr ⟨h5, h9⟩⟩)
        have h7 := b3 a ha h6
        rw [(lexLt_split (n := E.n) (G.len a ha) (G.len b b1)).2 (Or.inr ⟨hlt, hlt'⟩)] at h7; cases h7
    · rw [if_neg h2]
      refine key fun a ha hai => ?_
      cases h3 : lexLt a id with
      | true => rfl
      | false =>
        exfalso
        have h4 := b3 a ha h3
        have h5 := take_mono (k := E.n) (a := b) (b := a) (by rw [G.len b b1, G.len a ha]) h4
        have h6 := take_mono (k := E.n) (a := b) (b := id) (by rw [G.len b b1, hid])
        have h7 := take_mono (k := E.n) (a := id) (b := b) (by rw [G.len b b1, hid]) b2
        rw [hai] at h5
        apply h2
        rcases lexLt_total (id.take E.n) (b.take E.n) with h | h | h
        · rw [h5] at h; cases h
        · simpa [same] using h
        · rw [h7] at h; cases h

/-! ### The value inserted before the entry it depends on -/

theorem lbKey_mem {α : Type} {M : List (Key × α)} {z : Key} (h : MSorted M) {e : Key × α} : e ∈ lbKey M z ↔ e ∈ M ∧ lexLt e.1 z = false := by
  unfold lbKey
  induction M with
  | nil => simp
  | cons x M ih =>
    obtain ⟨h1, h2⟩ := List.pairwise_cons.1 h
    cases hx : lexLt x.1 z with
    | true =>
      rw [List.dropWhile_cons_of_pos (by exact hx), ih h2]
      constructor
      · rintro ⟨h3, h4⟩; exact ⟨by simp [h3], h4⟩
      · rintro ⟨h3, h4⟩
        rcases List.mem_cons.1 h3 with rfl | h3
        · rw [hx] at h4; cases h4
        · exact ⟨h3, h4⟩
    | false =>
      rw [List.dropWhile_cons_of_neg (by simp [hx])]
      constructor
      · intro h3
        refine ⟨h3, ?_⟩
        rcases List.mem_cons.1 h3 with rfl | h3
        · exact hx
        · cases h' : lexLt e.1 z with
          | false => rfl
          | true => have := lexLt_trans (h1 e h3) h'; rw [hx] at this; cases this
      · exact fun h3 => h3.1

theorem lbKey_sorted {α : Type} {M : List (Key × α)} {z : Key} (h : MSorted M) : MSorted (lbKey M z) :=
  List.Pairwise.sublist (List.dropWhile_sublist _) h

theorem lexLt_zz {k : Nat} {a b : Key} (hl : a.length = b.length) : lexLt (zeroFrom k a) (zeroFrom k b) = lexLt (a.take k) (b.take k) := by
  rw [lexLt_zeroFrom (by rw [zeroFrom_length, hl]), take_zeroFrom a le_rfl]

theorem zeroFrom_inj {k : Nat} {a b : Key} (h : zeroFrom k a = zeroFrom k b) : a.take k = b.take k := by
  rw [← take_zeroFrom a le_rfl, h, take_zeroFrom b le_rfl]

/-- After the loop. -/
theorem lbFinish_eq {E : Ext} {A : List Key} (G : Good E A) (hp : Positive E A) {id : Key} (hid : id.length = E.N) {s : Nat} (hnm : E.n ≤ E.m)
    (h1 : ∀ a ∈ A, a.take E.n = id.take E.n → s < E.rg (nth a E.m) → lexLt a id = true) (add : Option Key)
    (h2 : add = none → ∀ a ∈ A, a.take E.n = id.take E.n → E.rg (nth a E.m) ≤ s + 1)
    (h3 : ∀ k, add = some k → ∃ a0 ∈ A, a0.take E.n = id.take E.n ∧ k = zeroFrom (E.m + 1) a0 ∧ s + 1 < E.rg (nth a0 E.m) ∧
      ∀ a ∈ A, a.take E.n = id.take E.n → s + 1 < E.rg (nth a E.m) → lexLt (zeroFrom (E.m + 1) a) k = false) :
    lbFinish E id s add = some (number E.n E.m E.rg A (insertAt E.n id s)) := by
  have hlow : ∀ a ∈ A, a.take E.n = id.take E.n → s < E.rg (nth a E.m) → lexLt (a.drop E.n) (id.drop E.n) = true := by
    intro a ha hai hs
    rcases (lexLt_split (n := E.n) (G.len a ha) hid).1 (h1 a ha hai hs) with h | ⟨-, h⟩
    · rw [hai, lexLt_irrefl] at h; cases h
    · exact h
  cases add with
  | none =>
    have hb : ∀ a ∈ A, a.take E.n = id.take E.n → ∀ u < E.rg (nth a E.m), insertAt E.n a u < insertAt E.n id s := by
      intro a ha hai u hu
      rw [lt_insertAt (G.len a ha) hid]
      have := h2 rfl a ha hai
      rcases Nat.lt_or_ge u s with h5 | h5
      · exact Or.inr ⟨hai, Or.inl h5⟩
      · exact Or.inr ⟨hai, Or.inr ⟨by omega, hlow a ha hai (by omega)⟩⟩
    unfold lbFinish lbNextStart
    by_cases h0 : E.n = 0
    · rw [if_pos h0, G.size, number_end]
      intro a ha u hu
      exact hb a ha (by rw [h0]; simp) u hu
    · rw [if_neg h0]
      exact lbAfter_eq G hp hid (by omega) hb
  | some k =>
    obtain ⟨a0, ha0, hai0, rfl, hs0, hmin⟩ := h3 k rfl
    have hz : ∀ a ∈ A, lexLt a (zeroFrom (E.m + 1) a0) = lexLt (a.take (E.m + 1)) (a0.take (E.m + 1)) := fun a ha =>
      lexLt_zeroFrom (by rw [G.len a ha, G.len a0 ha0]) _
    unfold lbFinish
    dsimp only
    rw [lbStart_eq G hid, G.ord, lbOrd_from G.sorted]
    · have hne : (A.countP fun x => lexLt x (zeroFrom (E.m + 1) a0)) ≠ A.length := by
        intro he
        have := first_end he a0 ha0
        rw [lexLt_self_zeroFrom] at this; cases this
      obtain ⟨b, hb⟩ := first_get hne
      obtain ⟨b1, b2, b3⟩ := first_some G.sorted hb
      have hbt : b.take (E.m + 1) = a0.take (E.m + 1) := by
        rw [hz b b1] at b2
        have := take_mono (k := E.m + 1) (a := b) (b := a0) (by rw [G.len b b1, G.len a0 ha0]) (b3 a0 ha0 (lexLt_self_zeroFrom _ _))
        rcases lexLt_total (b.take (E.m + 1)) (a0.take (E.m + 1)) with h | h | h
        · rw [b2] at h; cases h
        · exact h
        · rw [this] at h; cases h
      have hbn : b.take E.n = id.take E.n := (take_of_take (by omega) hbt).trans hai0
      have hrb : E.rg (nth b E.m) = E.rg (nth a0 E.m) := by rw [nth_of_take_eq hbt (by omega)]
      rw [hb, Option.bind_some, put_eq]
      refine rank_first G hid b1 (by omega) (Or.inr ⟨hbn.symm, Or.inl (by omega)⟩) fun a ha u hu hge hlt => ?_
      rw [lt_insertAt (G.len a ha) (G.len b b1)] at hlt
      rw [lt_insertAt (G.len a ha) hid] at hge
      rcases hlt with hlt | ⟨hlt, hlt' | ⟨h5, hlt'⟩⟩
      · rw [hbn] at hlt; exact hge (Or.inl hlt)
      · have hai := hlt.trans hbn
        rcases Nat.lt_or_ge u s with h5 | h5
        · exact hge (Or.inr ⟨hai, Or.inl h5⟩)
        · exact hge (Or.inr ⟨hai, Or.inr ⟨by omega, hlow a ha hai (by omega)⟩⟩)
      · have hai := hlt.trans hbn
        have h6 := hmin a ha hai (by omega)
        rw [lexLt_zz (by rw [G.len a ha, G.len a0 ha0]), ← hz a ha] at h6
        have h7 := b3 a ha h6
        rw [(lexLt_split (n := E.n) (G.len a ha) (G.len b b1)).2 (Or.inr ⟨hlt, hlt'⟩)] at h7; cases h7
    · rw [lexLt_zeroFrom (by rw [zeroFrom_length, G.len a0 ha0, hid]), take_zeroFrom a0 (by omega), hai0, lexLt_irrefl]

/-- The end of the base arrays is dereferenced. -/
def Past (E : Ext) (A : List Key) (id : Key) (s : Nat) : Prop :=
  E.n ≤ E.m ∧ (∃ a ∈ A, a.take (E.m + 1) = id.take (E.m + 1)) ∧ s < E.rg (nth id E.m) ∧ ∀ a ∈ A, lexLt a id = true

theorem lbScan_eq {E : Ext} {A : List Key} (G : Good E A) (hp : Positive E A) {id : Key} (hid : id.length = E.N) {s : Nat} (hnm : E.n ≤ E.m)
    (hpast : ¬ Past E A id s) (l : KMap) (add : Option Key) (hs : MSorted l) (hm : ∀ e ∈ l, ∃ a ∈ A, e.1 = zeroFrom (E.m + 1) a)
    (hq : ∀ e ∈ l, lexLt (e.1.take E.n) (id.take E.n) = false)
    (h1 : ∀ a ∈ A, a.take E.n = id.take E.n → zeroFrom (E.m + 1) a ∉ l.map Prod.fst → s < E.rg (nth a E.m) → lexLt a id = true)
    (h2 : add = none → ∀ a ∈ A, a.take E.n = id.take E.n → zeroFrom (E.m + 1) a ∉ l.map Prod.fst → E.rg (nth a E.m) ≤ s + 1)
    (h3 : ∀ k, add = some k → ∃ a0 ∈ A, a0.take E.n = id.take E.n ∧ k = zeroFrom (E.m + 1) a0 ∧ s + 1 < E.rg (nth a0 E.m) ∧
      ∀ a ∈ A, a.take E.n = id.take E.n → s + 1 < E.rg (nth a E.m) → lexLt (zeroFrom (E.m + 1) a) k = false) :
    lbScan E id s l add = some (number E.n E.m E.rg A (insertAt E.n id s)) := by
  induction l generalizing add with
  | nil =>
    unfold lbScan
    exact lbFinish_eq G hp hid hnm (fun a ha hai => h1 a ha hai (by simp)) add (fun h a ha hai => h2 h a ha hai (by simp)) h3
  | cons e l ih =>
    obtain ⟨hs1, hs2⟩ := List.pairwise_cons.1 hs
    obtain ⟨a', ha', hea⟩ := hm e (by simp)
    have hmN := G.hm
    have hJn : (zeroFrom (E.m + 1) id).take E.n = id.take E.n := take_zeroFrom id (by omega)
    have hen : e.1.take E.n = a'.take E.n := by rw [hea, take_zeroFrom a' (by omega)]
    have hem : nth e.1 E.m = nth a' E.m := by rw [hea, nth_zeroFrom, if_pos (by omega)]
    have hke : ∀ a ∈ A, zeroFrom (E.m + 1) a = e.1 → nth a E.m = nth a' E.m := fun a ha h =>
      nth_of_take_eq (zeroFrom_inj (h.trans hea)) (by omega)
    -- keys not in the rest
    have hrest : ∀ {a : Key}, zeroFrom (E.m + 1) a ∉ l.map Prod.fst → zeroFrom (E.m + 1) a = e.1 ∨ zeroFrom (E.m + 1) a ∉ (e :: l).map Prod.fst := by
      intro a h
      by_cases h' : zeroFrom (E.m + 1) a = e.1
      · exact Or.inl h'
      · right; simp only [List.map_cons, List.mem_cons, not_or]; exact ⟨h', h⟩
    unfold lbScan
    by_cases hsame : same E.n e.1 (zeroFrom (E.m + 1) id) = true
    · rw [if_pos hsame]
      have hsame' : a'.take E.n = id.take E.n := by
        simp only [same, decide_eq_true_eq, hJn] at hsame; rw [← hen, hsame]
      -- the entry leaves the invariant
      have next : (s < E.rg (nth a' E.m) → ∀ a ∈ A, zeroFrom (E.m + 1) a = e.1 → lexLt a id = true) →
          ∀ add', add' = (if s < E.rg (nth a' E.m) then lbAdd E s e add else add) →
          lbScan E id s l add' = some (number E.n E.m E.rg A (insertAt E.n id s)) := by
        rintro hn add' rfl
        refine ih _ hs2 (fun x hx => hm x (by simp [hx])) (fun x hx => hq x (by simp [hx])) ?_ ?_ ?_
        · intro a ha hai hk hsa
          rcases hrest hk with h | h
          · have := hke a ha h
            exact hn (by rw [← this]; exact hsa) a ha h
          · exact h1 a ha hai h hsa
        · intro hadd a ha hai hk
          have hadd0 : add = none := by
            cases add with
            | none => rfl
            | some k => split at hadd <;> simp [lbAdd] at hadd
          rcases hrest hk with h | h
          · rw [hke a ha h]
            subst hadd0
            by_contra hc
            rw [if_pos (by omega), lbAdd, hem, if_pos (by omega)] at hadd
            cases hadd
          · exact h2 hadd0 a ha hai h
        · intro k hk
          cases hadd : add with
          | some k0 =>
            rw [hadd] at hk
            have : k = k0 := by split at hk <;> simp [lbAdd] at hk <;> exact hk.symm
            subst this
            exact h3 k hadd
          | none =>
            rw [hadd] at hk
            have : s + 1 < E.rg (nth a' E.m) ∧ k = e.1 := by
              split at hk
              · simp only [lbAdd, hem] at hk
                split at hk
                · rename_i h; exact ⟨h, by simpa using hk.symm⟩
                · cases hk
              · cases hk
            obtain ⟨hs', rfl⟩ := this
            refine ⟨a', ha', hsame', hea, hs', fun a ha hai hsa => ?_⟩
            by_cases hc : zeroFrom (E.m + 1) a ∈ (e :: l).map Prod.fst
            · rcases List.mem_cons.1 (by simpa using hc : zeroFrom (E.m + 1) a ∈ e.1 :: l.map Prod.fst) with h | h
              · rw [h, lexLt_irrefl]
              · obtain ⟨x, hx, hxe⟩ := List.mem_map.1 h
                rw [← hxe]; exact lexLt_asymm (hs1 x hx)
            · have := h2 hadd a ha hai hc
              omega
      by_cases hr : E.rg (nth e.1 E.m) ≤ s
      · rw [if_pos hr]
        rw [hem] at hr
        exact next (fun h => by omega) _ (by rw [if_neg (by omega)])
      · rw [if_neg hr]
        rw [hem] at hr
        have hr' : s < E.rg (nth a' E.m) := by omega
        by_cases hlt : lexLt e.1 (zeroFrom (E.m + 1) id) = true
        · rw [if_pos hlt]
          refine next (fun _ a ha h => ?_) _ (by rw [if_pos hr'])
          rw [← h, lexLt_zz (by rw [G.len a ha, hid])] at hlt
          exact (lexLt_split (n := E.m + 1) (G.len a ha) hid).2 (Or.inl hlt)
        · rw [if_neg hlt]
          simp only [Bool.not_eq_true] at hlt
          set key : Key := if e.1 = zeroFrom (E.m + 1) id then id else e.1 with hkey
          have hkn : key.take E.n = id.take E.n := by
            rw [hkey]; split
            · rfl
            · rw [hen, hsame']
          have hkl : key.length = E.N := by
            rw [hkey]; split
            · exact hid
            · rw [hea, zeroFrom_length, G.len a' ha']
          have hkt : key.take (E.m + 1) = a'.take (E.m + 1) := by
            rw [hkey]; split
            · rename_i h; exact (zeroFrom_inj (hea.symm.trans h)).symm
            · rw [hea, take_zeroFrom a' le_rfl]
          have hkid : lexLt key id = false := by
            rw [hkey]; split
            · exact lexLt_irrefl _
            · rename_i h
              cases hc : lexLt e.1 id with
              | false => rfl
              | true =>
                have h4 := take_mono' (k := E.m + 1) (a := e.1) (b := id) (by rw [hea, zeroFrom_length, G.len a' ha', hid]) hc
                exfalso
                rw [hea, take_zeroFrom a' le_rfl] at h4
                rw [hea, lexLt_zz (by rw [G.len a' ha', hid])] at hlt
                rcases lexLt_total (a'.take (E.m + 1)) (id.take (E.m + 1)) with h' | h' | h'
                · rw [hlt] at h'; cases h'
                · exact h (by rw [hea]; exact zeroFrom_congr (by rw [G.len a' ha', hid]) h')
                · rw [h4] at h'; cases h'
          rw [lbStart_eq G hid, G.ord, lbOrd_from G.sorted (by rw [lexLt_zeroFrom (by rw [hkl, hid]), hkn, lexLt_irrefl])]
          split
          · rename_i hnone
            exfalso
            have h4 : (A.countP fun x => lexLt x key) ≤ A.length := List.countP_le_length
            have h5 := first_end (le_antisymm h4 (List.getElem?_eq_none_iff.1 hnone))
            by_cases hJ : e.1 = zeroFrom (E.m + 1) id
            · have h6 : a'.take (E.m + 1) = id.take (E.m + 1) := zeroFrom_inj (hea.symm.trans hJ)
              refine hpast ⟨hnm, ⟨a', ha', h6⟩, ?_, ?_⟩
              · rw [← nth_of_take_eq h6 (by omega)]; exact hr'
              · rw [hkey, if_pos hJ] at h5; exact h5
            · have h6 := h5 a' ha'
              rw [hkey, if_neg hJ, hea, lexLt_self_zeroFrom] at h6; cases h6
          · rename_i b hb
            obtain ⟨b1, b2, b3⟩ := first_some G.sorted hb
            by_cases hbe : same (E.m + 1) b e.1 = true
            · rw [if_pos hbe, put_eq]
              have hbt : b.take (E.m + 1) = a'.take (E.m + 1) := by
                simp only [same, decide_eq_true_eq] at hbe; rw [hbe, hea, take_zeroFrom a' le_rfl]
              have hbn : b.take E.n = id.take E.n := (take_of_take (by omega) hbt).trans hsame'
              have hbm : nth b E.m = nth a' E.m := nth_of_take_eq hbt (by omega)
              have hbid : lexLt b id = false := by
                cases hc : lexLt b id with
                | false => rfl
                | true => rw [lexLt_of_lt_of_le hc hkid] at b2; cases b2
              have hbd : lexLt (b.drop E.n) (id.drop E.n) = false := by
                cases h3' : lexLt (b.drop E.n) (id.drop E.n) with
                | false => rfl
                | true => rw [(lexLt_split (n := E.n) (G.len b b1) hid).2 (Or.inr ⟨hbn, h3'⟩)] at hbid; cases hbid
              refine rank_first G hid b1 (by rw [hbm]; exact hr') (Or.inr ⟨hbn.symm, Or.inr ⟨rfl, hbd⟩⟩) fun a ha u hu hge hl => ?_
              rw [lt_insertAt (G.len a ha) (G.len b b1)] at hl
              rw [lt_insertAt (G.len a ha) hid] at hge
              rcases hl with hl | ⟨hl, hl' | ⟨h5, hl'⟩⟩
              · rw [hbn] at hl; exact hge (Or.inl hl)
              · exact hge (Or.inr ⟨hl.trans hbn, Or.inl hl'⟩)
              · subst h5
                have hai := hl.trans hbn
                have hab : lexLt a b = true := (lexLt_split (n := E.n) (G.len a ha) (G.len b b1)).2 (Or.inr ⟨hl, hl'⟩)
                have haid : lexLt a id = false := by
                  cases hc : lexLt a id with
                  | false => rfl
                  | true =>
                    exfalso
                    rcases (lexLt_split (n := E.n) (G.len a ha) hid).1 hc with h | ⟨-, h⟩
                    · rw [hai, lexLt_irrefl] at h; cases h
                    · exact hge (Or.inr ⟨hai, Or.inr ⟨rfl, h⟩⟩)
                have hak : lexLt a key = false := by
                  by_cases hJ : e.1 = zeroFrom (E.m + 1) id
                  · rw [hkey, if_pos hJ]; exact haid
                  · rw [hkey, if_neg hJ]
                    have h6 : lexLt (zeroFrom (E.m + 1) a) e.1 = false := by
                      by_cases hc : zeroFrom (E.m + 1) a ∈ (e :: l).map Prod.fst
                      · rcases List.mem_cons.1 (by simpa using hc : zeroFrom (E.m + 1) a ∈ e.1 :: l.map Prod.fst) with h | h
                        · rw [h, lexLt_irrefl]
                        · obtain ⟨x, hx, hxe⟩ := List.mem_map.1 h
                          rw [← hxe]; exact lexLt_asymm (hs1 x hx)
                      · rw [h1 a ha hai hc hu] at haid; cases haid
                    rw [hea, lexLt_zz (by rw [G.len a ha, G.len a' ha'])] at h6
                    rw [hea, lexLt_zeroFrom (by rw [G.len a ha, G.len a' ha'])]
                    exact h6
                rw [b3 a ha hak] at hab; cases hab
            · rw [if_neg hbe]
              refine next (fun _ a ha h => ?_) _ (by rw [if_pos hr'])
              cases hc : lexLt a id with
              | true => rfl
              | false =>
                exfalso
                have hat : a.take (E.m + 1) = a'.take (E.m + 1) := zeroFrom_inj (h.trans hea)
                have hak : lexLt a key = false := by
                  by_cases hJ : e.1 = zeroFrom (E.m + 1) id
                  · rw [hkey, if_pos hJ]; exact hc
                  · rw [hkey, if_neg hJ, ← h, lexLt_self_zeroFrom]
                have h6 := take_mono (k := E.m + 1) (a := b) (b := a) (by rw [G.len b b1, G.len a ha]) (b3 a ha hak)
                have h7 := take_mono (k := E.m + 1) (a := key) (b := b) (by rw [G.len b b1, hkl]) b2
                rw [hat] at h6
                rw [hkt] at h7
                apply hbe
                simp only [same, decide_eq_true_eq, hea, take_zeroFrom a' le_rfl]
                rcases lexLt_total (b.take (E.m + 1)) (a'.take (E.m + 1)) with h' | h' | h'
                · rw [h7] at h'; cases h'
                · exact h'
                · rw [h6] at h'; cases h'
    · rw [if_neg hsame]
      have hall : ∀ a ∈ A, a.take E.n = id.take E.n → zeroFrom (E.m + 1) a ∉ (e :: l).map Prod.fst := by
        intro a ha hai hc
        have h4 : lexLt (id.take E.n) (e.1.take E.n) = true := by
          rcases lexLt_total (id.take E.n) (e.1.take E.n) with h | h | h
          · exact h
          · exact absurd (by simp [same, hJn, h]) hsame
          · rw [hq e (by simp)] at h; cases h
        rcases List.mem_cons.1 (by simpa using hc : zeroFrom (E.m + 1) a ∈ e.1 :: l.map Prod.fst) with h | h
        · rw [← h, take_zeroFrom a (by omega), hai, lexLt_irrefl] at h4; cases h4
        · obtain ⟨x, hx, hxe⟩ := List.mem_map.1 h
          have h5 := take_mono' (k := E.n) (a := e.1) (b := x.1) (by rw [hea, zeroFrom_length, hxe, zeroFrom_length, G.len a ha, G.len a' ha']) (hs1 x hx)
          rw [hxe, take_zeroFrom a (by omega), hai, h4] at h5; cases h5
      exact lbFinish_eq G hp hid hnm (fun a ha hai => h1 a ha hai (hall a ha hai)) add (fun h a ha hai => h2 h a ha hai (hall a ha hai)) h3

/-- The largest range of the arrays that begin as `id`. -/
theorem qr_last {E : Ext} {A : List Key} (G : Good E A) {id : Key} (hid : id.length = E.N) (hnm : E.n ≤ E.m) {c : Key} (hc : c ∈ A)
    (hci : c.take E.n = id.take E.n) :
    ∃ b, ((lbKey E.qr (zeroFrom E.n id)).head?.bind fun e => e.2.getLast?) = some b ∧
      (∀ a ∈ A, a.take E.n = id.take E.n → E.rg (nth a E.m) ≤ b.1) ∧ ∃ a ∈ A, a.take E.n = id.take E.n ∧ b.1 = E.rg (nth a E.m) := by
  have hqr := G.qr_mem hnm c hc
  have hz : zeroFrom E.n c = zeroFrom E.n id := zeroFrom_congr (by rw [G.len c hc, hid]) hci
  obtain ⟨vs, hv1, hv2, hv3⟩ := betaSz_spec G (id := c) hnm
  have hne : vs ≠ [] := by
    intro h
    have := (hv2 (E.rg (nth c E.m))).2 ⟨c, hc, rfl, rfl⟩
    rw [h] at this; cases this
  refine ⟨(vs.getLast hne, S A fun a => if a.take E.n = c.take E.n then min (E.rg (nth a E.m)) (vs.getLast hne) else 0), ?_, ?_, ?_⟩
  · obtain ⟨M1, M2, hM⟩ := List.append_of_mem hqr
    have hsrt := G.qr_sorted hnm
    rw [hM] at hsrt
    rw [← hz, hM, lbKey_split hsrt (lexLt_irrefl _), List.filter_eq_nil_iff.2, List.nil_append, List.head?_cons, Option.bind_some, hv3,
      List.getLast?_map, List.getLast?_eq_some_getLast hne]
    · rfl
    · intro y hy
      have := (List.pairwise_append.1 hsrt).2.2 y hy _ (List.mem_cons_self)
      simp [this]
  · intro a ha hai
    have h1 := (hv2 (E.rg (nth a E.m))).2 ⟨a, ha, hai.trans hci.symm, rfl⟩
    rw [← List.dropLast_append_getLast hne] at h1
    rcases List.mem_append.1 h1 with h | h
    · have h2 := hv1
      rw [← List.dropLast_append_getLast hne] at h2
      exact le_of_lt ((List.pairwise_append.1 h2).2.2 _ h _ (by simp))
    · rw [List.mem_singleton.1 h]
  · obtain ⟨a, ha, hai, h⟩ := (hv2 _).1 (List.getLast_mem hne)
    exact ⟨a, ha, hai.trans hci, h⟩

theorem lbLow_eq {E : Ext} {A : List Key} (G : Good E A) (hp : Positive E A) {id : Key} (hid : id.length = E.N) {s : Nat} (hnm : E.n ≤ E.m)
    (hpast : ¬ Past E A id s) {c : Key} (hc : c ∈ A) (hci : c.take E.n = id.take E.n) :
    lbLow E id s = some (number E.n E.m E.rg A (insertAt E.n id s)) := by
  obtain ⟨b, hb, hb1, hb2⟩ := qr_last G hid hnm hc hci
  unfold lbLow
  rw [hb, Option.bind_some]
  have hlenr : ∀ e ∈ E.r, e.1.length = E.N := fun e he => by
    obtain ⟨a, ha, h⟩ := G.r.mem he; rw [h, zeroFrom_length, G.len a ha]
  by_cases h0 : b.1 ≤ s
  · rw [if_pos h0]
    exact lbFinish_eq (add := none) G hp hid hnm (fun a ha hai h => by have := hb1 a ha hai; omega)
      (fun _ a ha hai => by have := hb1 a ha hai; omega) (fun k hk => by cases hk)
  · rw [if_neg h0]
    have hall : ∀ a ∈ A, a.take E.n = id.take E.n → zeroFrom (E.m + 1) a ∈ (lbKey E.r (zeroFrom E.n id)).map Prod.fst := by
      intro a ha hai
      obtain ⟨e, he, hek⟩ := List.mem_map.1 ((G.r.keys _).2 ⟨a, ha, rfl⟩)
      refine List.mem_map.2 ⟨e, (lbKey_mem G.r.sorted).2 ⟨he, ?_⟩, hek⟩
      rw [lexLt_zeroFrom (by rw [hlenr e he, hid]), hek, take_zeroFrom a (by omega), hai, lexLt_irrefl]
    refine lbScan_eq G hp hid hnm hpast _ none (lbKey_sorted G.r.sorted) (fun e he => G.r.mem ((lbKey_mem G.r.sorted).1 he).1) ?_ ?_ ?_ ?_
    · intro e he
      obtain ⟨h1, h2⟩ := (lbKey_mem G.r.sorted).1 he
      rwa [lexLt_zeroFrom (by rw [hlenr e h1, hid])] at h2
    · intro a ha hai h; exact absurd (hall a ha hai) h
    · intro _ a ha hai h; exact absurd (hall a ha hai) h
    · intro k hk; cases hk

/-- Removing the inserted value. -/
theorem base_length {N n : Nat} {x : Key} (hx : x.length = N + 1) (hn : n ≤ N) : (x.take n ++ x.drop (n + 1)).length = N := by
  simp; omega

theorem insert_base {N n : Nat} {x : Key} (hx : x.length = N + 1) (hn : n ≤ N) : insertAt n (x.take n ++ x.drop (n + 1)) (nth x n) = x := by
  have h1 : (x.take n).length = n := by rw [List.length_take]; omega
  have h2 : (x.take n ++ x.drop (n + 1)).take n = x.take n := by rw [List.take_left' h1]
  have h3 : (x.take n ++ x.drop (n + 1)).drop n = x.drop (n + 1) := by rw [List.drop_left' h1]
  rw [insertAt, h2, h3]
  have h4 : nth x n :: x.drop (n + 1) = x.drop n := by
    have h5 : n < List.length x := by omega
    rw [List.drop_eq_getElem_cons h5, nth, List.getD_eq_getElem?_getD, List.getElem?_eq_getElem h5]; rfl
  rw [h4, List.take_append_drop]

theorem lowerBound_good {E : Ext} {A : List Key} (G : Good E A) (hA : A ≠ []) (hp : Positive E A) {x : Key} (hx : x.length = E.N + 1)
    (hpast : ¬ Past E A (x.take E.n ++ x.drop (E.n + 1)) (nth x E.n)) :
    lowerBound E x = some (number E.n E.m E.rg A x) := by
  have hid := base_length hx G.hn
  have hxe := insert_base hx G.hn
  unfold lowerBound
  dsimp only
  generalize hI : x.take E.n ++ x.drop (E.n + 1) = id at *
  generalize hS : nth x E.n = s at *
  rw [← hxe]
  have rest : ∀ c ∈ A, c.take E.n = id.take E.n → (if E.m < E.n then lbHigh E id s else lbLow E id s) = some (number E.n E.m E.rg A (insertAt E.n id s)) := by
    intro c hc hci
    split
    · rename_i h; exact lbHigh_eq G hp hid h hc hci
    · rename_i h; exact lbLow_eq G hp hid (by omega) hpast hc hci
  by_cases h0 : 0 < E.n
  · rw [if_pos h0, lbStart_eq G hid, G.ord]
    by_cases he : (A.countP fun y => lexLt y (zeroFrom E.n id)) = A.length
    · rw [if_pos he, G.size, number_end]
      intro a ha u hu
      have := first_end he a ha
      rw [lexLt_zeroFrom (by rw [G.len a ha, hid])] at this
      exact (lt_insertAt (G.len a ha) hid u s).2 (Or.inl this)
    · rw [if_neg he]
      obtain ⟨b, hb⟩ := first_get he
      obtain ⟨b1, b2, b3⟩ := first_some G.sorted hb
      rw [hb, Option.bind_some]
      by_cases hs : same E.n id b = true
      · rw [if_pos hs]
        exact rest b b1 (by simpa [same] using (of_decide_eq_true hs).symm)
      · rw [if_neg hs, put_eq]
        have hib : lexLt (id.take E.n) (b.take E.n) = true := by
          rw [lexLt_zeroFrom (by rw [G.len b b1, hid])] at b2
          rcases lexLt_total (id.take E.n) (b.take E.n) with h | h | h
          · exact h
          · exact absurd (by simpa [same] using h) hs
          · rw [b2] at h; cases h
        refine rank_first G hid b1 (hp b b1) (Or.inl hib) fun a ha u hu hge hlt => ?_
        rw [lt_insertAt (G.len a ha) hid] at hge
        have h6 : ¬ (lexLt a b = true) := by
          rw [b3 a ha ?_]
          · simp
          · rw [lexLt_zeroFrom (by rw [G.len a ha, hid])]
            cases h : lexLt (a.take E.n) (id.take E.n) with
            | false => rfl
            | true => exact absurd (Or.inl h) hge
        rw [lexLt_split (n := E.n) (G.len a ha) (G.len b b1)] at h6
        rw [lt_insertAt (G.len a ha) (G.len b b1)] at hlt
        rcases hlt with hlt | ⟨hlt, hlt' | ⟨-, hlt'⟩⟩
        · exact h6 (Or.inl hlt)
        · omega
        · exact h6 (Or.inr ⟨hlt, hlt'⟩)
  · rw [if_neg h0]
    obtain ⟨c, hc⟩ := List.exists_mem_of_ne_nil A hA
    have : E.n = 0 := by omega
    exact rest c hc (by rw [this]; simp)

/-! ### The entry of the key itself is reached -/

/-- What stands at the first base array not below `id`, when it is the end or `id`. -/
def Reach (E : Ext) (A : List Key) (id : Key) (s : Nat) (o : Option Nat) : Prop :=
  ((∀ a ∈ A, lexLt a id = true) ∧ o = none) ∨ (id ∈ A ∧ o = rank E (insertAt E.n id s))

theorem first_self {A : List Key} (hs : Sorted A) {id : Key} (h : id ∈ A) : A[A.countP fun x => lexLt x id]? = some id := by
  have hne : (A.countP fun x => lexLt x id) ≠ A.length := by
    intro he
    have := first_end he id h
    rw [lexLt_irrefl] at this; cases this
  obtain ⟨b, hb⟩ := first_get hne
  obtain ⟨b1, b2, b3⟩ := first_some hs hb
  rw [hb]
  have h3 := b3 id h (lexLt_irrefl _)
  rcases lexLt_total b id with h' | h' | h'
  · rw [b2] at h'; cases h'
  · rw [h']
  · rw [h3] at h'; cases h'

theorem lbScan_reach {E : Ext} {A : List Key} (G : Good E A) {id : Key} (hid : id.length = E.N) {s : Nat} (hnm : E.n ≤ E.m)
    (hsr : s < E.rg (nth id E.m)) {o : Option Nat} (ho : Reach E A id s o) (l : KMap)
    (add : Option Key) (hs : MSorted l) (hm : ∀ e ∈ l, ∃ a ∈ A, e.1 = zeroFrom (E.m + 1) a)
    (hq : ∀ e ∈ l, lexLt (e.1.take E.n) (id.take E.n) = false) (hJ : zeroFrom (E.m + 1) id ∈ l.map Prod.fst) : lbScan E id s l add = o := by
  induction l generalizing add with
  | nil => cases hJ
  | cons e l ih =>
    obtain ⟨hs1, hs2⟩ := List.pairwise_cons.1 hs
    obtain ⟨a', ha', hea⟩ := hm e (by simp)
    have hJn : (zeroFrom (E.m + 1) id).take E.n = id.take E.n := take_zeroFrom id (by omega)
    have hJm : nth (zeroFrom (E.m + 1) id) E.m = nth id E.m := by rw [nth_zeroFrom, if_pos (by omega)]
    unfold lbScan
    rcases List.mem_cons.1 (by simpa using hJ : zeroFrom (E.m + 1) id ∈ e.1 :: l.map Prod.fst) with h | h
    · rw [← h, if_pos (by simp [same]), hJm, if_neg (by omega), lexLt_irrefl, if_neg (by simp), if_pos rfl, lbStart_eq G hid, G.ord,
        lbOrd_from G.sorted (lexLt_self_zeroFrom _ _)]
      rcases ho with ⟨hall, rfl⟩ | ⟨hmem, rfl⟩
      · rw [List.countP_eq_length.2 (by simpa using hall)]
        simp
      · have h5 := first_self G.sorted hmem
        split
        · rename_i h6; rw [h5] at h6; cases h6
        · rename_i b h6
          rw [h5] at h6
          cases h6
          rw [if_pos (by simp [same, take_zeroFrom id le_rfl]), put_eq]
    · obtain ⟨y, hy, hye⟩ := List.mem_map.1 h
      have hlt : lexLt e.1 (zeroFrom (E.m + 1) id) = true := by rw [← hye]; exact hs1 y hy
      have hsame : same E.n e.1 (zeroFrom (E.m + 1) id) = true := by
        have h5 := take_mono' (k := E.n) (a := e.1) (b := zeroFrom (E.m + 1) id) (by rw [hea, zeroFrom_length, zeroFrom_length, G.len a' ha', hid]) hlt
        rw [hJn] at h5
        simp only [same, decide_eq_true_eq, hJn]
        rcases lexLt_total (e.1.take E.n) (id.take E.n) with h' | h' | h'
        · rw [hq e (by simp)] at h'; cases h'
        · exact h'
        · rw [h5] at h'; cases h'
      rw [if_pos hsame, if_pos hlt]
      have ih' := fun add => ih add hs2 (fun x hx => hm x (by simp [hx])) (fun x hx => hq x (by simp [hx])) h
      rw [ih', ih', ite_self]

/-- The prefix of the key occurs. -/
theorem lowerBound_rest {E : Ext} {A : List Key} (G : Good E A) {x : Key} (hx : x.length = E.N + 1) {c : Key} (hc : c ∈ A)
    (hci : c.take E.n = (x.take E.n ++ x.drop (E.n + 1)).take E.n) :
    lowerBound E x = if E.m < E.n then lbHigh E (x.take E.n ++ x.drop (E.n + 1)) (nth x E.n) else lbLow E (x.take E.n ++ x.drop (E.n + 1)) (nth x E.n) := by
  have hid := base_length hx G.hn
  unfold lowerBound
  dsimp only
  generalize hI : x.take E.n ++ x.drop (E.n + 1) = id at *
  by_cases h0 : 0 < E.n
  · rw [if_pos h0, lbStart_eq G hid, G.ord]
    have hcz : lexLt c (zeroFrom E.n id) = false := by rw [lexLt_zeroFrom (by rw [G.len c hc, hid]), hci, lexLt_irrefl]
    have he : (A.countP fun y => lexLt y (zeroFrom E.n id)) ≠ A.length := by
      intro he
      have := first_end he c hc
      rw [hcz] at this; cases this
    rw [if_neg he]
    obtain ⟨b, hb⟩ := first_get he
    obtain ⟨b1, b2, b3⟩ := first_some G.sorted hb
    rw [hb, Option.bind_some, if_pos]
    have h4 := take_mono (k := E.n) (a := b) (b := c) (by rw [G.len b b1, G.len c hc]) (b3 c hc hcz)
    rw [lexLt_zeroFrom (by rw [G.len b b1, hid])] at b2
    rw [hci] at h4
    simp only [same, decide_eq_true_eq]
    rcases lexLt_total (id.take E.n) (b.take E.n) with h | h | h
    · rw [h4] at h; cases h
    · exact h
    · rw [b2] at h; cases h
  · rw [if_neg h0]

theorem lowerBound_reach {E : Ext} {A : List Key} (G : Good E A) {x : Key} (hx : x.length = E.N + 1) (hnm : E.n ≤ E.m) {c : Key} (hc : c ∈ A)
    (hcm : c.take (E.m + 1) = (x.take E.n ++ x.drop (E.n + 1)).take (E.m + 1)) (hsr : nth x E.n < E.rg (nth (x.take E.n ++ x.drop (E.n + 1)) E.m))
    {o : Option Nat} (ho : Reach E A (x.take E.n ++ x.drop (E.n + 1)) (nth x E.n) o) : lowerBound E x = o := by
  have hid := base_length hx G.hn
  have hci := take_of_take (n := E.n) (by omega) hcm
  rw [lowerBound_rest G hx hc hci, if_neg (by omega)]
  generalize hI : x.take E.n ++ x.drop (E.n + 1) = id at *
  generalize hS : nth x E.n = s at *
  have hlenr : ∀ e ∈ E.r, e.1.length = E.N := fun e he => by
    obtain ⟨a, ha, h⟩ := G.r.mem he; rw [h, zeroFrom_length, G.len a ha]
  obtain ⟨b, hb, hb1, -⟩ := qr_last G hid hnm hc hci
  unfold lbLow
  have h1 := hb1 c hc hci
  rw [nth_of_take_eq hcm (by omega)] at h1
  rw [hb, Option.bind_some, if_neg (by omega)]
  refine lbScan_reach G hid hnm hsr ho _ none (lbKey_sorted G.r.sorted) (fun e he => G.r.mem ((lbKey_mem G.r.sorted).1 he).1) ?_ ?_
  · intro e he
    obtain ⟨h1, h2⟩ := (lbKey_mem G.r.sorted).1 he
    rwa [lexLt_zeroFrom (by rw [hlenr e h1, hid])] at h2
  · obtain ⟨e, he, hek⟩ := List.mem_map.1 ((G.r.keys _).2 ⟨c, hc, rfl⟩)
    rw [zeroFrom_congr (by rw [G.len c hc, hid]) hcm] at hek
    refine List.mem_map.2 ⟨e, (lbKey_mem G.r.sorted).2 ⟨he, ?_⟩, hek⟩
    rw [lexLt_zeroFrom (by rw [hlenr e he, hid]), hek, take_zeroFrom id (by omega), lexLt_irrefl]

/-- An array of the set is its own lower bound, whatever the other ranges are. -/
theorem lowerBound_self {E : Ext} {A : List Key} (G : Good E A) {x : Key} (hx : x.length = E.N + 1)
    (hmem : x.take E.n ++ x.drop (E.n + 1) ∈ A) (hsr : nth x E.n < E.rg (nth (x.take E.n ++ x.drop (E.n + 1)) E.m)) :
    lowerBound E x = rank E x := by
  have hid := base_length hx G.hn
  have hxe := insert_base hx G.hn
  by_cases hnm : E.n ≤ E.m
  · exact lowerBound_reach G hx hnm hmem rfl hsr (Or.inr ⟨hmem, by rw [hxe]⟩)
  · rw [lowerBound_rest G hx hmem rfl, if_pos (by omega)]
    generalize hI : x.take E.n ++ x.drop (E.n + 1) = id at *
    generalize hS : nth x E.n = s at *
    unfold lbHigh
    rw [if_neg (by omega), lbStart_eq G hid, G.ord, lbOrd_from G.sorted (lexLt_self_zeroFrom _ _)]
    dsimp only
    have h5 := first_self G.sorted hmem
    split
    · rename_i h6; rw [h5] at h6; cases h6
    · rename_i b h6
      rw [h5] at h6
      cases h6
      rw [if_pos (by simp [same]), ← hxe]
      rfl

end Verif.ExtEnum
