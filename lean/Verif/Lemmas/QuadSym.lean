import Mathlib.Data.List.Perm.Basic
import Mathlib.Data.Fintype.Perm
import Mathlib.Tactic.FinCases
import Verif.Lemmas.QuadRead

/-! Symmetry of the tables: a check in integers and what it proves. -/
namespace Verif.Quad

/-- A weight and barycentric coordinates in units. -/
abbrev IPt := Int × List Int

/-- Equal weights and coordinates differing by at most `t`. -/
def closeTo (t : Int) (a b : IPt) : Bool :=
  decide (a.1 = b.1) && (a.2.zip b.2).all fun x => decide (x.1 - x.2 ≤ t) && decide (x.2 - x.1 ≤ t)

/-- Removal of the first element with a property. -/
def pick {α : Type} (f : α → Bool) : List α → Option (α × List α)
  | [] => none
  | a :: l => bif f a then some (a, l) else (pick f l).map fun r => (r.1, a :: r.2)

/-- The first list matches a rearrangement of the second. -/
def greedy {α : Type} (f : α → α → Bool) : List α → List α → Bool
  | [], l => l.isEmpty
  | a :: r, l => match pick (f a) l with
    | none => false
    | some (_, l') => greedy f r l'

/-- Exchange of the entries `k` and `k + 1`. -/
def swapAt {A : Type} : Nat → List A → List A
  | 0, a :: b :: l => b :: a :: l
  | k + 1, a :: l => a :: swapAt k l
  | _, l => l

/-- Cutting a list into pieces of given lengths. -/
def cut {α : Type} : List Nat → List α → List (List α)
  | [], _ => []
  | n :: s, l => l.take n :: cut s (l.drop n)

/-- One orbit: one weight, invariance under exchanges of neighbours (exact but for the last one). -/
def orbitOk (d : Nat) (t : Int) (b : List IPt) : Bool :=
  (b.all fun q => match b with | [] => true | h :: _ => decide (q.1 = h.1)) &&
  b.all (fun q => Nat.beq q.2.length (d + 1)) &&
  (List.range d).all fun k => greedy (closeTo (bif Nat.blt (k + 1) d then 0 else t)) (b.map fun q => (q.1, swapAt k q.2)) b

/-- All orbits, of the lengths `s`. -/
def orbitsOk (d : Nat) (t : Int) (s : List Nat) (l : List IPt) : Bool :=
  Nat.beq s.sum l.length && (cut s l).all (orbitOk d t)

/-- The coordinates of a row, the last one computed from the others. -/
def Row.pt1 (S : Nat) (r : Row Int) : IPt := (r.w, [r.x, (S : Nat) - r.x])
/-- See `Row.pt1`. -/
def Row.pt2 (S : Nat) (r : Row Int) : IPt := (r.w, [r.x, r.y, (S : Nat) - r.x - r.y])
/-- See `Row.pt1`. -/
def Row.pt3 (S : Nat) (r : Row Int) : IPt := (r.w, [r.x, r.y, r.z, (S : Nat) - r.x - r.y - r.z])

theorem pick_perm {α : Type} {f : α → Bool} {l : List α} {a : α} {r : List α} (h : pick f l = some (a, r)) :
    f a = true ∧ (a :: r).Perm l := by
  induction l generalizing a r with
  | nil => simp [pick] at h
  | cons b l ih =>
    unfold pick at h
    cases hb : f b with
    | true =>
      simp only [hb, cond_true, Option.some.injEq, Prod.mk.injEq] at h
      obtain ⟨rfl, rfl⟩ := h
      exact ⟨hb, .refl _⟩
    | false =>
      simp only [hb, cond_false, Option.map_eq_some_iff, Prod.mk.injEq] at h
      obtain ⟨⟨a', r'⟩, h1, rfl, rfl⟩ := h
      obtain ⟨h2, h3⟩ := ih h1
      exact ⟨h2, (List.Perm.swap _ _ _).trans (h3.cons b)⟩

theorem greedy_sound {α : Type} {f : α → α → Bool} {r l : List α} (h : greedy f r l = true) :
    ∃ l' : List α, l'.Perm l ∧ List.Forall₂ (fun a b => f a b = true) r l' := by
  induction r generalizing l with
  | nil =>
    simp only [greedy, List.isEmpty_iff] at h
    exact ⟨[], by rw [h], .nil⟩
  | cons a r ih =>
    unfold greedy at h
    cases hp : pick (f a) l with
    | none => simp [hp] at h
    | some x =>
      obtain ⟨b, l1⟩ := x
      simp only [hp] at h
      obtain ⟨l', h1, h2⟩ := ih h
      obtain ⟨h3, h4⟩ := pick_perm hp
      exact ⟨b :: l', (h1.cons b).trans h4, .cons h3 h2⟩

theorem cut_flatten {α : Type} (s : List Nat) (l : List α) (h : s.sum = l.length) :
    (cut s l).flatten = l ∧ (cut s l).map List.length = s := by
  induction s generalizing l with
  | nil => exact ⟨(List.length_eq_zero_iff.1 (by simpa using h.symm)).symm, rfl⟩
  | cons n s ih =>
    simp only [List.sum_cons] at h
    obtain ⟨h1, h2⟩ := ih (l.drop n) (by rw [List.length_drop]; omega)
    exact ⟨by simp [cut, h1], by simp [cut, h2]; omega⟩

/-- The point of a formula given by integers. -/
def IPt.q (S W : Nat) (a : IPt) : Spaces.QPoint ℚ := ⟨fun k => (a.2.map (unit S)).getD k 0, unit W a.1⟩

theorem getD_swapAt {A : Type} (z : A) (k j : Nat) (l : List A) (h : k + 1 < l.length) :
    (swapAt k l).getD j z = l.getD (if j = k then k + 1 else if j = k + 1 then k else j) z := by
  induction k generalizing j l with
  | zero =>
    rcases l with _ | ⟨a, _ | ⟨b, l⟩⟩
    · simp at h
    · simp at h
    · rcases j with _ | _ | j <;> simp [swapAt]
  | succ k ih =>
    rcases l with _ | ⟨a, l⟩
    · simp at h
    · rcases j with _ | j
      · simp [swapAt]
      · have := ih j l (by simpa using h)
        simp only [swapAt, List.getD_cons_succ, this, Nat.add_right_cancel_iff]
        split
        · simp
        · split <;> simp

theorem unit_close {S : Nat} (hS : 1 ≤ S) {t a b : Int} (h1 : a - b ≤ t) (h2 : b - a ≤ t) : |unit S b - unit S a| ≤ unit S t := by
  have hS' : (0 : ℚ) < S := by exact_mod_cast hS
  rw [← unit_sub, abs_le]
  unfold unit
  constructor
  · rw [← neg_div]
    exact div_le_div_of_nonneg_right (by exact_mod_cast (by omega : -t ≤ b - a)) hS'.le
  · exact div_le_div_of_nonneg_right (by exact_mod_cast h2) hS'.le

theorem zip_getD {t : Int} {l m : List Int} (hl : l.length = m.length)
    (h : (l.zip m).all (fun x => decide (x.1 - x.2 ≤ t) && decide (x.2 - x.1 ≤ t)) = true) {j : Nat} (hj : j < l.length) :
    l.getD j 0 - m.getD j 0 ≤ t ∧ m.getD j 0 - l.getD j 0 ≤ t := by
  induction l generalizing m j with
  | nil => simp at hj
  | cons a l ih =>
    rcases m with _ | ⟨b, m⟩
    · simp at hl
    · simp only [List.zip_cons_cons, List.all_cons, Bool.and_eq_true, decide_eq_true_eq] at h
      rcases j with _ | j
      · exact h.1
      · exact ih (by simpa using hl) h.2 (by simpa using hj)

theorem swapAt_length {A : Type} (k : Nat) (l : List A) : (swapAt k l).length = l.length := by
  induction k generalizing l with
  | zero => rcases l with _ | ⟨a, _ | ⟨b, l⟩⟩ <;> rfl
  | succ k ih =>
    rcases l with _ | ⟨a, l⟩
    · rfl
    · simp [swapAt, ih]

theorem getD_unit (S : Nat) (l : List Int) (j : Nat) : (l.map (unit S)).getD j 0 = unit S (l.getD j 0) := by
  induction l generalizing j with
  | nil => simp [unit]
  | cons a l ih =>
    rcases j with _ | j
    · rfl
    · simpa using ih j

/-- The exchange of the vertices `k` and `k + 1`. -/
def adj (d k : Nat) (h : k < d) : Equiv.Perm (Fin (d + 1)) := Equiv.swap ⟨k, by omega⟩ ⟨k + 1, by omega⟩

theorem forall₂_and_left {α β : Type} {r : α → β → Prop} {p : α → Prop} {l : List α} {m : List β} (h : List.Forall₂ r l m)
    (hp : ∀ a ∈ l, p a) : List.Forall₂ (fun a b => p a ∧ r a b) l m := by
  induction h with
  | nil => exact .nil
  | cons h1 _ ih => exact .cons ⟨hp _ List.mem_cons_self, h1⟩ (ih fun a ha => hp a (List.mem_cons_of_mem _ ha))

theorem forall₂_and_right {α β : Type} {r : α → β → Prop} {p : β → Prop} {l : List α} {m : List β} (h : List.Forall₂ r l m)
    (hp : ∀ a ∈ m, p a) : List.Forall₂ (fun a b => p b ∧ r a b) l m := by
  induction h with
  | nil => exact .nil
  | cons h1 _ ih => exact .cons ⟨hp _ List.mem_cons_self, h1⟩ (ih fun a ha => hp a (List.mem_cons_of_mem _ ha))

theorem greedy_inv {S W d k : Nat} (hS : 1 ≤ S) (hk : k < d) {t : Int} {b : List IPt} (hlen : ∀ q ∈ b, q.2.length = d + 1)
    (h : greedy (closeTo t) (b.map fun q => (q.1, swapAt k q.2)) b = true) :
    Invariant d (unit S t) (b.map (IPt.q S W)) (adj d k hk) := by
  obtain ⟨b', hp, hf⟩ := greedy_sound h
  refine ⟨b'.map (IPt.q S W), hp.map _, ?_⟩
  rw [List.forall₂_map_left_iff] at hf ⊢
  rw [List.forall₂_map_right_iff]
  have hf' := forall₂_and_left (forall₂_and_right hf fun q hq => hlen q (hp.mem_iff.1 hq)) hlen
  refine hf'.imp fun x y hxy => ?_
  obtain ⟨hx, hy, hc⟩ := hxy
  simp only [closeTo, Bool.and_eq_true, decide_eq_true_eq] at hc
  refine ⟨by simp [IPt.q, hc.1], fun j => ?_⟩
  have hz := zip_getD (by rw [swapAt_length, hx, hy]) hc.2 (j := j) (by rw [swapAt_length, hx]; exact j.2)
  rw [getD_swapAt _ _ _ _ (by omega)] at hz
  have e : ((adj d k hk j : Fin (d + 1)) : Nat) = if (j : Nat) = k then k + 1 else if (j : Nat) = k + 1 then k else j := by
    unfold adj
    rw [Equiv.swap_apply_def]
    simp only [Fin.ext_iff]
    split
    · rfl
    · split <;> rfl
  simp only [IPt.q, getD_unit]
  rw [e]
  exact unit_close hS hz.1 hz.2

theorem inv_flatten {d : Nat} {t : ℚ} {B : List (List (Spaces.QPoint ℚ))} {s : Equiv.Perm (Fin (d + 1))}
    (h : ∀ b ∈ B, Invariant d t b s) : Invariant d t B.flatten s := by
  induction B with
  | nil => exact ⟨[], .refl _, .nil⟩
  | cons b B ih =>
    obtain ⟨b', h1, h2⟩ := h b List.mem_cons_self
    obtain ⟨B', h3, h4⟩ := ih fun c hc => h c (List.mem_cons_of_mem _ hc)
    exact ⟨b' ++ B', h1.append h3, List.rel_append h2 h4⟩

theorem inv_mono {d : Nat} {t t' : ℚ} (ht : t ≤ t') {R : List (Spaces.QPoint ℚ)} {s : Equiv.Perm (Fin (d + 1))}
    (h : Invariant d t R s) : Invariant d t' R s := by
  obtain ⟨R', h1, h2⟩ := h
  exact ⟨R', h1, h2.imp fun x y hxy => ⟨hxy.1, fun k => (hxy.2 k).trans ht⟩⟩

theorem inv_one (d : Nat) (R : List (Spaces.QPoint ℚ)) : Invariant d 0 R 1 :=
  ⟨R, .refl _, List.forall₂_same.2 fun x _ => ⟨rfl, fun k => by simp⟩⟩

theorem inv_mul {d : Nat} {t1 t2 : ℚ} {R : List (Spaces.QPoint ℚ)} {s1 s2 : Equiv.Perm (Fin (d + 1))}
    (h1 : Invariant d t1 R s1) (h2 : Invariant d t2 R s2) : Invariant d (t1 + t2) R (s1 * s2) := by
  obtain ⟨R1, p1, f1⟩ := h1
  obtain ⟨R2, p2, f2⟩ := h2
  obtain ⟨R3, f3, p3⟩ := List.perm_comp_forall₂ p1 f2
  refine ⟨R3, p3.trans p2, ?_⟩
  clear p1 p2 p3 f2
  induction f1 generalizing R3 with
  | nil => cases f3; exact .nil
  | cons a _ ih =>
    cases f3 with
    | cons b f3 =>
      refine .cons ⟨b.1.trans a.1, fun k => ?_⟩ (ih _ f3)
      have e1 := a.2 (s2 k)
      have e2 := b.2 k
      rw [Equiv.Perm.mul_apply]
      calc _ ≤ _ := abs_sub_le _ _ _
        _ ≤ t2 + t1 := add_le_add e2 e1
        _ = t1 + t2 := add_comm _ _

theorem inv_word {d : Nat} {t : ℚ} {R : List (Spaces.QPoint ℚ)} (h : ∀ k (hk : k < d), Invariant d t R (adj d k hk))
    (w : List (Equiv.Perm (Fin (d + 1)))) (hw : ∀ s ∈ w, ∃ k hk, s = adj d k hk) : Invariant d (w.length * t) R w.prod := by
  induction w with
  | nil => simpa using inv_one d R
  | cons s w ih =>
    obtain ⟨k, hk, rfl⟩ := hw s List.mem_cons_self
    have := inv_mul (h k hk) (ih fun s hs => hw s (List.mem_cons_of_mem _ hs))
    rw [List.prod_cons]
    refine inv_mono (le_of_eq ?_) this
    push_cast [List.length_cons]
    ring

/-- The words of exchanges of neighbours giving all permutations of at most four vertices. -/
def words (d : Nat) : List (List (Fin d)) :=
  (List.finRange d).foldl (fun (acc : List (List (Fin d))) (k : Fin d) => acc.flatMap fun w =>
    (List.range (k.val + 2)).map fun n =>
      w ++ ((List.finRange d).reverse.filter fun j : Fin d => decide (j.val ≤ k.val ∧ k.val < j.val + n))) [[]]

/-- The permutation of a word. -/
def wordPerm (d : Nat) (w : List (Fin d)) : Equiv.Perm (Fin (d + 1)) := (w.map fun k : Fin d => adj d k.val k.2).prod

theorem words1 : ∀ s : Equiv.Perm (Fin 2), ∃ w ∈ words 1, wordPerm 1 w = s := by decide +kernel
theorem words2 : ∀ s : Equiv.Perm (Fin 3), ∃ w ∈ words 2, wordPerm 2 w = s := by decide +kernel
theorem words3 : ∀ s : Equiv.Perm (Fin 4), ∃ w ∈ words 3, wordPerm 3 w = s := by decide +kernel
theorem words_length : ∀ d ≤ 3, ∀ w ∈ words d, w.length ≤ 6 := by decide +kernel

theorem inv_all {d : Nat} (hd : d ≤ 3) (hw : ∀ s : Equiv.Perm (Fin (d + 1)), ∃ w ∈ words d, wordPerm d w = s) {t : ℚ} (ht : 0 ≤ t)
    {R : List (Spaces.QPoint ℚ)} (h : ∀ k (hk : k < d), Invariant d t R (adj d k hk)) (s : Equiv.Perm (Fin (d + 1))) :
    Invariant d (6 * t) R s := by
  obtain ⟨w, h1, rfl⟩ := hw s
  have := inv_word h (w.map fun k : Fin d => adj d k.val k.2) (by
    intro s hs
    obtain ⟨k, _, rfl⟩ := List.mem_map.1 hs
    exact ⟨k, k.2, rfl⟩)
  refine inv_mono ?_ this
  rw [List.length_map]
  exact mul_le_mul_of_nonneg_right (by exact_mod_cast words_length d hd w h1) ht

end Verif.Quad
