import Verif.Model.GeomWalk
import Verif.Lemmas.Enumerator
import Mathlib.Data.List.Basic

/-!
Lemmas for `Verif.Props.GeomWalk`: chains of successors and the lists of d.o.f.s on one element.
-/
namespace Verif.GeomWalk
open Verif.Enumerator

variable {α β : Type}

theorem follows_append (f : α → Option α) (l₁ l₂ : List α) (r : Option α) (h1 : Follows f l₁ (l₂.head?.or r))
    (h2 : Follows f l₂ r) : Follows f (l₁ ++ l₂) r := by
  induction l₁ with
  | nil => exact h2
  | cons x xs ih =>
    obtain ⟨a, b⟩ := h1
    rw [List.cons_append]
    exact ⟨by rw [a, List.head?_append, Option.or_assoc], ih b⟩

/-- the rest of a filtered range after `x` -/
def rest (n : Nat) (p : Nat → Bool) (g : Nat → List α) (x : Nat) : List α :=
  ((List.range' (x + 1) (n - x - 1)).filter p).flatMap g

theorem follows_range_filter (f : α → Option α) (n : Nat) (p : Nat → Bool) (g : Nat → List α) (r : Option α)
    (h : ∀ x, x < n → p x = true → Follows f (g x) ((rest n p g x).head?.or r)) :
    Follows f (((List.range n).filter p).flatMap g) r := by
  have key : ∀ k st, st + k = n → Follows f (((List.range' st k).filter p).flatMap g) r := by
    intro k
    induction k with
    | zero => intro st _; exact trivial
    | succ k ih =>
      intro st hst
      rw [List.range'_succ]
      by_cases hp : p st = true
      · rw [List.filter_cons_of_pos hp, List.flatMap_cons]
        apply follows_append
        · have := h st (by omega) hp
          unfold rest at this
          rwa [show n - st - 1 = k by omega] at this
        · exact ih (st + 1) (by omega)
      · rw [List.filter_cons_of_neg hp]
        exact ih (st + 1) (by omega)
  rw [List.range_eq_range']
  exact key n 0 (by omega)

theorem follows_range (f : α → Option α) (n : Nat) (mk : Nat → α) (r : Option α)
    (h1 : ∀ j, j + 1 < n → f (mk j) = some (mk (j + 1))) (h2 : ∀ j, j + 1 = n → f (mk j) = r) :
    Follows f ((List.range n).map mk) r := by
  have key : ∀ k st, st + k = n → Follows f ((List.range' st k).map mk) r := by
    intro k
    induction k with
    | zero => intro st _; exact trivial
    | succ k ih =>
      intro st hst
      rw [List.range'_succ, List.map_cons]
      refine ⟨?_, ih (st + 1) (by omega)⟩
      cases k with
      | zero => simpa using h2 st (by omega)
      | succ k =>
        rw [h1 st (by omega), List.range'_succ]
        rfl
  rw [List.range_eq_range']
  exact key n 0 (by omega)

theorem follows_map (f : α → Option α) (F : β → Option β) (mk : α → β) (r : Option β) :
    ∀ l : List α, Follows f l none →
      (∀ a, a ∈ l → F (mk a) = (f a).elim r fun b => some (mk b)) → Follows F (l.map mk) r := by
  intro l
  induction l with
  | nil => intro _ _; trivial
  | cons x xs ih =>
    intro h hF
    obtain ⟨a, b⟩ := h
    rw [List.map_cons]
    refine ⟨?_, ih b fun y hy => hF y (List.mem_cons_of_mem _ hy)⟩
    rw [hF x (by simp), a]
    cases xs with
    | nil => rfl
    | cons y ys => rfl

/-- the numbers below `n` selected by `o` -/
def sel (o : Option Nat) (n : Nat) : List Nat := (List.range n).filter fun x => o.all (· == x)

theorem sel_none (n : Nat) : sel none n = List.range n := by simp [sel]

theorem filter_eq_range' (x st k : Nat) :
    (List.range' st k).filter (fun y => x == y) = if st ≤ x ∧ x < st + k then [x] else [] := by
  induction k generalizing st with
  | zero => rw [if_neg (by omega)]; rfl
  | succ k ih =>
    rw [List.range'_succ]
    by_cases h : x = st
    · subst h
      rw [List.filter_cons_of_pos (by simp), ih, if_neg (by omega), if_pos (by omega)]
    · rw [List.filter_cons_of_neg (by simpa using h), ih]
      by_cases h2 : st + 1 ≤ x ∧ x < st + 1 + k
      · rw [if_pos h2, if_pos (by omega)]
      · rw [if_neg h2, if_neg (by omega)]

theorem sel_some (x n : Nat) : sel (some x) n = if x < n then [x] else [] := by
  have := filter_eq_range' x 0 n
  rw [← List.range_eq_range'] at this
  simp only [sel, Option.all_some]
  rw [this]
  by_cases h : x < n
  · rw [if_pos (by omega), if_pos h]
  · rw [if_neg (by omega), if_neg h]

/-- the first selected number -/
theorem sel_head (o : Option Nat) (n : Nat) : (sel o n).head? = if o.getD 0 < n then some (o.getD 0) else none := by
  cases o with
  | none =>
    rw [sel_none]
    cases n with
    | zero => rfl
    | succ n => rw [List.range_succ_eq_map]; simp
  | some x =>
    rw [sel_some]
    simp only [Option.getD_some]
    split <;> rfl

/-! ### the lists on one element -/

section
variable (s : Slice) (vars : List Var)

/-- the wanted d.o.f.s of one component -/
def dofs (v : Var) (k i c : Nat) : List Addr := (sel s.dof (v.base k)).map fun j => ⟨k, i, c, j⟩

/-- the wanted d.o.f.s of variable `i` -/
def comps (k i : Nat) : List Addr :=
  match vars[i]? with
  | none => []
  | some v => (sel s.comp v.comps).flatMap fun c => dofs s v k i c

/-- the wanted d.o.f.s of kind `k` (whether or not the kind itself is wanted) -/
def kindList (k : Nat) : List Addr := (sel s.var vars.length).flatMap fun i => comps s vars k i

theorem zipIdx_flatMap (l : List α) (g : α → Nat → List β) (st : Nat) :
    (l.zipIdx st).flatMap (fun x => g x.1 x.2) =
      (List.range' st l.length).flatMap fun i => match l[i - st]? with | none => [] | some v => g v i := by
  induction l generalizing st with
  | nil => rfl
  | cons x xs ih =>
    rw [List.zipIdx_cons, List.flatMap_cons, ih, List.length_cons, List.range'_succ, List.flatMap_cons]
    congr 1
    · simp
    · apply List.flatMap_congr
      intro i hi
      rw [List.mem_range'_1] at hi
      rw [show i - st = (i - (st + 1)) + 1 by omega, List.getElem?_cons_succ]

theorem filter_flatMap' (p : β → Bool) (g : α → List β) (l : List α) :
    (l.flatMap g).filter p = l.flatMap fun a => (g a).filter p := by
  induction l with
  | nil => rfl
  | cons x xs ih => rw [List.flatMap_cons, List.filter_append, ih, List.flatMap_cons]

theorem flatMap_if (p : α → Bool) (g : α → List β) (l : List α) :
    (l.flatMap fun a => if p a = true then g a else []) = (l.filter p).flatMap g := by
  induction l with
  | nil => rfl
  | cons x xs ih =>
    rw [List.flatMap_cons, ih]
    by_cases h : p x = true
    · rw [if_pos h, List.filter_cons_of_pos h, List.flatMap_cons]
    · rw [if_neg h, List.filter_cons_of_neg h, List.nil_append]

theorem filter_wants_kind (k : Nat) :
    (addrsKind vars k).filter s.Wants = if s.mask.testBit k = true then kindList s vars k else [] := by
  have h1 : addrsKind vars k = (List.range vars.length).flatMap fun i =>
      match vars[i]? with | none => [] | some v => addrsVar v i k := by
    have := zipIdx_flatMap vars (fun v i => addrsVar v i k) 0
    rw [← List.range_eq_range'] at this
    unfold addrsKind
    rw [this]
    apply List.flatMap_congr
    intro i _
    simp only [Nat.sub_zero]
    cases vars[i]? <;> rfl
  rw [h1, filter_flatMap']
  by_cases hm : s.mask.testBit k = true
  · rw [if_pos hm]
    unfold kindList sel
    rw [← flatMap_if]
    apply List.flatMap_congr
    intro i _
    by_cases hv : (s.var.all fun x => x == i) = true
    · rw [if_pos hv]
      unfold comps
      cases vars[i]? with
      | none => rfl
      | some v =>
        simp only [addrsVar, sel, dofs]
        rw [filter_flatMap', ← flatMap_if]
        apply List.flatMap_congr
        intro c _
        by_cases hc : (s.comp.all fun x => x == c) = true
        · rw [if_pos hc, List.filter_map]
          congr 1
          apply List.filter_congr
          intro j _
          simp [Slice.Wants, hv, hc, hm, Function.comp]
        · rw [if_neg hc, List.filter_eq_nil_iff]
          intro a ha
          obtain ⟨j, _, rfl⟩ := List.mem_map.1 ha
          simp [Slice.Wants, hc]
    · rw [if_neg hv, List.filter_eq_nil_iff]
      intro a ha
      cases hvi : vars[i]? with
      | none => rw [hvi] at ha; cases ha
      | some v =>
        rw [hvi] at ha
        obtain ⟨_, rfl, _⟩ := (mem_addrsVar _ _ _ _).1 ha
        simp [Slice.Wants, hv]
  · rw [if_neg hm]
    rw [List.flatMap_eq_nil_iff]
    intro i _
    rw [List.filter_eq_nil_iff]
    intro a ha
    cases hvi : vars[i]? with
    | none => rw [hvi] at ha; cases ha
    | some v =>
      rw [hvi] at ha
      obtain ⟨rfl, _⟩ := (mem_addrsVar _ _ _ _).1 ha
      simp [Slice.Wants, hm]

theorem filter_wants (d : Nat) :
    (addrs vars d).filter s.Wants = ((kindsOf d).filter fun k => s.mask.testBit k).flatMap (kindList s vars) := by
  unfold addrs
  rw [filter_flatMap', ← flatMap_if]
  apply List.flatMap_congr
  intro k _
  exact filter_wants_kind s vars k

theorem sizes_eq (v : Var) (k : Nat) (h : 0 < v.numDof k) : sizes v k = (v.comps, v.base k) := by
  unfold sizes Var.comps
  cases hv : v.vec with
  | true =>
    have : 0 < v.dim := by
      unfold Var.numDof at h
      rw [hv] at h
      simp only [if_true] at h
      exact Nat.pos_of_mul_pos_right h
    simp [Var.numDof, hv, Nat.mul_div_cancel_left _ this]
  | false => simp [Var.numDof, hv]

theorem comps_head (k i : Nat) :
    (comps s vars k i).head? = if fits vars ⟨k, 0, s.comp.getD 0, s.dof.getD 0⟩ i = true then
      some ⟨k, i, s.comp.getD 0, s.dof.getD 0⟩ else none := by
  unfold comps fits
  cases vars[i]? with
  | none => rfl
  | some v =>
    simp only
    by_cases hn : v.numDof k > 0
    · rw [if_pos hn, sizes_eq v k hn]
      simp only [Bool.and_eq_true, decide_eq_true_eq]
      have hd : ∀ c, (dofs s v k i c).head? = if s.dof.getD 0 < v.base k then some ⟨k, i, c, s.dof.getD 0⟩ else none := by
        intro c
        unfold dofs
        rw [List.head?_map, sel_head]
        split <;> rfl
      have hs := sel_head s.comp v.comps
      by_cases hc : s.comp.getD 0 < v.comps
      · rw [if_pos hc] at hs
        cases hl : sel s.comp v.comps with
        | nil => rw [hl] at hs; cases hs
        | cons x xs =>
          rw [hl] at hs
          obtain rfl : x = _ := Option.some.inj hs
          rw [List.flatMap_cons, List.head?_append, hd]
          by_cases hb : s.dof.getD 0 < v.base k
          · rw [if_pos hb, if_pos ⟨hc, hb⟩]; rfl
          · rw [if_neg hb, if_neg (fun h => hb h.2)]
            simp only [Option.none_or]
            have : (xs.flatMap fun c => dofs s v k i c) = [] := by
              rw [List.flatMap_eq_nil_iff]
              intro c _
              have := hd c
              rw [if_neg hb] at this
              exact List.head?_eq_none_iff.1 this
            rw [this]; rfl
      · rw [if_neg hc] at hs
        rw [List.head?_eq_none_iff.1 hs, if_neg (fun h => hc h.1)]
        rfl
    · rw [if_neg hn, if_neg (by simp)]
      have h0 : v.comps * v.base k = 0 := by rw [← numDof_eq]; omega
      rw [List.head?_eq_none_iff, List.flatMap_eq_nil_iff]
      intro c hc
      have hc' : c < v.comps := List.mem_range.1 (List.mem_of_mem_filter hc)
      have hb : v.base k = 0 := by
        rcases Nat.mul_eq_zero.1 h0 with h | h
        · omega
        · exact h
      simp [dofs, hb, sel]

theorem fits_var (a : Addr) (i : Nat) : fits vars a i = fits vars ⟨a.num, 0, a.comp, a.dof⟩ i := rfl

/-- the first d.o.f. in a list of variables is the choice of `_choose_var` -/
theorem chooseVar_head (a : Addr) (hc : a.comp = s.comp.getD 0) (hd : a.dof = s.dof.getD 0) (st last : Nat) :
    chooseVar vars a st last = ((List.range' st (last - st)).flatMap fun i => comps s vars a.num i).head? := by
  unfold chooseVar
  generalize List.range' st (last - st) = l
  induction l with
  | nil => rfl
  | cons x xs ih =>
    rw [List.flatMap_cons, List.head?_append, ← ih, List.find?_cons, comps_head, ← hc, ← hd, ← fits_var]
    cases fits vars a x <;> simp

theorem sel_var (hvar : ∀ x, s.var = some x → x < vars.length) :
    List.range' (loVar s) (hiVar s vars - loVar s) = sel s.var vars.length := by
  unfold loVar hiVar
  cases h : s.var with
  | none => rw [sel_none, List.range_eq_range']; simp
  | some x => rw [sel_some, if_pos (hvar x h)]; simp

theorem choose_kind (hvar : ∀ x, s.var = some x → x < vars.length) (a : Addr) (hc : a.comp = s.comp.getD 0)
    (hd : a.dof = s.dof.getD 0) : chooseVar vars a (loVar s) (hiVar s vars) = (kindList s vars a.num).head? := by
  rw [chooseVar_head s vars a hc hd, sel_var s vars hvar]
  rfl

end

end Verif.GeomWalk
