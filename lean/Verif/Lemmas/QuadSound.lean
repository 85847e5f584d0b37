import Mathlib.Tactic.Ring
import Mathlib.Tactic.FieldSimp
import Mathlib.Tactic.Linarith
import Mathlib.Tactic.NormNum
import Mathlib.Algebra.Order.Field.Basic
import Mathlib.Algebra.Order.AbsoluteValue.Basic
import Mathlib.Algebra.BigOperators.Group.List.Basic
import Verif.Lemmas.QuadEval

/-! The integer evaluation of `Lemmas/QuadEval` computes the tables and their moments. -/
namespace Verif.Quad
set_option linter.unusedSectionVars false

/-- Constants under a map. -/
def Consts.map {A B : Type} (g : A → B) (c : Consts A) : Consts B := ⟨g c.one, g c.half, g c.third, g c.quarter⟩

section
variable {A B : Type} [Add A] [Sub A] [Add B] [Sub B] (g : A → B) (hadd : ∀ a b, g (a + b) = g a + g b)
  (hsub : ∀ a b, g (a - b) = g a - g b) (c : Consts A)
include hadd hsub

theorem Seg.mem_map (o : Seg A) : (o.map g).mem (c.map g) = (o.mem c).map g := by
  cases o <;> simp [Seg.map, Seg.mem, Consts.map, hsub]

theorem Tri.mem_map (o : Tri A) : (o.map g).mem (c.map g) = (o.mem c).map g := by
  cases o <;> simp [Tri.map, Tri.mem, push2, Consts.map, hsub, hadd]

theorem push3_map (a b d : A) : (push3 c a b d).map g = push3 (c.map g) (g a) (g b) (g d) := by
  simp [push3, Consts.map, hsub]

theorem pushAll_map (l : List (A × A × A)) :
    (pushAll c l).map g = pushAll (c.map g) (l.map fun t => (g t.1, g t.2.1, g t.2.2)) := by
  simp only [pushAll, List.map_flatMap, List.flatMap_map, push3_map g hadd hsub]

theorem tw4_map (a b : A) : (tw4 c a b).map g = tw4 (c.map g) (g a) (g b) :=
  pushAll_map g hadd hsub c _
theorem tw6_map (a b : A) : (tw6 c a b).map g = tw6 (c.map g) (g a) (g b) :=
  pushAll_map g hadd hsub c _
theorem tw12_map (a b d : A) : (tw12 c a b d).map g = tw12 (c.map g) (g a) (g b) (g d) :=
  pushAll_map g hadd hsub c _
theorem tw24_map (a b d e : A) : (tw24 c a b d e).map g = tw24 (c.map g) (g a) (g b) (g d) (g e) :=
  pushAll_map g hadd hsub c _

theorem Tet.mem_map (o : Tet A) : (o.map g).mem (c.map g) = (o.mem c).map g := by
  cases o with
  | centre => rfl
  | stwist1 => rfl
  | twist4 a b => exact (tw4_map g hadd hsub c a b).symm
  | twist6 a b => exact (tw6_map g hadd hsub c a b).symm
  | twist12 a b d => exact (tw12_map g hadd hsub c a b d).symm
  | twist24 a b d e => exact (tw24_map g hadd hsub c a b d e).symm
  | stwist2 k =>
    refine Eq.trans ?_ (tw4_map g hadd hsub c (c.one - (k + k + k)) k).symm
    rw [hsub, hadd, hadd]; rfl
  | stwist3 k =>
    refine Eq.trans ?_ (tw6_map g hadd hsub c (c.half - k) k).symm
    rw [hsub]; rfl
  | stwist4 a b =>
    refine Eq.trans ?_ (tw12_map g hadd hsub c b a (c.one - b - (a + a))).symm
    rw [hsub, hsub, hadd]; rfl
  | stwist5 a b d =>
    refine Eq.trans ?_ (tw24_map g hadd hsub c a b d (c.one - a - b - d)).symm
    rw [hsub, hsub, hsub]; rfl
end

theorem Seg.map_congr {α β : Type} {f g : α → β} (o : Seg α) (h : ∀ l ∈ o.args, f l = g l) : o.map f = o.map g := by
  cases o <;> simp_all [Seg.map, Seg.args]
theorem Tri.map_congr {α β : Type} {f g : α → β} (o : Tri α) (h : ∀ l ∈ o.args, f l = g l) : o.map f = o.map g := by
  cases o <;> simp_all [Tri.map, Tri.args]
theorem Tet.map_congr {α β : Type} {f g : α → β} (o : Tet α) (h : ∀ l ∈ o.args, f l = g l) : o.map f = o.map g := by
  cases o <;> simp_all [Tet.map, Tet.args]

theorem Seg.map_map {α β γ : Type} (f : α → β) (g : β → γ) (o : Seg α) : (o.map f).map g = o.map (g ∘ f) := by
  cases o <;> rfl
theorem Tri.map_map {α β γ : Type} (f : α → β) (g : β → γ) (o : Tri α) : (o.map f).map g = o.map (g ∘ f) := by
  cases o <;> rfl
theorem Tet.map_map {α β γ : Type} (f : α → β) (g : β → γ) (o : Tet α) : (o.map f).map g = o.map (g ∘ f) := by
  cases o <;> rfl

/-- An integer number of units. -/
def unit (S : Nat) (z : Int) : ℚ := (z : ℚ) / S

theorem unit_add (S : Nat) (a b : Int) : unit S (a + b) = unit S a + unit S b := by simp [unit, add_div]
theorem unit_sub (S : Nat) (a b : Int) : unit S (a - b) = unit S a - unit S b := by simp [unit, sub_div]

theorem unit_scale {S : Nat} (hS : 1 ≤ S) {l : Lit} (h : l.fits S = true) : unit S (l.scale S) = l.val := by
  simp only [Lit.fits, Bool.and_eq_true, Nat.ble_eq] at h
  obtain ⟨k, hk⟩ := Nat.dvd_of_mod_eq_zero (Nat.eq_of_beq_eq_true h.2)
  have hd : (l.d : ℚ) ≠ 0 := by exact_mod_cast (by omega : l.d ≠ 0)
  have hk0 : k ≠ 0 := by rintro rfl; omega
  have hk' : (k : ℚ) ≠ 0 := by exact_mod_cast hk0
  unfold unit Lit.scale Lit.val
  rw [hk, Nat.mul_div_cancel_left k (by omega : 0 < l.d)]
  simp only [Int.ofNat_eq_natCast, Nat.cast_mul, Int.cast_mul, Int.cast_natCast]
  field_simp

theorem ratConsts_eq {S : Nat} (hS : 1 ≤ S) (h12 : S % 12 = 0) : ratConsts = (intConsts S).map (unit S) := by
  obtain ⟨k, rfl⟩ := Nat.dvd_of_mod_eq_zero h12
  have hk : (k : ℚ) ≠ 0 := by exact_mod_cast (by rintro rfl; omega : k ≠ 0)
  have h2 : 12 * k / 2 = 6 * k := by omega
  have h3 : 12 * k / 3 = 4 * k := by omega
  have h4 : 12 * k / 4 = 3 * k := by omega
  simp only [ratConsts, Consts.map, intConsts, unit, h2, h3, h4]
  push_cast
  congr 1 <;> field_simp <;> norm_num

theorem flatMap_map_eq {α A B : Type} (g : A → B) (f : α → List A) (f' : α → List B) (l : List α)
    (h : ∀ o ∈ l, f' o = (f o).map g) : l.flatMap f' = (l.flatMap f).map g := by
  rw [List.map_flatMap]
  exact List.flatMap_congr h

variable {S W : Nat}

theorem segMem_eq (hS : 1 ≤ S) (h12 : S % 12 = 0) {fs : List (Seg Lit)} (hl : (fs.flatMap Seg.args).all (Lit.fits S) = true) :
    segMem fs = (segInt S fs).map (unit S) := by
  refine flatMap_map_eq _ _ _ _ fun o ho => ?_
  rw [← Seg.mem_map _ (unit_add S) (unit_sub S), Seg.map_map, ← ratConsts_eq hS h12]
  congr 1
  refine Seg.map_congr _ fun l hl' => (unit_scale hS ?_).symm
  exact List.all_eq_true.1 hl l (List.mem_flatMap.2 ⟨o, ho, hl'⟩)

theorem triMem_eq (hS : 1 ≤ S) (h12 : S % 12 = 0) {fs : List (Tri Lit)} (hl : (fs.flatMap Tri.args).all (Lit.fits S) = true) :
    triMem fs = (triInt S fs).map (unit S) := by
  refine flatMap_map_eq _ _ _ _ fun o ho => ?_
  rw [← Tri.mem_map _ (unit_add S) (unit_sub S), Tri.map_map, ← ratConsts_eq hS h12]
  congr 1
  refine Tri.map_congr _ fun l hl' => (unit_scale hS ?_).symm
  exact List.all_eq_true.1 hl l (List.mem_flatMap.2 ⟨o, ho, hl'⟩)

theorem tetMem_eq (hS : 1 ≤ S) (h12 : S % 12 = 0) {fs : List (Tet Lit)} (hl : (fs.flatMap Tet.args).all (Lit.fits S) = true) :
    tetMem fs = (tetInt S fs).map (unit S) := by
  refine flatMap_map_eq _ _ _ _ fun o ho => ?_
  rw [← Tet.mem_map _ (unit_add S) (unit_sub S), Tet.map_map, ← ratConsts_eq hS h12]
  congr 1
  refine Tet.map_congr _ fun l hl' => (unit_scale hS ?_).symm
  exact List.all_eq_true.1 hl l (List.mem_flatMap.2 ⟨o, ho, hl'⟩)

theorem wMem_eq (hW : 1 ≤ W) {ws : List (Nat × Lit)} (hl : (ws.map Prod.snd).all (Lit.fits W) = true) :
    wMem ws = (wInt W ws).map (unit W) := by
  refine flatMap_map_eq _ _ _ _ fun o ho => ?_
  rw [List.map_replicate, unit_scale hW (List.all_eq_true.1 hl _ (List.mem_map_of_mem ho))]

/-- A row under maps of the weight and of the coordinates. -/
def Row.map2 {A B : Type} (f g : A → B) (r : Row A) : Row B := ⟨f r.w, g r.x, g r.y, g r.z⟩

theorem rows1_map {A B : Type} (f g : A → B) (z : A) (ws mem : List A) :
    rows1 (g z) (ws.map f) (mem.map g) = (rows1 z ws mem).map (Row.map2 f g) := by
  induction ws generalizing mem with
  | nil => rcases mem with _ | ⟨_, _ | ⟨_, _⟩⟩ <;> rfl
  | cons w ws ih =>
    rcases mem with _ | ⟨x, _ | ⟨y, r⟩⟩
    · rfl
    · rfl
    · simp only [List.map_cons, rows1, ih]; rfl

theorem rows2_map {A B : Type} (f g : A → B) (z : A) (ws mem : List A) :
    rows2 (g z) (ws.map f) (mem.map g) = (rows2 z ws mem).map (Row.map2 f g) := by
  induction ws generalizing mem with
  | nil => rcases mem with _ | ⟨_, _ | ⟨_, _ | ⟨_, _⟩⟩⟩ <;> rfl
  | cons w ws ih =>
    rcases mem with _ | ⟨x, _ | ⟨y, _ | ⟨u, r⟩⟩⟩
    · rfl
    · rfl
    · rfl
    · simp only [List.map_cons, rows2, ih]; rfl

theorem rows3_map {A B : Type} (f g : A → B) (ws mem : List A) :
    rows3 (ws.map f) (mem.map g) = (rows3 ws mem).map (Row.map2 f g) := by
  induction ws generalizing mem with
  | nil => rcases mem with _ | ⟨_, _ | ⟨_, _ | ⟨_, _ | ⟨_, _⟩⟩⟩⟩ <;> rfl
  | cons w ws ih =>
    rcases mem with _ | ⟨x, _ | ⟨y, _ | ⟨u, _ | ⟨v, r⟩⟩⟩⟩
    · rfl
    · rfl
    · rfl
    · rfl
    · simp only [List.map_cons, rows3, ih]; rfl

/-- The sum of a function over weighted points. -/
def total {K : Type} [Field K] (R : List (Row K)) (g : K → K → K → K) : K := (R.map fun r => r.w * g r.x r.y r.z).sum

theorem total_mom (hS : 1 ≤ S) (hW : 1 ≤ W) (R : List (Row Int))
    (h : ∀ r ∈ R, 0 ≤ r.w ∧ 0 ≤ r.x ∧ 0 ≤ r.y ∧ 0 ≤ r.z) (a b c : Nat) :
    total (R.map (Row.map2 (unit W) (unit S))) (fun x y z => x ^ a * y ^ b * z ^ c) =
      (mom (R.map Row.nat) a b c : ℚ) / (W * S ^ (a + b + c)) := by
  have hS' : (S : ℚ) ≠ 0 := by exact_mod_cast (by omega : S ≠ 0)
  have hW' : (W : ℚ) ≠ 0 := by exact_mod_cast (by omega : W ≠ 0)
  induction R with
  | nil => simp [total, mom]
  | cons r R ih =>
    have ih := ih fun q hq => h q (List.mem_cons_of_mem _ hq)
    obtain ⟨h1, h2, h3, h4⟩ := h r List.mem_cons_self
    have e : ∀ z : Int, 0 ≤ z → ((z.toNat : Nat) : ℚ) = (z : ℚ) := fun z hz => by
      have := Int.toNat_of_nonneg hz
      exact_mod_cast congrArg (Int.cast : Int → ℚ) this
    have hm : mom ((r :: R).map Row.nat) a b c =
        r.w.toNat * r.x.toNat ^ a * (r.y.toNat ^ b * r.z.toNat ^ c) + mom (R.map Row.nat) a b c := rfl
    have ht : total ((r :: R).map (Row.map2 (unit W) (unit S))) (fun x y z => x ^ a * y ^ b * z ^ c) =
        unit W r.w * (unit S r.x ^ a * unit S r.y ^ b * unit S r.z ^ c) +
          total (R.map (Row.map2 (unit W) (unit S))) (fun x y z => x ^ a * y ^ b * z ^ c) := rfl
    rw [hm, ht, ih]
    push_cast
    rw [e _ h1, e _ h2, e _ h3, e _ h4]
    unfold unit
    rw [div_pow, div_pow, div_pow, pow_add, pow_add]
    field_simp

theorem within_sound {dim : Nat} (hS : 1 ≤ S) (hW : 1 ≤ W) {P : List (Row Nat)} {a b c : Nat}
    (h : within dim S W P a b c = true) :
    |(mom P a b c : ℚ) / (W * S ^ (a + b + c)) -
      (dim.factorial * (a.factorial * b.factorial * c.factorial) : ℕ) / ((a + b + c + dim).factorial : ℕ)| ≤ 1 / 10 ^ 48 := by
  simp only [within, Bool.and_eq_true, Nat.ble_eq] at h
  obtain ⟨h1, h2⟩ := h
  have hS' : (0 : ℚ) < S := by exact_mod_cast hS
  have hW' : (0 : ℚ) < W := by exact_mod_cast hW
  set N := dim.factorial * (a.factorial * b.factorial * c.factorial)
  set M := mom P a b c
  have hD : (0 : ℚ) < ((a + b + c + dim).factorial : ℕ) := by exact_mod_cast Nat.factorial_pos _
  set D := (a + b + c + dim).factorial
  have hV : (0 : ℚ) < W * S ^ (a + b + c) := by positivity
  have h1' : (N : ℚ) * 10 ^ 48 * (W * S ^ (a + b + c)) ≤ ((M : ℚ) * 10 ^ 48 + W * S ^ (a + b + c)) * D := by exact_mod_cast h1
  have h2' : (M : ℚ) * 10 ^ 48 * D ≤ ((N : ℚ) * 10 ^ 48 + D) * (W * S ^ (a + b + c)) := by exact_mod_cast h2
  generalize (W : ℚ) * S ^ (a + b + c) = V at *
  have e : (M : ℚ) / V - N / D = (M * D - N * V) / (V * D) := by field_simp
  rw [e, abs_le]
  constructor
  · rw [← neg_div, div_le_div_iff₀ (by norm_num) (by positivity)]
    nlinarith
  · rw [div_le_div_iff₀ (by positivity) (by norm_num)]
    nlinarith

end Verif.Quad
