import Verif.Lemmas.CtOp
import Verif.Props.OpStack3

/-!
Operators of compile-time spaces: vectors, compositions and unions.
-/
namespace Verif.CtOp

open Verif.Dense Verif.Elemental
open Verif.OpStack (Vals vecVals joinVals prodVals unionVals divVals curlVals dudxVals LeafOk at4 at4_lt at4_inj setZero_at setZero_off
  single_ok single_val Appended val_congr ok_congr join_vec unionCopy_at unionCopy_off)

set_option linter.unusedSectionVars false

variable {K : Type} [CommRing K]

/-- C51: the operator of a simple type. -/
theorem fix_correct {q f dim nfa usz exr : Nat} {run : Nat → Nat → Nat → (Nat → K) → (Nat → K)} {v : Vals K}
    (h : LeafOk q f dim nfa usz exr run v) : Correct q f (fix q dim nfa usz exr run) v := by
  intro m u ex es hes hdis
  obtain ⟨h1, h2⟩ := h.2 u ex es m hes hdis
  exact ⟨_, _, rfl, Nat.le_refl _, good_dense h.1 h1 h2⟩

theorem fix_dense {q dim nfa usz exr : Nat} {run : Nat → Nat → Nat → (Nat → K) → (Nat → K)} :
    IsDense q (fix q dim nfa usz exr run) := by
  intro u ex es m m' mx e
  cases e
  rfl

/-- the copies hold the values of the vector -/
theorem rep_good {q f dim nfa u usz ex es : Nat} {v : Vals K} {m m' : Nat → K} {A : Bnd}
    (g : Good q f dim nfa u usz ex es v m m' A) (hp : 1 ≤ A.nparts) (d : Nat) :
    Good q f (d * dim) (d * nfa) u usz ex es (vecVals dim nfa v) m m' (rep dim nfa A d) where
  ok := rep_ok g.ok hp d
  val l hl n hn i hi r hr := by
    rw [Nat.mul_comm] at hl hi
    rw [rep_val g.ok hp d hl hi]
    unfold vecVals
    by_cases e : l / dim = i / nfa
    · rw [if_pos e, if_pos e]
      refine g.val _ (Nat.mod_lt _ (Nat.pos_of_ne_zero fun h => ?_)) n hn _ (Nat.mod_lt _ (Nat.pos_of_ne_zero fun h => ?_)) r hr
      · subst h
        omega
      · subst h
        omega
    · rw [if_neg e, if_neg e]
  inU j hj := by
    change j < d * A.nparts at hj
    have hmod := Nat.mod_lt j (show 0 < A.nparts by omega)
    have hin := g.inU _ hmod
    have rN := g.ok.rowN
    have cN := g.ok.colN
    change A.stRow A.nparts = dim at rN
    change A.stCol A.nparts = nfa at cN
    have r0 := g.ok.row0
    have c0 := g.ok.col0
    change A.stRow 0 = 0 at r0
    change A.stCol 0 = 0 at c0
    have key : ∀ (s : Nat → Nat) (x : Nat), s 0 = 0 → s A.nparts = x →
        (if j + 1 < d * A.nparts then x * ((j + 1) / A.nparts) + s ((j + 1) % A.nparts) else d * x) -
        (if j < d * A.nparts then x * (j / A.nparts) + s (j % A.nparts) else d * x) =
        s (j % A.nparts + 1) - s (j % A.nparts) := by
      intro s x s0 sN
      rw [if_pos hj]
      have hdm := Nat.div_add_mod j A.nparts
      generalize j / A.nparts = a at hdm ⊢
      generalize j % A.nparts = b at hdm hmod ⊢
      by_cases hb : b + 1 < A.nparts
      · have hj1 : j + 1 = A.nparts * a + (b + 1) := by omega
        have hlt : j + 1 < d * A.nparts := by
          by_contra hge
          have h1 : A.nparts * a + (b + 1) = d * A.nparts := by omega
          have : (A.nparts * a + (b + 1)) % A.nparts = (d * A.nparts) % A.nparts := by rw [h1]
          rw [Nat.mul_add_mod, Nat.mul_mod_left, Nat.mod_eq_of_lt hb] at this
          omega
        rw [if_pos hlt, hj1, Nat.mul_add_div (by omega), Nat.mul_add_mod, Nat.div_eq_of_lt hb, Nat.mod_eq_of_lt hb, Nat.add_zero,
          Nat.add_sub_add_left]
      · have hb' : b + 1 = A.nparts := by omega
        have hj1 : j + 1 = A.nparts * (a + 1) := by rw [Nat.mul_succ]; omega
        have hval : (if j + 1 < d * A.nparts then x * ((j + 1) / A.nparts) + s ((j + 1) % A.nparts) else d * x) = x * (a + 1) := by
          by_cases hlt : j + 1 < d * A.nparts
          · rw [if_pos hlt, hj1, Nat.mul_div_cancel_left _ (by omega), Nat.mul_mod_right, s0, Nat.add_zero]
          · rw [if_neg hlt]
            have h1 : A.nparts * (a + 1) = A.nparts * d := by rw [Nat.mul_comm A.nparts d]; omega
            rw [Nat.eq_of_mul_eq_mul_left (by omega) h1, Nat.mul_comm]
        rw [hval, hb', sN, Nat.mul_succ, Nat.add_sub_add_left]
    show u ≤ (A.data (j % A.nparts)).1 ∧ (A.data (j % A.nparts)).1 +
      q * ((if j + 1 < d * A.nparts then dim * ((j + 1) / A.nparts) + A.stRow ((j + 1) % A.nparts) else d * dim) -
        (if j < d * A.nparts then dim * (j / A.nparts) + A.stRow (j % A.nparts) else d * dim)) *
      (((if j + 1 < d * A.nparts then nfa * ((j + 1) / A.nparts) + A.stCol ((j + 1) % A.nparts) else d * nfa) -
        (if j < d * A.nparts then nfa * (j / A.nparts) + A.stCol (j % A.nparts) else d * nfa)) * f) ≤ u + usz
    rw [key A.stRow dim r0 rN, key A.stCol nfa c0 cN]
    exact hin
  re := g.re

/-- the starts of `convToBendMx` below the number of parts do not depend on the dimensions -/
theorem rep_conv (mx : Mx) (dim nfa dim' nfa' d : Nat) : rep dim nfa (conv mx dim' nfa') d = rep dim nfa (conv mx dim nfa) d := by
  cases mx with
  | band b => rfl
  | dense a =>
    unfold rep conv
    simp only [Nat.mod_one, if_true]

/-- C51: the operator of `d` copies of a type (`FemVecT`) has `d` equal diagonal blocks. -/
theorem vecT_correct {q f : Nat} {a : Op K} {v : Vals K} (h : Correct q f a v) {d : Nat} (hd : 1 ≤ d) :
    Correct q f (vecT d a) (vecVals a.dim a.nfa v) := by
  intro m u ex es hes hdis
  obtain ⟨m', mx, e, hp, g⟩ := h m u ex es hes hdis
  have e' : (vecT d a).apply u ex es m = some (m', .band (rep a.dim a.nfa (conv mx a.dim a.nfa) d)) := by
    rw [← rep_conv mx a.dim a.nfa (d * a.dim) (d * a.nfa) d]
    dsimp only [vecT]
    rw [e]
    rfl
  refine ⟨_, _, e', ?_, rep_good g hp d⟩
  exact Nat.mul_pos (by omega) (by omega)

/-- C51: the operator of `d` copies of a type whose operator is dense (`FemVec`). -/
theorem vec_correct {q f : Nat} {a : Op K} {v : Vals K} (h : Correct q f a v) (hden : IsDense q a) {d : Nat} (hd : 1 ≤ d) :
    Correct q f (vec d a) (vecVals a.dim a.nfa v) := by
  intro m u ex es hes hdis
  obtain ⟨m', mx, e, hp, g⟩ := h m u ex es hes hdis
  obtain rfl := hden _ _ _ _ _ _ e
  have e' : (vec d a).apply u ex es m = some (m', .band (rep a.dim a.nfa (conv (.dense (u, q * a.dim)) a.dim a.nfa) d)) := by
    dsimp only [vec]
    rw [e]
    unfold rep conv
    simp only [Nat.mod_one, Nat.div_one, Nat.mul_one, if_true, Nat.add_zero]
  refine ⟨_, _, e', ?_, rep_good g hp d⟩
  show 1 ≤ d * 1
  omega

/-- the part of a composition from one type on -/
theorem comLoop_good {q f ex es : Nat} (as : List (Op K × Vals K)) (hc : ∀ x ∈ as, Correct q f x.1 x.2 ∧ x.1.exr ≤ es)
    (u dOff nOff : Nat) (m : Nat → K) (hdis : u + ((as.map Prod.fst).map Op.usz).sum ≤ ex ∨ ex + es ≤ u) :
    ∃ m' B B0, comLoop ex es (as.map Prod.fst) u dOff nOff m = some (m', B) ∧
      (as ≠ [] → 1 ≤ B.nparts) ∧ B.nparts = B0.nparts ∧ B.data = B0.data ∧ (∀ p, B.stRow p = dOff + B0.stRow p) ∧
      (∀ p, B.stCol p = nOff + B0.stCol p) ∧
      Good q f ((as.map Prod.fst).map Op.dim).sum ((as.map Prod.fst).map Op.nfa).sum u ((as.map Prod.fst).map Op.usz).sum ex es
        (prodVals (as.map (fun x => (x.1.dim, x.1.nfa, x.2)))) m m' B0 := by
  induction as generalizing u dOff nOff m with
  | nil =>
    refine ⟨m, _, ⟨0, fun _ => (0, 0), fun _ => 0, fun _ => 0⟩, rfl, fun h => absurd rfl h, rfl, rfl, fun _ => rfl, fun _ => rfl, ?_⟩
    exact
      { ok := ⟨rfl, rfl, fun d hd => absurd hd (Nat.not_lt_zero _), rfl, rfl, fun d hd => absurd hd (Nat.not_lt_zero _),
          fun d hd => absurd hd (Nat.not_lt_zero _)⟩
        val := fun l hl => absurd hl (Nat.not_lt_zero _)
        inU := fun d hd => absurd hd (Nat.not_lt_zero _)
        re := fun _ _ _ => rfl }
  | cons x as ih =>
    simp only [List.map_cons, List.sum_cons] at hdis ⊢
    obtain ⟨hx, hxe⟩ := hc x List.mem_cons_self
    obtain ⟨m1, mx, e1, hp1, g1⟩ := hx m u ex es hxe (by omega)
    generalize hA : conv mx x.1.dim x.1.nfa = A at hp1 g1
    obtain ⟨m2, B, B0, e2, -, hnp, hdata, hrow, hcol, g2⟩ := ih (fun y hy => hc y (List.mem_cons_of_mem _ hy)) (u + x.1.usz)
      (dOff + x.1.dim) (nOff + x.1.nfa) m1 (by omega)
    obtain ⟨C0, hC0⟩ : ∃ C0 : Bnd, C0 = ⟨A.nparts + B0.nparts, fun p => if p < A.nparts then A.data p else B0.data (p - A.nparts),
        fun p => if p < A.nparts then A.stRow p else x.1.dim + B0.stRow (p - A.nparts),
        fun p => if p < A.nparts then A.stCol p else x.1.nfa + B0.stCol (p - A.nparts)⟩ := ⟨_, rfl⟩
    have r0 := g2.ok.row0
    have rN := g1.ok.rowN
    have c0 := g2.ok.col0
    have cN := g1.ok.colN
    change B0.stRow 0 = 0 at r0
    change A.stRow A.nparts = x.1.dim at rN
    change B0.stCol 0 = 0 at c0
    change A.stCol A.nparts = x.1.nfa at cN
    have apd : Appended (A.band m2) (B0.band m2) (C0.band m2) x.1.dim x.1.nfa := by
      subst hC0
      have kA : ∀ (s t : Nat → Nat) (y : Nat), s A.nparts = y → t 0 = 0 → ∀ d, d ≤ A.nparts →
          (if d < A.nparts then s d else y + t (d - A.nparts)) = s d := by
        intro s t y h1 h2 d hd
        by_cases h : d < A.nparts
        · rw [if_pos h]
        · obtain rfl : d = A.nparts := by omega
          rw [if_neg h, Nat.sub_self, h2, h1, Nat.add_zero]
      have kB : ∀ {α : Type} (s t : Nat → α) (d : Nat),
          (if A.nparts + d < A.nparts then s (A.nparts + d) else t (A.nparts + d - A.nparts)) = t d := by
        intro α s t d
        rw [if_neg (by omega), Nat.add_sub_cancel_left]
      exact
        { np := rfl
          rowA := kA _ _ _ rN r0
          colA := kA _ _ _ cN c0
          rowB := fun d _ => kB A.stRow (fun e => x.1.dim + B0.stRow e) d
          colB := fun d _ => kB A.stCol (fun e => x.1.nfa + B0.stCol e) d
          nRowA := fun d hd => congrArg Prod.snd (if_pos hd)
          nRowB := fun d _ => congrArg Prod.snd (kB A.data B0.data d)
          dataA := fun d hd => funext fun p => congrArg (fun z : Nat × Nat => m2 (z.1 + p)) (if_pos hd)
          dataB := fun d _ => funext fun p => congrArg (fun z : Nat × Nat => m2 (z.1 + p)) (kB A.data B0.data d) }
    have okA : (A.band m2).Ok q x.1.dim x.1.nfa := ok_congr g1.ok rfl (fun _ _ => rfl) (fun _ _ => rfl) (fun _ _ => rfl)
    have valA : ∀ {n r : Nat}, n < q → r < f → ∀ l i, (A.band m2).val q l n i r = (A.band m1).val q l n i r := by
      intro n r hn hr l i
      refine val_congr (A := A.band m1) (B := A.band m2) hn hr rfl (fun _ _ => rfl) (fun _ _ => rfl) (fun d hd p hp => ?_) l i
      show m2 ((A.data d).1 + p) = m1 ((A.data d).1 + p)
      have := g1.inU d hd
      change p < q * (A.stRow (d + 1) - A.stRow d) * ((A.stCol (d + 1) - A.stCol d) * f) at hp
      exact g2.re _ (by omega) (by omega)
    refine ⟨m2, ⟨A.nparts + B.nparts, fun p => if p < A.nparts then A.data p else B.data (p - A.nparts),
          fun p => if p < A.nparts then dOff + A.stRow p else B.stRow (p - A.nparts),
          fun p => if p < A.nparts then nOff + A.stCol p else B.stCol (p - A.nparts)⟩, C0, ?_, ?_, ?_, ?_, ?_, ?_, ?_⟩
    · dsimp only [comLoop]
      rw [e1]
      dsimp only
      rw [e2, hA]
    · intro _
      show 1 ≤ A.nparts + B.nparts
      omega
    · rw [hC0, hnp]
    · rw [hC0, hdata]
    · intro p
      rw [hC0]
      dsimp only
      by_cases h : p < A.nparts
      · rw [if_pos h, if_pos h]
      · rw [if_neg h, if_neg h, hrow, Nat.add_assoc]
    · intro p
      rw [hC0]
      dsimp only
      by_cases h : p < A.nparts
      · rw [if_pos h, if_pos h]
      · rw [if_neg h, if_neg h, hcol, Nat.add_assoc]
    · exact
        { ok := apd.ok okA g2.ok
          val := fun l hl n hn i hi r hr => by
            rw [apd.val okA, prodVals]
            unfold joinVals
            dsimp only
            by_cases h1 : l < x.1.dim ∧ i < x.1.nfa
            · rw [if_pos h1, if_pos h1, valA hn hr]
              exact g1.val l h1.1 n hn i h1.2 r hr
            · rw [if_neg h1, if_neg h1]
              by_cases h2 : x.1.dim ≤ l ∧ x.1.nfa ≤ i
              · rw [if_pos h2, if_pos h2]
                exact g2.val _ (by omega) n hn _ (by omega) r hr
              · rw [if_neg h2, if_neg h2]
          inU := fun d hd => by
            have hnC := apd.np
            change C0.nparts = A.nparts + B0.nparts at hnC
            by_cases h : d < A.nparts
            · have a1 := apd.rowA d (by exact Nat.le_of_lt h)
              have a2 := apd.rowA (d + 1) (by exact h)
              have a3 := apd.colA d (by exact Nat.le_of_lt h)
              have a4 := apd.colA (d + 1) (by exact h)
              change C0.stRow d = A.stRow d at a1
              change C0.stRow (d + 1) = A.stRow (d + 1) at a2
              change C0.stCol d = A.stCol d at a3
              change C0.stCol (d + 1) = A.stCol (d + 1) at a4
              have a5 : C0.data d = A.data d := by
                rw [hC0]
                exact if_pos h
              rw [a1, a2, a3, a4, a5]
              have := g1.inU d h
              omega
            · obtain ⟨j, rfl⟩ : ∃ j, d = A.nparts + j := ⟨d - A.nparts, by omega⟩
              have a1 := apd.rowB j (by show j ≤ B0.nparts; omega)
              have a2 := apd.rowB (j + 1) (by show j + 1 ≤ B0.nparts; omega)
              have a3 := apd.colB j (by show j ≤ B0.nparts; omega)
              have a4 := apd.colB (j + 1) (by show j + 1 ≤ B0.nparts; omega)
              change C0.stRow (A.nparts + j) = x.1.dim + B0.stRow j at a1
              change C0.stRow (A.nparts + (j + 1)) = x.1.dim + B0.stRow (j + 1) at a2
              change C0.stCol (A.nparts + j) = x.1.nfa + B0.stCol j at a3
              change C0.stCol (A.nparts + (j + 1)) = x.1.nfa + B0.stCol (j + 1) at a4
              have a5 : C0.data (A.nparts + j) = B0.data j := by
                rw [hC0]
                dsimp only
                rw [if_neg h, Nat.add_sub_cancel_left]
              rw [Nat.add_assoc, a1, a2, a3, a4, a5, Nat.add_sub_add_left, Nat.add_sub_add_left]
              have := g2.inU j (by omega)
              omega
          re := fun p h1 h2 => (g2.re p (by omega) h2).trans (g1.re p (by omega) h2) }

theorem foldl_max_le {as : List (Op K)} {m es : Nat} (h : as.foldl (fun m b => max m b.exr) m ≤ es) :
    m ≤ es ∧ ∀ b ∈ as, b.exr ≤ es := by
  induction as generalizing m with
  | nil => exact ⟨h, fun b hb => absurd hb List.not_mem_nil⟩
  | cons a as ih =>
    obtain ⟨h1, h2⟩ := ih h
    refine ⟨Nat.le_trans (Nat.le_max_left _ _) h1, fun b hb => ?_⟩
    rcases List.mem_cons.mp hb with rfl | hb
    · exact Nat.le_trans (Nat.le_max_right _ _) h1
    · exact h2 b hb

/-- C51: the operator of a composition of types (`FemCom`) is block diagonal with the operators of the types. -/
theorem com_correct {q f : Nat} (as : List (Op K × Vals K)) (hne : as ≠ []) (hc : ∀ x ∈ as, Correct q f x.1 x.2) :
    Correct q f (com (as.map Prod.fst)) (prodVals (as.map (fun x => (x.1.dim, x.1.nfa, x.2)))) := by
  intro m u ex es hes hdis
  obtain ⟨-, h2⟩ := foldl_max_le (show (as.map Prod.fst).foldl (fun m b => max m b.exr) 0 ≤ es from hes)
  obtain ⟨m', B, B0, e, hp, hnp, hd, hr, hcl, g⟩ := comLoop_good as (fun x hx => ⟨hc x hx, h2 _ (List.mem_map_of_mem hx)⟩) u 0 0 m hdis
  have hB : B = B0 := by
    cases B with
    | mk np d r c =>
      cases B0 with
      | mk np' d' r' c' =>
        dsimp only at hnp hd hr hcl
        subst hnp hd
        obtain rfl : r = r' := funext fun p => by rw [hr p, Nat.zero_add]
        obtain rfl : c = c' := funext fun p => by rw [hcl p, Nat.zero_add]
        rfl
  subst hB
  refine ⟨m', .band B, ?_, hp hne, g⟩
  show (comLoop ex es (as.map Prod.fst) u 0 0 m).map _ = _
  rw [e]
  rfl

/-- the copy is the one of the run-time spaces -/
theorem unionCopy_eq (q f gdim nfa u sh : Nat) (B : Bnd) (m0 m : Nat → K) :
    unionCopy q f gdim nfa u sh B m = OpStack.unionCopy q f gdim nfa u sh ⟨m0, B.data, B.stRow, B.stCol, 0⟩ ⟨B.nparts, 0, 0⟩ m := by
  unfold unionCopy OpStack.unionCopy
  simp only [Nat.zero_add]

theorem band_eq (B : Bnd) (m : Nat → K) : (OpStack.St.mk m B.data B.stRow B.stCol 0).band ⟨B.nparts, 0, 0⟩ = B.band m := by
  unfold OpStack.St.band Bnd.band
  simp only [Nat.zero_add]

theorem unionLoop_good {q f gdim nfa u ex es : Nat} (hdis : u + q * gdim * (nfa * f) ≤ ex ∨ ex + es ≤ u)
    (as : List (Op K × Vals K)) (hc : ∀ x ∈ as, Correct q f x.1 x.2 ∧ x.1.dim = gdim ∧ x.1.exr + x.1.usz ≤ es) (sh : Nat)
    (hnfa : sh + ((as.map Prod.fst).map Op.nfa).sum = nfa) (m : Nat → K)
    (hz : ∀ l n c r, l < gdim → n < q → sh ≤ c → c < nfa → r < f → m (at4 q gdim nfa u l n c r) = 0) :
    ∃ m', unionLoop q f gdim nfa u ex es (as.map Prod.fst) sh m = some m' ∧
      (∀ l n c r, l < gdim → n < q → sh ≤ c → c < nfa → r < f → m' (at4 q gdim nfa u l n c r) =
        unionVals (as.map (fun x => (x.1.nfa, x.2))) l n (c - sh) r) ∧
      (∀ l n c r, l < gdim → n < q → c < sh → r < f → m' (at4 q gdim nfa u l n c r) = m (at4 q gdim nfa u l n c r)) ∧
      (∀ p, (p < u ∨ u + q * gdim * (nfa * f) ≤ p) → (p < ex ∨ ex + es ≤ p) → m' p = m p) := by
  induction as generalizing sh m with
  | nil => exact ⟨m, rfl, fun l n c r hl hn h1 h2 hr => hz l n c r hl hn h1 h2 hr, fun _ _ _ _ _ _ _ _ => rfl, fun _ _ _ => rfl⟩
  | cons x as ih =>
    simp only [List.map_cons, List.sum_cons] at hnfa ⊢
    obtain ⟨hcor, hdim, hesx⟩ := hc x List.mem_cons_self
    obtain ⟨m1, mx, happ, hp, g⟩ := hcor m (ex + (es - x.1.usz)) ex (es - x.1.usz) (by omega) (by omega)
    generalize hA : conv mx x.1.dim x.1.nfa = A at hp g
    have hsub : sh + x.1.nfa ≤ nfa := by omega
    have gok : ((OpStack.St.mk m1 A.data A.stRow A.stCol 0).band ⟨A.nparts, 0, 0⟩).Ok q gdim x.1.nfa := by
      rw [band_eq, ← hdim]
      exact g.ok
    have hap : OpStack.Apart q f (OpStack.St.mk m1 A.data A.stRow A.stCol 0) ⟨A.nparts, 0, 0⟩ u (q * gdim * (nfa * f)) := by
      intro d hd o ho
      dsimp only at hd ho ⊢
      simp only [Nat.zero_add] at ho ⊢
      have := g.inU d hd
      omega
    have hz1 : ∀ l n c r, l < gdim → n < q → c < nfa → r < f → m1 (at4 q gdim nfa u l n c r) = m (at4 q gdim nfa u l n c r) := by
      intro l n c r hl hn h2 hr
      have := at4_lt (u := u) hl hn h2 hr
      exact g.re _ (by omega) (by omega)
    have hoff : ∀ y, (∀ l n c r, l < gdim → n < q → sh ≤ c → c < sh + x.1.nfa → r < f → y ≠ at4 q gdim nfa u l n c r) →
        unionCopy q f gdim nfa u sh A m1 y = m1 y := by
      intro y hy
      rw [unionCopy_eq q f gdim nfa u sh A m1]
      exact unionCopy_off gok hsub hap hy
    have hat : ∀ l n i r, l < gdim → n < q → i < x.1.nfa → r < f → m1 (at4 q gdim nfa u l n (sh + i) r) = 0 →
        unionCopy q f gdim nfa u sh A m1 (at4 q gdim nfa u l n (sh + i) r) = x.2 l n i r := by
      intro l n i r hl hn hi hr h0
      rw [unionCopy_eq q f gdim nfa u sh A m1]
      refine (unionCopy_at gok hsub hap hl hn hi hr h0).trans ?_
      rw [band_eq]
      exact g.val l (by omega) n hn i hi r hr
    obtain ⟨m', e0, e1, e2, e3⟩ := ih (fun y hy => hc y (List.mem_cons_of_mem _ hy)) (sh + x.1.nfa)
      (by omega) (unionCopy q f gdim nfa u sh A m1)
      (by
        intro l n c r hl hn h1 h2 hr
        refine (hoff _ (fun l' n' c' r' hl' hn' a1 a2 hr' e => ?_)).trans
          ((hz1 l n c r hl hn h2 hr).trans (hz l n c r hl hn (by omega) h2 hr))
        have := (at4_inj hl hl' hn hn' h2 (by omega) e).2.2.1
        omega)
    refine ⟨m', ?_, ?_, ?_, ?_⟩
    · unfold unionLoop
      rw [if_neg (by omega), happ]
      dsimp only
      rw [hA]
      exact e0
    · intro l n c r hl hn h1 h2 hr
      rw [unionVals]
      dsimp only
      by_cases hlt : c - sh < x.1.nfa
      · rw [if_pos hlt, e2 l n c r hl hn (by omega) hr]
        obtain ⟨i, rfl⟩ := Nat.exists_eq_add_of_le h1
        rw [Nat.add_sub_cancel_left] at hlt ⊢
        exact hat l n i r hl hn hlt hr ((hz1 l n _ r hl hn h2 hr).trans (hz l n _ r hl hn h1 h2 hr))
      · rw [if_neg hlt, e1 l n c r hl hn (by omega) h2 hr, Nat.sub_sub]
    · intro l n c r hl hn h1 hr
      rw [e2 l n c r hl hn (by omega) hr]
      refine (hoff _ (fun l' n' c' r' hl' hn' a1 a2 hr' e => ?_)).trans (hz1 l n c r hl hn (by omega) hr)
      have := (at4_inj hl hl' hn hn' (by omega) (by omega) e).2.2.1
      omega
    · intro p h1 h2
      rw [e3 p h1 h2]
      refine (hoff _ (fun l' n' c' r' hl' hn' a1 a2 hr' e => ?_)).trans (g.re p (by omega) (by omega))
      have := at4_lt (u := u) hl' hn' (show c' < nfa by omega) hr'
      omega

/-- C51: the operator of a union of several types of functions of the same dimension (`FemUnionT`) has the basis functions one
after another. -/
theorem union_correct {q f gdim : Nat} (a b : Op K × Vals K) (as : List (Op K × Vals K))
    (hc : ∀ x ∈ a :: b :: as, Correct q f x.1 x.2 ∧ x.1.dim = gdim) :
    Correct q f (union q f ((a :: b :: as).map Prod.fst)) (unionVals ((a :: b :: as).map (fun x => (x.1.nfa, x.2)))) := by
  intro m u ex es hes hdis
  have ha : a.1.dim = gdim := (hc a List.mem_cons_self).2
  obtain ⟨-, h2⟩ : 0 ≤ es ∧ ∀ x ∈ a :: b :: as, x.1.exr + x.1.usz ≤ es := by
    have key : ∀ (cs : List (Op K)) (k : Nat), cs.foldl (fun m b => max m (b.exr + b.usz)) k ≤ es →
        k ≤ es ∧ ∀ c ∈ cs, c.exr + c.usz ≤ es := by
      intro cs
      induction cs with
      | nil => exact fun k h => ⟨h, fun c hc => absurd hc List.not_mem_nil⟩
      | cons c cs ih =>
        intro k h
        obtain ⟨h1, h2⟩ := ih _ h
        refine ⟨Nat.le_trans (Nat.le_max_left _ _) h1, fun y hy => ?_⟩
        rcases List.mem_cons.mp hy with rfl | hy
        · exact Nat.le_trans (Nat.le_max_right _ _) h1
        · exact h2 y hy
    have := key _ 0 hes
    exact ⟨this.1, fun x hx => this.2 _ (List.mem_map_of_mem hx)⟩
  obtain ⟨N, hN⟩ : ∃ N, N = (((a :: b :: as).map Prod.fst).map Op.nfa).sum := ⟨_, rfl⟩
  have husz : (union q f ((a :: b :: as).map Prod.fst)).usz = gdim * q * f * N := by
    rw [← ha, hN]
    rfl
  rw [husz] at hdis ⊢
  have hsz : q * gdim * (N * f) = gdim * q * f * N := by ring
  have hsz' : q * gdim * (f * N) = gdim * q * f * N := by ring
  obtain ⟨m', e0, e1, -, e3⟩ := unionLoop_good (u := u) (ex := ex) (es := es) (gdim := gdim) (nfa := N) (q := q) (f := f)
    (by rw [hsz]; exact hdis) (a :: b :: as) (fun x hx => ⟨(hc x hx).1, (hc x hx).2, h2 x hx⟩) 0 (by rw [Nat.zero_add, hN])
    (OpStack.setZero u (q * gdim * (f * N)) m)
    (by
      intro l n c r hl hn _ h2 hr
      have := at4_lt (u := u) hl hn h2 hr
      exact setZero_at (by omega) (by rw [hsz', ← hsz]; omega) _)
  have hall : ((b :: as).map Prod.fst).all (fun c => c.dim == a.1.dim) = true := by
    rw [List.all_eq_true]
    intro c hc'
    obtain ⟨x, hx, rfl⟩ := List.mem_map.mp hc'
    rw [(hc x (List.mem_cons_of_mem _ hx)).2, ha]
    exact beq_self_eq_true _
  have eapp : (union q f ((a :: b :: as).map Prod.fst)).apply u ex es m = some (m', .dense (u, q * gdim)) := by
    have step : (union q f ((a :: b :: as).map Prod.fst)).apply u ex es m =
      if ((b :: as).map Prod.fst).all (fun c => c.dim == a.1.dim) then
        (unionLoop q f a.1.dim (((a :: b :: as).map Prod.fst).map Op.nfa).sum u ex es ((a :: b :: as).map Prod.fst) 0
          (OpStack.setZero u (q * a.1.dim * (f * (((a :: b :: as).map Prod.fst).map Op.nfa).sum)) m)).map
          fun m' => (m', Mx.dense (u, q * a.1.dim))
      else none := rfl
    rw [step, if_pos hall, ha, ← hN, e0]
    rfl
  have hdim : (union q f ((a :: b :: as).map Prod.fst)).dim = gdim := ha
  have hnf : (union q f ((a :: b :: as).map Prod.fst)).nfa = N := hN.symm
  rw [hdim, hnf]
  refine ⟨m', _, eapp, Nat.le_refl _, good_dense (Nat.le_of_eq hsz) ?_ ?_⟩
  · intro l hl n hn i hi r hr
    exact e1 l n i r hl hn (Nat.zero_le _) hi hr
  · intro p h1 h2
    rw [e3 p (by rw [hsz]; exact h1) h2]
    exact setZero_off (by rw [hsz']; exact h1) _

theorem union_dense {q f : Nat} {as : List (Op K)} (has : 2 ≤ as.length) : IsDense q (union q f as) := by
  intro u ex es m m' mx e
  match as, has with
  | a :: b :: rest, _ =>
    dsimp only [union] at e
    split at e
    · rw [Option.map_eq_some_iff] at e
      obtain ⟨_, -, e⟩ := e
      cases e
      rfl
    · exact absurd e (by simp)

/-- C51: a union of one type is that type. -/
theorem union_one_correct {q f : Nat} {a : Op K} {v : Vals K} (h : Correct q f a v) (hd : IsDense q a)
    (hsz : a.usz = a.dim * q * f * a.nfa) : Correct q f (union q f [a]) (unionVals [(a.nfa, v)]) := by
  intro m u ex es hes hdis
  have husz : (union q f [a]).usz = a.usz := hsz.symm
  rw [husz] at hdis ⊢
  have hes' : a.exr + a.usz ≤ es := Nat.le_trans (Nat.le_max_right 0 _) hes
  obtain ⟨m', mx, e, hp, g⟩ := h m u ex es (by omega) hdis
  obtain rfl := hd _ _ _ _ _ _ e
  have e' : (union q f [a]).apply u ex es m = some (m', .dense (u, q * a.dim)) := by
    dsimp only [union]
    rw [e]
  refine ⟨m', _, e', hp, ?_⟩
  have hval : ∀ l, l < a.dim → ∀ n, n < q → ∀ i, i < a.nfa → ∀ r, r < f → unionVals [(a.nfa, v)] l n i r = v l n i r :=
    fun l _ n _ i hi r _ => by
      unfold unionVals
      exact if_pos hi
  exact ⟨g.ok, fun l hl n hn i hi r hr => (g.val l hl n hn i hi r hr).trans (hval l hl n hn i hi r hr).symm, g.inU, g.re⟩

end Verif.CtOp
