import Verif.Props.SpaceAlg
import Verif.Props.Driver2
import Verif.Lemmas.Elemental

/-!
**C62**: the comparison of run-time spaces and operators, by which the integration drivers decide whether the trial and the test operator
are the same.
-/
namespace Verif.SpaceAlg

open Verif.Order Verif.SpaceOp

theorem eqLeaf_iff (a b : Space) : eqLeaf a b = true ↔ a = b := by
  cases a <;> cases b <;> decide

mutual
theorem eqS_of_alike : ∀ {F H : Fem}, Alike F H → eqS F H = true
  | _, _, .leaf s => by rw [eqS]; exact (eqLeaf_iff s s).2 rfl
  | _, _, .vec n m h => by rw [eqS]; exact eqS_of_alike h
  | _, _, .com h => by rw [eqS]; exact eqSs_of_alike h
  | _, _, .union h => by rw [eqS]; exact eqSs_of_alike h
theorem eqSs_of_alike : ∀ {l r : Fems}, AllAlike l r → eqSs l r = true
  | _, _, .nil => by rw [eqSs]
  | _, _, .cons h t => by rw [eqSs, eqS_of_alike h, eqSs_of_alike t]; rfl
end

mutual
theorem alike_of_eqS : ∀ (F H : Fem), eqS F H = true → Alike F H
  | .leaf a, .leaf b, h => by
    rw [eqS, eqLeaf_iff] at h
    subst h
    exact .leaf a
  | .vec n a, .vec m b, h => by
    rw [eqS] at h
    exact .vec n m (alike_of_eqS a b h)
  | .com l, .com r, h => by
    rw [eqS] at h
    exact .com (alike_of_eqSs l r h)
  | .union l, .union r, h => by
    rw [eqS] at h
    exact .union (alike_of_eqSs l r h)
  | .leaf _, .vec _ _, h => by simp [eqS] at h
  | .leaf _, .com _, h => by simp [eqS] at h
  | .leaf _, .union _, h => by simp [eqS] at h
  | .vec _ _, .leaf _, h => by simp [eqS] at h
  | .vec _ _, .com _, h => by simp [eqS] at h
  | .vec _ _, .union _, h => by simp [eqS] at h
  | .com _, .leaf _, h => by simp [eqS] at h
  | .com _, .vec _ _, h => by simp [eqS] at h
  | .com _, .union _, h => by simp [eqS] at h
  | .union _, .leaf _, h => by simp [eqS] at h
  | .union _, .vec _ _, h => by simp [eqS] at h
  | .union _, .com _, h => by simp [eqS] at h
theorem alike_of_eqSs : ∀ (l r : Fems), eqSs l r = true → AllAlike l r
  | .nil, .nil, _ => .nil
  | .cons a l, .cons b r, h => by
    rw [eqSs, Bool.and_eq_true] at h
    exact .cons (alike_of_eqS a b h.1) (alike_of_eqSs l r h.2)
  | .nil, .cons _ _, h => by simp [eqSs] at h
  | .cons _ _, .nil, h => by simp [eqSs] at h
end

/-- **C62**: two run-time spaces compare equal exactly when they are made in the same way of the same simple spaces, whatever the exponents
of the powers are. -/
theorem eqS_iff (F H : Fem) : eqS F H = true ↔ Alike F H := ⟨alike_of_eqS F H, eqS_of_alike⟩

mutual
theorem alike_refl : ∀ F : Fem, Alike F F
  | .leaf s => .leaf s
  | .vec n b => .vec n n (alike_refl b)
  | .com l => .com (allAlike_refl l)
  | .union l => .union (allAlike_refl l)
theorem allAlike_refl : ∀ l : Fems, AllAlike l l
  | .nil => .nil
  | .cons h t => .cons (alike_refl h) (allAlike_refl t)
end

mutual
theorem alike_symm : ∀ {F H : Fem}, Alike F H → Alike H F
  | _, _, .leaf s => .leaf s
  | _, _, .vec n m h => .vec m n (alike_symm h)
  | _, _, .com h => .com (allAlike_symm h)
  | _, _, .union h => .union (allAlike_symm h)
theorem allAlike_symm : ∀ {l r : Fems}, AllAlike l r → AllAlike r l
  | _, _, .nil => .nil
  | _, _, .cons h t => .cons (alike_symm h) (allAlike_symm t)
end

mutual
theorem alike_trans : ∀ {F H G : Fem}, Alike F H → Alike H G → Alike F G
  | _, _, _, .leaf s, h => h
  | _, _, _, .vec n m h, .vec _ k g => .vec n k (alike_trans h g)
  | _, _, _, .com h, .com g => .com (allAlike_trans h g)
  | _, _, _, .union h, .union g => .union (allAlike_trans h g)
theorem allAlike_trans : ∀ {l r s : Fems}, AllAlike l r → AllAlike r s → AllAlike l s
  | _, _, _, .nil, h => h
  | _, _, _, .cons h t, .cons g u => .cons (alike_trans h g) (allAlike_trans t u)
end

/-- **C62**: the comparison is an equivalence, so a space equals itself whether or not the pointers are compared first. -/
theorem eqS_equivalence : Equivalence fun F H => eqS F H = true :=
  ⟨fun F => (eqS_iff F F).2 (alike_refl F), fun h => (eqS_iff _ _).2 (alike_symm ((eqS_iff _ _).1 h)),
    fun h g => (eqS_iff _ _).2 (alike_trans ((eqS_iff _ _).1 h) ((eqS_iff _ _).1 g))⟩

mutual
theorem alike_exponents : ∀ {F H : Fem}, Alike F H → (exponents F).length = (exponents H).length
  | _, _, .leaf _ => rfl
  | _, _, .vec n m h => by rw [exponents, exponents, List.length_cons, List.length_cons, alike_exponents h]
  | _, _, .com h => by rw [exponents, exponents, allAlike_exponents h]
  | _, _, .union h => by rw [exponents, exponents, allAlike_exponents h]
theorem allAlike_exponents : ∀ {l r : Fems}, AllAlike l r → (exponentsAll l).length = (exponentsAll r).length
  | _, _, .nil => rfl
  | _, _, .cons h t => by
    rw [exponentsAll, exponentsAll, List.length_append, List.length_append, alike_exponents h, allAlike_exponents t]
end

mutual
theorem eq_of_alike : ∀ {F H : Fem}, Alike F H → exponents F = exponents H → F = H
  | _, _, .leaf _, _ => rfl
  | _, _, .vec n m h, e => by
    rw [exponents, exponents, List.cons.injEq] at e
    rw [e.1, eq_of_alike h e.2]
  | _, _, .com h, e => by
    rw [exponents, exponents] at e
    rw [eq_of_allAlike h e]
  | _, _, .union h, e => by
    rw [exponents, exponents] at e
    rw [eq_of_allAlike h e]
theorem eq_of_allAlike : ∀ {l r : Fems}, AllAlike l r → exponentsAll l = exponentsAll r → l = r
  | _, _, .nil, _ => rfl
  | _, _, .cons h t, e => by
    rw [exponentsAll, exponentsAll] at e
    obtain ⟨e1, e2⟩ := List.append_inj e (alike_exponents h)
    rw [eq_of_alike h e1, eq_of_allAlike t e2]
end

/-- **C62**: spaces that compare equal are equal, provided that their powers have the same exponents.  The full statement has no such
condition, see `eqS_wrong`. -/
theorem eqS_sound_partial {F H : Fem} (h : eqS F H = true) (e : exponents F = exponents H) : F = H := eq_of_alike ((eqS_iff F H).1 h) e

/-- **C62**: spaces without powers that compare equal are equal. -/
theorem eqS_sound_noPower_partial {F H : Fem} (h : eqS F H = true) (e : exponents F = []) : F = H :=
  eqS_sound_partial h (by
    have := alike_exponents ((eqS_iff F H).1 h)
    rw [e] at this ⊢
    exact (List.length_eq_zero_iff.1 this.symm).symm)

-- the Taylor-Hood space compares equal to itself; P2³ × P1 and P1³ × P2 differ; so do P2 and B2, of the same order
example : eqS (.com (.cons (.vec 3 (.leaf .p2)) (.cons (.leaf .p1) .nil))) (.com (.cons (.vec 3 (.leaf .p2)) (.cons (.leaf .p1) .nil))) = true ∧
    eqS (.com (.cons (.vec 3 (.leaf .p2)) (.cons (.leaf .p1) .nil))) (.com (.cons (.vec 3 (.leaf .p1)) (.cons (.leaf .p2) .nil))) = false ∧
    eqS (.leaf .p2) (.leaf .b2) = false := by
  refine ⟨?_, ?_, ?_⟩
  · exact eqS_equivalence.refl _
  · rw [eqS, eqSs, eqS, eqS]; rfl
  · rw [eqS]; rfl

/-- **C62** fails: powers of one space with different exponents compare equal. -/
theorem eqS_wrong (b : Fem) {n m : Nat} (h : n ≠ m) : eqS (.vec n b) (.vec m b) = true ∧ (Fem.vec n b ≠ .vec m b) ∧
    eqOp (.vec n b) .iden (.vec m b) .iden = true := by
  have := (eqS_iff _ _).2 (Alike.vec n m (alike_refl b))
  refine ⟨this, fun e => ?_, ?_⟩
  · cases e
    exact h rfl
  · rw [eqOp, this]; rfl

section
open Driver

/-- **C62**: the drivers of run-time operators, which compare the operators themselves, compute the integrals (C54) when the powers in the two
spaces have the same exponents. -/
theorem run_shared_partial {a : Arr ℝ} {q f : Nat} {T : Nat → Nat → Nat → ℝ} {x : Nat → Nat → Nat → ℝ} {vol w : Nat → ℝ} (P : Prepared a q f T x vol w)
    {opa opb : OpT} (hopa : ∀ c, opa = .dudx c → c < 3) (hopb : ∀ c, opb = .dudx c → c < 3)
    {F H : Fem} (hF : Wf F) (hH : Wf H) (sF : Sound F opa) (sH : Sound H opb) (hA : (rtOp Real.sqrt a.mem F opa).isSome)
    (hB : (rtOp Real.sqrt a.mem H opb).isSome) (he : exponents F = exponents H)
    {φ ψ : Nat → Nat → Order.Field} (hφ : ∀ r, r < f → ∀ i, i < nfa F → Nth (T r) F i (φ r i))
    (hψ : ∀ r, r < f → ∀ j, j < nfa H → Nth (T r) H j (ψ r j)) {α β : Nat → Nat → Nat → (Nat → ℝ) → ℝ}
    (hα : ∀ r, r < f → ∀ i, i < nfa F → AppliedTo opa F (φ r i) (α r i)) (hβ : ∀ r, r < f → ∀ j, j < nfa H → AppliedTo opb H (ψ r j) (β r j))
    (hn : 0 < nfa F) (base : Nat) (tr : Elemental.Traits) (htr : tr ≠ .perSelection) (fn : Elemental.UserD ℝ)
    (normal : Bool) {ν : Nat → Nat → ℝ} (hν : normal = true → ∀ r, r < f → ∀ c, c < 3 → a.nrm (3 * r + c) = ν r c)
    (hfit : FitsAt normal (opDim opb (dim H)) (opDim opa (dim F)) (nfa F) q f fn x)
    (hold : ∀ U nb, tr.Holds fn ⟨U, opDim opa (dim F), nb, q, f, nfa F, a.wg, a.mes, a.xyg⟩) (st : OpStack.St ℝ) (hempty : st.busy = 0)
    (D DU DIFF extraR E : Nat → ℝ) :
    ∃ E', runRt a normal opa opb F H (eqOp F opa H opb) base tr fn st D DU DIFF extraR E = some E' ∧
      ∀ r, r < f → ∀ i, i < nfa F → ∀ j, j < nfa H → E' (j + nfa H * (i + nfa F * r)) =
        ∑ n ∈ Finset.range q, w n * vol r * form (opDim opa (dim F)) (opDim opb (dim H))
          (actingAt normal (opDim opb (dim H)) (opDim opa (dim F)) fn ν r) (α r i) (β r j) (x r n) :=
  runRt_right_partial P hopa hopb hF hH sF sH hA hB _
    (fun h => by
      rw [eqOp, Bool.and_eq_true, decide_eq_true_eq] at h
      exact ⟨h.2, eqS_sound_partial h.1 he⟩)
    hφ hψ hα hβ hn base tr htr fn normal hν hfit hold st hempty D DU DIFF extraR E

end

section
open Elemental Dense

variable {K : Type} [CommRing K]

/-- With a test operator of more basis functions than the matrix has rows, numbers are written past the end of the matrix. -/
theorem mulV_outside {V : Band K} {q f dimB nfA nfB n : Nat} (ok : V.Ok q dimB n) (hp : 1 < V.nparts) (hf : 0 < f) (hA : 0 < nfA) (hB : 0 < nfB)
    (hn : nfB < n) (DU DIFF extraR : Nat → K) :
    ∃ p w, nfB * (nfA * f) ≤ p ∧ ∀ E, mulV V dimB nfA nfB q f DU DIFF extraR E p = w := by
  have hpos : 0 < nfA * f := Nat.mul_pos hA hf
  obtain ⟨d, hd, h1, h2⟩ := part_exists (st := V.stCol) (N := V.nparts) (i := n - 1) ok.col0 (by rw [ok.colN]; omega)
  have hj : nfB * (nfA * f) = nfB * (nfA * f - 1) + nfB := by
    obtain ⟨t, ht⟩ : ∃ t, nfA * f = t + 1 := ⟨nfA * f - 1, by omega⟩
    rw [ht, Nat.mul_succ, Nat.add_sub_cancel]
  unfold mulV
  have hne : ¬ V.nparts = 1 := by omega
  simp only [if_neg hne]
  generalize (loop 0 V.nparts (partStep V dimB nfA q f DU) { stDr := 0, stAr := 0, diff := DIFF, extra := extraR }).extra = s
  refine ⟨n - 1 + nfB * (nfA * f - 1), s (stAr V nfA f d + (n - 1 - V.stCol d + (V.stCol (d + 1) - V.stCol d) * (nfA * f - 1))), by omega, fun E => ?_⟩
  have hle : ∀ d', d' < V.nparts → V.stCol (d' + 1) ≤ n := fun d' hd' => ok.colN ▸ st_mono ok.colMono (show d' + 1 ≤ V.nparts from hd') (Nat.le_refl _)
  refine loop_at (fun _ => _) (Nat.zero_le (nfA * f - 1)) (by omega) (fun t => ?_) (fun j t _ h3 h4 => ?_)
  · refine loop_at (fun _ => _) (Nat.zero_le d) hd (fun t => ?_) (fun d' t _ h3 h4 => ?_)
    · refine loop_at (fun _ => _) h1 h2 (fun t => ?_) (fun i t _ h3 h4 => ?_)
      · exact wr_same _ _ _
      · exact wr_ne _ _ (by have := hle d hd; omega)
    · refine loop_off fun i t h5 h6 => wr_ne _ _ ?_
      have := hle d' h3
      intro e
      have hi : i = n - 1 := by omega
      subst hi
      rcases Nat.lt_or_gt_of_ne h4 with h7 | h7
      · have := st_mono ok.colMono (show d' + 1 ≤ d from h7) (Nat.le_of_lt hd)
        omega
      · have := st_mono ok.colMono (show d + 1 ≤ d' from h7) (Nat.le_of_lt h3)
        omega
  · refine loop_off fun d' t _ h5 => loop_off fun i t h6 h7 => wr_ne _ _ ?_
    have := hle d' h5
    have : nfB * j + nfB ≤ nfB * (nfA * f - 1) := by
      rw [← Nat.mul_succ]
      exact Nat.mul_le_mul_left _ (by omega)
    omega

end

/-- **C62** fails for the drivers: with a trial space `b ^ n` and a test space `b ^ m`, `m < n`, the operators compare equal, the test operator is
not computed, and the product with the trial operator in its place writes past the end of the elemental matrix. -/
theorem shared_wrong {M : Spaces.Mem ℝ} {T : Nat → Nat → Nat → ℝ} {x : Nat → Nat → Nat → ℝ} (G : Geo M T x) {b : Fem} (hb : Wf b) {op : OpT} (hl : Local op)
    (hop : ∀ c, op = .dudx c → c < 3) (hn : 0 < nfa b) {n m : Nat} (hm : 0 < m) (h : m < n) (st : OpStack.St ℝ) (u v ex es : Nat) :
    eqOp (.vec n b) op (.vec m b) op = true ∧ ∃ A B, rtOp Real.sqrt M (.vec n b) op = some A ∧ rtOp Real.sqrt M (.vec m b) op = some B ∧
      B.nfa = m * nfa b ∧ (A.exr ≤ es → (u + A.usz ≤ ex ∨ ex + es ≤ u) → ∃ st' refU refV,
        OpStack.applyTwo (eqOp (.vec n b) op (.vec m b) op) A B u v ex es st = some (st', refU, refV) ∧
        ∀ DU DIFF extraR : Nat → ℝ, ∃ p w, B.nfa * (A.nfa * M.f) ≤ p ∧
          ∀ E, Elemental.mulV (st'.band refV) A.dim A.nfa B.nfa M.q M.f DU DIFF extraR E p = w) := by
  have heq : eqOp (.vec n b) op (.vec m b) op = true := by
    rw [eqOp, (eqS_iff _ _).2 (Alike.vec n m (alike_refl b))]
    simp
  have wf : ∀ k, 0 < k → Wf (.vec k b) := fun k hk => by rw [Wf]; exact ⟨hk, hb⟩
  obtain ⟨B0, hB0⟩ := rtOp_defined M b op hb (Or.inl hl)
  obtain ⟨v0, c1, -, -, -⟩ := rtOp_right_partial G b op B0 hb hop (sound_of hl.1 b) hB0
  have vec : ∀ k, rtOp Real.sqrt M (.vec k b) op = some (OpStack.vec k B0) := by
    intro k
    have e := rtOp.eq_def Real.sqrt M (.vec k b) op
    cases op with
    | div => exact absurd rfl hl.1
    | curl => exact absurd rfl hl.2
    | _ => simp only at e; rw [e, hB0]; rfl
  obtain ⟨vA, a1, a2, a3, -⟩ := rtOp_right_partial G (.vec n b) op _ (wf n (by omega)) hop (sound_of hl.1 _) (vec n)
  obtain ⟨vB, b1, b2, b3, -⟩ := rtOp_right_partial G (.vec m b) op _ (wf m hm) hop (sound_of hl.1 _) (vec m)
  rw [nfa] at a3 b3
  refine ⟨heq, _, _, vec n, vec m, b3, fun hes hu => ?_⟩
  obtain ⟨st', ref, hap, g⟩ := a1 st u ex es hes hu
  refine ⟨st', ref, ref, ?_, fun DU DIFF extraR => ?_⟩
  · rw [heq, OpStack.applyTwo, hap]
    rfl
  · obtain ⟨st1, ref1, h1, g1⟩ := c1 st u ex es hes hu
    have hnp : ref.nparts = ref1.nparts * n := by
      have : (OpStack.vec n B0).apply u ex es st = (B0.apply u ex es st).map (OpStack.realloc n) := rfl
      rw [this, h1] at hap
      cases hap
      rfl
    have hnp2 : 1 < (st'.band ref).nparts := by
      show 1 < ref.nparts
      rw [hnp]
      have := g1.pos
      calc 1 < n := by omega
        _ = 1 * n := (Nat.one_mul n).symm
        _ ≤ _ := Nat.mul_le_mul_right _ this
    refine mulV_outside g.ok hnp2 G.f ?_ ?_ ?_ DU DIFF extraR
    · rw [a3]; exact Nat.mul_pos (by omega) hn
    · rw [b3]; exact Nat.mul_pos hm hn
    · rw [a3, b3]; exact Nat.mul_lt_mul_of_pos_right h hn

-- P1³ against P1²: 12 trial and 8 test functions
example : Wf (.leaf .p1) ∧ 0 < nfa (.leaf .p1) ∧ nfa (.vec 3 (.leaf .p1)) = 12 ∧ nfa (.vec 2 (.leaf .p1)) = 8 := by
  simp [Wf, nfa, leafNfa]

end Verif.SpaceAlg
