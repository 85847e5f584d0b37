import Verif.Props.Driver2
import Verif.Props.DriverQuad

/-!
**C54**: the outputs of the library as sums and as integrals of the bilinear form.
-/
namespace Verif.Driver

open Verif.Dense Verif.Spaces Verif.Order Verif.SpaceOp

/-- The numbers `E` are an output of the library from the arrays `a`: of the driver with compile-time operators, or with run-time operators from an
empty stack, whatever the memory held. -/
inductive Output (a : Arr ℝ) (normal : Bool) (opa opb : OpT) (F H : Fem) (tr : Elemental.Traits) (fn : Elemental.UserD ℝ) (E' : Nat → ℝ) : Prop
  | ct (same : Bool) (base : Nat) (mem D DU DIFF extraR E : Nat → ℝ) (hF : SpaceOp.Proper F) (hH : SpaceOp.Proper H)
      (hsame : same = true → opa = opb ∧ F = H) (h : runCt a normal opa opb F H same base tr fn mem D DU DIFF extraR E = some E') :
      Output a normal opa opb F H tr fn E'
  | rt (same : Bool) (base : Nat) (st : OpStack.St ℝ) (D DU DIFF extraR E : Nat → ℝ) (hF : SpaceOp.Sound F opa) (hH : SpaceOp.Sound H opb)
      (hempty : st.busy = 0) (hsame : same = true → opa = opb ∧ F = H)
      (h : runRt a normal opa opb F H same base tr fn st D DU DIFF extraR E = some E') : Output a normal opa opb F H tr fn E'

section
variable {a : Arr ℝ} {q f : Nat} {T x : Nat → Nat → Nat → ℝ} {vol w : Nat → ℝ} {opa opb : OpT} {F H : Fem} {φ ψ : Nat → Nat → Field}
  {α β : Nat → Nat → Nat → (Nat → ℝ) → ℝ} {tr : Elemental.Traits} {fn : Elemental.UserD ℝ} {normal : Bool} {E' : Nat → ℝ}

/-- **C54**: every output is made of the quadrature sums. -/
theorem output_right (S : Setting f T opa opb F H φ ψ α β) (P : Prepared a q f T x vol w)
    (D : Tensor normal (opDim opb (dim H)) (opDim opa (dim F)) (nfa F) f tr fn) {ν : Nat → Nat → ℝ}
    (hν : normal = true → ∀ r, r < f → ∀ c, c < 3 → a.nrm (3 * r + c) = ν r c) (O : Output a normal opa opb F H tr fn E') :
    ∀ r, r < f → ∀ i, i < nfa F → ∀ j, j < nfa H → E' (j + nfa H * (i + nfa F * r)) =
      ∑ n ∈ Finset.range q, w n * vol r * form (opDim opa (dim F)) (opDim opb (dim H))
        (actingAt normal (opDim opb (dim H)) (opDim opa (dim F)) fn ν r) (α r i) (β r j) (x r n) := by
  cases O with
  | ct same base mem D' DU DIFF extraR E hF hH hsame h =>
    have hA : (ctOp Real.sqrt a.mem opa F).isSome := by
      by_contra hc
      rw [Bool.not_eq_true, Option.isSome_eq_false_iff, Option.isNone_iff_eq_none] at hc
      simp [runCt, hc] at h
    have hB : (ctOp Real.sqrt a.mem opb H).isSome := by
      by_contra hc
      rw [Bool.not_eq_true, Option.isSome_eq_false_iff, Option.isNone_iff_eq_none] at hc
      simp [runCt, hc] at h
    obtain ⟨E2, h1, h2⟩ := runCt_right P S.coordA S.coordB hF hH hA hB same hsame S.basisA S.basisB S.entryA S.entryB S.some base tr D.traits fn
      normal hν (fun r hr n _ => D.fits r hr _) (fun _ _ => D.promise _) mem D' DU DIFF extraR E
    rw [h1, Option.some.injEq] at h
    exact h ▸ h2
  | rt same base st D' DU DIFF extraR E hF hH hempty hsame h =>
    have hA : (rtOp Real.sqrt a.mem F opa).isSome := by
      by_contra hc
      rw [Bool.not_eq_true, Option.isSome_eq_false_iff, Option.isNone_iff_eq_none] at hc
      simp [runRt, hc] at h
    have hB : (rtOp Real.sqrt a.mem H opb).isSome := by
      by_contra hc
      rw [Bool.not_eq_true, Option.isSome_eq_false_iff, Option.isNone_iff_eq_none] at hc
      simp [runRt, hc] at h
    obtain ⟨E2, h1, h2⟩ := runRt_right_partial P S.coordA S.coordB S.spaceA S.spaceB hF hH hA hB same hsame S.basisA S.basisB S.entryA S.entryB
      S.some base tr D.traits fn normal hν (fun r hr n _ => D.fits r hr _) (fun _ _ => D.promise _) st hempty D' DU DIFF extraR E
    rw [h1, Option.some.injEq] at h
    exact h ▸ h2

/-! ### The degree of the form -/

mutual
/-- the numbered functions are among the functions of C52 -/
theorem nth_poly {T : Nat → Nat → ℝ} (hv : Nondeg T) : ∀ (F : Fem), Wf F → ∀ i, i < nfa F → ∀ φ, Nth T F i φ → ∀ k, k < dim F →
    PolyLE (rtIden F) fun x => φ x k
  | .leaf s, _, i, hi, φ, hφ, k, hk => by
    rw [dim] at hk
    rw [rtIden]
    rw [nfa] at hi
    rw [Nth] at hφ
    refine leaf_upper hv s ?_ hk
    cases s <;> exact ⟨i, hi, hφ⟩
  | .vec n b, hw, i, hi, φ, hφ, k, hk => by
    rw [Wf] at hw
    rw [Nth] at hφ
    obtain ⟨j, ψ, hj, hψ, c, hc, -, e⟩ := hφ
    rw [dim] at hk
    rw [rtIden]
    have hd : 0 < dim b := by
      rcases Nat.eq_zero_or_pos (dim b) with h | h
      · rw [h, Nat.mul_zero] at hk; omega
      · exact h
    by_cases hkj : k / dim b = c
    · exact (nth_poly hv b hw.2 j hj ψ hψ (k % dim b) (Nat.mod_lt _ hd)).congr fun x => by rw [e x k hk, if_pos hkj]
    · exact (PolyLE.const _ 0).congr fun x => by rw [e x k hk, if_neg hkj]
  | .com .nil, hw, i, hi, φ, hφ, k, hk => by rw [Wf] at hw; exact hw.elim
  | .com (.cons h t), hw, i, hi, φ, hφ, k, hk => by
    rw [Wf] at hw
    rw [Nth] at hφ
    rw [rtIden]
    rw [dim] at hk
    rw [nfa] at hi
    exact nthCom_poly hv (.cons h t) (by rw [WfAll]; exact hw) i hi φ hφ k hk
  | .union .nil, hw, i, hi, φ, hφ, k, hk => by rw [Wf] at hw; exact hw.elim
  | .union (.cons h t), hw, i, hi, φ, hφ, k, hk => by
    rw [Wf] at hw
    rw [Nth] at hφ
    rw [rtIden]
    rw [dim, dimFirst] at hk
    rw [nfa] at hi
    exact nthUnion_poly hv (.cons h t) (dim h) (by rw [WfAll]; exact ⟨hw.1, hw.2.1⟩) (by rw [SameDim]; exact ⟨rfl, hw.2.2⟩) i hi φ hφ k hk
theorem nthCom_poly {T : Nat → Nat → ℝ} (hv : Nondeg T) : ∀ l : Fems, WfAll l → ∀ i, i < nfaSum l → ∀ φ, NthCom T l i φ → ∀ k, k < dimSum l →
    PolyLE (rtIdenMax l) fun x => φ x k
  | .nil, _, i, hi, φ, hφ, k, _ => by rw [NthCom] at hφ; exact hφ.elim
  | .cons h t, hw, i, hi, φ, hφ, k, hk => by
    rw [WfAll] at hw
    rw [NthCom] at hφ
    rw [rtIdenMax]
    rw [dimSum] at hk
    rw [nfaSum] at hi
    rcases hφ with ⟨hi', ψ, hψ, e⟩ | ⟨j, ψ, hj, hψ, e⟩
    · by_cases hc : k < dim h
      · exact ((nth_poly hv h hw.1 i hi' ψ hψ k hc).congr fun x => by rw [e x k, if_pos hc]).mono (le_max_left _ _)
      · exact (PolyLE.const _ 0).congr fun x => by rw [e x k, if_neg hc]
    · by_cases hc : k < dim h
      · exact (PolyLE.const _ 0).congr fun x => by rw [e x k, if_pos hc]
      · exact ((nthCom_poly hv t hw.2 j (by omega) ψ hψ (k - dim h) (by omega)).congr fun x => by rw [e x k, if_neg hc]).mono (le_max_right _ _)
theorem nthUnion_poly {T : Nat → Nat → ℝ} (hv : Nondeg T) : ∀ (l : Fems) (d : Nat), WfAll l → SameDim d l → ∀ i, i < nfaSum l → ∀ φ,
    NthUnion T l i φ → ∀ k, k < d → PolyLE (rtIdenMax l) fun x => φ x k
  | .nil, d, _, _, i, hi, φ, hφ, k, _ => by rw [NthUnion] at hφ; exact hφ.elim
  | .cons h t, d, hw, hs, i, hi, φ, hφ, k, hk => by
    rw [WfAll] at hw
    rw [SameDim] at hs
    rw [NthUnion] at hφ
    rw [rtIdenMax]
    rw [nfaSum] at hi
    rcases hφ with ⟨hi', hφ⟩ | ⟨j, hj, hφ⟩
    · exact (nth_poly hv h hw.1 i hi' φ hφ k (by omega)).mono (le_max_left _ _)
    · exact (nthUnion_poly hv t d hw.2 hs.2 j (by omega) φ hφ k hk).mono (le_max_right _ _)
end

/-- the entries of an operator are polynomials; DIV and CURL read three components -/
theorem applied_poly {T : Nat → Nat → ℝ} (hv : Nondeg T) {op : OpT} (hc : ∀ c, op = .dudx c → c < 3) {F : Fem} (hw : Wf F)
    (h3 : op = .div ∨ op = .curl → dim F = 3) {i : Nat} (hi : i < nfa F) {φ : Field} (hφ : Nth T F i φ) {a : Nat → (Nat → ℝ) → ℝ}
    (ha : AppliedTo op F φ a) {l : Nat} (hl : l < opDim op (dim F)) : PolyLE (degree op F) (a l) := by
  have hu := nth_poly hv F hw i hi φ hφ
  have ha := ha l hl
  cases op with
  | iden =>
    exact (hu l hl).congr fun x => ha x
  | grad =>
    have hl : l < 3 * dim F := hl
    exact (hu (l / 3) (by omega)).der (c := l % 3) (by omega) fun x => ha x
  | dudx c => exact (hu l hl).der (hc c rfl) fun x => ha x
  | div =>
    have h3 := h3 (Or.inl rfl)
    choose d hd e using ha
    exact ((((hu 0 (by omega)).der (c := 0) (by omega) fun x => hd x 0 (by omega)).add
      ((hu 1 (by omega)).der (c := 1) (by omega) fun x => hd x 1 (by omega))).add
      ((hu 2 (by omega)).der (c := 2) (by omega) fun x => hd x 2 (by omega))).congr e
  | curl =>
    have h3 := h3 (Or.inr rfl)
    choose d1 d2 h1 h2 e using ha
    exact (((hu _ (by omega)).der (c := (l + 1) % 3) (by omega) h1).sub ((hu _ (by omega)).der (c := (l + 2) % 3) (by omega) h2)).congr e

theorem PolyLE.sum {n : Nat} {g : Nat → (Nat → ℝ) → ℝ} : ∀ m : Nat, (∀ k, k < m → PolyLE n (g k)) → PolyLE n fun y => ∑ k ∈ Finset.range m, g k y
  | 0, _ => (PolyLE.const n 0).congr fun y => rfl
  | m + 1, h => ((PolyLE.sum m fun k hk => h k (by omega)).add (h m (Nat.lt_succ_self m))).congr fun y => Finset.sum_range_succ _ _

/-- the form is a polynomial of the degree of its parts -/
theorem form_poly {na nb da db δ : Nat} {D : (Nat → ℝ) → Nat → Nat → ℝ} {a b : Nat → (Nat → ℝ) → ℝ} (ha : ∀ l, l < na → PolyLE da (a l))
    (hb : ∀ k, k < nb → PolyLE db (b k)) (hD : ∀ k, k < nb → ∀ l, l < na → PolyLE δ fun y => D y k l) :
    PolyLE (db + (δ + da)) (form na nb D a b) :=
  PolyLE.sum nb fun k hk => (hb k hk).mul (PolyLE.sum na fun l hl => (hD k hk l hl).mul (ha l hl))

/-- **C54**: the degree of the form in terms of the declared orders. -/
theorem setting_poly (S : Setting f T opa opb F H φ ψ α β) (hA : opa = .div ∨ opa = .curl → dim F = 3) (hB : opb = .div ∨ opb = .curl → dim H = 3)
    {δ : Nat} {D : (Nat → ℝ) → Nat → Nat → ℝ} (hD : ∀ k, k < opDim opb (dim H) → ∀ l, l < opDim opa (dim F) → PolyLE δ fun y => D y k l)
    {r i j : Nat} (hr : r < f) (hi : i < nfa F) (hj : j < nfa H) {m : Nat} (hm : degree opb H + (δ + degree opa F) ≤ m) :
    PolyLE m (form (opDim opa (dim F)) (opDim opb (dim H)) D (α r i) (β r j)) :=
  (form_poly (fun l hl => applied_poly (S.nondeg r hr) S.coordA S.spaceA hA hi (S.basisA r hr i hi) (S.entryA r hr i hi) hl)
    (fun k hk => applied_poly (S.nondeg r hr) S.coordB S.spaceB hB hj (S.basisB r hr j hj) (S.entryB r hr j hj) hk) hD).mono hm

/-! ### Outputs of the drivers -/

/-- **C54** `fem3Dtet`: when the order is at least the degree of the form, every entry of the output is the integral of the form over the
tetrahedron, up to the accuracy of the tables.  The formula is that of the requested order. -/
theorem fem3Dtet_exact_partial (S : Setting f T opa opb F H φ ψ α β)
    (D : Tensor false (opDim opb (dim H)) (opDim opa (dim F)) (nfa F) f tr fn) {order : Int} (h0 : 0 ≤ order) (h1 : order ≤ 20)
    (hA : opa = .div ∨ opa = .curl → dim F = 3) (hB : opb = .div ∨ opb = .curl → dim H = 3) {δ : Nat}
    (hD : ∀ r, r < f → ∀ k, k < opDim opb (dim H) → ∀ l, l < opDim opa (dim F) →
      PolyLE δ fun y => tensorAt (opDim opb (dim H)) (opDim opa (dim F)) fn r y k l)
    (hm : degree opb H + (δ + degree opa F) ≤ order.toNat) (a : Arr ℝ) :
    ∃ Fm, Quad.tetrahedron order = some Fm ∧ ∀ E', Output (setTet (Rule.of Fm) f T a) false opa opb F H tr fn E' →
      ∀ r, r < f → ∀ i, i < nfa F → ∀ j, j < nfa H →
        let g := form (opDim opa (dim F)) (opDim opb (dim H)) (tensorAt (opDim opb (dim H)) (opDim opa (dim F)) fn r) (α r i) (β r j)
        Near 3 order.toNat (volume (T r)) (T r) g (E' (j + nfa H * (i + nfa F * r))) (overTet (T r) g) := by
  obtain ⟨Fm, h2, h3, h4, h5⟩ := tet_formula h0 h1
  refine ⟨Fm, h2, fun E' O r hr i hi j hj => ?_⟩
  have P := setTet_right (Rule.of Fm : Rule ℝ) f T a h3 S.tetras S.nondeg h4
  rw [output_right S P D (ν := fun _ _ => 0) nofun O r hr i hi j hj]
  exact h5 (T r) _ (setting_poly S hA hB (hD r hr) hr hi hj hm)

/-- **C54** `fem3Dface`: the integrals over the face. -/
theorem fem3Dface_exact_partial (S : Setting f T opa opb F H φ ψ α β)
    (D : Tensor false (opDim opb (dim H)) (opDim opa (dim F)) (nfa F) f tr fn) {order : Int} (h0 : 0 ≤ order) (h1 : order ≤ 20)
    (hA : opa = .div ∨ opa = .curl → dim F = 3) (hB : opb = .div ∨ opb = .curl → dim H = 3) {δ : Nat}
    (hD : ∀ r, r < f → ∀ k, k < opDim opb (dim H) → ∀ l, l < opDim opa (dim F) →
      PolyLE δ fun y => tensorAt (opDim opb (dim H)) (opDim opa (dim F)) fn r y k l)
    (hm : degree opb H + (δ + degree opa F) ≤ order.toNat) {face : Nat} (hface : face < 4) (a : Arr ℝ) :
    ∃ Fm, Quad.triangle order = some Fm ∧ ∃ A : Nat → ℝ, (∀ r, r < f → IsArea (A r) (T r face) (T r ((face + 1) % 4)) (T r ((face + 2) % 4))) ∧
      ∀ E', Output (setFace Real.sqrt (Rule.of Fm) face f T a) false opa opb F H tr fn E' →
      ∀ r, r < f → ∀ i, i < nfa F → ∀ j, j < nfa H →
        let g := form (opDim opa (dim F)) (opDim opb (dim H)) (tensorAt (opDim opb (dim H)) (opDim opa (dim F)) fn r) (α r i) (β r j)
        Near 2 order.toNat (A r) (fun v => T r ((face + v) % 4)) g (E' (j + nfa H * (i + nfa F * r)))
          (overTri (A r) (T r face) (T r ((face + 1) % 4)) (T r ((face + 2) % 4)) g) := by
  obtain ⟨Fm, h2, h3, h4, h5⟩ := tri_formula h0 h1
  obtain ⟨A, hAr, P⟩ := setFace_right (Rule.of Fm : Rule ℝ) f T a hface h3 S.tetras S.nondeg h4
  refine ⟨Fm, h2, A, hAr, fun E' O r hr i hi j hj => ?_⟩
  rw [output_right S P D (ν := fun _ _ => 0) nofun O r hr i hi j hj]
  have h := h5 (A r) (fun v => T r ((face + v) % 4)) _ (hAr r hr).1 (setting_poly S hA hB (hD r hr) hr hi hj hm)
  have e : (face + 0) % 4 = face := Nat.mod_eq_of_lt hface
  simp only [e] at h
  exact h

/-- **C54** `fem3DfaceN`: the integrals over the face with the tensor convolved with the unit normal directed out of the tetrahedron. -/
theorem fem3DfaceN_exact_partial (S : Setting f T opa opb F H φ ψ α β)
    (D : Tensor true (opDim opb (dim H)) (opDim opa (dim F)) (nfa F) f tr fn) {order : Int} (h0 : 0 ≤ order) (h1 : order ≤ 20)
    (hA : opa = .div ∨ opa = .curl → dim F = 3) (hB : opb = .div ∨ opb = .curl → dim H = 3) {δ : Nat}
    (hD : ∀ r, r < f → ∀ k, k < opDim opb (dim H) * 3 → ∀ l, l < opDim opa (dim F) →
      PolyLE δ fun y => tensorAt (opDim opb (dim H) * 3) (opDim opa (dim F)) fn r y k l)
    (hm : degree opb H + (δ + degree opa F) ≤ order.toNat) {face : Nat} (hface : face < 4) (a : Arr ℝ) :
    ∃ Fm, Quad.triangle order = some Fm ∧ ∃ (A : Nat → ℝ) (ν : Nat → Nat → ℝ),
      (∀ r, r < f → IsArea (A r) (T r face) (T r ((face + 1) % 4)) (T r ((face + 2) % 4))) ∧
      (∀ r, r < f → IsNormal (ν r) (T r face) (T r ((face + 1) % 4)) (T r ((face + 2) % 4)) (T r ((face + 3) % 4))) ∧
      ∀ E', Output (setFaceN Real.sqrt (Rule.of Fm) face f T a) true opa opb F H tr fn E' →
      ∀ r, r < f → ∀ i, i < nfa F → ∀ j, j < nfa H →
        let g := form (opDim opa (dim F)) (opDim opb (dim H)) (dotNormal (tensorAt (opDim opb (dim H) * 3) (opDim opa (dim F)) fn r) (ν r))
          (α r i) (β r j)
        Near 2 order.toNat (A r) (fun v => T r ((face + v) % 4)) g (E' (j + nfa H * (i + nfa F * r)))
          (overTri (A r) (T r face) (T r ((face + 1) % 4)) (T r ((face + 2) % 4)) g) := by
  obtain ⟨Fm, h2, h3, h4, h5⟩ := tri_formula h0 h1
  obtain ⟨A, hAr, hN, P⟩ := setFaceN_right (Rule.of Fm : Rule ℝ) f T a hface h3 S.tetras S.nondeg h4
  refine ⟨Fm, h2, A, _, hAr, hN, fun E' O r hr i hi j hj => ?_⟩
  rw [output_right S P D (fun _ r _ c _ => rfl) O r hr i hi j hj]
  have h := h5 (A r) (fun v => T r ((face + v) % 4)) _ (hAr r hr).1 (setting_poly S hA hB (D := dotNormal (tensorAt (opDim opb (dim H) * 3)
    (opDim opa (dim F)) fn r) fun i => (setFaceN Real.sqrt (Rule.of Fm) face f T a).nrm (3 * r + i)) (δ := δ) (fun k hk l hl => ?_) hr hi hj hm)
  · have e : (face + 0) % 4 = face := Nat.mod_eq_of_lt hface
    simp only [e] at h
    exact h
  · have m : ∀ c s, c < 3 → PolyLE δ fun y => tensorAt (opDim opb (dim H) * 3) (opDim opa (dim F)) fn r y (3 * k + c) l * s := fun c s hc =>
      ((hD r hr (3 * k + c) (by omega) l hl).smul s).congr fun y => mul_comm _ _
    exact ((m 0 _ (by omega)).add (m 1 _ (by omega))).add (m 2 _ (by omega))

/-- **C54** `fem3Dedge`: the integrals over the edge. -/
theorem fem3Dedge_exact_partial (S : Setting f T opa opb F H φ ψ α β)
    (D : Tensor false (opDim opb (dim H)) (opDim opa (dim F)) (nfa F) f tr fn) {order : Int} (h0 : 0 ≤ order) (h1 : order ≤ 21)
    (hA : opa = .div ∨ opa = .curl → dim F = 3) (hB : opb = .div ∨ opb = .curl → dim H = 3) {δ : Nat}
    (hD : ∀ r, r < f → ∀ k, k < opDim opb (dim H) → ∀ l, l < opDim opa (dim F) →
      PolyLE δ fun y => tensorAt (opDim opb (dim H)) (opDim opa (dim F)) fn r y k l)
    (hm : degree opb H + (δ + degree opa F) ≤ order.toNat) {edge : Nat} (hedge : edge < 6) (a : Arr ℝ) :
    ∃ Fm, Quad.segment order = some Fm ∧ ∃ A : Nat → ℝ, (∀ r, r < f → IsLength (A r) (T r (edgeNodes edge).1) (T r (edgeNodes edge).2)) ∧
      ∀ E', Output (setEdge Real.sqrt (Rule.of Fm) edge f T a) false opa opb F H tr fn E' →
      ∀ r, r < f → ∀ i, i < nfa F → ∀ j, j < nfa H →
        let g := form (opDim opa (dim F)) (opDim opb (dim H)) (tensorAt (opDim opb (dim H)) (opDim opa (dim F)) fn r) (α r i) (β r j)
        Near 1 order.toNat (A r) (fun v => if v = 0 then T r (edgeNodes edge).1 else T r (edgeNodes edge).2) g
          (E' (j + nfa H * (i + nfa F * r))) (overSeg (A r) (T r (edgeNodes edge).1) (T r (edgeNodes edge).2) g) := by
  obtain ⟨Fm, h2, h3, h4, h5⟩ := seg_formula h0 h1
  obtain ⟨A, hAr, P⟩ := setEdge_right (Rule.of Fm : Rule ℝ) f T a hedge h3 S.tetras S.nondeg h4
  refine ⟨Fm, h2, A, hAr, fun E' O r hr i hi j hj => ?_⟩
  rw [output_right S P D (ν := fun _ _ => 0) nofun O r hr i hi j hj]
  exact h5 (A r) (fun v => if v = 0 then T r (edgeNodes edge).1 else T r (edgeNodes edge).2) _ (hAr r hr).1
    (setting_poly S hA hB (hD r hr) hr hi hj hm)

/-- **C54** `fem3Dnode`: the value of the form at the node, whatever the tensor. -/
theorem fem3Dnode_exact_partial (S : Setting f T opa opb F H φ ψ α β)
    (D : Tensor false (opDim opb (dim H)) (opDim opa (dim F)) (nfa F) f tr fn) {node : Nat} (hnode : node < 4) (a : Arr ℝ)
    (O : Output (setNode node f T a) false opa opb F H tr fn E') {r i j : Nat} (hr : r < f) (hi : i < nfa F) (hj : j < nfa H) :
    E' (j + nfa H * (i + nfa F * r)) = form (opDim opa (dim F)) (opDim opb (dim H))
      (tensorAt (opDim opb (dim H)) (opDim opa (dim F)) fn r) (α r i) (β r j) (T r node) := by
  rw [output_right S (setNode_right f T a hnode S.tetras S.nondeg) D (ν := fun _ _ => 0) nofun O r hr i hi j hj]
  simp
  rfl

/-- **C54** `fem3DpntX`: the weighted sum of the values of the form at the points of the user, whatever the tensor. -/
theorem fem3DpntX_exact_partial (S : Setting 1 T opa opb F H φ ψ α β)
    (D : Tensor false (opDim opb (dim H)) (opDim opa (dim F)) (nfa F) 1 tr fn) (stack : Bool) (X W : Nat → ℝ) {nx nw : Nat} (hq : 0 < min nx nw)
    (hfew : if stack = true then nx ≤ 24 else nx ≤ nw) (a : Arr ℝ) :
    ∃ a', setPntX stack X W nx nw T a = some a' ∧ ∀ E', Output a' false opa opb F H tr fn E' → ∀ i, i < nfa F → ∀ j, j < nfa H →
      E' (j + nfa H * i) = ∑ n ∈ Finset.range (min nx nw), W n * form (opDim opa (dim F)) (opDim opb (dim H))
        (tensorAt (opDim opb (dim H)) (opDim opa (dim F)) fn 0) (α 0 i) (β 0 j) fun k => X (3 * n + k) := by
  obtain ⟨a', h1, P⟩ := setPntX_right_partial T a stack X W hq hfew (S.nondeg 0 Nat.one_pos)
  refine ⟨a', h1, fun E' O i hi j hj => ?_⟩
  have := output_right S P D (ν := fun _ _ => 0) nofun O 0 Nat.one_pos i hi j hj
  rw [Nat.mul_zero, Nat.add_zero] at this
  rw [this]
  exact Finset.sum_congr rfl fun n _ => by rw [mul_one]; rfl

/-- **C54** `fem3DpntL`: the weighted sum of the values of the form at the points with the barycentric coordinates of the user. -/
theorem fem3DpntL_exact_partial (S : Setting f T opa opb F H φ ψ α β)
    (D : Tensor false (opDim opb (dim H)) (opDim opa (dim F)) (nfa F) f tr fn) (plain : Bool) (L W : Nat → ℝ) (nl nw : Nat)
    (hplain : plain = true → nl / 4 ≤ nw) (hq : 0 < min (nl / 4) nw)
    (hL : ∀ n, n < min (nl / 4) nw → L (4 * n) + L (4 * n + 1) + L (4 * n + 2) + L (4 * n + 3) = 1) (a : Arr ℝ) :
    ∃ a', setPntL plain L W nl nw f T a = some a' ∧ ∀ E', Output a' false opa opb F H tr fn E' → ∀ r, r < f → ∀ i, i < nfa F → ∀ j, j < nfa H →
      E' (j + nfa H * (i + nfa F * r)) = ∑ n ∈ Finset.range (min (nl / 4) nw), W n * form (opDim opa (dim F)) (opDim opb (dim H))
        (tensorAt (opDim opb (dim H)) (opDim opa (dim F)) fn r) (α r i) (β r j) (mix (T r) fun c => L (4 * n + c)) := by
  obtain ⟨a', h1, P⟩ := setPntL_right_partial f T a plain L W nl nw hplain hq S.tetras S.nondeg hL
  refine ⟨a', h1, fun E' O r hr i hi j hj => ?_⟩
  rw [output_right S P D (ν := fun _ _ => 0) nofun O r hr i hi j hj]
  exact Finset.sum_congr rfl fun n _ => by rw [mul_one]; rfl

/-! ### Settings and outputs exist -/

/-- the entries of an operator on a basis function -/
theorem applied_exists {T : Nat → Nat → ℝ} (hv : Nondeg T) {op : OpT} (hc : ∀ c, op = .dudx c → c < 3) {F : Fem} (hw : Wf F)
    (h3 : op = .div ∨ op = .curl → dim F = 3) {i : Nat} (hi : i < nfa F) {φ : Field} (hφ : Nth T F i φ) : ∃ a, AppliedTo op F φ a := by
  have hu := nth_poly hv F hw i hi φ hφ
  have hd : ∀ k c, ∃ g : (Nat → ℝ) → ℝ, k < dim F → c < 3 → ∀ x, HasPartial (fun y => φ y k) x c (g x) := fun k c => by
    by_cases h : k < dim F ∧ c < 3
    · obtain ⟨g, hg⟩ := (hu k h.1).hasDer h.2
      exact ⟨g, fun _ _ => hg⟩
    · exact ⟨fun _ => 0, fun h1 h2 => absurd ⟨h1, h2⟩ h⟩
  choose g hg using hd
  cases op with
  | iden => exact ⟨fun l y => φ y l, fun l _ y => rfl⟩
  | grad =>
    refine ⟨fun l => g (l / 3) (l % 3), fun l hl y => ?_⟩
    have hl : l < 3 * dim F := hl
    exact hg _ _ (by omega) (by omega) y
  | dudx c => exact ⟨fun l => g l c, fun l hl y => hg l c hl (hc c rfl) y⟩
  | div =>
    have h3 := h3 (Or.inl rfl)
    exact ⟨fun _ y => g 0 0 y + g 1 1 y + g 2 2 y, fun l hl y => ⟨fun j => g j j y, fun j hj => hg j j (by omega) hj y, rfl⟩⟩
  | curl =>
    have h3 := h3 (Or.inr rfl)
    exact ⟨fun l y => g ((l + 2) % 3) ((l + 1) % 3) y - g ((l + 1) % 3) ((l + 2) % 3) y, fun l hl y => ⟨_, _,
      hg _ _ (by omega) (by omega) y, hg _ _ (by omega) (by omega) y, rfl⟩⟩

/-- **C54**: for all spaces, operators and nondegenerate tetrahedrons there is such a setting. -/
theorem setting_exists (hcA : ∀ c, opa = .dudx c → c < 3) (hcB : ∀ c, opb = .dudx c → c < 3) (hF : Wf F) (hH : Wf H) (hn : 0 < nfa F) (hf : 0 < f)
    (hT : ∀ r, r < f → Nondeg (T r)) (hA : opa = .div ∨ opa = .curl → dim F = 3) (hB : opb = .div ∨ opb = .curl → dim H = 3) :
    ∃ φ ψ α β, Setting f T opa opb F H φ ψ α β := by
  have one : ∀ (op : OpT) (F : Fem), (∀ c, op = .dudx c → c < 3) → Wf F → (op = .div ∨ op = .curl → dim F = 3) → ∃ (φ : Nat → Nat → Field)
      (α : Nat → Nat → Nat → (Nat → ℝ) → ℝ), ∀ r, r < f → ∀ i, i < nfa F → Nth (T r) F i (φ r i) ∧ AppliedTo op F (φ r i) (α r i) := by
    intro op F hc hw h3
    have h : ∀ r i, ∃ (φ : Field) (α : Nat → (Nat → ℝ) → ℝ), r < f → i < nfa F → Nth (T r) F i φ ∧ AppliedTo op F φ α := fun r i => by
      by_cases h : r < f ∧ i < nfa F
      · obtain ⟨φ, hφ⟩ := nth_exists (hT r h.1) F i h.2
        obtain ⟨α, hα⟩ := applied_exists (hT r h.1) hc hw h3 h.2 hφ
        exact ⟨φ, α, fun _ _ => ⟨hφ, hα⟩⟩
      · exact ⟨fun _ _ => 0, fun _ _ => 0, fun h1 h2 => absurd ⟨h1, h2⟩ h⟩
    choose φ α h using h
    exact ⟨φ, α, fun r hr i hi => h r i hr hi⟩
  obtain ⟨φ, α, h1⟩ := one opa F hcA hF hA
  obtain ⟨ψ, β, h2⟩ := one opb H hcB hH hB
  exact ⟨φ, ψ, α, β, hcA, hcB, hF, hH, hn, hf, hT, fun r hr i hi => (h1 r hr i hi).1, fun r hr i hi => (h2 r hr i hi).1,
    fun r hr i hi => (h1 r hr i hi).2, fun r hr i hi => (h2 r hr i hi).2⟩

/-- **C54**: the driver with compile-time operators has an output from all prepared arrays. -/
theorem output_exists (S : Setting f T opa opb F H φ ψ α β) (P : Prepared a q f T x vol w)
    (D : Tensor normal (opDim opb (dim H)) (opDim opa (dim F)) (nfa F) f tr fn) (hF : SpaceOp.Proper F) (hH : SpaceOp.Proper H)
    (hA : (ctOp Real.sqrt a.mem opa F).isSome) (hB : (ctOp Real.sqrt a.mem opb H).isSome) (same : Bool) (hsame : same = true → opa = opb ∧ F = H)
    (base : Nat) (mem D' DU DIFF extraR E : Nat → ℝ) :
    ∃ E', runCt a normal opa opb F H same base tr fn mem D' DU DIFF extraR E = some E' ∧ Output a normal opa opb F H tr fn E' := by
  obtain ⟨E2, h1, -⟩ := runCt_right P S.coordA S.coordB hF hH hA hB same hsame S.basisA S.basisB S.entryA S.entryB S.some base tr D.traits fn
    normal (ν := fun r c => a.nrm (3 * r + c)) (fun _ _ _ _ _ => rfl) (fun r hr n _ => D.fits r hr _) (fun _ _ => D.promise _) mem D' DU DIFF extraR E
  exact ⟨E2, h1, .ct same base mem D' DU DIFF extraR E hF hH hsame h1⟩

end

section Examples

/-- the gradients of P2 with the unit tensor on two tetrahedrons (one and the same), for all outputs of `fem3Dtet` with order 2 -/
example (a : Arr ℝ) : ∃ φ ψ α β Fm, Setting 2 (fun _ => sampleT) .grad .grad (.leaf .p2) (.leaf .p2) φ ψ α β ∧ Quad.tetrahedron 2 = some Fm ∧
    (∃ E', Output (setTet (Rule.of Fm) 2 (fun _ => sampleT) a) false .grad .grad (.leaf .p2) (.leaf .p2) .perPoint (fun _ _ => (.null, fun _ => 0)) E') ∧
    ∀ E', Output (setTet (Rule.of Fm) 2 (fun _ => sampleT) a) false .grad .grad (.leaf .p2) (.leaf .p2) .perPoint (fun _ _ => (.null, fun _ => 0)) E' →
      ∀ r, r < 2 → ∀ i, i < 10 → ∀ j, j < 10 →
        let g := form 3 3 (tensorAt 3 3 (fun _ _ => (.null, fun _ => 0)) r) (α r i) (β r j)
        Near 3 2 (volume sampleT) sampleT g (E' (j + 10 * (i + 10 * r))) (overTet sampleT g) := by
  have hw : Wf (.leaf .p2) := by simp [Wf]
  have hp : SpaceOp.Proper (.leaf .p2) := by simp [SpaceOp.Proper]
  have hn : nfa (.leaf .p2) = 10 := by rw [nfa]; rfl
  have hd : opDim .grad (dim (.leaf .p2)) = 3 := by rw [dim]; rfl
  have hdeg : degree .grad (.leaf .p2) = 1 := by simp [degree, rtIden, idenOrder]
  obtain ⟨φ, ψ, α, β, S⟩ := setting_exists (f := 2) (T := fun _ => sampleT) (opa := .grad) (opb := .grad) (F := .leaf .p2) (H := .leaf .p2)
    nofun nofun hw hw (by rw [hn]; omega) (by omega) (fun _ _ => sampleT_nondeg) (by simp) (by simp)
  have D : Tensor false (opDim .grad (dim (.leaf .p2))) (opDim .grad (dim (.leaf .p2))) (nfa (.leaf .p2)) 2 .perPoint
      (fun _ _ => (.null, fun _ => 0)) := ⟨by simp, fun _ => trivial, fun _ _ _ => Or.inl (by simp)⟩
  obtain ⟨Fm, h1, h2⟩ := fem3Dtet_exact_partial S D (order := 2) (by omega) (by omega) (by simp) (by simp) (δ := 0)
    (fun r _ k _ l _ => PolyLE.const 0 _) (by rw [hdeg]; decide) a
  obtain ⟨Fm', h1', h3, h4, -⟩ := tet_formula (order := 2) (by omega) (by omega)
  rw [h1, Option.some.injEq] at h1'
  subst h1'
  have hs : ∀ m : Mem ℝ, (ctOp Real.sqrt m .grad (.leaf .p2)).isSome := fun m => by
    obtain ⟨A, hA⟩ := ctOp_defined m (op := .grad) ⟨nofun, nofun⟩ (.leaf .p2)
    rw [hA]
    rfl
  obtain ⟨E', -, O⟩ := output_exists S (setTet_right (Rule.of Fm : Rule ℝ) 2 _ a h3 S.tetras S.nondeg h4) D hp hp (hs _) (hs _) true (by simp) 0
    (fun _ => 0) (fun _ => 0) (fun _ => 0) (fun _ => 0) (fun _ => 0) (fun _ => 0)
  refine ⟨φ, ψ, α, β, Fm, S, h1, ⟨E', O⟩, ?_⟩
  rw [hd, hn] at h2
  exact h2

-- the arrays of the other drivers on a tetrahedron of negative orientation
example (a : Arr ℝ) : ∃ Fm, Quad.triangle 3 = some Fm ∧ ∃ A : Nat → ℝ, IsArea (A 0) (sampleT 2) (sampleT 3) (sampleT 0) ∧
    IsNormal (fun i => (setFaceN Real.sqrt (Rule.of Fm) 2 1 (fun _ => sampleT) a).nrm (3 * 0 + i)) (sampleT 2) (sampleT 3) (sampleT 0) (sampleT 1) := by
  obtain ⟨Fm, h2, h3, h4, -⟩ := tri_formula (order := 3) (by omega) (by omega)
  obtain ⟨A, h5, h6, -⟩ := setFaceN_right (Rule.of Fm : Rule ℝ) 1 (fun _ => sampleT) a (face := 2) (by omega) h3 Nat.one_pos
    (fun _ _ => sampleT_nondeg) h4
  exact ⟨Fm, h2, A, h5 0 Nat.one_pos, h6 0 Nat.one_pos⟩

example (a : Arr ℝ) : ∃ Fm, Quad.segment 5 = some Fm ∧ ∃ A : Nat → ℝ, IsLength (A 0) (sampleT 1) (sampleT 3) := by
  obtain ⟨Fm, h2, h3, h4, -⟩ := seg_formula (order := 5) (by omega) (by omega)
  obtain ⟨A, h5, -⟩ := setEdge_right (Rule.of Fm : Rule ℝ) 1 (fun _ => sampleT) a (edge := 4) (by omega) h3 Nat.one_pos (fun _ _ => sampleT_nondeg) h4
  exact ⟨Fm, h2, A, h5 0 Nat.one_pos⟩

example (a : Arr ℝ) (X W : Nat → ℝ) : ∃ a', setPntX false X W 2 3 (fun _ => sampleT) a = some a' ∧
    Prepared a' 2 1 (fun _ => sampleT) (fun _ n k => X (3 * n + k)) (fun _ => 1) W :=
  setPntX_right_partial (fun _ => sampleT) a false X W (nx := 2) (nw := 3) (by omega) (by simp) sampleT_nondeg

example (a : Arr ℝ) (X W : Nat → ℝ) : setPntX false X W 3 2 (fun _ => sampleT) a = none ∧ setPntX true X W 30 1 (fun _ => sampleT) a = none :=
  ⟨(setPntX_wrong (fun _ => sampleT) a X W).1 (by omega), (setPntX_wrong (fun _ => sampleT) a X W).2 (by omega) (by omega)⟩

example (a : Arr ℝ) (W : Nat → ℝ) : ∃ a', setPntL true (fun _ => 1 / 4) W 9 5 1 (fun _ => sampleT) a = some a' ∧
    Prepared a' 2 1 (fun _ => sampleT) (fun _ _ => mix sampleT fun _ => 1 / 4) (fun _ => 1) W :=
  setPntL_right_partial 1 (fun _ => sampleT) a true (fun _ => 1 / 4) W 9 5 (by omega) (by omega) Nat.one_pos (fun _ _ => sampleT_nondeg)
    (fun _ _ => by norm_num)

example (a : Arr ℝ) (W : Nat → ℝ) : setPntL true (fun _ => 1 / 4) W 8 1 1 (fun _ => sampleT) a = none :=
  setPntL_wrong 1 (fun _ => sampleT) a _ W (by omega)

example (a : Arr ℝ) : Prepared (setNode 3 1 (fun _ => sampleT) a) 1 1 (fun _ => sampleT) (fun _ _ => sampleT 3) (fun _ => 1) (fun _ => 1) :=
  setNode_right 1 (fun _ => sampleT) a (by omega) Nat.one_pos fun _ _ => sampleT_nondeg

end Examples

end Verif.Driver
