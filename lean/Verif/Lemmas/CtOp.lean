import Verif.Spec.CtOp
import Verif.Props.OpStack4

/-!
Block matrices of compile-time operators: dense ones, repeated ones, one behind another.
-/
namespace Verif.CtOp

open Verif.Dense Verif.Elemental
open Verif.OpStack (Vals vecVals joinVals prodVals unionVals divVals curlVals dudxVals LeafOk at4 at4_lt at4_inj setZero_at setZero_off
  single_ok single_val Appended val_congr ok_congr join_vec)

set_option linter.unusedSectionVars false

variable {K : Type} [CommRing K]

theorem good_dense {q f dim nfa u usz ex es : Nat} {v : Vals K} {m m' : Nat → K} (hsz : q * dim * (nfa * f) ≤ usz)
    (hv : ∀ l, l < dim → ∀ n, n < q → ∀ i, i < nfa → ∀ r, r < f →
      m' (u + (l + dim * n + q * dim * (i + nfa * r))) = v l n i r)
    (hre : ∀ p, (p < u ∨ u + usz ≤ p) → (p < ex ∨ ex + es ≤ p) → m' p = m p) :
    Good q f dim nfa u usz ex es v m m' (conv (.dense (u, q * dim)) dim nfa) where
  ok := single_ok rfl rfl rfl rfl rfl rfl
  val l hl n hn i hi r hr := (single_val rfl rfl rfl rfl rfl hl hi).trans (hv l hl n hn i hi r hr)
  inU d hd := by
    obtain rfl : d = 0 := by
      change d < 1 at hd
      omega
    exact ⟨Nat.le_refl _, Nat.add_le_add_left hsz u⟩
  re := hre

/-- a correct operator which returns a dense matrix, as a function of the memory -/
def runOf (op : Op K) : Nat → Nat → Nat → (Nat → K) → (Nat → K) := fun u ex es m =>
  ((op.apply u ex es m).map Prod.fst).getD m

theorem Correct.size {q f : Nat} {op : Op K} {v : Vals K} (h : Correct q f op v) (hd : IsDense q op) :
    q * op.dim * (op.nfa * f) ≤ op.usz := by
  obtain ⟨m', mx, e, -, g⟩ := h (fun _ => 0) 0 op.usz op.exr (Nat.le_refl _) (Or.inl (by omega))
  have := hd _ _ _ _ _ _ e
  subst this
  have := (g.inU 0 Nat.one_pos).2
  change 0 + q * op.dim * (op.nfa * f) ≤ 0 + op.usz at this
  omega

theorem Correct.leafOk {q f : Nat} {op : Op K} {v : Vals K} (h : Correct q f op v) (hd : IsDense q op) :
    LeafOk q f op.dim op.nfa op.usz op.exr (runOf op) v := by
  refine ⟨h.size hd, fun u ex es m hes hdis => ?_⟩
  obtain ⟨m', mx, e, -, g⟩ := h m u ex es hes hdis
  have := hd _ _ _ _ _ _ e
  subst this
  have hr : runOf op u ex es m = m' := by
    unfold runOf
    rw [e]
    rfl
  rw [hr]
  refine ⟨fun l hl n hn i hi r hr' => ?_, g.re⟩
  rw [← g.val l hl n hn i hi r hr']
  exact (single_val (B := (conv (.dense (u, q * op.dim)) op.dim op.nfa).band m') rfl rfl rfl rfl rfl hl hi).symm

theorem apply_run {q f : Nat} {op : Op K} {v : Vals K} (h : Correct q f op v) (hd : IsDense q op) {u ex es : Nat} (m : Nat → K)
    (hes : op.exr ≤ es) (hdis : u + op.usz ≤ ex ∨ ex + es ≤ u) :
    op.apply u ex es m = some (runOf op u ex es m, .dense (u, q * op.dim)) := by
  obtain ⟨m', mx, e, -, -⟩ := h m u ex es hes hdis
  have := hd _ _ _ _ _ _ e
  subst this
  unfold runOf
  rw [e]
  rfl

/-- `d` copies of a block matrix -/
def rep (dim nfa : Nat) (A : Bnd) (d : Nat) : Bnd :=
  ⟨d * A.nparts, fun j => A.data (j % A.nparts),
    fun j => if j < d * A.nparts then dim * (j / A.nparts) + A.stRow (j % A.nparts) else d * dim,
    fun j => if j < d * A.nparts then nfa * (j / A.nparts) + A.stCol (j % A.nparts) else d * nfa⟩

theorem rep_appended {q dim nfa : Nat} {A : Bnd} {m : Nat → K} (ok : (A.band m).Ok q dim nfa) (hp : 1 ≤ A.nparts) (d : Nat) :
    Appended ((rep dim nfa A d).band m) (A.band m) ((rep dim nfa A (d + 1)).band m) (d * dim) (d * nfa) := by
  have hm : ∀ j, j < A.nparts → (d * A.nparts + j) / A.nparts = d ∧ (d * A.nparts + j) % A.nparts = j := by
    intro j hj
    rw [Nat.mul_comm d, Nat.mul_add_div (by omega), Nat.mul_add_mod, Nat.div_eq_of_lt hj, Nat.mod_eq_of_lt hj]
    exact ⟨rfl, rfl⟩
  have e : (d + 1) * A.nparts = d * A.nparts + A.nparts := by ring
  have r0 := ok.row0
  have rN := ok.rowN
  have c0 := ok.col0
  have cN := ok.colN
  change A.stRow 0 = 0 at r0
  change A.stRow A.nparts = dim at rN
  change A.stCol 0 = 0 at c0
  change A.stCol A.nparts = nfa at cN
  have key : ∀ (s : Nat → Nat) (x : Nat), s 0 = 0 → s A.nparts = x → ∀ j, j ≤ d * A.nparts →
      (if j < (d + 1) * A.nparts then x * (j / A.nparts) + s (j % A.nparts) else (d + 1) * x) =
      (if j < d * A.nparts then x * (j / A.nparts) + s (j % A.nparts) else d * x) := by
    intro s x s0 _ j hj
    rw [if_pos (by omega)]
    by_cases h : j < d * A.nparts
    · rw [if_pos h]
    · obtain rfl : j = d * A.nparts + 0 := by omega
      rw [if_neg h, (hm 0 (by omega)).1, (hm 0 (by omega)).2, s0]
      ring
  have key2 : ∀ (s : Nat → Nat) (x : Nat), s 0 = 0 → s A.nparts = x → ∀ j, j ≤ A.nparts →
      (if d * A.nparts + j < (d + 1) * A.nparts then x * ((d * A.nparts + j) / A.nparts) + s ((d * A.nparts + j) % A.nparts)
        else (d + 1) * x) = d * x + s j := by
    intro s x _ sN j hj
    by_cases h : j < A.nparts
    · rw [if_pos (by omega), (hm j h).1, (hm j h).2]
      ring
    · obtain rfl : j = A.nparts := by omega
      rw [if_neg (by omega), sN]
      ring
  exact
    { np := e
      rowA := fun j hj => key A.stRow dim r0 rN j hj
      colA := fun j hj => key A.stCol nfa c0 cN j hj
      rowB := fun j hj => key2 A.stRow dim r0 rN j hj
      colB := fun j hj => key2 A.stCol nfa c0 cN j hj
      nRowA := fun _ _ => rfl
      nRowB := fun j hj => by
        show (A.data ((d * A.nparts + j) % A.nparts)).2 = (A.data j).2
        rw [(hm j hj).2]
      dataA := fun _ _ => rfl
      dataB := fun j hj => by
        show (fun p => m ((A.data ((d * A.nparts + j) % A.nparts)).1 + p)) = fun p => m ((A.data j).1 + p)
        rw [(hm j hj).2] }

theorem rep_ok {q dim nfa : Nat} {A : Bnd} {m : Nat → K} (ok : (A.band m).Ok q dim nfa) (hp : 1 ≤ A.nparts) (d : Nat) :
    ((rep dim nfa A d).band m).Ok q (d * dim) (d * nfa) := by
  induction d with
  | zero =>
    have h : ∀ x, ((if 0 < 0 * A.nparts then x else 0 * dim) = 0) ∧ ((if 0 < 0 * A.nparts then x else 0 * nfa) = 0) := by
      intro x
      rw [if_neg (by omega), if_neg (by omega)]
      omega
    have e : 0 * A.nparts = 0 := Nat.zero_mul _
    exact
      { row0 := (h _).1
        rowN := by
          show (if 0 * A.nparts < 0 * A.nparts then _ else 0 * dim) = _
          rw [if_neg (by omega)]
        col0 := (h _).2
        colN := by
          show (if 0 * A.nparts < 0 * A.nparts then _ else 0 * nfa) = _
          rw [if_neg (by omega)]
        rowMono := fun j hj => by
          change j < 0 * A.nparts at hj
          omega
        colMono := fun j hj => by
          change j < 0 * A.nparts at hj
          omega
        rows := fun j hj => by
          change j < 0 * A.nparts at hj
          omega }
  | succ d ih =>
    rw [Nat.succ_mul, Nat.succ_mul]
    exact (rep_appended ok hp d).ok ih ok

theorem rep_val {q dim nfa : Nat} {A : Bnd} {m : Nat → K} (ok : (A.band m).Ok q dim nfa) (hp : 1 ≤ A.nparts) (d : Nat)
    {l n i r : Nat} (hl : l < dim * d) (hi : i < nfa * d) :
    ((rep dim nfa A d).band m).val q l n i r = vecVals dim nfa ((A.band m).val q) l n i r := by
  induction d generalizing l i with
  | zero => omega
  | succ d ih =>
    rw [(rep_appended ok hp d).val (rep_ok ok hp d), ← join_vec _ hl hi]
    unfold joinVals
    rw [Nat.mul_comm d dim, Nat.mul_comm d nfa]
    by_cases h : l < dim * d ∧ i < nfa * d
    · rw [if_pos h, if_pos h, ih h.1 h.2]
    · rw [if_neg h, if_neg h]

end Verif.CtOp
