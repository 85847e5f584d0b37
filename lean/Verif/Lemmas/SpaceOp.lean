import Verif.Spec.SpaceOp
import Verif.Lemmas.Spaces
import Verif.Props.SpacesDeriv

/-!
Lemmas about the operators of the simple spaces: nothing is written outside of the array, the result does not depend on what the
memory held.
-/
namespace Verif.SpaceOp

open Verif.Spaces Verif.Order Verif.OpStack

section Frame
variable {K : Type}

theorem put_ge {ι : Type} {L : List ι} {g : ι → Nat} {v : ι → K} {U : Nat → K} {N p : Nat} (h : ∀ y ∈ L, g y < N) (hp : N ≤ p) :
    put L g v U p = U p := put_off fun y hy e => by have := h y hy; omega

theorem cp_ge {ι : Type} {L : List ι} {g s : ι → Nat} {U : Nat → K} {N p : Nat} (h : ∀ y ∈ L, g y < N) (hp : N ≤ p) :
    cp L g s U p = U p := cp_off fun y hy e => by have := h y hy; omega

theorem foldl_ge {ι : Type} {L : List ι} {step : (Nat → K) → ι → Nat → K} {p : Nat} (h : ∀ x ∈ L, ∀ U, step U x p = U p) (U : Nat → K) :
    L.foldl step U p = U p := by
  induction L generalizing U with
  | nil => rfl
  | cons a L ih =>
    rw [List.foldl_cons, ih (fun x hx => h x (List.mem_cons_of_mem _ hx)), h a (List.mem_cons_self ..)]

/-- an address of a matrix lies in it -/
theorem addr_lt' {dim q nfa f r i n k : Nat} (hk : k < dim) (hn : n < q) (hi : i < nfa) (hr : r < f) :
    k + dim * (n + q * (i + nfa * r)) < dim * q * (nfa * f) := addr_lt hk hn hi hr

theorem col_lt' {q nfa f i n : Nat} (hn : n < q) (hi : i < nfa) (hf : 0 < f) : n + q * i < q * (nfa * f) := by
  have := addr_lt' (dim := 1) (k := 0) (r := 0) (by omega) hn hi hf
  rw [Nat.mul_zero, Nat.add_zero, Nat.zero_add, Nat.one_mul, Nat.one_mul] at this
  exact this

theorem copyBlocks_ge {f N : Nat} {U : Nat → K} {p : Nat} (hp : N * f ≤ p) : copyBlocks f N U p = U p := by
  refine cp_ge (N := N * f) (fun y hy => ?_) hp
  rw [mem_from2] at hy
  calc N * y.1 + y.2 < N * y.1 + N := by omega
    _ = N * (y.1 + 1) := by ring
    _ ≤ N * f := Nat.mul_le_mul_left _ hy.1.2

theorem copyCols_ge {f nfa q : Nat} {U : Nat → K} {p : Nat} (hp : q * (nfa * f) ≤ p) : copyCols f nfa q U p = U p := by
  refine cp_ge (N := q * (nfa * f)) (fun y hy => ?_) hp
  rw [mem_from3] at hy
  have := addr_lt' (dim := 1) (k := 0) (by omega) hy.2.2 hy.2.1 hy.1.2
  simp only [Nat.zero_add, Nat.one_mul] at this
  rw [Nat.mul_comm y.1]
  exact this

variable [Field K] {m : Mem K} (hq : 0 < m.q) (hf : 0 < m.f)

theorem p0Iden_ge (U : Nat → K) {p : Nat} (hp : 1 * m.q * (1 * m.f) ≤ p) : p0Iden m U p = U p := fill_off hp
theorem p0Grad_ge (U : Nat → K) {p : Nat} (hp : 3 * m.q * (1 * m.f) ≤ p) : p0Grad m U p = U p := fill_off hp
theorem p0Dudx_ge (c : Nat) (U : Nat → K) {p : Nat} (hp : 1 * m.q * (1 * m.f) ≤ p) : p0Dudx c m U p = U p := fill_off hp

include hf in
theorem cols_ge {a b : Nat} (hab : a ≤ b) {v : Nat × Nat → K} {U : Nat → K} {p : Nat} (hp : 1 * m.q * (b * m.f) ≤ p) :
    put (box2 a m.q) (fun x => x.2 + 1 * m.q * x.1) v U p = U p := by
  refine put_ge (fun y hy => ?_) hp
  rw [mem_box2] at hy
  rw [Nat.one_mul]
  exact col_lt' hy.2 (by omega) hf

include hf in
theorem colsFrom_ge {a b c : Nat} (hab : b ≤ c) {v : Nat × Nat → K} {U : Nat → K} {p : Nat} (hp : 1 * m.q * (c * m.f) ≤ p) :
    put (from2 a b m.q) (fun x => x.2 + 1 * m.q * x.1) v U p = U p := by
  refine put_ge (fun y hy => ?_) hp
  rw [mem_from2] at hy
  rw [Nat.one_mul]
  exact col_lt' hy.2 (by omega) hf

include hf in
theorem p1Iden_ge (U : Nat → K) {p : Nat} (hp : 1 * m.q * (4 * m.f) ≤ p) : p1Iden m U p = U p := by
  rw [p1Iden, copyBlocks_ge (le_of_eq_of_le (by ring) hp), cols_ge hf (le_refl 4) hp]

include hf in
theorem cr1Iden_ge (U : Nat → K) {p : Nat} (hp : 1 * m.q * (4 * m.f) ≤ p) : cr1Iden m U p = U p := by
  rw [cr1Iden, copyBlocks_ge (le_of_eq_of_le (by ring) hp), cols_ge hf (le_refl 4) hp]

include hf in
theorem p2Iden_ge (U : Nat → K) {p : Nat} (hp : 1 * m.q * (10 * m.f) ≤ p) : p2Iden m U p = U p := by
  rw [p2Iden, copyCols_ge hp, colsFrom_ge hf (le_refl 10) hp, cols_ge hf (by omega : 4 ≤ 10) hp]

include hf in
theorem b2Iden_ge (U : Nat → K) {p : Nat} (hp : 1 * m.q * (6 * m.f) ≤ p) : b2Iden m U p = U p := by
  rw [b2Iden, copyCols_ge hp, cols_ge hf (le_refl 6) hp]

include hf in
theorem b4Iden_ge (U : Nat → K) {p : Nat} (hp : 1 * m.q * (1 * m.f) ≤ p) : b4Iden m U p = U p := by
  rw [b4Iden, copyBlocks_ge (le_of_eq_of_le (by ring) hp)]
  refine put_ge (fun y hy => ?_) hp
  rw [List.mem_range] at hy
  calc y < m.q * 1 := by omega
    _ ≤ m.q * m.f := Nat.mul_le_mul_left _ hf
    _ = _ := by ring

include hf in
theorem p3Iden_ge (U : Nat → K) {p : Nat} (hp : 1 * m.q * (20 * m.f) ≤ p) : p3Iden m U p = U p := by
  rw [p3Iden, copyCols_ge hp, colsFrom_ge hf (le_refl 20) hp, put_ge (N := 1 * m.q * (20 * m.f)) ?_ hp, cols_ge hf (by omega : 4 ≤ 20) hp]
  intro y hy
  rw [mem_from3] at hy
  rw [Nat.one_mul]
  exact col_lt' hy.2.1 (by omega) hf

theorem p1Grad_ge (U : Nat → K) {p : Nat} (hp : 3 * m.q * (4 * m.f) ≤ p) : p1Grad m U p = U p := by
  refine put_ge (fun y hy => ?_) hp
  rw [mem_box4] at hy
  exact addr_lt' hy.2.2.2 hy.2.2.1 hy.2.1 hy.1

theorem p1Dudx_ge (c : Nat) (U : Nat → K) {p : Nat} (hp : 1 * m.q * (4 * m.f) ≤ p) : p1Dudx c m U p = U p := by
  refine put_ge (fun y hy => ?_) hp
  rw [mem_box3] at hy
  have := addr_lt' (dim := 1) (k := 0) (by omega) hy.2.2 hy.2.1 hy.1
  simpa only [Nat.zero_add, Nat.one_mul] using this

theorem pullback_ge (n : Nat) (G U : Nat → K) {p : Nat} (hp : 3 * m.q * (n * m.f) ≤ p) : pullback m n G U p = U p := by
  refine put_ge (fun y hy => ?_) hp
  rw [mem_box4] at hy
  exact addr_lt' hy.2.2.2 hy.2.2.1 hy.2.1 hy.1

theorem tab_lt {q w d i n : Nat} (hd : d < 3) (hi : i < w) (hn : n < q) : d + 3 * (i + w * n) < 3 * w * q := by
  have := addr_lt' (dim := 3) (q := w) (nfa := q) (f := 1) (r := 0) hd hi hn (by omega)
  rw [Nat.mul_zero, Nat.add_zero, Nat.mul_one] at this
  exact this

theorem p2Table_ge (E : Nat → K) {p : Nat} (hp : 3 * 10 * m.q ≤ p) : p2Table m E p = E p := by
  rw [p2Table, put_ge (N := 3 * 10 * m.q) ?_ hp, put_ge (N := 3 * 10 * m.q) ?_ hp]
  · intro y hy
    rw [mem_box3] at hy
    exact tab_lt hy.2.2 (by omega) hy.1
  · intro y hy
    rw [mem_box3] at hy
    exact tab_lt hy.2.2 (by omega) hy.1

theorem b2Table_ge (E : Nat → K) {p : Nat} (hp : 3 * 6 * m.q ≤ p) : b2Table m E p = E p := by
  rw [b2Table, put_ge (N := 3 * 6 * m.q) ?_ hp]
  intro y hy
  rw [mem_box3] at hy
  exact tab_lt hy.2.2 hy.2.1 hy.1

theorem b4Table_ge (E : Nat → K) {p : Nat} (hp : 3 * 1 * m.q ≤ p) : b4Table m E p = E p := by
  rw [b4Table, put_ge (N := 3 * 1 * m.q) ?_ hp]
  intro y hy
  rw [mem_box2] at hy
  omega

theorem p3Table_ge (E : Nat → K) {p : Nat} (hp : 3 * 20 * m.q ≤ p) : p3Table m E p = E p := by
  rw [p3Table, put_ge (N := 3 * 20 * m.q) ?_ hp, put_ge (N := 3 * 20 * m.q) ?_ hp, put_ge (N := 3 * 20 * m.q) ?_ hp]
  · intro y hy
    rw [mem_box3] at hy
    exact tab_lt hy.2.2 (by omega) hy.1
  · intro y hy
    rw [mem_box4] at hy
    exact tab_lt hy.2.2.1 (by omega) hy.1
  · intro y hy
    rw [mem_box3] at hy
    exact tab_lt hy.2.2 (by omega) hy.1

include hq in
theorem cr1Grad_ge (U : Nat → K) {p : Nat} (hp : 3 * m.q * (4 * m.f) ≤ p) : cr1Grad m U p = U p := by
  have := sweep_off (f := m.f) (nfa := 4) (dim := 3) (off := 0) (U := U) (v := fun x k => -3 * (List.range 3).foldl
    (fun s j => s + m.psi (j + 3 * (k + 3 * x.1)) * gradP1 (j + 3 * ipf3 x.2)) 0) hq (p := p) (Or.inr (by omega))
  simp only [Nat.zero_add] at this
  exact this

theorem nd0Iden_ge (sqrt : K → K) (U : Nat → K) {p : Nat} (hp : 3 * m.q * (6 * m.f) ≤ p) : nd0Iden sqrt m U p = U p := by
  refine put_ge (fun y hy => ?_) hp
  rw [mem_box4] at hy
  exact lt_of_eq_of_lt (by ring) (addr_lt' hy.2.2.2 hy.2.2.1 hy.2.1 hy.1)

theorem nd0Div_ge (U : Nat → K) {p : Nat} (hp : 1 * m.q * (6 * m.f) ≤ p) : nd0Div m U p = U p := fill_off hp

include hq in
theorem nd0Curl_ge (sqrt : K → K) (off : Nat) (U : Nat → K) {p : Nat} (hp : off + 3 * m.q * (6 * m.f) ≤ p) :
    nd0Curl sqrt off m U p = U p := by
  rw [nd0Curl_eq]
  exact sweep_off (v := fun x k => nd0CurlVal sqrt m x.1 x.2 k) hq (Or.inr hp)

include hq in
theorem nd0Grad_ge (sqrt : K → K) (U : Nat → K) {p : Nat} (hp : 9 * m.q * (6 * m.f) ≤ p) : nd0Grad sqrt m U p = U p := by
  unfold nd0Grad
  rw [foldl_ge, nd0Curl_ge hq]
  · refine le_of_eq_of_le ?_ hp
    rw [show 9 * m.q * (6 * m.f) = 9 * (m.q * (6 * m.f)) by ring, show m.q * 6 * m.f * 3 = 3 * (m.q * (6 * m.f)) by ring,
      show 3 * m.q * (6 * m.f) = 3 * (m.q * (6 * m.f)) by ring]
    omega
  · intro x hx U
    rw [mem_box3] at hx
    refine nd0Skew_off _ _ _ (Or.inr (le_trans ?_ hp))
    have := addr_lt' (dim := 9) (k := 8) (by omega) hx.2.2 hx.2.1 hx.1
    rw [Nat.mul_comm x.1]
    omega

variable [LinearOrder K]

theorem rt0Iden_ge (sqrt : K → K) (U : Nat → K) {p : Nat} (hp : 3 * m.q * (4 * m.f) ≤ p) : rt0Iden sqrt m U p = U p := by
  refine put_ge (fun y hy => ?_) hp
  rw [mem_box4] at hy
  exact lt_of_eq_of_lt (by ring) (addr_lt' hy.2.2.2 hy.2.2.1 hy.2.1 hy.1)

omit [LinearOrder K] in
theorem rt0Curl_ge (U : Nat → K) {p : Nat} (hp : 3 * m.q * (4 * m.f) ≤ p) : rt0Curl m U p = U p := fill_off hp

include hq in
theorem rt0Div_ge (sqrt : K → K) (U : Nat → K) {p : Nat} (hp : 1 * m.q * (4 * m.f) ≤ p) : rt0Div sqrt m U p = U p := by
  unfold rt0Div
  refine foldl_ge (fun x hx U => ?_) U
  rw [mem_box2] at hx
  have key : ∀ n, n < m.q → n + 1 * m.q * (x.2 + 4 * x.1) < 1 * m.q * (4 * m.f) := fun n hn =>
    lt_of_eq_of_lt (by ring) (addr_lt' (dim := 1) (k := 0) (by omega) hn hx.2 hx.1)
  rw [cp_ge (N := 1 * m.q * (4 * m.f)) ?_ hp, put_ge (N := 1 * m.q * (4 * m.f)) ?_ hp]
  · intro y hy
    rw [List.mem_singleton] at hy
    rw [hy]
    exact key 0 hq
  · intro y hy
    rw [mem_from] at hy
    exact key y hy.2

include hq in
theorem rt0Grad_ge (sqrt : K → K) (U : Nat → K) {p : Nat} (hp : 9 * m.q * (4 * m.f) ≤ p) : rt0Grad sqrt m U p = U p := by
  unfold rt0Grad
  dsimp only
  rw [foldl_ge, fill_off hp]
  intro r hr U
  rw [List.mem_range] at hr
  rw [cp_ge (N := 9 * m.q * (4 * m.f)) ?_ hp, put_ge (N := 9 * m.q * (4 * m.f)) ?_ hp]
  · intro y hy
    rw [mem_box3] at hy
    exact lt_of_eq_of_lt (by ring) (addr_lt' (dim := 9) (k := y.2.2 + 3 * y.2.1) (n := 0) (by omega) hq hy.1 hr)
  · intro y hy
    rw [mem_from3] at hy
    exact lt_of_eq_of_lt (by ring) (addr_lt' hy.2.2 hy.1.2 hy.2.1 hr)

end Frame

/-! ### The operators in the common memory -/

section Place
variable {K : Type}

theorem inArray_lt {u : Nat} {g : (Nat → K) → Nat → K} {mem : Nat → K} {p : Nat} (h : p < u) : inArray u g mem p = mem p := by
  rw [inArray, if_neg (by omega)]

theorem inArray_at (u : Nat) (g : (Nat → K) → Nat → K) (mem : Nat → K) (t : Nat) : inArray u g mem (u + t) = g (fun t => mem (u + t)) t := by
  rw [inArray, if_pos (Nat.le_add_right u t), Nat.add_sub_cancel_left]

theorem inArray_ge {u N : Nat} {g : (Nat → K) → Nat → K} (hg : ∀ U p, N ≤ p → g U p = U p) {mem : Nat → K} {p : Nat} (h : u + N ≤ p) :
    inArray u g mem p = mem p := by
  obtain ⟨t, rfl⟩ := Nat.exists_eq_add_of_le (show u ≤ p by omega)
  rw [inArray_at, hg _ _ (by omega)]

variable [Field K]

/-- what is required of a function working on an array -/
structure ArrayOk (q f dim nfa : Nat) (g : (Nat → K) → Nat → K) : Prop where
  ge : ∀ U p, dim * q * (nfa * f) ≤ p → g U p = U p
  indep : ∀ U l n i r, l < dim → n < q → i < nfa → r < f → g U (addr dim q nfa r i n l) = g (fun _ => 0) (addr dim q nfa r i n l)

theorem direct_ok {q f dim nfa : Nat} {g : (Nat → K) → Nat → K} (h : ArrayOk q f dim nfa g) :
    LeafOk q f dim nfa (direct q f dim nfa g).usz (direct q f dim nfa g).exr (direct q f dim nfa g).run
      fun l n i r => g (fun _ => 0) (addr dim q nfa r i n l) := by
  have hsz : dim * q * (nfa * f) = dim * q * nfa * f := by ring
  refine ⟨le_of_eq (by simp only [direct]; ring), fun u ex es mem _ _ => ⟨fun l hl n hn i hi r hr => ?_, fun p hp _ => ?_⟩⟩
  · rw [show l + dim * n + q * dim * (i + nfa * r) = addr dim q nfa r i n l by unfold addr; ring]
    simp only [direct]
    rw [inArray_at, h.indep _ l n i r hl hn hi hr]
  · simp only [direct] at hp ⊢
    rcases hp with hp | hp
    · exact inArray_lt hp
    · exact inArray_ge h.ge (by omega)

theorem byTable_ok {m : Mem K} {nfa : Nat} {tab : (Nat → K) → Nat → K} (hge : ∀ E p, 3 * nfa * m.q ≤ p → tab E p = E p)
    (hin : ∀ E d i n, d < 3 → i < nfa → n < m.q → tab E (d + 3 * (i + nfa * n)) = tab (fun _ => 0) (d + 3 * (i + nfa * n))) :
    LeafOk m.q m.f 3 nfa (byTable m nfa tab).usz (byTable m nfa tab).exr (byTable m nfa tab).run
      fun l n i r => pullback m nfa (tab fun _ => 0) (fun _ => 0) (addr 3 m.q nfa r i n l) := by
  have hsz : 3 * m.q * (nfa * m.f) = m.q * nfa * m.f * 3 := by ring
  refine ⟨le_of_eq (by simp only [byTable]; ring), fun u ex es mem hes hdis => ⟨fun l hl n hn i hi r hr => ?_, fun p hp hp' => ?_⟩⟩
  · rw [show l + 3 * n + m.q * 3 * (i + nfa * r) = addr 3 m.q nfa r i n l by unfold addr; ring]
    simp only [byTable]
    rw [inArray_at, pullback_at m nfa _ _ hr hi hn hl, pullback_at m nfa _ _ hr hi hn hl]
    have e : ∀ d, d < 3 → inArray ex tab mem (ex + (d + 3 * (i + nfa * n))) = tab (fun _ => 0) (d + 3 * (i + nfa * n)) := fun d hd => by
      rw [inArray_at, hin _ d i n hd hi hn]
    rw [e 0 (by omega), e 1 (by omega), e 2 (by omega)]
  · simp only [byTable] at hp hes ⊢
    have h1 : inArray ex tab mem p = mem p := by
      rcases hp' with h | h
      · exact inArray_lt h
      · exact inArray_ge hge (by omega)
    rw [← h1]
    rcases hp with h | h
    · exact inArray_lt h
    · exact inArray_ge (N := 3 * m.q * (nfa * m.f)) (fun U p hp => pullback_ge nfa _ U hp) (by omega)

end Place

end Verif.SpaceOp
