import Verif.Model.Spaces
import Verif.Lemmas.Dense
import Mathlib.Tactic.Ring
import Mathlib.Tactic.Linarith
import Mathlib.Tactic.IntervalCases

/-!
Memory lemmas for the operators of the spaces: loop nests of writes, copies of blocks, addresses.
-/
namespace Verif.Spaces
open Verif.Dense (wr wr_same wr_ne)

variable {K : Type}

set_option linter.unusedSectionVars false

theorem put_cons {ι : Type} (a : ι) (L : List ι) (g : ι → Nat) (v : ι → K) (U : Nat → K) :
    put (a :: L) g v U = put L g v (wr U (g a) (v a)) := rfl

theorem cp_cons {ι : Type} (a : ι) (L : List ι) (g s : ι → Nat) (U : Nat → K) :
    cp (a :: L) g s U = cp L g s (wr U (g a) (U (s a))) := rfl

theorem put_off {ι : Type} {L : List ι} {g : ι → Nat} {v : ι → K} {U : Nat → K} {p : Nat}
    (h : ∀ y ∈ L, g y ≠ p) : put L g v U p = U p := by
  induction L generalizing U with
  | nil => rfl
  | cons a L ih =>
    rw [put_cons, ih (fun y hy => h y (List.mem_cons_of_mem _ hy)), wr_ne _ _ (fun e => h a (List.mem_cons_self ..) e.symm)]

theorem put_at {ι : Type} {L : List ι} {g : ι → Nat} {v : ι → K} {U : Nat → K} {p : Nat} {c : K}
    (hx : ∃ x ∈ L, g x = p) (h : ∀ y ∈ L, g y = p → v y = c) : put L g v U p = c := by
  induction L generalizing U with
  | nil => obtain ⟨x, hx, _⟩ := hx; cases hx
  | cons a L ih =>
    rw [put_cons]
    by_cases hr : ∃ x ∈ L, g x = p
    · exact ih hr (fun y hy => h y (List.mem_cons_of_mem _ hy))
    · rw [put_off (fun y hy e => hr ⟨y, hy, e⟩)]
      obtain ⟨x, hx, e⟩ := hx
      rcases List.mem_cons.mp hx with rfl | hx
      · rw [← e, wr_same, h x (List.mem_cons_self ..) e]
      · exact absurd ⟨x, hx, e⟩ hr

theorem cp_off {ι : Type} {L : List ι} {g s : ι → Nat} {U : Nat → K} {p : Nat}
    (h : ∀ y ∈ L, g y ≠ p) : cp L g s U p = U p := by
  induction L generalizing U with
  | nil => rfl
  | cons a L ih =>
    rw [cp_cons, ih (fun y hy => h y (List.mem_cons_of_mem _ hy)), wr_ne _ _ (fun e => h a (List.mem_cons_self ..) e.symm)]

/-- copies whose sources are never written -/
theorem cp_at {ι : Type} {L : List ι} {g s : ι → Nat} {U : Nat → K} {p t : Nat}
    (hx : ∃ x ∈ L, g x = p) (h : ∀ y ∈ L, g y = p → s y = t) (hs : ∀ y ∈ L, ∀ z ∈ L, g z ≠ s y) :
    cp L g s U p = U t := by
  induction L generalizing U with
  | nil => obtain ⟨x, hx, _⟩ := hx; cases hx
  | cons a L ih =>
    rw [cp_cons]
    by_cases hr : ∃ x ∈ L, g x = p
    · rw [ih hr (fun y hy => h y (List.mem_cons_of_mem _ hy))
        (fun y hy z hz => hs y (List.mem_cons_of_mem _ hy) z (List.mem_cons_of_mem _ hz))]
      obtain ⟨x, hx, e⟩ := hr
      refine wr_ne _ _ (fun e' => hs x (List.mem_cons_of_mem _ hx) a (List.mem_cons_self ..) ?_)
      rw [h x (List.mem_cons_of_mem _ hx) e, ← e']
    · rw [cp_off (fun y hy e => hr ⟨y, hy, e⟩)]
      obtain ⟨x, hx, e⟩ := hx
      rcases List.mem_cons.mp hx with rfl | hx
      · rw [← e, wr_same, h x (List.mem_cons_self ..) e]
      · exact absurd ⟨x, hx, e⟩ hr

/-- passes which own their positions and write there a value independent of the memory -/
theorem fold_at {ι : Type} {L : List ι} {step : ι → (Nat → K) → Nat → K} {U : Nat → K} {p : Nat} (c : K)
    (own : ι → Prop) (h1 : ∀ x ∈ L, own x → ∀ U, step x U p = c) (h2 : ∀ x ∈ L, ¬ own x → ∀ U, step x U p = U p)
    (hx : ∃ x ∈ L, own x) : L.foldl (fun U x => step x U) U p = c := by
  have key : ∀ (L' : List ι) (U : Nat → K), (∀ x ∈ L', x ∈ L) → (U p = c ∨ ∃ x ∈ L', own x) →
      L'.foldl (fun U x => step x U) U p = c := by
    intro L'
    induction L' with
    | nil =>
      intro U _ h
      rcases h with h | ⟨x, hx, _⟩
      · exact h
      · cases hx
    | cons a L' ih =>
      intro U hm h
      have ha := hm a (List.mem_cons_self ..)
      rw [List.foldl_cons]
      refine ih _ (fun x hx => hm x (List.mem_cons_of_mem _ hx)) ?_
      by_cases ho : own a
      · exact Or.inl (h1 a ha ho U)
      · rcases h with h | ⟨x, hx, hox⟩
        · exact Or.inl ((h2 a ha ho U).trans h)
        · rcases List.mem_cons.mp hx with rfl | hx
          · exact absurd hox ho
          · exact Or.inr ⟨x, hx, hox⟩
  exact key L U (fun _ h => h) (Or.inr hx)

theorem mem_box2 {a b : Nat} {x : Nat × Nat} : x ∈ box2 a b ↔ x.1 < a ∧ x.2 < b := by
  rcases x with ⟨i, j⟩
  simp only [box2, List.mem_flatMap, List.mem_range, List.mem_map, Prod.mk.injEq]
  constructor
  · rintro ⟨i', hi, j', hj, rfl, rfl⟩; exact ⟨hi, hj⟩
  · rintro ⟨hi, hj⟩; exact ⟨i, hi, j, hj, rfl, rfl⟩

theorem mem_box3 {a b c : Nat} {x : Nat × Nat × Nat} : x ∈ box3 a b c ↔ x.1 < a ∧ x.2.1 < b ∧ x.2.2 < c := by
  rcases x with ⟨i, j, k⟩
  simp only [box3, List.mem_flatMap, List.mem_range, List.mem_map, Prod.mk.injEq]
  constructor
  · rintro ⟨i', hi, y, hy, rfl, rfl, rfl⟩; exact ⟨hi, mem_box2.mp hy⟩
  · rintro ⟨hi, hj⟩; exact ⟨i, hi, (j, k), mem_box2.mpr hj, rfl, rfl, rfl⟩

theorem mem_box4 {a b c d : Nat} {x : Nat × Nat × Nat × Nat} :
    x ∈ box4 a b c d ↔ x.1 < a ∧ x.2.1 < b ∧ x.2.2.1 < c ∧ x.2.2.2 < d := by
  rcases x with ⟨i, j, k, l⟩
  simp only [box4, List.mem_flatMap, List.mem_range, List.mem_map, Prod.mk.injEq]
  constructor
  · rintro ⟨i', hi, y, hy, rfl, rfl, rfl, rfl⟩; exact ⟨hi, mem_box3.mp hy⟩
  · rintro ⟨hi, hj⟩; exact ⟨i, hi, (j, k, l), mem_box3.mpr hj, rfl, rfl, rfl, rfl⟩

theorem mem_from {a b i : Nat} : i ∈ from' a b ↔ a ≤ i ∧ i < b := by
  unfold from'
  rw [List.mem_range'_1]
  omega

theorem mem_from2 {a b c : Nat} {x : Nat × Nat} : x ∈ from2 a b c ↔ (a ≤ x.1 ∧ x.1 < b) ∧ x.2 < c := by
  rcases x with ⟨i, j⟩
  simp only [from2, List.mem_flatMap, mem_from, List.mem_range, List.mem_map, Prod.mk.injEq]
  constructor
  · rintro ⟨i', hi, j', hj, rfl, rfl⟩; exact ⟨hi, hj⟩
  · rintro ⟨hi, hj⟩; exact ⟨i, hi, j, hj, rfl, rfl⟩

theorem mem_from3 {a b c d : Nat} {x : Nat × Nat × Nat} :
    x ∈ from3 a b c d ↔ (a ≤ x.1 ∧ x.1 < b) ∧ x.2.1 < c ∧ x.2.2 < d := by
  rcases x with ⟨i, j, k⟩
  simp only [from3, List.mem_flatMap, mem_from, List.mem_map, Prod.mk.injEq]
  constructor
  · rintro ⟨i', hi, y, hy, rfl, rfl, rfl⟩; exact ⟨hi, mem_box2.mp hy⟩
  · rintro ⟨hi, hj⟩; exact ⟨i, hi, (j, k), mem_box2.mpr hj, rfl, rfl, rfl⟩

/-- quotient and remainder are unique -/
theorem dm {q n n' i i' : Nat} (h : n < q) (h' : n' < q) (e : n + q * i = n' + q * i') : n = n' ∧ i = i' := by
  have h1 : (n + q * i) % q = (n' + q * i') % q := by rw [e]
  have h2 : (n + q * i) / q = (n' + q * i') / q := by rw [e]
  rw [Nat.add_mul_mod_self_left, Nat.add_mul_mod_self_left, Nat.mod_eq_of_lt h, Nat.mod_eq_of_lt h'] at h1
  rw [Nat.add_mul_div_left _ _ (by omega), Nat.add_mul_div_left _ _ (by omega), Nat.div_eq_of_lt h,
    Nat.div_eq_of_lt h'] at h2
  exact ⟨h1, by omega⟩

/-- The position of component `k` of function `i` at point `n` of tetrahedron `r` (fem_space.h:148). -/
def addr (dim q nfa r i n k : Nat) : Nat := k + dim * (n + q * (i + nfa * r))

theorem addr_inj {dim q nfa r i n k r' i' n' k' : Nat} (hk : k < dim) (hk' : k' < dim) (hn : n < q) (hn' : n' < q)
    (hi : i < nfa) (hi' : i' < nfa) (e : addr dim q nfa r i n k = addr dim q nfa r' i' n' k') :
    r = r' ∧ i = i' ∧ n = n' ∧ k = k' := by
  obtain ⟨e1, e2⟩ := dm hk hk' e
  obtain ⟨e3, e4⟩ := dm hn hn' e2
  obtain ⟨e5, e6⟩ := dm hi hi' e4
  exact ⟨e6, e5, e3, e1⟩

theorem addr_lt {dim q nfa f r i n k : Nat} (hk : k < dim) (hn : n < q) (hi : i < nfa) (hr : r < f) :
    addr dim q nfa r i n k < dim * q * (nfa * f) := by
  unfold addr
  have h1 : i + nfa * r + 1 ≤ nfa * f := by
    calc i + nfa * r + 1 ≤ nfa * r + nfa := by omega
      _ = nfa * (r + 1) := by ring
      _ ≤ nfa * f := Nat.mul_le_mul_left _ hr
  have h2 : n + q * (i + nfa * r) + 1 ≤ q * (nfa * f) := by
    calc n + q * (i + nfa * r) + 1 ≤ q * (i + nfa * r) + q := by omega
      _ = q * (i + nfa * r + 1) := by ring
      _ ≤ q * (nfa * f) := Nat.mul_le_mul_left _ h1
  calc k + dim * (n + q * (i + nfa * r)) < dim * (n + q * (i + nfa * r)) + dim := by omega
    _ = dim * (n + q * (i + nfa * r) + 1) := by ring
    _ ≤ dim * (q * (nfa * f)) := Nat.mul_le_mul_left _ h2
    _ = dim * q * (nfa * f) := by ring

theorem fill_at {n : Nat} {c : K} {U : Nat → K} {p : Nat} (h : p < n) : fill n c U p = c :=
  put_at ⟨p, List.mem_range.mpr h, rfl⟩ (fun _ _ _ => rfl)

theorem fill_off {n : Nat} {c : K} {U : Nat → K} {p : Nat} (h : n ≤ p) : fill n c U p = U p :=
  put_off (fun y hy e => by rw [List.mem_range] at hy; simp only [id] at e; omega)

/-- all blocks equal the first one after `copyBlocks` -/
theorem copyBlocks_at {f N r t : Nat} {U : Nat → K} (hr : r < f) (ht : t < N) : copyBlocks f N U (N * r + t) = U t := by
  unfold copyBlocks
  rcases Nat.eq_zero_or_pos r with rfl | h0
  · rw [cp_off, Nat.mul_zero, Nat.zero_add]
    intro y hy e
    rw [mem_from2] at hy
    have := (dm hy.2 ht (by omega : y.2 + N * y.1 = t + N * 0)).2
    omega
  · refine cp_at ⟨(r, t), mem_from2.mpr ⟨⟨h0, hr⟩, ht⟩, rfl⟩ ?_ ?_
    · intro y hy e
      rw [mem_from2] at hy
      exact (dm hy.2 ht (by omega : y.2 + N * y.1 = t + N * r)).1
    · intro y hy z hz e
      rw [mem_from2] at hy hz
      have := (dm hz.2 hy.2 (by omega : z.2 + N * z.1 = y.2 + N * 0)).2
      omega

theorem copyCols_at {f nfa q r i n : Nat} {U : Nat → K} (hr : r < f) (hi : i < nfa) (hn : n < q) :
    copyCols f nfa q U (n + q * (i + nfa * r)) = U (n + q * i) := by
  unfold copyCols
  rcases Nat.eq_zero_or_pos r with rfl | h0
  · rw [cp_off, Nat.mul_zero, Nat.add_zero]
    intro y hy e
    rw [mem_from3] at hy
    have h1 := (dm hy.2.2 hn e).2
    have := (dm hy.2.1 hi (by rw [Nat.mul_comm nfa y.1]; exact h1 : y.2.1 + nfa * y.1 = i + nfa * 0)).2
    omega
  · refine cp_at ⟨(r, i, n), mem_from3.mpr ⟨⟨h0, hr⟩, hi, hn⟩, ?_⟩ ?_ ?_
    · show n + q * (i + r * nfa) = n + q * (i + nfa * r)
      rw [Nat.mul_comm r]
    · intro y hy e
      rw [mem_from3] at hy
      obtain ⟨h1, h2⟩ := dm hy.2.2 hn e
      have h3 := (dm hy.2.1 hi (by rw [Nat.mul_comm nfa y.1]; exact h2 : y.2.1 + nfa * y.1 = i + nfa * r)).1
      rw [h1, h3]
    · intro y hy z hz e
      rw [mem_from3] at hy hz
      obtain ⟨_, h2⟩ := dm hz.2.2 hy.2.2 e
      have := (dm hz.2.1 hy.2.1 (by rw [Nat.mul_comm nfa z.1, Nat.mul_zero]; exact h2 :
        z.2.1 + nfa * z.1 = y.2.1 + nfa * 0)).2
      omega

section Values
variable [Field K]

theorem fold3 (a : Nat → K) : (List.range 3).foldl (fun s j => s + a j) 0 = a 0 + a 1 + a 2 := by
  simp [List.range_succ]

theorem p0Iden_at (m : Mem K) (U : Nat → K) {r n : Nat} (hr : r < m.f) (hn : n < m.q) :
    p0Iden m U (addr 1 m.q 1 r 0 n 0) = 1 := fill_at (addr_lt (by omega) hn (by omega) hr)

theorem p0Grad_at (m : Mem K) (U : Nat → K) {r n k : Nat} (hr : r < m.f) (hn : n < m.q) (hk : k < 3) :
    p0Grad m U (addr 3 m.q 1 r 0 n k) = 0 := fill_at (addr_lt hk hn (by omega) hr)

theorem p0Dudx_at (c : Nat) (m : Mem K) (U : Nat → K) {r n : Nat} (hr : r < m.f) (hn : n < m.q) :
    p0Dudx c m U (addr 1 m.q 1 r 0 n 0) = 0 := fill_at (addr_lt (by omega) hn (by omega) hr)

/-- the first stage of IDEN for scalar spaces: column `i`, row `n` -/
theorem cols_at {q a i n : Nat} {v : Nat × Nat → K} {U : Nat → K} (hi : i < a) (hn : n < q) :
    put (box2 a q) (fun x => x.2 + q * x.1) v U (n + q * i) = v (i, n) := by
  refine put_at ⟨(i, n), mem_box2.mpr ⟨hi, hn⟩, rfl⟩ ?_
  rintro ⟨i', n'⟩ hy e
  rw [mem_box2] at hy
  obtain ⟨rfl, rfl⟩ := dm hy.2 hn e
  rfl

theorem cols_off {q a i n : Nat} {v : Nat × Nat → K} {U : Nat → K} (hi : a ≤ i) (hn : n < q) :
    put (box2 a q) (fun x => x.2 + q * x.1) v U (n + q * i) = U (n + q * i) := by
  refine put_off ?_
  rintro ⟨i', n'⟩ hy e
  rw [mem_box2] at hy
  obtain ⟨rfl, rfl⟩ := dm hy.2 hn e
  have := hy.1
  simp only at this
  omega

theorem colsFrom_at {q a b i n : Nat} {v : Nat × Nat → K} {U : Nat → K} (ha : a ≤ i) (hi : i < b) (hn : n < q) :
    put (from2 a b q) (fun x => x.2 + q * x.1) v U (n + q * i) = v (i, n) := by
  refine put_at ⟨(i, n), mem_from2.mpr ⟨⟨ha, hi⟩, hn⟩, rfl⟩ ?_
  rintro ⟨i', n'⟩ hy e
  rw [mem_from2] at hy
  obtain ⟨rfl, rfl⟩ := dm hy.2 hn e
  rfl

theorem colsFrom_off {q a b i n : Nat} {v : Nat × Nat → K} {U : Nat → K} (hi : i < a ∨ b ≤ i) (hn : n < q) :
    put (from2 a b q) (fun x => x.2 + q * x.1) v U (n + q * i) = U (n + q * i) := by
  refine put_off ?_
  rintro ⟨i', n'⟩ hy e
  rw [mem_from2] at hy
  obtain ⟨rfl, rfl⟩ := dm hy.2 hn e
  have := hy.1
  simp only at this
  omega

theorem addr1 (q nfa r i n : Nat) : addr 1 q nfa r i n 0 = n + q * (i + nfa * r) := by
  unfold addr; omega

theorem addr1' (q nfa r i n : Nat) : addr 1 q nfa r i n 0 = nfa * q * r + (n + q * i) := by
  unfold addr; ring

theorem col_lt {q nfa i n : Nat} (hi : i < nfa) (hn : n < q) : n + q * i < nfa * q := by
  calc n + q * i < q * i + q := by omega
    _ = q * (i + 1) := by ring
    _ ≤ q * nfa := Nat.mul_le_mul_left _ hi
    _ = nfa * q := Nat.mul_comm _ _

theorem p1Iden_at (m : Mem K) (U : Nat → K) {r i n : Nat} (hr : r < m.f) (hi : i < 4) (hn : n < m.q) :
    p1Iden m U (addr 1 m.q 4 r i n 0) = m.xyl (i + 4 * n) := by
  rw [p1Iden, addr1', copyBlocks_at hr (col_lt hi hn), Nat.one_mul, cols_at hi hn]

theorem p1Grad_at (m : Mem K) (U : Nat → K) {r i n k : Nat} (hr : r < m.f) (hi : i < 4) (hn : n < m.q) (hk : k < 3) :
    p1Grad m U (addr 3 m.q 4 r i n k) = p1S m r (k + 3 * i) := by
  refine put_at ⟨(r, i, n, k), mem_box4.mpr ⟨hr, hi, hn, hk⟩, rfl⟩ ?_
  rintro ⟨r', i', n', k'⟩ hy e
  rw [mem_box4] at hy
  obtain ⟨rfl, rfl, rfl, rfl⟩ := addr_inj hy.2.2.2 hk hy.2.2.1 hn hy.2.1 hi e
  rfl

theorem p1Dudx_at (c : Nat) (m : Mem K) (U : Nat → K) {r i n : Nat} (hr : r < m.f) (hi : i < 4) (hn : n < m.q) :
    p1Dudx c m U (addr 1 m.q 4 r i n 0) = p1S m r (c + 3 * i) := by
  rw [addr1]
  refine put_at ⟨(r, i, n), mem_box3.mpr ⟨hr, hi, hn⟩, rfl⟩ ?_
  rintro ⟨r', i', n'⟩ hy e
  rw [mem_box3] at hy
  obtain ⟨rfl, h⟩ := dm hy.2.2 hn e
  obtain ⟨rfl, rfl⟩ := dm hy.2.1 hi h
  rfl

theorem pullback_at (m : Mem K) (nfa : Nat) (G U : Nat → K) {r i n k : Nat} (hr : r < m.f) (hi : i < nfa)
    (hn : n < m.q) (hk : k < 3) : pullback m nfa G U (addr 3 m.q nfa r i n k) =
      m.psi (9 * r + (0 + 3 * k)) * G (0 + 3 * (i + nfa * n)) + m.psi (9 * r + (1 + 3 * k)) * G (1 + 3 * (i + nfa * n)) +
        m.psi (9 * r + (2 + 3 * k)) * G (2 + 3 * (i + nfa * n)) := by
  refine put_at ⟨(r, i, n, k), mem_box4.mpr ⟨hr, hi, hn, hk⟩, rfl⟩ ?_
  rintro ⟨r', i', n', k'⟩ hy e
  rw [mem_box4] at hy
  obtain ⟨rfl, rfl, rfl, rfl⟩ := addr_inj hy.2.2.2 hk hy.2.2.1 hn hy.2.1 hi e
  rw [fold3]
  have : ∀ j, j + 3 * (k' + 3 * r') = 9 * r' + (j + 3 * k') := fun j => by ring
  simp only [this]

theorem p2Iden_at (m : Mem K) (U : Nat → K) {r i n : Nat} (hr : r < m.f) (hi : i < 10) (hn : n < m.q) :
    p2Iden m U (addr 1 m.q 10 r i n 0) =
      if i < 4 then m.xyl (i + 4 * n) * (2 * m.xyl (i + 4 * n) - 1)
      else 4 * m.xyl (tI (i - 4) + 4 * n) * m.xyl (tJ (i - 4) + 4 * n) := by
  rw [p2Iden, addr1, Nat.one_mul, copyCols_at hr hi hn]
  split
  · next h => rw [colsFrom_off (Or.inl h) hn, cols_at h hn]
  · next h => rw [colsFrom_at (by omega) hi hn]

/-- a stage of a table of reference gradients: rows `d < 3`, columns `i + a` with `i < b`, `w` columns for every point -/
theorem tab_at {q b a w i n d : Nat} {v : Nat × Nat × Nat → K} {E : Nat → K} (hb : b + a ≤ w) (hi : i < b) (hn : n < q)
    (hd : d < 3) : put (box3 q b 3) (fun x => x.2.2 + 3 * (x.2.1 + a + w * x.1)) v E (d + 3 * (i + a + w * n)) =
      v (n, i, d) := by
  refine put_at ⟨(n, i, d), mem_box3.mpr ⟨hn, hi, hd⟩, rfl⟩ ?_
  rintro ⟨n', i', d'⟩ hy e
  rw [mem_box3] at hy
  obtain ⟨rfl, h⟩ := dm hy.2.2 hd e
  have h1 := hy.2.1
  simp only at h1
  obtain ⟨h2, rfl⟩ := dm (by omega) (by omega) h
  obtain rfl : i' = i := Nat.add_right_cancel h2
  rfl

theorem tab_off {q b a w i n d : Nat} {v : Nat × Nat × Nat → K} {E : Nat → K} (hb : b + a ≤ w) (hw : i < w)
    (hi : i < a ∨ b + a ≤ i) (hd : d < 3) :
    put (box3 q b 3) (fun x => x.2.2 + 3 * (x.2.1 + a + w * x.1)) v E (d + 3 * (i + w * n)) = E (d + 3 * (i + w * n)) := by
  refine put_off ?_
  rintro ⟨n', i', d'⟩ hy e
  rw [mem_box3] at hy
  obtain ⟨rfl, h⟩ := dm hy.2.2 hd e
  have h1 := hy.2.1
  simp only at h1
  obtain ⟨h2, rfl⟩ := dm (by omega) (by omega) h
  omega

theorem p2Table_at (m : Mem K) (E : Nat → K) {i n d : Nat} (hi : i < 10) (hn : n < m.q) (hd : d < 3) :
    p2Table m E (d + 3 * (i + 10 * n)) =
      if i < 4 then gradP1 (d + 3 * i) * (4 * m.xyl (i + 4 * n) - 1)
      else 4 * (gradP1 (d + 3 * tJ (i - 4)) * m.xyl (tI (i - 4) + 4 * n) +
        gradP1 (d + 3 * tI (i - 4)) * m.xyl (tJ (i - 4) + 4 * n)) := by
  unfold p2Table
  split
  · next h =>
    rw [tab_off (by omega) hi (Or.inl h) hd]
    exact tab_at (a := 0) (by omega) h hn hd
  · next h =>
    obtain ⟨j, rfl⟩ : ∃ j, i = j + 4 := ⟨i - 4, by omega⟩
    rw [tab_at (by omega) (by omega) hn hd]
    simp only [Nat.add_sub_cancel]

theorem p3Iden_at (m : Mem K) (U : Nat → K) {r i n : Nat} (hr : r < m.f) (hi : i < 20) (hn : n < m.q) :
    p3Iden m U (addr 1 m.q 20 r i n 0) =
      let L := fun a => m.xyl (a + 4 * n)
      if i < 4 then L i * (3 * L i - 1) * (3 * L i - 2) / 2
      else if i < 16 then
        let s1 := L (tI ((i - 4) / 2))
        let s2 := L (tJ ((i - 4) / 2))
        if (i - 4) % 2 = 0 then s1 * (3 * s1 - 1) * s2 * (9 / 2) else s1 * (3 * s2 - 1) * s2 * (9 / 2)
      else 27 * L (ipf (0 + 4 * (i - 16))) * L (ipf (1 + 4 * (i - 16))) * L (ipf (2 + 4 * (i - 16))) := by
  rw [p3Iden, addr1, Nat.one_mul, copyCols_at hr hi hn]
  have st3 := fun (v : Nat × Nat → K) (U : Nat → K) (h : 16 ≤ i) =>
    colsFrom_at (q := m.q) (a := 16) (b := 20) (i := i) (n := n) (v := v) (U := U) h hi hn
  have st3' := fun (v : Nat × Nat → K) (U : Nat → K) (h : i < 16) =>
    colsFrom_off (q := m.q) (a := 16) (b := 20) (i := i) (n := n) (v := v) (U := U) (Or.inl h) hn
  have st1 := fun (v : Nat × Nat → K) (U : Nat → K) (h : i < 4) =>
    cols_at (q := m.q) (a := 4) (i := i) (n := n) (v := v) (U := U) h hn
  have st2 : ∀ (v : Nat × Nat × Nat → K) (U : Nat → K), 4 ≤ i → i < 16 →
      put (from3 4 10 m.q 2) (fun x => x.2.1 + m.q * (4 + (x.1 - 4) * 2 + x.2.2)) v U (n + m.q * i) =
        v (4 + (i - 4) / 2, n, (i - 4) % 2) := by
    intro v U h4 h16
    refine put_at ⟨(4 + (i - 4) / 2, n, (i - 4) % 2), mem_from3.mpr ⟨⟨by simp, ?_⟩, hn, ?_⟩, ?_⟩ ?_
    · show 4 + (i - 4) / 2 < 10
      omega
    · exact Nat.mod_lt _ (by omega)
    · show n + m.q * (4 + (4 + (i - 4) / 2 - 4) * 2 + (i - 4) % 2) = n + m.q * i
      rw [show 4 + (4 + (i - 4) / 2 - 4) * 2 + (i - 4) % 2 = i by omega]
    · rintro ⟨a, b, c⟩ hy e
      rw [mem_from3] at hy
      obtain ⟨rfl, h⟩ := dm hy.2.1 hn e
      have h1 := hy.1
      have h2 := hy.2.2
      simp only at h1 h2 h
      rw [show 4 + (i - 4) / 2 = a by omega, show (i - 4) % 2 = c by omega]
  have st2' : ∀ (v : Nat × Nat × Nat → K) (U : Nat → K), i < 4 →
      put (from3 4 10 m.q 2) (fun x => x.2.1 + m.q * (4 + (x.1 - 4) * 2 + x.2.2)) v U (n + m.q * i) =
        U (n + m.q * i) := by
    intro v U h4
    refine put_off ?_
    rintro ⟨a, b, c⟩ hy e
    rw [mem_from3] at hy
    obtain ⟨rfl, h⟩ := dm hy.2.1 hn e
    simp only at h
    omega
  by_cases h4 : i < 4
  · rw [st3' _ _ (by omega), st2' _ _ h4, st1 _ _ h4]
    simp only [if_pos h4]
  · by_cases h16 : i < 16
    · rw [st3' _ _ h16, st2 _ _ (by omega) h16]
      simp only [if_neg h4, if_pos h16]
      rw [show 4 + (i - 4) / 2 - 4 = (i - 4) / 2 by omega]
    · rw [st3 _ _ (by omega)]
      simp only [if_neg h4, if_neg h16]

theorem p3Table_at (m : Mem K) (E : Nat → K) {i n d : Nat} (hi : i < 20) (hn : n < m.q) (hd : d < 3) :
    p3Table m E (d + 3 * (i + 20 * n)) =
      let L := fun a => m.xyl (a + 4 * n)
      let G := fun a => gradP1 (d + 3 * a)
      if i < 4 then G i * ((27 / 2 * L i - 9) * L i + 1)
      else if i < 16 then
        let I := tI ((i - 4) / 2)
        let J := tJ ((i - 4) / 2)
        if (i - 4) % 2 = 0 then (G I * (6 * L I - 1) * L J + G J * (3 * L I - 1) * L I) * (9 / 2)
        else (G J * (6 * L J - 1) * L I + G I * (3 * L J - 1) * L J) * (9 / 2)
      else
        let a := ipf (4 * (i - 16))
        let b := ipf (1 + 4 * (i - 16))
        let c := ipf (2 + 4 * (i - 16))
        27 * (G a * L b * L c + L a * G b * L c + L a * L b * G c) := by
  unfold p3Table
  have st2 : ∀ (v : Nat × Nat × Nat × Nat → K) (E : Nat → K), 4 ≤ i → i < 16 →
      put (box4 m.q 6 3 2) (fun x => x.2.2.1 + 3 * (4 + x.2.1 * 2 + x.2.2.2 + 20 * x.1)) v E (d + 3 * (i + 20 * n)) =
        v (n, (i - 4) / 2, d, (i - 4) % 2) := by
    intro v E h4 h16
    refine put_at ⟨(n, (i - 4) / 2, d, (i - 4) % 2), mem_box4.mpr ⟨hn, ?_, hd, ?_⟩, ?_⟩ ?_
    · show (i - 4) / 2 < 6
      omega
    · exact Nat.mod_lt _ (by omega)
    · show d + 3 * (4 + (i - 4) / 2 * 2 + (i - 4) % 2 + 20 * n) = d + 3 * (i + 20 * n)
      omega
    · rintro ⟨n', e', d', b'⟩ hy e
      rw [mem_box4] at hy
      obtain ⟨rfl, h⟩ := dm hy.2.2.1 hd e
      have h1 : e' < 6 := hy.2.1
      have h2 : b' < 2 := hy.2.2.2
      obtain ⟨h3, rfl⟩ := dm (show 4 + e' * 2 + b' < 20 by omega) (show i < 20 by omega) h
      rw [show (i - 4) / 2 = e' by omega, show (i - 4) % 2 = b' by omega]
  have st2' : ∀ (v : Nat × Nat × Nat × Nat → K) (E : Nat → K), i < 4 →
      put (box4 m.q 6 3 2) (fun x => x.2.2.1 + 3 * (4 + x.2.1 * 2 + x.2.2.2 + 20 * x.1)) v E (d + 3 * (i + 20 * n)) =
        E (d + 3 * (i + 20 * n)) := by
    intro v E h4
    refine put_off ?_
    rintro ⟨n', e', d', b'⟩ hy e
    rw [mem_box4] at hy
    obtain ⟨rfl, h⟩ := dm hy.2.2.1 hd e
    have h1 : e' < 6 := hy.2.1
    have h2 : b' < 2 := hy.2.2.2
    obtain ⟨h3, -⟩ := dm (show 4 + e' * 2 + b' < 20 by omega) (show i < 20 by omega) h
    omega
  by_cases h4 : i < 4
  · rw [tab_off (by omega) hi (Or.inl (by omega)) hd, st2' _ _ h4]
    refine (tab_at (a := 0) (by omega) h4 hn hd).trans ?_
    simp only [if_pos h4]
  · by_cases h16 : i < 16
    · rw [tab_off (by omega) hi (Or.inl (by omega)) hd, st2 _ _ (by omega) h16]
      simp only [if_neg h4, if_pos h16]
    · obtain ⟨j, rfl⟩ : ∃ j, i = j + 16 := ⟨i - 16, by omega⟩
      rw [tab_at (by omega) (by omega) hn hd]
      simp only [if_neg h4, if_neg h16, Nat.add_sub_cancel]

theorem b2Iden_at (m : Mem K) (U : Nat → K) {r i n : Nat} (hr : r < m.f) (hi : i < 6) (hn : n < m.q) :
    b2Iden m U (addr 1 m.q 6 r i n 0) = 4 * m.xyl (tI i + 4 * n) * m.xyl (tJ i + 4 * n) := by
  rw [b2Iden, addr1, Nat.one_mul, copyCols_at hr hi hn, cols_at hi hn]

theorem b2Table_at (m : Mem K) (E : Nat → K) {i n d : Nat} (hi : i < 6) (hn : n < m.q) (hd : d < 3) :
    b2Table m E (d + 3 * (i + 6 * n)) = 4 * (gradP1 (d + 3 * tJ i) * m.xyl (tI i + 4 * n) +
      gradP1 (d + 3 * tI i) * m.xyl (tJ i + 4 * n)) := by
  unfold b2Table
  exact tab_at (a := 0) (by omega) hi hn hd

theorem b4Iden_at (m : Mem K) (U : Nat → K) {r n : Nat} (hr : r < m.f) (hn : n < m.q) :
    b4Iden m U (addr 1 m.q 1 r 0 n 0) =
      256 * m.xyl (0 + 4 * n) * m.xyl (1 + 4 * n) * m.xyl (2 + 4 * n) * m.xyl (3 + 4 * n) := by
  rw [b4Iden, addr1', Nat.one_mul, Nat.mul_zero, Nat.add_zero, copyBlocks_at hr hn]
  exact put_at ⟨n, List.mem_range.mpr hn, rfl⟩ (fun y _ e => by simp only [id] at e; rw [e])

theorem b4Table_at (m : Mem K) (E : Nat → K) {n d : Nat} (hn : n < m.q) (hd : d < 3) :
    b4Table m E (d + 3 * (0 + 1 * n)) =
      let L := fun a => m.xyl (a + 4 * n)
      256 * (gradP1 (d + 3 * 0) * (L 1 * L 2 * L 3) + gradP1 (d + 3 * 1) * (L 0 * L 2 * L 3) +
        gradP1 (d + 3 * 2) * (L 0 * L 1 * L 3) + gradP1 (d + 3 * 3) * (L 0 * L 1 * L 2)) := by
  rw [Nat.zero_add, Nat.one_mul]
  refine put_at ⟨(n, d), mem_box2.mpr ⟨hn, hd⟩, rfl⟩ ?_
  rintro ⟨n', d'⟩ hy e
  rw [mem_box2] at hy
  obtain ⟨rfl, rfl⟩ := dm hy.2 hd e
  rfl

theorem cr1Iden_at (m : Mem K) (U : Nat → K) {r i n : Nat} (hr : r < m.f) (hi : i < 4) (hn : n < m.q) :
    cr1Iden m U (addr 1 m.q 4 r i n 0) = 1 - 3 * m.xyl (ipf3 i + 4 * n) := by
  rw [cr1Iden, addr1', copyBlocks_at hr (col_lt hi hn), Nat.one_mul, cols_at hi hn]

/-- the first point of a column is computed, the others are copied: inside the column -/
theorem spread_at {q dim c n k : Nat} {v : Nat → K} {U : Nat → K} (hn : n < q) (hk : k < dim) :
    cp (from2 1 q dim) (fun y => y.2 + dim * y.1 + c) (fun y => y.2 + c) (put (List.range dim) (fun k => k + c) v U)
      (k + dim * n + c) = v k := by
  have h0 : put (List.range dim) (fun k => k + c) v U (k + c) = v k := by
    refine put_at ⟨k, List.mem_range.mpr hk, rfl⟩ (fun y _ e => ?_)
    rw [show y = k by omega]
  rcases Nat.eq_zero_or_pos n with rfl | hp
  · rw [Nat.mul_zero, Nat.add_zero, cp_off, h0]
    rintro ⟨a, b⟩ hy e
    rw [mem_from2] at hy
    simp only at hy e
    have := (dm hy.2 hk (by omega : b + dim * a = k + dim * 0)).2
    omega
  · rw [← h0]
    refine cp_at ⟨(n, k), mem_from2.mpr ⟨⟨hp, hn⟩, hk⟩, rfl⟩ ?_ ?_
    · rintro ⟨a, b⟩ hy e
      rw [mem_from2] at hy
      simp only at hy e
      rw [(dm hy.2 hk (by omega : b + dim * a = k + dim * n)).1]
    · rintro ⟨a, b⟩ hy ⟨a', b'⟩ hz e
      rw [mem_from2] at hy hz
      simp only at hy hz e
      have := (dm hz.2 hy.2 (by omega : b' + dim * a' = b + dim * 0)).2
      omega

/-- outside the column -/
theorem spread_off {q dim c p : Nat} {v : Nat → K} {U : Nat → K} (hq : 0 < q) (hp : p < c ∨ c + dim * q ≤ p) :
    cp (from2 1 q dim) (fun y => y.2 + dim * y.1 + c) (fun y => y.2 + c) (put (List.range dim) (fun k => k + c) v U) p =
      U p := by
  rw [cp_off, put_off]
  · intro y hy e
    rw [List.mem_range] at hy
    have : dim * 1 ≤ dim * q := Nat.mul_le_mul_left _ hq
    omega
  · rintro ⟨a, b⟩ hy e
    rw [mem_from2] at hy
    simp only at hy e
    have : dim * (a + 1) ≤ dim * q := Nat.mul_le_mul_left _ hy.1.2
    rw [Nat.mul_add] at this
    omega

/-- two different columns do not overlap -/
theorem block_ne {N a b t : Nat} (ht : t < N) (h : a ≠ b) : N * a + t < N * b ∨ N * b + N ≤ N * a + t := by
  rcases Nat.lt_or_gt_of_ne h with h | h
  · left
    calc N * a + t < N * (a + 1) := by rw [Nat.mul_add]; omega
      _ ≤ N * b := Nat.mul_le_mul_left _ h
  · right
    calc N * b + N = N * (b + 1) := by ring
      _ ≤ N * a := Nat.mul_le_mul_left _ h
      _ ≤ _ := Nat.le_add_right _ _

/-- a sweep over the columns `(r, i)`, each filled from its first point -/
theorem sweep_at {f nfa q dim off r i n k : Nat} {v : Nat × Nat → Nat → K} {U : Nat → K} (hr : r < f) (hi : i < nfa)
    (hn : n < q) (hk : k < dim) :
    (box2 f nfa).foldl (fun U x =>
      cp (from2 1 q dim) (fun y => y.2 + dim * y.1 + (off + dim * q * (x.2 + nfa * x.1)))
        (fun y => y.2 + (off + dim * q * (x.2 + nfa * x.1)))
        (put (List.range dim) (fun k => k + (off + dim * q * (x.2 + nfa * x.1))) (v x) U)) U
      (off + addr dim q nfa r i n k) = v (r, i) k := by
  have hp : off + addr dim q nfa r i n k = k + dim * n + (off + dim * q * (i + nfa * r)) := by unfold addr; ring
  have ht : k + dim * n < dim * q := by
    calc k + dim * n < dim * (n + 1) := by rw [Nat.mul_add]; omega
      _ ≤ dim * q := Nat.mul_le_mul_left _ hn
  rw [hp]
  refine fold_at (step := fun x U => cp (from2 1 q dim) (fun y => y.2 + dim * y.1 + (off + dim * q * (x.2 + nfa * x.1)))
        (fun y => y.2 + (off + dim * q * (x.2 + nfa * x.1)))
        (put (List.range dim) (fun k => k + (off + dim * q * (x.2 + nfa * x.1))) (v x) U)) (v (r, i) k)
    (fun x => x = (r, i)) ?_ ?_ ⟨(r, i), mem_box2.mpr ⟨hr, hi⟩, rfl⟩
  · rintro x _ rfl U
    exact spread_at hn hk
  · rintro ⟨r', i'⟩ hx hne U
    rw [mem_box2] at hx
    refine spread_off (by omega) ?_
    have h1 : i + nfa * r ≠ i' + nfa * r' := fun e => by
      obtain ⟨rfl, rfl⟩ := dm hi hx.2 e
      exact hne rfl
    have := block_ne ht h1
    simp only at this ⊢
    omega

theorem sweep_off {f nfa q dim off p : Nat} {v : Nat × Nat → Nat → K} {U : Nat → K} (hq : 0 < q)
    (hp : p < off ∨ off + dim * q * (nfa * f) ≤ p) :
    (box2 f nfa).foldl (fun U x =>
      cp (from2 1 q dim) (fun y => y.2 + dim * y.1 + (off + dim * q * (x.2 + nfa * x.1)))
        (fun y => y.2 + (off + dim * q * (x.2 + nfa * x.1)))
        (put (List.range dim) (fun k => k + (off + dim * q * (x.2 + nfa * x.1))) (v x) U)) U p = U p := by
  have key : ∀ (L : List (Nat × Nat)) (U : Nat → K), (∀ x ∈ L, x ∈ box2 f nfa) → L.foldl (fun U x =>
      cp (from2 1 q dim) (fun y => y.2 + dim * y.1 + (off + dim * q * (x.2 + nfa * x.1)))
        (fun y => y.2 + (off + dim * q * (x.2 + nfa * x.1)))
        (put (List.range dim) (fun k => k + (off + dim * q * (x.2 + nfa * x.1))) (v x) U)) U p = U p := by
    intro L
    induction L with
    | nil => intro U _; rfl
    | cons x L ih =>
      intro U hL
      rw [List.foldl_cons, ih _ (fun y hy => hL y (List.mem_cons_of_mem _ hy)), spread_off hq]
      have hx := mem_box2.mp (hL x (List.mem_cons_self ..))
      have h1 : x.2 + nfa * x.1 + 1 ≤ nfa * f := by
        calc x.2 + nfa * x.1 + 1 ≤ nfa * (x.1 + 1) := by rw [Nat.mul_add]; omega
          _ ≤ nfa * f := Nat.mul_le_mul_left _ hx.1
      have h2 : dim * q * (x.2 + nfa * x.1 + 1) ≤ dim * q * (nfa * f) := Nat.mul_le_mul_left _ h1
      rw [Nat.mul_add] at h2
      omega
  exact key _ U (fun _ h => h)

theorem cr1Grad_at (m : Mem K) (U : Nat → K) {r i n k : Nat} (hr : r < m.f) (hi : i < 4) (hn : n < m.q) (hk : k < 3) :
    cr1Grad m U (addr 3 m.q 4 r i n k) =
      -3 * (m.psi (9 * r + (0 + 3 * k)) * gradP1 (0 + 3 * ipf3 i) + m.psi (9 * r + (1 + 3 * k)) * gradP1 (1 + 3 * ipf3 i) +
        m.psi (9 * r + (2 + 3 * k)) * gradP1 (2 + 3 * ipf3 i)) := by
  have := sweep_at (off := 0) (U := U) (v := fun x k => -3 * (List.range 3).foldl
    (fun s j => s + m.psi (j + 3 * (k + 3 * x.1)) * gradP1 (j + 3 * ipf3 x.2)) 0) hr hi hn hk
  simp only [Nat.zero_add] at this
  refine this.trans ?_
  rw [fold3]
  have : ∀ j, j + 3 * (k + 3 * r) = 9 * r + (j + 3 * k) := fun j => by ring
  simp only [this]

end Values

section VectorValues
variable [Field K]

theorem nd0Iden_at (sqrt : K → K) (m : Mem K) (U : Nat → K) {r i n k : Nat} (hr : r < m.f) (hi : i < 6) (hn : n < m.q)
    (hk : k < 3) : nd0Iden sqrt m U (addr 3 m.q 6 r i n k) = nd0Sqr sqrt m r i *
      (nd0N m r i k * m.xyl (ipr (4 * i) + 4 * n) + nd0M m r i k * m.xyl (ipr (4 * i + 1) + 4 * n)) := by
  have hg : ∀ r i n k, 3 * m.q * 6 * r + (k + 3 * n + 3 * m.q * i) = addr 3 m.q 6 r i n k := by
    intros; unfold addr; ring
  refine put_at ⟨(r, i, n, k), mem_box4.mpr ⟨hr, hi, hn, hk⟩, hg ..⟩ ?_
  rintro ⟨r', i', n', k'⟩ hy e
  rw [mem_box4] at hy
  obtain ⟨rfl, rfl, rfl, rfl⟩ := addr_inj hy.2.2.2 hk hy.2.2.1 hn hy.2.1 hi ((hg ..).symm.trans e)
  rfl

theorem nd0Div_at (m : Mem K) (U : Nat → K) {r i n : Nat} (hr : r < m.f) (hi : i < 6) (hn : n < m.q) :
    nd0Div m U (addr 1 m.q 6 r i n 0) = 0 := fill_at (addr_lt (by omega) hn hi hr)

theorem nd0Curl_eq (sqrt : K → K) (off : Nat) (m : Mem K) (U : Nat → K) : nd0Curl sqrt off m U =
    (box2 m.f 6).foldl (fun U x =>
      cp (from2 1 m.q 3) (fun y => y.2 + 3 * y.1 + (off + 3 * m.q * (x.2 + 6 * x.1)))
        (fun y => y.2 + (off + 3 * m.q * (x.2 + 6 * x.1)))
        (put (List.range 3) (fun k => k + (off + 3 * m.q * (x.2 + 6 * x.1)))
          (fun k => nd0CurlVal sqrt m x.1 x.2 k) U)) U := by
  unfold nd0Curl
  have : ∀ x : Nat × Nat, off + 3 * m.q * 6 * x.1 + 3 * m.q * x.2 = off + 3 * m.q * (x.2 + 6 * x.1) := fun x => by ring
  simp only [this, Nat.mul_zero, Nat.add_zero]

theorem nd0Curl_at (sqrt : K → K) (off : Nat) (m : Mem K) (U : Nat → K) {r i n k : Nat} (hr : r < m.f) (hi : i < 6)
    (hn : n < m.q) (hk : k < 3) : nd0Curl sqrt off m U (off + addr 3 m.q 6 r i n k) = nd0CurlVal sqrt m r i k := by
  rw [nd0Curl_eq]
  exact sweep_at (v := fun x k => nd0CurlVal sqrt m x.1 x.2 k) hr hi hn hk

theorem box3_flat (a b c : Nat) : (box3 a b c).map (fun x => x.2.2 + c * (x.2.1 + b * x.1)) = List.range (c * (b * a)) := by
  have key2 : ∀ i b : Nat, (box2 b c).map (fun y => y.2 + c * (y.1 + i)) =
      List.range' (c * i) (c * b) := by
    intro i b
    induction b with
    | zero => rfl
    | succ b ih =>
      have hb : box2 (b + 1) c = box2 b c ++ (List.range c).map fun j => (b, j) := by
        simp [box2, List.range_succ]
      rw [hb, List.map_append, ih, List.map_map, Nat.mul_add, Nat.mul_one, ← List.range'_append_1, List.range_eq_range']
      congr 1
      rw [List.range'_eq_map_range, List.range'_eq_map_range, List.map_map]
      refine List.map_congr_left fun j _ => ?_
      simp only [Function.comp]
      ring
  induction a with
  | zero => rfl
  | succ a ih =>
    have ha : box3 (a + 1) b c = box3 a b c ++ (box2 b c).map fun y => (a, y.1, y.2) := by
      simp [box3, List.range_succ]
    rw [ha, List.map_append, ih, List.map_map]
    have := key2 (b * a) b
    rw [show (fun x : Nat × Nat × Nat => x.2.2 + c * (x.2.1 + b * x.1)) ∘ (fun y : Nat × Nat => (a, y.1, y.2)) =
      fun y => y.2 + c * (y.1 + b * a) from rfl, this, Nat.mul_add b, Nat.mul_add c, Nat.mul_one,
      List.range_eq_range', List.range_eq_range']
    have := List.range'_append_1 (s := 0) (m := c * (b * a)) (n := c * b)
    rwa [Nat.zero_add] at this

theorem nd0Skew_off (s d : Nat) (U : Nat → K) {p : Nat} (hp : p < d ∨ d + 9 ≤ p) : nd0Skew s d U p = U p := by
  unfold nd0Skew
  simp only [List.foldl_cons, List.foldl_nil]
  repeat rw [wr_ne _ _ (by omega)]

/-- The nine numbers made of the halved curl `a` (nedelec_0.h:176-178). -/
def skew (a : Nat → K) (k : Nat) : K :=
  [0, -a 2, a 1, a 2, 0, -a 0, -a 1, a 0, 0].getD k 0

theorem nd0Skew_at (s d : Nat) (U : Nat → K) {k : Nat} (hk : k < 9) :
    nd0Skew s d U (d + k) = skew (fun c => U (s + c) / 2) k := by
  unfold nd0Skew skew
  simp only [List.foldl_cons, List.foldl_nil]
  have hw : ∀ (U : Nat → K) (a b : Nat) (v : K), wr U (d + a) v (d + b) = if b = a then v else U (d + b) := by
    intro U a b v
    split
    · next h => rw [h, wr_same]
    · next h => exact wr_ne _ _ (by omega)
  interval_cases k <;> simp only [hw] <;> simp

/-- the expansion in place does not overwrite the curls which are still to be read -/
theorem expand_at {T : Nat} (U : Nat → K) {t : Nat} (ht : t < T) {k : Nat} (hk : k < 9) :
    (List.range T).foldl (fun U t => nd0Skew (6 * T + 3 * t) (9 * t) U) U (9 * t + k) =
      skew (fun c => U (6 * T + 3 * t + c) / 2) k := by
  have key : ∀ N, N ≤ T → (∀ t k, t < N → k < 9 →
      (List.range N).foldl (fun U t => nd0Skew (6 * T + 3 * t) (9 * t) U) U (9 * t + k) =
        skew (fun c => U (6 * T + 3 * t + c) / 2) k) ∧
      ∀ p, 9 * N ≤ p → (List.range N).foldl (fun U t => nd0Skew (6 * T + 3 * t) (9 * t) U) U p = U p := by
    intro N
    induction N with
    | zero => exact fun _ => ⟨fun t k h => absurd h (Nat.not_lt_zero _), fun p _ => rfl⟩
    | succ N ih =>
      intro hN
      obtain ⟨i1, i2⟩ := ih (by omega)
      rw [List.range_succ, List.foldl_append, List.foldl_cons, List.foldl_nil]
      refine ⟨fun t k h hk => ?_, fun p hp => ?_⟩
      · rcases Nat.lt_or_ge t N with h' | h'
        · rw [nd0Skew_off _ _ _ (Or.inl (by omega)), i1 t k h' hk]
        · obtain rfl : t = N := by omega
          rw [nd0Skew_at _ _ _ hk]
          congr 1
          funext c
          rcases Nat.lt_or_ge (6 * T + 3 * t + c) (9 * t) with h1 | h1
          · omega
          · rw [i2 _ h1]
      · rw [nd0Skew_off _ _ _ (Or.inr (by omega)), i2 p (by omega)]
  exact (key T (le_refl _)).1 t k ht hk

theorem nd0Grad_at (sqrt : K → K) (m : Mem K) (U : Nat → K) {r i n k : Nat} (hr : r < m.f) (hi : i < 6) (hn : n < m.q)
    (hk : k < 9) : nd0Grad sqrt m U (addr 9 m.q 6 r i n k) = skew (fun c => nd0CurlVal sqrt m r i c / 2) k := by
  have hT : 9 * m.q * (6 * m.f) - m.q * 6 * m.f * 3 = 6 * (m.q * (6 * m.f)) := by
    rw [show 9 * m.q * (6 * m.f) = 9 * (m.q * (6 * m.f)) by ring, show m.q * 6 * m.f * 3 = 3 * (m.q * (6 * m.f)) by ring]
    omega
  unfold nd0Grad
  simp only [hT]
  generalize hV : nd0Curl sqrt (6 * (m.q * (6 * m.f))) m U = V
  have e : (box3 m.f 6 m.q).foldl (fun U x =>
      nd0Skew (6 * (m.q * (6 * m.f)) + x.2.2 * 3 + m.q * 3 * (x.2.1 + 6 * x.1)) (9 * (x.2.2 + m.q * (x.2.1 + x.1 * 6))) U) V =
      (List.range (m.q * (6 * m.f))).foldl (fun U t => nd0Skew (6 * (m.q * (6 * m.f)) + 3 * t) (9 * t) U) V := by
    rw [← box3_flat, List.foldl_map]
    congr 1
    funext U x
    congr 1
    · ring
    · ring
  rw [e]
  have ht : n + m.q * (i + 6 * r) < m.q * (6 * m.f) := by
    have := addr_lt (dim := 1) (k := 0) (by omega) hn hi hr
    unfold addr at this
    calc _ = 0 + 1 * (n + m.q * (i + 6 * r)) := by ring
      _ < _ := this
      _ = _ := by ring
  have := expand_at V ht hk
  rw [show addr 9 m.q 6 r i n k = 9 * (n + m.q * (i + 6 * r)) + k by unfold addr; omega, this]
  have hc : ∀ c, c < 3 → V (6 * (m.q * (6 * m.f)) + 3 * (n + m.q * (i + 6 * r)) + c) = nd0CurlVal sqrt m r i c := by
    intro c hc
    rw [← hV, ← nd0Curl_at sqrt (6 * (m.q * (6 * m.f))) m U hr hi hn hc]
    congr 1
    unfold addr
    ring
  unfold skew
  simp only [hc 0 (by omega), hc 1 (by omega), hc 2 (by omega)]

variable [LinearOrder K]

theorem rt0Iden_at (sqrt : K → K) (m : Mem K) (U : Nat → K) {r i n j : Nat} (hr : r < m.f) (hi : i < 4) (hn : n < m.q)
    (hj : j < 3) : rt0Iden sqrt m U (addr 3 m.q 4 r i n j) =
      let ix := rtNode m r i
      rt0Sqr sqrt m r i * (m.xyl (ipf (4 * i) + 4 * n) * (ix 0 j - ix 3 j) +
        m.xyl (ipf (4 * i + 1) + 4 * n) * (ix 1 j - ix 3 j) + m.xyl (ipf (4 * i + 2) + 4 * n) * (ix 2 j - ix 3 j)) := by
  have hg : ∀ r i n k, k + 3 * n + 3 * m.q * (i + 4 * r) = addr 3 m.q 4 r i n k := by
    intros; unfold addr; ring
  refine put_at ⟨(r, i, n, j), mem_box4.mpr ⟨hr, hi, hn, hj⟩, hg ..⟩ ?_
  rintro ⟨r', i', n', k'⟩ hy e
  rw [mem_box4] at hy
  obtain ⟨rfl, rfl, rfl, rfl⟩ := addr_inj hy.2.2.2 hj hy.2.2.1 hn hy.2.1 hi ((hg ..).symm.trans e)
  rfl

theorem rt0Curl_at (m : Mem K) (U : Nat → K) {r i n k : Nat} (hr : r < m.f) (hi : i < 4) (hn : n < m.q) (hk : k < 3) :
    rt0Curl m U (addr 3 m.q 4 r i n k) = 0 := fill_at (addr_lt hk hn hi hr)

theorem rt0Div_at (sqrt : K → K) (m : Mem K) (U : Nat → K) {r i n : Nat} (hr : r < m.f) (hi : i < 4) (hn : n < m.q) :
    rt0Div sqrt m U (addr 1 m.q 4 r i n 0) = rt0DivVal sqrt m r i := by
  have hp : addr 1 m.q 4 r i n 0 = n + 1 * m.q * (i + 4 * r) := by unfold addr; ring
  rw [hp]
  refine fold_at (step := fun (x : Nat × Nat) U => cp (from' 1 m.q) (fun n => n + 1 * m.q * (x.2 + 4 * x.1))
    (fun _ => 0 + 1 * m.q * (x.2 + 4 * x.1)) (put [0] (fun n => n + 1 * m.q * (x.2 + 4 * x.1))
      (fun _ => rt0DivVal sqrt m x.1 x.2) U)) (rt0DivVal sqrt m r i)
    (fun x => x = (r, i)) ?_ ?_ ⟨(r, i), mem_box2.mpr ⟨hr, hi⟩, rfl⟩
  · rintro x _ rfl U
    have h0 : put [0] (fun n => n + 1 * m.q * (i + 4 * r)) (fun _ => rt0DivVal sqrt m r i) U
        (0 + 1 * m.q * (i + 4 * r)) = rt0DivVal sqrt m r i :=
      put_at ⟨0, List.mem_cons_self .., rfl⟩ (fun _ _ _ => rfl)
    rcases Nat.eq_zero_or_pos n with rfl | hp
    · rw [cp_off, h0]
      intro y hy e
      rw [mem_from] at hy
      have e : y + 1 * m.q * (i + 4 * r) = 0 + 1 * m.q * (i + 4 * r) := e
      omega
    · refine Eq.trans ?_ h0
      refine cp_at ⟨n, mem_from.mpr ⟨hp, hn⟩, rfl⟩ (fun _ _ _ => rfl) (fun y hy z hz e => ?_)
      rw [mem_from] at hz
      simp only at e
      omega
  · rintro ⟨r', i'⟩ hx hne U
    rw [mem_box2] at hx
    have h1 : i + 4 * r ≠ i' + 4 * r' := fun e => by
      obtain ⟨rfl, rfl⟩ := dm hi hx.2 e
      exact hne rfl
    have h2 := block_ne hn h1
    rw [cp_off, put_off]
    · intro y hy e
      rw [List.mem_singleton] at hy
      simp only [Nat.one_mul] at e
      omega
    · intro y hy e
      rw [mem_from] at hy
      simp only [Nat.one_mul] at e
      omega

theorem rt0Grad_at (sqrt : K → K) (m : Mem K) (U : Nat → K) {r i n j k : Nat} (hr : r < m.f) (hi : i < 4) (hn : n < m.q)
    (hj : j < 3) (hk : k < 3) : rt0Grad sqrt m U (addr 9 m.q 4 r i n (k + 3 * j)) = rt0GradVal sqrt m r i j k := by
  have hp : addr 9 m.q 4 r i n (k + 3 * j) = k + 3 * j + 9 * n + 9 * m.q * (i + 4 * r) := by unfold addr; ring
  have hl : k + 3 * j < 9 := by omega
  unfold rt0Grad
  rw [hp]
  refine fold_at (step := fun r U => cp (from3 1 m.q 4 9) (fun y => y.2.2 + 9 * y.1 + 9 * m.q * (y.2.1 + 4 * r))
      (fun y => y.2.2 + 9 * m.q * (y.2.1 + 4 * r))
      (put (box3 4 3 3) (fun x => x.2.2 + 3 * x.2.1 + 9 * m.q * (x.1 + 4 * r))
        (fun x => rt0GradVal sqrt m r x.1 x.2.1 x.2.2) U)) (rt0GradVal sqrt m r i j k)
    (fun x => x = r) ?_ ?_ ⟨r, List.mem_range.mpr hr, rfl⟩
  · rintro x _ rfl U
    have hq : 0 < m.q := by omega
    have cols : ∀ {a b c d e g r r' : Nat}, c < 9 → d < 9 → a < m.q → b < m.q → e < 4 → g < 4 →
        c + 9 * a + 9 * m.q * (e + 4 * r) = d + 9 * b + 9 * m.q * (g + 4 * r') → r = r' ∧ e = g ∧ a = b ∧ c = d := by
      intro a b c d e g r r' hc hd ha hb he hg h
      refine addr_inj (dim := 9) (q := m.q) (nfa := 4) hc hd ha hb he hg ?_
      unfold addr
      calc _ = c + 9 * a + 9 * m.q * (e + 4 * r) := by ring
        _ = d + 9 * b + 9 * m.q * (g + 4 * r') := h
        _ = _ := by ring
    have h0 : put (box3 4 3 3) (fun y => y.2.2 + 3 * y.2.1 + 9 * m.q * (y.1 + 4 * x))
        (fun y => rt0GradVal sqrt m x y.1 y.2.1 y.2.2) U (k + 3 * j + 9 * m.q * (i + 4 * x)) = rt0GradVal sqrt m x i j k := by
      refine put_at ⟨(i, j, k), mem_box3.mpr ⟨hi, hj, hk⟩, rfl⟩ ?_
      rintro ⟨i', j', k'⟩ hy e
      rw [mem_box3] at hy
      simp only at hy e
      obtain ⟨_, rfl, _, h⟩ := cols (a := 0) (b := 0) (c := k' + 3 * j') (d := k + 3 * j) (by omega) hl hq hq hy.1 hi
        (by omega)
      obtain ⟨rfl, rfl⟩ := dm hy.2.2 hk h
      rfl
    rcases Nat.eq_zero_or_pos n with rfl | hp
    · rw [Nat.mul_zero, Nat.add_zero, cp_off, h0]
      rintro ⟨a, b, c⟩ hy e
      rw [mem_from3] at hy
      simp only at hy e
      obtain ⟨_, _, h, _⟩ := cols (a := a) (b := 0) (c := c) (d := k + 3 * j) hy.2.2 hl hy.1.2 hq hy.2.1 hi (by omega)
      omega
    · rw [← h0]
      refine cp_at ⟨(n, i, k + 3 * j), mem_from3.mpr ⟨⟨hp, hn⟩, hi, hl⟩, rfl⟩ ?_ ?_
      · rintro ⟨a, b, c⟩ hy e
        rw [mem_from3] at hy
        simp only at hy e
        obtain ⟨_, rfl, _, rfl⟩ := cols hy.2.2 hl hy.1.2 hn hy.2.1 hi e
        rfl
      · rintro ⟨a, b, c⟩ hy ⟨a', b', c'⟩ hz e
        rw [mem_from3] at hy hz
        simp only at hy hz e
        obtain ⟨_, _, h, _⟩ := cols (a := a') (b := 0) (c := c') (d := c) hz.2.2 hy.2.2 hz.1.2 hq hz.2.1 hy.2.1 (by omega)
        omega
  · rintro r' hx hne U
    have hq : 0 < m.q := by omega
    have cols : ∀ {a b c d e g r r' : Nat}, c < 9 → d < 9 → a < m.q → b < m.q → e < 4 → g < 4 →
        c + 9 * a + 9 * m.q * (e + 4 * r) = d + 9 * b + 9 * m.q * (g + 4 * r') → r = r' := by
      intro a b c d e g r r' hc hd ha hb he hg h
      refine (addr_inj (dim := 9) (q := m.q) (nfa := 4) hc hd ha hb he hg ?_).1
      unfold addr
      calc _ = c + 9 * a + 9 * m.q * (e + 4 * r) := by ring
        _ = d + 9 * b + 9 * m.q * (g + 4 * r') := h
        _ = _ := by ring
    rw [cp_off, put_off]
    · rintro ⟨i', j', k'⟩ hy e
      rw [mem_box3] at hy
      simp only at hy e
      exact hne (cols (a := 0) (b := n) (c := k' + 3 * j') (d := k + 3 * j) (by omega) hl hq hn hy.1 hi (by omega))
    · rintro ⟨a, b, c⟩ hy e
      rw [mem_from3] at hy
      simp only at hy e
      exact hne (cols hy.2.2 hl hy.1.2 hn hy.2.1 hi e)

end VectorValues
end Verif.Spaces
