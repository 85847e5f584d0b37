import Verif.Lemmas.SpaceOp

/-!
The operators of the simple spaces in the common memory compute the entries of the operator on the basis functions.
-/
namespace Verif.SpaceOp

open Verif.Spaces Verif.Order Verif.OpStack Verif.Geometry

variable {m : Mem ℝ} {T : Nat → Nat → Nat → ℝ} {x : Nat → Nat → Nat → ℝ}

/-- the operator `a` of a simple space is right -/
def SimpleOk (m : Mem ℝ) (T : Nat → Nat → Nat → ℝ) (x : Nat → Nat → Nat → ℝ) (op : OpT) (s : Space) (a : Simple ℝ) : Prop :=
  ∃ v, LeafOk m.q m.f a.dim a.nfa a.usz a.exr a.run v ∧ a.dim = opDim op (leafDim s) ∧ a.nfa = leafNfa s ∧
    Applied m.q m.f T x op (.leaf s) v

/-- from the values to the entries -/
theorem simpleOk_of {op : OpT} {s : Space} {dim nfa : Nat} {usz exr : Nat} {run : Nat → Nat → Nat → (Nat → ℝ) → (Nat → ℝ)}
    {g : Mem ℝ → (Nat → ℝ) → Nat → ℝ} {v : Vals ℝ} (G : Geo m T x) (hd : dim = opDim op (leafDim s)) (hn : nfa = leafNfa s)
    (hl : LeafOk m.q m.f dim nfa usz exr run v) (hv : ∀ l n i r, v l n i r = g m (fun _ => 0) (addr dim m.q nfa r i n l))
    (he : ∀ i, i < nfa → ∀ (T : Nat → Nat → ℝ) (x w : Nat → ℝ) (φ : Field), Nondeg T → leafNth T s i φ → Computed g dim nfa i T x w →
      ∀ l, l < dim → Entry op φ x l (w l)) : SimpleOk m T x op s ⟨dim, nfa, usz, exr, run⟩ := by
  refine ⟨v, hl, hd, hn, fun l hl n hn' i hi r hr φ hφ => ?_⟩
  rw [Nth] at hφ
  rw [Order.dim, ← hd] at hl
  rw [SpaceOp.nfa, ← hn] at hi
  refine he i hi (T r) (x r n) (fun l => v l n i r) φ (G.nondeg r hr) hφ
    ⟨m, fun _ => 0, r, n, hr, hn', G.tet r hr, G.point r hr n hn', fun k hk => ?_⟩ l hl
  rw [place_eq]
  exact hv k n i r

theorem entry_scalar {g : Mem ℝ → (Nat → ℝ) → Nat → ℝ} {nfa i : Nat} {val : (Nat → ℝ) → ℝ}
    (hval : ∀ (m : Mem ℝ) U r n, r < m.f → n < m.q → g m U (place m 1 nfa r i n 0) = val fun a => m.xyl (a + 4 * n))
    (hcong : ∀ l l' : Nat → ℝ, (∀ a, a < 4 → l a = l' a) → val l = val l') {T : Nat → Nat → ℝ} {x w : Nat → ℝ} {φ : Field}
    (hv : Nondeg T) (hφ : IsBasis g 1 nfa i T φ) (hw : Computed g 1 nfa i T x w) {l : Nat} (hl : l < 1) : Entry .iden φ x l (w l) := by
  obtain rfl : l = 0 := by omega
  obtain ⟨m, U, r, n, -, -, -, hp, -⟩ := id hw
  rw [Entry, scalar_value hval hcong hv hw hp, scalar_value hval hcong hv (hφ x) hp]

theorem entry_grad {x w : Nat → ℝ} {φ : Field} (h : HasGradient (fun y => φ y 0) x w) {l : Nat} (hl : l < 3) :
    Entry .grad φ x l (w l) := by
  rw [Entry, Nat.div_eq_of_lt hl, Nat.mod_eq_of_lt hl]
  exact h.partial hl

theorem entry_grad3 {x w : Nat → ℝ} {φ : Field} (h : ∀ j, j < 3 → HasGradient (fun y => φ y j) x (fun k => w (k + 3 * j))) {l : Nat}
    (hl : l < 9) : Entry .grad φ x l (w l) := by
  have := (h (l / 3) (by omega)).partial (c := l % 3) (by omega)
  rw [Nat.mod_add_div] at this
  exact this

/-- the divergence and the curl from the gradients of the components -/
theorem entry_div {x w : Nat → ℝ} {φ : Field} {G : Nat → Nat → ℝ} (h : ∀ j, j < 3 → HasGradient (fun y => φ y j) x (G j))
    (e : w 0 = G 0 0 + G 1 1 + G 2 2) {l : Nat} (hl : l < 1) : Entry .div φ x l (w l) := by
  obtain rfl : l = 0 := by omega
  exact ⟨fun j => G j j, fun j hj => (h j hj).partial hj, e⟩

theorem entry_curl {x w : Nat → ℝ} {φ : Field} {G : Nat → Nat → ℝ} (h : ∀ j, j < 3 → HasGradient (fun y => φ y j) x (G j))
    (e : w 0 = G 2 1 - G 1 2 ∧ w 1 = G 0 2 - G 2 0 ∧ w 2 = G 1 0 - G 0 1) {l : Nat} (hl : l < 3) : Entry .curl φ x l (w l) := by
  refine ⟨G ((l + 2) % 3) ((l + 1) % 3), G ((l + 1) % 3) ((l + 2) % 3), (h _ (Nat.mod_lt _ (by omega))).partial (Nat.mod_lt _ (by omega)),
    (h _ (Nat.mod_lt _ (by omega))).partial (Nat.mod_lt _ (by omega)), ?_⟩
  interval_cases l
  · exact e.1
  · exact e.2.1
  · exact e.2.2

variable (G : Geo m T x)
include G

theorem simple_iden (s : Space) {a : Simple ℝ} (h : simple Real.sqrt m .iden s = some a) : SimpleOk m T x .iden s a := by
  cases s <;> rw [simple, Option.some.injEq] at h <;> subst h
  · refine simpleOk_of (g := p0Iden) G rfl rfl (direct_ok ⟨fun U p => p0Iden_ge U, fun U l n i r hl hn hi hr => ?_⟩) (fun _ _ _ _ => rfl) ?_
    · obtain rfl : l = 0 := by omega
      obtain rfl : i = 0 := by omega
      rw [p0Iden_at m U hr hn, p0Iden_at m _ hr hn]
    · intro i hi T x w φ hv hφ hw l hl
      obtain rfl : i = 0 := by omega
      exact entry_scalar (val := fun _ => 1) (fun m U r n hr hn => by rw [place1, p0Iden_at _ _ hr hn]) (fun _ _ _ => rfl) hv hφ hw hl
  · refine simpleOk_of (g := p1Iden) G rfl rfl (direct_ok ⟨fun U p => p1Iden_ge G.f U, fun U l n i r hl hn hi hr => ?_⟩) (fun _ _ _ _ => rfl) ?_
    · obtain rfl : l = 0 := by omega
      rw [p1Iden_at m U hr hi hn, p1Iden_at m _ hr hi hn]
    · intro i hi T x w φ hv hφ hw l hl
      exact entry_scalar (val := fun l => l i) (fun m U r n hr hn => p1Iden_val hr hi hn) (fun l l' h => h i hi) hv hφ hw hl
  · refine simpleOk_of (g := p2Iden) G rfl rfl (direct_ok ⟨fun U p => p2Iden_ge G.f U, fun U l n i r hl hn hi hr => ?_⟩) (fun _ _ _ _ => rfl) ?_
    · obtain rfl : l = 0 := by omega
      rw [p2Iden_at m U hr hi hn, p2Iden_at m _ hr hi hn]
    · intro i hi T x w φ hv hφ hw l hl
      exact entry_scalar (val := fun l => p2v l i) (fun m U r n hr hn => p2Iden_val hr hi hn) (p2v_congr i) hv hφ hw hl
  · refine simpleOk_of (g := p3Iden) G rfl rfl (direct_ok ⟨fun U p => p3Iden_ge G.f U, fun U l n i r hl hn hi hr => ?_⟩) (fun _ _ _ _ => rfl) ?_
    · obtain rfl : l = 0 := by omega
      rw [p3Iden_at m U hr hi hn, p3Iden_at m _ hr hi hn]
    · intro i hi T x w φ hv hφ hw l hl
      exact entry_scalar (val := fun l => p3v l i) (fun m U r n hr hn => p3Iden_val hr hi hn) (p3v_congr i) hv hφ hw hl
  · refine simpleOk_of (g := b2Iden) G rfl rfl (direct_ok ⟨fun U p => b2Iden_ge G.f U, fun U l n i r hl hn hi hr => ?_⟩) (fun _ _ _ _ => rfl) ?_
    · obtain rfl : l = 0 := by omega
      rw [b2Iden_at m U hr hi hn, b2Iden_at m _ hr hi hn]
    · intro i hi T x w φ hv hφ hw l hl
      exact entry_scalar (val := fun l => b2v l i) (fun m U r n hr hn => b2Iden_val hr hi hn) (b2v_congr i) hv hφ hw hl
  · refine simpleOk_of (g := b4Iden) G rfl rfl (direct_ok ⟨fun U p => b4Iden_ge G.f U, fun U l n i r hl hn hi hr => ?_⟩) (fun _ _ _ _ => rfl) ?_
    · obtain rfl : l = 0 := by omega
      obtain rfl : i = 0 := by omega
      rw [b4Iden_at m U hr hn, b4Iden_at m _ hr hn]
    · intro i hi T x w φ hv hφ hw l hl
      obtain rfl : i = 0 := by omega
      exact entry_scalar (val := fun l => b4v l) (fun m U r n hr hn => b4Iden_val hr hn) b4v_congr hv hφ hw hl
  · refine simpleOk_of (g := cr1Iden) G rfl rfl (direct_ok ⟨fun U p => cr1Iden_ge G.f U, fun U l n i r hl hn hi hr => ?_⟩) (fun _ _ _ _ => rfl) ?_
    · obtain rfl : l = 0 := by omega
      rw [cr1Iden_at m U hr hi hn, cr1Iden_at m _ hr hi hn]
    · intro i hi T x w φ hv hφ hw l hl
      exact entry_scalar (val := fun l => cr1v l i) (fun m U r n hr hn => cr1Iden_val hr hi hn) (cr1v_congr i) hv hφ hw hl
  · refine simpleOk_of (g := rt0Iden Real.sqrt) G rfl rfl
      (direct_ok ⟨fun U p => rt0Iden_ge _ U, fun U l n i r hl hn hi hr => ?_⟩) (fun _ _ _ _ => rfl) ?_
    · rw [rt0Iden_at _ m U hr hi hn hl, rt0Iden_at _ m _ hr hi hn hl]
    · intro i hi T x w φ hv hφ hw l hl
      obtain ⟨m, U, r, n, hr, hn, ht, hp, hk⟩ := hw
      rw [Entry, rt0_value hi (hφ x) ht hl, rt0_value hi ⟨m, U, r, n, hr, hn, ht, hp, hk⟩ ht hl]
  · refine simpleOk_of (g := nd0Iden Real.sqrt) G rfl rfl
      (direct_ok ⟨fun U p => nd0Iden_ge _ U, fun U l n i r hl hn hi hr => ?_⟩) (fun _ _ _ _ => rfl) ?_
    · rw [nd0Iden_at _ m U hr hi hn hl, nd0Iden_at _ m _ hr hi hn hl]
    · intro i hi T x w φ hv hφ hw l hl
      obtain ⟨m, U, r, n, hr, hn, ht, hp, hk⟩ := hw
      rw [Entry, nd0_value hv hi (hφ x) ht hp hl, nd0_value hv hi ⟨m, U, r, n, hr, hn, ht, hp, hk⟩ ht hp hl]

theorem simple_grad (s : Space) {a : Simple ℝ} (h : simple Real.sqrt m .grad s = some a) : SimpleOk m T x .grad s a := by
  cases s <;> rw [simple, Option.some.injEq] at h <;> subst h
  · refine simpleOk_of (g := p0Grad) G rfl rfl (direct_ok ⟨fun U p => p0Grad_ge U, fun U l n i r hl hn hi hr => ?_⟩) (fun _ _ _ _ => rfl) ?_
    · obtain rfl : i = 0 := by omega
      rw [p0Grad_at m U hr hn hl, p0Grad_at m _ hr hn hl]
    · intro i hi T x w φ hv hφ hw l hl
      obtain rfl : i = 0 := by omega
      exact entry_grad (p0_grad hv hφ hw) hl
  · refine simpleOk_of (g := p1Grad) G rfl rfl (direct_ok ⟨fun U p => p1Grad_ge U, fun U l n i r hl hn hi hr => ?_⟩) (fun _ _ _ _ => rfl) ?_
    · rw [p1Grad_at m U hr hi hn hl, p1Grad_at m _ hr hi hn hl]
    · intro i hi T x w φ hv hφ hw l hl
      exact entry_grad (p1_grad hv hi hφ hw) hl
  · refine simpleOk_of (g := p2Grad fun _ => 0) G rfl rfl (byTable_ok (fun E p => p2Table_ge E) (fun E d i n hd hi hn => ?_))
      (fun _ _ _ _ => rfl) ?_
    · rw [p2Table_at m E hi hn hd, p2Table_at m _ hi hn hd]
    · intro i hi T x w φ hv hφ hw l hl
      exact entry_grad (p2_grad hv _ hi hφ hw) hl
  · refine simpleOk_of (g := p3Grad fun _ => 0) G rfl rfl (byTable_ok (fun E p => p3Table_ge E) (fun E d i n hd hi hn => ?_))
      (fun _ _ _ _ => rfl) ?_
    · rw [p3Table_at m E hi hn hd, p3Table_at m _ hi hn hd]
    · intro i hi T x w φ hv hφ hw l hl
      exact entry_grad (p3_grad hv _ hi hφ hw) hl
  · refine simpleOk_of (g := b2Grad fun _ => 0) G rfl rfl (byTable_ok (fun E p => b2Table_ge E) (fun E d i n hd hi hn => ?_))
      (fun _ _ _ _ => rfl) ?_
    · rw [b2Table_at m E hi hn hd, b2Table_at m _ hi hn hd]
    · intro i hi T x w φ hv hφ hw l hl
      exact entry_grad (b2_grad hv _ hi hφ hw) hl
  · refine simpleOk_of (g := b4Grad fun _ => 0) G rfl rfl (byTable_ok (fun E p => b4Table_ge E) (fun E d i n hd hi hn => ?_))
      (fun _ _ _ _ => rfl) ?_
    · obtain rfl : i = 0 := by omega
      rw [b4Table_at m E hn hd, b4Table_at m _ hn hd]
    · intro i hi T x w φ hv hφ hw l hl
      obtain rfl : i = 0 := by omega
      exact entry_grad (b4_grad hv _ hφ hw) hl
  · refine simpleOk_of (g := cr1Grad) G rfl rfl (direct_ok ⟨fun U p => cr1Grad_ge G.q U, fun U l n i r hl hn hi hr => ?_⟩) (fun _ _ _ _ => rfl) ?_
    · rw [cr1Grad_at m U hr hi hn hl, cr1Grad_at m _ hr hi hn hl]
    · intro i hi T x w φ hv hφ hw l hl
      exact entry_grad (cr1_grad hv hi hφ hw) hl
  · refine simpleOk_of (g := rt0Grad Real.sqrt) G rfl rfl
      (direct_ok ⟨fun U p => rt0Grad_ge G.q _ U, fun U l n i r hl hn hi hr => ?_⟩) (fun _ _ _ _ => rfl) ?_
    · rw [← Nat.mod_add_div l 3, rt0Grad_at _ m U hr hi hn (by omega) (by omega), rt0Grad_at _ m _ hr hi hn (by omega) (by omega)]
    · intro i hi T x w φ hv hφ hw l hl
      exact entry_grad3 (fun j hj => rt0_grad hv hi hφ hw hj) hl
  · refine simpleOk_of (g := nd0Grad Real.sqrt) G rfl rfl
      (direct_ok ⟨fun U p => nd0Grad_ge G.q _ U, fun U l n i r hl hn hi hr => ?_⟩) (fun _ _ _ _ => rfl) ?_
    · rw [nd0Grad_at _ m U hr hi hn hl, nd0Grad_at _ m _ hr hi hn hl]
    · intro i hi T x w φ hv hφ hw l hl
      exact entry_grad3 (fun j hj => nd0_grad hv hi hφ hw hj) hl

theorem simple_dudx {c : Nat} (hc : c < 3) (s : Space) {a : Simple ℝ} (h : simple Real.sqrt m (.dudx c) s = some a) :
    SimpleOk m T x (.dudx c) s a := by
  cases s <;> simp only [simple, Option.some.injEq, reduceCtorEq] at h <;> subst h
  · refine simpleOk_of (g := p0Dudx c) G rfl rfl (direct_ok ⟨fun U p => p0Dudx_ge c U, fun U l n i r hl hn hi hr => ?_⟩) (fun _ _ _ _ => rfl) ?_
    · obtain rfl : l = 0 := by omega
      obtain rfl : i = 0 := by omega
      rw [p0Dudx_at _ m U hr hn, p0Dudx_at _ m _ hr hn]
    · intro i hi T x w φ hv hφ hw l hl
      obtain rfl : l = 0 := by omega
      obtain rfl : i = 0 := by omega
      exact p0_dudx hv hc hφ hw
  · refine simpleOk_of (g := p1Dudx c) G rfl rfl (direct_ok ⟨fun U p => p1Dudx_ge c U, fun U l n i r hl hn hi hr => ?_⟩) (fun _ _ _ _ => rfl) ?_
    · obtain rfl : l = 0 := by omega
      rw [p1Dudx_at _ m U hr hi hn, p1Dudx_at _ m _ hr hi hn]
    · intro i hi T x w φ hv hφ hw l hl
      obtain rfl : l = 0 := by omega
      exact p1_dudx hv hi hc hφ hw

theorem simple_div (s : Space) {a : Simple ℝ} (h : simple Real.sqrt m .div s = some a) : SimpleOk m T x .div s a := by
  cases s <;> simp only [simple, Option.some.injEq, reduceCtorEq] at h <;> subst h
  · refine simpleOk_of (g := rt0Div Real.sqrt) G rfl rfl
      (direct_ok ⟨fun U p => rt0Div_ge G.q _ U, fun U l n i r hl hn hi hr => ?_⟩) (fun _ _ _ _ => rfl) ?_
    · obtain rfl : l = 0 := by omega
      rw [rt0Div_at _ m U hr hi hn, rt0Div_at _ m _ hr hi hn]
    · intro i hi T x w φ hv hφ hw l hl
      obtain ⟨m, U, r, n, hr, hn, ht, hp, hk⟩ := id hw
      have h := fun j hj => rt0_derivative (x := x) (j := j) hv hi hφ ht hj
      exact entry_div h (rt0_div hv hi hφ hw h) hl
  · refine simpleOk_of (g := nd0Div) G rfl rfl
      (direct_ok ⟨fun U p => nd0Div_ge U, fun U l n i r hl hn hi hr => ?_⟩) (fun _ _ _ _ => rfl) ?_
    · obtain rfl : l = 0 := by omega
      rw [nd0Div_at m U hr hi hn, nd0Div_at m _ hr hi hn]
    · intro i hi T x w φ hv hφ hw l hl
      obtain ⟨m, U, r, n, hr, hn, ht, hp, hk⟩ := id hw
      have h := fun j hj => nd0_derivative (x := x) (j := j) hv hi hφ ht hp hj
      exact entry_div (G := fun j k => nd0Sqr Real.sqrt m r i *
        (nd0N m r i j * gradL m r (ipr (4 * i)) k + nd0M m r i j * gradL m r (ipr (4 * i + 1)) k)) h (nd0_div hv hi hφ hw h) hl

theorem simple_curl (s : Space) {a : Simple ℝ} (h : simple Real.sqrt m .curl s = some a) : SimpleOk m T x .curl s a := by
  cases s <;> simp only [simple, Option.some.injEq, reduceCtorEq] at h <;> subst h
  · refine simpleOk_of (g := rt0Curl) G rfl rfl
      (direct_ok ⟨fun U p => rt0Curl_ge U, fun U l n i r hl hn hi hr => ?_⟩) (fun _ _ _ _ => rfl) ?_
    · rw [rt0Curl_at m U hr hi hn hl, rt0Curl_at m _ hr hi hn hl]
    · intro i hi T x w φ hv hφ hw l hl
      obtain ⟨m, U, r, n, hr, hn, ht, hp, hk⟩ := id hw
      have h := fun j hj => rt0_derivative (x := x) (j := j) hv hi hφ ht hj
      exact entry_curl h (rt0_curl hv hi hφ hw h) hl
  · refine simpleOk_of (g := nd0Curl Real.sqrt 0) G rfl rfl
      (direct_ok ⟨fun U p hp => nd0Curl_ge G.q _ 0 U (by omega), fun U l n i r hl hn hi hr => ?_⟩) (fun _ _ _ _ => rfl) ?_
    · have e := fun U => nd0Curl_at Real.sqrt 0 m U hr hi hn hl
      simp only [Nat.zero_add] at e
      rw [e, e]
    · intro i hi T x w φ hv hφ hw l hl
      obtain ⟨m, U, r, n, hr, hn, ht, hp, hk⟩ := hw
      have h := fun j hj => nd0_derivative (x := x) (j := j) hv hi hφ ht hp hj
      exact entry_curl (G := fun j k => nd0Sqr Real.sqrt m r i *
        (nd0N m r i j * gradL m r (ipr (4 * i)) k + nd0M m r i j * gradL m r (ipr (4 * i + 1)) k)) h
        (nd0_curl (off := 0) hv hi hφ ⟨m, U, r, n, hr, hn, ht, hp, fun k hk3 => by rw [hk k hk3, Nat.zero_add]⟩ h) hl

/-- the operator is one of the library -/
theorem simple_ok {op : OpT} (hop : ∀ c, op = .dudx c → c < 3) {s : Space} {a : Simple ℝ} (h : simple Real.sqrt m op s = some a) :
    SimpleOk m T x op s a := by
  cases op with
  | iden => exact simple_iden G s h
  | grad => exact simple_grad G s h
  | div => exact simple_div G s h
  | curl => exact simple_curl G s h
  | dudx c => exact simple_dudx G (hop c rfl) s h

end Verif.SpaceOp
