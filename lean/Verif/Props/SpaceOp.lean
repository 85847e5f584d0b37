import Verif.Lemmas.SpaceOpLeaf
import Verif.Props.CtOp2

/-!
**C53**: the operators of the spaces of the library compute the components, derivatives, divergences and curls of the basis functions of
composed compile-time spaces, and the elemental matrices are the quadrature sums of them.
-/
namespace Verif.SpaceOp

open Verif.Spaces Verif.Order Verif.OpStack Verif.Geometry

/-! ### Entries -/

/-- the operators that work component by component -/
def Local (op : OpT) : Prop := op ≠ .div ∧ op ≠ .curl

/-- the component an entry belongs to -/
def comp (op : OpT) (l : Nat) : Nat :=
  match op with
  | .grad => l / 3
  | _ => l

theorem entry_congr {op : OpT} (hop : Local op) {φ ψ : Field} {x : Nat → ℝ} {l l' : Nat} {w : ℝ}
    (h : ∀ y, φ y (comp op l) = ψ y (comp op l')) (h3 : op = .grad → l % 3 = l' % 3) (he : Entry op ψ x l' w) : Entry op φ x l w := by
  cases op with
  | iden => exact he.trans (h x).symm
  | grad =>
    change HasPartial (fun y => φ y (l / 3)) x (l % 3) w
    rw [show (fun y => φ y (l / 3)) = fun y => ψ y (l' / 3) from funext h, h3 rfl]
    exact he
  | dudx c =>
    change HasPartial (fun y => φ y l) x c w
    rw [show (fun y => φ y l) = fun y => ψ y l' from funext h]
    exact he
  | div => exact absurd rfl hop.1
  | curl => exact absurd rfl hop.2

theorem partial_zero {F : (Nat → ℝ) → ℝ} (h : ∀ y, F y = 0) (x : Nat → ℝ) (c : Nat) : HasPartial F x c 0 := by
  rw [funext h]
  exact hasDerivAt_const 0 0

theorem entry_zero {op : OpT} (hop : Local op) {φ : Field} (x : Nat → ℝ) {l : Nat} (h : ∀ y, φ y (comp op l) = 0) : Entry op φ x l 0 := by
  cases op with
  | iden => exact (h x).symm
  | grad => exact partial_zero h x _
  | dudx c => exact partial_zero h x _
  | div => exact absurd rfl hop.1
  | curl => exact absurd rfl hop.2

/-- the entries of an operator are determined by the field -/
theorem entry_unique {op : OpT} {φ : Field} {x : Nat → ℝ} {l : Nat} {w w' : ℝ} (h : Entry op φ x l w) (h' : Entry op φ x l w') : w = w' := by
  cases op with
  | iden => exact h.trans h'.symm
  | grad => exact HasDerivAt.unique h h'
  | dudx c => exact HasDerivAt.unique h h'
  | div =>
    obtain ⟨d, hd, rfl⟩ := h
    obtain ⟨e, he, rfl⟩ := h'
    rw [(hd 0 (by omega)).unique (he 0 (by omega)), (hd 1 (by omega)).unique (he 1 (by omega)), (hd 2 (by omega)).unique (he 2 (by omega))]
  | curl =>
    obtain ⟨a, b, ha, hb, rfl⟩ := h
    obtain ⟨a', b', ha', hb', rfl⟩ := h'
    rw [ha.unique ha', hb.unique hb']

/-! ### The values of the composed operators -/

section
variable {q f : Nat} {T : Nat → Nat → Nat → ℝ} {x : Nat → Nat → Nat → ℝ}

theorem opDim_mul {op : OpT} (hop : Local op) (n d : Nat) : opDim op (n * d) = n * opDim op d := by
  cases op with
  | iden => rfl
  | grad => exact Nat.mul_left_comm 3 n d
  | dudx c => rfl
  | div => exact absurd rfl hop.1
  | curl => exact absurd rfl hop.2

theorem opDim_add {op : OpT} (hop : Local op) (a b : Nat) : opDim op (a + b) = opDim op a + opDim op b := by
  cases op with
  | iden => rfl
  | grad => exact Nat.mul_add 3 a b
  | dudx c => rfl
  | div => exact absurd rfl hop.1
  | curl => exact absurd rfl hop.2

theorem comp_div {op : OpT} (hop : Local op) (l d : Nat) : comp op l / d = l / opDim op d := by
  cases op with
  | iden => rfl
  | grad => exact Nat.div_div_eq_div_mul l 3 d
  | dudx c => rfl
  | div => exact absurd rfl hop.1
  | curl => exact absurd rfl hop.2

theorem comp_mod {op : OpT} (hop : Local op) (l d : Nat) : comp op (l % opDim op d) = comp op l % d := by
  cases op with
  | iden => rfl
  | grad => exact Nat.mod_mul_right_div_self l 3 d
  | dudx c => rfl
  | div => exact absurd rfl hop.1
  | curl => exact absurd rfl hop.2

theorem comp_lt {op : OpT} (hop : Local op) (l d : Nat) : comp op l < d ↔ l < opDim op d := by
  cases op with
  | iden => rfl
  | grad =>
    change l / 3 < d ↔ l < 3 * d
    omega
  | dudx c => rfl
  | div => exact absurd rfl hop.1
  | curl => exact absurd rfl hop.2

theorem comp_sub {op : OpT} (hop : Local op) (l d : Nat) : comp op (l - opDim op d) = comp op l - d := by
  cases op with
  | iden => rfl
  | grad =>
    change (l - 3 * d) / 3 = l / 3 - d
    omega
  | dudx c => rfl
  | div => exact absurd rfl hop.1
  | curl => exact absurd rfl hop.2

/-- vectors -/
theorem applied_vec {op : OpT} (hop : Local op) {F : Fem} {v : Vals ℝ} (h : Applied q f T x op F v) (n : Nat) :
    Applied q f T x op (.vec n F) (vecVals (opDim op (dim F)) (nfa F) v) := by
  intro l hl p hp i hi r hr φ hφ
  rw [Nth] at hφ
  obtain ⟨j, ψ, hj, hψ, c, hc, rfl, e⟩ := hφ
  rw [Order.dim, opDim_mul hop] at hl
  have hD : 0 < opDim op (dim F) := Nat.pos_of_ne_zero fun h0 => by rw [h0, Nat.mul_zero] at hl; omega
  have hN : 0 < nfa F := by omega
  have e1 : (nfa F * c + j) / nfa F = c := by rw [Nat.mul_add_div hN, Nat.div_eq_of_lt hj, Nat.add_zero]
  have e2 : (nfa F * c + j) % nfa F = j := by rw [Nat.mul_add_mod, Nat.mod_eq_of_lt hj]
  have hlc : comp op l < n * dim F := by rw [comp_lt hop, opDim_mul hop]; exact hl
  unfold vecVals
  rw [e1, e2]
  split
  · rename_i hlc'
    refine entry_congr hop (ψ := ψ) (l' := l % opDim op (dim F)) (fun y => ?_) (fun hg => ?_)
      (h _ (Nat.mod_lt _ hD) p hp j hj r hr ψ hψ)
    · rw [e y _ hlc, comp_div hop, if_pos hlc', comp_mod hop]
    · subst hg
      exact (Nat.mod_mul_right_mod l 3 _).symm
  · rename_i hlc'
    refine entry_zero hop _ (fun y => ?_)
    rw [e y _ hlc, comp_div hop, if_neg hlc']

/-- the divergence and the curl from the gradient -/
theorem applied_div {F : Fem} (hF : dim F = 3) {g : Vals ℝ} (h : Applied q f T x .grad F g) : Applied q f T x .div F (divVals g) := by
  intro l hl n hn i hi r hr φ hφ
  have hg := fun k (hk : k < 9) => h k (by rw [hF]; exact hk) n hn i hi r hr φ hφ
  refine ⟨fun j => g (4 * j) n i r, fun j hj => ?_, rfl⟩
  have := hg (4 * j) (by omega)
  rw [Entry, show 4 * j / 3 = j by omega, show 4 * j % 3 = j by omega] at this
  exact this

theorem applied_curl {F : Fem} (hF : dim F = 3) {g : Vals ℝ} (h : Applied q f T x .grad F g) : Applied q f T x .curl F (curlVals g) := by
  intro l hl n hn i hi r hr φ hφ
  have hg := fun k (hk : k < 9) => h k (by rw [hF]; exact hk) n hn i hi r hr φ hφ
  have hl3 : l < 3 := by rw [hF] at hl; exact hl
  interval_cases l
  · exact ⟨g 7 n i r, g 5 n i r, hg 7 (by omega), hg 5 (by omega), rfl⟩
  · exact ⟨g 2 n i r, g 6 n i r, hg 2 (by omega), hg 6 (by omega), rfl⟩
  · exact ⟨g 3 n i r, g 1 n i r, hg 3 (by omega), hg 1 (by omega), rfl⟩

/-- the partial derivatives from the gradient -/
theorem applied_dudx {F : Fem} {c : Nat} (hc : c < 3) {g : Vals ℝ} (h : Applied q f T x .grad F g) :
    Applied q f T x (.dudx c) F (dudxVals c g) := by
  intro l hl n hn i hi r hr φ hφ
  have hl' : l < dim F := hl
  have := h (3 * l + c) (by change _ < 3 * _; omega) n hn i hi r hr φ hφ
  rw [Entry, show (3 * l + c) / 3 = l by omega, show (3 * l + c) % 3 = c by omega] at this
  exact this

/-- the operators with their values belong to the members of the list -/
def Members (q f : Nat) (T : Nat → Nat → Nat → ℝ) (x : Nat → Nat → Nat → ℝ) (op : OpT) : List (Nat × Nat × Vals ℝ) → Fems → Prop
  | [], .nil => True
  | a :: as, .cons h t => (a.1 = opDim op (dim h) ∧ a.2.1 = nfa h ∧ Applied q f T x op h a.2.2) ∧ Members q f T x op as t
  | _, _ => False

/-- products -/
theorem applied_com {op : OpT} (hop : Local op) : ∀ (as : List (Nat × Nat × Vals ℝ)) (F : Fems), Members q f T x op as F →
    ∀ l, l < opDim op (dimSum F) → ∀ n, n < q → ∀ i, i < nfaSum F → ∀ r, r < f → ∀ φ, NthCom (T r) F i φ →
      Entry op φ (x r n) l (prodVals as l n i r)
  | [], .nil, _, _, _, _, _, i, hi, _, _, _, _ => absurd hi (Nat.not_lt_zero i)
  | [], .cons _ _, h, _, _, _, _, _, _, _, _, _, _ => h.elim
  | _ :: _, .nil, h, _, _, _, _, _, _, _, _, _, _ => h.elim
  | a :: as, .cons h t, hm, l, hl, n, hn, i, hi, r, hr, φ, hφ => by
    rw [Members] at hm
    obtain ⟨⟨e1, e2, ha⟩, hm⟩ := hm
    rw [dimSum, opDim_add hop] at hl
    rw [nfaSum] at hi
    rw [prodVals]
    unfold joinVals
    rw [e1, e2]
    rw [NthCom] at hφ
    rcases hφ with ⟨hi', ψ, hψ, e⟩ | ⟨j, ψ, rfl, hψ, e⟩
    · by_cases hl' : l < opDim op (dim h)
      · rw [if_pos ⟨hl', hi'⟩]
        refine entry_congr hop (ψ := ψ) (fun y => ?_) (fun _ => rfl) (ha l hl' n hn i hi' r hr ψ hψ)
        rw [e, if_pos ((comp_lt hop _ _).2 hl')]
      · rw [if_neg (fun c => hl' c.1), if_neg (fun c => by omega)]
        refine entry_zero hop _ (fun y => ?_)
        rw [e, if_neg (fun c => hl' ((comp_lt hop _ _).1 c))]
    · by_cases hl' : l < opDim op (dim h)
      · rw [if_neg (fun c => by omega), if_neg (fun c => by omega)]
        refine entry_zero hop _ (fun y => ?_)
        rw [e, if_pos ((comp_lt hop _ _).2 hl')]
      · rw [if_neg (fun c => hl' c.1), if_pos ⟨by omega, by omega⟩, Nat.add_sub_cancel_left]
        refine entry_congr hop (ψ := ψ) (l' := l - opDim op (dim h)) (fun y => ?_) (fun hg => ?_)
          (applied_com hop as t hm _ (by omega) n hn j (by omega) r hr ψ hψ)
        · rw [e, if_neg (fun c => hl' ((comp_lt hop _ _).1 c)), comp_sub hop]
        · subst hg
          change ¬ l < 3 * dim h at hl'
          change l % 3 = (l - 3 * dim h) % 3
          omega

/-- sums -/
theorem applied_union {op : OpT} {d : Nat} : ∀ (as : List (Nat × Nat × Vals ℝ)) (F : Fems), Members q f T x op as F → SameDim d F →
    ∀ l, l < opDim op d → ∀ n, n < q → ∀ i, i < nfaSum F → ∀ r, r < f → ∀ φ, NthUnion (T r) F i φ →
      Entry op φ (x r n) l (unionVals (as.map fun a => (a.2.1, a.2.2)) l n i r)
  | [], .nil, _, _, _, _, _, _, i, hi, _, _, _, _ => absurd hi (Nat.not_lt_zero i)
  | [], .cons _ _, h, _, _, _, _, _, _, _, _, _, _, _ => h.elim
  | _ :: _, .nil, h, _, _, _, _, _, _, _, _, _, _, _ => h.elim
  | a :: as, .cons h t, hm, hs, l, hl, n, hn, i, hi, r, hr, φ, hφ => by
    rw [Members] at hm
    obtain ⟨⟨e1, e2, ha⟩, hm⟩ := hm
    rw [SameDim] at hs
    rw [nfaSum] at hi
    rw [List.map_cons, unionVals]
    dsimp only
    rw [e2]
    rw [NthUnion] at hφ
    rcases hφ with ⟨hi', hψ⟩ | ⟨j, rfl, hψ⟩
    · rw [if_pos hi']
      exact ha l (by rw [hs.1]; exact hl) n hn i hi' r hr φ hψ
    · rw [if_neg (by omega), Nat.add_sub_cancel_left]
      exact applied_union as t hm hs.2 l hl n hn j (by omega) r hr φ hψ

end

/-! ### The operators of the compile-time types -/

section
variable {m : Mem ℝ} {T : Nat → Nat → Nat → ℝ} {x : Nat → Nat → Nat → ℝ}

/-- the operator is right -/
def Right (m : Mem ℝ) (T : Nat → Nat → Nat → ℝ) (x : Nat → Nat → Nat → ℝ) (op : OpT) (F : Fem) (A : CtOp.Op ℝ) (v : Vals ℝ) : Prop :=
  CtOp.Correct m.q m.f A v ∧ A.dim = opDim op (dim F) ∧ A.nfa = nfa F ∧ Applied m.q m.f T x op F v

theorem ctLeaf_right (G : Geo m T x) {op : OpT} (hop : ∀ c, op = .dudx c → c < 3) {s : Space} {A : CtOp.Op ℝ}
    (h : ctLeaf Real.sqrt m op s = some A) : CtOp.IsDense m.q A ∧ ∃ v, Right m T x op (.leaf s) A v := by
  unfold ctLeaf at h
  cases hs : simple Real.sqrt m op s with
  | some a =>
    rw [hs] at h
    cases h
    obtain ⟨v, hl, hd, hn, hv⟩ := simple_ok G hop hs
    exact ⟨CtOp.fix_dense, v, CtOp.fix_correct hl, hd, hn, hv⟩
  | none =>
    rw [hs] at h
    cases op with
    | dudx c =>
      change (simple Real.sqrt m .grad s).map _ = some A at h
      rw [Option.map_eq_some_iff] at h
      obtain ⟨a, ha, rfl⟩ := h
      obtain ⟨v, hl, hd, hn, hv⟩ := simple_ok G (op := .grad) nofun ha
      have hd3 : a.dim = 3 * leafDim s := hd
      refine ⟨CtOp.dudx_dense CtOp.fix_dense, _, CtOp.dudx_correct (CtOp.fix_correct hl) CtOp.fix_dense hd3 (hop c rfl), ?_, hn,
        applied_dudx (hop c rfl) hv⟩
      change a.dim / 3 = leafDim s
      omega
    | iden => exact nomatch h
    | grad => exact nomatch h
    | div => exact nomatch h
    | curl => exact nomatch h

/-- `Usz` of the gradient of a scalar space -/
theorem ctLeaf_grad_usz {s : Space} (hs : leafDim s = 1) {A : CtOp.Op ℝ} (h : ctLeaf Real.sqrt m .grad s = some A) :
    A.usz = 3 * m.q * m.f * A.nfa := by
  cases s <;> first
    | (cases hs; done)
    | (cases h
       dsimp only [CtOp.fix, direct, byTable]
       ring)

theorem vecLeaf_right (G : Geo m T x) {op : OpT} (hop : ∀ c, op = .dudx c → c < 3) {n : Nat} (hn : 0 < n) {s : Space} {A : CtOp.Op ℝ}
    (h : ctOp Real.sqrt m op (.vec n (.leaf s)) = some A) : ∃ v, Right m T x op (.vec n (.leaf s)) A v := by
  have key : Local op → ((ctLeaf Real.sqrt m op s).map (CtOp.vec n)) = some A → ∃ v, Right m T x op (.vec n (.leaf s)) A v := by
    intro hl h
    rw [Option.map_eq_some_iff] at h
    obtain ⟨B, hB, rfl⟩ := h
    obtain ⟨hden, v, hc, hd, hnf, hv⟩ := ctLeaf_right G hop hB
    refine ⟨_, CtOp.vec_correct hc hden hn, ?_, ?_, ?_⟩
    · change n * B.dim = opDim op (n * leafDim s)
      rw [opDim_mul hl, hd]
      rfl
    · change n * B.nfa = n * leafNfa s
      rw [hnf]
      rfl
    · rw [hd, hnf]
      exact applied_vec hl hv n
  have grad : n = 3 → leafDim s = 1 → ∀ B, ctLeaf Real.sqrt m .grad s = some B → CtOp.IsDense m.q B ∧ B.dim = 3 ∧
      B.usz = 3 * m.q * m.f * B.nfa ∧ B.nfa = leafNfa s ∧
      ∃ v, CtOp.Correct m.q m.f B v ∧ Applied m.q m.f T x .grad (.vec n (.leaf s)) (vecVals 3 B.nfa v) := by
    intro h3 h1 B hB
    obtain ⟨hden, v, hc, hd, hnf, hv⟩ := ctLeaf_right G (op := .grad) nofun hB
    have hd' : B.dim = 3 * leafDim s := hd
    rw [h1] at hd'
    refine ⟨hden, hd', ctLeaf_grad_usz h1 hB, hnf, v, hc, ?_⟩
    have := applied_vec (op := .grad) ⟨nofun, nofun⟩ hv n
    rw [← hnf, ← hd, hd'] at this
    exact this
  have dim3 : n = 3 → leafDim s = 1 → dim (.vec n (.leaf s)) = 3 := by
    intro h3 h1
    change n * leafDim s = 3
    rw [h3, h1]
  cases op with
  | iden => exact key ⟨nofun, nofun⟩ h
  | grad => exact key ⟨nofun, nofun⟩ h
  | dudx c => exact key ⟨nofun, nofun⟩ h
  | div =>
    rw [ctOp] at h
    split at h
    · rename_i hc
      rw [Option.map_eq_some_iff] at h
      obtain ⟨B, hB, rfl⟩ := h
      obtain ⟨hden, hd, hu, hnf, v, hv, ha⟩ := grad hc.1 hc.2 B hB
      refine ⟨_, CtOp.div_correct hv hden hd hu, ?_, ?_, applied_div (dim3 hc.1 hc.2) ha⟩
      · rw [dim3 hc.1 hc.2]
        rfl
      · change 3 * B.nfa = n * leafNfa s
        rw [hnf, hc.1]
    · exact nomatch h
  | curl =>
    rw [ctOp] at h
    split at h
    · rename_i hc
      rw [Option.map_eq_some_iff] at h
      obtain ⟨B, hB, rfl⟩ := h
      obtain ⟨hden, hd, hu, hnf, v, hv, ha⟩ := grad hc.1 hc.2 B hB
      refine ⟨_, CtOp.curl_correct hv hden hd hu, ?_, ?_, applied_curl (dim3 hc.1 hc.2) ha⟩
      · rw [dim3 hc.1 hc.2]
        rfl
      · change 3 * B.nfa = n * leafNfa s
        rw [hnf, hc.1]
    · exact nomatch h

theorem vecT_right {op : OpT} (hl : Local op) {n : Nat} (hn : 0 < n) {F : Fem} {A : CtOp.Op ℝ} {v : Vals ℝ} (h : Right m T x op F A v) :
    Right m T x op (.vec n F) (CtOp.vecT n A) (vecVals (opDim op (dim F)) (nfa F) v) := by
  obtain ⟨hc, hd, hnf, hv⟩ := h
  refine ⟨?_, ?_, ?_, applied_vec hl hv n⟩
  · rw [← hd, ← hnf]
    exact CtOp.vecT_correct hc hn
  · change n * A.dim = opDim op (n * dim F)
    rw [opDim_mul hl, hd]
  · change n * A.nfa = n * nfa F
    rw [hnf]

/-- the operators of the members -/
def Rights (m : Mem ℝ) (T : Nat → Nat → Nat → ℝ) (x : Nat → Nat → Nat → ℝ) (op : OpT) : List (CtOp.Op ℝ × Vals ℝ) → Fems → Prop
  | [], .nil => True
  | a :: as, .cons h t => Right m T x op h a.1 a.2 ∧ Rights m T x op as t
  | _, _ => False

theorem rights_members {op : OpT} : ∀ (as : List (CtOp.Op ℝ × Vals ℝ)) (F : Fems), Rights m T x op as F →
    Members m.q m.f T x op (as.map fun a => (a.1.dim, a.1.nfa, a.2)) F
  | [], .nil, _ => trivial
  | [], .cons _ _, h => h.elim
  | _ :: _, .nil, h => h.elim
  | _ :: as, .cons _ t, ⟨⟨_, hd, hn, hv⟩, h⟩ => ⟨⟨hd, hn, hv⟩, rights_members as t h⟩

theorem rights_correct {op : OpT} : ∀ (as : List (CtOp.Op ℝ × Vals ℝ)) (F : Fems), Rights m T x op as F →
    ∀ a ∈ as, CtOp.Correct m.q m.f a.1 a.2
  | [], _, _, _, h => absurd h List.not_mem_nil
  | _ :: _, .nil, h, _, _ => h.elim
  | _ :: as, .cons _ t, ⟨h, h'⟩, b, hb => by
    rcases List.mem_cons.1 hb with rfl | hb
    · exact h.1
    · exact rights_correct as t h' b hb

theorem rights_dim {op : OpT} {d : Nat} : ∀ (as : List (CtOp.Op ℝ × Vals ℝ)) (F : Fems), Rights m T x op as F → SameDim d F →
    ∀ a ∈ as, a.1.dim = opDim op d
  | [], _, _, _, _, h => absurd h List.not_mem_nil
  | _ :: _, .nil, h, _, _, _ => h.elim
  | _ :: as, .cons _ t, ⟨h, h'⟩, hs, b, hb => by
    rw [SameDim] at hs
    rcases List.mem_cons.1 hb with rfl | hb
    · rw [h.2.1, hs.1]
    · exact rights_dim as t h' hs.2 b hb

theorem rights_sum {op : OpT} (hl : Local op) : ∀ (as : List (CtOp.Op ℝ × Vals ℝ)) (F : Fems), Rights m T x op as F →
    ((as.map Prod.fst).map CtOp.Op.dim).sum = opDim op (dimSum F)
  | [], .nil, _ => by
    rw [dimSum]
    cases op with
    | div => exact absurd rfl hl.1
    | curl => exact absurd rfl hl.2
    | iden => rfl
    | grad => rfl
    | dudx c => rfl
  | [], .cons _ _, h => h.elim
  | _ :: _, .nil, h => h.elim
  | _ :: as, .cons _ t, ⟨h, h'⟩ => by
    rw [List.map_cons, List.map_cons, List.sum_cons, rights_sum hl as t h', h.2.1, dimSum, opDim_add hl]

theorem rights_nfa {op : OpT} : ∀ (as : List (CtOp.Op ℝ × Vals ℝ)) (F : Fems), Rights m T x op as F →
    ((as.map Prod.fst).map CtOp.Op.nfa).sum = nfaSum F
  | [], .nil, _ => rfl
  | [], .cons _ _, h => h.elim
  | _ :: _, .nil, h => h.elim
  | _ :: as, .cons _ t, ⟨h, h'⟩ => by
    rw [List.map_cons, List.map_cons, List.sum_cons, rights_nfa as t h', h.2.2.1, nfaSum]

theorem com_right {op : OpT} (hl : Local op) {as : List (CtOp.Op ℝ × Vals ℝ)} {F : Fems} (h : Rights m T x op as F) (hne : as ≠ []) :
    Right m T x op (.com F) (CtOp.com (as.map Prod.fst)) (prodVals (as.map fun a => (a.1.dim, a.1.nfa, a.2))) := by
  refine ⟨CtOp.com_correct as hne (rights_correct as F h), rights_sum hl as F h, rights_nfa as F h, ?_⟩
  intro l hlt n hn i hi r hr φ hφ
  rw [Nth] at hφ
  exact applied_com hl _ F (rights_members as F h) l hlt n hn i hi r hr φ hφ

theorem union_right {op : OpT} {a b : CtOp.Op ℝ × Vals ℝ} {as : List (CtOp.Op ℝ × Vals ℝ)} {h k : Fem} {t : Fems}
    (hr : Rights m T x op (a :: b :: as) (.cons h (.cons k t))) (hs : SameDim (dim h) (.cons k t)) :
    Right m T x op (.union (.cons h (.cons k t))) (CtOp.union m.q m.f ((a :: b :: as).map Prod.fst))
      (unionVals ((a :: b :: as).map fun a => (a.1.nfa, a.2))) := by
  have hs' : SameDim (dim h) (.cons h (.cons k t)) := by
    rw [SameDim]
    exact ⟨rfl, hs⟩
  refine ⟨CtOp.union_correct a b as (fun c hc => ⟨rights_correct _ _ hr c hc, rights_dim _ _ hr hs' c hc⟩), ?_, rights_nfa _ _ hr, ?_⟩
  · change a.1.dim = _
    rw [rights_dim _ _ hr hs' a List.mem_cons_self]
    rfl
  · intro l hlt n hn i hi r hr' φ hφ
    rw [Nth] at hφ
    have := applied_union _ _ (rights_members _ _ hr) hs' l hlt n hn i hi r hr' φ hφ
    rw [List.map_map] at this
    exact this

mutual
/-- **C53**: the operator of a compile-time space, when the library defines it, gives at every point of every tetrahedron the entries of
the operator on the basis functions of the space, in the order of the basis functions, whatever the memory held. -/
theorem ctOp_right (G : Geo m T x) {op : OpT} (hop : ∀ c, op = .dudx c → c < 3) : ∀ (F : Fem) (A : CtOp.Op ℝ), Proper F →
    ctOp Real.sqrt m op F = some A → ∃ v, Right m T x op F A v
  | .leaf s, A, _, h => (ctLeaf_right G hop (by rw [ctOp] at h; exact h)).2
  | .vec n (.leaf s), A, hp, h => vecLeaf_right G hop (by rw [Proper] at hp; exact hp.1) h
  | .vec n (.vec k b), A, hp, h => by
    rw [Proper] at hp
    rw [ctOp] at h
    split at h
    · exact nomatch h
    · rename_i hl
      rw [Option.map_eq_some_iff] at h
      obtain ⟨B, hB, rfl⟩ := h
      obtain ⟨v, hv⟩ := ctOp_right G hop (.vec k b) B hp.2 hB
      exact ⟨_, vecT_right (not_or.1 hl) hp.1 hv⟩
  | .vec n (.com l), A, hp, h => by
    rw [Proper] at hp
    rw [ctOp] at h
    split at h
    · exact nomatch h
    · rename_i hl
      rw [Option.map_eq_some_iff] at h
      obtain ⟨B, hB, rfl⟩ := h
      obtain ⟨v, hv⟩ := ctOp_right G hop (.com l) B hp.2 hB
      exact ⟨_, vecT_right (not_or.1 hl) hp.1 hv⟩
  | .vec n (.union l), A, hp, h => by
    rw [Proper] at hp
    rw [ctOp] at h
    split at h
    · exact nomatch h
    · rename_i hl
      rw [Option.map_eq_some_iff] at h
      obtain ⟨B, hB, rfl⟩ := h
      obtain ⟨v, hv⟩ := ctOp_right G hop (.union l) B hp.2 hB
      exact ⟨_, vecT_right (not_or.1 hl) hp.1 hv⟩
  | .com .nil, A, hp, h => by
    rw [Proper] at hp
    exact hp.elim
  | .com (.cons k t), A, hp, h => by
    rw [Proper] at hp
    rw [ctOp] at h
    split at h
    · exact nomatch h
    · rename_i hl
      rw [Option.map_eq_some_iff] at h
      obtain ⟨Bs, hB, rfl⟩ := h
      obtain ⟨as, rfl, has⟩ := ctOps_right G hop (.cons k t) Bs (by rw [ProperAll]; exact hp) hB
      refine ⟨_, com_right (not_or.1 hl) has ?_⟩
      rintro rfl
      exact has.elim
  | .union .nil, A, hp, h => by
    rw [Proper] at hp
    exact hp.elim
  | .union (.cons k .nil), A, hp, h => by
    rw [Proper] at hp
    exact hp.elim
  | .union (.cons k (.cons k' t)), A, hp, h => by
    rw [Proper] at hp
    rw [ctOp, Option.map_eq_some_iff] at h
    obtain ⟨Bs, hB, rfl⟩ := h
    obtain ⟨as, rfl, has⟩ := ctOps_right G hop (.cons k (.cons k' t)) Bs (by rw [ProperAll]; exact ⟨hp.1, hp.2.1⟩) hB
    match as, has with
    | [], has => exact has.elim
    | [_], has => exact has.2.elim
    | a :: b :: as, has => exact ⟨_, union_right has hp.2.2⟩
/-- the members -/
theorem ctOps_right (G : Geo m T x) {op : OpT} (hop : ∀ c, op = .dudx c → c < 3) : ∀ (F : Fems) (As : List (CtOp.Op ℝ)), ProperAll F →
    ctOps Real.sqrt m op F = some As → ∃ as : List (CtOp.Op ℝ × Vals ℝ), as.map Prod.fst = As ∧ Rights m T x op as F
  | .nil, As, _, h => by
    rw [ctOps] at h
    cases h
    exact ⟨[], rfl, trivial⟩
  | .cons k t, As, hp, h => by
    rw [ProperAll] at hp
    rw [ctOps] at h
    simp only [Option.bind_eq_bind, Option.bind_eq_some_iff, Option.some.injEq] at h
    obtain ⟨A, hA, Bs, hB, rfl⟩ := h
    obtain ⟨v, hv⟩ := ctOp_right G hop k A hp.1 hA
    obtain ⟨as, rfl, has⟩ := ctOps_right G hop t Bs hp.2 hB
    exact ⟨(A, v) :: as, rfl, hv, has⟩
end

theorem ctLeaf_defined {op : OpT} (hl : Local op) (s : Space) : ∃ A, ctLeaf Real.sqrt m op s = some A := by
  cases op with
  | iden => cases s <;> exact ⟨_, rfl⟩
  | grad => cases s <;> exact ⟨_, rfl⟩
  | dudx c => cases s <;> exact ⟨_, rfl⟩
  | div => exact absurd rfl hl.1
  | curl => exact absurd rfl hl.2

mutual
/-- **C53**: the identity, the gradient and the partial derivatives are defined on every space. -/
theorem ctOp_defined (m : Mem ℝ) {op : OpT} (hl : Local op) : ∀ F : Fem, ∃ A, ctOp Real.sqrt m op F = some A
  | .leaf s => by
    rw [ctOp]
    exact ctLeaf_defined hl s
  | .vec n (.leaf s) => by
    obtain ⟨A, hA⟩ := ctLeaf_defined (m := m) hl s
    cases op with
    | iden => exact ⟨CtOp.vec n A, by rw [ctOp, hA, Option.map_some]; all_goals nofun⟩
    | grad => exact ⟨CtOp.vec n A, by rw [ctOp, hA, Option.map_some]; all_goals nofun⟩
    | dudx c => exact ⟨CtOp.vec n A, by rw [ctOp, hA, Option.map_some]; all_goals nofun⟩
    | div => exact absurd rfl hl.1
    | curl => exact absurd rfl hl.2
  | .vec n (.vec k b) => by
    obtain ⟨A, hA⟩ := ctOp_defined m hl (.vec k b)
    exact ⟨_, by rw [ctOp, hA, if_neg (not_or.2 hl), Option.map_some]⟩
  | .vec n (.com l) => by
    obtain ⟨A, hA⟩ := ctOp_defined m hl (.com l)
    exact ⟨_, by rw [ctOp, hA, if_neg (not_or.2 hl), Option.map_some]⟩
  | .vec n (.union l) => by
    obtain ⟨A, hA⟩ := ctOp_defined m hl (.union l)
    exact ⟨_, by rw [ctOp, hA, if_neg (not_or.2 hl), Option.map_some]⟩
  | .com l => by
    obtain ⟨A, hA⟩ := ctOps_defined m hl l
    exact ⟨_, by rw [ctOp, hA, if_neg (not_or.2 hl), Option.map_some]⟩
  | .union l => by
    obtain ⟨A, hA⟩ := ctOps_defined m hl l
    exact ⟨_, by rw [ctOp, hA, Option.map_some]⟩
/-- the members -/
theorem ctOps_defined (m : Mem ℝ) {op : OpT} (hl : Local op) : ∀ F : Fems, ∃ A, ctOps Real.sqrt m op F = some A
  | .nil => ⟨[], by rw [ctOps]⟩
  | .cons h t => by
    obtain ⟨A, hA⟩ := ctOp_defined m hl h
    obtain ⟨B, hB⟩ := ctOps_defined m hl t
    exact ⟨A :: B, by rw [ctOps, hA, hB]; rfl⟩
end

theorem leafNth_exists {T : Nat → Nat → ℝ} (hv : Nondeg T) (s : Space) (i : Nat) : ∃ φ, leafNth T s i φ := by
  cases s <;> exact ⟨_, basis_exists _ _ _ i T (fun _ => 0) (fun _ => 0) hv⟩

mutual
/-- **C53**: every space has its basis functions. -/
theorem nth_exists {T : Nat → Nat → ℝ} (hv : Nondeg T) : ∀ (F : Fem) (i : Nat), i < nfa F → ∃ φ, Nth T F i φ
  | .leaf s, i, _ => by
    obtain ⟨φ, hφ⟩ := leafNth_exists hv s i
    exact ⟨φ, by rw [Nth]; exact hφ⟩
  | .vec n b, i, hi => by
    rw [nfa] at hi
    have hN : 0 < nfa b := Nat.pos_of_ne_zero fun h0 => by rw [h0, Nat.mul_zero] at hi; omega
    obtain ⟨ψ, hψ⟩ := nth_exists hv b (i % nfa b) (Nat.mod_lt _ hN)
    refine ⟨fun y k => if k / dim b = i / nfa b then ψ y (k % dim b) else 0, ?_⟩
    rw [Nth]
    exact ⟨i % nfa b, ψ, Nat.mod_lt _ hN, hψ, i / nfa b, (Nat.div_lt_iff_lt_mul hN).2 hi, (Nat.div_add_mod i (nfa b)).symm, fun _ _ _ => rfl⟩
  | .com l, i, hi => by
    obtain ⟨φ, hφ⟩ := nthCom_exists hv l i hi
    exact ⟨φ, by rw [Nth]; exact hφ⟩
  | .union l, i, hi => by
    obtain ⟨φ, hφ⟩ := nthUnion_exists hv l i hi
    exact ⟨φ, by rw [Nth]; exact hφ⟩
/-- products -/
theorem nthCom_exists {T : Nat → Nat → ℝ} (hv : Nondeg T) : ∀ (F : Fems) (i : Nat), i < nfaSum F → ∃ φ, NthCom T F i φ
  | .nil, i, hi => absurd hi (Nat.not_lt_zero i)
  | .cons h t, i, hi => by
    rw [nfaSum] at hi
    by_cases hc : i < nfa h
    · obtain ⟨ψ, hψ⟩ := nth_exists hv h i hc
      exact ⟨fun y k => if k < dim h then ψ y k else 0, by rw [NthCom]; exact Or.inl ⟨hc, ψ, hψ, fun _ _ => rfl⟩⟩
    · obtain ⟨ψ, hψ⟩ := nthCom_exists hv t (i - nfa h) (by omega)
      exact ⟨fun y k => if k < dim h then 0 else ψ y (k - dim h), by
        rw [NthCom]; exact Or.inr ⟨i - nfa h, ψ, by omega, hψ, fun _ _ => rfl⟩⟩
/-- sums -/
theorem nthUnion_exists {T : Nat → Nat → ℝ} (hv : Nondeg T) : ∀ (F : Fems) (i : Nat), i < nfaSum F → ∃ φ, NthUnion T F i φ
  | .nil, i, hi => absurd hi (Nat.not_lt_zero i)
  | .cons h t, i, hi => by
    rw [nfaSum] at hi
    by_cases hc : i < nfa h
    · obtain ⟨ψ, hψ⟩ := nth_exists hv h i hc
      exact ⟨ψ, by rw [NthUnion]; exact Or.inl ⟨hc, hψ⟩⟩
    · obtain ⟨ψ, hψ⟩ := nthUnion_exists hv t (i - nfa h) (by omega)
      exact ⟨ψ, by rw [NthUnion]; exact Or.inr ⟨i - nfa h, by omega, hψ⟩⟩
end

theorem basis_family {T : Nat → Nat → ℝ} (hv : Nondeg T) (F : Fem) : ∃ φ : Nat → Field, ∀ i, i < nfa F → Nth T F i (φ i) := by
  have h : ∀ i, ∃ φ : Field, i < nfa F → Nth T F i φ := fun i => by
    by_cases hi : i < nfa F
    · obtain ⟨φ, hφ⟩ := nth_exists hv F i hi
      exact ⟨φ, fun _ => hφ⟩
    · exact ⟨fun _ _ => 0, fun h => absurd h hi⟩
  choose φ hφ using h
  exact ⟨φ, hφ⟩

/-- the geometry computed by the code for one tetrahedron and one point -/
theorem single_geo {T : Nat → Nat → ℝ} (hv : Nondeg T) (y : Nat → ℝ) :
    Geo (single T (baryCoord (T 0) (T 1) (T 2) (T 3) y fun _ => 0) fun _ => 0) (fun _ => T) (fun _ _ => y) where
  q := Nat.one_pos
  f := Nat.one_pos
  nondeg _ _ := hv
  tet r hr := by
    obtain rfl : r = 0 := Nat.lt_one_iff.1 hr
    exact single_atTet _ _ _ hv
  point r hr n hn := by
    obtain rfl : n = 0 := Nat.lt_one_iff.1 hn
    exact baryCoord_correct _ _ _ _ y _ hv

/-- **C53**: the basis function is determined by its number. -/
theorem nth_unique {T : Nat → Nat → ℝ} (hv : Nondeg T) {F : Fem} (hp : Proper F) {i : Nat} (hi : i < nfa F) {φ ψ : Field}
    (hφ : Nth T F i φ) (hψ : Nth T F i ψ) (y : Nat → ℝ) {k : Nat} (hk : k < dim F) : φ y k = ψ y k := by
  have G := single_geo hv y
  obtain ⟨A, hA⟩ := ctOp_defined _ (op := .iden) ⟨nofun, nofun⟩ F
  obtain ⟨v, -, -, -, h⟩ := ctOp_right G (op := .iden) nofun F A hp hA
  have h1 : _ = φ y k := h k hk 0 Nat.one_pos i hi 0 Nat.one_pos φ hφ
  have h2 : _ = ψ y k := h k hk 0 Nat.one_pos i hi 0 Nat.one_pos ψ hψ
  exact h1.symm.trans h2

/-- **C53**: the elemental matrix assembled with two operators of the library on two spaces is, entry by entry, the quadrature sum of the
bilinear form with the tensor of the user and the entries `a`, `b` of the operators on the basis functions `φ`, `ψ` of the spaces
(which exist and are determined by `nth_exists`, `nth_unique`, `entry_unique`), whatever the memory held. -/
theorem elemental_right (G : Geo m T x) {opa opb : OpT} (hopa : ∀ c, opa = .dudx c → c < 3) (hopb : ∀ c, opb = .dudx c → c < 3)
    {F H : Fem} (hF : Proper F) (hH : Proper H) {A B : CtOp.Op ℝ} (hA : ctOp Real.sqrt m opa F = some A)
    (hB : ctOp Real.sqrt m opb H = some B) (same : Bool) (hsame : same = true → opa = opb ∧ F = H)
    {φ ψ : Nat → Nat → Field} (hφ : ∀ r, r < m.f → ∀ i, i < nfa F → Nth (T r) F i (φ r i))
    (hψ : ∀ r, r < m.f → ∀ j, j < nfa H → Nth (T r) H j (ψ r j)) {a b : Nat → Nat → Nat → Nat → ℝ}
    (ha : ∀ l n i r, l < opDim opa (dim F) → n < m.q → i < nfa F → r < m.f → Entry opa (φ r i) (x r n) l (a l n i r))
    (hb : ∀ k n j r, k < opDim opb (dim H) → n < m.q → j < nfa H → r < m.f → Entry opb (ψ r j) (x r n) k (b k n j r))
    (mem : Nat → ℝ) (u v ex es : Nat) (hesa : A.exr ≤ es) (hesb : B.exr ≤ es)
    (hu : u + A.usz ≤ ex ∨ ex + es ≤ u) (hv : v + B.usz ≤ ex ∨ ex + es ≤ v) (huv : u + A.usz ≤ v ∨ v + B.usz ≤ u)
    (tr : Elemental.Traits) (htr : tr ≠ .perSelection) (fn : Elemental.UserD ℝ) (w mes xyg : Nat → ℝ) (nrm : Option (Nat → ℝ))
    (D DU DIFF extraR E : Nat → ℝ) (hn : 0 < nfa F)
    (hfit : ∀ r, r < m.f → ∀ n, n < m.q →
      Elemental.Fits (opDim opb (dim H) * (if nrm.isSome then 3 else 1)) (opDim opa (dim F)) (nfa F) (fn (Elemental.xpt xyg m.q n r) r))
    (hold : ∀ U, tr.Holds fn ⟨U, opDim opa (dim F), opDim opb (dim H) * (if nrm.isSome then 3 else 1), m.q, m.f, nfa F, w, mes, xyg⟩) :
    ∃ m2 U V E', CtOp.applyTwo same A B u v ex es mem = some (m2, U, V) ∧
      Elemental.fem3Dtet (fun a DU => Elemental.applyDU tr fn a D DU) (U.band m2) (V.band m2) A.dim B.dim A.nfa B.nfa m.q m.f w mes xyg nrm
        DU DIFF extraR E = some E' ∧
      ∀ r, r < m.f → ∀ i, i < nfa F → ∀ j, j < nfa H → E' (j + nfa H * (i + nfa F * r)) =
        ∑ n ∈ Finset.range m.q, w n * mes r * ∑ k ∈ Finset.range (opDim opb (dim H)), b k n j r *
          ∑ l ∈ Finset.range (opDim opa (dim F)),
            Elemental.acting nrm (fun n r k l => Elemental.tensor (opDim opb (dim H) * (if nrm.isSome then 3 else 1)) (opDim opa (dim F))
              (fn (Elemental.xpt xyg m.q n r) r) k l) n r k l * a l n i r := by
  obtain ⟨va, hca, hda, hna, haa⟩ := ctOp_right G hopa F A hF hA
  obtain ⟨vb, ⟨hcb, hdb, hnb, hbb⟩, hs⟩ : ∃ vb, Right m T x opb H B vb ∧ (same = true → A = B ∧ va = vb) := by
    cases hsm : same with
    | false =>
      obtain ⟨vb, h⟩ := ctOp_right G hopb H B hH hB
      exact ⟨vb, h, nofun⟩
    | true =>
      obtain ⟨rfl, rfl⟩ := hsame hsm
      rw [hA] at hB
      cases hB
      exact ⟨va, ⟨hca, hda, hna, haa⟩, fun _ => ⟨rfl, rfl⟩⟩
  rw [← hda, ← hna, ← hdb] at hold hfit
  obtain ⟨m2, U, V, E', h1, h2, h3⟩ := CtOp.fem3DtetC_exact hca hcb same hs mem u v ex es hesa hesb hu hv huv tr htr fn w mes xyg nrm
    D DU DIFF extraR E (hna ▸ hn) G.q G.f hfit hold
  refine ⟨m2, U, V, E', h1, h2, fun r hr i hi j hj => ?_⟩
  rw [← hna, ← hnb, h3 r hr i (hna ▸ hi) j (hnb ▸ hj), ← hda, ← hdb]
  refine Finset.sum_congr rfl fun n hn' => ?_
  have hn' := Finset.mem_range.1 hn'
  congr 1
  refine Finset.sum_congr rfl fun k hk => ?_
  have hk := hdb ▸ Finset.mem_range.1 hk
  rw [entry_unique (hbb k hk n hn' j hj r hr _ (hψ r hr j hj)) (hb k n j r hk hn' hj hr)]
  congr 1
  refine Finset.sum_congr rfl fun l hl => ?_
  have hl := hda ▸ Finset.mem_range.1 hl
  rw [entry_unique (haa l hl n hn' i hi r hr _ (hφ r hr i hi)) (ha l n i r hl hn' hi hr)]

end

section Examples

/-- one tetrahedron of negative orientation, one point -/
noncomputable def sampleM (y : Nat → ℝ) : Mem ℝ := single sampleT (baryCoord (sampleT 0) (sampleT 1) (sampleT 2) (sampleT 3) y fun _ => 0) fun _ => 0

theorem sampleM_geo (y : Nat → ℝ) : Geo (sampleM y) (fun _ => sampleT) (fun _ _ => y) := single_geo sampleT_nondeg y

/-- the pair of spaces of Taylor and Hood: three components of P2, one of P1 -/
def stokes : Fem := .com (.cons (.vec 3 (.leaf .p2)) (.cons (.leaf .p1) .nil))

/-- P1 with the bubble -/
def mini : Fem := .vec 3 (.union (.cons (.leaf .p1) (.cons (.leaf .b4) .nil)))

example : Proper stokes ∧ Proper mini ∧ nfa stokes = 34 ∧ nfa mini = 15 ∧ dim stokes = 4 ∧ dim mini = 3 := by
  simp [Proper, ProperAll, SameDim, stokes, mini, nfa, nfaSum, leafNfa, Order.dim, dimSum, dimFirst, leafDim]

-- the gradient on both, the divergence and the curl of P2 to the third on a tetrahedron of negative orientation
example (y : Nat → ℝ) (op : OpT) (hop : Local op) (hc : ∀ c, op = .dudx c → c < 3) : ∃ A v,
    ctOp Real.sqrt (sampleM y) op stokes = some A ∧
    Right (sampleM y) (fun _ => sampleT) (fun _ _ => y) op stokes A v := by
  obtain ⟨A, hA⟩ := ctOp_defined (sampleM y) hop stokes
  obtain ⟨v, hv⟩ := ctOp_right (sampleM_geo y) hc stokes A (by simp [Proper, ProperAll, stokes]) hA
  exact ⟨A, v, hA, hv⟩

example (m : Mem ℝ) : (ctOp Real.sqrt m .div (.vec 3 (.leaf .p2))).isSome = true ∧ (ctOp Real.sqrt m .curl (.vec 3 (.leaf .p2))).isSome = true ∧
    ctOp Real.sqrt m .div (.vec 2 (.leaf .p2)) = none ∧ ctOp Real.sqrt m .div stokes = none := by
  simp [ctOp, ctLeaf, simple, leafDim, stokes]

-- the last function of the second component of P2 in the pair, and the functions of P1
example {T : Nat → Nat → ℝ} {ψ : Field} (h : Nth T (.leaf .p2) 9 ψ) :
    Nth T stokes 19 fun y k => if k = 1 then ψ y 0 else 0 := by
  simp only [stokes, Nth, NthCom, nfa, leafNfa, Order.dim, leafDim] at h ⊢
  refine Or.inl ⟨by omega, fun y k => if k = 1 then ψ y 0 else 0, ⟨9, ψ, by omega, h, 1, by omega, by omega, fun y k hk => ?_⟩, fun y k => ?_⟩
  · change (if k = 1 then ψ y 0 else 0) = if k / 1 = 1 then ψ y (k % 1) else 0
    simp [Nat.mod_one]
  · change (if k = 1 then ψ y 0 else 0) = if k < 3 * 1 then if k = 1 then ψ y 0 else 0 else 0
    split_ifs <;> first | rfl | omega

-- an elemental matrix: the divergence of P2 to the third against P1
example (y : Nat → ℝ) {A B : CtOp.Op ℝ}
    (hA : ctOp Real.sqrt (sampleM y) .div
      (.vec 3 (.leaf .p2)) = some A)
    (hB : ctOp Real.sqrt (sampleM y) .iden
      (.leaf .p1) = some B) (mem w mes xyg D DU DIFF extraR E : Nat → ℝ) :
    ∃ m2 U V E', CtOp.applyTwo false A B 0 30 500 500 mem = some (m2, U, V) ∧
      Elemental.fem3Dtet (fun a DU => Elemental.applyDU .perPoint (fun _ _ => (.null, fun _ => 0)) a D DU) (U.band m2) (V.band m2) A.dim B.dim
        A.nfa B.nfa 1 1 w mes xyg none DU DIFF extraR E = some E' := by
  have G := sampleM_geo y
  have hF : Proper (.vec 3 (.leaf .p2)) := by simp [Proper]
  have hH : Proper (.leaf .p1) := by simp [Proper]
  obtain ⟨va, -, -, -, ha⟩ := ctOp_right G (op := .div) nofun _ A hF hA
  obtain ⟨vb, -, -, -, hb⟩ := ctOp_right G (op := .iden) nofun _ B hH hB
  obtain ⟨φ, hφ⟩ : ∃ φ : Nat → Field, ∀ i, i < nfa (.vec 3 (.leaf .p2)) → Nth sampleT (.vec 3 (.leaf .p2)) i (φ i) :=
    basis_family sampleT_nondeg _
  obtain ⟨ψ, hψ⟩ : ∃ ψ : Nat → Field, ∀ i, i < nfa (.leaf .p1) → Nth sampleT (.leaf .p1) i (ψ i) :=
    basis_family sampleT_nondeg _
  have eA : A.usz = 30 ∧ A.exr = 60 := by
    simp only [ctOp, ctLeaf, simple, leafDim] at hA
    cases hA
    exact ⟨rfl, rfl⟩
  have eB : B.usz = 4 ∧ B.exr = 0 := by
    simp only [ctOp, ctLeaf, simple] at hB
    cases hB
    exact ⟨rfl, rfl⟩
  obtain ⟨m2, U, V, E', h1, h2, -⟩ := elemental_right G (opa := .div) (opb := .iden) nofun nofun hF hH hA hB false nofun
    (φ := fun _ => φ) (ψ := fun _ => ψ) (fun r hr => hφ) (fun r hr => hψ)
    (fun l n i r hl hn hi hr => ha l hl n hn i hi r hr _ (hφ i hi)) (fun l n i r hl hn hi hr => hb l hl n hn i hi r hr _ (hψ i hi))
    mem 0 30 500 500 (by omega) (by omega) (by omega) (by omega) (by omega) .perPoint (by decide) (fun _ _ => (.null, fun _ => 0)) w mes xyg none
    D DU DIFF extraR E (by simp [nfa, leafNfa]) (fun _ _ _ _ => Or.inl rfl) (fun _ => trivial)
  exact ⟨m2, U, V, E', h1, h2⟩

end Examples

end Verif.SpaceOp
