import Verif.Model.SpaceOpRt
import Verif.Props.SpaceOp
import Verif.Props.OpStack8

/-!
**C53** for run-time spaces: the operators of composed run-time spaces compute the components, derivatives, divergences and curls of
the basis functions, except the divergence of products of two or three spaces.
-/
namespace Verif.SpaceOp

open Verif.Spaces Verif.Order Verif.OpStack Verif.Geometry

section
variable {m : Mem ℝ} {T : Nat → Nat → Nat → ℝ} {x : Nat → Nat → Nat → ℝ}

/-- the run-time operator is right -/
def RtRight (m : Mem ℝ) (T : Nat → Nat → Nat → ℝ) (x : Nat → Nat → Nat → ℝ) (op : OpT) (F : Fem) (A : OpStack.Op ℝ) (v : Vals ℝ) : Prop :=
  OpStack.Correct m.q m.f A v ∧ A.dim = opDim op (dim F) ∧ A.nfa = nfa F ∧ Applied m.q m.f T x op F v

mutual
/-- No divergence of a product of several spaces is taken to compute the operator: those of products are wrong (C46). -/
def Sound : Fem → OpT → Prop
  | .vec n b, .div => n = 3 ∨ Sound b .div
  | .com (.cons a .nil), .div => Sound a .div
  | .com _, .div => False
  | .union l, .div => SoundAll l
  | _, _ => True
/-- Of the members of a sum. -/
def SoundAll : Fems → Prop
  | .nil => True
  | .cons h t => Sound h .div ∧ SoundAll t
end

theorem sound_of {op : OpT} (h : op ≠ .div) (F : Fem) : Sound F op := by
  cases op with
  | div => exact absurd rfl h
  | _ => cases F <;> (try rename_i l; cases l) <;> simp [Sound]

theorem soundAll_of {l : Fems} (h : Sound (.union l) .div) : SoundAll l := by
  rw [Sound] at h
  exact h

/-! ### A space of one component has one block -/

theorem cplx_one_onePart {a : OpStack.Op ℝ} (h : OnePart a) : OnePart (OpStack.cplx a []) := by
  intro u ex es st st' ref e
  dsimp only [OpStack.cplx, cplxLoop] at e
  split at e
  · cases e
  · rename_i st1 ref1 e1
    cases e
    exact h _ _ _ _ _ _ e1

theorem vec_one_onePart {a : OpStack.Op ℝ} (h : OnePart a) : OnePart (OpStack.vec 1 a) := by
  intro u ex es st st' ref e
  dsimp only [OpStack.vec] at e
  rw [Option.map_eq_some_iff] at e
  obtain ⟨⟨st1, ref1⟩, e1, e2⟩ := e
  cases e2
  have := h _ _ _ _ _ _ e1
  change ref1.nparts * 1 = 1
  rw [this]

mutual
theorem dim_pos : ∀ F : Fem, Wf F → 0 < dim F
  | .leaf s, _ => by cases s <;> decide
  | .vec n b, h => by
    rw [Wf] at h
    rw [Order.dim]
    exact Nat.mul_pos h.1 (dim_pos b h.2)
  | .com .nil, h => by
    rw [Wf] at h
    exact h.elim
  | .com (.cons a t), h => by
    rw [Wf] at h
    rw [Order.dim, dimSum]
    exact Nat.add_pos_left (dim_pos a h.1) _
  | .union .nil, h => by
    rw [Wf] at h
    exact h.elim
  | .union (.cons a t), h => by
    rw [Wf] at h
    rw [Order.dim, dimFirst]
    exact dim_pos a h.1
end

theorem dimSum_pos {a : Fem} {t : Fems} (h : WfAll (.cons a t)) : 0 < dimSum (.cons a t) := by
  rw [WfAll] at h
  rw [dimSum]
  exact Nat.add_pos_left (dim_pos a h.1) _

/-- **C53**: the operators that work component by component give one block on a space of one component, so that the divergence and the curl
of three copies of it are not refused (fem_space.cpp:553, 603). -/
theorem rtOp_onePart {op : OpT} (hl : Local op) : ∀ (F : Fem) (A : OpStack.Op ℝ), Wf F → dim F = 1 → rtOp Real.sqrt m F op = some A →
    OnePart A
  | .leaf s, A, _, _, h => by
    rw [rtOp, rtLeaf, Option.map_eq_some_iff] at h
    obtain ⟨B, -, rfl⟩ := h
    exact leaf_onePart
  | .vec n b, A, hw, hd, h => by
    rw [Wf] at hw
    rw [Order.dim] at hd
    have hd' := (⟨Nat.eq_one_of_mul_eq_one_right hd, Nat.eq_one_of_mul_eq_one_left hd⟩ : n = 1 ∧ dim b = 1)
    rw [rtOp, Option.map_eq_some_iff] at h
    · obtain ⟨B, hB, rfl⟩ := h
      rw [hd'.1]
      exact vec_one_onePart (rtOp_onePart hl b B hw.2 hd'.2 hB)
    · exact hl.1
    · exact hl.2
  | .com .nil, A, hw, hd, h => by
    rw [Wf] at hw
    exact hw.elim
  | .com (.cons a .nil), A, hw, hd, h => by
    rw [Wf] at hw
    rw [Order.dim, dimSum, dimSum, Nat.add_zero] at hd
    rw [rtOp, rtOps, rtOps] at h
    · simp only [Option.bind_eq_bind, Option.bind_eq_some_iff, Option.some.injEq] at h
      obtain ⟨B, ⟨A', hA, _, rfl, rfl⟩, h⟩ := h
      cases h
      exact cplx_one_onePart (rtOp_onePart hl a A' hw.1 hd hA)
    · exact hl.2
    · exact hl.1
  | .com (.cons a (.cons b t)), A, hw, hd, h => by
    rw [Wf] at hw
    rw [Order.dim, dimSum] at hd
    have h1 := dim_pos a hw.1
    have h2 := dimSum_pos hw.2
    omega
  | .union l, A, hw, hd, h => by
    rw [rtOp, Option.map_eq_some_iff] at h
    obtain ⟨B, -, rfl⟩ := h
    exact union_onePart

/-! ### The operators -/

theorem rtLeaf_right (G : Geo m T x) {op : OpT} (hop : ∀ c, op = .dudx c → c < 3) {s : Space} {A : OpStack.Op ℝ}
    (h : rtLeaf Real.sqrt m op s = some A) : ∃ v, RtRight m T x op (.leaf s) A v := by
  rw [rtLeaf, Option.map_eq_some_iff] at h
  obtain ⟨B, hB, rfl⟩ := h
  obtain ⟨hden, v, hc, hd, hn, hv⟩ := ctLeaf_right G hop hB
  exact ⟨v, CtOp.leaf_of hc hden, hd, hn, hv⟩

theorem rtVec_right {op : OpT} (hl : Local op) {n : Nat} (hn : 0 < n) {F : Fem} {A : OpStack.Op ℝ} {v : Vals ℝ} (h : RtRight m T x op F A v) :
    RtRight m T x op (.vec n F) (OpStack.vec n A) (vecVals (opDim op (dim F)) (nfa F) v) := by
  obtain ⟨hc, hd, hnf, hv⟩ := h
  refine ⟨?_, ?_, ?_, applied_vec hl hv n⟩
  · rw [← hd, ← hnf]
    exact OpStack.vec_correct hc hn
  · change A.dim * n = opDim op (n * dim F)
    rw [opDim_mul hl, hd, Nat.mul_comm]
  · change A.nfa * n = n * nfa F
    rw [hnf, Nat.mul_comm]

/-- the operators of the members -/
def RtRights (m : Mem ℝ) (T : Nat → Nat → Nat → ℝ) (x : Nat → Nat → Nat → ℝ) (op : OpT) : List (OpStack.Op ℝ × Vals ℝ) → Fems → Prop
  | [], .nil => True
  | a :: as, .cons h t => RtRight m T x op h a.1 a.2 ∧ RtRights m T x op as t
  | _, _ => False

theorem rtRights_members {op : OpT} : ∀ (as : List (OpStack.Op ℝ × Vals ℝ)) (F : Fems), RtRights m T x op as F →
    Members m.q m.f T x op (as.map fun a => (a.1.dim, a.1.nfa, a.2)) F
  | [], .nil, _ => trivial
  | [], .cons _ _, h => h.elim
  | _ :: _, .nil, h => h.elim
  | _ :: as, .cons _ t, ⟨⟨_, hd, hn, hv⟩, h⟩ => ⟨⟨hd, hn, hv⟩, rtRights_members as t h⟩

theorem rtRights_correct {op : OpT} : ∀ (as : List (OpStack.Op ℝ × Vals ℝ)) (F : Fems), RtRights m T x op as F →
    ∀ a ∈ as, OpStack.Correct m.q m.f a.1 a.2
  | [], _, _, _, h => absurd h List.not_mem_nil
  | _ :: _, .nil, h, _, _ => h.elim
  | _ :: as, .cons _ t, ⟨h, h'⟩, b, hb => by
    rcases List.mem_cons.1 hb with rfl | hb
    · exact h.1
    · exact rtRights_correct as t h' b hb

theorem rtRights_dim {op : OpT} {d : Nat} : ∀ (as : List (OpStack.Op ℝ × Vals ℝ)) (F : Fems), RtRights m T x op as F → SameDim d F →
    ∀ a ∈ as, a.1.dim = opDim op d
  | [], _, _, _, _, h => absurd h List.not_mem_nil
  | _ :: _, .nil, h, _, _, _ => h.elim
  | _ :: as, .cons _ t, ⟨h, h'⟩, hs, b, hb => by
    rw [SameDim] at hs
    rcases List.mem_cons.1 hb with rfl | hb
    · rw [h.2.1, hs.1]
    · exact rtRights_dim as t h' hs.2 b hb

theorem rtRights_sum {op : OpT} (hl : Local op) : ∀ (as : List (OpStack.Op ℝ × Vals ℝ)) (F : Fems), RtRights m T x op as F →
    ((as.map Prod.fst).map OpStack.Op.dim).sum = opDim op (dimSum F)
  | [], .nil, _ => by
    rw [dimSum]
    cases op with
    | div => exact absurd rfl hl.1
    | curl => exact absurd rfl hl.2
    | iden => rfl
    | grad => rfl
    | dudx c => rfl
  | [], .cons _ _, h => h.elim
  | _ :: _, .nil, h => h.elim
  | _ :: as, .cons _ t, ⟨h, h'⟩ => by
    rw [List.map_cons, List.map_cons, List.sum_cons, rtRights_sum hl as t h', h.2.1, dimSum, opDim_add hl]

theorem rtRights_nfa {op : OpT} : ∀ (as : List (OpStack.Op ℝ × Vals ℝ)) (F : Fems), RtRights m T x op as F →
    ((as.map Prod.fst).map OpStack.Op.nfa).sum = nfaSum F
  | [], .nil, _ => rfl
  | [], .cons _ _, h => h.elim
  | _ :: _, .nil, h => h.elim
  | _ :: as, .cons _ t, ⟨h, h'⟩ => by
    rw [List.map_cons, List.map_cons, List.sum_cons, rtRights_nfa as t h', h.2.2.1, nfaSum]

theorem rtCom_right {op : OpT} (hl : Local op) {a : OpStack.Op ℝ × Vals ℝ} {as : List (OpStack.Op ℝ × Vals ℝ)} {F : Fems}
    (h : RtRights m T x op (a :: as) F) :
    RtRight m T x op (.com F) (OpStack.cplx a.1 (as.map Prod.fst)) (prodVals ((a :: as).map fun a => (a.1.dim, a.1.nfa, a.2))) := by
  refine ⟨OpStack.cplx_correct a as (rtRights_correct _ F h), ?_, ?_, ?_⟩
  · have := rtRights_sum hl _ F h
    rw [List.map_cons, List.map_cons, List.sum_cons] at this
    exact this
  · have := rtRights_nfa _ F h
    rw [List.map_cons, List.map_cons, List.sum_cons] at this
    exact this
  · intro l hlt n hn i hi r hr φ hφ
    rw [Nth] at hφ
    exact applied_com hl _ F (rtRights_members _ F h) l hlt n hn i hi r hr φ hφ

theorem rtUnion_right {op : OpT} {as : List (OpStack.Op ℝ × Vals ℝ)} (hne : as ≠ []) {h : Fem} {t : Fems}
    (hr : RtRights m T x op as (.cons h t)) (hs : SameDim (dim h) t) :
    RtRight m T x op (.union (.cons h t)) (OpStack.union m.q m.f (opDim op (dim h)) (as.map Prod.fst))
      (unionVals (as.map fun a => (a.1.nfa, a.2))) := by
  have hs' : SameDim (dim h) (.cons h t) := by
    rw [SameDim]
    exact ⟨rfl, hs⟩
  refine ⟨OpStack.union_correct as hne (fun c hc => ⟨rtRights_correct _ _ hr c hc, rtRights_dim _ _ hr hs' c hc⟩), ?_, rtRights_nfa _ _ hr, ?_⟩
  · rw [Order.dim, dimFirst]
    rfl
  · intro l hlt n hn i hi r hr' φ hφ
    rw [Nth] at hφ
    have := applied_union _ _ (rtRights_members _ _ hr) hs' l hlt n hn i hi r hr' φ hφ
    rw [List.map_map] at this
    exact this

/-- the divergence and the curl of three copies of a space of one component -/
theorem rtVecDiv_right {F : Fem} (hF : dim F = 1) {A : OpStack.Op ℝ} (h1 : OnePart A) {v : Vals ℝ} (h : RtRight m T x .grad F A v) :
    RtRight m T x .div (.vec 3 F) (OpStack.vecDiv m.q m.f A) (divVals (vecVals 3 A.nfa v)) := by
  obtain ⟨hc, hd, hnf, hv⟩ := h
  have hd3 : A.dim = 3 := by rw [hd, hF]; rfl
  have h3 : dim (.vec 3 F) = 3 := by rw [Order.dim, hF]
  have ha := applied_vec (op := .grad) ⟨nofun, nofun⟩ hv 3
  rw [← hd, hd3, ← hnf] at ha
  refine ⟨OpStack.vecDiv_correct hc hd3 h1, ?_, ?_, applied_div h3 ha⟩
  · rw [h3]
    rfl
  · change A.nfa * 3 = 3 * nfa F
    rw [hnf, Nat.mul_comm]

theorem rtVecCurl_right {F : Fem} (hF : dim F = 1) {A : OpStack.Op ℝ} (h1 : OnePart A) {v : Vals ℝ} (h : RtRight m T x .grad F A v) :
    RtRight m T x .curl (.vec 3 F) (OpStack.vecCurl m.q m.f A) (curlVals (vecVals 3 A.nfa v)) := by
  obtain ⟨hc, hd, hnf, hv⟩ := h
  have hd3 : A.dim = 3 := by rw [hd, hF]; rfl
  have h3 : dim (.vec 3 F) = 3 := by rw [Order.dim, hF]
  have ha := applied_vec (op := .grad) ⟨nofun, nofun⟩ hv 3
  rw [← hd, hd3, ← hnf] at ha
  refine ⟨OpStack.vecCurl_correct hc hd3 h1, ?_, ?_, applied_curl h3 ha⟩
  · rw [h3]
    rfl
  · change A.nfa * 3 = 3 * nfa F
    rw [hnf, Nat.mul_comm]

/-- one copy of a space has the functions of the space -/
theorem applied_one {op : OpT} {F : Fem} {v : Vals ℝ} {q f : Nat} (h3 : dim F = 3) (h : Applied q f T x op F v) :
    Applied q f T x op (.vec 1 F) v := by
  intro l hl n hn i hi r hr φ hφ
  rw [Order.dim, Nat.one_mul] at hl
  rw [nfa, Nat.one_mul] at hi
  rw [Nth] at hφ
  obtain ⟨j, ψ, hj, hψ, c, hc, rfl, e⟩ := hφ
  obtain rfl : c = 0 := by omega
  have he := h l hl n hn (nfa F * 0 + j) hi r hr ψ (by rw [Nat.mul_zero, Nat.zero_add]; exact hψ)
  have e' : ∀ k, k < 3 → (fun y => φ y k) = fun y => ψ y k := fun k hk => funext fun y => by
    rw [e y k (by omega), h3, if_pos (Nat.div_eq_of_lt hk), Nat.mod_eq_of_lt hk]
  rw [h3] at hl
  cases op with
  | iden =>
    have hl : l < 3 := hl
    exact he.trans (congrFun (e' l hl) _).symm
  | grad =>
    have hl : l < 3 * 3 := hl
    rw [Entry, e' (l / 3) (by omega)]
    exact he
  | dudx c =>
    rw [Entry, e' l hl]
    exact he
  | div =>
    obtain ⟨d, hd, hw⟩ := he
    refine ⟨d, fun j hj => ?_, hw⟩
    rw [e' j hj]
    exact hd j hj
  | curl =>
    obtain ⟨a, b, ha, hb, hw⟩ := he
    refine ⟨a, b, ?_, ?_, hw⟩
    · rw [e' _ (Nat.mod_lt _ (by omega))]
      exact ha
    · rw [e' _ (Nat.mod_lt _ (by omega))]
      exact hb

theorem rtOne_right {op : OpT} {F : Fem} (h3 : dim F = 3) {A : OpStack.Op ℝ} {v : Vals ℝ} (h : RtRight m T x op F A v) :
    RtRight m T x op (.vec 1 F) A v := by
  obtain ⟨hc, hd, hn, hv⟩ := h
  refine ⟨hc, ?_, ?_, applied_one h3 hv⟩
  · rw [Order.dim, Nat.one_mul, hd]
  · rw [nfa, Nat.one_mul, hn]

/-- the product of one space has the functions of the space -/
theorem rtSingle_right {F : Fem} (h3 : dim F = 3) {A : OpStack.Op ℝ} {v : Vals ℝ} (h : RtRight m T x .div F A v) :
    RtRight m T x .div (.com (.cons F .nil)) A v := by
  obtain ⟨hc, hd, hn, hv⟩ := h
  refine ⟨hc, ?_, ?_, ?_⟩
  · rw [Order.dim, dimSum, dimSum, Nat.add_zero, hd]
  · rw [nfa, nfaSum, nfaSum, Nat.add_zero, hn]
  · intro l hl n hn i hi r hr φ hφ
    rw [Order.dim, dimSum, dimSum, Nat.add_zero] at hl
    rw [nfa, nfaSum, nfaSum, Nat.add_zero] at hi
    rw [Nth, NthCom] at hφ
    rcases hφ with ⟨_, ψ, hψ, e⟩ | ⟨j, ψ, hj, hψ, -⟩
    · obtain ⟨d, hd, hw⟩ := hv l hl n hn i hi r hr ψ hψ
      refine ⟨d, fun j hj => ?_, hw⟩
      rw [show (fun y => φ y j) = fun y => ψ y j from funext fun y => by rw [e, if_pos (by omega)]]
      exact hd j hj
    · rw [NthCom] at hψ
      exact hψ.elim

theorem rtCurl_right {l : Fems} (h3 : dimSum l = 3) {A : OpStack.Op ℝ} {v : Vals ℝ} (h : RtRight m T x .grad (.com l) A v) :
    RtRight m T x .curl (.com l) (OpStack.baseCurl m.q m.f A) (curlVals v) := by
  obtain ⟨hc, hd, hn, hv⟩ := h
  have h3' : dim (.com l) = 3 := by rw [Order.dim, h3]
  refine ⟨OpStack.baseCurl_correct hc (by rw [hd, h3']; rfl), ?_, hn, applied_curl h3' hv⟩
  rw [h3']
  rfl

mutual
/-- **C53**: the operator of a run-time space, when it is defined and no divergence of a product of several spaces enters, gives at every
point of every tetrahedron the entries of the operator on the basis functions of the space, in the order of the basis functions, whatever
the memory and the stack held. -/
theorem rtOp_right_partial (G : Geo m T x) : ∀ (F : Fem) (op : OpT) (A : OpStack.Op ℝ), Wf F → (∀ c, op = .dudx c → c < 3) → Sound F op →
    rtOp Real.sqrt m F op = some A → ∃ v, RtRight m T x op F A v
  | .leaf s, op, A, _, hop, _, h => rtLeaf_right G hop (by rw [rtOp] at h; exact h)
  | .vec n b, op, A, hw, hop, hs, h => by
    rw [Wf] at hw
    have key : Local op → (rtOp Real.sqrt m b op).map (OpStack.vec n) = some A → ∃ v, RtRight m T x op (.vec n b) A v := by
      intro hl h
      rw [Option.map_eq_some_iff] at h
      obtain ⟨B, hB, rfl⟩ := h
      obtain ⟨v, hv⟩ := rtOp_right_partial G b op B hw.2 hop (sound_of hl.1 b) hB
      exact ⟨_, rtVec_right hl hw.1 hv⟩
    cases op with
    | iden => exact key ⟨nofun, nofun⟩ (by rw [rtOp] at h <;> first | exact h | nofun)
    | grad => exact key ⟨nofun, nofun⟩ (by rw [rtOp] at h <;> first | exact h | nofun)
    | dudx c => exact key ⟨nofun, nofun⟩ (by rw [rtOp] at h <;> first | exact h | nofun)
    | div =>
      rw [rtOp] at h
      split at h
      · rename_i h3
        split at h
        · rename_i hn
          subst hn
          have hb : dim b = 1 := by omega
          rw [Option.map_eq_some_iff] at h
          obtain ⟨B, hB, rfl⟩ := h
          obtain ⟨v, hv⟩ := rtOp_right_partial G b .grad B hw.2 nofun (sound_of (op := .grad) nofun b) hB
          exact ⟨_, rtVecDiv_right hb (rtOp_onePart (op := .grad) ⟨nofun, nofun⟩ b B hw.2 hb hB) hv⟩
        · rename_i hn
          split at h
          · rename_i hn1
            subst hn1
            rw [Sound] at hs
            obtain ⟨v, hv⟩ := rtOp_right_partial G b .div A hw.2 nofun (hs.resolve_left hn) h
            exact ⟨v, rtOne_right (by omega) hv⟩
          · exact nomatch h
      · exact nomatch h
    | curl =>
      rw [rtOp] at h
      split at h
      · rename_i h3
        split at h
        · rename_i hn
          subst hn
          have hb : dim b = 1 := by omega
          rw [Option.map_eq_some_iff] at h
          obtain ⟨B, hB, rfl⟩ := h
          obtain ⟨v, hv⟩ := rtOp_right_partial G b .grad B hw.2 nofun (sound_of (op := .grad) nofun b) hB
          exact ⟨_, rtVecCurl_right hb (rtOp_onePart (op := .grad) ⟨nofun, nofun⟩ b B hw.2 hb hB) hv⟩
        · rename_i hn
          split at h
          · rename_i hn1
            subst hn1
            obtain ⟨v, hv⟩ := rtOp_right_partial G b .curl A hw.2 nofun (sound_of (op := .curl) nofun b) h
            exact ⟨v, rtOne_right (by omega) hv⟩
          · exact nomatch h
      · exact nomatch h
  | .com .nil, op, A, hw, _, _, h => by
    rw [Wf] at hw
    exact hw.elim
  | .com (.cons k t), op, A, hw, hop, hs, h => by
    rw [Wf] at hw
    have key : ∀ op, (∀ c, op = .dudx c → c < 3) → Local op → ∀ A, (rtOps Real.sqrt m (.cons k t) op).bind cplxOf = some A →
        ∃ v, RtRight m T x op (.com (.cons k t)) A v := by
      intro op hop hl A h
      rw [Option.bind_eq_some_iff] at h
      obtain ⟨Bs, hB, h⟩ := h
      obtain ⟨as, rfl, has⟩ := rtOps_right G (.cons k t) op Bs (by rw [WfAll]; exact hw) hop (fun h => absurd h hl.1) hB
      match as, has with
      | [], has => exact has.elim
      | a :: as, has =>
        cases h
        exact ⟨_, rtCom_right hl has⟩
    cases op with
    | iden => exact key .iden nofun ⟨nofun, nofun⟩ A (by rw [rtOp] at h <;> first | exact h | nofun)
    | grad => exact key .grad nofun ⟨nofun, nofun⟩ A (by rw [rtOp] at h <;> first | exact h | nofun)
    | dudx c => exact key (.dudx c) hop ⟨nofun, nofun⟩ A (by rw [rtOp] at h <;> first | exact h | nofun)
    | curl =>
      rw [rtOp] at h
      split at h
      · rename_i h3
        rw [Option.map_eq_some_iff] at h
        obtain ⟨B, hB, rfl⟩ := h
        obtain ⟨v, hv⟩ := key .grad nofun ⟨nofun, nofun⟩ B hB
        exact ⟨_, rtCurl_right h3 hv⟩
      · exact nomatch h
    | div =>
      rw [rtOp] at h
      split at h
      · rename_i h3
        match t, hs, h, h3 with
        | .nil, hs, h, h3 =>
          rw [rtDiv] at h
          rw [dimSum, dimSum, Nat.add_zero] at h3
          rw [Sound] at hs
          obtain ⟨v, hv⟩ := rtOp_right_partial G k .div A hw.1 nofun hs h
          exact ⟨v, rtSingle_right h3 hv⟩
        | .cons b t, hs, h, h3 =>
          rw [Sound] at hs
          · exact hs.elim
          · nofun
      · exact nomatch h
  | .union .nil, op, A, hw, _, _, h => by
    rw [Wf] at hw
    exact hw.elim
  | .union (.cons k t), op, A, hw, hop, hs, h => by
    rw [Wf] at hw
    rw [rtOp, dimFirst, Option.map_eq_some_iff] at h
    obtain ⟨Bs, hB, rfl⟩ := h
    obtain ⟨as, rfl, has⟩ := rtOps_right G (.cons k t) op Bs (by rw [WfAll]; exact ⟨hw.1, hw.2.1⟩) hop
      (fun e => by subst e; exact soundAll_of hs) hB
    refine ⟨_, rtUnion_right ?_ has hw.2.2⟩
    rintro rfl
    exact has.elim
/-- the members -/
theorem rtOps_right (G : Geo m T x) : ∀ (F : Fems) (op : OpT) (As : List (OpStack.Op ℝ)), WfAll F → (∀ c, op = .dudx c → c < 3) →
    (op = .div → SoundAll F) → rtOps Real.sqrt m F op = some As →
    ∃ as : List (OpStack.Op ℝ × Vals ℝ), as.map Prod.fst = As ∧ RtRights m T x op as F
  | .nil, op, As, _, _, _, h => by
    rw [rtOps] at h
    cases h
    exact ⟨[], rfl, trivial⟩
  | .cons k t, op, As, hw, hop, hs, h => by
    rw [WfAll] at hw
    rw [rtOps] at h
    simp only [Option.bind_eq_bind, Option.bind_eq_some_iff, Option.some.injEq] at h
    obtain ⟨A, hA, Bs, hB, rfl⟩ := h
    have hs1 : Sound k op := by
      by_cases e : op = .div
      · subst e
        have := hs rfl
        rw [SoundAll] at this
        exact this.1
      · exact sound_of e k
    have hs2 : op = .div → SoundAll t := fun e => by
      have := hs e
      rw [SoundAll] at this
      exact this.2
    obtain ⟨v, hv⟩ := rtOp_right_partial G k op A hw.1 hop hs1 hA
    obtain ⟨as, rfl, has⟩ := rtOps_right G t op Bs hw.2 hop hs2 hB
    exact ⟨(A, v) :: as, rfl, hv, has⟩
end

end

end Verif.SpaceOp
