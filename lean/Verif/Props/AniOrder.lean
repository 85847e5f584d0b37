import Verif.Props.GlobEnum

/-!
C84: the order of the enumerators of type ANITYPE.
-/
namespace Verif.Enumerator

variable {vars : List Var} {own : Nat → List Nat} {b total : Nat → Nat}

/-- The order of storage on an element. -/
def Addr.before (a c : Addr) : Prop :=
  a.num < c.num ∨ a.num = c.num ∧ (a.var < c.var ∨ a.var = c.var ∧ (a.comp < c.comp ∨ a.comp = c.comp ∧ a.dof < c.dof))

theorem aniKey_lt (x y : Nat × Addr) : aniKey x < aniKey y ↔ x.2.before y.2 ∨ x.2 = y.2 ∧ x.1 < y.1 := by
  obtain ⟨g, a, v, c, d⟩ := x
  obtain ⟨g', a', v', c', d'⟩ := y
  simp only [aniKey, Addr.before, List.cons_lt_cons_iff, Addr.mk.injEq, List.lt_irrefl, and_false, or_false]
  omega

theorem addrsVar_sorted (v : Var) (i k : Nat) : (addrsVar v i k).Pairwise Addr.before := by
  rw [addrsVar, List.pairwise_flatMap]
  refine ⟨fun c _ => ?_, ?_⟩
  · rw [List.pairwise_map]
    exact List.pairwise_lt_range.imp fun h => by simp [Addr.before, h]
  · refine List.pairwise_lt_range.imp fun h x hx y hy => ?_
    obtain ⟨j, _, rfl⟩ := List.mem_map.1 hx
    obtain ⟨j', _, rfl⟩ := List.mem_map.1 hy
    simp [Addr.before, h]

theorem addrsKind_sorted (vars : List Var) (k : Nat) : (addrsKind vars k).Pairwise Addr.before := by
  rw [addrsKind, List.pairwise_flatMap]
  refine ⟨fun c _ => addrsVar_sorted _ _ _, ?_⟩
  rw [List.pairwise_iff_getElem]
  intro i j hi hj hij x hx y hy
  rw [mem_addrsVar] at hx hy
  simp only [List.getElem_zipIdx] at hx hy
  refine Or.inr ⟨by omega, Or.inl (by omega)⟩

theorem addrs_sorted (vars : List Var) (d : Nat) : (addrs vars d).Pairwise Addr.before := by
  rw [addrs, List.pairwise_flatMap]
  refine ⟨fun c _ => addrsKind_sorted _ _, ?_⟩
  have h : (kindsOf d).Pairwise (· < ·) := by
    match d with
    | 0 => decide
    | 1 => decide
    | 2 => decide
    | n + 3 => simp [kindsOf]
  refine h.imp fun hlt x hx y hy => ?_
  have h1 := ((mem_addrsKind vars _ _).1 hx).1
  have h2 := ((mem_addrsKind vars _ _).1 hy).1
  exact Or.inl (by omega)

theorem before_index {d i j : Nat} {a c : Addr} (ha : (addrs vars d)[i]? = some a) (hc : (addrs vars d)[j]? = some c) (h : a.before c) : i < j := by
  obtain ⟨hi, rfl⟩ := List.getElem?_eq_some_iff.1 ha
  obtain ⟨hj, rfl⟩ := List.getElem?_eq_some_iff.1 hc
  by_contra hn
  rcases Nat.lt_or_ge j i with hlt | hge
  · have := List.pairwise_iff_getElem.1 (addrs_sorted vars d) j i hj hi hlt
    unfold Addr.before at h this
    omega
  · obtain rfl : i = j := by omega
    unfold Addr.before at h
    omega

theorem dimOf_mono : ∀ k < 6, ∀ l < 6, k < l → dimOf k ≤ dimOf l := by decide

theorem init_le (s : Setup) {d e : Nat} (h : d ≤ e) : s.init d ≤ s.init e := by
  refine monotone_nat_of_le_succ (f := s.init) (fun n => ?_) h
  simp only [Setup.init]; omega

/-- The number of a d.o.f. of the process. -/
theorem ani_data (hc : Contiguous own b) (hb : ∀ d, b d < longMax) {x : Nat × Addr} (hx : OwnedDof vars own x) :
    ∃ r k, x.1 = b (dimOf x.2.num) + r ∧ r < (setup (numDofs vars) own total).numElem (dimOf x.2.num) ∧ (addrs vars (dimOf x.2.num))[k]? = some x.2 ∧
      k < inmostNumDof (numDofs vars) (dimOf x.2.num) ∧ (setup (numDofs vars) own total).index vars .anitype true x.1 x.2 =
        some ((setup (numDofs vars) own total).init (dimOf x.2.num) + (r + k * (setup (numDofs vars) own total).numElem (dimOf x.2.num))) := by
  obtain ⟨h1, h2⟩ := hx
  have hd := dimOf_lt' x.2.num
  have hu := used_of_addr' hd h2
  obtain ⟨e, he, _, hget⟩ := recompose vars _ hd x.2 h2
  have hm := (contiguous_mem hc _ _).1 h1
  have hbe := setup_begElem (total := total) hc _ (hb _) hu
  rw [if_neg (List.ne_nil_of_mem h1)] at hbe
  refine ⟨x.1 - b (dimOf x.2.num), e.elemDofId, by omega, ?_, hget, ?_, ?_⟩
  · rw [setup_numElem _ _ _ _ hu]; omega
  · rw [← length_addrs]; exact (List.getElem?_eq_some_iff.1 hget).1
  · simp only [Setup.index, he, if_true, Option.map_some, Setup.number, hbe]
    congr 1
    omega

theorem ani_lt (hc : Contiguous own b) (hb : ∀ d, b d < longMax) {x y : Nat × Addr} (hx : OwnedDof vars own x) (hy : OwnedDof vars own y) {i j : Nat}
    (hi : (setup (numDofs vars) own total).index vars .anitype true x.1 x.2 = some i)
    (hj : (setup (numDofs vars) own total).index vars .anitype true y.1 y.2 = some j) (h : aniKey x < aniKey y) : i < j := by
  obtain ⟨r, k, h1, h2, h3, h4, h5⟩ := ani_data (total := total) hc hb hx
  obtain ⟨r', k', h1', h2', h3', h4', h5'⟩ := ani_data (total := total) hc hb hy
  rw [h5] at hi
  rw [h5'] at hj
  obtain rfl := Option.some.inj hi
  obtain rfl := Option.some.inj hj
  have hx6 := ((mem_addrs vars _ (dimOf_lt' _) _).1 hx.2).2.1
  have hy6 := ((mem_addrs vars _ (dimOf_lt' _) _).1 hy.2).2.1
  rw [aniKey_lt] at h
  have hdd : dimOf x.2.num ≤ dimOf y.2.num := by
    have : x.2.num ≤ y.2.num := by
      rcases h with h | ⟨h, _⟩
      · unfold Addr.before at h; omega
      · rw [h]
    rcases Nat.lt_or_ge x.2.num y.2.num with hlt | hge
    · exact dimOf_mono _ hx6 _ hy6 hlt
    · rw [show x.2.num = y.2.num by omega]
  rcases Nat.lt_or_ge (dimOf x.2.num) (dimOf y.2.num) with hlt | hge
  · have h6 := init_le (setup (numDofs vars) own total) (show dimOf x.2.num + 1 ≤ dimOf y.2.num from hlt)
    have h7 := two_lt _ _ _ _ h2 h4
    have h8 : (setup (numDofs vars) own total).init (dimOf x.2.num + 1) = (setup (numDofs vars) own total).init (dimOf x.2.num) +
      inmostNumDof (numDofs vars) (dimOf x.2.num) * (setup (numDofs vars) own total).numElem (dimOf x.2.num) := rfl
    omega
  · have he : dimOf x.2.num = dimOf y.2.num := by omega
    rw [he] at h1 h2 h3 h4 ⊢
    rcases h with h | ⟨ha, hg⟩
    · have hk := before_index h3 h3' h
      have := Nat.mul_le_mul_right ((setup (numDofs vars) own total).numElem (dimOf y.2.num)) (show k + 1 ≤ k' from hk)
      rw [Nat.add_mul, Nat.one_mul] at this
      omega
    · rw [ha] at h3
      have hk : k = k' := by
        obtain ⟨_, g1⟩ := List.getElem?_eq_some_iff.1 h3
        obtain ⟨_, g2⟩ := List.getElem?_eq_some_iff.1 h3'
        exact ((addrs_nodup vars _ (dimOf_lt' _)).getElem_inj_iff).1 (g1.trans g2.symm)
      subst hk
      omega

/-- **C84**: the type ANITYPE numbers the d.o.f.s of the process from `BegInd` to `EndInd` in the order of kind, variable, component, d.o.f. and
global id, oriented d.o.f.s of an edge or a face being of a kind of their own behind the others. -/
theorem ani_order {g : Glob} (hg : g.t = .anitype) (hc : Contiguous own b) (hb : ∀ d, b d < longMax) {x y : Nat × Addr} (hx : OwnedDof vars own x)
    (hy : OwnedDof vars own y) :
    ∃ i j, g.number vars (setup (numDofs vars) own total) x = some i ∧ g.number vars (setup (numDofs vars) own total) y = some j ∧
      (setup (numDofs vars) own total).begInd ≤ i ∧ i < (setup (numDofs vars) own total).endInd ∧ (aniKey x < aniKey y ↔ i < j) := by
  have hnum := anitype_numbering vars own b total hc hb
  obtain ⟨i, hi, h1, h2⟩ := hnum.1 x hx
  obtain ⟨j, hj, _, _⟩ := hnum.1 y hy
  have hn : ∀ z, g.number vars (setup (numDofs vars) own total) z = (setup (numDofs vars) own total).index vars .anitype true z.1 z.2 := by
    intro z
    simp [Glob.number, Glob.invoke, hg, Base.number]
  refine ⟨i, j, by rw [hn, ← hi], by rw [hn, ← hj], h1, h2, fun h => ani_lt hc hb hx hy hi hj h, fun h => ?_⟩
  rcases lt_trichotomy (aniKey x) (aniKey y) with hlt | heq | hgt
  · exact hlt
  · have hxy : x = y := by
      obtain ⟨g, a, v, c, d⟩ := x
      obtain ⟨g', a', v', c', d'⟩ := y
      simp only [aniKey, List.cons.injEq] at heq
      simp [heq.1, heq.2.1, heq.2.2.1, heq.2.2.2.1, heq.2.2.2.2.1]
    subst hxy
    rw [hi] at hj
    have := Option.some.inj hj
    omega
  · have := ani_lt hc hb hy hx hj hi hgt
    omega

example : ∃ i j, ({ t := .anitype } : Glob).number exVars (setup (numDofs exVars) exOwn fun _ => 9) (6, ⟨0, 0, 0, 0⟩) = some i ∧
    ({ t := .anitype } : Glob).number exVars (setup (numDofs exVars) exOwn fun _ => 9) (3, ⟨1, 0, 1, 0⟩) = some j ∧
    (setup (numDofs exVars) exOwn fun _ => 9).begInd ≤ i ∧ i < (setup (numDofs exVars) exOwn fun _ => 9).endInd ∧
    (aniKey (6, ⟨0, 0, 0, 0⟩) < aniKey (3, ⟨1, 0, 1, 0⟩) ↔ i < j) := ani_order rfl exContiguous exBound exNode exEdge
example : ({ t := .anitype } : Glob).number exVars (setup (numDofs exVars) exOwn fun _ => 9) (5, ⟨0, 0, 1, 0⟩) = some 23 := by decide +kernel

/-- **C84**: without oriented d.o.f.s this is the documented order. -/
theorem ani_order_doc {g : Glob} (hg : g.t = .anitype) (hc : Contiguous own b) (hb : ∀ d, b d < longMax) (ho : ∀ v ∈ vars, v.base 2 = 0 ∧ v.base 4 = 0)
    {x y : Nat × Addr} (hx : OwnedDof vars own x) (hy : OwnedDof vars own y) :
    ∃ i j, g.number vars (setup (numDofs vars) own total) x = some i ∧ g.number vars (setup (numDofs vars) own total) y = some j ∧
      (aniKeyUnion x < aniKeyUnion y ↔ i < j) := by
  obtain ⟨i, j, h1, h2, _, _, h3⟩ := ani_order (total := total) hg hc hb hx hy
  refine ⟨i, j, h1, h2, ?_⟩
  rw [← h3]
  have hk : ∀ z, OwnedDof vars own z → z.2.num = 0 ∨ z.2.num = 1 ∨ z.2.num = 3 ∨ z.2.num = 5 := by
    intro z hz
    obtain ⟨_, h6, hm⟩ := (mem_addrs vars _ (dimOf_lt' _) _).1 hz.2
    obtain ⟨_, v, hv, _, hd⟩ := (mem_addrsKind vars _ _).1 hm
    have hov := ho v (List.mem_of_getElem? hv)
    have h2 : z.2.num ≠ 2 := fun h => by rw [h, hov.1] at hd; omega
    have h4 : z.2.num ≠ 4 := fun h => by rw [h, hov.2] at hd; omega
    omega
  simp only [aniKey, aniKeyUnion]
  rcases hk x hx with h | h | h | h <;> rcases hk y hy with h' | h' | h' | h' <;> rw [h, h'] <;> simp [dimOf, List.cons_lt_cons_iff]

example : ∃ i j, ({ t := .anitype } : Glob).number exVars (setup (numDofs exVars) exOwn fun _ => 9) (6, ⟨0, 0, 0, 0⟩) = some i ∧
    ({ t := .anitype } : Glob).number exVars (setup (numDofs exVars) exOwn fun _ => 9) (3, ⟨1, 0, 1, 0⟩) = some j ∧
    (aniKeyUnion (6, ⟨0, 0, 0, 0⟩) < aniKeyUnion (3, ⟨1, 0, 1, 0⟩) ↔ i < j) :=
  ani_order_doc rfl exContiguous exBound (by decide) exNode exEdge

/-- **C84**, the violation: with oriented d.o.f.s the order is not the documented one: the oriented d.o.f. of the variable 0 on an edge is numbered
behind the d.o.f. of the variable 1, although variables should be compared "without distinction" of the two kinds. -/
theorem ani_order_wrong : ∃ (vars : List Var) (x y : Nat × Addr), OwnedDof vars exOwn x ∧ OwnedDof vars exOwn y ∧ aniKeyUnion x < aniKeyUnion y ∧
    ∃ i j, ({ t := .anitype } : Glob).number vars (setup (numDofs vars) exOwn fun _ => 9) x = some i ∧
      ({ t := .anitype } : Glob).number vars (setup (numDofs vars) exOwn fun _ => 9) y = some j ∧ j < i :=
  ⟨[⟨false, 0, fun k => if k = 2 then 1 else 0⟩, ⟨false, 0, fun k => if k = 1 then 1 else 0⟩], (3, ⟨2, 0, 0, 0⟩), (3, ⟨1, 1, 0, 0⟩),
    ⟨by decide, by decide +kernel⟩, ⟨by decide, by decide +kernel⟩, by decide, 7, 6, by decide +kernel, by decide +kernel, by decide⟩

end Verif.Enumerator
