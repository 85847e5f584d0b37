import Verif.Spec.GlobEnum
import Verif.Props.Ordered

/-!
C84: the enumerator chosen by its type numbers in the documented order, and the enumerator given by the user is the one used.
-/
namespace Verif.Enumerator

variable {vars : List Var} {own : Nat → List Nat} {b total : Nat → Nat}

/-- The arrangements of the types are permutations comparing the kind before the element. -/
theorem invoke_arrange {g : Glob} {x : Nat × Addr} {k : List Nat} (hk : docKey g.t x = some k) :
    ∃ order perm, order.Perm (List.range 5) ∧ KindFirst order ∧ arrange order = some perm ∧ g.invoke = some (.ordered perm) ∧
      ∀ z, docKey g.t z = some (sortKey order z.1 z.2) := by
  obtain ⟨t, iv⟩ := g
  cases t <;> simp only [docKey, reduceCtorEq] at hk
  · refine ⟨[0, 1, 2, 3, 4], [0, 1, 2, 3, 4], by decide, ?_, by decide, rfl, fun z => rfl⟩
    intro l1 l2 h
    rcases l1 with _ | ⟨a, _ | ⟨c, _ | ⟨d, l1⟩⟩⟩ <;> simp at h ⊢
    omega
  · refine ⟨[0, 2, 3, 4, 1], [0, 4, 1, 2, 3], by decide, ?_, by decide, ?_, fun z => rfl⟩
    · intro l1 l2 h
      rcases l1 with _ | ⟨a, _ | ⟨c, l1⟩⟩ <;> simp at h ⊢
      omega
    · rfl
  · refine ⟨[2, 0, 1, 3, 4], [1, 2, 0, 3, 4], by decide, ?_, by decide, rfl, fun z => rfl⟩
    intro l1 l2 h
    rcases l1 with _ | ⟨a, l1⟩ <;> simp at h ⊢
    omega
  · refine ⟨[2, 0, 3, 4, 1], [1, 4, 0, 2, 3], by decide, ?_, by decide, rfl, fun z => rfl⟩
    intro l1 l2 h
    rcases l1 with _ | ⟨a, l1⟩ <;> simp at h ⊢
    omega

/-- **C84**, partial: the four types made by `OrderedEnumerator` number the d.o.f.s of the process from `BegInd` to `EndInd` in the
documented order of variable, component, kind, global id and d.o.f.  Missing: the first oriented d.o.f.s of the elements
(`ordered_tag_wrong`); ANITYPE is in `Props/AniOrder.lean`, MINIBLOCKS in C21. -/
theorem glob_order_partial {g : Glob} (hc : Contiguous own b) (hb : ∀ d, b d < longMax) {x y : Nat × Addr} {k l : List Nat}
    (hk : docKey g.t x = some k) (hl : docKey g.t y = some l) (hx : OwnedDof vars own x) (hy : OwnedDof vars own y)
    (fx : ¬ FirstOriented vars x.2) (fy : ¬ FirstOriented vars y.2) :
    ∃ i j, g.number vars (setup (numDofs vars) own total) x = some i ∧ g.number vars (setup (numDofs vars) own total) y = some j ∧
      (setup (numDofs vars) own total).begInd ≤ i ∧ i < (setup (numDofs vars) own total).endInd ∧ (k < l ↔ i < j) := by
  obtain ⟨order, perm, h1, h2, h3, h4, h5⟩ := invoke_arrange hk
  obtain ⟨o, ho⟩ := ordered_total (rev := false) (total := total) h1 hc hb (dimOf_lt' _) (List.ne_nil_of_mem hx.2)
  obtain ⟨perm', h6, h7⟩ := Option.bind_eq_some_iff.1 ho.setup
  obtain rfl : perm = perm' := Option.some.inj (h3.symm.trans h6)
  have hnum : ∀ z, OwnedDof vars own z → ¬ FirstOriented vars z.2 → g.number vars (setup (numDofs vars) own total) z = o.byMap z := by
    intro z hz fz
    simp only [Glob.number, h4, Option.bind_some, Base.number, h7]
    exact ordered_index_partial hz fz
  obtain ⟨i, j, hi, hj, hij⟩ := ordered_gid_lt_partial ho h2 hx hy
  obtain ⟨n, hn, hn1, hn2⟩ := (ordered_numbering ho).1 x hx
  rw [hi] at hn
  obtain rfl := Option.some.inj hn
  have hs := ho.data.2.1
  rw [hs] at hn1 hn2
  rw [h5 x] at hk
  rw [h5 y] at hl
  obtain rfl := Option.some.inj hk
  obtain rfl := Option.some.inj hl
  exact ⟨i, j, by rw [hnum x hx fx, hi], by rw [hnum y hy fy, hj], hn1, hn2, by simpa using hij⟩

/-- **C84**: an enumerator made by its type only is the one used, whatever was set before. -/
theorem glob_new (g : Glob) (f : Nat × Addr → Option Nat) (s : Setup) (x : Nat × Addr) : (g.setBaseNew (.user f)).number vars s x = f x := rfl

example : (({ t := .byelemtype } : Glob).setBaseNew (.user fun x => some (x.1 + 7))).number exVars (setup (numDofs exVars) exOwn fun _ => 9) (6, ⟨0, 0, 0, 0⟩) = some 13 :=
  glob_new _ _ _ _

/-- **C84**, the violation: an enumerator given by a pointer or by a value is used only if the type was unspecified before; otherwise
`setup` replaces it by one of the old type, as if it had not been given. -/
theorem glob_base_wrong (g : Glob) (c : Base) (s : Setup) (x : Nat × Addr) :
    (g.setBase c).number vars s x = if g.t = .nospecified then c.number vars s x else g.number vars s x := by
  obtain ⟨t, iv⟩ := g
  cases t <;> simp [Glob.setBase, Glob.number, Glob.invoke]

/-- The user's numbers 6, 5 of two nodes are replaced by 22, 21. -/
example : (({} : Glob).setBase (.user fun x => some x.1)).number exVars (setup (numDofs exVars) exOwn fun _ => 9) (6, ⟨0, 0, 0, 0⟩) = some 22 := by
  rw [glob_base_wrong, if_neg (by decide)]
  decide +kernel

/-- **C84**, the violation: the type "unspecified", which `setAssemblingType` says it forbids, is accepted unless it is the present one, and
then there is no enumerator to set up; but from it no other type can be chosen any more. -/
theorem glob_type_wrong (g : Glob) (t : AType) :
    (g.t ≠ .nospecified → g.setType .nospecified = some { g with t := .nospecified }) ∧ (g.t = .nospecified → g.setType t = none) ∧
      ∀ s x, ({ g with t := .nospecified, invoker := none } : Glob).number vars s x = none := by
  refine ⟨fun h => by simp [Glob.setType, h], fun h => by simp [Glob.setType, h], fun s x => rfl⟩

example : ({} : Glob).setType .nospecified = some { t := .nospecified } := (glob_type_wrong (vars := exVars) _ .natural).1 (by decide)

/-- **C84**: from any other type every type can be chosen, and the numbers are those of the type chosen last. -/
theorem glob_setType {g : Glob} (hg : g.t ≠ .nospecified) {t : AType} (ht : t ≠ .nospecified) :
    ∃ g', g.setType t = some g' ∧ g'.t = t ∧ ∀ s x, g'.number vars s x = ({ t := t } : Glob).number vars s x := by
  refine ⟨{ g with t := t }, by simp [Glob.setType, hg], rfl, fun s x => ?_⟩
  cases t <;> first | rfl | exact absurd rfl ht

example : ∃ g', ({} : Glob).setType .etdimblocks = some g' ∧ g'.t = .etdimblocks ∧ ∀ s x, g'.number exVars s x = ({ t := .etdimblocks } : Glob).number exVars s x :=
  glob_setType (by decide) (by decide)

/-- The second components of the node 5 come before the first ones of the node 6, unlike in the type NATURAL. -/
example : ({ t := .dimunion } : Glob).number exVars (setup (numDofs exVars) exOwn fun _ => 9) (6, ⟨0, 0, 0, 0⟩) = some 23 ∧
    ({ t := .dimunion } : Glob).number exVars (setup (numDofs exVars) exOwn fun _ => 9) (5, ⟨0, 0, 1, 0⟩) = some 22 ∧
    ({} : Glob).number exVars (setup (numDofs exVars) exOwn fun _ => 9) (6, ⟨0, 0, 0, 0⟩) = some 22 := by decide +kernel
example : ∃ i j, ({ t := .dimunion } : Glob).number exVars (setup (numDofs exVars) exOwn fun _ => 9) (6, ⟨0, 0, 0, 0⟩) = some i ∧
    ({ t := .dimunion } : Glob).number exVars (setup (numDofs exVars) exOwn fun _ => 9) (5, ⟨0, 0, 1, 0⟩) = some j ∧
    (setup (numDofs exVars) exOwn fun _ => 9).begInd ≤ i ∧ i < (setup (numDofs exVars) exOwn fun _ => 9).endInd ∧ ([0, 0, 6, 0, 0] < [0, 0, 5, 0, 1] ↔ i < j) :=
  glob_order_partial (g := { t := .dimunion }) exContiguous exBound rfl rfl exNode ⟨by decide, by decide +kernel⟩
    (by rintro ⟨_, _, h, _⟩; revert h; decide) (by rintro ⟨_, _, h, _⟩; revert h; decide)

end Verif.Enumerator
