import Verif.Lemmas.DofMap2

set_option linter.unusedVariables false

namespace Verif.DofMap

theorem objs_eq_map (l : List Tree) : Tree.objs l = l.map Tree.obj := by
  induction l with
  | nil => rfl
  | cons a t ih => simp [Tree.objs, ih]

mutual
theorem tree_counted : ∀ t : Tree, Counted t.obj
  | .unite c => unite_counted c
  | .vector d b => vector_counted d _ (tree_counted b)
  | .complex l => complex_counted _ (trees_counted l)
theorem trees_counted : ∀ l : List Tree, ∀ o ∈ Tree.objs l, Counted o
  | [] => by simp [Tree.objs]
  | t :: r => by
    intro o ho
    simp only [Tree.objs, List.mem_cons] at ho
    rcases ho with h | h
    · rw [h]; exact tree_counted t
    · exact trees_counted r o h
end

mutual
theorem tree_bij : ∀ t : Tree, BijectiveLoc t.obj.numTet t.obj.numDof t.obj.locate
  | .unite c => (unite_bijective c).loc
  | .vector d b => vector_bij d _ (tree_bij b)
  | .complex l => complex_bij _ (trees_counted l) (trees_bij l)
theorem trees_bij : ∀ l : List Tree, ∀ o ∈ Tree.objs l, BijectiveLoc o.numTet o.numDof o.locate
  | [] => by simp [Tree.objs]
  | t :: r => by
    intro o ho
    simp only [Tree.objs, List.mem_cons] at ho
    rcases ho with h | h
    · rw [h]; exact tree_bij t
    · exact trees_bij r o h
end

mutual
theorem beq_eq : ∀ a b : Tree, Tree.beq a b = true → a = b
  | .unite a, .unite b => by simp [Tree.beq]
  | .vector d a, .vector e b => by
    simp only [Tree.beq, Bool.and_eq_true, decide_eq_true_eq]
    rintro ⟨h1, h2⟩
    rw [h1, beq_eq a b h2]
  | .complex l, .complex r => by
    simp only [Tree.beq]
    intro h
    rw [beqs_eq l r h]
  | .unite _, .vector _ _ => by simp [Tree.beq]
  | .unite _, .complex _ => by simp [Tree.beq]
  | .vector _ _, .unite _ => by simp [Tree.beq]
  | .vector _ _, .complex _ => by simp [Tree.beq]
  | .complex _, .unite _ => by simp [Tree.beq]
  | .complex _, .vector _ _ => by simp [Tree.beq]
theorem beqs_eq : ∀ l r : List Tree, Tree.beqs l r = true → l = r
  | [], [] => by simp
  | a :: l, b :: r => by
    simp only [Tree.beqs, Bool.and_eq_true]
    rintro ⟨h1, h2⟩
    rw [beq_eq a b h1, beqs_eq l r h2]
  | [], _ :: _ => by simp [Tree.beqs]
  | _ :: _, [] => by simp [Tree.beqs]
end

/-- layout of a tree -/
def lay (t : Tree) : Layout := layoutOf t.obj

theorem lay_vector (d : Nat) (b : Tree) : lay (.vector d b) = Layout.copies d (lay b) := layout_vector d b.obj

theorem lay_complex (l : List Tree) : lay (.complex l) = Layout.concat (l.map lay) := by
  have := layout_complex (Tree.objs l) (trees_counted l)
  show layoutOf (complexObj (Tree.objs l)) = _
  rw [this, objs_eq_map, List.map_map]; rfl

theorem lay_factorsOf (t : Tree) : Layout.concat ((factorsOf t).map lay) = lay t := by
  cases t with
  | complex l => rw [lay_complex]; rfl
  | unite c => exact concat_single _
  | vector d b => exact concat_single _

theorem copies_two (a : Layout) : Layout.copies 2 a = a.append a := by
  rw [copies_succ, copies_one]

theorem copies_cons (n : Nat) (a : Layout) : Layout.copies (n + 1) a = a.append (Layout.copies n a) := by
  rw [Nat.add_comm, copies_add, copies_one]

theorem lay_pair (a b : Tree) : lay (.complex [a, b]) = (lay a).append (lay b) := by
  rw [lay_complex]; simp [Layout.concat, append_nil]

theorem getLast_split {α} {l : List α} {x : α} (h : l.getLast? = some x) : l = l.dropLast ++ [x] := by
  have hne : l ≠ [] := by rintro rfl; simp at h
  rw [List.getLast?_eq_some_getLast hne] at h
  have h2 := List.dropLast_append_getLast hne
  have h3 := Option.some.inj h
  rw [h3] at h2
  exact h2.symm

theorem getLast_none {α} {l : List α} (h : l.getLast? = none) : l = [] := by
  simpa using h

theorem head_split {α} {l : List α} {x : α} (h : l.head? = some x) : l = x :: l.tail := by
  cases l with
  | nil => simp at h
  | cons a t => simp at h; simp [h]

theorem lay_last {l : List Tree} {x : Tree} (h : l.getLast? = some x) :
    lay (.complex l) = (Layout.concat (l.dropLast.map lay)).append (lay x) := by
  conv => lhs; rw [getLast_split h]
  rw [lay_complex, List.map_append, concat_append]
  simp [concat_single]

theorem lay_head {l : List Tree} {x : Tree} (h : l.head? = some x) :
    lay (.complex l) = (lay x).append (Layout.concat (l.tail.map lay)) := by
  conv => lhs; rw [head_split h]
  rw [lay_complex]
  simp [Layout.concat]

theorem mul_lay (a b t : Tree) (h : mul a b = some t) : lay t = (lay a).append (lay b) := by
  induction a, b using mul.induct generalizing t with
  | case1 la lb heq =>
    rw [mul, if_pos heq] at h
    have := beq_eq _ _ heq
    rw [← Option.some.inj h, lay_vector, copies_two, ← this]
  | case2 la lb hne x y hl hr ih =>
    rw [mul, if_neg hne] at h
    split at h
    · rename_i x' y' hx' hy'
      rw [hl] at hx'; rw [hr] at hy'
      cases hx'; cases hy'
      rw [Option.map_eq_some_iff] at h
      obtain ⟨s, hs, rfl⟩ := h
      have e := ih s hs
      rw [lay_last hl, lay_head hr, lay_complex]
      simp only [List.map_append, concat_append, lay_factorsOf, e, append_assoc]
    · rename_i hno
      exact (hno x y hl hr).elim
  | case3 la lb hne hno =>
    rw [mul, if_neg hne] at h
    split at h
    · rename_i x' y' hx' hy'
      exact (hno x' y' hx' hy').elim
    · rw [← Option.some.inj h]
      simp only [lay_complex, List.map_append, concat_append]
  | case4 la b hb x hl ih =>
    rw [mul.eq_2 _ _ hb] at h
    split at h
    · rename_i x' hx'
      rw [hl] at hx'; cases hx'
      rw [Option.map_eq_some_iff] at h
      obtain ⟨s, hs, rfl⟩ := h
      have e := ih s hs
      rw [lay_last hl, lay_complex]
      simp only [List.map_append, concat_append, lay_factorsOf, e, append_assoc]
    · cases h
  | case5 la b hb hl =>
    rw [mul.eq_2 _ _ hb] at h
    split at h
    · rename_i x' hx'
      rw [hl] at hx'; cases hx'
    · cases h
  | case6 a lb ha y hr ih =>
    rw [mul.eq_3 _ _ ha] at h
    split at h
    · rename_i x' hx'
      rw [hr] at hx'; cases hx'
      rw [Option.map_eq_some_iff] at h
      obtain ⟨s, hs, rfl⟩ := h
      have e := ih s hs
      rw [lay_head hr, lay_complex]
      simp only [List.map_append, concat_append, lay_factorsOf, e, append_assoc]
    · cases h
  | case7 a lb ha hr =>
    rw [mul.eq_3 _ _ ha] at h
    split at h
    · rename_i x' hx'
      rw [hr] at hx'; cases hx'
    · cases h
  | case8 d x e y heq =>
    rw [mul, if_pos heq] at h
    have := beq_eq _ _ heq
    injection this with h1 h2
    subst h1; subst h2
    rw [← Option.some.inj h, lay_vector, lay_vector, copies_add]
  | case9 d x e y heq =>
    rw [mul, if_neg heq] at h
    rw [← Option.some.inj h, lay_pair]
  | case10 x y heq =>
    rw [mul, if_pos heq] at h
    have := beq_eq _ _ heq
    rw [← Option.some.inj h, lay_vector, copies_two, ← this]
  | case11 x y heq =>
    rw [mul, if_neg heq] at h
    rw [← Option.some.inj h, lay_pair]
  | case12 d x y heq =>
    rw [mul, if_pos heq] at h
    have := beq_eq _ _ heq
    rw [← Option.some.inj h, lay_vector, lay_vector, copies_succ, ← this]
  | case13 d x y heq =>
    rw [mul, if_neg heq] at h
    rw [← Option.some.inj h, lay_pair]
  | case14 x e y heq =>
    rw [mul, if_pos heq] at h
    have := beq_eq _ _ heq
    rw [← Option.some.inj h, lay_vector, lay_vector, copies_cons, ← this]
  | case15 x e y heq =>
    rw [mul, if_neg heq] at h
    rw [← Option.some.inj h, lay_pair]

theorem compressLoop_lay (prev : Tree) (j : Nat) (l : List Tree) :
    Layout.concat ((compressLoop prev j l).map lay) =
      (Layout.copies (j + 1) (lay prev)).append (Layout.concat (l.map lay)) := by
  have hhead : ∀ (p : Tree) (j : Nat), lay (if j = 0 then p else .vector (j + 1) p) = Layout.copies (j + 1) (lay p) := by
    intro p j
    by_cases hj : j = 0
    · subst hj; rw [if_pos rfl, copies_one]
    · rw [if_neg hj, lay_vector]
  induction l generalizing prev j with
  | nil => simp only [compressLoop, List.map_cons, List.map_nil, concat_single, hhead, Layout.concat, append_nil]
  | cons s r ih =>
    unfold compressLoop
    by_cases hs : Tree.beq s prev = true
    · rw [if_pos hs, ih]
      have := beq_eq _ _ hs
      subst this
      rw [copies_succ (j + 1)]
      simp only [List.map_cons, Layout.concat, append_assoc]
    · rw [if_neg hs]
      simp only [List.map_cons, Layout.concat, hhead, ih, Nat.zero_add, copies_one]

theorem makeCompressed_lay (l : List Tree) : lay (makeCompressed l) = lay (.complex l) := by
  match l with
  | [] => rfl
  | [a] => rfl
  | a :: b :: r =>
    show lay (.complex (compressLoop a 0 (b :: r))) = _
    rw [lay_complex, lay_complex, compressLoop_lay, copies_one]
    rfl

theorem hat_lay (t : Tree) (k : Nat) : lay (hat t k) = Layout.copies k (lay t) := by
  cases t with
  | vector d b => simp only [hat, lay_vector, copies_mul]
  | unite c => simp only [hat, lay_vector]
  | complex l => simp only [hat, lay_vector]

theorem mergeSimplified_lay (l : List Tree) (t : Tree) (h : mergeSimplified l = some t) :
    lay t = lay (.complex l) := by
  cases l with
  | nil => cases h
  | cons a r =>
    simp only [mergeSimplified] at h
    have key : ∀ (r : List Tree) (a : Tree), r.foldl (fun acc t => acc.bind fun x => mul x t) (some a) = some t →
        lay t = (lay a).append (Layout.concat (r.map lay)) := by
      intro r
      induction r with
      | nil => intro a h; simp at h; rw [h]; simp [Layout.concat, append_nil]
      | cons b r ih =>
        intro a h
        simp only [List.foldl_cons, Option.bind_some] at h
        cases hm : mul a b with
        | none =>
          rw [hm] at h
          exfalso
          clear ih hm
          induction r with
          | nil => cases h
          | cons c r ih => exact ih h
        | some s =>
          rw [hm] at h
          rw [ih s h, mul_lay a b s hm]
          simp only [List.map_cons, Layout.concat, append_assoc]
    rw [key r a h, lay_complex]; rfl

/-! ### when products are defined -/

mutual
/-- no empty product inside -/
def Tree.full : Tree → Bool
  | .unite _ => true
  | .vector _ b => b.full
  | .complex l => !l.isEmpty && Tree.fulls l
/-- no empty product inside the factors -/
def Tree.fulls : List Tree → Bool
  | [] => true
  | t :: r => t.full && Tree.fulls r
end

theorem fulls_mem (l : List Tree) (h : Tree.fulls l = true) (t : Tree) (ht : t ∈ l) : t.full = true := by
  induction l with
  | nil => cases ht
  | cons a r ih =>
    simp only [Tree.fulls, Bool.and_eq_true] at h
    rcases List.mem_cons.1 ht with rfl | ht
    · exact h.1
    · exact ih h.2 ht

theorem full_complex (l : List Tree) : (Tree.complex l).full = true ↔ l ≠ [] ∧ ∀ t ∈ l, t.full = true := by
  constructor
  · intro h
    simp only [Tree.full, Bool.and_eq_true, Bool.not_eq_true', List.isEmpty_eq_false_iff] at h
    exact ⟨h.1, fulls_mem l h.2⟩
  · rintro ⟨h1, h2⟩
    simp only [Tree.full, Bool.and_eq_true, Bool.not_eq_true', List.isEmpty_eq_false_iff]
    refine ⟨h1, ?_⟩
    clear h1
    induction l with
    | nil => rfl
    | cons a r ih =>
      simp only [Tree.fulls, Bool.and_eq_true]
      exact ⟨h2 a (by simp), ih fun t ht => h2 t (by simp [ht])⟩

theorem factorsOf_full (t : Tree) (h : t.full = true) : factorsOf t ≠ [] ∧ ∀ x ∈ factorsOf t, x.full = true := by
  cases t with
  | complex l => exact (full_complex l).1 h
  | unite c => simp [factorsOf, Tree.full]
  | vector d b => simpa [factorsOf] using h

theorem mul_full (a b : Tree) (ha : a.full = true) (hb : b.full = true) : ∃ t, mul a b = some t ∧ t.full = true := by
  induction a, b using mul.induct with
  | case1 la lb heq => rw [mul, if_pos heq]; exact ⟨_, rfl, ha⟩
  | case2 la lb hne x y hl hr ih =>
    have ha' := (full_complex la).1 ha
    have hb' := (full_complex lb).1 hb
    obtain ⟨t, ht, hf⟩ := ih (ha'.2 x (List.mem_of_getLast? hl)) (hb'.2 y (List.mem_of_head? hr))
    have hff := factorsOf_full t hf
    rw [mul, if_neg hne]
    split
    · rename_i x' y' hx' hy'
      rw [hl] at hx'; rw [hr] at hy'
      cases hx'; cases hy'
      rw [ht]
      refine ⟨_, rfl, (full_complex _).2 ⟨by simp [hff.1], ?_⟩⟩
      intro z hz
      rcases List.mem_append.1 hz with hz | hz
      · rcases List.mem_append.1 hz with hz | hz
        · exact ha'.2 z (List.dropLast_subset _ hz)
        · exact hff.2 z hz
      · exact hb'.2 z (List.mem_of_mem_tail hz)
    · rename_i hno
      exact (hno x y hl hr).elim
  | case3 la lb hne hno =>
    have ha' := (full_complex la).1 ha
    have hb' := (full_complex lb).1 hb
    rw [mul, if_neg hne]
    split
    · rename_i x' y' hx' hy'
      exact (hno x' y' hx' hy').elim
    · refine ⟨_, rfl, (full_complex _).2 ⟨by simp [ha'.1], ?_⟩⟩
      intro z hz
      rcases List.mem_append.1 hz with hz | hz
      · exact ha'.2 z hz
      · exact hb'.2 z hz
  | case4 la b hbn x hl ih =>
    have ha' := (full_complex la).1 ha
    obtain ⟨t, ht, hf⟩ := ih (ha'.2 x (List.mem_of_getLast? hl)) hb
    have hff := factorsOf_full t hf
    rw [mul.eq_2 _ _ hbn]
    split
    · rename_i x' hx'
      rw [hl] at hx'; cases hx'
      rw [ht]
      refine ⟨_, rfl, (full_complex _).2 ⟨by simp [hff.1], ?_⟩⟩
      intro z hz
      rcases List.mem_append.1 hz with hz | hz
      · exact ha'.2 z (List.dropLast_subset _ hz)
      · exact hff.2 z hz
    · rename_i hn; rw [hl] at hn; cases hn
  | case5 la b hbn hl =>
    have ha' := (full_complex la).1 ha
    exact absurd (getLast_none hl) ha'.1
  | case6 a lb han y hr ih =>
    have hb' := (full_complex lb).1 hb
    obtain ⟨t, ht, hf⟩ := ih ha (hb'.2 y (List.mem_of_head? hr))
    have hff := factorsOf_full t hf
    rw [mul.eq_3 _ _ han]
    split
    · rename_i x' hx'
      rw [hr] at hx'; cases hx'
      rw [ht]
      refine ⟨_, rfl, (full_complex _).2 ⟨by simp [hff.1], ?_⟩⟩
      intro z hz
      rcases List.mem_append.1 hz with hz | hz
      · exact hff.2 z hz
      · exact hb'.2 z (List.mem_of_mem_tail hz)
    · rename_i hn; rw [hr] at hn; cases hn
  | case7 a lb han hr =>
    have hb' := (full_complex lb).1 hb
    exact absurd (by simpa using hr) hb'.1
  | case8 d x e y heq => rw [mul, if_pos heq]; exact ⟨_, rfl, ha⟩
  | case9 d x e y heq => rw [mul, if_neg heq]; exact ⟨_, rfl, by simp only [Tree.full, Tree.fulls] at *; simp [ha, hb]⟩
  | case10 x y heq => rw [mul, if_pos heq]; exact ⟨_, rfl, ha⟩
  | case11 x y heq => rw [mul, if_neg heq]; exact ⟨_, rfl, rfl⟩
  | case12 d x y heq => rw [mul, if_pos heq]; exact ⟨_, rfl, ha⟩
  | case13 d x y heq => rw [mul, if_neg heq]; exact ⟨_, rfl, by simp only [Tree.full, Tree.fulls] at *; simp [ha]⟩
  | case14 x e y heq => rw [mul, if_pos heq]; exact ⟨_, rfl, hb⟩
  | case15 x e y heq => rw [mul, if_neg heq]; exact ⟨_, rfl, by simp only [Tree.full, Tree.fulls] at *; simp [hb]⟩

/-! ### nested views -/

/-- the slice of `t` beginning at `st` with counters `sn` is `b` -/
structure Slice (o : Obj) (sn : Nat → Nat) (st : Nat) (b : Obj) : Prop where
  fits : st + b.numTet ≤ o.numTet
  fitsE : ∀ k, sn k + b.numDof k ≤ o.numDof k
  loc : ∀ i, i < b.numTet → o.locate (st + i) = (b.locate i).shift sn

theorem slice_vector (d : Nat) (b : Obj) (c : Nat) (hc : c < d) :
    Slice (vectorObj d b) (fun k => c * b.numDof k) (c * b.numTet) b := by
  refine ⟨?_, ?_, fun i hi => vector_locate d b c i hi⟩
  · show c * b.numTet + b.numTet ≤ d * b.numTet
    rw [← Nat.succ_mul]; exact Nat.mul_le_mul_right _ hc
  · intro k
    show c * b.numDof k + b.numDof k ≤ d * b.numDof k
    rw [← Nat.succ_mul]; exact Nat.mul_le_mul_right _ hc

theorem slice_complex (l : List Obj) (hc : ∀ o ∈ l, Counted o) (k : Nat) (hk : k < l.length) :
    Slice (complexObj l) (fun t => pre (l.map fun o => o.numDof t) k) (pre (l.map (·.numTet)) k) l[k] := by
  refine ⟨?_, ?_, fun i hi => complex_locate l k hk i hi⟩
  · rw [complex_numTet l hc, ← pre_length]
    have h := pre_mono (l.map (·.numTet)) (j := k + 1) (k := (l.map (·.numTet)).length) (by simp; omega)
    rw [pre_succ _ _ (by simpa using hk)] at h
    simpa using h
  · intro t
    rw [complex_numDof, ← pre_length]
    have h := pre_mono (l.map fun o => o.numDof t) (j := k + 1) (k := (l.map fun o => o.numDof t).length) (by simp; omega)
    rw [pre_succ _ _ (by simpa using hk)] at h
    simpa using h

theorem slice_trans {o b c : Obj} {sn sn' st st'} (h1 : Slice o sn st b) (h2 : Slice b sn' st' c) :
    Slice o (fun k => sn k + sn' k) (st + st') c := by
  refine ⟨?_, ?_, ?_⟩
  · have := h1.fits; have := h2.fits; omega
  · intro k; have := h1.fitsE k; have := h2.fitsE k; omega
  · intro i hi
    rw [Nat.add_assoc, h1.loc (st' + i) (by have := h2.fits; omega), h2.loc i hi]
    simp [Loc.shift, Nat.add_comm, Nat.add_left_comm]

theorem nested_slice (p : List Int) (t : Tree) (o : Obj) (sn : Nat → Nat) (st : Nat) (v : View)
    (ho : Slice o sn st t.obj) (h : nested t p sn st = some v) : Slice o v.shiftNum v.shiftTet v.base.obj := by
  induction p generalizing t sn st with
  | nil => cases h
  | cons i p ih =>
    unfold nested at h
    cases t with
    | unite c => cases h
    | vector d b =>
      simp only at h
      split at h
      · cases h
      · rename_i hi
        have hs := slice_trans ho (slice_vector d b.obj i.toNat (by omega))
        split at h
        · rw [← Option.some.inj h]; exact hs
        · exact ih b _ _ hs h
    | complex l =>
      simp only at h
      split at h
      · cases h
      · rename_i hi
        split at h
        · cases h
        · rename_i b hb
          have hlt : i.toNat < l.length := by omega
          have hbe : l[i.toNat] = b := by
            rw [List.getElem?_eq_getElem hlt] at hb; exact Option.some.inj hb
          have hlt' : i.toNat < (Tree.objs l).length := by rw [objs_eq_map]; simpa using hlt
          have hs0 := slice_complex (Tree.objs l) (trees_counted l) i.toNat hlt'
          have hobj : (Tree.objs l)[i.toNat] = b.obj := by
            simp only [objs_eq_map, List.getElem_map, hbe]
          rw [hobj] at hs0
          have hs := slice_trans ho hs0
          split at h
          · rw [← Option.some.inj h]; exact hs
          · exact ih b _ _ hs h

end Verif.DofMap
