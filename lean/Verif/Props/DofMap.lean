import Verif.Lemmas.DofMap3

set_option linter.unusedVariables false

/-!
Properties C06-C10: local d.o.f. numbering of primitive spaces, products, powers, composed maps and nested views.
The vocabulary is in `Verif.Spec.DofMap`.
-/
namespace Verif.DofMap

/-- P3-like distribution: 1 d.o.f. on nodes, 2 oriented on edges, 1 on faces, 0 in the cell -/
def exP3 : Counts := ⟨1, 0, 2, 1, 0, 0⟩
/-- P1 -/
def exP1 : Counts := ⟨1, 0, 0, 0, 0, 0⟩
/-- P0 -/
def exP0 : Counts := ⟨0, 0, 0, 0, 0, 1⟩
/-- all kinds at once -/
def exAll : Counts := ⟨1, 2, 1, 3, 1, 2⟩

/-! ### C06 -/

/-- **C06**: for every distribution of d.o.f.s the conversions number → place and place → number of a primitive space
are inverse bijections between `0..n-1` and the admissible triples, and `n` is the sum over the elements. -/
theorem unite_numbering (c : Counts) :
    Bijective (uniteObj c).numTet (uniteObj c).numDof (uniteObj c).locate (uniteObj c).tetId := unite_bijective c

/-- **C06**: the number of d.o.f.s on an element kind is the given one and validity of indices is decided correctly. -/
theorem unite_counts (c : Counts) :
    (uniteObj c).numDof 0 = c.node ∧ (uniteObj c).numDof 1 = c.eu ∧ (uniteObj c).numDof 2 = c.eo ∧
    (uniteObj c).numDof 3 = c.fu ∧ (uniteObj c).numDof 4 = c.fo ∧ (uniteObj c).numDof 5 = c.cell ∧
    (uniteObj c).numTet = 4 * c.node + 6 * c.eu + 6 * c.eo + 4 * c.fu + 4 * c.fo + c.cell ∧
    ∀ k, k < 6 → (uniteObj c).numTetE k = elems k * (uniteObj c).numDof k := by
  refine ⟨rfl, rfl, rfl, rfl, rfl, rfl, ?_, fun _ _ => rfl⟩
  rw [(unite_bijective c).size]
  simp [total, sumTo, uniteObj, elems, Counts.get, List.range, List.range.loop]
  omega

/-- **C06**: an index passes the validity test iff it is a number of the space resp. an admissible triple. -/
theorem valid_index (o : Obj) (g : Nat) (l : Loc) :
    (o.validGid g = true ↔ g < o.numTet) ∧ (o.validLoc l = true ↔ l.Valid o.numDof) := by
  simp [Obj.validGid, Obj.validLoc, Loc.Valid, and_assoc]

/-- the 20 d.o.f.s of P3: number 11 is the second d.o.f. of edge 3 -/
example : (uniteObj exP3).numTet = 20 ∧ (uniteObj exP3).locate 11 = ⟨2, 3, 1⟩ ∧ (uniteObj exP3).tetId ⟨2, 3, 1⟩ = 11 ∧
    (uniteObj exAll).numTet = 40 ∧ (uniteObj exAll).locate 37 = ⟨4, 3, 0⟩ := by decide

/-! ### C07 -/

/-- **C07**: blocks of a product are consecutive. Number `i` of factor `k` is number (sizes of the preceding factors) + i
of the product; on its element it sits behind the d.o.f.s of the preceding factors. -/
theorem product_blocks (l : List Obj) (k : Nat) (hk : k < l.length) (i : Nat) (hi : i < l[k].numTet) :
    (complexObj l).locate (((l.take k).map (·.numTet)).sum + i) =
      (l[k].locate i).shift fun t => ((l.take k).map fun o => o.numDof t).sum := by
  have := complex_locate l k hk i hi
  simpa only [pre, ← List.map_take] using this

/-- **C07**: the number of a place belonging to factor `k` is (sizes of the preceding factors) + number in the factor. -/
theorem product_number (l : List Obj) (k : Nat) (hk : k < l.length) (x : Loc) (hx : x.Valid l[k].numDof) :
    (complexObj l).tetId (x.shift fun t => ((l.take k).map fun o => o.numDof t).sum) =
      ((l.take k).map (·.numTet)).sum + l[k].tetId x := by
  have := complex_tetId l k hk x hx.2.2
  simpa only [pre, ← List.map_take] using this

/-- **C07**: counts of a product are the sums of the counts of the factors. -/
theorem product_counts (l : List Obj) (hc : ∀ o ∈ l, Counted o) :
    (complexObj l).numTet = (l.map (·.numTet)).sum ∧ (∀ k, (complexObj l).numDof k = (l.map fun o => o.numDof k).sum) ∧
    Counted (complexObj l) := ⟨complex_numTet l hc, complex_numDof l, complex_counted l hc⟩

/-- **C07**: if the numbering of every factor is a bijection, so is the numbering of the product (in particular d.o.f.s
of different factors on the same element get different positions and these fill `0..count-1`). -/
theorem product_numbering (l : List Obj) (hc : ∀ o ∈ l, Counted o)
    (h : ∀ o ∈ l, Bijective o.numTet o.numDof o.locate o.tetId) :
    Bijective (complexObj l).numTet (complexObj l).numDof (complexObj l).locate (complexObj l).tetId :=
  complex_bijective l hc h

/-- the contract of `product_numbering` is met by primitive spaces -/
example : ∀ o ∈ [uniteObj exP3, uniteObj exP0, uniteObj exP1],
    Counted o ∧ Bijective o.numTet o.numDof o.locate o.tetId := by
  intro o ho
  simp only [List.mem_cons, List.not_mem_nil, or_false] at ho
  rcases ho with rfl | rfl | rfl
  · exact ⟨unite_counted _, unite_bijective _⟩
  · exact ⟨unite_counted _, unite_bijective _⟩
  · exact ⟨unite_counted _, unite_bijective _⟩

example : (complexObj [uniteObj exP3, uniteObj exP0, uniteObj exP1]).locate 22 = ⟨0, 1, 1⟩ ∧
    (complexObj [uniteObj exP3, uniteObj exP0, uniteObj exP1]).tetId ⟨0, 1, 1⟩ = 22 := by decide

/-- **C07/C08**: every map built from primitive spaces by products and powers, nested arbitrarily, locates its numbers
bijectively on the admissible triples, and its counters are right. -/
theorem tree_numbering (t : Tree) :
    Counted t.obj ∧ BijectiveLoc t.obj.numTet t.obj.numDof t.obj.locate := ⟨tree_counted t, tree_bij t⟩

example : (Tree.vector 3 (.complex [.unite exP1, .vector 2 (.unite exP3)])).obj.numTet = 132 ∧
    (Tree.vector 3 (.complex [.unite exP1, .vector 2 (.unite exP3)])).obj.locate 100 = ⟨2, 2, 8⟩ := by decide

mutual
/-- no power of dimension other than one inside -/
def Tree.noPower : Tree → Bool
  | .unite _ => true
  | .vector _ _ => false
  | .complex l => Tree.noPowers l
/-- no power inside the factors -/
def Tree.noPowers : List Tree → Bool
  | [] => true
  | t :: r => t.noPower && Tree.noPowers r
end

mutual
/-- **C07**: products of primitive spaces nested to any depth have a two-sided inverse numbering. -/
theorem product_tree_numbering : ∀ t : Tree, t.noPower = true →
    Bijective t.obj.numTet t.obj.numDof t.obj.locate t.obj.tetId
  | .unite c, _ => unite_bijective c
  | .vector _ _, h => by cases h
  | .complex l, h => complex_bijective _ (trees_counted l) (product_trees_numbering l h)
theorem product_trees_numbering : ∀ l : List Tree, Tree.noPowers l = true → ∀ o ∈ Tree.objs l,
    Bijective o.numTet o.numDof o.locate o.tetId
  | [], _ => by simp [Tree.objs]
  | t :: r, h => by
    simp only [Tree.noPowers, Bool.and_eq_true] at h
    intro o ho
    simp only [Tree.objs, List.mem_cons] at ho
    rcases ho with e | e
    · rw [e]; exact product_tree_numbering t h.1
    · exact product_trees_numbering r h.2 o e
end

example : (Tree.complex [.complex [.unite exP1, .unite exAll], .unite exP0]).noPower = true := by decide

/-! ### C08 -/

/-- **C08** (number → place): the components of a power are stored one after another; on each element the positions of
component `c` are the block of length `count` beginning at `c * count`. -/
theorem power_blocks (d : Nat) (b : Obj) (c i : Nat) (hc : c < d) (h : i < b.numTet) :
    (vectorObj d b).locate (c * b.numTet + i) = (b.locate i).shift (fun k => c * b.numDof k) ∧
    (vectorObj d b).numTet = d * b.numTet ∧ ∀ k, (vectorObj d b).numDof k = d * b.numDof k :=
  ⟨vector_locate d b c i h, rfl, fun _ => rfl⟩

/-- **C08** (number → place): the place of a d.o.f. determines its number and every admissible place occurs. -/
theorem power_numbering (d : Nat) (b : Obj) (h : BijectiveLoc b.numTet b.numDof b.locate) :
    BijectiveLoc (vectorObj d b).numTet (vectorObj d b).numDof (vectorObj d b).locate := vector_bij d b h

/-- **C08**, what the code guarantees for the conversion place → number: it inverts the conversion number → place for
d.o.f.s of the cell and for those of the first component.  Missing: the remaining d.o.f.s, for which the code is wrong
(`power_number_wrong`). -/
theorem power_number_partial (d : Nat) (b : Obj) (hc : Counted b)
    (h : Bijective b.numTet b.numDof b.locate b.tetId) (x : Loc) (hx : x.Valid (vectorObj d b).numDof)
    (hcase : x.num = 5 ∨ x.leid < b.numDof x.num) :
    (vectorObj d b).tetId x < (vectorObj d b).numTet ∧ (vectorObj d b).locate ((vectorObj d b).tetId x) = x :=
  vector_tetId_cell d b hc h x hx hcase

/-- **C08 fails for the code**: in the third power of P1 the d.o.f. number 4 sits on node 0 as its d.o.f. 1, but the
conversion back returns number 1 (the first component of node 1). -/
theorem power_number_wrong :
    (vectorObj 3 (uniteObj exP1)).locate 4 = ⟨0, 0, 1⟩ ∧ (vectorObj 3 (uniteObj exP1)).tetId ⟨0, 0, 1⟩ = 1 ∧
    (vectorObj 3 (uniteObj exP1)).locate 1 = ⟨0, 1, 0⟩ := by decide

/-- **C08 fails for the code** in general: for every base space, the second component of a d.o.f. on a node, edge or face
kind is converted to a number whose place is not the given one, whenever there are at least two components. -/
theorem power_number_wrong_general (d : Nat) (hd : 2 ≤ d) (c : Counts) (x : Loc) (hx : x.Valid c.get) (h5 : x.num ≠ 5) :
    let y : Loc := ⟨x.num, x.nelem, x.leid + c.get x.num⟩
    y.Valid (vectorObj d (uniteObj c)).numDof ∧
    (vectorObj d (uniteObj c)).locate ((uniteObj c).numTet + (uniteObj c).tetId x) = y ∧
    (vectorObj d (uniteObj c)).tetId y ≠ (uniteObj c).numTet + (uniteObj c).tetId x := by
  intro y
  have hb := unite_bijective c
  have hlt := hb.number_lt x hx
  obtain ⟨h1, h2, h3⟩ := hx
  refine ⟨⟨h1, h2, ?_⟩, ?_, ?_⟩
  · show x.leid + c.get x.num < d * c.get x.num
    have : 2 * c.get x.num ≤ d * c.get x.num := Nat.mul_le_mul_right _ hd
    omega
  · have := vector_locate d (uniteObj c) 1 ((uniteObj c).tetId x) hlt
    rw [Nat.one_mul] at this
    rw [this, hb.right_inv x ⟨h1, h2, h3⟩]
    simp [Loc.shift, y, uniteObj]
  · have hE : 2 ≤ elems x.num := by
      have : x.num = 0 ∨ x.num = 1 ∨ x.num = 2 ∨ x.num = 3 ∨ x.num = 4 := by omega
      rcases this with h | h | h | h | h <;> rw [h] <;> decide
    have hlt2 : x.leid + c.get x.num < elems x.num * c.get x.num := by
      have : 2 * c.get x.num ≤ elems x.num * c.get x.num := Nat.mul_le_mul_right _ hE
      omega
    have e : (vectorObj d (uniteObj c)).tetId y = (uniteObj c).tetId y := by
      simp only [vectorObj, y]
      rw [show (uniteObj c).numTetE x.num = elems x.num * c.get x.num from rfl, Nat.div_eq_of_lt hlt2,
        Nat.mod_eq_of_lt hlt2]
      simp
    have e2 : (uniteObj c).tetId y = (uniteObj c).tetId x + c.get x.num := by
      simp only [uniteObj, y]; omega
    rw [e, e2]
    have : 4 * c.get x.num ≤ (uniteObj c).numTet := by
      rw [(unite_counts c).2.2.2.2.2.2.1]
      have : x.num = 0 ∨ x.num = 1 ∨ x.num = 2 ∨ x.num = 3 ∨ x.num = 4 := by omega
      rcases this with h | h | h | h | h <;> rw [h] <;> simp only [Counts.get] <;> omega
    omega

example : (⟨2, 3, 1⟩ : Loc).Valid exP3.get ∧ (⟨5, 0, 3⟩ : Loc).Valid (vectorObj 3 (uniteObj exAll)).numDof := by
  simp [Loc.Valid, elems, exP3, exAll, vectorObj, uniteObj, Counts.get]

/-! ### C09 -/

/-- Two maps cannot be told apart by the numbers and places of their d.o.f.s. -/
def SameLayout (a b : Obj) : Prop :=
  a.numTet = b.numTet ∧ (∀ k, a.numDof k = b.numDof k) ∧ (∀ k, k < 6 → a.numTetE k = b.numTetE k) ∧
  ∀ g, g < a.numTet → a.locate g = b.locate g

theorem sameLayout_of_lay {a b : Tree} (h : lay a = lay b) : SameLayout a.obj b.obj := by
  have h1 : a.obj.numDof = b.obj.numDof := congrArg Layout.cnt h
  have h2 : (List.range a.obj.numTet).map a.obj.locate = (List.range b.obj.numTet).map b.obj.locate :=
    congrArg Layout.locs h
  have h3 : a.obj.numTet = b.obj.numTet := by simpa using congrArg List.length h2
  refine ⟨h3, fun k => congrFun h1 k, ?_, ?_⟩
  · intro k hk
    rw [(tree_counted a).tetE k hk, (tree_counted b).tetE k hk, h1]
  · intro g hg
    rw [h3] at h2
    exact List.map_inj_left.1 h2 g (List.mem_range.2 (by omega))

/-- **C09**: whenever the product operator returns a map, it has the layout of the plain two-factor product, whatever
simplification was applied. -/
theorem mul_layout (a b t : Tree) (h : mul a b = some t) : SameLayout t.obj (Tree.complex [a, b]).obj :=
  sameLayout_of_lay (by rw [mul_lay a b t h, lay_pair])

/-- **C09**: the product operator returns a map unless an empty product occurs in its arguments. -/
theorem mul_defined (a b : Tree) (ha : a.full = true) (hb : b.full = true) : ∃ t, mul a b = some t :=
  (mul_full a b ha hb).imp fun _ h => h.1

/-- an empty product times a primitive map accesses `back()` of an empty vector -/
theorem mul_empty_undefined (c : Counts) :
    mul (.complex []) (.unite c) = none ∧ mul (.unite c) (.complex []) = none := by
  constructor <;> simp [mul]

/-- **C09**: powers by function and by operator have the layout of the plain power. -/
theorem pow_layout (t : Tree) (k : Nat) :
    SameLayout (pow t k).obj (Tree.complex (List.replicate k t)).obj ∧
    SameLayout (hat t k).obj (Tree.complex (List.replicate k t)).obj := by
  have : lay (.complex (List.replicate k t)) = Layout.copies k (lay t) := by
    rw [lay_complex, List.map_replicate]; rfl
  exact ⟨sameLayout_of_lay (by rw [this]; exact lay_vector k t), sameLayout_of_lay (by rw [this]; exact hat_lay t k)⟩

/-- **C09**: merging, merging with simplification and compressing give the layout of the plain product. -/
theorem merge_layout (l : List Tree) :
    SameLayout (merge l).obj (Tree.complex l).obj ∧ SameLayout (makeCompressed l).obj (Tree.complex l).obj ∧
    ∀ t, mergeSimplified l = some t → SameLayout t.obj (Tree.complex l).obj :=
  ⟨sameLayout_of_lay rfl, sameLayout_of_lay (makeCompressed_lay l),
    fun t h => sameLayout_of_lay (mergeSimplified_lay l t h)⟩

/-- **C09**: merging with simplification succeeds for every non-empty list of maps without empty products. -/
theorem mergeSimplified_defined (l : List Tree) (hne : l ≠ []) (h : ∀ t ∈ l, t.full = true) :
    ∃ t, mergeSimplified l = some t := by
  cases l with
  | nil => exact absurd rfl hne
  | cons a r =>
    simp only [mergeSimplified]
    have ha := h a (by simp)
    have hr : ∀ t ∈ r, t.full = true := fun t ht => h t (by simp [ht])
    clear h hne
    induction r generalizing a with
    | nil => exact ⟨a, rfl⟩
    | cons b r ih =>
      obtain ⟨t, ht, hf⟩ := mul_full a b ha (hr b (by simp))
      simp only [List.foldl_cons, Option.bind_some, ht]
      exact ih t hf fun s hs => hr s (by simp [hs])

/-- the simplifications are not trivial: `(P1*P1) * P1 = P1^3`, `(P1*P0) * (P0*P1)` joins the two P0 -/
example : mul (.vector 2 (.unite exP1)) (.unite exP1) = some (.vector 3 (.unite exP1)) ∧
    mul (.complex [.unite exP1, .unite exP0]) (.complex [.unite exP0, .unite exP1]) =
      some (.complex [.unite exP1, .vector 2 (.unite exP0), .unite exP1]) ∧
    makeCompressed [.unite exP1, .unite exP1, .unite exP0] = .complex [.vector 2 (.unite exP1), .unite exP0] := by
  refine ⟨?_, ?_, ?_⟩
  · simp [mul, Tree.beq]
  · rw [mul, if_neg (by decide)]
    split
    · rename_i x y hx hy
      simp at hx hy
      subst hx; subst hy
      simp [mul, Tree.beq, factorsOf]
    · rename_i h
      exact (h (.unite exP0) (.unite exP0) rfl rfl).elim
  · simp [makeCompressed, compressLoop, Tree.beq, exP1, exP0]

/-! ### C10 -/

/-- the view of `t` along a path of component numbers (`GetNestedDofMapView`) -/
def viewOf (t : Tree) (p : List Int) : Option View := nested t p (fun _ => 0) 0

/-- **C10**: the `i`-th d.o.f. of a view is the d.o.f. of the enclosing map at (offset of the view) + i, at the place
which the enclosing map gives it; the slice lies inside the enclosing map. -/
theorem view_slice (t : Tree) (p : List Int) (v : View) (h : viewOf t p = some v) :
    v.shiftTet + v.base.obj.numTet ≤ t.obj.numTet ∧
    (∀ k, v.shiftNum k + v.base.obj.numDof k ≤ t.obj.numDof k) ∧
    ∀ i, i < v.base.obj.numTet →
      (v.locate i).1 = v.shiftTet + i ∧ t.obj.locate (v.locate i).1 = (v.locate i).2 := by
  have h0 : Slice t.obj (fun _ => 0) 0 t.obj :=
    ⟨by omega, fun k => by omega, fun i hi => by simp [Loc.shift]⟩
  have hs := nested_slice p t t.obj _ _ v h0 h
  refine ⟨hs.fits, hs.fitsE, fun i hi => ⟨Nat.add_comm _ _, ?_⟩⟩
  rw [show (v.locate i).1 = v.shiftTet + i from Nat.add_comm _ _]
  exact hs.loc i hi

/-- **C10**: the view's conversion place → number gives the number, in the enclosing map, of the d.o.f. sitting at that
place of the component (for components whose own numbering is a bijection). -/
theorem view_number (t : Tree) (p : List Int) (v : View) (h : viewOf t p = some v)
    (hb : Bijective v.base.obj.numTet v.base.obj.numDof v.base.obj.locate v.base.obj.tetId)
    (l : Loc) (hl : l.Valid v.base.obj.numDof) :
    v.shiftTet ≤ v.tetId l ∧ v.tetId l < v.shiftTet + v.base.obj.numTet ∧
    t.obj.locate (v.tetId l) = l.shift v.shiftNum ∧ (v.locate (v.base.obj.tetId l)).1 = v.tetId l := by
  have hs := (view_slice t p v h).2.2 (v.base.obj.tetId l) (hb.number_lt l hl)
  have h1 := hb.number_lt l hl
  refine ⟨Nat.le_add_left _ _, by unfold View.tetId; omega, ?_, rfl⟩
  have h2 := hs.2
  rw [show (v.locate (v.base.obj.tetId l)).1 = v.tetId l from rfl] at h2
  rw [h2]
  simp only [View.locate, hb.right_inv l hl]

/-- **C10**: for a component of a product the offset is the total size of the preceding factors. -/
theorem view_of_product (l : List Tree) (k : Nat) (hk : k < l.length) :
    viewOf (.complex l) [(k : Int)] =
      some ⟨fun t => ((l.take k).map fun x => x.obj.numDof t).sum, ((l.take k).map fun x => x.obj.numTet).sum, l[k]⟩ := by
  have h1 : ¬ ((k : Int) < 0 ∨ (l.length : Int) ≤ k) := by omega
  unfold viewOf nested
  simp only [if_neg h1, Int.toNat_natCast, List.getElem?_eq_getElem hk, List.isEmpty_nil, if_true, Nat.zero_add, pre,
    objs_eq_map, List.map_map, List.map_take]
  rfl

/-- **C10**: for component `c` of a power the offset is `c` times the size of the base. -/
theorem view_of_power (d : Nat) (b : Tree) (c : Nat) (hc : c < d) :
    viewOf (.vector d b) [(c : Int)] = some ⟨fun t => c * b.obj.numDof t, c * b.obj.numTet, b⟩ := by
  have h1 : ¬ ((c : Int) < 0 ∨ (d : Int) ≤ c) := by omega
  unfold viewOf nested
  simp only [if_neg h1, Int.toNat_natCast, List.isEmpty_nil, if_true, Nat.zero_add]

theorem nested_acc (p : List Int) (t : Tree) (sn : Nat → Nat) (st : Nat) :
    nested t p sn st = (viewOf t p).map fun v => ⟨fun k => sn k + v.shiftNum k, st + v.shiftTet, v.base⟩ := by
  induction p generalizing t sn st with
  | nil => rfl
  | cons i p ih =>
    unfold viewOf nested
    cases t with
    | unite c => rfl
    | vector d b =>
      simp only
      by_cases hi : i < 0 ∨ (d : Int) ≤ i
      · rw [if_pos hi, if_pos hi]; rfl
      · rw [if_neg hi, if_neg hi]
        by_cases hp : p.isEmpty = true
        · rw [if_pos hp, if_pos hp]; simp
        · rw [if_neg hp, if_neg hp, ih, ih b (fun k => 0 + i.toNat * b.obj.numDof k)]
          simp [Option.map_map, Function.comp_def, Nat.add_assoc]
    | complex l =>
      simp only
      by_cases hi : i < 0 ∨ (l.length : Int) ≤ i
      · rw [if_pos hi, if_pos hi]; rfl
      · rw [if_neg hi, if_neg hi]
        cases hb : l[i.toNat]? with
        | none => rfl
        | some b =>
          simp only
          by_cases hp : p.isEmpty = true
          · rw [if_pos hp, if_pos hp]; simp
          · rw [if_neg hp, if_neg hp, ih, ih b (fun k => 0 + pre (List.map (fun o => o.numDof k) (Tree.objs l)) i.toNat)]
            simp [Option.map_map, Function.comp_def, Nat.add_assoc]

/-- **C10**: longer paths: the view along `i :: p` is the view along `p` of component `i`, moved by its offset. -/
theorem view_path (t : Tree) (i : Int) (p : List Int) (hp : p ≠ []) (v : View) :
    viewOf t (i :: p) = some v ↔ ∃ v1 v2, viewOf t [i] = some v1 ∧ viewOf v1.base p = some v2 ∧
      v.base = v2.base ∧ v.shiftTet = v1.shiftTet + v2.shiftTet ∧ ∀ k, v.shiftNum k = v1.shiftNum k + v2.shiftNum k := by
  have hpe : ¬ (p.isEmpty = true) := by simpa using hp
  have key : viewOf t (i :: p) = (viewOf t [i]).bind fun v1 => nested v1.base p v1.shiftNum v1.shiftTet := by
    unfold viewOf
    rw [nested.eq_def t (i :: p), nested.eq_def t [i]]
    cases t with
    | unite c => rfl
    | vector d b =>
      simp only
      by_cases hi : i < 0 ∨ (d : Int) ≤ i
      · rw [if_pos hi, if_pos hi]; rfl
      · rw [if_neg hi, if_neg hi, if_neg hpe]; rfl
    | complex l =>
      simp only
      by_cases hi : i < 0 ∨ (l.length : Int) ≤ i
      · rw [if_pos hi, if_pos hi]; rfl
      · rw [if_neg hi, if_neg hi]
        cases hb : l[i.toNat]? with
        | none => rfl
        | some b => simp only; rw [if_neg hpe]; rfl
  rw [key]
  constructor
  · intro h
    rw [Option.bind_eq_some_iff] at h
    obtain ⟨v1, h1, h2⟩ := h
    rw [nested_acc, Option.map_eq_some_iff] at h2
    obtain ⟨v2, h2, rfl⟩ := h2
    exact ⟨v1, v2, h1, h2, rfl, rfl, fun _ => rfl⟩
  · rintro ⟨v1, v2, h1, h2, hb, ht, hn⟩
    rw [h1, Option.bind_some, nested_acc, h2, Option.map_some]
    congr 1
    cases v
    simp only at hb ht hn
    subst hb; subst ht
    congr 1
    funext k; exact (hn k).symm

/-- **C10**: a path is rejected exactly when some component number is out of range or the path leaves the tree. -/
theorem view_one_none (t : Tree) (i : Int) :
    viewOf t [i] = none ↔ match t with
      | .unite _ => True
      | .vector d _ => i < 0 ∨ (d : Int) ≤ i
      | .complex l => i < 0 ∨ (l.length : Int) ≤ i := by
  unfold viewOf nested
  cases t with
  | unite c => simp
  | vector d b =>
    simp only [List.isEmpty_nil, if_true]
    by_cases hi : i < 0 ∨ (d : Int) ≤ i
    · rw [if_pos hi]; simpa using hi
    · rw [if_neg hi]; simpa using hi
  | complex l =>
    simp only [List.isEmpty_nil, if_true]
    by_cases hi : i < 0 ∨ (l.length : Int) ≤ i
    · rw [if_pos hi]; simpa using hi
    · rw [if_neg hi]
      have hlt : i.toNat < l.length := by omega
      rw [List.getElem?_eq_getElem hlt]
      simpa using hi

/-- **C10**: a 32-bit number of the enclosing map is accepted by the view exactly when it lies in the slice. -/
theorem view_valid (t : Tree) (p : List Int) (v : View) (h : viewOf t p = some v) (hsz : t.obj.numTet ≤ 2 ^ 32)
    (g : Nat) (hg : g < 2 ^ 32) :
    v.validOut g = true ↔ v.shiftTet ≤ g ∧ g < v.shiftTet + v.base.obj.numTet := by
  have hf := (view_slice t p v h).1
  simp only [View.validOut, decide_eq_true_eq]
  by_cases hle : v.shiftTet ≤ g
  · have : (g + 2 ^ 32 - v.shiftTet) % 2 ^ 32 = g - v.shiftTet := by omega
    rw [this]; omega
  · have : (g + 2 ^ 32 - v.shiftTet) % 2 ^ 32 = g + 2 ^ 32 - v.shiftTet := by omega
    rw [this]; omega

/-- **C10**: a place of the enclosing map is accepted by the view exactly when it is on the tetrahedron and lies in the
slice of the component on that element. -/
theorem view_valid_place (t : Tree) (p : List Int) (v : View) (h : viewOf t p = some v) (l : Loc)
    (hsz : t.obj.numDof l.num ≤ 2 ^ 32) (hg : l.leid < 2 ^ 32) :
    v.validOutLoc l = true ↔ l.num < 6 ∧ l.nelem < elems l.num ∧
      v.shiftNum l.num ≤ l.leid ∧ l.leid < v.shiftNum l.num + v.base.obj.numDof l.num := by
  have hf := (view_slice t p v h).2.1 l.num
  simp only [View.validOutLoc, Obj.validLoc, Bool.and_eq_true, decide_eq_true_eq, and_assoc]
  refine and_congr_right fun _ => and_congr_right fun _ => ?_
  by_cases hle : v.shiftNum l.num ≤ l.leid
  · have : (l.leid + 2 ^ 32 - v.shiftNum l.num) % 2 ^ 32 = l.leid - v.shiftNum l.num := by omega
    rw [this]; omega
  · have : (l.leid + 2 ^ 32 - v.shiftNum l.num) % 2 ^ 32 = l.leid + 2 ^ 32 - v.shiftNum l.num := by omega
    rw [this]; omega

/-- component 1 of the velocity in Taylor-Hood-like `P3^3 × P1`: offset 20 -/
example : ∃ v, viewOf (.complex [.vector 3 (.unite exP3), .unite exP1]) [0, 1] = some v ∧ v.shiftTet = 20 ∧
    v.base = .unite exP3 ∧ v.validOut 25 = true ∧ v.validOut 45 = false := by
  exact ⟨_, rfl, by decide, rfl, by decide, by decide⟩

end Verif.DofMap
