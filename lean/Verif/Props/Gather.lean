import Verif.Model.Gather
import Verif.Lemmas.GeomIter5
import Verif.Props.GeomIter
import Verif.Props.DofMap

/-!
Property C75: gathering the values of a variable on a cell puts the value of every d.o.f. of the variable at its place and
writes nothing else.
-/
namespace Verif.Gather
open Verif.DofMap Verif.Sparsity Verif.GeomIter

/-- the loop over the elements of any one dimension meets exactly the d.o.f.s there, each once -/
def GeomOk (t : Tree) : Prop := ∀ δ, δ < 4 → ∃ L,
  Meets ((iter t).start true (Sp.none.setDim δ)) ((iter t).next true (Sp.none.setDim δ)) L ∧
  Lists t.obj.numTet t.obj.locate (Sp.none.setDim δ).has L

theorem wf_setDim (δ : Nat) (h : δ < 4) : Wf (Sp.none.setDim δ) := by
  intro d hd i hi
  have hi8 := has_lt _ _ _ hi
  revert hi
  have : ∀ δ, δ < 4 → ∀ d, d < 4 → ∀ i, i < 8 → (Sp.none.setDim δ).has d i = true → i < count d := by decide +kernel
  exact this δ h d hd i hi8

theorem setDim_has (δ : Nat) (h : δ < 4) (d i : Nat) (he : Elem d i) : (Sp.none.setDim δ).has d i = decide (d = δ) := by
  have key : ∀ p ∈ allElems, ∀ δ, δ < 4 → (Sp.none.setDim δ).has p.1 p.2 = decide (p.1 = δ) := by decide +kernel
  exact key (d, i) (mem_allElems he) δ h

/-- **C11/C75**: in the geometric order too the loop over a power of a primitive space meets the selected d.o.f.s, each once. -/
theorem power_geom_iterate (c : Counts) (d : Nat) (s : Sp) (hs : Wf s) :
    ∃ L, Meets ((iter (.vector d (.unite c))).start true s) ((iter (.vector d (.unite c))).next true s) L ∧
      Lists (Tree.vector d (.unite c)).obj.numTet (Tree.vector d (.unite c)).obj.locate s.has L := by
  have ho : (Tree.vector d (.unite c)).obj = vectorObj d (uniteObj c) := by simp [Tree.obj]
  have hi : iter (.vector d (.unite c)) = vectorIter d (uniteIter c) := by simp [iter]
  rw [ho, hi]
  rcases Nat.eq_zero_or_pos d with rfl | hd
  · refine ⟨[], ?_, ⟨by simp, ?_, by simp⟩⟩
    · intro n _
      have h0 : (vectorIter 0 (uniteIter c)).start true s = none := genBegin_vector_zero _ s
      rw [h0]
      cases n <;> rfl
    · intro g hg
      have : g < 0 * (uniteObj c).numTet := hg
      omega
  · obtain ⟨h1, h2, h3⟩ := geom_vector c d hd s hs
    refine ⟨_, ?_, h3⟩
    intro n hn
    rw [h1]
    exact steps_visits _ _ h2 n hn

/-- `P2^3` on the closed face 2, the components of every element together -/
example : Wf exFace ∧ (visits ((iter (.vector 3 (.unite exP2))).next true exFace) 100
    ((iter (.vector 3 (.unite exP2))).start true exFace)).map (·.1) =
      [0, 10, 20, 2, 12, 22, 3, 13, 23, 5, 15, 25, 6, 16, 26, 9, 19, 29] :=
  ⟨wf_set _ _ wf_none 2 2 true (by decide) rfl, by decide +kernel⟩

/-- **C75**: primitive spaces -/
theorem geomOk_unite (c : Counts) : GeomOk (.unite c) := by
  intro δ hδ
  obtain ⟨L, h1, h2, -⟩ := unite_iterate c _ (wf_setDim δ hδ) true
  have ho : (Tree.unite c).obj = uniteObj c := by simp [Tree.obj]
  have hi : iter (.unite c) = uniteIter c := by simp [iter]
  rw [ho, hi]
  exact ⟨L, h1, h2⟩

/-- **C75**: powers of primitive spaces -/
theorem geomOk_power (d : Nat) (c : Counts) : GeomOk (.vector d (.unite c)) :=
  fun δ hδ => power_geom_iterate c d _ (wf_setDim δ hδ)

/-- a primitive space or a power of one -/
def Simple : Tree → Prop
  | .unite _ => True
  | .vector _ (.unite _) => True
  | _ => False

theorem simple_fac (t : Tree) (h : Simple t) : ∃ E, Fac (iter t) E := by
  cases t with
  | unite c => exact ⟨_, fac_unite c⟩
  | complex l => exact absurd h (by simp [Simple])
  | vector d b =>
    cases b with
    | vector _ _ => exact absurd h (by simp [Simple])
    | complex _ => exact absurd h (by simp [Simple])
    | unite c =>
      rcases Nat.eq_zero_or_pos d with rfl | hd
      · exact ⟨_, fac_zero (uniteIter c)⟩
      · exact ⟨_, fac_vector d hd c⟩

theorem onlyDim_setDim (δ : Nat) (h : δ < 4) : OnlyDim (Sp.none.setDim δ) δ := by
  intro δ' h' hne j
  have key : ∀ δ, δ < 4 → ∀ δ', δ' < 4 → δ' ≠ δ → (Sp.none.setDim δ).get δ' = 0 := by decide +kernel
  unfold Sp.has
  rw [key δ h δ' h' hne]
  simp

/-- **C11/C75**: in the geometric order the loop over the elements of one dimension meets all d.o.f.s there, each once,
for products of primitive spaces and their powers in which the factors do not mix the two kinds of edge d.o.f.s, nor the
two kinds of face d.o.f.s. -/
theorem geomOk_product (l : List Tree) (hl : ∀ t ∈ l, Simple t)
    (h1 : (∀ t ∈ l, t.obj.numDof 1 = 0) ∨ ∀ t ∈ l, t.obj.numDof 2 = 0)
    (h2 : (∀ t ∈ l, t.obj.numDof 3 = 0) ∨ ∀ t ∈ l, t.obj.numDof 4 = 0) : GeomOk (.complex l) := by
  have hlen : (iters l).length = l.length := by rw [iters_eq]; simp
  have hget : ∀ k (hk : k < (iters l).length), (iters l)[k] = iter (l[k]'(by omega)) := by
    intro k hk; simp [iters_eq]
  have hE : ∀ k, ∃ E, ∀ (hk : k < (iters l).length), Fac (iters l)[k] E := by
    intro k
    by_cases hk : k < (iters l).length
    · obtain ⟨E, h⟩ := simple_fac _ (hl _ (List.getElem_mem (l := l) (n := k) (by omega)))
      exact ⟨E, fun hk' => by rw [hget k hk']; exact h⟩
    · exact ⟨fun _ _ => [], fun h => absurd h hk⟩
  obtain ⟨Es, hEs⟩ := Classical.axiomOfChoice hE
  have hmem : ∀ o ∈ iters l, ∃ t ∈ l, o.obj = t.obj := by
    intro o ho
    rw [iters_eq] at ho
    obtain ⟨t, ht, rfl⟩ := List.mem_map.1 ho
    exact ⟨t, ht, iter_obj t⟩
  have hc : ∀ o ∈ iters l, Counted o.obj := by
    intro o ho
    obtain ⟨t, -, h⟩ := hmem o ho
    rw [h]; exact tree_counted t
  have twin : ∀ κ, κ < 6 → ∀ k, k < 6 → dimOf k = dimOf κ → k ≠ κ →
      (κ = 1 ∧ k = 2) ∨ (κ = 2 ∧ k = 1) ∨ (κ = 3 ∧ k = 4) ∨ (κ = 4 ∧ k = 3) := by
    intro κ hκ k hk hd hne
    have e1 : κ = 0 ∨ κ = 1 ∨ κ = 2 ∨ κ = 3 ∨ κ = 4 ∨ κ = 5 := by omega
    have e2 : k = 0 ∨ k = 1 ∨ k = 2 ∨ k = 3 ∨ k = 4 ∨ k = 5 := by omega
    rcases e1 with rfl | rfl | rfl | rfl | rfl | rfl <;> rcases e2 with rfl | rfl | rfl | rfl | rfl | rfl <;>
      first | omega | (simp [dimOf] at hd)
  have main : ∀ κ, κ < 6 → (κ = 1 → ∀ t ∈ l, t.obj.numDof 2 = 0) → (κ = 2 → ∀ t ∈ l, t.obj.numDof 1 = 0) →
      (κ = 3 → ∀ t ∈ l, t.obj.numDof 4 = 0) → (κ = 4 → ∀ t ∈ l, t.obj.numDof 3 = 0) → OneKind (iters l) κ := by
    intro κ hκ a1 a2 a3 a4
    refine ⟨hκ, fun o ho k hk hd hne => ?_⟩
    obtain ⟨t, ht, he⟩ := hmem o ho
    rw [he]
    rcases twin κ hκ k hk hd hne with ⟨h, h'⟩ | ⟨h, h'⟩ | ⟨h, h'⟩ | ⟨h, h'⟩ <;> rw [h']
    · exact a1 h t ht
    · exact a2 h t ht
    · exact a3 h t ht
    · exact a4 h t ht
  have hkind : ∀ δ, δ < 4 → ∃ κ, dimOf κ = δ ∧ OneKind (iters l) κ := by
    intro δ hδ
    have : δ = 0 ∨ δ = 1 ∨ δ = 2 ∨ δ = 3 := by omega
    rcases this with rfl | rfl | rfl | rfl
    · exact ⟨0, rfl, main 0 (by omega) nofun nofun nofun nofun⟩
    · rcases h1 with h | h
      · exact ⟨2, rfl, main 2 (by omega) nofun (fun _ => h) nofun nofun⟩
      · exact ⟨1, rfl, main 1 (by omega) (fun _ => h) nofun nofun nofun⟩
    · rcases h2 with h | h
      · exact ⟨4, rfl, main 4 (by omega) nofun nofun nofun (fun _ => h)⟩
      · exact ⟨3, rfl, main 3 (by omega) nofun nofun (fun _ => h) nofun⟩
    · exact ⟨5, rfl, main 5 (by omega) nofun nofun nofun nofun⟩
  intro δ hδ
  obtain ⟨κ, rfl, hκ⟩ := hkind δ hδ
  obtain ⟨a, b, d⟩ := geom_complex (iters l) Es (fun k hk => hEs k hk) hc κ hκ _ (wf_setDim _ hδ) (onlyDim_setDim _ hδ)
  have ho : (Tree.complex l).obj = complexObj ((iters l).map (·.obj)) := by rw [iters_obj]; simp [Tree.obj]
  have hi : iter (.complex l) = complexIter (iters l) := by simp [iter]
  rw [ho, hi]
  refine ⟨_, ?_, d⟩
  intro n hn
  rw [a]
  exact steps_visits _ _ b n hn

/-- velocity and pressure: `P2^3 × P1` -/
example : GeomOk (.complex [.vector 3 (.unite exP2), .unite GeomIter.exP1]) := by
  refine geomOk_product _ ?_ (Or.inr ?_) (Or.inr ?_)
  · intro t ht
    simp only [List.mem_cons, List.not_mem_nil, or_false] at ht
    rcases ht with rfl | rfl <;> simp [Simple]
  all_goals
    intro t ht
    simp only [List.mem_cons, List.not_mem_nil, or_false] at ht
    rcases ht with rfl | rfl <;> rfl

/-! ### one component -/

theorem outer_inner (v : View) (x : It) : inner v (outer v x) = x := by
  simp [inner, outer, Loc.shift]

theorem visits_view (v : View) (g : Bool) (s : Sp) (n : Nat) (o : Option It) :
    visits (viewNext v g s) n (o.map (outer v)) = (visits ((iter v.base).next g s) n o).map (outer v) := by
  induction n generalizing o with
  | zero => rfl
  | succ n ih =>
    cases o with
    | none => rfl
    | some x =>
      simp only [Option.map_some, visits, List.map_cons]
      rw [← ih]
      simp [viewNext, outer_inner]

theorem foldl_assign {K : Type} (take : It → Option K) (v : View) (L : List It) (hn : (L.map Prod.fst).Nodup)
    (out : Nat → K) (j : Nat) :
    (L.map (outer v)).foldl (fun out lo => assign out (lo.1 - v.shiftTet) (take lo)) out j =
      match L.find? fun x => decide (x.1 = j) with
      | some x => (take (outer v x)).getD (out j)
      | none => out j := by
  induction L generalizing out with
  | nil => rfl
  | cons a L ih =>
    rw [List.map_cons, List.nodup_cons] at hn
    rw [List.map_cons, List.foldl_cons, ih hn.2]
    have ha : (outer v a).1 - v.shiftTet = a.1 := Nat.add_sub_cancel _ _
    rw [ha, List.find?_cons]
    by_cases h : a.1 = j
    · have hnone : L.find? (fun x => decide (x.1 = j)) = none := by
        rw [List.find?_eq_none]
        intro x hx he
        exact hn.1 (List.mem_map.2 ⟨x, hx, by rw [of_decide_eq_true he, h]⟩)
      rw [hnone]
      simp only [h, decide_true]
      cases take (outer v a) <;> simp [assign]
    · have : assign out a.1 (take (outer v a)) j = out j := by
        cases take (outer v a) with
        | none => rfl
        | some w => simp only [assign]; rw [if_neg (fun e => h e.symm)]
      rw [this]
      simp only [h, decide_false]

theorem lists_nodup {n : Nat} {locate : Nat → Loc} {sel : Nat → Nat → Bool} {L : List It} (h : Lists n locate sel L) :
    (L.map Prod.fst).Nodup := by
  have : ∀ L : List It, L.Nodup → (∀ x ∈ L, x.2 = locate x.1) → (L.map Prod.fst).Nodup := by
    intro L hn hs
    refine List.Nodup.map_on ?_ hn
    intro x hx y hy e
    exact Prod.ext e (by rw [hs x hx, hs y hy, e])
  exact this L h.once fun x hx => (h.sound x hx).2.1

theorem lists_length {n : Nat} {locate : Nat → Loc} {sel : Nat → Nat → Bool} {L : List It} (h : Lists n locate sel L) :
    L.length ≤ n := by
  have h1 := lists_nodup h
  have h2 : L.map Prod.fst ⊆ List.range n := by
    intro i hi
    obtain ⟨x, hx, rfl⟩ := List.mem_map.1 hi
    exact List.mem_range.2 (h.sound x hx).1
  have := (List.subperm_of_subset h1 h2).length_le
  simpa using this

theorem gatherDim_eq {K : Type} (n : Nat) (take : It → Option K) (v : View) (hv : GeomOk v.base)
    (hn : v.base.obj.numTet ≤ n) (δ : Nat) (hδ : δ < 4) (out : Nat → K) (j : Nat) :
    gatherDim n take v out δ j =
      if j < v.base.obj.numTet ∧ dimension (v.base.obj.locate j).num = δ then (take (v.locate j)).getD (out j) else out j := by
  obtain ⟨L, h1, h2⟩ := hv δ hδ
  unfold gatherDim viewStart
  rw [visits_view, h1 n (Nat.le_trans (lists_length h2) hn), foldl_assign _ _ _ (lists_nodup h2)]
  have hb := tree_bij v.base
  have hsel : ∀ g, g < v.base.obj.numTet → (Sp.none.setDim δ).has (dimension (v.base.obj.locate g).num)
      (v.base.obj.locate g).nelem = decide (dimension (v.base.obj.locate g).num = δ) := by
    intro g hg
    have hval := hb.valid g hg
    apply setDim_has δ hδ
    refine ⟨by unfold dimension; split <;> omega, ?_⟩
    rw [dimension_eq, count_dimOf _ hval.1]
    exact hval.2.1
  by_cases hj : j < v.base.obj.numTet ∧ dimension (v.base.obj.locate j).num = δ
  · rw [if_pos hj]
    have hin := h2.complete j hj.1 (by rw [hsel j hj.1]; exact decide_eq_true hj.2)
    cases hf : L.find? fun x => decide (x.1 = j) with
    | none =>
      have := List.find?_eq_none.1 hf _ hin
      simp at this
    | some x =>
      have hx := List.mem_of_find?_eq_some hf
      have he : x.1 = j := by simpa using List.find?_some hf
      have hloc := (h2.sound x hx).2.1
      have : outer v x = v.locate j := by
        unfold outer View.locate
        rw [hloc, he]
      simp only [this]
  · rw [if_neg hj]
    cases hf : L.find? fun x => decide (x.1 = j) with
    | none => rfl
    | some x =>
      exfalso
      have hx := List.mem_of_find?_eq_some hf
      have he : x.1 = j := by simpa using List.find?_some hf
      obtain ⟨a, b, d⟩ := h2.sound x hx
      rw [b] at d
      rw [he] at a d
      rw [hsel j a] at d
      exact hj ⟨a, of_decide_eq_true d⟩

theorem gather_eq {K : Type} (n : Nat) (take : It → Option K) (v : View) (hv : GeomOk v.base)
    (hn : v.base.obj.numTet ≤ n) (out : Nat → K) (j : Nat) :
    gather n take v out j = if j < v.base.obj.numTet then (take (v.locate j)).getD (out j) else out j := by
  have h4 : List.range 4 = [0, 1, 2, 3] := rfl
  unfold gather
  rw [h4]
  simp only [List.foldl_cons, List.foldl_nil]
  rw [gatherDim_eq n take v hv hn 3 (by omega), gatherDim_eq n take v hv hn 2 (by omega),
    gatherDim_eq n take v hv hn 1 (by omega), gatherDim_eq n take v hv hn 0 (by omega)]
  by_cases hj : j < v.base.obj.numTet
  · have hd : dimension (v.base.obj.locate j).num = 0 ∨ dimension (v.base.obj.locate j).num = 1 ∨
        dimension (v.base.obj.locate j).num = 2 ∨ dimension (v.base.obj.locate j).num = 3 := by
      unfold dimension; split <;> omega
    rcases hd with h | h | h | h <;> simp [hj, h]
  · simp [hj]

/-- **C75** (one tag): every component `p` of a map is gathered completely and in its own numbering: position `j` gets
the value of the d.o.f. number (shift of the component) + `j` of the map, which the map places where the value is taken;
a position whose value is missing in the tag (`OnlyIfDataAvailable`) and all positions behind the component stay as they
were.  Hypothesis on the component: `GeomOk`, which primitive maps and their powers meet (`geomOk_unite`,
`geomOk_power`).  Missing: other products, where it is false (`product_wrong`). -/
theorem gather_partial {K : Type} (n : Nat) (take : It → Option K) (t : Tree) (p : List Nat) (v : View)
    (h : compView t p = some v) (hv : GeomOk v.base) (hn : t.obj.numTet ≤ n) (out : Nat → K) :
    ∃ r, gatherTag n take t p out = some r ∧ ∀ j,
      r j = if j < v.base.obj.numTet then
          (take (v.shiftTet + j, t.obj.locate (v.shiftTet + j))).getD (out j) else out j := by
  have hs : v.shiftTet + v.base.obj.numTet ≤ t.obj.numTet ∧ ∀ i, i < v.base.obj.numTet →
      v.locate i = (v.shiftTet + i, t.obj.locate (v.shiftTet + i)) := by
    unfold compView at h
    split at h
    · cases h
      refine ⟨by simp [wholeView], fun i _ => ?_⟩
      simp [wholeView, View.locate, Loc.shift]
    · obtain ⟨h1, -, h3⟩ := view_slice t _ v h
      refine ⟨h1, fun i hi => ?_⟩
      obtain ⟨a, b⟩ := h3 i hi
      rw [Prod.ext_iff]
      refine ⟨a, ?_⟩
      rw [← b, a]
  refine ⟨gather n take v out, by simp [gatherTag, h], fun j => ?_⟩
  rw [gather_eq n take v hv (by omega)]
  by_cases hj : j < v.base.obj.numTet
  · rw [if_pos hj, if_pos hj, hs.2 j hj]
  · rw [if_neg hj, if_neg hj]

/-- the values are the numbers of the d.o.f.s -/
def exTake : It → Option Nat := fun x => some x.1

/-- the pressure of `P2^3 × P1`: the last four d.o.f.s of 34, gathered to the positions 0 … 3 -/
example : compView (.complex [.vector 3 (.unite exP2), .unite GeomIter.exP1]) [1] =
      some ⟨fun k => pre ((Tree.objs [.vector 3 (.unite exP2), .unite GeomIter.exP1]).map fun o => o.numDof k) 1, 30, .unite GeomIter.exP1⟩ ∧
    GeomOk (.unite GeomIter.exP1) ∧
    ((gatherTag 40 exTake (.complex [.vector 3 (.unite exP2), .unite GeomIter.exP1]) [1] (fun _ => 99)).map fun r =>
      (List.range 6).map r) = some [30, 31, 32, 33, 99, 99] := by
  refine ⟨?_, geomOk_unite _, by decide +kernel⟩
  simp only [compView, List.map_cons, List.map_nil, nested]
  simp [Tree.objs]
  decide +kernel

theorem gatherDim_list {K : Type} (n : Nat) (take : It → Option K) (v : View) (δ : Nat) (L : List It)
    (h1 : (iter v.base).start true (Sp.none.setDim δ) = L.head?)
    (h2 : Steps ((iter v.base).next true (Sp.none.setDim δ)) L none) (h3 : (L.map Prod.fst).Nodup) (hn : L.length ≤ n)
    (out : Nat → K) (j : Nat) (hj : L.find? (fun x => decide (x.1 = j)) = none) :
    gatherDim n take v out δ j = out j := by
  unfold gatherDim viewStart
  rw [visits_view, h1, steps_visits _ _ h2 n hn, foldl_assign _ _ _ h3, hj]

/-- edges with one unoriented and one oriented d.o.f., as a product -/
def exMixed : Tree := .complex [.unite ⟨0, 1, 0, 0, 0, 0⟩, .unite ⟨0, 0, 1, 0, 0, 0⟩]

/-- **C75 fails for products which mix the two kinds of edge d.o.f.s**: of the product of a space with one unoriented and
a space with one oriented d.o.f. on every edge (12 d.o.f.s) the second half is never gathered, whatever the values are. -/
theorem product_wrong {K : Type} (n : Nat) (hn : 12 ≤ n) (take : It → Option K) (out : Nat → K) :
    exMixed.obj.numTet = 12 ∧ ∃ r, gatherTag n take exMixed [] out = some r ∧ ∀ j, 6 ≤ j → r j = out j := by
  refine ⟨by decide +kernel, _, rfl, fun j hj => ?_⟩
  have h4 : List.range 4 = [0, 1, 2, 3] := rfl
  unfold gather
  rw [h4]
  simp only [List.foldl_cons, List.foldl_nil]
  have hb : (wholeView exMixed).base = exMixed := rfl
  rw [gatherDim_list n take _ 3 [] (by rw [hb]; decide +kernel) trivial (by simp) (by simp) _ j rfl,
    gatherDim_list n take _ 2 [] (by rw [hb]; decide +kernel) trivial (by simp) (by simp) _ j rfl,
    gatherDim_list n take _ 1 ((List.range 6).map fun i => (i, ⟨1, i, 0⟩)) (by rw [hb]; decide +kernel) ?_
      (by decide +kernel) (by simp; omega) _ j ?_,
    gatherDim_list n take _ 0 [] (by rw [hb]; decide +kernel) trivial (by simp) (by simp) _ j rfl]
  · rw [hb]
    refine ⟨?_, ?_, ?_, ?_, ?_, ?_, trivial⟩ <;> decide +kernel
  · rw [List.find?_eq_none]
    intro x hx
    obtain ⟨i, hi, rfl⟩ := List.mem_map.1 hx
    have := List.mem_range.1 hi
    simp
    omega

/-! ### one tag per variable -/

theorem writeAt_eq {K : Type} (n : Nat) (take : It → Option K) (t : Tree) (p : List Nat) (v : View)
    (h : compView t p = some v) (hv : GeomOk v.base) (hn : t.obj.numTet ≤ n) (sh : Nat) (out : Nat → K) :
    ∃ r, writeAt sh (gatherTag n take t p) out = some r ∧ ∀ j,
      r j = if sh ≤ j ∧ j < sh + v.base.obj.numTet then
        (take (v.shiftTet + (j - sh), t.obj.locate (v.shiftTet + (j - sh)))).getD (out j) else out j := by
  obtain ⟨r, h1, h2⟩ := gather_partial n take t p v h hv hn fun j => out (sh + j)
  refine ⟨fun j => if j < sh then out j else r (j - sh), by unfold writeAt; rw [h1]; rfl, fun j => ?_⟩
  beta_reduce
  by_cases hj : j < sh
  · rw [if_pos hj, if_neg (by omega)]
  · rw [if_neg hj, h2, show sh + (j - sh) = j by omega]
    by_cases hj' : j - sh < v.base.obj.numTet
    · rw [if_pos hj', if_pos (by omega)]
    · rw [if_neg hj', if_neg (by omega)]

theorem compView_order (t : Tree) (u v : Nat) (huv : u < v) (w w' : View) (hw : compView t [u] = some w)
    (hw' : compView t [v] = some w') : w.shiftTet + w.base.obj.numTet ≤ w'.shiftTet := by
  cases t with
  | unite c => simp [compView, nested] at hw
  | vector d b =>
    have hu : u < d := by
      apply Decidable.byContradiction
      intro h
      simp [compView, nested, show d ≤ u by omega] at hw
    have hv : v < d := by
      apply Decidable.byContradiction
      intro h
      simp [compView, nested, show d ≤ v by omega] at hw'
    simp [compView, nested, show ¬ d ≤ u by omega] at hw
    simp [compView, nested, show ¬ d ≤ v by omega] at hw'
    subst hw; subst hw'
    simp only
    have := Nat.mul_le_mul_right b.obj.numTet (show u + 1 ≤ v from huv)
    rw [Nat.succ_mul] at this
    omega
  | complex l =>
    have hu : u < l.length := by
      apply Decidable.byContradiction
      intro h
      simp [compView, nested, show l.length ≤ u by omega] at hw
    have hv : v < l.length := by
      apply Decidable.byContradiction
      intro h
      simp [compView, nested, show l.length ≤ v by omega] at hw'
    simp [compView, nested, show ¬ l.length ≤ u by omega, hu] at hw
    simp [compView, nested, show ¬ l.length ≤ v by omega, hv] at hw'
    subst hw; subst hw'
    simp only
    have hlen : (Tree.objs l).length = l.length := by rw [← iters_obj, List.length_map, iters_eq, List.length_map]
    have hobj : ∀ k (hk : k < l.length), (Tree.objs l)[k]'(by omega) = (l[k]).obj := by
      intro k hk
      have h1 : (Tree.objs l)[k]? = some (l[k]).obj := by
        rw [← iters_obj, iters_eq]
        simp [hk, iter_obj]
      have h2 : (Tree.objs l)[k]? = some ((Tree.objs l)[k]'(by omega)) := List.getElem?_eq_getElem (by omega)
      rw [h2] at h1
      exact Option.some.inj h1
    have h2 := pre_succ ((Tree.objs l).map (·.numTet)) u (by simp; omega)
    simp only [List.getElem_map, hobj u hu] at h2
    have h3 := pre_mono ((Tree.objs l).map (·.numTet)) (j := u + 1) (k := v) huv
    omega

theorem gatherFrom_eq {K : Type} (n : Nat) (take : Nat → It → Option K) (t : Tree) (k v : Nat) (out : Nat → K)
    (hv : ∀ u, v ≤ u → u < v + k → ∃ w, compView t [u] = some w ∧ GeomOk w.base ∧ w.base.obj.numTet ≤ n) :
    ∃ r, gatherFrom n take t [] k v out = some r ∧
      (∀ u, v ≤ u → u < v + k → ∀ w, compView t [u] = some w → ∀ i, i < w.base.obj.numTet →
        r (w.shiftTet + i) = (take u (i, w.base.obj.locate i)).getD (out (w.shiftTet + i))) ∧
      ∀ j, (∀ u, v ≤ u → u < v + k → ∀ w, compView t [u] = some w → ¬ (w.shiftTet ≤ j ∧ j < w.shiftTet + w.base.obj.numTet)) →
        r j = out j := by
  induction k generalizing v out with
  | zero => exact ⟨out, rfl, fun u h1 h2 => by omega, fun _ _ => rfl⟩
  | succ k ih =>
    obtain ⟨w, hw, hg, hn⟩ := hv v (Nat.le_refl _) (by omega)
    obtain ⟨r1, h1, h2⟩ := writeAt_eq n (take v) w.base [] (wholeView w.base) rfl hg hn w.shiftTet out
    obtain ⟨r, h3, h4, h5⟩ := ih (v + 1) r1 fun u a b => hv u (by omega) (by omega)
    have hkeep : ∀ u, v + 1 ≤ u → ∀ w', compView t [u] = some w' → ∀ j, w'.shiftTet ≤ j → r1 j = out j := by
      intro u hu w' hw' j hj
      have := compView_order t v u (by omega) w w' hw hw'
      rw [h2 j, if_neg]
      show ¬ (w.shiftTet ≤ j ∧ j < w.shiftTet + w.base.obj.numTet)
      omega
    refine ⟨r, by simp only [gatherFrom, hw, h1]; exact h3, ?_, ?_⟩
    · intro u hu1 hu2 w' hw' i hi
      by_cases huv : u = v
      · subst huv
        rw [hw] at hw'
        cases hw'
        rw [h5 (w.shiftTet + i)]
        · rw [h2 (w.shiftTet + i)]
          have hb : (wholeView w.base).base = w.base := rfl
          have hs : (wholeView w.base).shiftTet = 0 := rfl
          rw [hb, hs, if_pos (by omega), Nat.zero_add, Nat.add_sub_cancel_left]
        · intro u' ha _ w' hw'
          have := compView_order t u u' (by omega) w w' hw hw'
          omega
      · rw [h4 u (by omega) (by omega) w' hw' i hi, hkeep u (by omega) w' hw' _ (by omega)]
    · intro j hj
      rw [h5 j fun u a b => hj u (by omega) (by omega), h2 j, if_neg]
      exact hj v (Nat.le_refl _) (by omega) w hw

/-- **C75** (one tag per variable): gathering all variables of a map puts, for every variable `u`, the value which the tag
of `u` has for the `i`-th d.o.f. of the variable at (shift of the variable) + `i`; positions outside of the variables stay
as they were.  Hypothesis: every variable is `GeomOk`. -/
theorem vars_partial {K : Type} (n ntags : Nat) (take : Nat → It → Option K) (t : Tree) (out : Nat → K)
    (ht : nestedDim t ≤ ntags)
    (hv : ∀ u, u < nestedDim t → ∃ w, compView t [u] = some w ∧ GeomOk w.base ∧ w.base.obj.numTet ≤ n) :
    ∃ r, gatherVars n ntags take t [] out = some r ∧
      (∀ u, u < nestedDim t → ∀ w, compView t [u] = some w → ∀ i, i < w.base.obj.numTet →
        r (w.shiftTet + i) = (take u (i, w.base.obj.locate i)).getD (out (w.shiftTet + i))) ∧
      ∀ j, (∀ u, u < nestedDim t → ∀ w, compView t [u] = some w →
        ¬ (w.shiftTet ≤ j ∧ j < w.shiftTet + w.base.obj.numTet)) → r j = out j := by
  obtain ⟨r, h1, h2, h3⟩ := gatherFrom_eq n take t (nestedDim t) 0 out fun u _ h => hv u (by omega)
  refine ⟨r, ?_, fun u hu => h2 u (Nat.zero_le _) (by omega), fun j hj => h3 j fun u _ h => hj u (by omega)⟩
  simp only [gatherVars]
  rw [if_neg (by omega)]
  exact h1

/-- velocity and pressure with two tags: the value of d.o.f. `i` of variable `u` is `100 u + i` -/
example : ((gatherVars 40 2 (fun u x => some (100 * u + x.1)) (.complex [.vector 3 (.unite exP2), .unite GeomIter.exP1]) []
      (fun _ => 999)).map fun r => [r 0, r 29, r 30, r 33, r 34]) = some [0, 29, 100, 103, 999] ∧
    (∀ u, u < 2 → ∃ w, compView (.complex [.vector 3 (.unite exP2), .unite GeomIter.exP1]) [u] = some w ∧ GeomOk w.base ∧
      w.base.obj.numTet ≤ 40) := by
  refine ⟨by decide +kernel, fun u hu => ?_⟩
  have : u = 0 ∨ u = 1 := by omega
  rcases this with rfl | rfl
  · exact ⟨_, rfl, geomOk_power 3 exP2, by decide +kernel⟩
  · exact ⟨_, rfl, geomOk_unite GeomIter.exP1, by decide +kernel⟩

theorem compView_vector (d : Nat) (b : Tree) (u : Nat) (hu : u < d) :
    ∃ w, compView (.vector d b) [u] = some w ∧ w.base = b ∧ w.shiftTet = u * b.obj.numTet := by
  simp [compView, nested, show ¬ d ≤ u by omega]

theorem compView_complex (l : List Tree) (u : Nat) (hu : u < l.length) :
    ∃ w, compView (.complex l) [u] = some w ∧ w.base = l[u] ∧ w.shiftTet = ((l.take u).map fun t => t.obj.numTet).sum := by
  have e : (Tree.objs l) = l.map Tree.obj := by
    rw [← iters_obj, iters_eq, List.map_map]
    exact List.map_congr_left fun t _ => iter_obj t
  simp [compView, nested, show ¬ l.length ≤ u by omega, hu, e, pre, List.map_take, Function.comp_def]

/-- **C75** (one tag per component of a power): the tag number `u` gives the values of the component `u`, for all `d`
components; nothing behind the last component is written. -/
theorem vars_power {K : Type} (n ntags d : Nat) (take : Nat → It → Option K) (b : Tree) (out : Nat → K)
    (ht : d ≤ ntags) (hb : GeomOk b) (hn : b.obj.numTet ≤ n) :
    ∃ r, gatherVars n ntags take (.vector d b) [] out = some r ∧
      (∀ u, u < d → ∀ i, i < b.obj.numTet →
        r (u * b.obj.numTet + i) = (take u (i, b.obj.locate i)).getD (out (u * b.obj.numTet + i))) ∧
      ∀ j, d * b.obj.numTet ≤ j → r j = out j := by
  obtain ⟨r, h1, h2, h3⟩ := vars_partial n ntags take (.vector d b) out ht fun u hu => by
    obtain ⟨w, hw, hb', -⟩ := compView_vector d b u hu
    exact ⟨w, hw, by rw [hb']; exact hb, by rw [hb']; exact hn⟩
  refine ⟨r, h1, fun u hu i hi => ?_, fun j hj => h3 j fun u hu w hw => ?_⟩
  · obtain ⟨w, hw, hb', hs⟩ := compView_vector d b u hu
    have := h2 u hu w hw i (by rw [hb']; exact hi)
    rw [hb', hs] at this
    exact this
  · obtain ⟨w', hw', hb', hs⟩ := compView_vector d b u hu
    rw [hw] at hw'
    cases hw'
    rw [hb', hs]
    have := Nat.mul_le_mul_right b.obj.numTet (show u + 1 ≤ d from hu)
    rw [Nat.succ_mul] at this
    omega

/-- three components of `P2` with three tags: the value of d.o.f. `i` of component `u` is `100 u + i` -/
example : GeomOk (.unite exP2) ∧ ((gatherVars 40 3 (fun u x => some (100 * u + x.1)) (.vector 3 (.unite exP2)) []
    (fun _ => 999)).map fun r => [r 0, r 9, r 10, r 29, r 30]) = some [0, 9, 100, 209, 999] :=
  ⟨geomOk_unite _, by decide +kernel⟩

/-- **C75** (one tag per factor of a product): the tag number `u` gives the values of the factor `u`, for all factors;
nothing behind the last factor is written. -/
theorem vars_product {K : Type} (n ntags : Nat) (take : Nat → It → Option K) (l : List Tree) (out : Nat → K)
    (ht : l.length ≤ ntags) (hb : ∀ t ∈ l, GeomOk t ∧ t.obj.numTet ≤ n) :
    ∃ r, gatherVars n ntags take (.complex l) [] out = some r ∧
      (∀ u (hu : u < l.length), ∀ i, i < l[u].obj.numTet →
        r (((l.take u).map fun t => t.obj.numTet).sum + i) =
          (take u (i, l[u].obj.locate i)).getD (out (((l.take u).map fun t => t.obj.numTet).sum + i))) ∧
      ∀ j, (l.map fun t => t.obj.numTet).sum ≤ j → r j = out j := by
  obtain ⟨r, h1, h2, h3⟩ := vars_partial n ntags take (.complex l) out ht fun u hu => by
    have hu : u < l.length := hu
    obtain ⟨w, hw, hb', -⟩ := compView_complex l u hu
    exact ⟨w, hw, by rw [hb']; exact (hb _ (List.getElem_mem hu)).1, by rw [hb']; exact (hb _ (List.getElem_mem hu)).2⟩
  refine ⟨r, h1, fun u hu i hi => ?_, fun j hj => h3 j fun u hu w hw => ?_⟩
  · obtain ⟨w, hw, hb', hs⟩ := compView_complex l u hu
    have := h2 u hu w hw i (by rw [hb']; exact hi)
    rw [hb', hs] at this
    exact this
  · have hu : u < l.length := hu
    obtain ⟨w', hw', hb', hs⟩ := compView_complex l u hu
    rw [hw] at hw'
    cases hw'
    rw [hb', hs]
    have e : (l.map fun t => t.obj.numTet).sum =
        ((l.take u).map fun t => t.obj.numTet).sum + (l[u].obj.numTet + ((l.drop (u + 1)).map fun t => t.obj.numTet).sum) := by
      conv_lhs => rw [← List.take_append_drop u l, List.drop_eq_getElem_cons hu]
      rw [List.map_append, List.sum_append, List.map_cons, List.sum_cons]
    omega

/-- velocity and pressure -/
example : (∀ t ∈ [Tree.vector 3 (.unite exP2), .unite GeomIter.exP1], GeomOk t ∧ t.obj.numTet ≤ 40) := by
  intro t ht
  simp only [List.mem_cons, List.not_mem_nil, or_false] at ht
  rcases ht with rfl | rfl
  · exact ⟨geomOk_power 3 exP2, by decide +kernel⟩
  · exact ⟨geomOk_unite _, by decide +kernel⟩

/-- **C75, where a component is put**: asked for the component `k :: p` the version with one tag per variable writes behind
the shift of variable `k`, while the version with one tag writes from the beginning of the container
(`gather_partial`).  A container of the size of the component is left as it was, up to the shift. -/
theorem component_place_wrong {K : Type} (n ntags : Nat) (take : Nat → It → Option K) (t : Tree) (k : Nat) (p : List Nat)
    (w v : View) (hk : k < ntags) (hw : compView t [k] = some w) (hv : compView w.base p = some v) (hg : GeomOk v.base)
    (hn : w.base.obj.numTet ≤ n) (out : Nat → K) :
    ∃ r, gatherVars n ntags take t (k :: p) out = some r ∧
      (∀ j, j < w.shiftTet → r j = out j) ∧
      ∀ i, i < v.base.obj.numTet → r (w.shiftTet + i) =
        (take k (v.shiftTet + i, w.base.obj.locate (v.shiftTet + i))).getD (out (w.shiftTet + i)) := by
  obtain ⟨r, h1, h2⟩ := writeAt_eq n (take k) w.base p v hv hg hn w.shiftTet out
  refine ⟨r, ?_, fun j hj => ?_, fun i hi => ?_⟩
  · simp only [gatherVars]
    rw [if_neg (by omega)]
    simp only [gatherFrom, hw, h1]
  · rw [h2 j, if_neg (by omega)]
  · rw [h2 (w.shiftTet + i), if_pos (by omega), Nat.add_sub_cancel_left]

/-- the pressure of `P2^3 × P1`: with one tag to 0 … 3, with two tags to 30 … 33 -/
example :
    ((gatherTag 40 (fun x => some (x.1 + 100)) (.complex [.vector 3 (.unite exP2), .unite GeomIter.exP1]) [1] (fun _ => 0)).map fun r =>
      [r 0, r 3, r 30, r 33]) = some [130, 133, 0, 0] ∧
    ((gatherVars 40 2 (fun _ x => some (x.1 + 130)) (.complex [.vector 3 (.unite exP2), .unite GeomIter.exP1]) [1] (fun _ => 0)).map fun r =>
      [r 0, r 3, r 30, r 33]) = some [0, 0, 130, 133] := by
  constructor <;> decide +kernel

/-- **C75 fails for a single variable given by an array of one tag**: a primitive map has `NestedDim() = 0`, so nothing is
gathered and no error is raised. -/
theorem single_tag_array_wrong {K : Type} (n ntags : Nat) (take : Nat → It → Option K) (c : Counts) (out : Nat → K) :
    gatherVars n ntags take (.unite c) [] out = some out := by
  simp [gatherVars, nestedDim, gatherFrom]

/-- a component of a variable without a tag is refused -/
theorem tag_of_component_checked {K : Type} (n ntags : Nat) (take : Nat → It → Option K) (t : Tree) (k : Nat) (p : List Nat)
    (out : Nat → K) (h : ntags ≤ k) : gatherVars n ntags take t (k :: p) out = none := by
  simp only [gatherVars]
  rw [if_pos (by omega)]

/-- component 0 of the third variable with two tags -/
example : gatherVars 40 2 (fun u x => some (100 * u + x.1)) (.complex [.unite exP2, .unite exP2, .vector 3 (.unite exP2)]) [2, 0]
    (fun _ => 999) = none := tag_of_component_checked _ _ _ _ _ _ _ (Nat.le_refl 2)

/-- too few tags are refused -/
theorem tags_checked {K : Type} (n ntags : Nat) (take : Nat → It → Option K) (t : Tree) (out : Nat → K)
    (h : ntags < nestedDim t) : gatherVars n ntags take t [] out = none := by
  simp [gatherVars, h]

example : nestedDim (.complex [.vector 3 (.unite exP2), .unite GeomIter.exP1]) = 2 := rfl

end Verif.Gather
