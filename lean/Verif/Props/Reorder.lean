import Verif.Lemmas.Reorder4

/-!
**C69**: a mesh function stored on edges, faces and cells stays the same function when the node enumeration is exchanged
(`reorder_mesh_function_data`), and the values gathered on a cell stay the same.
-/
namespace Verif.Reorder
open Verif.Symmetry Verif.Ordering

/-- **C69** (unoriented values): the array of an element is read under the new enumeration as the same function of the group,
the copy and the letters at the nodes as it was under the old one; this holds for each entry of the blocks. -/
theorem reorder_represents {N K : Type} [DecidableEq N] (old new : N → Int) (mu mo : Nat → List Nat) (bs : Nat) (sh : Nat → Nat)
    (compressed : Bool) (e : Item N K) (h : Regular old new mu mo bs sh e) :
    ∃ e', reorderItem old new mu mo bs sh compressed e = some e' ∧ e'.nodes = e.nodes ∧ e'.size = e.size ∧
      ∀ b, b < bs → ∀ F, Represents old e.nodes (mu (e.nodes.length - 1)) (part bs (sh (e.nodes.length - 1)) 0 b e.data) F →
        Represents new e.nodes (mu (e.nodes.length - 1)) (part bs (sh (e.nodes.length - 1)) 0 b e'.data) F := by
  obtain ⟨f, h1, h2, _, _⟩ := item_spec old new mu mo bs sh compressed e h
  exact ⟨_, h1, rfl, rfl, h2⟩

/-- **C69** (frame): the entries of the array before and behind the values of the element are kept. -/
theorem reorder_frame {N K : Type} [DecidableEq N] (old new : N → Int) (mu mo : Nat → List Nat) (bs : Nat) (sh : Nat → Nat)
    (compressed : Bool) (e e' : Item N K) (h : Regular old new mu mo bs sh e)
    (he : reorderItem old new mu mo bs sh compressed e = some e') (q : Nat)
    (hq : q < sh (e.nodes.length - 1) ∨ sh (e.nodes.length - 1) + bs * (total (e.nodes.length - 1) (mu (e.nodes.length - 1)) +
      total (e.nodes.length - 1) (mo (e.nodes.length - 1))) ≤ q) : e'.data q = e.data q := by
  obtain ⟨f, h1, _, _, h4⟩ := item_spec old new mu mo bs sh compressed e h
  rw [h1] at he
  cases he
  exact h4 q hq

/-- **C69** (compressed arrays): if it is allowed, an array with one block is left as it is. -/
theorem reorder_compressed {N K : Type} (old new : N → Int) (mu mo : Nat → List Nat) (bs : Nat) (sh : Nat → Nat)
    (e : Item N K) (h2 : 2 ≤ e.nodes.length) (h4 : e.nodes.length ≤ 4) (hnd : e.nodes.Nodup) (ho : Numbered old e.nodes)
    (hn : Numbered new e.nodes) (hs : e.size < sh (e.nodes.length - 1) + 2 * bs) :
    reorderItem old new mu mo bs sh true e = some e := by
  obtain ⟨c, hc, _⟩ := canonical_spec old new e.nodes h2 h4 hnd ho hn
  unfold reorderItem
  simp only [hc, Option.bind_some, true_and, if_pos hs, ite_self]

/-- **C69** (gathering): the unoriented value which is gathered on a cell for a local d.o.f. of one of its elements is the value
of the stored function at the letters which the word of the local d.o.f. puts on the vertices of the element: the result does not
depend on the numbers of the nodes nor on the order of the nodes in the mesh database. -/
theorem takeDof_represents {N K : Type} [DecidableEq N] (g : N → Int) (cell : Fin 4 → N)
    (hg : Function.Injective fun k => g (cell k)) (d e : Nat) (hd : d < 4) (he : e < elements d) (nodes : List N)
    (hp : nodes.Perm (subNodes cell d e)) (ms : List Nat) (hms : ms.length = groups d) (data : Nat → K)
    (F : Nat → Nat → (N → Option Nat) → K) (hF : Represents g nodes ms data F) (s c a : Nat) (hv : Valid d ms s c a) :
    takeDof g cell d e ms data (place d ms s c a) = some (F s c (listed (subNodes cell d e) ((words d s).getD a []))) := by
  obtain ⟨p, b, h1, h2, h3, h4⟩ := take_spec g cell hg d e hd he nodes hp ms hms s c a hv
  have hl : nodes.length - 1 = d := by
    rw [hp.length_eq, subNodes, List.length_map, (vertices_lt d hd e he).2.2]; omega
  unfold takeDof
  rw [h1, Option.bind_some, h3, Option.map_some]
  have := hF s c b (by rw [hl]; exact h2)
  rw [hl] at this
  rw [this, h4]

/-- **C69** (the same values): on every cell, for every one of its elements and every unoriented value, what is gathered after the
reordering by the new enumeration is what was gathered before by the old one. -/
theorem takeDof_kept {N K : Type} [DecidableEq N] (old new : N → Int) (mu mo : Nat → List Nat) (bs : Nat) (sh : Nat → Nat)
    (compressed : Bool) (it it' : Item N K) (h : Regular old new mu mo bs sh it)
    (hit : reorderItem old new mu mo bs sh compressed it = some it') (cell : Fin 4 → N)
    (ho : Function.Injective fun k => old (cell k)) (hn : Function.Injective fun k => new (cell k))
    (d e : Nat) (hd : d < 4) (he : e < elements d) (hp : it.nodes.Perm (subNodes cell d e)) (b : Nat) (hb : b < bs)
    (i : Nat) (hi : i < total d (mu d)) :
    ∃ v, takeDof old cell d e (mu d) (part bs (sh d) 0 b it.data) i = some v ∧
      takeDof new cell d e (mu d) (part bs (sh d) 0 b it'.data) i = some v := by
  have hl : it.nodes.length - 1 = d := by
    rw [hp.length_eq, subNodes, List.length_map, (vertices_lt d hd e he).2.2]; omega
  obtain ⟨f, h1, h2, _, _⟩ := item_spec old new mu mo bs sh compressed it h
  rw [h1] at hit
  cases hit
  have hmu := h.groupsU
  rw [hl] at h2 hmu
  obtain ⟨F, hF⟩ := represents_exists old it.nodes h.low h.high h.nodup h.numOld (mu d) (part bs (sh d) 0 b it.data)
  obtain ⟨s, c, a, hv, rfl⟩ := exists_place d hd (mu d) hmu i hi
  exact ⟨_, takeDof_represents old cell ho d e hd he it.nodes hp (mu d) hmu _ F hF s c a hv,
    takeDof_represents new cell hn d e hd he it.nodes hp (mu d) hmu _ F (h2 b hb F hF) s c a hv⟩

/-- **C69** (back again): reordering from the old to the new enumeration and back restores the whole array. -/
theorem reorder_back {N K : Type} [DecidableEq N] (old new : N → Int) (mu mo : Nat → List Nat) (bs : Nat) (sh : Nat → Nat)
    (compressed : Bool) (e : Item N K) (h : Regular old new mu mo bs sh e) :
    ∃ e', reorderItem old new mu mo bs sh compressed e = some e' ∧
      reorderItem new old mu mo bs sh compressed e' = some e := by
  obtain ⟨f, h1, h2, h3, h4⟩ := item_spec old new mu mo bs sh compressed e h
  refine ⟨_, h1, ?_⟩
  have h' : Regular new old mu mo bs sh { e with data := f } :=
    ⟨h.low, h.high, h.nodup, h.numNew, h.numOld, h.groupsU, h.groupsO, h.full⟩
  obtain ⟨f', h1', h2', h3', h4'⟩ := item_spec new old mu mo bs sh compressed { e with data := f } h'
  rw [h1']
  dsimp only at *
  have hd : e.nodes.length - 1 < 4 := by have := h.high; omega
  have : f' = e.data := by
    funext q
    by_cases hq : q < sh (e.nodes.length - 1) ∨ sh (e.nodes.length - 1) + bs * (total (e.nodes.length - 1)
        (mu (e.nodes.length - 1)) + total (e.nodes.length - 1) (mo (e.nodes.length - 1))) ≤ q
    · rw [h4' q hq, h4 q hq]
    · have hbs : 0 < bs := by
        rcases Nat.eq_zero_or_pos bs with hz | hz
        · rw [hz] at hq; omega
        · exact hz
      have hlt : (q - sh (e.nodes.length - 1)) / bs < total (e.nodes.length - 1) (mu (e.nodes.length - 1)) +
          total (e.nodes.length - 1) (mo (e.nodes.length - 1)) := Nat.div_lt_of_lt_mul (by omega)
      have hm := Nat.mod_lt (q - sh (e.nodes.length - 1)) hbs
      have hq' : q = sh (e.nodes.length - 1) + bs * ((q - sh (e.nodes.length - 1)) / bs) + (q - sh (e.nodes.length - 1)) % bs := by
        have := Nat.div_add_mod (q - sh (e.nodes.length - 1)) bs
        omega
      generalize (q - sh (e.nodes.length - 1)) / bs = i at *
      generalize (q - sh (e.nodes.length - 1)) % bs = b at *
      by_cases hi : i < total (e.nodes.length - 1) (mu (e.nodes.length - 1))
      · obtain ⟨s, c, a, hv, rfl⟩ := exists_place _ hd _ h.groupsU i hi
        obtain ⟨F, hF⟩ := represents_exists old e.nodes h.low h.high h.nodup h.numOld (mu (e.nodes.length - 1))
          (part bs (sh (e.nodes.length - 1)) 0 b e.data)
        have k := h2' b hm F (h2 b hm F hF) s c a hv
        rw [← hF s c a hv] at k
        unfold part at k
        rw [Nat.zero_add, ← hq'] at k
        exact k
      · obtain ⟨s, c, a, hv, hpl⟩ := exists_place _ hd _ h.groupsO (i - total (e.nodes.length - 1) (mu (e.nodes.length - 1)))
          (by omega)
        obtain ⟨F, hF⟩ := represents_exists old e.nodes h.low h.high h.nodup h.numOld (mo (e.nodes.length - 1))
          (part bs (sh (e.nodes.length - 1)) (total (e.nodes.length - 1) (mu (e.nodes.length - 1))) b e.data)
        have k := h3' b hm F (h3 b hm F hF) s c a hv
        rw [← hF s c a hv] at k
        unfold part at k
        rw [← hpl, Nat.add_sub_cancel' (by omega), ← hq'] at k
        exact k
  rw [this]

/-- **C69** (whole mesh): the reordering of all elements succeeds and every array represents the same function. -/
theorem mesh_represents {N K : Type} [DecidableEq N] (old new : N → Int) (mu mo : Nat → List Nat) (bs : Nat) (sh : Nat → Nat)
    (compressed : Bool) (es : List (Item N K)) (h : ∀ e ∈ es, Regular old new mu mo bs sh e) :
    ∃ es', reorderMesh old new mu mo bs sh compressed es = some es' ∧ es'.length = es.length ∧
      ∀ (k : Nat) (e e' : Item N K), es[k]? = some e → es'[k]? = some e' → e'.nodes = e.nodes ∧
        ∀ b, b < bs → ∀ F, Represents old e.nodes (mu (e.nodes.length - 1)) (part bs (sh (e.nodes.length - 1)) 0 b e.data) F →
          Represents new e.nodes (mu (e.nodes.length - 1)) (part bs (sh (e.nodes.length - 1)) 0 b e'.data) F := by
  unfold reorderMesh
  induction es with
  | nil => exact ⟨[], rfl, rfl, by simp⟩
  | cons e es ih =>
    obtain ⟨es', i1, i2, i3⟩ := ih fun x hx => h x (by simp [hx])
    obtain ⟨e', j1, j2, _, j4⟩ := reorder_represents old new mu mo bs sh compressed e (h e (by simp))
    refine ⟨e' :: es', ?_, by simp [i2], ?_⟩
    · rw [List.mapM_cons, j1, i1]; rfl
    · intro k x x' hx hx'
      cases k with
      | zero =>
        simp at hx hx'
        subst hx hx'
        exact ⟨j2, j4⟩
      | succ k => exact i3 k x x' (by simpa using hx) (by simpa using hx')

/-- the oriented values are moved like the others, without a change of the sign -/
theorem oriented_moved {N K : Type} [DecidableEq N] (old new : N → Int) (mu mo : Nat → List Nat) (bs : Nat) (sh : Nat → Nat)
    (compressed : Bool) (e e' : Item N K) (h : Regular old new mu mo bs sh e)
    (he : reorderItem old new mu mo bs sh compressed e = some e') (b : Nat) (hb : b < bs) (F : Nat → Nat → (N → Option Nat) → K)
    (hF : Represents old e.nodes (mo (e.nodes.length - 1))
      (part bs (sh (e.nodes.length - 1)) (total (e.nodes.length - 1) (mu (e.nodes.length - 1))) b e.data) F) :
    Represents new e.nodes (mo (e.nodes.length - 1))
      (part bs (sh (e.nodes.length - 1)) (total (e.nodes.length - 1) (mu (e.nodes.length - 1))) b e'.data) F := by
  obtain ⟨f, h1, _, h3, _⟩ := item_spec old new mu mo bs sh compressed e h
  rw [h1] at he
  cases he
  exact h3 b hb F hF

/-- **C69** (oriented values): the oriented values are moved to the right places and keep their signs; so they are right if the
orientation of the element is the same for both enumerations.  Missing: elements whose orientation is turned. -/
theorem oriented_partial {N K : Type} [DecidableEq N] [Neg K] (old new : N → Int) (mu mo : Nat → List Nat) (bs : Nat)
    (sh : Nat → Nat) (compressed : Bool) (e e' : Item N K) (h : Regular old new mu mo bs sh e)
    (he : reorderItem old new mu mo bs sh compressed e = some e') (ht : ¬ Turned old new e.nodes) (b : Nat) (hb : b < bs)
    (F : Nat → Nat → (N → Option Nat) → K) (hF : Represents old e.nodes (mo (e.nodes.length - 1))
      (part bs (sh (e.nodes.length - 1)) (total (e.nodes.length - 1) (mu (e.nodes.length - 1))) b e.data) F) :
    Represents new e.nodes (mo (e.nodes.length - 1))
      (part bs (sh (e.nodes.length - 1)) (total (e.nodes.length - 1) (mu (e.nodes.length - 1))) b e'.data)
      (turnedFn old new e.nodes F) := by
  have : turnedFn old new e.nodes F = F := by
    funext s c w
    exact if_neg ht
  rw [this]
  exact oriented_moved old new mu mo bs sh compressed e e' h he b hb F hF

/-- **C69** (oriented values, wrong): if the new enumeration turns the orientation of an element, its oriented values have to be
negated.  They never are: as soon as one of them differs from its negative, the array does not represent the negated function. -/
theorem oriented_wrong {N K : Type} [DecidableEq N] [Neg K] (old new : N → Int) (mu mo : Nat → List Nat) (bs : Nat)
    (sh : Nat → Nat) (compressed : Bool) (e e' : Item N K) (h : Regular old new mu mo bs sh e)
    (he : reorderItem old new mu mo bs sh compressed e = some e') (ht : Turned old new e.nodes) (b : Nat) (hb : b < bs)
    (F : Nat → Nat → (N → Option Nat) → K) (hF : Represents old e.nodes (mo (e.nodes.length - 1))
      (part bs (sh (e.nodes.length - 1)) (total (e.nodes.length - 1) (mu (e.nodes.length - 1))) b e.data) F)
    (s c a : Nat) (hv : Valid (e.nodes.length - 1) (mo (e.nodes.length - 1)) s c a)
    (hne : F s c (letters new e.nodes ((words (e.nodes.length - 1) s).getD a [])) ≠
      - F s c (letters new e.nodes ((words (e.nodes.length - 1) s).getD a []))) :
    ¬ Represents new e.nodes (mo (e.nodes.length - 1))
      (part bs (sh (e.nodes.length - 1)) (total (e.nodes.length - 1) (mu (e.nodes.length - 1))) b e'.data)
      (turnedFn old new e.nodes F) := by
  intro hneg
  have hpos := oriented_moved old new mu mo bs sh compressed e e' h he b hb F hF
  have := hneg s c a hv
  rw [turnedFn, if_pos ht] at this
  exact hne ((hpos s c a hv).symm.trans this)

/-- **C69** (signs on edges): the sign computed for an oriented value of an edge is right (it is not used). -/
theorem edge_sign {N : Type} [DecidableEq N] (old new : N → Int) (x y : N) (hxy : x ≠ y) (ho : Numbered old [x, y])
    (hn : Numbered new [x, y]) (canon : List Nat) (hc : canonical old new [x, y] = some canon) (ms : List Nat) (i : Nat)
    (r : Bool × Nat) (hr : locusOn 1 true ms canon i = some r) : r.1 = false ↔ Turned old new [x, y] := by
  obtain ⟨c, h1, h2, h3, h4, _⟩ := canonical_closed old new [x, y] (by simp) (by simp) (by simp [hxy]) ho hn
  rw [hc] at h1
  cases h1
  obtain ⟨_, _, f3⟩ := fill_table canon (mem_perms h2) 1 (by decide) h4
  have hsign : r.1 = isPositive .edge 0 (fillUp 1 canon) := by
    unfold locusOn at hr
    obtain ⟨j, _, rfl⟩ := Option.map_eq_some_iff.mp hr
    rfl
  have g0 : Symmetry.at' (fillUp 1 canon) 0 = canon.getD 0 4 := (f3 0 (by decide)).1
  have g1 : Symmetry.at' (fillUp 1 canon) 1 = canon.getD 1 4 := (f3 1 (by decide)).1
  have hp : isPositive .edge 0 (fillUp 1 canon) = decide (canon.getD 0 4 < canon.getD 1 4) := by
    rw [← g0, ← g1]; rfl
  rw [hsign, hp]
  have hox : old x ≠ old y := fun e => hxy (ho.1 x (by simp) y (by simp) e)
  have hnx : new x ≠ new y := fun e => hxy (hn.1 x (by simp) y (by simp) e)
  have kx := h3 x (by simp)
  have ky := h3 y (by simp)
  unfold Turned
  simp only [rank, List.countP_cons, List.countP_nil, lt_irrefl, decide_false, Bool.false_eq_true, if_false, Nat.zero_add,
    Nat.add_zero, List.map_cons, List.map_nil, List.sum_cons, List.sum_nil, decide_eq_true_eq, false_and, decide_eq_false_iff_not] at kx ky ⊢
  rcases lt_or_gt_of_ne hox with o | o <;> rcases lt_or_gt_of_ne hnx with n | n <;>
    simp only [o, n, not_lt_of_gt o, not_lt_of_gt n, if_true, if_false, and_self, and_false, false_and] at kx ky ⊢ <;>
    first | omega | (rw [kx, ky]; simp)

/-- **C69** (signs on faces, wrong): the sign computed for an oriented value of a face is negative even if the enumeration is
not changed at all. -/
theorem face_sign_wrong {N : Type} [DecidableEq N] (g : N → Int) (nodes : List N) (h3 : nodes.length = 3) (hnd : nodes.Nodup)
    (hg : Numbered g nodes) (ms : List Nat) (hms : ms.length = groups 2) (i : Nat) (hi : i < total 2 ms) :
    ∃ canon r, canonical g g nodes = some canon ∧ locusOn 2 true ms canon i = some r ∧ r.1 = false ∧ ¬ Turned g g nodes := by
  obtain ⟨c, h1, h2, h3', h4, h5⟩ := canonical_closed g g nodes (by omega) (by omega) hnd hg hg
  have hd : nodes.length - 1 = 2 := by omega
  have id3 : ∀ k, k < 3 → c.getD k 4 = k := by
    intro k hk
    obtain ⟨x, hx, hr⟩ := h5 k (by omega)
    have := h3' x hx
    rw [hr] at this
    exact this
  have tab : ∀ c ∈ perms, (∀ k, k < 3 → c.getD k 4 = k) → isPositive .face 0 (fillUp 2 c) = false := by decide +kernel
  obtain ⟨s, k, a, hv, rfl⟩ := exists_place 2 (by decide) ms hms i hi
  obtain ⟨b, _, hb, _⟩ := position_spec g g nodes (by omega) (by omega) c h2 h3' h4 ms (by rw [hd]; exact hms) s k a
    (by rw [hd]; exact hv)
  rw [hd] at hb
  refine ⟨c, (false, place 2 ms s k b), h1, ?_, rfl, ?_⟩
  · unfold locusOn
    simp only [hb, if_true, Option.map_some]
    show some (isPositive .face 0 (fillUp 2 c), _) = _
    rw [tab c (mem_perms h2) id3]
  · unfold Turned
    have : ∀ x y : N, ¬ (g x < g y ∧ g y < g x) := fun x y h => absurd h.1 (not_lt_of_gt h.2)
    simp only [this, decide_false]
    simp

/-! ### a concrete case -/

/-- a face with the nodes 10, 20, 30; one S1 and one S3 group, the array has one entry before the values -/
def exItem : Item Nat Int := ⟨[10, 20, 30], 5, fun q => [7, 100, 1, 2, 3].getD q 0⟩
/-- the old numbers of the nodes 10, 20, 30 are 0, 1, 2 -/
def exOld : Nat → Int := fun x => if x = 10 then 0 else if x = 20 then 1 else 2
/-- the new ones 2, 0, 1 -/
def exNew : Nat → Int := fun x => if x = 10 then 2 else if x = 20 then 0 else 1
/-- copies of the groups of the example -/
def exMu : Nat → List Nat := fun d => if d = 2 then [1, 1, 0] else List.replicate (groups d) 0
/-- no oriented values -/
def exMo : Nat → List Nat := fun d => List.replicate (groups d) 0

theorem exItem_regular : Regular exOld exNew exMu exMo 1 (fun _ => 1) exItem :=
  ⟨by decide, by decide, by decide, by unfold Numbered; decide, by unfold Numbered; decide, by decide, by decide, by decide⟩

/-- the S1 value stays; node 10 has now the last place, so its value 1 moves to the end -/
example : (reorderItem exOld exNew exMu exMo 1 (fun _ => 1) false exItem).map (fun e => (List.range 5).map e.data) =
    some [7, 100, 2, 3, 1] := by decide +kernel

/-- a cell which has this face as its face 0, with its nodes in another order: the gathered values before and after -/
example : exItem.nodes.Perm (subNodes (![20, 30, 10, 40] : Fin 4 → Nat) 2 0) ∧
    (List.range 4).map (takeDof exOld (![20, 30, 10, 40] : Fin 4 → Nat) 2 0 [1, 1, 0] (part 1 1 0 0 exItem.data)) =
      [some 100, some 2, some 3, some 1] ∧
    (reorderItem exOld exNew exMu exMo 1 (fun _ => 1) false exItem).map (fun e =>
      (List.range 4).map (takeDof exNew (![20, 30, 10, 40] : Fin 4 → Nat) 2 0 [1, 1, 0] (part 1 1 0 0 e.data))) =
      some [some 100, some 2, some 3, some 1] := by decide +kernel

/-- an edge with two symmetric and one oriented value whose nodes are exchanged: the symmetric values are exchanged, the
oriented value 5 is kept instead of becoming -5 -/
example : (reorderItem (fun x : Nat => (x : Int)) (fun x => -(x : Int)) (fun _ => [0, 1]) (fun _ => [1, 0]) 1 (fun _ => 0) false
    ⟨[0, 1], 3, fun q => ([1, 2, 5] : List Int).getD q 0⟩).map (fun e => (List.range 3).map e.data) = some [2, 1, 5] := by
  decide +kernel

/-- its orientation is turned -/
example : Turned (fun x : Nat => (x : Int)) (fun x => -(x : Int)) [0, 1] ∧
    Numbered (fun x : Nat => (x : Int)) [0, 1] ∧ Numbered (fun x : Nat => -(x : Int)) [0, 1] := by
  unfold Turned Numbered; decide

end Verif.Reorder
