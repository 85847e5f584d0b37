import Verif.Lemmas.GeomIter2

namespace Verif.GeomIter
open Verif.DofMap Verif.Sparsity

/-! ### products -/

theorem ifactor_eq (l : List IterObj) (k : Nat) (h : k < l.length) : ifactor l k = l[k] := by
  simp [ifactor, List.getElem?_eq_getElem h]

/-- states of a product -/
def complexL (os : List Obj) (n : Nat) (Ls : Nat → List It) : List It :=
  (List.range n).flatMap fun k => (Ls k).map (cplace os k)

theorem cplace_next (l : List IterObj) (s : Sp) (k : Nat) (hk : k < l.length) (x : It)
    (h2 : x.2.leid < (l[k]).obj.numDof x.2.num) :
    complexNext l false s (cplace (l.map (·.obj)) k x) = match (l[k]).next false s x with
      | some y => some (cplace (l.map (·.obj)) k y)
      | none => if k + 1 ≠ l.length then ((ifactor l (k + 1)).start false s).map (cplace (l.map (·.obj)) (k + 1))
        else none := by
  have h1 : ubIdx ((l.map (·.obj)).map fun o => o.numDof x.2.num)
      (x.2.leid + pre ((l.map (·.obj)).map fun o => o.numDof x.2.num) k) = k := by
    apply ubIdx_eq _ _ (by simpa using hk) _ (by omega)
    rw [pre_succ _ _ (by simpa using hk)]
    simp only [List.getElem_map]; omega
  simp only [complexNext, cplace, h1, Nat.add_sub_cancel, ifactor_eq l k hk, if_true]
  rfl

theorem complexL_head (os : List Obj) (n : Nat) (Ls : Nat → List It) :
    (complexL os n Ls).head? = (List.range n).findSome? fun k => (Ls k).head?.map (cplace os k) := by
  unfold complexL
  rw [List.head?_flatMap]
  simp only [List.head?_map]

theorem good_complex (l : List IterObj) (s : Sp) (Ls : Nat → List It)
    (hg : ∀ k (hk : k < l.length), Good l[k] s (Ls k))
    (hb : ∀ o ∈ l, BijectiveLoc o.obj.numTet o.obj.numDof o.obj.locate)
    (hc : ∀ o ∈ l, Counted o.obj)
    (hcons : ∀ i j k, i < j → j < k → k < l.length → Ls i ≠ [] → Ls k ≠ [] → Ls j ≠ []) :
    Good (complexIter l) s (complexL (l.map (·.obj)) l.length Ls) := by
  have hv : ∀ k (hk : k < l.length) x, x ∈ Ls k →
      x.1 < l[k].obj.numTet ∧ x.2 = l[k].obj.locate x.1 ∧ x.2.Valid l[k].obj.numDof :=
    fun k hk x hx => good_valid l[k] s (Ls k) (hg k hk) (hb _ (List.getElem_mem hk)) x hx
  have hc' : ∀ o ∈ l.map (·.obj), Counted o := by
    intro o ho
    obtain ⟨o', ho', rfl⟩ := List.mem_map.1 ho
    exact hc o' ho'
  refine ⟨?_, ?_, ?_⟩
  · show complexStart l false s = _
    rw [complexL_head]
    simp only [complexStart, if_true]
    apply findSome_congr
    intro k hk
    simp only [List.mem_range] at hk
    rw [ifactor_eq l k hk, (hg k hk).start]
  · show Steps (complexNext l false s) _ none
    have key : ∀ m k, k + m = l.length → Steps (complexNext l false s)
        ((List.range' k m).flatMap fun k => (Ls k).map (cplace (l.map (·.obj)) k)) none := by
      intro m
      induction m with
      | zero => intro k _; simp [Steps]
      | succ m ih =>
        intro k hkm
        rw [List.range'_succ, List.flatMap_cons, steps_append]
        refine ⟨?_, ih (k + 1) (by omega)⟩
        have hk : k < l.length := by omega
        apply steps_map _ _ _ _ _ (hg k hk).steps
        intro x hx
        obtain ⟨h1, h2, h3⟩ := hv k hk x hx
        rw [cplace_next l s k hk x h3.2.2]
        have hrest : (if k + 1 ≠ l.length then ((ifactor l (k + 1)).start false s).map (cplace (l.map (·.obj)) (k + 1))
            else none) = (((List.range' (k + 1) m).flatMap fun k => (Ls k).map (cplace (l.map (·.obj)) k)).head?.or none) := by
          rw [Option.or_none]
          cases m with
          | zero => rw [if_neg (by omega)]; rfl
          | succ m =>
            have hk1 : k + 1 < l.length := by omega
            rw [if_pos (by omega), ifactor_eq l (k + 1) hk1, (hg (k + 1) hk1).start, List.range'_succ, List.flatMap_cons,
              List.head?_append, List.head?_map]
            cases hL : Ls (k + 1) with
            | cons a r => rfl
            | nil =>
              symm
              rw [List.head?_nil, Option.map_none, Option.none_or, List.head?_flatMap, List.findSome?_eq_none_iff]
              intro j hj
              simp only [List.mem_range'_1] at hj
              have : Ls j = [] := by
                apply Decidable.byContradiction
                intro hne
                have hx0 : Ls k ≠ [] := List.ne_nil_of_mem hx
                exact hcons k (k + 1) j (by omega) (by omega) (by omega) hx0 hne hL
              rw [this]; rfl
        rw [hrest]
        cases l[k].next false s x <;> rfl
    have := key l.length 0 (by omega)
    unfold complexL
    rw [List.range_eq_range']
    exact this
  · have hlt : ∀ k (hk : k < l.length) (x : It), x.1 < l[k].obj.numTet →
        pre ((l.map (·.obj)).map (·.numTet)) k ≤ (cplace (l.map (·.obj)) k x).1 ∧
        (cplace (l.map (·.obj)) k x).1 < pre ((l.map (·.obj)).map (·.numTet)) (k + 1) := by
      intro k hk x hx
      rw [pre_succ _ _ (by simpa using hk)]
      simp only [List.getElem_map, cplace]
      omega
    refine ⟨?_, ?_, ?_⟩
    · intro x hx
      obtain ⟨k, hk, hx⟩ := List.mem_flatMap.1 hx
      obtain ⟨y, hy, rfl⟩ := List.mem_map.1 hx
      simp only [List.mem_range] at hk
      obtain ⟨h1, h2, h3⟩ := hv k hk y hy
      have hs := ((hg k hk).lists.sound y hy).2.2
      refine ⟨?_, ?_, hs⟩
      · show _ < (complexObj (l.map (·.obj))).numTet
        rw [complex_numTet _ hc']
        have := (hlt k hk y h1).2
        have hm := pre_mono ((l.map (·.obj)).map (·.numTet)) (j := k + 1) (k := l.length) (by omega)
        have hl := pre_length ((l.map (·.obj)).map (·.numTet))
        simp only [List.length_map] at hl
        omega
      · show _ = (complexObj (l.map (·.obj))).locate (y.1 + pre ((l.map (·.obj)).map (·.numTet)) k)
        have := complex_locate (l.map (·.obj)) k (by simpa using hk) y.1 (by simpa using h1)
        rw [Nat.add_comm y.1, this]
        simp only [List.getElem_map, ← h2]
        rfl
    · intro g hgt hsel
      obtain ⟨k, hk, i, hi, rfl⟩ := complex_block (l.map fun o : IterObj => o.obj) hc' g hgt
      have hk' : k < l.length := by simpa using hk
      have hloc := complex_locate (l.map (·.obj)) k hk i hi
      simp only [List.getElem_map] at hi hloc
      have hsel' : s.has (dimension (l[k].obj.locate i).num) (l[k].obj.locate i).nelem = true := by
        have h' : s.has (dimension ((complexObj (l.map (·.obj))).locate (pre ((l.map (·.obj)).map (·.numTet)) k + i)).num)
          ((complexObj (l.map (·.obj))).locate (pre ((l.map (·.obj)).map (·.numTet)) k + i)).nelem = true := hsel
        rw [hloc] at h'
        exact h'
      have hin := (hg k hk').lists.complete i hi hsel'
      refine List.mem_flatMap.2 ⟨k, List.mem_range.2 hk', List.mem_map.2 ⟨_, hin, ?_⟩⟩
      show _ = (_, (complexObj (l.map (·.obj))).locate (pre ((l.map (·.obj)).map (·.numTet)) k + i))
      rw [hloc]
      simp only [cplace, Loc.shift, Nat.add_comm]
    · apply nodup_flatMap_of _ _ (fun x => ubIdx ((l.map (·.obj)).map (·.numTet)) x.1) List.nodup_range
      · intro k hk
        simp only [List.mem_range] at hk
        apply List.Nodup.map _ (hg k hk).lists.once
        intro x y h
        simp only [cplace, Prod.mk.injEq, Loc.mk.injEq] at h
        obtain ⟨h1, h2, h3, h4⟩ := h
        rw [h2] at h4
        have e1 : x.1 = y.1 := by omega
        have e2 : x.2.leid = y.2.leid := by omega
        have e3 : x.2 = y.2 := by cases hx : x.2; cases hy : y.2; simp_all
        exact Prod.ext e1 e3
      · intro k hk x hx
        simp only [List.mem_range] at hk
        obtain ⟨y, hy, rfl⟩ := List.mem_map.1 hx
        obtain ⟨h1, -, -⟩ := hv k hk y hy
        obtain ⟨a, b⟩ := hlt k hk y h1
        exact ubIdx_eq _ k (by simpa using hk) _ a b

theorem complexL_increasing (os : List Obj) (n : Nat) (hn : n = os.length) (Ls : Nat → List It) (h : ∀ k, k < n → Increasing (Ls k))
    (hlt : ∀ k (hk : k < os.length), ∀ x ∈ Ls k, x.1 < os[k].numTet) :
    Increasing (complexL os n Ls) := by
  subst hn
  unfold Increasing complexL
  rw [List.pairwise_flatMap]
  refine ⟨?_, ?_⟩
  · intro k hk
    rw [List.pairwise_map]
    refine List.Pairwise.imp (fun {x y} hxy => ?_) (h k (by simpa using hk))
    show x.1 + _ < y.1 + _
    omega
  · refine List.Pairwise.imp_of_mem (fun {i j} hi hj hij x hx y hy => ?_) List.pairwise_lt_range
    simp only [List.mem_range] at hi hj
    obtain ⟨x', hx', rfl⟩ := List.mem_map.1 hx
    obtain ⟨y', hy', rfl⟩ := List.mem_map.1 hy
    have h1 := hlt i hi x' hx'
    have h2 := pre_succ (os.map (·.numTet)) i (by simpa using hi)
    simp only [List.getElem_map] at h2
    have h3 := pre_mono (os.map (·.numTet)) (j := i + 1) (k := j) hij
    show x'.1 + pre (os.map (·.numTet)) i < y'.1 + pre (os.map (·.numTet)) j
    omega

/-! ### all maps -/

theorem iters_eq (l : List Tree) : iters l = l.map iter := by
  induction l with
  | nil => rfl
  | cons a l ih => simp [iters, ih]

mutual
theorem iter_obj : ∀ t : Tree, (iter t).obj = t.obj
  | .unite c => rfl
  | .vector d b => by simp only [iter, vectorIter, Tree.obj, iter_obj b]
  | .complex l => by simp only [iter, complexIter, Tree.obj, iters_obj l]
theorem iters_obj : ∀ l : List Tree, (iters l).map (·.obj) = Tree.objs l
  | [] => rfl
  | t :: r => by simp only [iters, List.map_cons, iter_obj t, iters_obj r, Tree.objs]
end

/-- a selected d.o.f. exists -/
def Touched (s : Sp) (t : Tree) : Prop :=
  ∃ g, g < t.obj.numTet ∧ s.has (dimension (t.obj.locate g).num) (t.obj.locate g).nelem = true

/-- not a product -/
def NotProduct : Tree → Prop
  | .complex _ => False
  | _ => True

mutual
/-- The maps on which the iteration in the default order is exact: primitive maps, their (iterated) powers, and products
whose factors without selected d.o.f.s do not separate factors with selected d.o.f.s. -/
def Regular (s : Sp) : Tree → Prop
  | .unite _ => True
  | .vector _ b => NotProduct b ∧ Regular s b
  | .complex l => Regulars s l ∧
      ∀ i j k (hi : i < l.length) (hj : j < l.length) (hk : k < l.length), i < j → j < k →
        Touched s l[i] → Touched s l[k] → Touched s l[j]
/-- all factors -/
def Regulars (s : Sp) : List Tree → Prop
  | [] => True
  | t :: r => Regular s t ∧ Regulars s r
end

mutual
/-- no space of the map has both kinds of edge d.o.f.s or both kinds of face d.o.f.s -/
def Plain : Tree → Prop
  | .unite c => Counts.plain c
  | .vector _ b => Plain b
  | .complex l => Plains l
/-- all factors -/
def Plains : List Tree → Prop
  | [] => True
  | t :: r => Plain t ∧ Plains r
end

theorem good_touched (t : Tree) (s : Sp) (L : List It) (h : Good (iter t) s L) : L ≠ [] ↔ Touched s t := by
  have hl := h.lists
  rw [iter_obj] at hl
  constructor
  · intro hne
    obtain ⟨x, hx⟩ := List.exists_mem_of_ne_nil L hne
    obtain ⟨h1, h2, h3⟩ := hl.sound x hx
    exact ⟨x.1, h1, h2 ▸ h3⟩
  · rintro ⟨g, h1, h2⟩
    exact List.ne_nil_of_mem (hl.complete g h1 h2)

theorem start_generic (t : Tree) (h : NotProduct t) (s : Sp) : (iter t).start false s = genBegin (iter t).obj s := by
  cases t with
  | unite c => rfl
  | vector d b => rfl
  | complex l => exact absurd h (by simp [NotProduct])

mutual
theorem tree_good (s : Sp) (hs : Wf s) : ∀ t : Tree, Regular s t →
    ∃ L, Good (iter t) s L ∧ (Plain t → Increasing L)
  | .unite c, _ => ⟨_, good_unite c s hs, fun h => restL_increasing c h s⟩
  | .vector d b, h => by
    obtain ⟨h1, h2⟩ := h
    obtain ⟨L, hL, hi⟩ := tree_good s hs b h2
    have hb : BijectiveLoc (iter b).obj.numTet (iter b).obj.numDof (iter b).obj.locate := by
      rw [iter_obj]; exact tree_bij b
    refine ⟨_, good_vector d (iter b) s L hL hb (start_generic b h1 s), fun hp => ?_⟩
    exact vectorL_increasing d _ L (hi hp) fun x hx => (hL.lists.sound x hx).1
  | .complex l, h => by
    obtain ⟨h1, h2⟩ := h
    obtain ⟨Ls, hLs⟩ := trees_good s hs l h1
    have hlen : (iters l).length = l.length := by rw [iters_eq]; simp
    have hget : ∀ k (hk : k < (iters l).length), (iters l)[k] = iter (l[k]'(by omega)) := by
      intro k hk; simp [iters_eq]
    have hg : ∀ k (hk : k < (iters l).length), Good (iters l)[k] s (Ls k) := by
      intro k hk; rw [hget k hk]; exact (hLs k (by omega)).1
    have hmem : ∀ o ∈ iters l, ∃ t, o = iter t := by
      intro o ho
      rw [iters_eq] at ho
      obtain ⟨t, -, rfl⟩ := List.mem_map.1 ho
      exact ⟨t, rfl⟩
    refine ⟨_, good_complex (iters l) s Ls hg ?_ ?_ ?_, fun hp => ?_⟩
    · intro o ho
      obtain ⟨t, rfl⟩ := hmem o ho
      rw [iter_obj]; exact tree_bij t
    · intro o ho
      obtain ⟨t, rfl⟩ := hmem o ho
      rw [iter_obj]; exact tree_counted t
    · intro i j k hij hjk hk hi0 hk0
      have hi : i < l.length := by omega
      have hj : j < l.length := by omega
      have hk : k < l.length := by omega
      exact (good_touched _ s _ (hLs j hj).1).2 (h2 i j k hi hj hk hij hjk
        ((good_touched _ s _ (hLs i hi).1).1 hi0) ((good_touched _ s _ (hLs k hk).1).1 hk0))
    · apply complexL_increasing _ _ (by simp)
      · intro k hk
        have hps : ∀ (l : List Tree), Plains l → ∀ k (hk : k < l.length), Plain l[k] := by
          intro l
          induction l with
          | nil => intro _ k hk; simp at hk
          | cons a l ih =>
            intro hp k hk
            cases k with
            | zero => exact hp.1
            | succ k => exact ih hp.2 k (by simpa using hk)
        exact (hLs k (by omega)).2 (hps l hp k (by omega))
      · intro k hk x hx
        have hk' : k < (iters l).length := by simpa using hk
        have := ((hg k hk').lists.sound x hx).1
        simpa using this
theorem trees_good (s : Sp) (hs : Wf s) : ∀ l : List Tree, Regulars s l →
    ∃ Ls : Nat → List It, ∀ k (hk : k < l.length), Good (iter l[k]) s (Ls k) ∧ (Plain l[k] → Increasing (Ls k))
  | [], _ => ⟨fun _ => [], fun k hk => by simp at hk⟩
  | t :: r, h => by
    obtain ⟨L, hL⟩ := tree_good s hs t h.1
    obtain ⟨Ls, hLs⟩ := trees_good s hs r h.2
    refine ⟨fun k => match k with | 0 => L | k + 1 => Ls k, fun k hk => ?_⟩
    cases k with
    | zero => exact hL
    | succ k => exact hLs k (by simpa using hk)
end

end Verif.GeomIter
