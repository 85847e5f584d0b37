import Verif.Spec.GidMap
import Verif.Spec.Enumerator
import Verif.Props.Enumerator
import Verif.Props.IntervalEnum
import Mathlib.Data.List.GetD

/-! C73: the map from global ids to local numbers. -/
namespace Verif.GidMap

open Verif.Enumerator (longMax)

/-- the elements the process owns in dimension `d` -/
private def own (es : List Elem) (d : Nat) : List Elem := es.filter fun e => decide (e.ghost = false ∧ e.dim = d)

private theorem mem_own {es : List Elem} {d : Nat} {e : Elem} : e ∈ own es d ↔ e ∈ es ∧ e.ghost = false ∧ e.dim = d := by
  simp [own]

private theorem bounds_fst (es : List Elem) (d : Nat) :
    (bounds es d).1 = ((own es d).map Elem.gid).foldl (fun b g => if g < b then g else b) longMax := by
  have : ∀ (l : List Elem) (x y : Nat), (l.foldl (fun (be : Nat × Nat) e => if e.ghost = false ∧ e.dim = d then
      (if e.gid < be.1 then e.gid else be.1, if be.2 ≤ e.gid then e.gid + 1 else be.2) else be) (x, y)).1 =
      ((own l d).map Elem.gid).foldl (fun b g => if g < b then g else b) x := by
    intro l
    induction l with
    | nil => intros; rfl
    | cons e l ih =>
      intro x y
      by_cases h : e.ghost = false ∧ e.dim = d
      · simp only [List.foldl_cons, if_pos h, ih]
        rw [show own (e :: l) d = e :: own l d by simp [own, h]]
        rfl
      · simp only [List.foldl_cons, if_neg h, ih]
        rw [show own (e :: l) d = own l d from List.filter_cons_of_neg (by simpa using h)]
  exact this es _ _

private theorem foldMin (l : List Nat) (x : Nat) :
    l.foldl (fun b g => if g < b then g else b) x ≤ x ∧ (∀ g ∈ l, l.foldl (fun b g => if g < b then g else b) x ≤ g) ∧
      (l.foldl (fun b g => if g < b then g else b) x = x ∨ l.foldl (fun b g => if g < b then g else b) x ∈ l) := by
  induction l generalizing x with
  | nil => simp
  | cons g l ih =>
    simp only [List.foldl_cons, List.mem_cons, forall_eq_or_imp]
    obtain ⟨h1, h2, h3⟩ := ih (if g < x then g else x)
    split at h1 <;> rename_i hg <;> simp only [hg, if_true, if_false] at h2 h3 ⊢
    · exact ⟨by omega, ⟨h1, h2⟩, by rcases h3 with h | h <;> simp [h]⟩
    · exact ⟨h1, ⟨by omega, h2⟩, by rcases h3 with h | h <;> simp [h]⟩

private theorem bounds_snd (es : List Elem) (d : Nat) : ∀ e ∈ own es d, e.gid < (bounds es d).2 := by
  have : ∀ (l : List Elem) (z : Nat × Nat), z.2 ≤ (l.foldl (fun (be : Nat × Nat) e => if e.ghost = false ∧ e.dim = d then
      (if e.gid < be.1 then e.gid else be.1, if be.2 ≤ e.gid then e.gid + 1 else be.2) else be) z).2 ∧
      ∀ e ∈ own l d, e.gid < (l.foldl (fun (be : Nat × Nat) e => if e.ghost = false ∧ e.dim = d then
      (if e.gid < be.1 then e.gid else be.1, if be.2 ≤ e.gid then e.gid + 1 else be.2) else be) z).2 := by
    intro l
    induction l with
    | nil => intro z; simp [own]
    | cons e l ih =>
      intro z
      simp only [List.foldl_cons]
      by_cases h : e.ghost = false ∧ e.dim = d
      · simp only [if_pos h]
        obtain ⟨i1, i2⟩ := ih (if e.gid < z.1 then e.gid else z.1, if z.2 ≤ e.gid then e.gid + 1 else z.2)
        rw [show own (e :: l) d = e :: own l d by simp [own, h]]
        refine ⟨?_, ?_⟩
        · refine le_trans ?_ i1; dsimp only; split <;> omega
        · intro f hf
          rcases List.mem_cons.1 hf with rfl | hf
          · refine lt_of_lt_of_le ?_ i1; dsimp only; split <;> omega
          · exact i2 f hf
      · simp only [if_neg h]
        rw [show own (e :: l) d = own l d from List.filter_cons_of_neg (by simpa using h)]
        exact ih z
  exact (this es _).2

private theorem range_eq {es : List Elem} (hm : ∀ e ∈ es, e.gid < longMax) {d b : Nat} (hb : Smallest es d b) (total : Nat) :
    (range es d total).1 = b ∧ ∀ e ∈ own es d, e.gid < (range es d total).2 := by
  obtain ⟨⟨e, he, h1, h2, h3⟩, hmin⟩ := hb
  have hmem : e.gid ∈ (own es d).map Elem.gid := List.mem_map_of_mem (mem_own.2 ⟨he, h2, h1⟩)
  obtain ⟨-, f2, f3⟩ := foldMin ((own es d).map Elem.gid) longMax
  have hlt := hm e he
  have hle := f2 _ hmem
  have hbd : (bounds es d).1 = b := by
    rw [bounds_fst]
    rcases f3 with h | h
    · omega
    · obtain ⟨f, hf, hg⟩ := List.mem_map.1 h
      obtain ⟨g1, g2, g3⟩ := mem_own.1 hf
      have := hmin f g1 g3 g2
      omega
  unfold range
  rw [if_neg (by omega)]
  exact ⟨hbd, bounds_snd es d⟩

private theorem foldSet (d b : Nat) (l : List Elem) (a : List Nat) :
    (l.foldl (fun a e => if e.ghost = false ∧ e.dim = d then a.set (e.gid - b) e.lid else a) a).length = a.length ∧
    (∀ i, (∀ e ∈ own l d, e.gid - b ≠ i) →
      (l.foldl (fun a e => if e.ghost = false ∧ e.dim = d then a.set (e.gid - b) e.lid else a) a)[i]? = a[i]?) ∧
    ((∀ e ∈ own l d, ∀ f ∈ own l d, e.gid - b = f.gid - b → e.lid = f.lid) → ∀ e ∈ own l d, e.gid - b < a.length →
      (l.foldl (fun a e => if e.ghost = false ∧ e.dim = d then a.set (e.gid - b) e.lid else a) a)[e.gid - b]? = some e.lid) := by
  induction l generalizing a with
  | nil => simp [own]
  | cons e l ih =>
    simp only [List.foldl_cons]
    by_cases h : e.ghost = false ∧ e.dim = d
    · simp only [if_pos h]
      rw [show own (e :: l) d = e :: own l d by simp [own, h]]
      obtain ⟨i1, i2, i3⟩ := ih (a.set (e.gid - b) e.lid)
      refine ⟨by rw [i1, List.length_set], ?_, ?_⟩
      · intro i hi
        rw [i2 i fun f hf => hi f (List.mem_cons_of_mem _ hf), List.getElem?_set_ne (hi e List.mem_cons_self)]
      · intro hinj f hf hlt
        rcases List.mem_cons.1 hf with rfl | hf
        · by_cases hex : ∃ g ∈ own l d, g.gid - b = f.gid - b
          · obtain ⟨g, hg, hgb⟩ := hex
            have := i3 (fun x hx y hy => hinj x (List.mem_cons_of_mem _ hx) y (List.mem_cons_of_mem _ hy)) g hg
              (by rw [List.length_set]; omega)
            rw [hgb] at this
            rw [this, hinj g (List.mem_cons_of_mem _ hg) f List.mem_cons_self hgb]
          · rw [i2 _ (fun g hg hgb => hex ⟨g, hg, hgb⟩), List.getElem?_set_self hlt]
        · exact i3 (fun x hx y hy => hinj x (List.mem_cons_of_mem _ hx) y (List.mem_cons_of_mem _ hy)) f hf (by rw [List.length_set]; omega)
    · simp only [if_neg h]
      rw [show own (e :: l) d = own l d from List.filter_cons_of_neg (by simpa using h)]
      exact ih a

private theorem length_resize (a : List Nat) (n : Nat) : (resize a n).length = n := by
  simp [resize]; omega

private theorem fillGlob_gives {es : List Elem} (hm : Mesh es) {d b : Nat} (hb : Smallest es d b) (total : Nat) (old : List Nat) :
    Gives es d b (fillGlob es d total old) := by
  intro e he hd hg
  obtain ⟨h1, h2⟩ := range_eq hm.small hb total
  have heo : e ∈ own es d := mem_own.2 ⟨he, hg, hd⟩
  unfold fillGlob
  dsimp only
  rw [h1]
  refine (foldSet d b es _).2.2 ?_ e heo ?_
  · intro x hx y hy hxy
    obtain ⟨x1, x2, x3⟩ := mem_own.1 hx
    obtain ⟨y1, y2, y3⟩ := mem_own.1 hy
    have := hb.2 x x1 x3 x2
    have := hb.2 y y1 y3 y2
    rw [hm.gid x x1 y y1 (by omega) (by omega)]
  · rw [length_resize]
    have := h2 e heo
    have := hb.2 e he hd hg
    omega

/-- The maps are written anew: the update is forced or a tag of one of the dimensions is missing. -/
def Fresh (et : Nat → Bool) (forced : Bool) (old : Nat → Tags) : Prop :=
  forced = true ∨ ∃ d < 4, et d = true ∧ ((old d).glob = none ∨ (old d).cont = none)

private theorem create_fresh {et : Nat → Bool} {forced : Bool} {old : Nat → Tags} (h : Fresh et forced old) (es : List Elem)
    (total : Nat → Nat) (d : Nat) (hd : et d = true) :
    create et forced es total old d = ⟨some (fillGlob (es.filter fun e => et e.dim) d (total d) ((old d).glob.getD [])),
      some (fillCont ((es.filter fun e => et e.dim).map Elem.lid))⟩ := by
  unfold create
  have : (forced || (List.range 4).any fun d => et d && ((old d).glob.isNone || (old d).cont.isNone)) = true := by
    rcases h with h | ⟨k, hk, h1, h2⟩
    · simp [h]
    · rw [Bool.or_eq_true]
      right
      rw [List.any_eq_true]
      exact ⟨k, List.mem_range.2 hk, by rcases h2 with h | h <;> simp [h1, h]⟩
  simp only [this, if_true, hd]

private theorem filter_smallest {et : Nat → Bool} {es : List Elem} {d b : Nat} (hd : et d = true) (hb : Smallest es d b) :
    Smallest (es.filter fun e => et e.dim) d b := by
  obtain ⟨⟨e, he, h1, h2, h3⟩, hmin⟩ := hb
  exact ⟨⟨e, List.mem_filter.2 ⟨he, by rw [h1]; exact hd⟩, h1, h2, h3⟩, fun f hf => hmin f (List.mem_filter.1 hf).1⟩

private theorem filter_mesh {es : List Elem} (hm : Mesh es) (p : Elem → Bool) : Mesh (es.filter p) :=
  ⟨fun e he f hf => hm.gid e (List.mem_filter.1 he).1 f (List.mem_filter.1 hf).1,
   fun e he f hf => hm.lid e (List.mem_filter.1 he).1 f (List.mem_filter.1 hf).1, fun e he => hm.small e (List.mem_filter.1 he).1⟩

/-- C73: when the maps are written, the array of every dimension asked for gives the local numbers of all elements of this dimension the process owns,
whatever was stored before; the array starts with the smallest global id. -/
theorem gives (et : Nat → Bool) (forced : Bool) (es : List Elem) (total : Nat → Nat) (old : Nat → Tags) (hm : Mesh es)
    (hf : Fresh et forced old) (d b : Nat) (hd : et d = true) (hb : Smallest es d b) :
    ∃ a, (create et forced es total old d).glob = some a ∧ Gives es d b a := by
  rw [create_fresh hf es total d hd]
  refine ⟨_, rfl, fun e he h1 h2 => ?_⟩
  exact fillGlob_gives (filter_mesh hm _) (filter_smallest hd hb) _ _ e (List.mem_filter.2 ⟨he, by rw [h1]; exact hd⟩) h1 h2

/-- a process with three nodes and two edges, one of them a ghost -/
def exMesh : List Elem := [⟨0, 5, 0, false⟩, ⟨0, 4, 1, false⟩, ⟨0, 9, 2, true⟩, ⟨0, 6, 3, false⟩, ⟨1, 7, 0, false⟩, ⟨1, 2, 4, true⟩]

theorem exMesh_mesh : Mesh exMesh := ⟨by decide, by decide, by decide⟩

/-- the ids 4, 5, 6 are those of the nodes 1, 0, 3; values stored before do not matter -/
example : Smallest exMesh 0 4 ∧ (create (fun d => d == 0) true exMesh (fun _ => 10) (fun _ => ⟨some [8, 8, 8, 8, 8], some [1]⟩) 0).glob = some [1, 0, 3] := by
  refine ⟨⟨⟨⟨0, 4, 1, false⟩, by decide, rfl, rfl, rfl⟩, by decide⟩, by decide +kernel⟩

/-- C73: dimensions not asked for are left as they are. -/
theorem others_kept (et : Nat → Bool) (forced : Bool) (es : List Elem) (total : Nat → Nat) (old : Nat → Tags) (d : Nat) (hd : et d = false) :
    create et forced es total old d = old d := by
  simp only [create]
  split
  · simp [hd]
  · rfl

example : (create (fun d => d == 0) true exMesh (fun _ => 10) (fun _ => ⟨some [8, 8], none⟩) 1).glob = some [8, 8] := by decide +kernel

/-- C73: a second call on the mesh as it is changes nothing of the maps from global ids, forced or not. -/
theorem again (et : Nat → Bool) (f1 f2 : Bool) (es : List Elem) (total : Nat → Nat) (old : Nat → Tags) (hm : Mesh es)
    (hf : Fresh et f1 old) (d b : Nat) (hd : et d = true) (hb : Smallest es d b) :
    ∃ a, (create et f2 es total (create et f1 es total old) d).glob = some a ∧ Gives es d b a := by
  by_cases h : Fresh et f2 (create et f1 es total old)
  · exact gives et f2 es total _ hm h d b hd hb
  · have : create et f2 es total (create et f1 es total old) = create et f1 es total old := by
      generalize create et f1 es total old = o at h
      unfold create
      have : (f2 || (List.range 4).any fun d => et d && ((o d).glob.isNone || (o d).cont.isNone)) = false := by
        rw [Bool.eq_false_iff]
        intro hh
        apply h
        rw [Bool.or_eq_true] at hh
        rcases hh with hh | hh
        · exact Or.inl hh
        · obtain ⟨k, hk, hk2⟩ := List.any_eq_true.1 hh
          refine Or.inr ⟨k, List.mem_range.1 hk, ?_⟩
          simpa [Bool.and_eq_true, Bool.or_eq_true, Option.isNone_iff_eq_none] using hk2
      simp only [this]
      rfl
    rw [this]
    exact gives et f1 es total old hm hf d b hd hb

/-- C73 fails for a mesh that has changed: the maps of the tags are taken as they are unless the update is forced, and the enumerators never force it
(global_enumerator.cpp:681, 710).  Here the two nodes of a process exchange their global ids, as after a new assigning of ids; the maps still give the
old numbers. -/
theorem stale_wrong : ∃ (es es' : List Elem) (et : Nat → Bool) (total : Nat → Nat) (d b : Nat), Mesh es ∧ Mesh es' ∧ et d = true ∧ Smallest es' d b ∧
    ∃ a, (create et false es' total (create et false es total fun _ => ⟨none, none⟩) d).glob = some a ∧ ¬ Gives es' d b a := by
  refine ⟨[⟨0, 0, 0, false⟩, ⟨0, 1, 1, false⟩], [⟨0, 1, 0, false⟩, ⟨0, 0, 1, false⟩], fun d => d == 0, fun _ => 2, 0, 0,
    ⟨by decide, by decide, by decide⟩, ⟨by decide, by decide, by decide⟩, rfl, ⟨⟨⟨0, 0, 1, false⟩, by decide, rfl, rfl, rfl⟩, by decide⟩, [0, 1],
    by decide +kernel, ?_⟩
  intro h
  exact absurd (h ⟨0, 1, 0, false⟩ (by decide) rfl rfl) (by decide)

/-- C73: the place of an element of the process holds this element. -/
theorem element_at (et : Nat → Bool) (forced : Bool) (es : List Elem) (total : Nat → Nat) (old : Nat → Tags) (hm : Mesh es)
    (hf : Fresh et forced old) (d b : Nat) (hd : et d = true) (hb : Smallest es d b) (e : Elem) (he : e ∈ es) (h1 : e.dim = d)
    (h2 : e.ghost = false) : elementAt es (create et forced es total old) d (e.gid - b) = some e := by
  obtain ⟨a, ha, hg⟩ := gives et forced es total old hm hf d b hd hb
  simp only [elementAt, ha, Option.bind_some, hg e he h1 h2]
  cases hfd : es.find? fun f => decide (f.dim = d ∧ f.lid = e.lid) with
  | none =>
    have := List.find?_eq_none.1 hfd e he
    simp [h1] at this
  | some f =>
    have h3 := List.find?_some hfd
    have h4 := List.mem_of_find?_eq_some hfd
    simp only [decide_eq_true_eq] at h3
    rw [hm.lid f h4 e he (by omega) h3.2]

example : elementAt exMesh (create (fun d => d == 0) false exMesh (fun _ => 10) fun _ => ⟨none, none⟩) 0 (6 - 4) = some ⟨0, 6, 3, false⟩ := by
  decide +kernel

/-- C73: the element behind a number of the vector is the one with the global id found from the number, for both block orders and every variable set, if
the process owns such an element (it does when its ids are contiguous, see `Verif.Enumerator.anitype_inverse_partial`). -/
theorem element_of (nd : Nat → Nat) (t : Enumerator.Kind) (et : Nat → Bool) (forced : Bool) (es : List Elem) (total total' : Nat → Nat) (old : Nat → Tags)
    (hm : Mesh es) (hf : Fresh et forced old) (id d g k : Nat)
    (hl : (Enumerator.setup nd (owned es) total').locate t id = some (d, g, k)) (hu : Enumerator.usedDim nd d = true) (hd : et d = true) (e : Elem)
    (he : e ∈ es) (h1 : e.dim = d) (h2 : e.ghost = false) (h3 : e.gid = g) :
    elementOf (Enumerator.setup nd (owned es) total') t es (create et forced es total old) id = some (e, k) := by
  have hbeg : Smallest es d ((Enumerator.setup nd (owned es) total').begElem d) := by
    have hmem : e.gid ∈ owned es d := List.mem_map_of_mem (List.mem_filter.2 ⟨he, by simp [h1, h2]⟩)
    obtain ⟨-, f2, f3⟩ := foldMin (owned es d) longMax
    have hlt := hm.small e he
    have hle := f2 _ hmem
    have hb : (Enumerator.setup nd (owned es) total').begElem d = (owned es d).foldl (fun b g => if g < b then g else b) longMax := by
      simp only [Enumerator.setup, hu, if_true]
      rw [if_neg (by intro hh; have := hh.2; omega)]
    rw [hb]
    refine ⟨?_, ?_⟩
    · rcases f3 with h | h
      · omega
      · obtain ⟨f, hf1, hf2⟩ := List.mem_map.1 h
        have := List.mem_filter.1 hf1
        simp only [decide_eq_true_eq] at this
        exact ⟨f, this.1, this.2.1, this.2.2, hf2⟩
    · intro f hf1 hf2 hf3
      exact f2 _ (List.mem_map_of_mem (List.mem_filter.2 ⟨hf1, by simp [hf2, hf3]⟩))
  have key := element_at et forced es total old hm hf d _ hd hbeg e he h1 h2
  generalize hs : Enumerator.setup nd (owned es) total' = s at hl key ⊢
  cases t with
  | anitype =>
    simp only [Enumerator.Setup.locate] at hl
    by_cases h0 : s.numElem (s.findDim id) = 0
    · simp [h0] at hl
    · simp only [if_neg h0, Option.some.injEq, Prod.mk.injEq] at hl
      obtain ⟨l1, l2, l3⟩ := hl
      simp only [elementOf, if_neg h0]
      rw [l1] at l2 l3 h0 ⊢
      rw [show (id - s.init d) % s.numElem d = e.gid - s.begElem d by rw [h3, ← l2]; exact (Nat.add_sub_cancel_left ..).symm, key, l3]
      rfl
  | miniblocks =>
    simp only [Enumerator.Setup.locate] at hl
    by_cases h0 : Enumerator.inmostNumDof s.numDof (s.findDim id) = 0
    · simp [h0] at hl
    · simp only [if_neg h0, Option.some.injEq, Prod.mk.injEq] at hl
      obtain ⟨l1, l2, l3⟩ := hl
      simp only [elementOf, if_neg h0]
      rw [l1] at l2 l3 h0 ⊢
      rw [show (id - s.init d) / Enumerator.inmostNumDof s.numDof d = e.gid - s.begElem d by
        rw [h3, ← l2]; exact (Nat.add_sub_cancel_left ..).symm, key, l3]
      rfl

/-- one value on each node: number 5 belongs to the node with the id 5 -/
example : (Enumerator.setup (fun k => if k = 0 then 1 else 0) (owned exMesh) fun _ => 10).locate .anitype 5 = some (0, 5, 0) ∧
    elementOf (Enumerator.setup (fun k => if k = 0 then 1 else 0) (owned exMesh) fun _ => 10) .anitype exMesh
      (create (fun d => d == 0) false exMesh (fun _ => 10) fun _ => ⟨none, none⟩) 5 = some (⟨0, 5, 0, false⟩, 0) := by
  decide +kernel

/-! the array of runs -/

/-- the runs of consecutive numbers -/
private def grp (s n : Nat) : List Nat → List (Int × Nat)
  | [] => [(s, n + 1)]
  | l :: ls => if s + n + 1 = l then grp s (n + 1) ls else (s, n + 1) :: grp l 0 ls

/-- the pairs of the storage of an enumeration by intervals (C01), one after another -/
def flat (d : IntervalEnum.Dat) : List Int := d.flatMap fun p => [p.1, p.2]

private def finish : Nat × List Nat → List Nat
  | (prev, last :: cid :: vals) => ((last + (prev - last + 1)) :: (prev - last + 1 + cid) :: last :: cid :: vals).reverse
  | (_, vals) => vals.reverse

private theorem runs_grp (ls : List Nat) : ∀ (s n c : Nat) (acc : List Nat) (x : Int),
    (finish (runs (c + n) (s + n) (s :: c :: acc) ls)).map (fun i : Nat => (i : Int)) =
      (acc.reverse.map fun i : Nat => (i : Int)) ++ flat (IntervalEnum.encodeFrom c x (grp s n ls)) := by
  induction ls with
  | nil =>
    intro s n c acc x
    simp only [runs, finish, grp, IntervalEnum.encodeFrom, flat]
    simp
    omega
  | cons l ls ih =>
    intro s n c acc x
    by_cases h : s + n + 1 = l
    · simp only [runs, grp, if_pos h]
      exact ih s (n + 1) c acc x
    · simp only [runs, grp, if_neg h]
      have := ih l 0 (c + n + 1) (s :: c :: acc) (s + (n + 1 : Nat) : Int)
      simp only [Nat.add_zero] at this
      rw [this]
      simp only [IntervalEnum.encodeFrom, flat, List.reverse_cons, List.map_append, List.map_cons, List.map_nil, List.flatMap_cons,
        List.append_assoc, List.cons_append, List.nil_append]
      congr 3

private theorem values_grp (ls : List Nat) : ∀ (s n : Nat), IntervalEnum.values (grp s n ls) =
    ((List.range (n + 1)).map fun i : Nat => (s : Int) + i) ++ ls.map fun i : Nat => (i : Int) := by
  induction ls with
  | nil => intro s n; simp [grp, IntervalEnum.values]
  | cons l ls ih =>
    intro s n
    by_cases h : s + n + 1 = l
    · simp only [grp, if_pos h, ih]
      rw [List.range_succ (n := n + 1), List.map_append, List.append_assoc]
      congr 1
      simp [← h]
      omega
    · simp only [grp, if_neg h]
      have := ih l 0
      simp only [IntervalEnum.values, List.flatMap_cons] at this ⊢
      rw [this]
      simp

private theorem sorted_grp (ls : List Nat) : ∀ (s n : Nat), (∀ l ∈ ls, s + n < l) → ls.Pairwise (· < ·) → IntervalEnum.Sorted (grp s n ls) ∧
    ∃ m r, grp s n ls = ((s : Int), m) :: r := by
  induction ls with
  | nil => intro s n _ _; simp [grp, IntervalEnum.Sorted]
  | cons l ls ih =>
    intro s n hl hp
    obtain ⟨hp1, hp2⟩ := List.pairwise_cons.1 hp
    have h0 := hl l List.mem_cons_self
    by_cases h : s + n + 1 = l
    · simp only [grp, if_pos h]
      exact ih s (n + 1) (fun k hk => by have := hp1 k hk; omega) hp2
    · simp only [grp, if_neg h]
      obtain ⟨i1, m, r, i2⟩ := ih l 0 (fun k hk => by have := hp1 k hk; omega) hp2
      rw [i2] at i1 ⊢
      refine ⟨⟨by simp, ?_, i1⟩, _, _, rfl⟩
      simp only
      omega

/-- C73: the array `ContToLidMap` is the storage of an enumeration by intervals (C01) of the local numbers, in increasing order. -/
theorem cont_runs (lids : List Nat) (hs : lids.Pairwise (· < ·)) : ∃ ivs, IntervalEnum.Sorted ivs ∧
    IntervalEnum.values ivs = lids.map (fun i : Nat => (i : Int)) ∧ (fillCont lids).map (fun i : Nat => (i : Int)) = flat (IntervalEnum.encode ivs) := by
  cases lids with
  | nil => exact ⟨[], trivial, rfl, rfl⟩
  | cons l ls =>
    obtain ⟨hp1, hp2⟩ := List.pairwise_cons.1 hs
    obtain ⟨h1, m, r, h2⟩ := sorted_grp ls l 0 (fun k hk => by have := hp1 k hk; omega) hp2
    refine ⟨grp l 0 ls, h1, ?_, ?_⟩
    · rw [values_grp]; simp
    · have := runs_grp ls l 0 0 [] 0
      simp only [Nat.add_zero, List.reverse_nil, List.map_nil, List.nil_append] at this
      rw [h2] at this ⊢
      rw [show IntervalEnum.encode (((l : Int), m) :: r) = IntervalEnum.encodeFrom 0 0 (((l : Int), m) :: r) from rfl]
      exact this

example : fillCont [2, 3, 4, 8, 10, 11] = [0, 2, 3, 8, 4, 10, 6, 12] := by decide +kernel

/-- C73: if elements of one dimension are asked for, in the order of their local numbers, the array of this dimension enumerates them all: the number `j` finds
the local number of the element `j`. -/
theorem cont_single (forced : Bool) (es : List Elem) (total : Nat → Nat) (old : Nat → Tags) (d : Nat)
    (hf : Fresh (fun k => k == d) forced old) (hs : ((es.filter fun e => e.dim == d).map Elem.lid).Pairwise (· < ·)) :
    ∃ a dat, (create (fun k => k == d) forced es total old d).cont = some a ∧ a.map (fun i : Nat => (i : Int)) = flat dat ∧
      ∀ (j : Nat) (e : Elem), (es.filter fun e => e.dim == d)[j]? = some e →
        IntervalEnum.deref dat (IntervalEnum.findLeft dat j) = some ((j : Int), (e.lid : Int)) := by
  rw [create_fresh hf es total d (by simp)]
  obtain ⟨ivs, h1, h2, h3⟩ := cont_runs _ hs
  refine ⟨_, _, rfl, h3, fun j e he => (IntervalEnum.findLeft_spec h1 ?_).1⟩
  rw [h2, List.getElem?_map, List.getElem?_map, he]
  rfl

example : (create (fun k => k == 0) false exMesh (fun _ => 10) fun _ => ⟨none, none⟩) 0 = ⟨some [1, 0, 3], some [0, 0, 4, 4]⟩ := by decide +kernel

/-- C73 fails for the arrays of runs if several dimensions are asked for: each of them lists the elements of all dimensions (the loop at
global_enumerator.cpp:531 is over `et`).  A mesh with two nodes and one edge: the array of the edges says that there are three. -/
theorem cont_wrong : ∃ (es : List Elem) (et : Nat → Bool) (d : Nat), Mesh es ∧ et d = true ∧
    (create et false es (fun _ => 2) (fun _ => ⟨none, none⟩) d).cont = some [0, 0, 2, 0, 3, 1] ∧ (es.filter fun e => e.dim == d).length = 1 :=
  ⟨[⟨0, 0, 0, false⟩, ⟨0, 1, 1, false⟩, ⟨1, 0, 0, false⟩], fun k => k ≤ 1, 1, ⟨by decide, by decide, by decide⟩, rfl, by decide +kernel, by decide⟩

end Verif.GidMap
