import Verif.Model.InterpConst
import Verif.Props.Gather
import Verif.Props.Spaces
import Verif.Props.Sparsity

/-!
Property C76: setting a constant on a part of a tetrahedron writes exactly the d.o.f.s there, and the function with these
d.o.f.s has the constant value on the part.
-/
namespace Verif.InterpConst
open Verif.DofMap Verif.Sparsity Verif.GeomIter Verif.Gather Verif.Spaces

theorem foldl_put {K : Type} (val : K) (L : List It) (u : Nat → K) (j : Nat) :
    L.foldl (InterpConst.put val) u j = if ∃ x ∈ L, x.1 = j then val else u j := by
  induction L generalizing u with
  | nil => simp
  | cons a L ih =>
    rw [List.foldl_cons, ih]
    by_cases h : ∃ x ∈ L, x.1 = j
    · rw [if_pos h, if_pos]
      obtain ⟨x, hx, e⟩ := h
      exact ⟨x, List.mem_cons_of_mem _ hx, e⟩
    · rw [if_neg h]
      by_cases ha : a.1 = j
      · rw [if_pos ⟨a, List.mem_cons_self, ha⟩]
        simp [InterpConst.put, ha]
      · rw [if_neg]
        · simp [InterpConst.put, Ne.symm ha]
        · rintro ⟨x, hx, e⟩
          rcases List.mem_cons.1 hx with rfl | hx
          · exact ha e
          · exact h ⟨x, hx, e⟩

/-- the d.o.f. `g` of the map lies on an element of the set -/
def Chosen (t : Tree) (s : Sp) (g : Nat) : Prop :=
  g < t.obj.numTet ∧ s.has (dimension (t.obj.locate g).num) (t.obj.locate g).nelem = true

instance (t : Tree) (s : Sp) (g : Nat) : Decidable (Chosen t s g) := inferInstanceAs (Decidable (_ ∧ _))

/-- **C76** (what is written): the d.o.f.s of the selected elements get the value, all other positions stay as they were.
For `Regular` maps (primitive maps, powers of them, products without gaps, see C11); for the others the loop is wrong
(`GeomIter.product_skips`). -/
theorem constant_partial {K : Type} (t : Tree) (s : Sp) (hs : Wf s) (ht : Regular s t) (n : Nat) (hn : t.obj.numTet ≤ n)
    (val : K) (u : Nat → K) (j : Nat) : constant n val t s u j = if Chosen t s j then val else u j := by
  obtain ⟨L, h1, h2, -⟩ := iterate_partial t s hs ht
  unfold constant
  rw [h1 n (Nat.le_trans (lists_length h2) hn), foldl_put]
  refine if_congr ⟨?_, ?_⟩ rfl rfl
  · rintro ⟨x, hx, rfl⟩
    obtain ⟨a, b, c⟩ := h2.sound x hx
    rw [b] at c
    exact ⟨a, c⟩
  · rintro ⟨a, b⟩
    exact ⟨_, h2.complete j a b, rfl⟩

/-- `P2` on the closed face 2 -/
example : ((List.range 12).map (constant 100 (7 : Nat) (.unite exP2) exFace fun _ => 0)) = [7, 0, 7, 7, 0, 7, 7, 0, 0, 7, 0, 0] := by
  decide +kernel

/-- **C76** (a component): exactly the d.o.f.s of the component on the selected elements are written, at their numbers in the
whole space. -/
theorem constantSub_partial {K : Type} (v : View) (s : Sp) (hs : Wf s) (ht : Regular s v.base) (n : Nat)
    (hn : v.base.obj.numTet ≤ n) (val : K) (u : Nat → K) (j : Nat) :
    constantSub n val v s u j = if v.shiftTet ≤ j ∧ Chosen v.base s (j - v.shiftTet) then val else u j := by
  obtain ⟨L, h1, h2, -⟩ := iterate_partial v.base s hs ht
  unfold constantSub viewStart
  rw [visits_view, h1 n (Nat.le_trans (lists_length h2) hn), foldl_put]
  refine if_congr ⟨?_, ?_⟩ rfl rfl
  · rintro ⟨y, hy, rfl⟩
    obtain ⟨x, hx, rfl⟩ := List.mem_map.1 hy
    obtain ⟨a, b, c⟩ := h2.sound x hx
    rw [b] at c
    have e : (outer v x).1 - v.shiftTet = x.1 := by simp [outer]
    refine ⟨by simp [outer], ?_⟩
    rw [e]
    exact ⟨a, c⟩
  · rintro ⟨h0, a, b⟩
    refine ⟨_, List.mem_map.2 ⟨_, h2.complete _ a b, rfl⟩, ?_⟩
    simp only [outer]
    omega

/-- the second component of the velocity in `P2^3 × P1` on the closed face 2 -/
example : (nested (.complex [.vector 3 (.unite exP2), .unite GeomIter.exP1]) [0, 1] (fun _ => 0) 0).map (fun v =>
    ((List.range 34).filter fun j => constantSub 100 (1 : Nat) v exFace (fun _ => 0) j = 1)) = some [10, 12, 13, 15, 16, 19] := by
  decide +kernel

/-- **C76**: setting the constant in a component is setting it in the space of the component, in its part of the container. -/
theorem constantSub_eq {K : Type} (v : View) (s : Sp) (hs : Wf s) (ht : Regular s v.base) (n : Nat)
    (hn : v.base.obj.numTet ≤ n) (val : K) (u : Nat → K) (i : Nat) :
    constantSub n val v s u (v.shiftTet + i) = constant n val v.base s (fun j => u (v.shiftTet + j)) i := by
  rw [constantSub_partial v s hs ht n hn, constant_partial _ s hs ht n hn, Nat.add_sub_cancel_left]
  exact if_congr ⟨fun h => h.2, fun h => ⟨Nat.le_add_right _ _, h⟩⟩ rfl rfl

/-- **C76**: a primitive space is its first power. -/
theorem constant_one {K : Type} (c : Counts) (s : Sp) (hs : Wf s) (n : Nat) (hn : (uniteObj c).numTet ≤ n) (val : K) (u : Nat → K)
    (j : Nat) : constant n val (.unite c) s u j = constant n val (.vector 1 (.unite c)) s u j := by
  have h1 : (Tree.unite c).obj = uniteObj c := by simp [Tree.obj]
  have h2 : (Tree.vector 1 (.unite c)).obj = vectorObj 1 (uniteObj c) := by simp [Tree.obj]
  rw [constant_partial _ s hs (show Regular s (.unite c) from trivial) n (by rw [h1]; exact hn),
    constant_partial _ s hs (show Regular s (.vector 1 (.unite c)) from ⟨trivial, trivial⟩) n
      (by rw [h2]; simp only [vectorObj]; omega)]
  refine if_congr ?_ rfl rfl
  unfold Chosen
  rw [h1, h2]
  simp only [vectorObj, Nat.one_mul]
  constructor
  · rintro ⟨a, b⟩
    rw [Nat.mod_eq_of_lt a]
    exact ⟨a, b⟩
  · rintro ⟨a, b⟩
    rw [Nat.mod_eq_of_lt a] at b
    exact ⟨a, b⟩

/-! ### the function -/

section Fun
variable {K : Type} [Field K] [LinearOrder K] [IsStrictOrderedRing K]

/-- the point with the barycentric coordinates `l` lies on the closed element -/
def OnElem (d e : Nat) (l : Nat → K) : Prop := ∀ a, a < 4 → a ∉ verts d e → l a = 0

/-- all elements in the closed element are selected -/
def ClosedAt (s : Sp) (d e : Nat) : Prop := ∀ d' j, Elem d' j → Contained d' j d e → s.has d' j = true

/-- this is what `set` with closure gives -/
theorem set_closed (s t : Sp) (d e : Nat) (h : Elem d e) (ht : s.set d e true = some t) : ClosedAt t d e := by
  obtain ⟨t', ht', hi⟩ := set_iff s d e true h
  rw [ht] at ht'
  cases ht'
  exact fun d' j h' hc => (hi d' j h').2 (Or.inr (by simpa using hc))

omit [LinearOrder K] [IsStrictOrderedRing K] in
theorem sum_const (N : Nat) (val : K) (c φ : Nat → K) (hu : ((List.range N).map φ).sum = 1)
    (h : ∀ i, i < N → c i = val ∨ φ i = 0) : ((List.range N).map fun i => c i * φ i).sum = val := by
  have e : ((List.range N).map fun i => c i * φ i) = (List.range N).map fun i => val * φ i := by
    refine List.map_congr_left fun i hi => ?_
    rcases h i (List.mem_range.1 hi) with h | h <;> rw [h]
    simp
  rw [e, List.sum_map_mul_left, hu, mul_one]

/-- the general step: functions which sum to one, those of other elements vanish on the closed element -/
theorem value (c : Counts) (d : Nat) (s : Sp) (hs : Wf s) (n : Nat) (hn : d * (uniteObj c).numTet ≤ n) (val : K) (u φ : Nat → K)
    (hu : ((List.range (uniteObj c).numTet).map φ).sum = 1) (δ e : Nat) (hc : ClosedAt s δ e)
    (hloc : ∀ i, i < (uniteObj c).numTet → Elem (dimension ((uniteObj c).locate i).num) ((uniteObj c).locate i).nelem)
    (h0 : ∀ i, i < (uniteObj c).numTet →
      ¬ Contained (dimension ((uniteObj c).locate i).num) ((uniteObj c).locate i).nelem δ e → φ i = 0) (k : Nat) (hk : k < d) :
    ((List.range (uniteObj c).numTet).map fun i =>
      constant n val (.vector d (.unite c)) s u (k * (uniteObj c).numTet + i) * φ i).sum = val := by
  refine sum_const _ val (fun i => constant n val (.vector d (.unite c)) s u (k * (uniteObj c).numTet + i)) φ hu fun i hi => ?_
  by_cases hin : Contained (dimension ((uniteObj c).locate i).num) ((uniteObj c).locate i).nelem δ e
  · left
    have ho : (Tree.vector d (.unite c)).obj = vectorObj d (uniteObj c) := by simp [Tree.obj]
    have hlt : k * (uniteObj c).numTet + i < d * (uniteObj c).numTet := by
      have := Nat.mul_le_mul_right (uniteObj c).numTet (show k + 1 ≤ d from hk)
      rw [Nat.succ_mul] at this
      omega
    have hmod : (k * (uniteObj c).numTet + i) % (uniteObj c).numTet = i := by
      rw [Nat.add_comm, Nat.add_mul_mod_self_right, Nat.mod_eq_of_lt hi]
    rw [constant_partial _ s hs (show Regular s (.vector d (.unite c)) from ⟨trivial, trivial⟩) n (by rw [ho]; exact hn), if_pos]
    refine ⟨by rw [ho]; exact hlt, ?_⟩
    rw [ho]
    simp only [vectorObj, hmod]
    exact hc _ _ (hloc i hi) hin
  · exact Or.inr (h0 i hi hin)

omit [LinearOrder K] [IsStrictOrderedRing K] in
/-- a function which vanishes where a vertex coordinate of its element vanishes, on an element not containing its own -/
theorem vanish (d' j δ e : Nat) (h : Elem d' j) (l : Nat → K) (hl : OnElem δ e l) (v : K) (h0 : ∀ a ∈ verts d' j, l a = 0 → v = 0)
    (hin : ¬ Contained d' j δ e) : v = 0 := by
  unfold Contained at hin
  push Not at hin
  obtain ⟨a, ha, hna⟩ := hin
  refine h0 a ha (hl a ?_ hna)
  have key : ∀ p ∈ allElems, ∀ a ∈ verts p.1 p.2, a < 4 := by decide +kernel
  exact key _ (mem_allElems h) a ha

/-- P3: `DofSymmetries({1}, {0, 1}, {0}, {1, 0})`, poly_3.h:124 -/
def cP3 : Counts := ⟨1, 2, 0, 1, 0, 0⟩

variable {m : Mem K} {r p : Nat} {T : Nat → Nat → K} {x : Nat → K}

/-- **C76** for P1 and its powers: on a closed selected element every component of the function has the value. -/
theorem p1_constant (U : Nat → K) (hr : r < m.f) (hp : p < m.q) (hx : AtPoint m p T x) (d : Nat) (s : Sp) (hs : Wf s) (n : Nat)
    (hn : d * 4 ≤ n) (val : K) (u : Nat → K) (δ e : Nat) (hc : ClosedAt s δ e)
    (hl : OnElem δ e fun a => m.xyl (a + 4 * p)) (k : Nat) (hk : k < d) :
    ((List.range 4).map fun i => constant n val (.vector d (.unite GeomIter.exP1)) s u (k * 4 + i) *
      p1Iden m U (place m 1 4 r i p 0)).sum = val := by
  have hN : (uniteObj GeomIter.exP1).numTet = 4 := by decide +kernel
  have hloc : ∀ i, i < (uniteObj GeomIter.exP1).numTet → Elem (dimension ((uniteObj GeomIter.exP1).locate i).num) ((uniteObj GeomIter.exP1).locate i).nelem := by
    decide +kernel
  have h := value GeomIter.exP1 d s hs n (by rw [hN]; exact hn) val u (fun i => p1Iden m U (place m 1 4 r i p 0))
    (by rw [hN]; exact p1_unity m U hr hp hx) δ e hc hloc ?_ k hk
  · rw [hN] at h
    exact h
  · intro i hi hin
    refine vanish _ _ δ e (hloc i hi) _ hl _ (fun a ha hz => ?_) hin
    rw [hN] at hi
    have key : ∀ i, i < 4 → verts (dimension ((uniteObj GeomIter.exP1).locate i).num) ((uniteObj GeomIter.exP1).locate i).nelem = [i] := by
      decide +kernel
    rw [key i hi, List.mem_singleton] at ha
    subst ha
    rw [p1Iden_val hr hi hp]
    exact hz

/-- **C76** for P2 and its powers. -/
theorem p2_constant (U : Nat → K) (hr : r < m.f) (hp : p < m.q) (hx : AtPoint m p T x) (d : Nat) (s : Sp) (hs : Wf s) (n : Nat)
    (hn : d * 10 ≤ n) (val : K) (u : Nat → K) (δ e : Nat) (hc : ClosedAt s δ e)
    (hl : OnElem δ e fun a => m.xyl (a + 4 * p)) (k : Nat) (hk : k < d) :
    ((List.range 10).map fun i => constant n val (.vector d (.unite exP2)) s u (k * 10 + i) *
      p2Iden m U (place m 1 10 r i p 0)).sum = val := by
  have hN : (uniteObj exP2).numTet = 10 := by decide +kernel
  have hloc : ∀ i, i < (uniteObj exP2).numTet → Elem (dimension ((uniteObj exP2).locate i).num) ((uniteObj exP2).locate i).nelem := by
    decide +kernel
  have h := value exP2 d s hs n (by rw [hN]; exact hn) val u (fun i => p2Iden m U (place m 1 10 r i p 0))
    (by rw [hN]; exact p2_unity m U hr hp hx) δ e hc hloc ?_ k hk
  · rw [hN] at h
    exact h
  · intro i hi hin
    refine vanish _ _ δ e (hloc i hi) _ hl _ (fun a ha hz => ?_) hin
    rw [hN] at hi
    have key : ∀ i, i < 10 → verts (dimension ((uniteObj exP2).locate i).num) ((uniteObj exP2).locate i).nelem =
        if i < 4 then [i] else [tI (i - 4), tJ (i - 4)] := by decide +kernel
    rw [key i hi] at ha
    rw [p2Iden_val hr hi hp]
    unfold p2v
    by_cases h4 : i < 4
    · rw [if_pos h4, List.mem_singleton] at ha
      subst ha
      simp [h4, hz]
    · rw [if_neg h4] at ha
      simp only [List.mem_cons, List.not_mem_nil, or_false] at ha
      rcases ha with rfl | rfl <;> simp [h4, hz]

/-- **C76** for P3 and its powers. -/
theorem p3_constant (U : Nat → K) (hr : r < m.f) (hp : p < m.q) (hx : AtPoint m p T x) (d : Nat) (s : Sp)
    (hs : Wf s) (n : Nat) (hn : d * 20 ≤ n) (val : K) (u : Nat → K) (δ e : Nat) (hc : ClosedAt s δ e)
    (hl : OnElem δ e fun a => m.xyl (a + 4 * p)) (k : Nat) (hk : k < d) :
    ((List.range 20).map fun i => constant n val (.vector d (.unite cP3)) s u (k * 20 + i) *
      p3Iden m U (place m 1 20 r i p 0)).sum = val := by
  have hN : (uniteObj cP3).numTet = 20 := by decide +kernel
  have hloc : ∀ i, i < (uniteObj cP3).numTet → Elem (dimension ((uniteObj cP3).locate i).num) ((uniteObj cP3).locate i).nelem := by
    decide +kernel
  have h := value cP3 d s hs n (by rw [hN]; exact hn) val u (fun i => p3Iden m U (place m 1 20 r i p 0))
    (by rw [hN]; exact p3_unity m U hr hp hx) δ e hc hloc ?_ k hk
  · rw [hN] at h
    exact h
  · intro i hi hin
    refine vanish _ _ δ e (hloc i hi) _ hl _ (fun a ha hz => ?_) hin
    rw [hN] at hi
    have key : ∀ i, i < 20 → verts (dimension ((uniteObj cP3).locate i).num) ((uniteObj cP3).locate i).nelem =
        if i < 4 then [i] else if i < 16 then [tI ((i - 4) / 2), tJ ((i - 4) / 2)]
        else [ipf (0 + 4 * (i - 16)), ipf (1 + 4 * (i - 16)), ipf (2 + 4 * (i - 16))] := by decide +kernel
    rw [key i hi] at ha
    rw [p3Iden_val hr hi hp]
    unfold p3v
    by_cases h4 : i < 4
    · rw [if_pos h4, List.mem_singleton] at ha
      subst ha
      simp [h4, hz]
    · rw [if_neg h4] at ha
      by_cases h16 : i < 16
      · rw [if_pos h16] at ha
        simp only [List.mem_cons, List.not_mem_nil, or_false] at ha
        rcases ha with rfl | rfl <;> (simp only [h4, h16, if_true, if_false, hz]; split <;> simp)
      · rw [if_neg h16] at ha
        simp only [List.mem_cons, List.not_mem_nil, or_false] at ha
        rcases ha with rfl | rfl | rfl <;> simp only [h4, h16, if_false, hz] <;> simp

/-- CR1: one d.o.f. per face, crouzeix_raviart_1.h:91 -/
def cCR : Counts := ⟨0, 0, 0, 1, 0, 0⟩

/-- **C76** for CR1 and its powers, the whole tetrahedron selected. -/
theorem cr1_constant (U : Nat → K) (hr : r < m.f) (hp : p < m.q) (hx : AtPoint m p T x) (d : Nat) (s : Sp) (hs : Wf s) (n : Nat)
    (hn : d * 4 ≤ n) (val : K) (u : Nat → K) (hc : ClosedAt s 3 0) (k : Nat) (hk : k < d) :
    ((List.range 4).map fun i => constant n val (.vector d (.unite cCR)) s u (k * 4 + i) *
      cr1Iden m U (place m 1 4 r i p 0)).sum = val := by
  have hN : (uniteObj cCR).numTet = 4 := by decide +kernel
  have h := value cCR d s hs n (by rw [hN]; exact hn) val u (fun i => cr1Iden m U (place m 1 4 r i p 0))
    (by rw [hN]; exact cr1_unity m U hr hp hx) 3 0 hc (by decide +kernel) ?_ k hk
  · rw [hN] at h
    exact h
  · have key : ∀ i, i < (uniteObj cCR).numTet →
        Contained (dimension ((uniteObj cCR).locate i).num) ((uniteObj cCR).locate i).nelem 3 0 := by decide +kernel
    exact fun i hi hin => absurd (key i hi) hin

/-- **C76 fails for CR1 on a face**: the functions of the other faces do not vanish there, so the function keeps a part of
the old coefficients (1, 2, 3 here) on the face. -/
theorem cr1_face_wrong : ∃ (s : Sp) (u l : Nat → ℚ), Wf s ∧ ClosedAt s 2 0 ∧ OnElem 2 0 l ∧ l 0 + l 1 + l 2 + l 3 = 1 ∧
    ((List.range 4).map fun i => constant 4 1 (.unite cCR) s u i * cr1v l i).sum ≠ 1 := by
  have hw : Wf ((Sp.none.set 2 0 true).getD Sp.none) := wf_set _ _ wf_none 2 0 true (by decide) rfl
  refine ⟨(Sp.none.set 2 0 true).getD Sp.none, fun j => j, fun a => if a = 0 then 1 else 0, hw,
    set_closed Sp.none _ 2 0 (by decide) rfl, ?_, ?_, ?_⟩
  · intro a ha hna
    have : a ≠ 0 := by
      rintro rfl
      exact hna (by decide)
    simp [this]
  · norm_num
  · have ho : (Tree.unite cCR).obj = uniteObj cCR := by simp [Tree.obj]
    have hv : ∀ i, constant 4 (1 : ℚ) (.unite cCR) ((Sp.none.set 2 0 true).getD Sp.none) (fun j => (j : ℚ)) i =
        if Chosen (.unite cCR) ((Sp.none.set 2 0 true).getD Sp.none) i then 1 else (i : ℚ) := fun i =>
      constant_partial _ _ hw (show Regular _ (.unite cCR) from trivial) 4 (by rw [ho]; decide +kernel) 1 _ i
    have h0 : Chosen (.unite cCR) ((Sp.none.set 2 0 true).getD Sp.none) 0 := by decide +kernel
    have h1 : ¬ Chosen (.unite cCR) ((Sp.none.set 2 0 true).getD Sp.none) 1 := by decide +kernel
    have h2 : ¬ Chosen (.unite cCR) ((Sp.none.set 2 0 true).getD Sp.none) 2 := by decide +kernel
    have h3 : ¬ Chosen (.unite cCR) ((Sp.none.set 2 0 true).getD Sp.none) 3 := by decide +kernel
    simp only [show List.range 4 = [0, 1, 2, 3] from rfl, List.map_cons, List.map_nil, List.sum_cons, List.sum_nil, hv]
    rw [if_pos h0, if_neg h1, if_neg h2, if_neg h3]
    norm_num [cr1v, ipf3]

/-- MINI: P1 and the bubble B4 on the same tetrahedron (bubble_4.h:91) -/
def cMini : Counts := ⟨1, 0, 0, 0, 0, 1⟩

/-- **C76 fails for unions with bubbles**: setting the constant `val ≠ 0` on the closed tetrahedron in `P1 + B4` gives a
function which is not `val` at any point off the faces, since the coefficient of the bubble is set too. -/
theorem mini_wrong (U V : Nat → K) (hr : r < m.f) (hp : p < m.q) (hx : AtPoint m p T x) (s : Sp) (hs : Wf s) (n : Nat) (hn : 5 ≤ n)
    (val : K) (hv : val ≠ 0) (u : Nat → K) (hc : ClosedAt s 3 0) (hl : ∀ a, a < 4 → m.xyl (a + 4 * p) ≠ 0) :
    ((List.range 4).map fun i => constant n val (.unite cMini) s u i * p1Iden m U (place m 1 4 r i p 0)).sum +
      constant n val (.unite cMini) s u 4 * b4Iden m V (place m 1 1 r 0 p 0) ≠ val := by
  have ho : (Tree.unite cMini).obj = uniteObj cMini := by simp [Tree.obj]
  have hN : (uniteObj cMini).numTet = 5 := by decide +kernel
  have hw : ∀ i, i < 5 → constant n val (.unite cMini) s u i = val := by
    intro i hi
    rw [constant_partial _ s hs (show Regular s (.unite cMini) from trivial) n (by rw [ho, hN]; exact hn), if_pos]
    have key : ∀ i, i < 5 → Elem (dimension ((uniteObj cMini).locate i).num) ((uniteObj cMini).locate i).nelem ∧
        Contained (dimension ((uniteObj cMini).locate i).num) ((uniteObj cMini).locate i).nelem 3 0 := by decide +kernel
    refine ⟨by rw [ho, hN]; exact hi, ?_⟩
    rw [ho]
    exact hc _ _ (key i hi).1 (key i hi).2
  rw [sum_const 4 val _ _ (p1_unity m U hr hp hx) (fun i hi => Or.inl (hw i (by omega))), hw 4 (by omega), b4Iden_val hr hp]
  intro h
  have h' : val * b4v (fun a => m.xyl (a + 4 * p)) = 0 := by linear_combination h
  rcases mul_eq_zero.1 h' with h | h
  · exact hv h
  · unfold b4v at h
    have := hl 0 (by omega)
    have := hl 1 (by omega)
    have := hl 2 (by omega)
    have := hl 3 (by omega)
    simp_all

end Fun

/-! ### a case -/

/-- the whole tetrahedron -/
example : Wf ((Sp.none.set 3 0 true).getD Sp.none) ∧ ClosedAt ((Sp.none.set 3 0 true).getD Sp.none) 3 0 :=
  ⟨wf_set _ _ wf_none 3 0 true (by decide) rfl, set_closed Sp.none _ 3 0 (by decide) rfl⟩

/-- the closed face 2 and its middle -/
example : Wf exFace ∧ ClosedAt exFace 2 2 ∧ OnElem 2 2 (fun a => if a = 1 then (0 : ℚ) else 1 / 3) := by
  refine ⟨wf_set _ _ wf_none 2 2 true (by decide) rfl, set_closed Sp.none _ 2 2 (by decide) rfl, ?_⟩
  intro a ha hna
  have : ∀ a, a < 4 → a ∉ verts 2 2 → a = 1 := by decide
  simp [this a ha hna]

end Verif.InterpConst
