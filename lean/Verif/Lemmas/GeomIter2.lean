import Verif.Lemmas.GeomIter
import Mathlib.Data.List.Nodup

namespace Verif.GeomIter
open Verif.DofMap Verif.Sparsity

theorem dimension_eq (k : Nat) : dimension k = dimOf k := rfl

/-- what a map promises about its iteration in the default order -/
structure Good (o : IterObj) (s : Sp) (L : List It) : Prop where
  start : o.start false s = L.head?
  steps : Steps (o.next false s) L none
  lists : Lists o.obj.numTet o.obj.locate s.has L

/-! ### primitive maps -/

theorem mem_block (c : Counts) (n i : Nat) (x : It) :
    x ∈ block c n i ↔ x.2.num = n ∧ x.2.nelem = i ∧ x.2.leid < c.get n ∧ x.1 = (uniteObj c).tetId x.2 := by
  unfold block
  simp only [List.mem_map, List.mem_range]
  constructor
  · rintro ⟨e, he, rfl⟩; exact ⟨rfl, rfl, he, rfl⟩
  · rintro ⟨rfl, rfl, h3, h4⟩
    exact ⟨x.2.leid, h3, by rw [Prod.ext_iff]; exact ⟨h4.symm, rfl⟩⟩

theorem mem_items (c : Counts) (d i : Nat) (hd : d < 4) (x : It) :
    x ∈ items c d i ↔ x.2.num < 6 ∧ dimOf x.2.num = d ∧ x.2.nelem = i ∧ x.2.leid < c.get x.2.num ∧
      x.1 = (uniteObj c).tetId x.2 := by
  have : d = 0 ∨ d = 1 ∨ d = 2 ∨ d = 3 := by omega
  unfold items
  simp only [List.mem_flatMap, mem_block]
  constructor
  · rintro ⟨n, hn, h1, h2, h3, h4⟩
    rw [h1]
    refine ⟨?_, ?_, h2, h3, h4⟩ <;> rcases this with rfl | rfl | rfl | rfl <;> simp only [kinds, List.mem_cons,
      List.not_mem_nil, or_false] at hn <;> (try rcases hn with rfl | rfl) <;> (try subst hn) <;> simp [dimOf]
  · rintro ⟨h0, h1, h2, h3, h4⟩
    refine ⟨x.2.num, ?_, rfl, h2, h3, h4⟩
    have h6 : x.2.num = 0 ∨ x.2.num = 1 ∨ x.2.num = 2 ∨ x.2.num = 3 ∨ x.2.num = 4 ∨ x.2.num = 5 := by omega
    rw [← h1]
    rcases h6 with h | h | h | h | h | h <;> rw [h] <;> simp [dimOf, kinds]

theorem count_dimOf (k : Nat) (h : k < 6) : count (dimOf k) = elems k := by
  have h6 : k = 0 ∨ k = 1 ∨ k = 2 ∨ k = 3 ∨ k = 4 ∨ k = 5 := by omega
  rcases h6 with rfl | rfl | rfl | rfl | rfl | rfl <;> rfl

theorem mem_restL (c : Counts) (s : Sp) (x : It) :
    x ∈ restL c s 0 ↔ x.2.Valid c.get ∧ s.has (dimOf x.2.num) x.2.nelem = true ∧ x.1 = (uniteObj c).tetId x.2 := by
  unfold restL dimL
  simp only [List.mem_flatMap, List.mem_range'_1, mem_idsFrom]
  constructor
  · rintro ⟨d, hd, i, ⟨-, h1, h2⟩, hx⟩
    rw [mem_items c d i (by omega)] at hx
    obtain ⟨h3, h4, h5, h6, h7⟩ := hx
    subst h4; subst h5
    rw [count_dimOf _ h3] at h1
    exact ⟨⟨h3, h1, h6⟩, h2, h7⟩
  · rintro ⟨⟨h1, h2, h3⟩, h4, h5⟩
    have hd : dimOf x.2.num < 4 := by unfold dimOf; split <;> omega
    refine ⟨dimOf x.2.num, by omega, x.2.nelem, ⟨Nat.zero_le _, by rw [count_dimOf _ h1]; exact h2, h4⟩, ?_⟩
    rw [mem_items c _ _ hd]
    exact ⟨h1, rfl, rfl, h3, h5⟩

theorem block_nodup (c : Counts) (n i : Nat) : (block c n i).Nodup := by
  unfold block
  apply List.Nodup.map _ List.nodup_range
  intro a b h
  simp only [Prod.mk.injEq, Loc.mk.injEq, true_and] at h
  exact h.2

theorem nodup_flatMap_of {α β : Type} (l : List α) (f : α → List β) (key : β → α) (hl : l.Nodup)
    (h1 : ∀ a ∈ l, (f a).Nodup) (h2 : ∀ a ∈ l, ∀ b ∈ f a, key b = a) : (l.flatMap f).Nodup := by
  induction l with
  | nil => simp
  | cons a l ih =>
    rw [List.flatMap_cons, List.nodup_append]
    have hn := List.nodup_cons.1 hl
    refine ⟨h1 a (by simp), ih hn.2 (fun b hb => h1 b (by simp [hb])) (fun b hb => h2 b (by simp [hb])), ?_⟩
    intro x hx y hy e
    subst e
    obtain ⟨b, hb, hy⟩ := List.mem_flatMap.1 hy
    have e1 := h2 a (by simp) x hx
    have e2 := h2 b (by simp [hb]) x hy
    rw [← e1, e2] at hn
    exact hn.1 hb

theorem items_nodup (c : Counts) (d i : Nat) : (items c d i).Nodup := by
  unfold items
  apply nodup_flatMap_of _ _ (fun x => x.2.num)
  · unfold kinds; split <;> decide
  · intro n _; exact block_nodup c n i
  · intro n _ x hx; exact ((mem_block c n i x).1 hx).1

theorem restL_nodup (c : Counts) (s : Sp) : (restL c s 0).Nodup := by
  unfold restL
  apply nodup_flatMap_of _ _ (fun x => dimOf x.2.num)
  · exact List.nodup_range'
  · intro d hd
    simp only [List.mem_range'_1] at hd
    unfold dimL
    apply nodup_flatMap_of _ _ (fun x => x.2.nelem)
    · exact List.Nodup.filter _ List.nodup_range'
    · intro i _; exact items_nodup c d i
    · intro i _ x hx; exact ((mem_items c d i (by omega) x).1 hx).2.2.1
  · intro d hd x hx
    simp only [List.mem_range'_1] at hd
    unfold dimL at hx
    obtain ⟨i, _, hx⟩ := List.mem_flatMap.1 hx
    exact ((mem_items c d i (by omega) x).1 hx).2.1

theorem good_unite (c : Counts) (s : Sp) (hs : Wf s) : Good (uniteIter c) s (restL c s 0) := by
  have hb := unite_bijective c
  refine ⟨?_, steps_restL c s hs 0, ?_⟩
  · show genBegin (uniteObj c) s = _
    rw [← genFrom_zero, genFrom_eq c s hs]
  · refine ⟨?_, ?_, restL_nodup c s⟩
    · intro x hx
      obtain ⟨h1, h2, h3⟩ := (mem_restL c s x).1 hx
      refine ⟨?_, ?_, h2⟩
      · rw [h3]; exact hb.number_lt _ h1
      · rw [h3]; exact (hb.right_inv _ h1).symm
    · intro g hg hsel
      rw [mem_restL]
      exact ⟨hb.valid g hg, hsel, (hb.left_inv g hg).symm⟩

theorem tetId_lt (c : Counts) (l m : Loc) (hl : l.Valid c.get) (hm : m.Valid c.get)
    (h : l.num < m.num ∨ l.num = m.num ∧ (l.nelem < m.nelem ∨ l.nelem = m.nelem ∧ l.leid < m.leid)) :
    (uniteObj c).tetId l < (uniteObj c).tetId m := by
  simp only [uniteObj]
  obtain ⟨l1, l2, l3⟩ := hl
  obtain ⟨m1, m2, m3⟩ := hm
  have hstep : l.nelem * c.get l.num + l.leid < (l.nelem + 1) * c.get l.num := by rw [Nat.succ_mul]; omega
  rcases h with h | ⟨h, h'⟩
  · have h1 : pre c.tetSizes (l.num + 1) = pre c.tetSizes l.num + elems l.num * c.get l.num := by
      rw [pre_succ _ _ (by rw [tetSizes_length]; exact l1), tetSizes_get]
    have h2 := pre_mono c.tetSizes (j := l.num + 1) (k := m.num) h
    have h3 : (l.nelem + 1) * c.get l.num ≤ elems l.num * c.get l.num := Nat.mul_le_mul_right _ l2
    omega
  · rw [← h]
    rcases h' with h' | ⟨h', h''⟩
    · have h3 : (l.nelem + 1) * c.get l.num ≤ m.nelem * c.get l.num := Nat.mul_le_mul_right _ h'
      omega
    · rw [← h']; omega

/-- at most one of the two kinds of edge d.o.f.s, and of face d.o.f.s, is present -/
def Counts.plain (c : Counts) : Prop := (c.eu = 0 ∨ c.eo = 0) ∧ (c.fu = 0 ∨ c.fo = 0)

theorem restL_increasing (c : Counts) (hc : Counts.plain c) (s : Sp) : Increasing (restL c s 0) := by
  have hkey : ∀ x y : It, x ∈ restL c s 0 → y ∈ restL c s 0 →
      (dimOf x.2.num < dimOf y.2.num ∨ dimOf x.2.num = dimOf y.2.num ∧
        (x.2.nelem < y.2.nelem ∨ x.2.nelem = y.2.nelem ∧ x.2.leid < y.2.leid)) → x.1 < y.1 := by
    intro x y hx hy h
    obtain ⟨x1, x2, x3⟩ := (mem_restL c s x).1 hx
    obtain ⟨y1, y2, y3⟩ := (mem_restL c s y).1 hy
    rw [x3, y3]
    apply tetId_lt c _ _ x1 y1
    obtain ⟨hx6, -, hxl⟩ := x1
    obtain ⟨hy6, -, hyl⟩ := y1
    obtain ⟨he, hf⟩ := hc
    have h6 : x.2.num = 0 ∨ x.2.num = 1 ∨ x.2.num = 2 ∨ x.2.num = 3 ∨ x.2.num = 4 ∨ x.2.num = 5 := by omega
    have h6' : y.2.num = 0 ∨ y.2.num = 1 ∨ y.2.num = 2 ∨ y.2.num = 3 ∨ y.2.num = 4 ∨ y.2.num = 5 := by omega
    rcases h6 with e | e | e | e | e | e <;> rcases h6' with e' | e' | e' | e' | e' | e' <;>
      rw [e] at h hxl ⊢ <;> rw [e'] at h hyl ⊢ <;> simp only [dimOf, Counts.get] at h hxl hyl <;> omega
  have hmono : ∀ L : List It, (∀ x ∈ L, x ∈ restL c s 0) → L.Pairwise (fun x y =>
      (dimOf x.2.num < dimOf y.2.num ∨ dimOf x.2.num = dimOf y.2.num ∧
        (x.2.nelem < y.2.nelem ∨ x.2.nelem = y.2.nelem ∧ x.2.leid < y.2.leid))) → Increasing L := by
    intro L hL hp
    induction hp with
    | nil => exact List.Pairwise.nil
    | cons h _ ih =>
      refine List.Pairwise.cons (fun y hy => hkey _ _ (hL _ (by simp)) (hL _ (by simp [hy])) (h y hy))
        (ih fun x hx => hL x (by simp [hx]))
  apply hmono _ (fun x hx => hx)
  have hblock : ∀ n i, (block c n i).Pairwise (fun x y =>
      (dimOf x.2.num < dimOf y.2.num ∨ dimOf x.2.num = dimOf y.2.num ∧
        (x.2.nelem < y.2.nelem ∨ x.2.nelem = y.2.nelem ∧ x.2.leid < y.2.leid))) := by
    intro n i
    unfold block
    rw [List.pairwise_map]
    refine List.pairwise_lt_range.imp fun h => ?_
    right; exact ⟨rfl, Or.inr ⟨rfl, h⟩⟩
  have hitems : ∀ d i, d < 4 → (items c d i).Pairwise (fun x y =>
      (dimOf x.2.num < dimOf y.2.num ∨ dimOf x.2.num = dimOf y.2.num ∧
        (x.2.nelem < y.2.nelem ∨ x.2.nelem = y.2.nelem ∧ x.2.leid < y.2.leid))) := by
    intro d i hd
    have hz : ∀ n, c.get n = 0 → block c n i = [] := by intro n hn; simp [block, hn]
    have : d = 0 ∨ d = 1 ∨ d = 2 ∨ d = 3 := by omega
    obtain ⟨he, hf⟩ := hc
    rcases this with rfl | rfl | rfl | rfl <;> simp only [items, kinds, List.flatMap_cons, List.flatMap_nil, List.append_nil]
    · exact hblock 0 i
    · rcases he with he | he
      · rw [hz 1 he, List.nil_append]; exact hblock 2 i
      · rw [hz 2 he, List.append_nil]; exact hblock 1 i
    · rcases hf with he | he
      · rw [hz 3 he, List.nil_append]; exact hblock 4 i
      · rw [hz 4 he, List.append_nil]; exact hblock 3 i
    · exact hblock 5 i
  unfold restL
  rw [List.pairwise_flatMap]
  refine ⟨?_, ?_⟩
  · intro d hd
    simp only [List.mem_range'_1] at hd
    unfold dimL
    rw [List.pairwise_flatMap]
    refine ⟨fun i _ => hitems d i (by omega), ?_⟩
    have hsorted : (idsFrom s d 0).Pairwise (· < ·) := List.Pairwise.filter _ List.pairwise_lt_range'
    refine hsorted.imp fun {i j} hij x hx y hy => ?_
    have hx' := (mem_items c d i (by omega) x).1 hx
    have hy' := (mem_items c d j (by omega) y).1 hy
    right
    refine ⟨by rw [hx'.2.1, hy'.2.1], Or.inl ?_⟩
    rw [hx'.2.2.1, hy'.2.2.1]; exact hij
  · have hsorted : (List.range' 0 (4 - 0)).Pairwise (· < ·) := List.pairwise_lt_range'
    refine List.Pairwise.imp_of_mem (fun {a b} ha hb hab x hx y hy => ?_) hsorted
    simp only [List.mem_range'_1] at ha hb
    unfold dimL at hx hy
    obtain ⟨i, _, hx⟩ := List.mem_flatMap.1 hx
    obtain ⟨j, _, hy⟩ := List.mem_flatMap.1 hy
    have hx' := (mem_items c a i (by omega) x).1 hx
    have hy' := (mem_items c b j (by omega) y).1 hy
    left
    rw [hx'.2.1, hy'.2.1]; exact hab

/-! ### powers -/

theorem steps_map {α : Type} (next next' : α → Option α) (f : α → α) (L : List α) (e : Option α)
    (h : Steps next L none)
    (hf : ∀ x ∈ L, next' (f x) = match next x with | some y => some (f y) | none => e) :
    Steps next' (L.map f) e := by
  induction L with
  | nil => trivial
  | cons a L ih =>
    refine ⟨?_, ih h.2 fun x hx => hf x (by simp [hx])⟩
    rw [hf a (by simp), h.1, Option.or_none]
    cases L <;> simp

theorem good_valid (o : IterObj) (s : Sp) (L : List It) (hg : Good o s L)
    (hb : BijectiveLoc o.obj.numTet o.obj.numDof o.obj.locate) (x : It) (hx : x ∈ L) :
    x.1 < o.obj.numTet ∧ x.2 = o.obj.locate x.1 ∧ x.2.Valid o.obj.numDof := by
  obtain ⟨h1, h2, -⟩ := hg.lists.sound x hx
  exact ⟨h1, h2, h2 ▸ hb.valid _ h1⟩

theorem place_next (d : Nat) (b : IterObj) (s : Sp) (k : Nat) (x : It) (h1 : x.1 < b.obj.numTet)
    (h2 : x.2.leid < b.obj.numDof x.2.num) :
    vectorNext d b false s (place b.obj k x) = match b.next false s x with
      | some y => some (place b.obj k y)
      | none => if k + 1 ≠ d then (b.start false s).map (place b.obj (k + 1)) else none := by
  have e1 : (x.1 + k * b.obj.numTet) / b.obj.numTet = k := by
    rw [Nat.add_mul_div_right _ _ (by omega), Nat.div_eq_of_lt h1, Nat.zero_add]
  have e2 : (x.1 + k * b.obj.numTet) % b.obj.numTet = x.1 := by
    rw [Nat.add_mul_mod_self_right, Nat.mod_eq_of_lt h1]
  have e3 : (x.2.leid + k * b.obj.numDof x.2.num) % b.obj.numDof x.2.num = x.2.leid := by
    rw [Nat.add_mul_mod_self_right, Nat.mod_eq_of_lt h2]
  simp only [vectorNext, place, e1, e2, e3, if_true]
  rfl

/-- states of a power -/
def vectorL (d : Nat) (b : Obj) (L : List It) : List It := (List.range d).flatMap fun k => L.map (place b k)

theorem place_zero (b : Obj) (x : It) : place b 0 x = x := by simp [place]

theorem genBegin_vector (d : Nat) (b : Obj) (s : Sp) (hd : 0 < d) : genBegin (vectorObj d b) s = genBegin b s := by
  unfold genBegin
  apply findSome_congr
  intro i hi
  have hcomp : compact (vectorObj d b) i ≠ 0 ↔ compact b i ≠ 0 := by
    have hz : ∀ n, d * n = 0 ↔ n = 0 := by
      intro n
      rw [Nat.mul_eq_zero]
      omega
    have : i = 0 ∨ i = 1 ∨ i = 2 ∨ i = 3 := by simp only [List.mem_range] at hi; omega
    rcases this with rfl | rfl | rfl | rfl <;> simp only [compact, vectorObj, ne_eq, not_iff_not, ← Nat.mul_add, hz]
  have hk : kindFor (vectorObj d b) i = kindFor b i := by
    have hp : ∀ n, d * n > 0 ↔ n > 0 := by
      intro n
      constructor
      · intro h; exact Nat.pos_of_ne_zero fun h0 => by rw [h0] at h; simp at h
      · intro h; exact Nat.mul_pos hd h
    unfold kindFor
    split <;> simp [vectorObj, hp]
  have ht : ∀ n i, (vectorObj d b).tetId ⟨n, i, 0⟩ = b.tetId ⟨n, i, 0⟩ := by
    intro n i; simp [vectorObj]
  simp only [hk, ht, hcomp]

theorem genBegin_vector_zero (b : Obj) (s : Sp) : genBegin (vectorObj 0 b) s = none := by
  unfold genBegin
  rw [List.findSome?_eq_none_iff]
  intro i hi
  have hcomp : compact (vectorObj 0 b) i = 0 := by
    unfold compact; split <;> simp [vectorObj]
  rw [hcomp]
  simp

theorem good_vector (d : Nat) (b : IterObj) (s : Sp) (L : List It) (hg : Good b s L)
    (hb : BijectiveLoc b.obj.numTet b.obj.numDof b.obj.locate) (hst : b.start false s = genBegin b.obj s) :
    Good (vectorIter d b) s (vectorL d b.obj L) := by
  have hv := good_valid b s L hg hb
  refine ⟨?_, ?_, ?_⟩
  · show genBegin (vectorObj d b.obj) s = _
    rcases Nat.eq_zero_or_pos d with rfl | hd
    · rw [genBegin_vector_zero]; simp [vectorL]
    · rw [genBegin_vector d _ s hd, ← hst, hg.start]
      obtain ⟨m, rfl⟩ : ∃ m, d = m + 1 := ⟨d - 1, by omega⟩
      unfold vectorL
      rw [List.range_succ_eq_map, List.flatMap_cons, List.head?_append]
      have : L.map (place b.obj 0) = L := by
        rw [show place b.obj 0 = id from funext fun x => place_zero _ x]; simp
      rw [this]
      cases L with
      | nil =>
        symm
        rw [List.head?_nil, Option.none_or, List.head?_flatMap, List.findSome?_eq_none_iff]
        intro x _; rfl
      | cons a r => rfl
  · show Steps (vectorNext d b false s) _ none
    have key : ∀ k, k ≤ d → Steps (vectorNext d b false s)
        ((List.range k).flatMap fun k => L.map (place b.obj k))
        (if k ≠ d then (L.head?).map (place b.obj k) else none) := by
      intro k
      induction k with
      | zero => intro _; trivial
      | succ k ih =>
        intro hk
        have ih' := ih (by omega)
        rw [List.range_succ, List.flatMap_append, steps_append]
        simp only [List.flatMap_cons, List.flatMap_nil, List.append_nil]
        refine ⟨?_, ?_⟩
        · rw [if_pos (by omega)] at ih'
          rw [List.head?_map]
          cases L with
          | nil =>
            have : (List.range k).flatMap (fun k => ([] : List It).map (place b.obj k)) = [] := by simp
            rw [this]; trivial
          | cons a r => exact ih'
        · apply steps_map _ _ _ _ _ hg.steps
          intro x hx
          obtain ⟨h1, h2, h3⟩ := hv x hx
          rw [place_next d b s k x h1 h3.2.2, hg.start]
          cases b.next false s x <;> rfl
    have := key d (Nat.le_refl d)
    rw [if_neg (by simp)] at this
    exact this
  · refine ⟨?_, ?_, ?_⟩
    · intro x hx
      obtain ⟨k, hk, hx⟩ := List.mem_flatMap.1 hx
      obtain ⟨y, hy, rfl⟩ := List.mem_map.1 hx
      obtain ⟨h1, h2, h3⟩ := hv y hy
      have hs := (hg.lists.sound y hy).2.2
      simp only [List.mem_range] at hk
      refine ⟨?_, ?_, hs⟩
      · show y.1 + k * b.obj.numTet < d * b.obj.numTet
        have := Nat.mul_le_mul_right b.obj.numTet (show k + 1 ≤ d from hk)
        rw [Nat.succ_mul] at this
        omega
      · show _ = (vectorObj d b.obj).locate (y.1 + k * b.obj.numTet)
        have := vector_locate d b.obj k y.1 h1
        rw [Nat.add_comm y.1, this, ← h2]
        simp [place, Loc.shift, Nat.mul_comm]
    · intro g hgt hsel
      have hgt' : g < d * b.obj.numTet := hgt
      have hpos : 0 < b.obj.numTet := Nat.pos_of_ne_zero fun h => by rw [h] at hgt'; simp at hgt'
      have hk : g / b.obj.numTet < d := Nat.div_lt_of_lt_mul (by rw [Nat.mul_comm]; exact hgt')
      have hm := Nat.mod_lt g hpos
      have hloc : (vectorObj d b.obj).locate g =
          ⟨(b.obj.locate (g % b.obj.numTet)).num, (b.obj.locate (g % b.obj.numTet)).nelem,
            (b.obj.locate (g % b.obj.numTet)).leid +
            (g / b.obj.numTet) * b.obj.numDof (b.obj.locate (g % b.obj.numTet)).num⟩ := rfl
      have hsel' : s.has (dimension (b.obj.locate (g % b.obj.numTet)).num) (b.obj.locate (g % b.obj.numTet)).nelem = true := by
        have h' : s.has (dimension ((vectorObj d b.obj).locate g).num) ((vectorObj d b.obj).locate g).nelem = true := hsel
        rw [hloc] at h'
        exact h'
      have hin := hg.lists.complete _ hm hsel'
      refine List.mem_flatMap.2 ⟨g / b.obj.numTet, List.mem_range.2 hk, List.mem_map.2 ⟨_, hin, ?_⟩⟩
      show place b.obj (g / b.obj.numTet) _ = (g, (vectorObj d b.obj).locate g)
      rw [hloc]
      unfold place
      have := Nat.div_add_mod g b.obj.numTet
      rw [Nat.mul_comm] at this
      simp only [Prod.mk.injEq, and_true]
      omega
    · apply nodup_flatMap_of _ _ (fun x => x.1 / b.obj.numTet) List.nodup_range
      · intro k _
        apply List.Nodup.map _ hg.lists.once
        intro x y h
        simp only [place, Prod.mk.injEq, Loc.mk.injEq] at h
        obtain ⟨h1, h2, h3, h4⟩ := h
        rw [h2] at h4
        have e1 : x.1 = y.1 := by omega
        have e2 : x.2.leid = y.2.leid := by omega
        have e3 : x.2 = y.2 := by cases hx : x.2; cases hy : y.2; simp_all
        exact Prod.ext e1 e3
      · intro k _ x hx
        obtain ⟨y, hy, rfl⟩ := List.mem_map.1 hx
        obtain ⟨h1, -, -⟩ := hv y hy
        show (y.1 + k * b.obj.numTet) / b.obj.numTet = k
        rw [Nat.add_mul_div_right _ _ (by omega), Nat.div_eq_of_lt h1, Nat.zero_add]

theorem vectorL_increasing (d : Nat) (b : Obj) (L : List It) (h : Increasing L) (hlt : ∀ x ∈ L, x.1 < b.numTet) :
    Increasing (vectorL d b L) := by
  unfold Increasing vectorL
  rw [List.pairwise_flatMap]
  refine ⟨?_, ?_⟩
  · intro k _
    rw [List.pairwise_map]
    refine List.Pairwise.imp (fun {x y} hxy => ?_) h
    show x.1 + k * b.numTet < y.1 + k * b.numTet
    omega
  · refine List.pairwise_lt_range.imp fun {i j} hij x hx y hy => ?_
    obtain ⟨x', hx', rfl⟩ := List.mem_map.1 hx
    obtain ⟨y', hy', rfl⟩ := List.mem_map.1 hy
    have := Nat.mul_le_mul_right b.numTet (show i + 1 ≤ j from hij)
    rw [Nat.succ_mul] at this
    have := hlt x' hx'
    show x'.1 + i * b.numTet < y'.1 + j * b.numTet
    omega

end Verif.GeomIter
