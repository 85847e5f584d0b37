import Verif.Lemmas.TagCopy

/-!
C68: the values of d.o.f.s are stored in vectors, in one array per element, and in one array per element and variable; copies
between these forms give every d.o.f. its value and touch nothing else.
-/
namespace Verif.TagCopy
open Verif.Enumerator Verif.GeomWalk Verif.DofMap

variable {R : Type}

section
variable (idx : Place → Option Nat) (vars : List Var) (m : Mesh) (fuel : Nat)

/-- **C68** (vector to elements): every owned d.o.f. gets the value with its number. -/
theorem vecToTag_get (hs : m.Sound) (hf : (everything.places m vars).length ≤ fuel) (src : Nat → R) (dst : Cell → R)
    (p : Place) (hp : p ∈ everything.places m vars) (n : Nat) (hn : idx p = some n) (c : Cell) (hc : StoredAt vars p c) :
    vecToTag idx vars m fuel src dst c = src n := by
  unfold vecToTag
  rw [forEach_places _ m vars hs (by nofun) (everything_ok vars) _ fuel hf]
  obtain ⟨e, he, _, hat⟩ := stored_index vars p ((mem_everything m vars p).1 hp).1
  refine store_hit _ c _ _ _ ⟨p, hp, ?_⟩ ?_
  · rw [hn, he, (hat c).1 hc]
    rfl
  · intro q hq z hz
    obtain ⟨e', he', _, hat'⟩ := stored_index vars q ((mem_everything m vars q).1 hq).1
    rw [he'] at hz
    cases hnq : idx q with
    | none => rw [hnq] at hz; cases hz
    | some n' =>
      rw [hnq] at hz
      obtain ⟨h1, rfl⟩ := Prod.mk.inj (Option.some.inj hz)
      obtain rfl := stored_unique vars p q c hc ((hat' c).2 h1.symm)
      rw [hn] at hnq
      rw [Option.some.inj hnq]

/-- **C68** (vector to elements, frame): places of no owned d.o.f. keep their value. -/
theorem vecToTag_frame (hs : m.Sound) (hf : (everything.places m vars).length ≤ fuel) (src : Nat → R) (dst : Cell → R)
    (c : Cell) (hc : ∀ p, p ∈ everything.places m vars → ¬ StoredAt vars p c) :
    vecToTag idx vars m fuel src dst c = dst c := by
  unfold vecToTag
  rw [forEach_places _ m vars hs (by nofun) (everything_ok vars) _ fuel hf]
  refine store_miss _ c _ _ ?_
  intro q hq z hz
  obtain ⟨e', he', _, hat'⟩ := stored_index vars q ((mem_everything m vars q).1 hq).1
  rw [he'] at hz
  cases hnq : idx q with
  | none => rw [hnq] at hz; cases hz
  | some n' =>
    rw [hnq] at hz
    exact hc q hq ((hat' c).2 (Prod.mk.inj (Option.some.inj hz)).1.symm)

/-- **C68** (elements to vector): every entry of the vector with the number of an owned d.o.f. gets the value of it. -/
theorem tagToVec_get (hs : m.Sound) (hf : (everything.places m vars).length ≤ fuel) (src : Cell → R) (dst : Nat → R)
    (hidx : NumbersOnce (everything.places m vars) idx)
    (p : Place) (hp : p ∈ everything.places m vars) (n : Nat) (hn : idx p = some n) (c : Cell) (hc : StoredAt vars p c) :
    tagToVec idx vars m fuel src dst n = src c := by
  unfold tagToVec
  rw [forEach_places _ m vars hs (by nofun) (everything_ok vars) _ fuel hf]
  obtain ⟨e, he, _, hat⟩ := stored_index vars p ((mem_everything m vars p).1 hp).1
  refine store_hit _ n _ _ _ ⟨p, hp, ?_⟩ ?_
  · rw [hn, he, (hat c).1 hc]
    rfl
  · intro q hq z hz
    obtain ⟨e', he', _, hat'⟩ := stored_index vars q ((mem_everything m vars q).1 hq).1
    rw [he'] at hz
    cases hnq : idx q with
    | none => rw [hnq] at hz; cases hz
    | some n' =>
      rw [hnq] at hz
      obtain ⟨rfl, rfl⟩ := Prod.mk.inj (Option.some.inj hz)
      obtain rfl := hidx.inj p q _ hp hq hn hnq
      rw [(hat' c).1 hc]

/-- **C68** (elements to vector, frame): other entries of the vector keep their value. -/
theorem tagToVec_frame (hs : m.Sound) (hf : (everything.places m vars).length ≤ fuel) (src : Cell → R) (dst : Nat → R)
    (n : Nat) (hc : ∀ p, p ∈ everything.places m vars → idx p ≠ some n) :
    tagToVec idx vars m fuel src dst n = dst n := by
  unfold tagToVec
  rw [forEach_places _ m vars hs (by nofun) (everything_ok vars) _ fuel hf]
  refine store_miss _ n _ _ ?_
  intro q hq z hz
  cases hnq : idx q with
  | none => rw [hnq] at hz; cases hz
  | some n' =>
    rw [hnq] at hz
    obtain ⟨e', he', _, _⟩ := stored_index vars q ((mem_everything m vars q).1 hq).1
    rw [he'] at hz
    obtain ⟨rfl, _⟩ := Prod.mk.inj (Option.some.inj hz)
    exact hc q hq hnq

/-- **C68** (vector to variables): every owned d.o.f. gets, in the array of its variable, the value with its number. -/
theorem vecToTags_get (hs : m.Sound) (hf : (everything.places m vars).length ≤ fuel) (src : Nat → R) (dst : Nat × Cell → R)
    (p : Place) (hp : p ∈ everything.places m vars) (n : Nat) (hn : idx p = some n) (c : Cell) (hc : StoredSingle vars p c) :
    vecToTags idx vars m fuel src dst (p.addr.var, c) = src n := by
  unfold vecToTags
  rw [forEach_places _ m vars hs (by nofun) (everything_ok vars) _ fuel hf]
  obtain ⟨e, he, ha, hat⟩ := stored_single vars p ((mem_everything m vars p).1 hp).1
  refine store_hit _ (p.addr.var, c) _ _ _ ⟨p, hp, ?_⟩ ?_
  · rw [hn, he, (hat c).1 hc, ← ha]
    rfl
  · intro q hq z hz
    obtain ⟨e', he', ha', hat'⟩ := stored_single vars q ((mem_everything m vars q).1 hq).1
    rw [he'] at hz
    cases hnq : idx q with
    | none => rw [hnq] at hz; cases hz
    | some n' =>
      rw [hnq] at hz
      obtain ⟨h1, rfl⟩ := Prod.mk.inj (Option.some.inj hz)
      obtain ⟨h0, h1⟩ := Prod.mk.inj h1
      rw [ha'] at h0
      obtain rfl := single_unique vars p q c h0.symm hc ((hat' c).2 h1.symm)
      rw [hn] at hnq
      rw [Option.some.inj hnq]

/-- **C68** (vector to variables, frame) -/
theorem vecToTags_frame (hs : m.Sound) (hf : (everything.places m vars).length ≤ fuel) (src : Nat → R) (dst : Nat × Cell → R)
    (v : Nat) (c : Cell) (hc : ∀ p, p ∈ everything.places m vars → p.addr.var = v → ¬ StoredSingle vars p c) :
    vecToTags idx vars m fuel src dst (v, c) = dst (v, c) := by
  unfold vecToTags
  rw [forEach_places _ m vars hs (by nofun) (everything_ok vars) _ fuel hf]
  refine store_miss _ (v, c) _ _ ?_
  intro q hq z hz
  obtain ⟨e', he', ha', hat'⟩ := stored_single vars q ((mem_everything m vars q).1 hq).1
  rw [he'] at hz
  cases hnq : idx q with
  | none => rw [hnq] at hz; cases hz
  | some n' =>
    rw [hnq] at hz
    obtain ⟨h0, h1⟩ := Prod.mk.inj (Prod.mk.inj (Option.some.inj hz)).1
    rw [ha'] at h0
    exact hc q hq h0 ((hat' c).2 h1.symm)

/-- **C68** (variables to vector) -/
theorem tagsToVec_get (hs : m.Sound) (hf : (everything.places m vars).length ≤ fuel) (src : Nat × Cell → R) (dst : Nat → R)
    (hidx : NumbersOnce (everything.places m vars) idx)
    (p : Place) (hp : p ∈ everything.places m vars) (n : Nat) (hn : idx p = some n) (c : Cell) (hc : StoredSingle vars p c) :
    tagsToVec idx vars m fuel src dst n = src (p.addr.var, c) := by
  unfold tagsToVec
  rw [forEach_places _ m vars hs (by nofun) (everything_ok vars) _ fuel hf]
  obtain ⟨e, he, ha, hat⟩ := stored_single vars p ((mem_everything m vars p).1 hp).1
  refine store_hit _ n _ _ _ ⟨p, hp, ?_⟩ ?_
  · rw [hn, he, (hat c).1 hc, ← ha]
    rfl
  · intro q hq z hz
    obtain ⟨e', he', ha', hat'⟩ := stored_single vars q ((mem_everything m vars q).1 hq).1
    rw [he'] at hz
    cases hnq : idx q with
    | none => rw [hnq] at hz; cases hz
    | some n' =>
      rw [hnq] at hz
      obtain ⟨rfl, rfl⟩ := Prod.mk.inj (Option.some.inj hz)
      obtain rfl := hidx.inj p q _ hp hq hn hnq
      rw [(hat' c).1 hc, ha']

/-- **C68** (vector to the elements, one variable): every owned d.o.f. of the variable gets the value with its number. -/
theorem vecToVarTag_get (v : Nat) (hv : v < vars.length) (hs : m.Sound) (hf : ((ofVar v).places m vars).length ≤ fuel)
    (src : Nat → R) (dst : Cell → R) (p : Place) (hp : p ∈ everything.places m vars) (hpv : p.addr.var = v) (n : Nat)
    (hn : idx p = some n) (c : Cell) (hc : StoredSingle vars p c) : vecToVarTag idx vars m fuel v src dst c = src n := by
  unfold vecToVarTag
  rw [forEach_places _ m vars hs (fun x hx => by obtain rfl := Option.some.inj hx; exact hv) (ofVar_ok v vars) _ fuel hf]
  have hmem : ∀ q, q ∈ (ofVar v).places m vars ↔ q ∈ everything.places m vars ∧ q.addr.var = v := by
    intro q
    rw [mem_places, mem_places]
    constructor
    · rintro ⟨h1, h2, h3, h4, h5, h6, h7, h8, h9⟩
      exact ⟨⟨h1, h2, h3, h4, nofun, nofun, nofun, nofun, h9⟩, h6 v rfl⟩
    · rintro ⟨⟨h1, h2, h3, h4, h5, h6, h7, h8, h9⟩, rfl⟩
      exact ⟨h1, h2, h3, h4, nofun, fun x hx => Option.some.inj hx, nofun, nofun, h9⟩
  obtain ⟨e, he, ha, hat⟩ := stored_single vars p ((mem_everything m vars p).1 hp).1
  refine store_hit _ c _ _ _ ⟨p, (hmem p).2 ⟨hp, hpv⟩, ?_⟩ ?_
  · rw [hn, he, (hat c).1 hc]
    rfl
  · intro q hq z hz
    obtain ⟨hq, hqv⟩ := (hmem q).1 hq
    obtain ⟨e', he', ha', hat'⟩ := stored_single vars q ((mem_everything m vars q).1 hq).1
    rw [he'] at hz
    cases hnq : idx q with
    | none => rw [hnq] at hz; cases hz
    | some n' =>
      rw [hnq] at hz
      obtain ⟨h1, rfl⟩ := Prod.mk.inj (Option.some.inj hz)
      obtain rfl := single_unique vars p q c (hpv.trans hqv.symm) hc ((hat' c).2 h1.symm)
      rw [hn] at hnq
      rw [Option.some.inj hnq]

/-- **C68** (there and back): the vector copied to the elements and back is the same on the numbers of the process. -/
theorem vec_round (hs : m.Sound) (hf : (everything.places m vars).length ≤ fuel) (a b : Nat)
    (hidx : Numbering (· ∈ everything.places m vars) idx a b) (src dst : Nat → R) (t : Cell → R) (n : Nat) (h1 : a ≤ n) (h2 : n < b) :
    tagToVec idx vars m fuel (vecToTag idx vars m fuel src t) dst n = src n := by
  obtain ⟨p, hp, hn⟩ := hidx.surj n h1 h2
  obtain ⟨e, he, _, hat⟩ := stored_index vars p ((mem_everything m vars p).1 hp).1
  have hc := (hat _).2 rfl
  rw [tagToVec_get idx vars m fuel hs hf _ _ ⟨fun p hp => (hidx.range p hp).imp fun _ h => h.1, hidx.inj⟩ p hp n hn _ hc,
    vecToTag_get idx vars m fuel hs hf src t p hp n hn _ hc]

/-- **C68** (there and back): the values on the elements copied to a vector and back are the same for the owned d.o.f.s. -/
theorem tag_round (hs : m.Sound) (hf : (everything.places m vars).length ≤ fuel) (hidx : NumbersOnce (everything.places m vars) idx)
    (src dst : Cell → R) (w : Nat → R) (p : Place) (hp : p ∈ everything.places m vars) (c : Cell) (hc : StoredAt vars p c) :
    vecToTag idx vars m fuel (tagToVec idx vars m fuel src w) dst c = src c := by
  obtain ⟨n, hn⟩ := hidx.total p hp
  rw [vecToTag_get idx vars m fuel hs hf _ _ p hp n hn c hc, tagToVec_get idx vars m fuel hs hf _ _ hidx p hp n hn c hc]

end

/-- **C68** (numbers): the numbers of type ANITYPE of the owned d.o.f.s met by the iterator are `BegInd .. EndInd - 1`, each once. -/
theorem places_numbering (vars : List Var) (m : Mesh) (gid : Nat → Nat → Nat) (b total : Nat → Nat)
    (h : Contiguous (ownedIds m gid) b) (hb : ∀ d, b d < longMax) :
    Numbering (· ∈ everything.places m vars)
      (fun p => (setup (numDofs vars) (ownedIds m gid) total).index vars .anitype (!m.ghost (dimOf p.addr.num) p.lid)
        (gid (dimOf p.addr.num) p.lid) p.addr)
      (setup (numDofs vars) (ownedIds m gid) total).begInd (setup (numDofs vars) (ownedIds m gid) total).endInd := by
  have hN := anitype_numbering vars (ownedIds m gid) b total h hb
  have hown : ∀ p, p ∈ everything.places m vars → OwnedDof vars (ownedIds m gid) (gid (dimOf p.addr.num) p.lid, p.addr) := by
    intro p hp
    obtain ⟨h1, h2, h3, h4⟩ := (mem_everything m vars p).1 hp
    exact ⟨List.mem_map.2 ⟨p.lid, List.mem_filter.2 ⟨List.mem_range.2 h2, by simp [h3, h4]⟩, rfl⟩, h1⟩
  have hg : ∀ p, p ∈ everything.places m vars → m.ghost (dimOf p.addr.num) p.lid = false :=
    fun p hp => ((mem_everything m vars p).1 hp).2.2.2
  refine ⟨?_, ?_, ?_⟩
  · intro p hp
    simp only [hg p hp, Bool.not_false]
    exact hN.range _ (hown p hp)
  · intro p q n hp hq h1 h2
    simp only [hg p hp, Bool.not_false] at h1
    simp only [hg q hq, Bool.not_false] at h2
    have := hN.inj _ _ n (hown p hp) (hown q hq) h1 h2
    obtain ⟨e1, e2⟩ := Prod.mk.inj this
    have hnd : (ownedIds m gid (dimOf p.addr.num)).Nodup := by
      refine (h (dimOf p.addr.num)).symm.nodup ?_
      refine List.Nodup.map ?_ List.nodup_range
      intro x y hxy
      exact Nat.add_left_cancel hxy
    unfold ownedIds at hnd
    have hinj := List.inj_on_of_nodup_map hnd
    obtain ⟨_, p2, p3, p4⟩ := (mem_everything m vars p).1 hp
    obtain ⟨_, q2, q3, q4⟩ := (mem_everything m vars q).1 hq
    rw [← e2] at q2 q3 q4 e1
    have hl := hinj (List.mem_filter.2 ⟨List.mem_range.2 p2, by simp [p3, p4]⟩)
      (List.mem_filter.2 ⟨List.mem_range.2 q2, by simp [q3, q4]⟩) e1
    cases p; cases q
    simp only at e2 hl
    rw [e2, hl]
  · intro n h1 h2
    obtain ⟨⟨g, a⟩, ⟨hx1, hx2⟩, hn⟩ := hN.surj n h1 h2
    dsimp only at hx1 hx2 hn
    obtain ⟨l, hl, rfl⟩ := List.mem_map.1 hx1
    obtain ⟨hl1, hl2⟩ := List.mem_filter.1 hl
    simp only [Bool.and_eq_true, Bool.not_eq_true'] at hl2
    have hp : (⟨l, a⟩ : Place) ∈ everything.places m vars :=
      (mem_everything m vars _).2 ⟨hx2, List.mem_range.1 hl1, hl2.1, hl2.2⟩
    refine ⟨⟨l, a⟩, hp, ?_⟩
    simp only [hg _ hp, Bool.not_false]
    exact hn

/-! ### the arrays of one element -/

section
variable (vars : List Var) (d : Nat)

/-- **C68** (common array to the arrays of the variables): every d.o.f. keeps its value, if the number of unoriented d.o.f.s is below
256.  The full claim has no such bound (`tagToTags_wrong`). -/
theorem tagToTags_get_partial (hd : d < 4) (hs : Small vars d) (src : Nat → R) (dst : Nat × Nat → R) (v : Nat) (x : Var)
    (hx : vars[v]? = some x) (a : Addr) (k i : Nat) (hk : (addrs vars d)[k]? = some a) (hi : (addrsSingle x v d)[i]? = some a) :
    tagToTags vars d src dst (v, i) = src k := by
  unfold tagToTags
  have hv := (List.getElem?_eq_some_iff.1 hx).1
  refine store_hit (fun x : Nat × Nat × Nat => some ((x.1, x.2.2), src x.2.1)) (v, i) _ _ _ ⟨(v, k, i), ?_, rfl⟩ ?_
  · exact (mem_pairsAll vars d v (k, i)).2 ⟨hv, (mem_pairsVar vars d hd hs v x hx (k, i)).2 ⟨a, hk, hi⟩⟩
  · rintro ⟨v', k', i'⟩ hm z hz
    obtain ⟨h1, rfl⟩ := Prod.mk.inj (Option.some.inj hz)
    obtain ⟨rfl, rfl⟩ := Prod.mk.inj h1
    obtain ⟨a', g1, g2⟩ := (mem_pairsVar vars d hd hs v' x hx _).1 ((mem_pairsAll vars d v' _).1 hm).2
    dsimp only at g1 g2 hi ⊢
    obtain rfl : a = a' := Option.some.inj (hi.symm.trans g2)
    obtain ⟨hl1, f1⟩ := List.getElem?_eq_some_iff.1 hk
    obtain ⟨hl2, f2⟩ := List.getElem?_eq_some_iff.1 g1
    rw [((addrs_nodup vars d hd).getElem_inj_iff).1 (f2.trans f1.symm)]

/-- **C68** (frame): positions beyond the d.o.f.s of the variable keep their value. -/
theorem tagToTags_frame_partial (hd : d < 4) (hs : Small vars d) (src : Nat → R) (dst : Nat × Nat → R) (v : Nat) (x : Var)
    (hx : vars[v]? = some x) (i : Nat) (hi : (addrsSingle x v d).length ≤ i) : tagToTags vars d src dst (v, i) = dst (v, i) := by
  unfold tagToTags
  refine store_miss (fun x : Nat × Nat × Nat => some ((x.1, x.2.2), src x.2.1)) (v, i) _ _ ?_
  rintro ⟨v', k', i'⟩ hm z hz
  obtain ⟨h1, rfl⟩ := Prod.mk.inj (Option.some.inj hz)
  obtain ⟨rfl, rfl⟩ := Prod.mk.inj h1
  obtain ⟨a', g1, g2⟩ := (mem_pairsVar vars d hd hs v' x hx _).1 ((mem_pairsAll vars d v' _).1 hm).2
  have := (List.getElem?_eq_some_iff.1 g2).1
  dsimp only at this hi
  omega

/-- **C68** (arrays of the variables to the common array) -/
theorem tagsToTag_get_partial (hd : d < 4) (hs : Small vars d) (src : Nat × Nat → R) (dst : Nat → R) (v : Nat) (x : Var)
    (hx : vars[v]? = some x) (a : Addr) (k i : Nat) (hk : (addrs vars d)[k]? = some a) (hi : (addrsSingle x v d)[i]? = some a) :
    tagsToTag vars d src dst k = src (v, i) := by
  unfold tagsToTag
  have hv := (List.getElem?_eq_some_iff.1 hx).1
  refine store_hit (fun x : Nat × Nat × Nat => some (x.2.1, src (x.1, x.2.2))) k _ _ _ ⟨(v, k, i), ?_, rfl⟩ ?_
  · exact (mem_pairsAll vars d v (k, i)).2 ⟨hv, (mem_pairsVar vars d hd hs v x hx (k, i)).2 ⟨a, hk, hi⟩⟩
  · rintro ⟨v', k', i'⟩ hm z hz
    obtain ⟨rfl, rfl⟩ := Prod.mk.inj (Option.some.inj hz)
    obtain ⟨hv', hm⟩ := (mem_pairsAll vars d v' _).1 hm
    obtain ⟨a', g1, g2⟩ := (mem_pairsVar vars d hd hs v' vars[v'] (by simp [hv']) _).1 hm
    dsimp only at g1 g2 hk ⊢
    obtain rfl : a = a' := Option.some.inj (hk.symm.trans g1)
    have e1 : a.var = v := by
      obtain ⟨e, _, ha⟩ := List.mem_flatMap.1 (List.mem_of_getElem? hi)
      exact ((mem_addrsVar _ _ _ _).1 ha).2.1
    have e2 : a.var = v' := by
      obtain ⟨e, _, ha⟩ := List.mem_flatMap.1 (List.mem_of_getElem? g2)
      exact ((mem_addrsVar _ _ _ _).1 ha).2.1
    obtain rfl : v' = v := e2.symm.trans e1
    obtain rfl : x = vars[v'] := by
      rw [List.getElem?_eq_getElem hv] at hx
      exact (Option.some.inj hx).symm
    obtain ⟨hl1, f1⟩ := List.getElem?_eq_some_iff.1 hi
    obtain ⟨hl2, f2⟩ := List.getElem?_eq_some_iff.1 g2
    rw [((addrsSingle_nodup vars[v'] v' d).getElem_inj_iff).1 (f2.trans f1.symm)]

/-- **C68** (frame): positions beyond the d.o.f.s of the element keep their value. -/
theorem tagsToTag_frame_partial (hd : d < 4) (hs : Small vars d) (src : Nat × Nat → R) (dst : Nat → R) (k : Nat)
    (hk : (addrs vars d).length ≤ k) : tagsToTag vars d src dst k = dst k := by
  unfold tagsToTag
  refine store_miss (fun x : Nat × Nat × Nat => some (x.2.1, src (x.1, x.2.2))) k _ _ ?_
  rintro ⟨v', k', i'⟩ hm z hz
  obtain ⟨rfl, rfl⟩ := Prod.mk.inj (Option.some.inj hz)
  obtain ⟨hv', hm⟩ := (mem_pairsAll vars d v' _).1 hm
  obtain ⟨a', g1, g2⟩ := (mem_pairsVar vars d hd hs v' vars[v'] (by simp [hv']) _).1 hm
  have := (List.getElem?_eq_some_iff.1 g1).1
  dsimp only at this hk
  omega

/-- **C68** (there and back on an element): splitting the common array by variables and joining it again is the identity. -/
theorem split_join_partial (hd : d < 4) (hs : Small vars d) (src dst : Nat → R) (t : Nat × Nat → R) (k : Nat)
    (hk : k < (addrs vars d).length) : tagsToTag vars d (tagToTags vars d src t) dst k = src k := by
  have hka : (addrs vars d)[k]? = some (addrs vars d)[k] := List.getElem?_eq_getElem hk
  obtain ⟨_, _, hkind⟩ := (mem_addrs vars d hd _).1 (List.getElem_mem hk)
  obtain ⟨e, x, _, hx, hi⟩ := recompose_single vars d hd _ (List.getElem_mem hk)
  rw [tagsToTag_get_partial vars d hd hs _ _ _ x hx _ k _ hka hi, tagToTags_get_partial vars d hd hs _ _ _ x hx _ k _ hka hi]

/-- **C68** (one variable out of the common array) -/
theorem tagToVarTag_get_partial (hd : d < 4) (hs : Small vars d) (src dst : Nat → R) (v : Nat) (x : Var)
    (hx : vars[v]? = some x) (a : Addr) (k i : Nat) (hk : (addrs vars d)[k]? = some a) (hi : (addrsSingle x v d)[i]? = some a) :
    tagToVarTag vars d v src dst i = src k := by
  unfold tagToVarTag
  refine store_hit (fun x : Nat × Nat => some (x.2, src x.1)) i _ _ _ ⟨(k, i), ?_, rfl⟩ ?_
  · exact (mem_pairsVar vars d hd hs v x hx (k, i)).2 ⟨a, hk, hi⟩
  · rintro ⟨k', i'⟩ hm z hz
    obtain ⟨rfl, rfl⟩ := Prod.mk.inj (Option.some.inj hz)
    obtain ⟨a', g1, g2⟩ := (mem_pairsVar vars d hd hs v x hx _).1 hm
    dsimp only at g1 g2 hi ⊢
    obtain rfl : a = a' := Option.some.inj (hi.symm.trans g2)
    obtain ⟨hl1, f1⟩ := List.getElem?_eq_some_iff.1 hk
    obtain ⟨hl2, f2⟩ := List.getElem?_eq_some_iff.1 g1
    rw [((addrs_nodup vars d hd).getElem_inj_iff).1 (f2.trans f1.symm)]

/-- **C68** (one variable into the common array) -/
theorem varTagToTag_get_partial (hd : d < 4) (hs : Small vars d) (src dst : Nat → R) (v : Nat) (x : Var)
    (hx : vars[v]? = some x) (a : Addr) (k i : Nat) (hk : (addrs vars d)[k]? = some a) (hi : (addrsSingle x v d)[i]? = some a) :
    varTagToTag vars d v src dst k = src i := by
  unfold varTagToTag
  refine store_hit (fun x : Nat × Nat => some (x.1, src x.2)) k _ _ _ ⟨(k, i), ?_, rfl⟩ ?_
  · exact (mem_pairsVar vars d hd hs v x hx (k, i)).2 ⟨a, hk, hi⟩
  · rintro ⟨k', i'⟩ hm z hz
    obtain ⟨rfl, rfl⟩ := Prod.mk.inj (Option.some.inj hz)
    obtain ⟨a', g1, g2⟩ := (mem_pairsVar vars d hd hs v x hx _).1 hm
    dsimp only at g1 g2 hk ⊢
    obtain rfl : a = a' := Option.some.inj (hk.symm.trans g1)
    obtain ⟨hl1, f1⟩ := List.getElem?_eq_some_iff.1 hi
    obtain ⟨hl2, f2⟩ := List.getElem?_eq_some_iff.1 g2
    rw [((addrsSingle_nodup x v d).getElem_inj_iff).1 (f2.trans f1.symm)]

/-- **C68** (frame): the d.o.f.s of the other variables keep their value. -/
theorem varTagToTag_frame_partial (hd : d < 4) (hs : Small vars d) (src dst : Nat → R) (v : Nat) (x : Var)
    (hx : vars[v]? = some x) (k : Nat) (hk : ∀ a, (addrs vars d)[k]? = some a → a.var ≠ v) :
    varTagToTag vars d v src dst k = dst k := by
  unfold varTagToTag
  refine store_miss (fun x : Nat × Nat => some (x.1, src x.2)) k _ _ ?_
  rintro ⟨k', i'⟩ hm z hz
  obtain ⟨rfl, rfl⟩ := Prod.mk.inj (Option.some.inj hz)
  obtain ⟨a', g1, g2⟩ := (mem_pairsVar vars d hd hs v x hx _).1 hm
  refine hk a' g1 ?_
  obtain ⟨e, _, ha⟩ := List.mem_flatMap.1 (List.mem_of_getElem? g2)
  exact ((mem_addrsVar _ _ _ _).1 ha).2.1

/-- **C68** (frame): the array of the variable is not changed beyond its d.o.f.s. -/
theorem tagToVarTag_frame_partial (hd : d < 4) (hs : Small vars d) (src dst : Nat → R) (v : Nat) (x : Var)
    (hx : vars[v]? = some x) (i : Nat) (hi : (addrsSingle x v d).length ≤ i) : tagToVarTag vars d v src dst i = dst i := by
  unfold tagToVarTag
  refine store_miss (fun x : Nat × Nat => some (x.2, src x.1)) i _ _ ?_
  rintro ⟨k', i'⟩ hm z hz
  obtain ⟨rfl, rfl⟩ := Prod.mk.inj (Option.some.inj hz)
  obtain ⟨a', g1, g2⟩ := (mem_pairsVar vars d hd hs v x hx _).1 hm
  have := (List.getElem?_eq_some_iff.1 g2).1
  dsimp only at this hi
  omega

end

theorem copyFirst_eq (n : Nat) (src dst : Nat → R) (k : Nat) : copyFirst n src dst k = if k < n then src k else dst k := by
  unfold copyFirst
  by_cases h : k < n
  · rw [if_pos h]
    refine store_hit (fun k : Nat => some (k, src k)) k _ _ _ ⟨k, List.mem_range.2 h, rfl⟩ ?_
    intro x _ z hz
    obtain ⟨rfl, rfl⟩ := Prod.mk.inj (Option.some.inj hz)
    rfl
  · rw [if_neg h]
    refine store_miss (fun k : Nat => some (k, src k)) k _ _ ?_
    intro x hx z hz
    obtain ⟨rfl, rfl⟩ := Prod.mk.inj (Option.some.inj hz)
    exact h (List.mem_range.1 hx)

/-- **C68** (equal layouts): exactly the d.o.f.s are copied. -/
theorem tagToTag_eq (vars : List Var) (d : Nat) (src dst : Nat → R) (k : Nat) :
    tagToTag vars d src dst k = if k < (addrs vars d).length then src k else dst k := by
  rw [length_addrs]
  exact copyFirst_eq ..

/-- **C68** (equal layouts, one variable) -/
theorem varTagToVarTag_eq (x : Var) (v d : Nat) (src dst : Nat → R) (k : Nat) :
    varTagToVarTag x d src dst k = if k < (addrsSingle x v d).length then src k else dst k := by
  have : (addrsSingle x v d).length = inmostNumDof x.numDof d := by
    rw [addrsSingle_eq]
    match d with
    | 0 => simp [length_addrsVar, inmostNumDof]
    | 1 => simp [length_addrsVar, inmostNumDof, elemNum]
    | 2 => simp [length_addrsVar, inmostNumDof, elemNum]
    | n + 3 => simp [length_addrsVar, inmostNumDof]
  rw [this]
  exact copyFirst_eq ..

example : tagToTag exVars 1 (fun k => k + 10) (fun _ => 0) 5 = 15 ∧ tagToTag exVars 1 (fun k => k + 10) (fun _ => 0) 6 = 0 := by
  decide +kernel

/-- The shift of the oriented d.o.f.s is computed in an `unsigned char`.  One variable with `256` unoriented d.o.f.s on an edge and
an oriented one: position 0 is written twice and the oriented d.o.f. is never copied. -/
theorem tagToTags_wrong (x : Var) (hv : x.vec = false) (h1 : x.base 1 = 256) (h2 : x.base 2 = 1) (src : Nat → R)
    (dst : Nat × Nat → R) : (addrsSingle x 0 1)[256]? = some ⟨2, 0, 0, 0⟩ ∧ (addrs [x] 1)[256]? = some ⟨2, 0, 0, 0⟩ ∧
      tagToTags [x] 1 src dst (0, 256) = dst (0, 256) := by
  have n1 : x.numDof 1 = 256 := by simp [Var.numDof, hv, h1]
  have n2 : x.numDof 2 = 1 := by simp [Var.numDof, hv, h2]
  have a1 : (addrsVar x 0 1).length = 256 := by rw [length_addrsVar, n1]
  have c : x.comps = 1 := by simp [Var.comps, hv]
  have a2 : addrsVar x 0 2 = [⟨2, 0, 0, 0⟩] := by
    unfold addrsVar
    rw [c, h2]
    rfl
  refine ⟨?_, ?_, ?_⟩
  · rw [addrsSingle_eq, if_pos (by decide), List.getElem?_append_right (by rw [show elemNum 1 = 1 from rfl, a1]), show elemNum 1 = 1 from rfl,
      a1, a2]
    rfl
  · have k1 : addrsKind [x] 1 = addrsVar x 0 1 := by simp [addrsKind]
    have k2 : addrsKind [x] 2 = addrsVar x 0 2 := by simp [addrsKind]
    rw [addrs_eq, if_pos (by decide), show elemNum 1 = 1 from rfl, k1, k2, List.getElem?_append_right (by rw [a1]), a1, a2]
    rfl
  · unfold tagToTags
    refine store_miss (fun x : Nat × Nat × Nat => some ((x.1, x.2.2), src x.2.1)) (0, 256) _ _ ?_
    rintro ⟨v', k', i'⟩ hm z hz
    obtain ⟨h, rfl⟩ := Prod.mk.inj (Option.some.inj hz)
    obtain ⟨rfl, rfl⟩ := Prod.mk.inj h
    have hm := ((mem_pairsAll [x] 1 0 _).1 hm).2
    unfold pairsVar pairs at hm
    rw [lookup_range 1 (by omega)] at hm
    obtain ⟨e, he, hm⟩ := List.mem_flatMap.1 hm
    obtain ⟨k, hk, h⟩ := List.mem_map.1 hm
    rw [pre_step [x] e 0 x rfl] at hk
    have hk := List.mem_range.1 hk
    have h := (Prod.mk.inj h).2
    rw [(shifts_eq [x] 1 e 0 x rfl (by omega) he).2] at h
    have : e = 1 ∨ e = 2 := by simpa [kindsOf] using he
    rcases this with rfl | rfl
    · rw [n1] at hk
      simp at h
      omega
    · rw [n2] at hk
      simp [n1] at h
      omega

/-! ### examples -/

example : Small exVars 1 ∧ Small exVars 2 := by
  constructor <;> intro _ <;> exact Or.inl (by decide)

example : pairsAll exVars 1 = [(0, 0, 0), (0, 1, 1), (0, 2, 2), (0, 3, 3), (1, 4, 0), (1, 5, 1)] := by decide +kernel

example : NumbersOnce (everything.places exMesh exVars)
    (fun p => some (p.lid * 64 + p.addr.num * 8 + p.addr.var * 4 + p.addr.comp * 2 + p.addr.dof)) := by
  refine ⟨fun p _ => ⟨_, rfl⟩, ?_⟩
  have : ∀ p ∈ everything.places exMesh exVars, ∀ q ∈ everything.places exMesh exVars,
      p.lid * 64 + p.addr.num * 8 + p.addr.var * 4 + p.addr.comp * 2 + p.addr.dof =
      q.lid * 64 + q.addr.num * 8 + q.addr.var * 4 + q.addr.comp * 2 + q.addr.dof → p = q := by decide +kernel
  intro p q n hp hq h1 h2
  exact this p hp q hq ((Option.some.inj h1).trans (Option.some.inj h2).symm)

/-- global ids of the owned elements: edges 0 and 3 of the process have the ids 8 and 7, nodes 0, 1, 3 the ids 8, 9, 7 -/
example : Contiguous (ownedIds exMesh fun _ l => if l = 3 then 7 else 8 + l) (fun d => if d = 3 then 8 else 7) := by
  intro d
  by_cases h1 : d = 1
  · subst h1; decide
  by_cases h3 : d = 3
  · subst h3; decide
  have : ownedIds exMesh (fun _ l => if l = 3 then 7 else 8 + l) d = [8, 9, 7] := by
    simp [ownedIds, exMesh, h1, h3, List.range_succ]
  rw [this]
  beta_reduce
  rw [if_neg h3]
  decide

end Verif.TagCopy
