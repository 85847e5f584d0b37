/-!
Model of the iterator over the global numbers of a process (`IGlobEnumeration::iteratorByVector`,
`/repo/anifem++/inmost_interface/global_enumerator.h:80-135`) and of the owner of a tag (`TagOwned`, lines 300-318).

Numbers are integers (no overflow of `long`).
-/
namespace Verif.VecIter

/-- `iteratorByVector::value_type`, global_enumerator.h:86-103: the number `eid.id` and the remembered mesh position `nid` -/
structure It (N : Type) where
  eid : Int
  nid : N

/-- `beginByVector()`, `endByVector()`, global_enumerator.h:227-228, 82: `bad` is `NaturalIndex()` -/
def start {N : Type} (bad : N) (id : Int) : It N := ⟨id, bad⟩

/-- `++`, global_enumerator.h:112: `++m_val.eid.id; m_val.nid.clear()` -/
def inc {N : Type} (bad : N) (i : It N) : It N := ⟨i.eid + 1, bad⟩

/-- `--`, global_enumerator.h:114 -/
def dec {N : Type} (bad : N) (i : It N) : It N := ⟨i.eid - 1, bad⟩

/-- `+=`, `+`, global_enumerator.h:124, 126-127 -/
def add {N : Type} (bad : N) (i : It N) (n : Int) : It N := ⟨i.eid + n, bad⟩

/-- `-=`, `-`, global_enumerator.h:125, 128 -/
def sub {N : Type} (bad : N) (i : It N) (n : Int) : It N := ⟨i.eid - n, bad⟩

/-- `operator[]`, global_enumerator.h:132: nothing is forgotten when `n == 0` -/
def at' {N : Type} (bad : N) (i : It N) (n : Int) : It N := if n ≠ 0 then ⟨i.eid + n, bad⟩ else i

/-- `GetNatInd()`, global_enumerator.h:96-100: the mesh position is computed when the remembered one is not valid; the iterator
remembers it (`mutable`).  `ok` is `isValid`, `enum` is `enumeration->operator()(eid)`. -/
def get {N : Type} (ok : N → Bool) (enum : Int → N) (i : It N) : N × It N :=
  let v := if ok i.nid then i.nid else enum i.eid
  (v, ⟨i.eid, v⟩)

/-- `operator==`, global_enumerator.h:101, 118 -/
def eq {N : Type} (a b : It N) : Bool := decide (a.eid = b.eid)
/-- `operator!=`, global_enumerator.h:119 -/
def ne {N : Type} (a b : It N) : Bool := !eq a b
/-- `operator<`, global_enumerator.h:120 -/
def lt {N : Type} (a b : It N) : Bool := decide (a.eid < b.eid)
/-- `operator>`, global_enumerator.h:121 -/
def gt {N : Type} (a b : It N) : Bool := decide (a.eid > b.eid)
/-- `operator<=`, global_enumerator.h:122 -/
def le {N : Type} (a b : It N) : Bool := decide (a.eid ≤ b.eid)
/-- `operator>=`, global_enumerator.h:123: written with `<` -/
def ge {N : Type} (a b : It N) : Bool := decide (a.eid < b.eid)
/-- the difference of two iterators, global_enumerator.h:129 -/
def diff {N : Type} (a b : It N) : Int := a.eid - b.eid

/-- `for (it = begin; it != end; ++it)`, the mesh positions met in at most `n` steps (the loops over global_enumerator.h:227-228) -/
def loop {N : Type} (bad : N) (ok : N → Bool) (enum : Int → N) (e : It N) : Nat → It N → List N
  | 0, _ => []
  | n + 1, i => if ne i e then let g := get ok enum i; g.1 :: loop bad ok enum e n (inc bad g.2) else []

/-! ### TagOwned -/

/-- The tags existing in the mesh, all tags deleted so far in order, and the owners: `none` is an invalid tag.
(global_enumerator.h:300-318) -/
structure Tags where
  live : List Nat
  deleted : List Nat
  owner : Nat → Option Nat

/-- assignment to one owner (global_enumerator.h:308-309, 313-314) -/
def setOwner (o : Nat → Option Nat) (i : Nat) (t : Option Nat) : Nat → Option Nat := fun k => if k = i then t else o k

/-- `Clear()`, the destructor, global_enumerator.h:302-305, 317 -/
def clear (s : Tags) (i : Nat) : Tags :=
  match s.owner i with
  | none => s
  | some t => ⟨s.live.erase t, t :: s.deleted, setOwner s.owner i none⟩

/-- `index_tags[i].Clear()` and `index_tags[i].tag = mesh->CreateTag(…)`, global_enumerator.cpp:685-689, 741-745: `t` is the new
tag -/
def create (s : Tags) (i t : Nat) : Tags :=
  let s := clear s i
  ⟨t :: s.live, s.deleted, setOwner s.owner i (some t)⟩

/-- `TagOwned(TagOwned&& t)`, global_enumerator.h:307-310: the new owner `i` has held nothing -/
def moveNew (s : Tags) (i j : Nat) : Tags := { s with owner := setOwner (setOwner s.owner i (s.owner j)) j none }

/-- `operator=(TagOwned&& t)`, global_enumerator.h:311-316: the tag held before is not deleted -/
def moveAssign (s : Tags) (i j : Nat) : Tags :=
  if i = j then s else { s with owner := setOwner (setOwner s.owner i (s.owner j)) j none }

end Verif.VecIter
