import Verif.Spec.IntervalMap

/-!
Model of `interval_map` (`/repo/anifem++/interval/interval_map.h`, `interval_map.inl`).

Keys are modelled by `Int` with the default comparator `std::less` (no wrap-around), mapped values by any type
with decidable equality.  Vector iterators are modelled by offsets from `m_map_list.begin()`.
-/
namespace Verif.IntervalMap

/-- An element of `m_map_list`: `interval{m_start, m_end}` and the mapped value; interval_map.h:28-35, 105. -/
structure Ent (V : Type) where
  s : Int
  e : Int
  v : V
deriving DecidableEq, Repr

/-- The container: `m_map_list` and the two bits of `boundary_status`; interval_map.h:105-106
(`left` is bit 1 = left infinite, `right` is bit 2 = right infinite). -/
structure Map (V : Type) where
  list : List (Ent V)
  left : Bool
  right : Bool
deriving DecidableEq, Repr

variable {V : Type} [DecidableEq V]

/-- A default constructed map, interval_map.h:105-106. -/
def empty : Map V := ⟨[], false, false⟩

/-- interval_map.inl:200: `front().m_start = min(front().m_start, start)`; only executed when the list is not empty
(the left bit is set only by a successful insertion). -/
def stretchFront (s : Int) : List (Ent V) → List (Ent V)
  | [] => []
  | a :: r => { a with s := min a.s s } :: r

/-- interval_map.inl:202: `back().m_end = max(back().m_end, end)`. -/
def stretchBack (e : Int) : List (Ent V) → List (Ent V)
  | [] => []
  | [a] => [{ a with e := max a.e e }]
  | a :: b :: r => a :: stretchBack e (b :: r)

/-- `std::upper_bound` on `m_end` (lines 66, 149, 204): first offset with `key < m_end`. -/
def upperEnd (l : List (Ent V)) (k : Int) : Nat := l.findIdx fun b => decide (k < b.e)

/-- `std::lower_bound` on `m_start` from offset `i` (line 222): first offset `≥ i` with `¬ m_start < key`. -/
def lowerStart (l : List (Ent V)) (i : Nat) (k : Int) : Nat :=
  i + (l.drop i).findIdx fun b => decide (¬ b.s < k)

/-- interval_map.inl:204-214: the start offset `it_st0`. -/
def startIdx (l : List (Ent V)) (right : Bool) (s e : Int) (bnd : Nat) : Nat :=
  let st := upperEnd l s
  let st := if bnd = 1 ∧ s = e ∧ st ≠ 0 ∧ (l[st - 1]?).map (·.e) = some s then st - 1 else st
  if right = true ∧ st = l.length ∧
      (match l.getLast? with
        | some b => decide (b.e = b.s ∧ b.e = s) && !(decide (bnd = 1 ∧ s = e))
        | none => false) = true then st - 1 else st

/-- interval_map.inl:216-220: step back over a touching predecessor with the same value. -/
def stepBack (l : List (Ent V)) (st0 : Nat) (s : Int) (v : V) : Nat :=
  if st0 ≠ 0 then
    match l[st0 - 1]? with
    | some p => if p.e = s ∧ p.v = v then st0 - 1 else st0
    | none => st0
  else st0

/-- interval_map.inl:221-227: the end offset `it_end0`. -/
def endIdx (l : List (Ent V)) (left : Bool) (st0 : Nat) (e : Int) : Nat :=
  let en := if st0 ≠ l.length then lowerStart l st0 e else l.length
  if left = true ∧ en = 0 ∧
      (match l.head? with
        | some b => decide (b.s = b.e ∧ b.s = e)
        | none => false) = true then en + 1 else en

/-- interval_map.inl:229-230: step over a touching successor with the same value. -/
def stepFwd (l : List (Ent V)) (en0 : Nat) (e : Int) (v : V) : Nat :=
  match l[en0]? with
  | some p => if p.s = e ∧ p.v = v then en0 + 1 else en0
  | none => en0

/-- interval_map.inl:235-242: put the interval between the offsets `st` and `en`. -/
def splice (l : List (Ent V)) (st en : Nat) (s e : Int) (v : V) : List (Ent V) :=
  if en - st = 0 then l.take en ++ [⟨s, e, v⟩] ++ l.drop en
  else match l[st]?, l[en - 1]? with
    | some a, some b => l.take st ++ [⟨min a.s s, max b.e e, a.v⟩] ++ l.drop en
    | _, _ => l

/-- `insert(start, end, value, bnd_type)`, interval_map.inl:193-244.  Returns the new list (the vector is
modified by the stretching of lines 199-202 even if a conflict is found) and the success flag. -/
def insertCore (m : Map V) (s e : Int) (v : V) (bnd : Nat) : List (Ent V) × Bool :=
  if e < s ∨ (bnd = 0 ∧ s = e) then (m.list, false)
  else
    let l := if m.left then stretchFront s m.list else m.list
    let l := if m.right then stretchBack e l else l
    let st0 := startIdx l m.right s e bnd
    let st := stepBack l st0 s v
    let en0 := endIdx l m.left st0 e
    let en := stepFwd l en0 e v
    if ((l.drop st0).take (en0 - st0)).any (fun a => decide (a.v ≠ v)) then (l, false)
    else (splice l st en s e v, true)

/-- `insert(start, end, value)`, interval_map.inl:78-82. -/
def insert (m : Map V) (s e : Int) (v : V) : Map V × Bool :=
  let r := insertCore m s e v 0
  ({ m with list := r.1 }, r.2)

/-- `insert(start, Inf, value)`, interval_map.inl:84-97. -/
def insertRight (m : Map V) (s : Int) (v : V) : Map V × Bool :=
  let e := match m.list.getLast? with
    | some b => if s < b.e then b.e else s
    | none => s
  let r := insertCore m s e v 2
  (⟨r.1, m.left, m.right || r.2⟩, r.2)

/-- `insert(Inf, end, value)`, interval_map.inl:99-112. -/
def insertLeft (m : Map V) (e : Int) (v : V) : Map V × Bool :=
  let s := match m.list.head? with
    | some b => if b.s < e then b.s else e
    | none => e
  let r := insertCore m s e v 1
  (⟨r.1, m.left || r.2, m.right⟩, r.2)

/-- `insert(Inf, Inf, value)`, interval_map.inl:114-126. -/
def insertAll (m : Map V) (v : V) : Map V × Bool :=
  if m.list.any (fun a => decide (a.v ≠ v)) then (m, false)
  else (⟨[⟨0, 0, v⟩], true, true⟩, true)

/-- One insertion request, dispatched to the four overloads of `insert` (interval_map.h:84-87). -/
def apply (m : Map V) (o : Op V) : Map V × Bool :=
  match o.lo, o.hi with
  | some s, some e => insert m s e o.val
  | some s, none => insertRight m s o.val
  | none, some e => insertLeft m e o.val
  | none, none => insertAll m o.val

/-- `internal_find`, interval_map.inl:140-153; `find`/`at`/`operator[]`/`contains` (lines 58-76) read the same
result: the found element or `none` for `end()`. -/
def find (m : Map V) (k : Int) : Option (Ent V) :=
  match m.list.getLast? with
  | none => none
  | some b =>
    if m.right = true ∧ ¬ k < b.s then some b
    else
      let ed := if m.right then m.list.length - 1 else m.list.length
      let it := upperEnd (m.list.take ed) k
      match (m.list.take ed)[it]? with
      | some a => if (m.left = true ∧ it = 0) ∨ ¬ k < a.s then some a else none
      | none => none

/-- `at(key)` / `operator[]`, interval_map.inl:70-76, interval_map.h:82 (`none`: not in the map). -/
def get (m : Map V) (k : Int) : Option V := (find m k).map (·.v)

/-- `contains(key)`, interval_map.inl:58-68 (written out separately in the code, same tests as `find`). -/
def contains (m : Map V) (k : Int) : Bool :=
  match m.list.getLast? with
  | none => false
  | some b =>
    if m.right = true ∧ ¬ k < b.s then true
    else
      let ed := if m.right then m.list.length - 1 else m.list.length
      let it := upperEnd (m.list.take ed) k
      match (m.list.take ed)[it]? with
      | some a => decide ((m.left = true ∧ it = 0) ∨ ¬ k < a.s)
      | none => false

end Verif.IntervalMap
