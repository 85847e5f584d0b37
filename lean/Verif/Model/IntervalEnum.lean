/-!
Model of `interval_enum` (`/repo/anifem++/interval/interval_enum.h`, `interval_enum.inl`).

`EnumInt`/`MapInt` are modelled by `Int` (no wrap-around).  A `const_iterator` is modelled by the offset of
its `m_it` from `m_mem.cbegin()` and its `m_shift`; `m_end` is always `prev(m_mem.cend())` for a non-empty
storage, so it is not stored.  Dereferencing outside of the storage gives `none`.
-/
namespace Verif.IntervalEnum

/-- `interval_own_memory::m_dat`, interval_enum.h:28 (and the flattened pair array of
`interval_external_memory`, interval_enum.h:47-48): pairs (number of first elem of the interval, first elem). -/
abbrev Dat := List (Int × Int)

/-- `interval_enum::const_iterator`, interval_enum.h:103-107. -/
structure It where
  pos : Nat
  shift : Int
deriving DecidableEq, Repr

/-- `begin()`, interval_enum.h:146 (both branches: offset 0, shift 0). -/
def beginIt (_ : Dat) : It := ⟨0, 0⟩

/-- `end()`, interval_enum.h:147: the sentinel pair, or `cend` of an empty storage. -/
def endIt (d : Dat) : It := ⟨d.length - 1, 0⟩

/-- `std::upper_bound` with the comparator on `first`, interval_enum.inl:41 (library contract: first position
at which the predicate holds, `cend` if there is none). -/
def upperLeft (d : Dat) (left : Int) : Nat := d.findIdx (fun a => decide (left < a.1))

/-- `std::upper_bound` with the comparator on `second`, interval_enum.inl:51, 65. -/
def upperRight (d : Dat) (right : Int) : Nat := d.findIdx (fun a => decide (right < a.2))

/-- `operator*`, interval_enum.h:124. -/
def deref (d : Dat) (it : It) : Option (Int × Int) :=
  (d[it.pos]?).map fun a => (a.1 + it.shift, a.2 + it.shift)

/-- `find_left`, interval_enum.inl:38-47. -/
def findLeft (d : Dat) (left : Int) : It :=
  if d.isEmpty then endIt d
  else
    let it := upperLeft d left
    if it = 0 ∨ it = d.length then endIt d
    else match d[it - 1]? with
      | some a => ⟨it - 1, left - a.1⟩
      | none => endIt d

/-- `find_right`, interval_enum.inl:48-61. -/
def findRight (d : Dat) (right : Int) : It :=
  if d.isEmpty then endIt d
  else
    let it := upperRight d right
    if it = 0 ∨ it = d.length then endIt d
    else match d[it]?, d[it - 1]? with
      | some nextV, some a =>
        let shift := right - a.2
        if a.1 + shift ≥ nextV.1 then endIt d else ⟨it - 1, shift⟩
      | _, _ => endIt d

/-- `lower_bound_right`, interval_enum.inl:62-73. -/
def lowerBoundRight (d : Dat) (right : Int) : It :=
  if d.isEmpty then endIt d
  else
    let it := upperRight d right
    if it = 0 then beginIt d
    else if it = d.length then endIt d
    else match d[it]?, d[it - 1]? with
      | some nextV, some a =>
        let shift := right - a.2
        if a.1 + shift ≥ nextV.1 then ⟨it, 0⟩ else ⟨it - 1, shift⟩
      | _, _ => endIt d

/-- `upper_bound_right`, interval_enum.h:153. -/
def upperBoundRight (d : Dat) (right : Int) : It := lowerBoundRight d (right + 1)

/-- `operator++`, interval_enum.inl:12-25 (`m_end` is the sentinel position). -/
def next (d : Dat) (it : It) : It :=
  if it.pos ≠ d.length - 1 then
    match d[it.pos]?, d[it.pos + 1]? with
    | some a, some b =>
      if it.shift + 1 < b.1 - a.1 then ⟨it.pos, it.shift + 1⟩ else ⟨it.pos + 1, 0⟩
    | _, _ => it
  else ⟨it.pos, it.shift + 1⟩

/-- `operator--`, interval_enum.inl:27-36. -/
def prev (d : Dat) (it : It) : It :=
  if it.shift > 0 then ⟨it.pos, it.shift - 1⟩
  else match d[it.pos]?, d[it.pos - 1]? with
    | some a, some b => ⟨it.pos - 1, a.1 - 1 - b.1⟩
    | _, _ => it

/-- Iterator difference, interval_enum.h:123 (`none` when one of the iterators is outside of the storage). -/
def diff (d : Dat) (a b : It) : Option Int :=
  match d[a.pos]?, d[b.pos]? with
  | some x, some y => some ((x.1 - y.1) + a.shift - b.shift)
  | _, _ => none

/-- `size()`, interval_enum.h:142. -/
def size (d : Dat) : Option Int := if d.isEmpty then some 0 else diff d (endIt d) (beginIt d)

/-- `contains_right`, interval_enum.h:145. -/
def containsRight (d : Dat) (right : Int) : Bool := findRight d right != endIt d

/-- Storage layout documented at interval_enum.h:19-21: each interval `[s, s+n)` (given as `(s, n)`) contributes
the pair (number of values before it, `s`); the closing pair is (number of all values, last value + 1). -/
def encodeFrom (k : Int) (last : Int) : List (Int × Nat) → Dat
  | [] => [(k, last)]
  | (s, n) :: rest => (k, s) :: encodeFrom (k + n) (s + n) rest

/-- The storage of a list of intervals; the empty enumeration has empty storage (interval_enum.h:142, 146). -/
def encode : List (Int × Nat) → Dat
  | [] => []
  | ivs@(_ :: _) => encodeFrom 0 0 ivs

end Verif.IntervalEnum
