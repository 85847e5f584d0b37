import Verif.Model.ExtEnum

/-!
Model of `lower_bound` and `upper_bound` of the enumeration of arrays extended by a ranged value (class `ext_range_array_enum`,
`anifem++/interval/ext_array_enum.h` and `anifem++/interval/ext_array_enum.inl`).

An iterator is given by the number it stands for, `end()` by the size.  `none`: an iterator out of range is dereferenced, or an
assertion of `operator[]` fails.  As in `Verif.Model.ExtEnum` the numbers are natural numbers without overflow.
-/
namespace Verif.ExtEnum

/-- The base array `b` with `s` at the position of the inserted value. (ext_array_enum.inl:764-766, 793-795, 832-833) -/
def put (n : Nat) (b : Key) (s : Nat) : Key := b.take n ++ s :: b.drop n

/-- ext_array_enum.inl:756-760: the first base array whose first `n` entries are not below those of `id`. -/
def lbStart (E : Ext) (id : Key) : Nat := if 0 < E.n then lbOrd E.ord 0 E.ord.length (zeroFrom E.n id) else 0

/-- ext_array_enum.inl:772-781 and 801-810: the first array after those that begin as `id`, with the inserted value 0. -/
def lbAfter (E : Ext) (id : Key) : Option Nat :=
  let j := lbOrd E.ord (lbStart E id) E.ord.length (incr (zeroFrom E.n id) (E.n - 1))
  if j = E.ord.length then some E.size else E.ord[j]?.bind fun b => rank E (put E.n b 0)

/-- ext_array_enum.inl:771-797: the case `n > m`. -/
def lbHigh (E : Ext) (id : Key) (s : Nat) : Option Nat :=
  if E.rg (nth id E.m) ≤ s then lbAfter E id
  else
    let it := lbOrd E.ord (lbStart E id) E.ord.length id
    let next := if s + 1 < E.rg (nth id E.m) then E.ord[lbStart E id]?.bind fun b => rank E (id.take E.n ++ (s + 1) :: b.drop E.n)
      else if it = E.ord.length then some E.size
      else E.ord[it]?.bind fun b => rank E (put E.n b 0)
    match E.ord[it]? with
    | none => next
    | some b => if same E.n id b then rank E (id.take E.n ++ s :: b.drop E.n) else next

/-- ext_array_enum.inl:799-811 `set_next_start`. -/
def lbNextStart (E : Ext) (id : Key) : Option Nat := if E.n = 0 then some E.size else lbAfter E id

/-- ext_array_enum.inl:840-848: after the loop; `add` is `it_add`. -/
def lbFinish (E : Ext) (id : Key) (s : Nat) : Option Key → Option Nat
  | none => lbNextStart E id
  | some k => E.ord[lbOrd E.ord (lbStart E id) E.ord.length k]?.bind fun b => rank E (put E.n b (s + 1))

/-- ext_array_enum.inl:837-838: `it_add` is kept if it is set. -/
def lbAdd (E : Ext) (s : Nat) (e : Key × Nat) : Option Key → Option Key
  | none => if s + 1 < E.rg (nth e.1 E.m) then some e.1 else none
  | some k => some k

/-- ext_array_enum.inl:825-848: the loop over `m_r` and what follows; `add` is `it_add`. -/
def lbScan (E : Ext) (id : Key) (s : Nat) : KMap → Option Key → Option Nat
  | [], add => lbFinish E id s add
  | e :: l, add =>
    if same E.n e.1 (zeroFrom (E.m + 1) id) then
      if E.rg (nth e.1 E.m) ≤ s then lbScan E id s l add
      else if lexLt e.1 (zeroFrom (E.m + 1) id) then lbScan E id s l (lbAdd E s e add)
      else
        match E.ord[lbOrd E.ord (lbStart E id) E.ord.length (if e.1 = zeroFrom (E.m + 1) id then id else e.1)]? with
        | none => none
        | some b => if same (E.m + 1) b e.1 then rank E (put E.n b s) else lbScan E id s l (lbAdd E s e add)
    else lbFinish E id s add

/-- ext_array_enum.inl:813-848: the case `n ≤ m`. -/
def lbLow (E : Ext) (id : Key) (s : Nat) : Option Nat :=
  ((lbKey E.qr (zeroFrom E.n id)).head?.bind fun e => e.2.getLast?).bind fun b =>
    if b.1 ≤ s then lbNextStart E id else lbScan E id s (lbKey E.r (zeroFrom E.n id)) none

/-- ext_array_enum.inl:737-850 `lower_bound`. -/
def lowerBound (E : Ext) (x : Key) : Option Nat :=
  let id := x.take E.n ++ x.drop (E.n + 1)
  let s := nth x E.n
  let rest := if E.m < E.n then lbHigh E id s else lbLow E id s
  if 0 < E.n then
    if lbStart E id = E.ord.length then some E.size
    else E.ord[lbStart E id]?.bind fun b => if same E.n id b then rest else rank E (put E.n b 0)
  else rest

/-- ext_array_enum.h:122 `upper_bound`. -/
def upperBound (E : Ext) (x : Key) : Option Nat := lowerBound E (incr x E.N)

/-- ext_array_enum.h:118 `find`: the number of the iterator. -/
def findKey (E : Ext) (x : Key) : Option Nat := if contains E x then rank E x else some E.size

/-- ext_array_enum.h:93 `operator +=`: the number of the iterator. -/
def plusAssign (i k : Nat) : Nat := i + k

/-- ext_array_enum.h:94 `operator -=`: the number of the iterator, as it stands in the code. -/
def minusAssign (i k : Nat) : Nat := i + k

/-- ext_array_enum.h:86 `operator >=` of the numbers, as it stands in the code. -/
def iterGe (i j : Nat) : Bool := decide (i < j)

end Verif.ExtEnum
