/-!
Model of the enumeration of arrays extended by a ranged value, `anifem++/interval/ext_array_enum.h` and
`anifem++/interval/ext_array_enum.inl` (class `ext_range_array_enum`).

An array is a list of natural numbers of the length `N`.  Values of the type `GInt` (`std::size_t`) are natural numbers
without overflow, but for the variable `auto sum = 0` of `begin`, which has the type `int`.  `std::map` is a list sorted
by the keys; `std::lower_bound` is the search of the first element not less than the key.  Reads outside an array and
dereferenced end iterators are `none`.
-/
namespace Verif.ExtEnum

/-- A fixed-size array of indexes. (ext_array_enum.h:46) -/
abbrev Key := List Nat
/-- `std::map<std::array<UInt, N>, GInt>`, sorted by the keys. (ext_array_enum.inl:75) -/
abbrev KMap := List (Key × Nat)

/-- `std::lexicographical_compare`. (ext_array_enum.inl:72) -/
def lexLt : Key → Key → Bool
  | [], [] => false
  | [], _ :: _ => true
  | _ :: _, [] => false
  | a :: x, b :: y => decide (a < b) || (decide (a = b) && lexLt x y)

/-- `std::fill(a.data() + k, a.data() + a.size(), 0)`. (ext_array_enum.inl:56, 160) -/
def zeroFrom (k : Nat) (a : Key) : Key := a.take k ++ List.replicate (a.length - k) 0

/-- `a[k]`. (ext_array_enum.inl:29) -/
def nth (a : Key) (k : Nat) : Nat := a.getD k 0

/-- `a[k]++`. (ext_array_enum.inl:83, 144) -/
def incr (a : Key) (k : Nat) : Key := a.set k (nth a k + 1)

/-- ext_array_enum.inl:14-20 `make_check(t)`: the first `t` entries agree. -/
def same (t : Nat) (a b : Key) : Bool := decide (a.take t = b.take t)

/-- `std::map::emplace`: nothing happens if the key is present. (ext_array_enum.inl:86, 60) -/
def ins (k : Key) (v : Nat) : KMap → KMap
  | [] => [(k, v)]
  | (k', v') :: l => if k = k' then (k', v') :: l else if lexLt k k' then (k, v) :: (k', v') :: l else (k', v') :: ins k v l

/-- ext_array_enum.inl:97-101, 117-121: `find`, then `+=` or `emplace`. -/
def addTo (k : Key) (v : Nat) : KMap → KMap
  | [] => [(k, v)]
  | (k', v') :: l =>
    if k = k' then (k', v' + v) :: l else if lexLt k k' then (k, v) :: (k', v') :: l else (k', v') :: addTo k v l

/-- `std::map<UInt, GInt>`, sorted: `find`, then `+=` or `emplace`. (ext_array_enum.inl:35-39, 62-66) -/
def addVal (k : Nat) (v : Nat) : List (Nat × Nat) → List (Nat × Nat)
  | [] => [(k, v)]
  | (k', v') :: l => if k = k' then (k', v' + v) :: l else if k < k' then (k, v) :: (k', v') :: l else (k', v') :: addVal k v l

/-- ext_array_enum.inl:716-721 `_setBaseSet`: sorted, without repetitions (`std::sort` and `std::unique`). -/
def insKey (k : Key) : List Key → List Key
  | [] => [k]
  | k' :: l => if k = k' then k' :: l else if lexLt k k' then k :: k' :: l else k' :: insKey k l

/-- See `insKey`. (ext_array_enum.inl:716-721) -/
def baseSet (from_set : List Key) : List Key := from_set.foldr insKey []

/-- ext_array_enum.inl:78-88: the loop filling `r`; `fuel` bounds the number of rounds by the number of arrays. -/
def rLoop (m : Nat) : Nat → List Key → KMap → KMap
  | 0, _, r => r
  | _ + 1, [], r => r
  | f + 1, x :: l, r =>
    let b := zeroFrom (m + 1) x
    let rest := l.dropWhile fun y => lexLt y (incr b m)
    rLoop m f rest (ins b (l.length + 1 - rest.length) r)

/-- The state of the loop of `sum_part_ids`: `w1`, `s_prev`, `a_ext`. (ext_array_enum.inl:22-27) -/
structure Part where
  w1 : KMap
  sprev : List (Nat × Nat)
  a : Key

/-- ext_array_enum.inl:35-41, 62-68: account for the value `v` of the key `k`. -/
def partAdd (at_ : Nat) (k : Key) (v : Nat) (p : Part) : Part :=
  if p.sprev.any (fun x => decide (x.1 = nth k at_)) then { p with sprev := addVal (nth k at_) v p.sprev }
  else { p with sprev := addVal (nth k at_) v p.sprev, w1 := ins k 0 p.w1 }

/-- ext_array_enum.inl:32-69: one round. -/
def partStep (st ed at_ : Nat) (p : Part) (kv : Key × Nat) : Part :=
  if same ed p.a kv.1 then partAdd at_ kv.1 kv.2 p
  else if !same st p.a kv.1 then ⟨ins kv.1 0 p.w1, [(nth kv.1 at_, kv.2)], kv.1⟩
  else
    let cur := zeroFrom ed kv.1
    partAdd at_ kv.1 kv.2 ⟨p.sprev.foldl (fun w v => ins (cur.set at_ v.1) v.2 w) p.w1, p.sprev, kv.1⟩

/-- ext_array_enum.inl:21-71 `sum_part_ids`; `none`: the empty map is dereferenced (line 27). -/
def sumPart (st ed at_ : Nat) : KMap → Option KMap
  | [] => none
  | kv :: l => some (l.foldl (partStep st ed at_) ⟨[(kv.1, 0)], [(nth kv.1 at_, kv.2)], kv.1⟩).w1

/-- ext_array_enum.inl:94-102: `ww[j]` from `ww[j+1]`. -/
def wwStep (j : Nat) (w : KMap) : KMap := w.foldl (fun acc kv => addTo (kv.1.set j 0) kv.2 acc) []

/-- ext_array_enum.inl:91-103: `ww[j]`, from `ww[m] = r`; `d = m - j`. -/
def wwAt (m : Nat) (r : KMap) : Nat → KMap
  | 0 => r
  | d + 1 => wwStep (m - (d + 1)) (wwAt m r d)

/-- ext_array_enum.inl:112-122. -/
def wBuild (m : Nat) (rg : Nat → Nat) (x : KMap) : KMap :=
  x.foldl (fun acc kv => addTo (kv.1.set m 0) (rg (nth kv.1 m) * kv.2) acc) []

/-- A sorted set of numbers (`std::set<GInt>::insert`). (ext_array_enum.inl:147-149) -/
def insNat (k : Nat) : List Nat → List Nat
  | [] => [k]
  | a :: l => if k = a then a :: l else if k < a then k :: a :: l else a :: insNat k l

/-- ext_array_enum.inl:147-158, 166-177: the ranges `v` with the sums of `min(rg, v) * count`. -/
def betaSz (m : Nat) (rg : Nat → Nat) (seg : KMap) : List (Nat × Nat) :=
  (seg.foldl (fun acc kv => insNat (rg (nth kv.1 m)) acc) []).map fun v =>
    (v, (seg.map fun kv => min (rg (nth kv.1 m)) v * kv.2).sum)

/-- ext_array_enum.inl:134-164: the entries of `q` cut where the first `n` entries change, `st` holding the starts; `fuel`
bounds the number of pieces. -/
def qrLoop (n m : Nat) (rg : Nat → Nat) : Nat → KMap → List (Key × List (Nat × Nat))
  | 0, _ => []
  | _ + 1, [] => []
  | f + 1, kv :: l =>
    (zeroFrom n kv.1, betaSz m rg (kv :: l.takeWhile fun x => same n kv.1 x.1)) ::
      qrLoop n m rg f (l.dropWhile fun x => same n kv.1 x.1)

/-- ext_array_enum.h:44-60: the members after `setup`.  `qr` holds the pieces of `m_qrb` instead of their bounds. -/
structure Ext where
  N : Nat
  n : Nat
  m : Nat
  rg : Nat → Nat
  ord : List Key
  r : KMap
  w : KMap
  p : KMap
  q : KMap
  qr : List (Key × List (Nat × Nat))
  size : Nat

/-- ext_array_enum.inl:90, 104-107, 124-126: the map `_q`. -/
def qTable (n m : Nat) (r : KMap) : KMap := if 0 < m then (if n < m then wwAt m r (m - n) else r) else r

/-- ext_array_enum.inl:90, 105-107: the map `_p`. -/
def pTable (n m : Nat) (r : KMap) : Option KMap := if 0 < m ∧ n < m then sumPart n m m r else some []

/-- ext_array_enum.inl:90, 109-123: the map `_w`. -/
def wTable (n m : Nat) (rg : Nat → Nat) (r : KMap) : Option KMap :=
  if 0 < m ∧ 0 < min m n then (sumPart 0 (min m n) m (wwAt m r (m - min m n))).map (wBuild m rg) else some []

/-- ext_array_enum.inl:132-181: the map `_qr`. -/
def qrTable (N n m : Nat) (rg : Nat → Nat) (q : KMap) : List (Key × List (Nat × Nat)) :=
  if n ≤ m ∧ q ≠ [] then
    (if 0 < n then qrLoop n m rg q.length q else [(List.replicate N 0, betaSz m rg q)])
  else []

/-- ext_array_enum.inl:12-204 `setup`; `none`: the empty map is dereferenced (`m > 0`, no arrays). -/
def setup (N n m : Nat) (rg : Nat → Nat) (ord : List Key) : Option Ext :=
  let r := rLoop m ord.length ord []
  let q := qTable n m r
  match pTable n m r, wTable n m rg r with
  | some p, some w => some ⟨N, n, m, rg, ord, r, w, p, q, qrTable N n m rg q, (q.map fun kv => rg (nth kv.1 m) * kv.2).sum⟩
  | _, _ => none

/-- `std::lower_bound(m_ord.begin() + b, m_ord.begin() + e, key)` as a position. (ext_array_enum.inl:232, 239) -/
def lbOrd (ord : List Key) (b e : Nat) (key : Key) : Nat := b + (((ord.take e).drop b).takeWhile fun x => lexLt x key).length

/-- `std::lower_bound` by the key: the entries from there on. (ext_array_enum.inl:244, 275) -/
def lbKey {α : Type} (M : List (Key × α)) (key : Key) : List (Key × α) := M.dropWhile fun x => lexLt x.1 key

/-- ext_array_enum.inl:723-734 `contains`. -/
def contains (E : Ext) (x : Key) : Bool :=
  let id := x.take E.n ++ x.drop (E.n + 1)
  if ¬ nth x E.n < E.rg (nth id E.m) then false
  else E.ord[lbOrd E.ord 0 E.ord.length id]? == some id

/-- ext_array_enum.inl:288-289: the value at the key, 0 if there is none. -/
def valAt (M : KMap) (key : Key) : Nat :=
  match lbKey M key with
  | [] => 0
  | e :: _ => if e.1 = key then e.2 else 0

/-- ext_array_enum.inl:206-293 `operator[](const std::array<UInt, N+1>&)`; `none`: an assertion fails. -/
def rank (E : Ext) (x : Key) : Option Nat := do
  let id := x.take E.n ++ x.drop (E.n + 1)
  let s := nth x E.n
  guard (s < E.rg (nth id E.m))
  guard (id ∈ E.ord)
  let itId := E.ord.findIdx fun y => decide (y = id)
  let kId := if E.n ≠ E.N then zeroFrom (if E.m < E.n then E.n else E.m + 1) id else id
  let itK := if E.n ≠ E.N then lbOrd E.ord 0 (itId + 1) kId else itId
  let kn := itId - itK
  let pn := if E.m < E.n then s * (lbOrd E.ord (itId + 1) E.ord.length (incr kId (E.n - 1)) - itK)
    else if E.n + 1 ≤ E.m then
      (((lbKey E.p (kId.set E.m 0)).takeWhile fun e => same E.m e.1 (kId.set E.m 0)).map fun e =>
        if s < E.rg (nth e.1 E.m) then e.2 else 0).sum
    else 0
  let qn := if E.m + 1 < E.n then E.rg (nth id E.m) * (itK - lbOrd E.ord 0 (itK + 1) (zeroFrom (E.m + 1) kId))
    else if E.n ≤ E.m ∧ s ≠ 0 then
      (((lbKey E.q (zeroFrom E.n kId)).takeWhile fun e => same E.m e.1 (zeroFrom E.n kId)).map fun e =>
        min s (E.rg (nth e.1 E.m)) * e.2).sum
    else 0
  let rn := (((lbKey E.r (zeroFrom E.m kId)).takeWhile fun e => same E.m e.1 kId && decide (nth e.1 E.m < nth id E.m)).map fun e =>
      (if E.n ≤ E.m then (if s < E.rg (nth e.1 E.m) then 1 else 0) else E.rg (nth e.1 E.m)) * e.2).sum
  let l := min E.m E.n
  let wn := if 0 < l then valAt E.w (zeroFrom l kId) else 0
  some (wn + rn + qn + pn + kn)

/-- The value of `sum` of the type `int` as it enters an expression of the type `std::size_t`.
(ext_array_enum.inl:333-346) -/
def int32 (x : Nat) : Nat := if x % 2 ^ 32 < 2 ^ 31 then x % 2 ^ 32 else 2 ^ 64 - (2 ^ 32 - x % 2 ^ 32)

/-- ext_array_enum.inl:332-346, 430-444: the search along `m_r`, with the entries `e` starting at the lower bound, the factor
`f`, the state `i`, `res[m]`, `sum`. -/
def scanR (m : Nat) (res : Key) (f : Nat → Nat) : KMap → Nat → Nat → Key → Nat × Key
  | [], i, _, cur => (i, cur)
  | e :: l, i, sum, cur =>
    if same m e.1 res then
      if i < (sum + f (nth e.1 m) * e.2) % 2 ^ 64 then ((i + 2 ^ 64 - sum) % 2 ^ 64, cur.set m (nth e.1 m))
      else scanR m res f l i (int32 (sum + f (nth e.1 m) * e.2)) (cur.set m (nth e.1 m))
    else (i, cur)

/-- The state of the loop over `m_p`: `sum`, `prev_sum`, `p_id`, `prev_p_id`. (ext_array_enum.inl:399-410) -/
structure Scan where
  sum : Nat
  prevSum : Nat
  pid : Key
  prev : Key

/-- ext_array_enum.inl:399-426: the search along `m_p`: the prefix found and `pn`. -/
def scanP (n m : Nat) (f : Nat → Nat) (i : Nat) : KMap → Scan → Key × Nat
  | [], s => (s.pid, s.sum)
  | e :: l, s =>
    if same n e.1 s.pid then
      let s' := if same m s.pid e.1 then { s with sum := s.sum + f (nth e.1 m) * e.2 }
        else ⟨f (nth e.1 m) * e.2, s.sum, e.1, s.pid⟩
      if i < s'.sum then (s'.prev, s'.prevSum) else scanP n m f i l s'
    else (s.pid, s.sum)

/-- The state of the case `n > m`: `i`, `res` and the positions `it`, `jt`. (ext_array_enum.inl:331-363) -/
structure Blk where
  i : Nat
  res : Key
  it : Nat
  jt : Nat

/-- ext_array_enum.inl:351-363: the block of the arrays with the same first `n` entries; `none`: an iterator out of range is
dereferenced, or a division by zero. -/
def highBlock (E : Ext) (b : Blk) : Option Blk :=
  if E.m + 1 < E.n then
    E.ord[b.it]?.bind fun x =>
      if E.rg (nth x E.m) = 0 then none else
      E.ord[b.it + b.i / E.rg (nth x E.m)]?.map fun y =>
        let v := zeroFrom E.n y
        let pit := lbOrd E.ord b.it (b.it + b.i / E.rg (nth x E.m)) v
        let res := b.res.take (E.m + 1) ++ (v.take E.n).drop (E.m + 1) ++ b.res.drop E.n
        ⟨b.i - E.rg (nth x E.m) * (pit - b.it), res, pit, lbOrd E.ord (pit + 1) b.jt (incr res (E.n - 1))⟩
  else some b

/-- ext_array_enum.inl:331-371: the case `n > m`. -/
def unrankHigh (E : Ext) (i : Nat) (res : Key) : Option Key :=
  let s := scanR E.m res E.rg (lbKey E.r res) i 0 res
  let it := lbOrd E.ord 0 E.ord.length s.2
  let jt := lbOrd E.ord (it + 1) E.ord.length (incr s.2 E.m)
  (highBlock E ⟨s.1, s.2, it, jt⟩).bind fun b =>
    if b.jt - b.it = 0 then none else
    E.ord[b.it + b.i % (b.jt - b.it)]?.map fun v => b.res.take E.n ++ (b.i / (b.jt - b.it)) :: v.drop E.n

/-- ext_array_enum.inl:375-389: the inserted value and the rest of `i`, by the pairs of a piece of `m_qrb`; `none`: an iterator
out of range is dereferenced, or a division by zero. -/
def betaFind (e : List (Nat × Nat)) (i : Nat) : Option (Nat × Nat) :=
  let qr := (e.reverse.dropWhile fun a => decide (i < a.2)).head?.getD (0, 0)
  (e.reverse.takeWhile fun a => decide (i < a.2)).getLast?.bind fun nq =>
    if nq.1 - qr.1 = 0 then none else
    let w := (nq.2 - qr.2) / (nq.1 - qr.1)
    if w = 0 then none else some (qr.1 + (i - qr.2) / w, (i - qr.2) % w)

/-- ext_array_enum.inl:391-428: the entries from `n` to `m`. -/
def pFind (E : Ext) (f : Nat → Nat) (i : Nat) (res : Key) : Option (Nat × Key) :=
  if E.n + 1 ≤ E.m then
    match lbKey E.p res with
    | [] => none
    | e :: l =>
      let r := scanP E.n E.m f i l ⟨f (nth e.1 E.m) * e.2, 0, e.1, e.1⟩
      some (i - r.2, res.take E.n ++ (r.1.take E.m).drop E.n ++ res.drop E.m)
  else some (i, res)

/-- ext_array_enum.inl:372-457: the case `n ≤ m`. -/
def unrankLow (E : Ext) (i : Nat) (res : Key) : Option Key :=
  ((lbKey E.qr res).head?.bind fun e => betaFind e.2 i).bind fun b =>
    let f := fun v => if b.1 < E.rg v then 1 else 0
    (pFind E f b.2 res).bind fun c =>
      let s := scanR E.m c.2 f (lbKey E.r c.2) c.1 0 c.2
      let fin := if E.m + 1 < E.N then
          E.ord[lbOrd E.ord 0 E.ord.length s.2 + s.1]?.map fun v => s.2.take (E.m + 1) ++ v.drop (E.m + 1)
        else some s.2
      fin.map fun res => res.take E.n ++ b.1 :: res.drop E.n

/-- ext_array_enum.inl:316-330: the first `min(n, m)` entries.  The binary search along `m_w` from the end is a linear one: the
values grow with the keys. -/
def wFind (N l : Nat) (w : KMap) (i : Nat) : Option (Nat × Key) :=
  if 0 < l then
    match w.reverse.dropWhile (fun a => decide (i < a.2)) with
    | [] => none
    | e :: _ => some (i - e.2, e.1.take l ++ List.replicate (N - l) 0)
  else some (i, List.replicate N 0)

/-- ext_array_enum.inl:295-472 `begin(i)`, the array it points to, and `operator[](GInt)`; `none`: the assertion of line 470
fails, a division by zero, or an iterator out of range is dereferenced. -/
def unrank (E : Ext) (i : Nat) : Option Key :=
  if i < E.size then
    (wFind E.N (min E.n E.m) E.w i).bind fun s => if E.m < E.n then unrankHigh E s.1 s.2 else unrankLow E s.1 s.2
  else none

end Verif.ExtEnum
