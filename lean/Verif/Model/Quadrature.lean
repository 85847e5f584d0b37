import Mathlib.Algebra.Field.Rat
import Verif.Model.Spaces

/-!
Model of the macros building the quadrature tables, `anifem++/fem/quadrature_formulas.cpp`, and of the access to a
formula, `anifem++/fem/quadrature_formulas.h`.

A literal is the exact fraction it denotes: the rounding to `qReal` and the rounding of `1 - x` are not modelled.  The
macros are written over a type with `+` and `-` and given constants, for evaluation on fractions and on integers in a
common unit.
-/
namespace Verif.Quad

/-- A numeric literal `n / d` of quadrature_formulas.cpp: a decimal fraction or a quotient like `qReal(4)/9`.
(e.g. quadrature_formulas.cpp:17, 20) -/
structure Lit where
  n : Nat
  d : Nat
deriving DecidableEq

/-- The number denoted by a literal. (quadrature_formulas.cpp:17) -/
def Lit.val (l : Lit) : ℚ := (l.n : ℚ) / l.d

/-- A decimal literal: the digits `n` with `k` of them after the point. (quadrature_formulas.cpp:17) -/
def dec (n k : Nat) : Lit := ⟨n, 10 ^ k⟩

/-- A literal `qReal(n)/d`. (quadrature_formulas.cpp:20) -/
def quo (n d : Nat) : Lit := ⟨n, d⟩

/-- The constants `qReal(1)`, `0.5`, `qReal(1)/3`, `0.25` of the macros. (quadrature_formulas.cpp:10-14, 111-112, 529) -/
structure Consts (A : Type) where
  one : A
  half : A
  third : A
  quarter : A

/-- Calls of the macros of quadrature_formulas.cpp:11-13. -/
inductive Seg (α : Type) where
  | centre
  | twist2 (k1 : α)
deriving DecidableEq

/-- Calls of the macros of quadrature_formulas.cpp:112-116. -/
inductive Tri (α : Type) where
  | centre
  | twist3 (k1 : α)
  | twist6 (k1 k2 : α)
deriving DecidableEq

/-- Calls of the macros of quadrature_formulas.cpp:529-531, 550, 563-564, 704-706, 809-817. -/
inductive Tet (α : Type) where
  | centre
  | twist4 (k1 k2 : α)
  | twist6 (k1 k2 : α)
  | twist12 (k1 k2 k3 : α)
  | twist24 (k1 k2 k3 k4 : α)
  | stwist1
  | stwist2 (k : α)
  | stwist3 (k : α)
  | stwist4 (k1 k2 : α)
  | stwist5 (k1 k2 k3 : α)
deriving DecidableEq

section
variable {A : Type} [Add A] [Sub A] (c : Consts A)

/-- quadrature_formulas.cpp:11-13: the numbers stored by a macro call. -/
def Seg.mem : Seg A → List A
  | .centre => [c.half, c.half]
  | .twist2 k1 => [k1, c.one - k1, c.one - k1, k1]

/-- quadrature_formulas.cpp:111 `PUSH`. -/
def push2 (l1 l2 : A) : List A := [l1, l2, c.one - l1 - l2]

/-- quadrature_formulas.cpp:112-116. -/
def Tri.mem : Tri A → List A
  | .centre => push2 c c.third c.third
  | .twist3 k1 => push2 c k1 k1 ++ push2 c k1 (c.one - (k1 + k1)) ++ push2 c (c.one - (k1 + k1)) k1
  | .twist6 k1 k2 => push2 c k1 k2 ++ push2 c k2 (c.one - (k1 + k2)) ++ push2 c (c.one - (k1 + k2)) k1 ++
      push2 c k1 (c.one - (k1 + k2)) ++ push2 c (c.one - (k1 + k2)) k2 ++ push2 c k2 k1

/-- quadrature_formulas.cpp:528 `PUSH`. -/
def push3 (l1 l2 l3 : A) : List A := [l1, l2, l3, c.one - l1 - l2 - l3]

/-- A list of calls of `PUSH`, one after another. (quadrature_formulas.cpp:13, 114, 531) -/
def pushAll (l : List (A × A × A)) : List A := l.flatMap fun t => push3 c t.1 t.2.1 t.2.2

/-- quadrature_formulas.cpp:531 `TWIST4`. -/
def tw4 (k1 k2 : A) : List A := pushAll c [
    (k1, k2, k2), (k2, k1, k2), (k2, k2, k1), (k2, k2, k2)]

/-- quadrature_formulas.cpp:550 `TWIST6`. -/
def tw6 (k1 k2 : A) : List A := pushAll c [
    (k1, k1, k2), (k1, k2, k1), (k2, k1, k1), (k1, k2, k2), (k2, k1, k2), (k2, k2, k1)]

/-- quadrature_formulas.cpp:563-564 `TWIST12`. -/
def tw12 (k1 k2 k3 : A) : List A := pushAll c [
    (k1, k3, k2), (k3, k2, k1), (k2, k1, k3), (k1, k2, k3), (k2, k3, k1), (k3, k1, k2),
    (k3, k2, k2), (k2, k1, k2), (k1, k2, k2), (k2, k3, k2), (k2, k2, k3), (k2, k2, k1)]

/-- quadrature_formulas.cpp:704-706 `TWIST24`. -/
def tw24 (k1 k2 k3 k4 : A) : List A := pushAll c [
    (k1, k2, k3), (k2, k3, k1), (k3, k1, k2), (k1, k3, k2), (k3, k2, k1), (k2, k1, k3),
    (k1, k2, k4), (k2, k3, k4), (k3, k1, k4), (k1, k3, k4), (k3, k2, k4), (k2, k1, k4),
    (k1, k4, k2), (k2, k4, k3), (k3, k4, k1), (k1, k4, k3), (k3, k4, k2), (k2, k4, k1),
    (k4, k1, k2), (k4, k2, k3), (k4, k3, k1), (k4, k1, k3), (k4, k3, k2), (k4, k2, k1)]

/-- quadrature_formulas.cpp:529-531, 550, 563-564, 704-706, 809-817: the numbers stored by a macro call. -/
def Tet.mem : Tet A → List A
  | .centre | .stwist1 => [c.quarter, c.quarter, c.quarter, c.quarter]
  | .twist4 k1 k2 => tw4 c k1 k2
  | .twist6 k1 k2 => tw6 c k1 k2
  | .twist12 k1 k2 k3 => tw12 c k1 k2 k3
  | .twist24 k1 k2 k3 k4 => tw24 c k1 k2 k3 k4
  | .stwist2 k => tw4 c (c.one - (k + k + k)) k
  | .stwist3 k => tw6 c (c.half - k) k
  | .stwist4 k1 k2 => tw12 c k2 k1 (c.one - k2 - (k1 + k1))
  | .stwist5 k1 k2 k3 => tw24 c k1 k2 k3 (c.one - k1 - k2 - k3)

end

/-- The same macro call with other arguments. (quadrature_formulas.cpp:10-14) -/
def Seg.map {α β : Type} (f : α → β) : Seg α → Seg β
  | .centre => .centre
  | .twist2 k1 => .twist2 (f k1)
/-- See `Seg.map`. (quadrature_formulas.cpp:111-117) -/
def Tri.map {α β : Type} (f : α → β) : Tri α → Tri β
  | .centre => .centre
  | .twist3 k1 => .twist3 (f k1)
  | .twist6 k1 k2 => .twist6 (f k1) (f k2)
/-- See `Seg.map`. (quadrature_formulas.cpp:528-565) -/
def Tet.map {α β : Type} (f : α → β) : Tet α → Tet β
  | .centre => .centre
  | .twist4 k1 k2 => .twist4 (f k1) (f k2)
  | .twist6 k1 k2 => .twist6 (f k1) (f k2)
  | .twist12 k1 k2 k3 => .twist12 (f k1) (f k2) (f k3)
  | .twist24 k1 k2 k3 k4 => .twist24 (f k1) (f k2) (f k3) (f k4)
  | .stwist1 => .stwist1
  | .stwist2 k => .stwist2 (f k)
  | .stwist3 k => .stwist3 (f k)
  | .stwist4 k1 k2 => .stwist4 (f k1) (f k2)
  | .stwist5 k1 k2 k3 => .stwist5 (f k1) (f k2) (f k3)

/-- The constants as fractions. (quadrature_formulas.cpp:11, 112, 529) -/
def ratConsts : Consts ℚ := ⟨1, 1 / 2, 1 / 3, 1 / 4⟩

/-- An array `fs..` of segment points. (quadrature_formulas.cpp:16-25) -/
def segMem (l : List (Seg Lit)) : List ℚ := l.flatMap fun o => (o.map Lit.val).mem ratConsts
/-- An array `fs..` of triangle points. (quadrature_formulas.cpp:119) -/
def triMem (l : List (Tri Lit)) : List ℚ := l.flatMap fun o => (o.map Lit.val).mem ratConsts
/-- An array `fs..` of tetrahedron points. (quadrature_formulas.cpp:534) -/
def tetMem (l : List (Tet Lit)) : List ℚ := l.flatMap fun o => (o.map Lit.val).mem ratConsts
/-- An array `ws..` of weights; the macros `WCENTRE(w)`, `WTWISTn(w)` (quadrature_formulas.cpp:12, 14, 113, 115, 117, 530,
532, 551, 565, 707, 810-818) write `w` once or `n` times. -/
def wMem (l : List (Nat × Lit)) : List ℚ := l.flatMap fun x => List.replicate x.1 x.2.val

/-- quadrature_formulas.h:25-54, 86-116, 148-178: a formula, `num_points`, `p`, `w`, `sym`. -/
structure Formula where
  np : Nat
  p : List ℚ
  w : List ℚ
  sym : List Int

/-- quadrature_formulas.h:64-71 `SegmentQuadFormula::GetPointWeight`; `none`: the assertion fails or an array is read out
of range. -/
def segPoint (f : Formula) (i : Nat) : Option (Spaces.QPoint ℚ) := do
  guard (i < f.np)
  let p0 ← f.p[2 * i + 0]?
  let w ← f.w[i]?
  some ⟨fun k => [p0, 1 - p0].getD k 0, w⟩

/-- quadrature_formulas.h:126-134 `TriangleQuadFormula::GetPointWeight`. -/
def triPoint (f : Formula) (i : Nat) : Option (Spaces.QPoint ℚ) := do
  guard (i < f.np)
  let p0 ← f.p[3 * i + 0]?
  let p1 ← f.p[3 * i + 1]?
  let w ← f.w[i]?
  some ⟨fun k => [p0, p1, 1 - p0 - p1].getD k 0, w⟩

/-- quadrature_formulas.h:188-196 `TetraQuadFormula::GetPointWeight`. -/
def tetPoint (f : Formula) (i : Nat) : Option (Spaces.QPoint ℚ) := do
  guard (i < f.np)
  let p0 ← f.p[4 * i + 0]?
  let p1 ← f.p[4 * i + 1]?
  let p2 ← f.p[4 * i + 2]?
  let w ← f.w[i]?
  some ⟨fun k => [p0, p1, p2, 1 - p0 - p1 - p2].getD k 0, w⟩

end Verif.Quad
