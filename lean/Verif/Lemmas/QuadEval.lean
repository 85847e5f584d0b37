import Mathlib.Data.Nat.Factorial.Basic
import Verif.Model.QuadRules

/-!
Exact evaluation of the quadrature tables in integers, suitable for the kernel: all numbers of a table are integers in the
unit `1/S` (points) and `1/W` (weights).
-/
namespace Verif.Quad

/-- The constants in the unit `1/S`. -/
def intConsts (S : Nat) : Consts Int := ⟨(S : Nat), (S / 2 : Nat), (S / 3 : Nat), (S / 4 : Nat)⟩

/-- A literal in the unit `1/S`. -/
def Lit.scale (S : Nat) (l : Lit) : Int := Int.ofNat (l.n * (S / l.d))

/-- The arguments of a macro call. -/
def Seg.args {α : Type} : Seg α → List α
  | .centre => []
  | .twist2 k => [k]
/-- See `Seg.args`. -/
def Tri.args {α : Type} : Tri α → List α
  | .centre => []
  | .twist3 k => [k]
  | .twist6 k1 k2 => [k1, k2]
/-- See `Seg.args`. -/
def Tet.args {α : Type} : Tet α → List α
  | .centre | .stwist1 => []
  | .stwist2 k | .stwist3 k => [k]
  | .twist4 k1 k2 | .twist6 k1 k2 | .stwist4 k1 k2 => [k1, k2]
  | .twist12 k1 k2 k3 | .stwist5 k1 k2 k3 => [k1, k2, k3]
  | .twist24 k1 k2 k3 k4 => [k1, k2, k3, k4]

/-- Whether a literal is a whole number of units. -/
def Lit.fits (S : Nat) (l : Lit) : Bool := Nat.ble 1 l.d && Nat.beq (S % l.d) 0

/-- Points (flat array) in the unit `1/S`. -/
def segInt (S : Nat) (l : List (Seg Lit)) : List Int := l.flatMap fun o => (o.map (Lit.scale S)).mem (intConsts S)
/-- See `segInt`. -/
def triInt (S : Nat) (l : List (Tri Lit)) : List Int := l.flatMap fun o => (o.map (Lit.scale S)).mem (intConsts S)
/-- See `segInt`. -/
def tetInt (S : Nat) (l : List (Tet Lit)) : List Int := l.flatMap fun o => (o.map (Lit.scale S)).mem (intConsts S)
/-- Weights in the unit `1/W`. -/
def wInt (W : Nat) (l : List (Nat × Lit)) : List Int := l.flatMap fun x => List.replicate x.1 (x.2.scale W)

/-- A weighted point with three coordinates; the missing ones of a segment or a triangle are `z`. -/
structure Row (A : Type) where
  w : A
  x : A
  y : A
  z : A

/-- The weighted points of a segment formula. -/
def rows1 {A : Type} (z : A) : List A → List A → List (Row A)
  | w :: ws, x :: _ :: r => ⟨w, x, z, z⟩ :: rows1 z ws r
  | _, _ => []
/-- The weighted points of a triangle formula. -/
def rows2 {A : Type} (z : A) : List A → List A → List (Row A)
  | w :: ws, x :: y :: _ :: r => ⟨w, x, y, z⟩ :: rows2 z ws r
  | _, _ => []
/-- The weighted points of a tetrahedron formula. -/
def rows3 {A : Type} : List A → List A → List (Row A)
  | w :: ws, x :: y :: z :: _ :: r => ⟨w, x, y, z⟩ :: rows3 ws r
  | _, _ => []

/-- The natural numbers of a row. -/
def Row.nat (r : Row Int) : Row Nat := ⟨r.w.toNat, r.x.toNat, r.y.toNat, r.z.toNat⟩

/-- The sum of `w x^a y^b z^c` over the points. -/
def mom (P : List (Row Nat)) (a b c : Nat) : Nat :=
  P.foldr (fun p s => Nat.add (Nat.mul (Nat.mul p.w (Nat.pow p.x a)) (Nat.mul (Nat.pow p.y b) (Nat.pow p.z c))) s) 0

/-- The moment `a, b, c` of the points agrees with `dim! a! b! c! / (a + b + c + dim)!` up to `10^-48`. -/
def within (dim S W : Nat) (P : List (Row Nat)) (a b c : Nat) : Bool :=
  Nat.ble (dim.factorial * (a.factorial * b.factorial * c.factorial) * 10 ^ 48 * (W * S ^ (a + b + c)))
    ((mom P a b c * 10 ^ 48 + W * S ^ (a + b + c)) * (a + b + c + dim).factorial) &&
  Nat.ble (mom P a b c * 10 ^ 48 * (a + b + c + dim).factorial)
    ((dim.factorial * (a.factorial * b.factorial * c.factorial) * 10 ^ 48 + (a + b + c + dim).factorial) *
      (W * S ^ (a + b + c)))

/-- Everything but the moments: the literals fit, the numbers are positive, the arrays have matching lengths. -/
def sane (k S W : Nat) (lits wl : List Lit) (mem ws : List Int) : Bool :=
  Nat.ble 1 S && Nat.ble 1 W && Nat.beq (S % 12) 0 && lits.all (Lit.fits S) && wl.all (Lit.fits W) &&
  mem.all (fun x => decide (0 < x)) && ws.all (fun x => decide (0 < x)) && Nat.beq mem.length (k * ws.length)

/-- All moments `a` up to the degree `n`. -/
def moments1 (n S W : Nat) (P : List (Row Nat)) : Bool := (List.range (n + 1)).all fun a => within 1 S W P a 0 0
/-- All moments `a, b` up to the degree `n`. -/
def moments2 (n S W : Nat) (P : List (Row Nat)) : Bool :=
  (List.range (n + 1)).all fun a => (List.range (n + 1 - a)).all fun b => within 2 S W P a b 0
/-- All moments with `c ≤ b ≤ a` up to the degree `n`, for one `a`. -/
def moments3 (n S W : Nat) (P : List (Row Nat)) (a : Nat) : Bool :=
  (List.range (min a (n - a) + 1)).all fun b => (List.range (min b (n - a - b) + 1)).all fun c => within 3 S W P a b c

end Verif.Quad
