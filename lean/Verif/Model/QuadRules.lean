import Verif.Model.QuadTables1
import Verif.Model.QuadTables2
import Verif.Model.QuadTables3

/-! Model of the choice of a formula by its order, `anifem++/fem/quadrature_formulas.cpp`. -/
namespace Verif.Quad

/-- quadrature_formulas.cpp:92-100: one column of the arrays `sym_rules`, `sym_rules_w`, `sym_rules_np`, `symmetry`. -/
def segRule (fs : List (Seg Lit)) (ws : List (Nat × Lit)) (s1 : Int) : Formula :=
  ⟨(segMem fs).length / 2, segMem fs, wMem ws, [s1, ((segMem fs).length / 2 / 2 : Nat)]⟩

/-- quadrature_formulas.cpp:513-517. -/
def triRule (fs : List (Tri Lit)) (ws : List (Nat × Lit)) (s : List Int) : Formula :=
  ⟨(triMem fs).length / 3, triMem fs, wMem ws, s⟩

/-- quadrature_formulas.cpp:1492-1496. -/
def tetRule (fs : List (Tet Lit)) (ws : List (Nat × Lit)) (s : List Int) : Formula :=
  ⟨(tetMem fs).length / 4, tetMem fs, wMem ws, s⟩

open SegTab in
/-- quadrature_formulas.cpp:94-100. -/
def segTable : List (List (Seg Lit) × List (Nat × Lit) × Int) :=
  [(fs1, ws1, 1), (fs1, ws1, 1), (fs3, ws3, 0), (fs3, ws3, 0), (fs5, ws5, 1), (fs5, ws5, 1), (fs7, ws7, 0), (fs7, ws7, 0),
    (fs9, ws9, 1), (fs9, ws9, 1), (fs11, ws11, 0), (fs11, ws11, 0), (fs13, ws13, 1), (fs13, ws13, 1), (fs15, ws15, 0),
    (fs15, ws15, 0), (fs17, ws17, 1), (fs17, ws17, 1), (fs19, ws19, 0), (fs19, ws19, 0), (fs21, ws21, 1), (fs21, ws21, 1)]

open TriTab in
/-- quadrature_formulas.cpp:514-517. -/
def triTable : List (List (Tri Lit) × List (Nat × Lit) × List Int) :=
  [(fs1, ws1, s1), (fs1, ws1, s1), (fs2, ws2, s2), (fs3, ws3, s3), (fs4, ws4, s4), (fs5, ws5, s5), (fs6, ws6, s6),
    (fs7, ws7, s7), (fs8, ws8, s8), (fs9, ws9, s9), (fs10, ws10, s10), (fs11, ws11, s11), (fs12, ws12, s12),
    (fs13, ws13, s13), (fs14, ws14, s14), (fs15, ws15, s15), (fs16, ws16, s16), (fs17, ws17, s17), (fs18, ws18, s18),
    (fs19, ws19, s19), (fs20, ws20, s20)]

open TetTab in
/-- quadrature_formulas.cpp:1493-1496. -/
def tetTable : List (List (Tet Lit) × List (Nat × Lit) × List Int) :=
  [(fs1, ws1, s1), (fs1, ws1, s1), (fs2, ws2, s2), (fs3, ws3, s3), (fs5, ws5, s5), (fs5, ws5, s5), (fs6, ws6, s6),
    (fs7, ws7, s7), (fs8, ws8, s8), (fs9, ws9, s9), (fs10, ws10, s10), (fs11, ws11, s11), (fs12, ws12, s12),
    (fs13, ws13, s13), (fs14, ws14, s14), (fs15, ws15, s15), (fs16, ws16, s16), (fs17, ws17, s17), (fs18, ws18, s18),
    (fs19, ws19, s19), (fs20, ws20, s20)]

/-- quadrature_formulas.cpp:8-107 `segment_quadrature_formulas`; `none` is the exception of line 104. -/
def segment (order : Int) : Option Formula :=
  if 21 < order ∨ order < 0 then none
  else segTable[order.toNat]?.map fun x => segRule x.1 x.2.1 x.2.2

/-- quadrature_formulas.cpp:109-523 `triangle_quadrature_formulas`; `none` is the exception of line 520. -/
def triangle (order : Int) : Option Formula :=
  if 20 < order ∨ order < 0 then none
  else triTable[order.toNat]?.map fun x => triRule x.1 x.2.1 x.2.2

/-- quadrature_formulas.cpp:526-1502 `tetrahedron_quadrature_formulas`; `none` is the exception of line 1499. -/
def tetrahedron (order : Int) : Option Formula :=
  if 20 < order ∨ order < 0 then none
  else tetTable[order.toNat]?.map fun x => tetRule x.1 x.2.1 x.2.2

end Verif.Quad
