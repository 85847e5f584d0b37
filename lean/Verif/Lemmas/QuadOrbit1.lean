import Verif.Lemmas.QuadCheck1
import Verif.Lemmas.QuadSym

/-! Kernel evaluation of the symmetry of the segment tables.  Written by `tools/gen_quadcheck.py`. -/
namespace Verif.Quad.SegTab

theorem orbOk1 : orbitsOk 1 0 (orbitSizes [1, 2] [1, ((segMem fs1).length / 2 / 2 : Nat)]) ((rows1 0 (wInt W1 ws1) (segInt S1 fs1)).map (Row.pt1 S1)) = true := by
  decide +kernel
theorem orbOk3 : orbitsOk 1 0 (orbitSizes [1, 2] [0, ((segMem fs3).length / 2 / 2 : Nat)]) ((rows1 0 (wInt W3 ws3) (segInt S3 fs3)).map (Row.pt1 S3)) = true := by
  decide +kernel
theorem orbOk5 : orbitsOk 1 0 (orbitSizes [1, 2] [1, ((segMem fs5).length / 2 / 2 : Nat)]) ((rows1 0 (wInt W5 ws5) (segInt S5 fs5)).map (Row.pt1 S5)) = true := by
  decide +kernel
theorem orbOk7 : orbitsOk 1 0 (orbitSizes [1, 2] [0, ((segMem fs7).length / 2 / 2 : Nat)]) ((rows1 0 (wInt W7 ws7) (segInt S7 fs7)).map (Row.pt1 S7)) = true := by
  decide +kernel
theorem orbOk9 : orbitsOk 1 0 (orbitSizes [1, 2] [1, ((segMem fs9).length / 2 / 2 : Nat)]) ((rows1 0 (wInt W9 ws9) (segInt S9 fs9)).map (Row.pt1 S9)) = true := by
  decide +kernel
theorem orbOk11 : orbitsOk 1 0 (orbitSizes [1, 2] [0, ((segMem fs11).length / 2 / 2 : Nat)]) ((rows1 0 (wInt W11 ws11) (segInt S11 fs11)).map (Row.pt1 S11)) = true := by
  decide +kernel
theorem orbOk13 : orbitsOk 1 0 (orbitSizes [1, 2] [1, ((segMem fs13).length / 2 / 2 : Nat)]) ((rows1 0 (wInt W13 ws13) (segInt S13 fs13)).map (Row.pt1 S13)) = true := by
  decide +kernel
theorem orbOk15 : orbitsOk 1 0 (orbitSizes [1, 2] [0, ((segMem fs15).length / 2 / 2 : Nat)]) ((rows1 0 (wInt W15 ws15) (segInt S15 fs15)).map (Row.pt1 S15)) = true := by
  decide +kernel
theorem orbOk17 : orbitsOk 1 0 (orbitSizes [1, 2] [1, ((segMem fs17).length / 2 / 2 : Nat)]) ((rows1 0 (wInt W17 ws17) (segInt S17 fs17)).map (Row.pt1 S17)) = true := by
  decide +kernel
theorem orbOk19 : orbitsOk 1 0 (orbitSizes [1, 2] [0, ((segMem fs19).length / 2 / 2 : Nat)]) ((rows1 0 (wInt W19 ws19) (segInt S19 fs19)).map (Row.pt1 S19)) = true := by
  decide +kernel
theorem orbOk21 : orbitsOk 1 0 (orbitSizes [1, 2] [1, ((segMem fs21).length / 2 / 2 : Nat)]) ((rows1 0 (wInt W21 ws21) (segInt S21 fs21)).map (Row.pt1 S21)) = true := by
  decide +kernel

end Verif.Quad.SegTab
