import Verif.Lemmas.QuadCheck2
import Verif.Lemmas.QuadSym

/-! Kernel evaluation of the symmetry of the triangle tables.  Written by `tools/gen_quadcheck.py`. -/
namespace Verif.Quad.TriTab

theorem orbOk1 : orbitsOk 2 0 (orbitSizes [1, 3, 6] s1) ((rows2 0 (wInt W1 ws1) (triInt S1 fs1)).map (Row.pt2 S1)) = true := by
  decide +kernel
theorem orbOk2 : orbitsOk 2 0 (orbitSizes [1, 3, 6] s2) ((rows2 0 (wInt W2 ws2) (triInt S2 fs2)).map (Row.pt2 S2)) = true := by
  decide +kernel
theorem orbOk3 : orbitsOk 2 0 (orbitSizes [1, 3, 6] s3) ((rows2 0 (wInt W3 ws3) (triInt S3 fs3)).map (Row.pt2 S3)) = true := by
  decide +kernel
theorem orbOk4 : orbitsOk 2 0 (orbitSizes [1, 3, 6] s4) ((rows2 0 (wInt W4 ws4) (triInt S4 fs4)).map (Row.pt2 S4)) = true := by
  decide +kernel
theorem orbOk5 : orbitsOk 2 0 (orbitSizes [1, 3, 6] s5) ((rows2 0 (wInt W5 ws5) (triInt S5 fs5)).map (Row.pt2 S5)) = true := by
  decide +kernel
theorem orbOk6 : orbitsOk 2 0 (orbitSizes [1, 3, 6] s6) ((rows2 0 (wInt W6 ws6) (triInt S6 fs6)).map (Row.pt2 S6)) = true := by
  decide +kernel
theorem orbOk7 : orbitsOk 2 0 (orbitSizes [1, 3, 6] s7) ((rows2 0 (wInt W7 ws7) (triInt S7 fs7)).map (Row.pt2 S7)) = true := by
  decide +kernel
theorem orbOk8 : orbitsOk 2 0 (orbitSizes [1, 3, 6] s8) ((rows2 0 (wInt W8 ws8) (triInt S8 fs8)).map (Row.pt2 S8)) = true := by
  decide +kernel
theorem orbOk9 : orbitsOk 2 0 (orbitSizes [1, 3, 6] s9) ((rows2 0 (wInt W9 ws9) (triInt S9 fs9)).map (Row.pt2 S9)) = true := by
  decide +kernel
theorem orbOk10 : orbitsOk 2 0 (orbitSizes [1, 3, 6] s10) ((rows2 0 (wInt W10 ws10) (triInt S10 fs10)).map (Row.pt2 S10)) = true := by
  decide +kernel
theorem orbOk11 : orbitsOk 2 0 (orbitSizes [1, 3, 6] s11) ((rows2 0 (wInt W11 ws11) (triInt S11 fs11)).map (Row.pt2 S11)) = true := by
  decide +kernel
theorem orbOk12 : orbitsOk 2 0 (orbitSizes [1, 3, 6] s12) ((rows2 0 (wInt W12 ws12) (triInt S12 fs12)).map (Row.pt2 S12)) = true := by
  decide +kernel
theorem orbOk13 : orbitsOk 2 0 (orbitSizes [1, 3, 6] s13) ((rows2 0 (wInt W13 ws13) (triInt S13 fs13)).map (Row.pt2 S13)) = true := by
  decide +kernel
theorem orbOk14 : orbitsOk 2 0 (orbitSizes [1, 3, 6] s14) ((rows2 0 (wInt W14 ws14) (triInt S14 fs14)).map (Row.pt2 S14)) = true := by
  decide +kernel
theorem orbOk15 : orbitsOk 2 0 (orbitSizes [1, 3, 6] s15) ((rows2 0 (wInt W15 ws15) (triInt S15 fs15)).map (Row.pt2 S15)) = true := by
  decide +kernel
theorem orbOk16 : orbitsOk 2 0 (orbitSizes [1, 3, 6] s16) ((rows2 0 (wInt W16 ws16) (triInt S16 fs16)).map (Row.pt2 S16)) = true := by
  decide +kernel
theorem orbOk17 : orbitsOk 2 0 (orbitSizes [1, 3, 6] s17) ((rows2 0 (wInt W17 ws17) (triInt S17 fs17)).map (Row.pt2 S17)) = true := by
  decide +kernel
theorem orbOk18 : orbitsOk 2 0 (orbitSizes [1, 3, 6] s18) ((rows2 0 (wInt W18 ws18) (triInt S18 fs18)).map (Row.pt2 S18)) = true := by
  decide +kernel
theorem orbOk19 : orbitsOk 2 0 (orbitSizes [1, 3, 6] s19) ((rows2 0 (wInt W19 ws19) (triInt S19 fs19)).map (Row.pt2 S19)) = true := by
  decide +kernel
theorem orbOk20 : orbitsOk 2 0 (orbitSizes [1, 3, 6] s20) ((rows2 0 (wInt W20 ws20) (triInt S20 fs20)).map (Row.pt2 S20)) = true := by
  decide +kernel

end Verif.Quad.TriTab
