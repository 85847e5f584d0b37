import Verif.Lemmas.QuadCheck3c
import Verif.Lemmas.QuadSym

/-! Kernel evaluation of the symmetry of the tetrahedron tables.  Written by `tools/gen_quadcheck.py`. -/
namespace Verif.Quad.TetTab

theorem orbOk1 : orbitsOk 3 0 (orbitSizes [1, 4, 6, 12, 24] s1) ((rows3 (wInt W1 ws1) (tetInt S1 fs1)).map (Row.pt3 S1)) = true := by
  decide +kernel
theorem orbOk2 : orbitsOk 3 (S2 / 10 ^ 120 : Nat) (orbitSizes [1, 4, 6, 12, 24] s2) ((rows3 (wInt W2 ws2) (tetInt S2 fs2)).map (Row.pt3 S2)) = true := by
  decide +kernel
theorem orbOk3 : orbitsOk 3 (S3 / 10 ^ 120 : Nat) (orbitSizes [1, 4, 6, 12, 24] s3) ((rows3 (wInt W3 ws3) (tetInt S3 fs3)).map (Row.pt3 S3)) = true := by
  decide +kernel
theorem orbOk5 : orbitsOk 3 (S5 / 10 ^ 120 : Nat) (orbitSizes [1, 4, 6, 12, 24] s5) ((rows3 (wInt W5 ws5) (tetInt S5 fs5)).map (Row.pt3 S5)) = true := by
  decide +kernel
theorem orbOk6 : orbitsOk 3 (S6 / 10 ^ 120 : Nat) (orbitSizes [1, 4, 6, 12, 24] s6) ((rows3 (wInt W6 ws6) (tetInt S6 fs6)).map (Row.pt3 S6)) = true := by
  decide +kernel
theorem orbOk7 : orbitsOk 3 (S7 / 10 ^ 120 : Nat) (orbitSizes [1, 4, 6, 12, 24] s7) ((rows3 (wInt W7 ws7) (tetInt S7 fs7)).map (Row.pt3 S7)) = true := by
  decide +kernel
theorem orbOk8 : orbitsOk 3 (S8 / 10 ^ 120 : Nat) (orbitSizes [1, 4, 6, 12, 24] s8) ((rows3 (wInt W8 ws8) (tetInt S8 fs8)).map (Row.pt3 S8)) = true := by
  decide +kernel
theorem orbOk9 : orbitsOk 3 (S9 / 10 ^ 120 : Nat) (orbitSizes [1, 4, 6, 12, 24] s9) ((rows3 (wInt W9 ws9) (tetInt S9 fs9)).map (Row.pt3 S9)) = true := by
  decide +kernel
theorem orbOk10 : orbitsOk 3 (S10 / 10 ^ 120 : Nat) (orbitSizes [1, 4, 6, 12, 24] s10) ((rows3 (wInt W10 ws10) (tetInt S10 fs10)).map (Row.pt3 S10)) = true := by
  decide +kernel
theorem orbOk11 : orbitsOk 3 (S11 / 10 ^ 120 : Nat) (orbitSizes [1, 4, 6, 12, 24] s11) ((rows3 (wInt W11 ws11) (tetInt S11 fs11)).map (Row.pt3 S11)) = true := by
  decide +kernel
theorem orbOk12 : orbitsOk 3 (S12 / 10 ^ 120 : Nat) (orbitSizes [1, 4, 6, 12, 24] s12) ((rows3 (wInt W12 ws12) (tetInt S12 fs12)).map (Row.pt3 S12)) = true := by
  decide +kernel
theorem orbOk13 : orbitsOk 3 0 (orbitSizes [1, 4, 6, 12, 24] s13) ((rows3 (wInt W13 ws13) (tetInt S13 fs13)).map (Row.pt3 S13)) = true := by
  decide +kernel
theorem orbOk14 : orbitsOk 3 0 (orbitSizes [1, 4, 6, 12, 24] s14) ((rows3 (wInt W14 ws14) (tetInt S14 fs14)).map (Row.pt3 S14)) = true := by
  decide +kernel
theorem orbOk15 : orbitsOk 3 0 (orbitSizes [1, 4, 6, 12, 24] s15) ((rows3 (wInt W15 ws15) (tetInt S15 fs15)).map (Row.pt3 S15)) = true := by
  decide +kernel
theorem orbOk16 : orbitsOk 3 0 (orbitSizes [1, 4, 6, 12, 24] s16) ((rows3 (wInt W16 ws16) (tetInt S16 fs16)).map (Row.pt3 S16)) = true := by
  decide +kernel
theorem orbOk17 : orbitsOk 3 0 (orbitSizes [1, 4, 6, 12, 24] s17) ((rows3 (wInt W17 ws17) (tetInt S17 fs17)).map (Row.pt3 S17)) = true := by
  decide +kernel
theorem orbOk18 : orbitsOk 3 0 (orbitSizes [1, 4, 6, 12, 24] s18) ((rows3 (wInt W18 ws18) (tetInt S18 fs18)).map (Row.pt3 S18)) = true := by
  decide +kernel
theorem orbOk19 : orbitsOk 3 0 (orbitSizes [1, 4, 6, 12, 24] s19) ((rows3 (wInt W19 ws19) (tetInt S19 fs19)).map (Row.pt3 S19)) = true := by
  decide +kernel
theorem orbOk20 : orbitsOk 3 0 (orbitSizes [1, 4, 6, 12, 24] s20) ((rows3 (wInt W20 ws20) (tetInt S20 fs20)).map (Row.pt3 S20)) = true := by
  decide +kernel

end Verif.Quad.TetTab
