import Verif.Lemmas.QuadEval

/-! Kernel evaluation of the segment tables.  Written by `tools/gen_quadcheck.py`. -/
namespace Verif.Quad.SegTab

/-- Units of `fs1` and `ws1`. -/
def S1 : Nat := 12 * 10 ^ 0
/-- See `S1`. -/
def W1 : Nat := 1 * 10 ^ 0
theorem saneOk1 : sane 2 S1 W1 (fs1.flatMap Seg.args) (ws1.map Prod.snd) (segInt S1 fs1) (wInt W1 ws1) = true := by
  decide +kernel
theorem momOk1 : moments1 1 S1 W1 ((rows1 0 (wInt W1 ws1) (segInt S1 fs1)).map Row.nat) = true := by
  decide +kernel

/-- Units of `fs3` and `ws3`. -/
def S3 : Nat := 3 * 10 ^ 127
/-- See `S3`. -/
def W3 : Nat := 1 * 10 ^ 1
theorem saneOk3 : sane 2 S3 W3 (fs3.flatMap Seg.args) (ws3.map Prod.snd) (segInt S3 fs3) (wInt W3 ws3) = true := by
  decide +kernel
theorem momOk3 : moments1 3 S3 W3 ((rows1 0 (wInt W3 ws3) (segInt S3 fs3)).map Row.nat) = true := by
  decide +kernel

/-- Units of `fs5` and `ws5`. -/
def S5 : Nat := 3 * 10 ^ 127
/-- See `S5`. -/
def W5 : Nat := 18 * 10 ^ 0
theorem saneOk5 : sane 2 S5 W5 (fs5.flatMap Seg.args) (ws5.map Prod.snd) (segInt S5 fs5) (wInt W5 ws5) = true := by
  decide +kernel
theorem momOk5 : moments1 5 S5 W5 ((rows1 0 (wInt W5 ws5) (segInt S5 fs5)).map Row.nat) = true := by
  decide +kernel

/-- Units of `fs7` and `ws7`. -/
def S7 : Nat := 3 * 10 ^ 127
/-- See `S7`. -/
def W7 : Nat := 1 * 10 ^ 127
theorem saneOk7 : sane 2 S7 W7 (fs7.flatMap Seg.args) (ws7.map Prod.snd) (segInt S7 fs7) (wInt W7 ws7) = true := by
  decide +kernel
theorem momOk7 : moments1 7 S7 W7 ((rows1 0 (wInt W7 ws7) (segInt S7 fs7)).map Row.nat) = true := by
  decide +kernel

/-- Units of `fs9` and `ws9`. -/
def S9 : Nat := 3 * 10 ^ 127
/-- See `S9`. -/
def W9 : Nat := 9 * 10 ^ 127
theorem saneOk9 : sane 2 S9 W9 (fs9.flatMap Seg.args) (ws9.map Prod.snd) (segInt S9 fs9) (wInt W9 ws9) = true := by
  decide +kernel
theorem momOk9 : moments1 9 S9 W9 ((rows1 0 (wInt W9 ws9) (segInt S9 fs9)).map Row.nat) = true := by
  decide +kernel

/-- Units of `fs11` and `ws11`. -/
def S11 : Nat := 3 * 10 ^ 128
/-- See `S11`. -/
def W11 : Nat := 1 * 10 ^ 128
theorem saneOk11 : sane 2 S11 W11 (fs11.flatMap Seg.args) (ws11.map Prod.snd) (segInt S11 fs11) (wInt W11 ws11) = true := by
  decide +kernel
theorem momOk11 : moments1 11 S11 W11 ((rows1 0 (wInt W11 ws11) (segInt S11 fs11)).map Row.nat) = true := by
  decide +kernel

/-- Units of `fs13` and `ws13`. -/
def S13 : Nat := 3 * 10 ^ 128
/-- See `S13`. -/
def W13 : Nat := 49 * 10 ^ 128
theorem saneOk13 : sane 2 S13 W13 (fs13.flatMap Seg.args) (ws13.map Prod.snd) (segInt S13 fs13) (wInt W13 ws13) = true := by
  decide +kernel
theorem momOk13 : moments1 13 S13 W13 ((rows1 0 (wInt W13 ws13) (segInt S13 fs13)).map Row.nat) = true := by
  decide +kernel

/-- Units of `fs15` and `ws15`. -/
def S15 : Nat := 3 * 10 ^ 128
/-- See `S15`. -/
def W15 : Nat := 1 * 10 ^ 128
theorem saneOk15 : sane 2 S15 W15 (fs15.flatMap Seg.args) (ws15.map Prod.snd) (segInt S15 fs15) (wInt W15 ws15) = true := by
  decide +kernel
theorem momOk15 : moments1 15 S15 W15 ((rows1 0 (wInt W15 ws15) (segInt S15 fs15)).map Row.nat) = true := by
  decide +kernel

/-- Units of `fs17` and `ws17`. -/
def S17 : Nat := 3 * 10 ^ 128
/-- See `S17`. -/
def W17 : Nat := 3969 * 10 ^ 128
theorem saneOk17 : sane 2 S17 W17 (fs17.flatMap Seg.args) (ws17.map Prod.snd) (segInt S17 fs17) (wInt W17 ws17) = true := by
  decide +kernel
theorem momOk17 : moments1 17 S17 W17 ((rows1 0 (wInt W17 ws17) (segInt S17 fs17)).map Row.nat) = true := by
  decide +kernel

/-- Units of `fs19` and `ws19`. -/
def S19 : Nat := 3 * 10 ^ 128
/-- See `S19`. -/
def W19 : Nat := 1 * 10 ^ 128
theorem saneOk19 : sane 2 S19 W19 (fs19.flatMap Seg.args) (ws19.map Prod.snd) (segInt S19 fs19) (wInt W19 ws19) = true := by
  decide +kernel
theorem momOk19 : moments1 19 S19 W19 ((rows1 0 (wInt W19 ws19) (segInt S19 fs19)).map Row.nat) = true := by
  decide +kernel

/-- Units of `fs21` and `ws21`. -/
def S21 : Nat := 3 * 10 ^ 128
/-- See `S21`. -/
def W21 : Nat := 1 * 10 ^ 128
theorem saneOk21 : sane 2 S21 W21 (fs21.flatMap Seg.args) (ws21.map Prod.snd) (segInt S21 fs21) (wInt W21 ws21) = true := by
  decide +kernel
theorem momOk21 : moments1 21 S21 W21 ((rows1 0 (wInt W21 ws21) (segInt S21 fs21)).map Row.nat) = true := by
  decide +kernel

end Verif.Quad.SegTab
