import Verif.Lemmas.QuadEval

/-! Kernel evaluation of the triangle tables.  Written by `tools/gen_quadcheck.py`. -/
namespace Verif.Quad.TriTab

/-- Units of `fs1` and `ws1`. -/
def S1 : Nat := 12 * 10 ^ 0
/-- See `S1`. -/
def W1 : Nat := 1 * 10 ^ 0
theorem saneOk1 : sane 3 S1 W1 (fs1.flatMap Tri.args) (ws1.map Prod.snd) (triInt S1 fs1) (wInt W1 ws1) = true := by
  decide +kernel
theorem momOk1 : moments2 1 S1 W1 ((rows2 0 (wInt W1 ws1) (triInt S1 fs1)).map Row.nat) = true := by
  decide +kernel

/-- Units of `fs2` and `ws2`. -/
def S2 : Nat := 12 * 10 ^ 0
/-- See `S2`. -/
def W2 : Nat := 3 * 10 ^ 0
theorem saneOk2 : sane 3 S2 W2 (fs2.flatMap Tri.args) (ws2.map Prod.snd) (triInt S2 fs2) (wInt W2 ws2) = true := by
  decide +kernel
theorem momOk2 : moments2 2 S2 W2 ((rows2 0 (wInt W2 ws2) (triInt S2 fs2)).map Row.nat) = true := by
  decide +kernel

/-- Units of `fs3` and `ws3`. -/
def S3 : Nat := 3 * 10 ^ 129
/-- See `S3`. -/
def W3 : Nat := 6 * 10 ^ 0
theorem saneOk3 : sane 3 S3 W3 (fs3.flatMap Tri.args) (ws3.map Prod.snd) (triInt S3 fs3) (wInt W3 ws3) = true := by
  decide +kernel
theorem momOk3 : moments2 3 S3 W3 ((rows2 0 (wInt W3 ws3) (triInt S3 fs3)).map Row.nat) = true := by
  decide +kernel

/-- Units of `fs4` and `ws4`. -/
def S4 : Nat := 3 * 10 ^ 51
/-- See `S4`. -/
def W4 : Nat := 1 * 10 ^ 50
theorem saneOk4 : sane 3 S4 W4 (fs4.flatMap Tri.args) (ws4.map Prod.snd) (triInt S4 fs4) (wInt W4 ws4) = true := by
  decide +kernel
theorem momOk4 : moments2 4 S4 W4 ((rows2 0 (wInt W4 ws4) (triInt S4 fs4)).map Row.nat) = true := by
  decide +kernel

/-- Units of `fs5` and `ws5`. -/
def S5 : Nat := 3 * 10 ^ 129
/-- See `S5`. -/
def W5 : Nat := 1 * 10 ^ 129
theorem saneOk5 : sane 3 S5 W5 (fs5.flatMap Tri.args) (ws5.map Prod.snd) (triInt S5 fs5) (wInt W5 ws5) = true := by
  decide +kernel
theorem momOk5 : moments2 5 S5 W5 ((rows2 0 (wInt W5 ws5) (triInt S5 fs5)).map Row.nat) = true := by
  decide +kernel

/-- Units of `fs6` and `ws6`. -/
def S6 : Nat := 3 * 10 ^ 51
/-- See `S6`. -/
def W6 : Nat := 1 * 10 ^ 51
theorem saneOk6 : sane 3 S6 W6 (fs6.flatMap Tri.args) (ws6.map Prod.snd) (triInt S6 fs6) (wInt W6 ws6) = true := by
  decide +kernel
theorem momOk6 : moments2 6 S6 W6 ((rows2 0 (wInt W6 ws6) (triInt S6 fs6)).map Row.nat) = true := by
  decide +kernel

/-- Units of `fs7` and `ws7`. -/
def S7 : Nat := 3 * 10 ^ 51
/-- See `S7`. -/
def W7 : Nat := 1 * 10 ^ 51
theorem saneOk7 : sane 3 S7 W7 (fs7.flatMap Tri.args) (ws7.map Prod.snd) (triInt S7 fs7) (wInt W7 ws7) = true := by
  decide +kernel
theorem momOk7 : moments2 7 S7 W7 ((rows2 0 (wInt W7 ws7) (triInt S7 fs7)).map Row.nat) = true := by
  decide +kernel

/-- Units of `fs8` and `ws8`. -/
def S8 : Nat := 3 * 10 ^ 51
/-- See `S8`. -/
def W8 : Nat := 1 * 10 ^ 51
theorem saneOk8 : sane 3 S8 W8 (fs8.flatMap Tri.args) (ws8.map Prod.snd) (triInt S8 fs8) (wInt W8 ws8) = true := by
  decide +kernel
theorem momOk8 : moments2 8 S8 W8 ((rows2 0 (wInt W8 ws8) (triInt S8 fs8)).map Row.nat) = true := by
  decide +kernel

/-- Units of `fs9` and `ws9`. -/
def S9 : Nat := 3 * 10 ^ 51
/-- See `S9`. -/
def W9 : Nat := 1 * 10 ^ 51
theorem saneOk9 : sane 3 S9 W9 (fs9.flatMap Tri.args) (ws9.map Prod.snd) (triInt S9 fs9) (wInt W9 ws9) = true := by
  decide +kernel
theorem momOk9 : moments2 9 S9 W9 ((rows2 0 (wInt W9 ws9) (triInt S9 fs9)).map Row.nat) = true := by
  decide +kernel

/-- Units of `fs10` and `ws10`. -/
def S10 : Nat := 3 * 10 ^ 51
/-- See `S10`. -/
def W10 : Nat := 1 * 10 ^ 51
theorem saneOk10 : sane 3 S10 W10 (fs10.flatMap Tri.args) (ws10.map Prod.snd) (triInt S10 fs10) (wInt W10 ws10) = true := by
  decide +kernel
theorem momOk10 : moments2 10 S10 W10 ((rows2 0 (wInt W10 ws10) (triInt S10 fs10)).map Row.nat) = true := by
  decide +kernel

/-- Units of `fs11` and `ws11`. -/
def S11 : Nat := 3 * 10 ^ 51
/-- See `S11`. -/
def W11 : Nat := 1 * 10 ^ 52
theorem saneOk11 : sane 3 S11 W11 (fs11.flatMap Tri.args) (ws11.map Prod.snd) (triInt S11 fs11) (wInt W11 ws11) = true := by
  decide +kernel
theorem momOk11 : moments2 11 S11 W11 ((rows2 0 (wInt W11 ws11) (triInt S11 fs11)).map Row.nat) = true := by
  decide +kernel

/-- Units of `fs12` and `ws12`. -/
def S12 : Nat := 3 * 10 ^ 51
/-- See `S12`. -/
def W12 : Nat := 1 * 10 ^ 52
theorem saneOk12 : sane 3 S12 W12 (fs12.flatMap Tri.args) (ws12.map Prod.snd) (triInt S12 fs12) (wInt W12 ws12) = true := by
  decide +kernel
theorem momOk12 : moments2 12 S12 W12 ((rows2 0 (wInt W12 ws12) (triInt S12 fs12)).map Row.nat) = true := by
  decide +kernel

/-- Units of `fs13` and `ws13`. -/
def S13 : Nat := 3 * 10 ^ 51
/-- See `S13`. -/
def W13 : Nat := 1 * 10 ^ 52
theorem saneOk13 : sane 3 S13 W13 (fs13.flatMap Tri.args) (ws13.map Prod.snd) (triInt S13 fs13) (wInt W13 ws13) = true := by
  decide +kernel
theorem momOk13 : moments2 13 S13 W13 ((rows2 0 (wInt W13 ws13) (triInt S13 fs13)).map Row.nat) = true := by
  decide +kernel

/-- Units of `fs14` and `ws14`. -/
def S14 : Nat := 3 * 10 ^ 52
/-- See `S14`. -/
def W14 : Nat := 1 * 10 ^ 52
theorem saneOk14 : sane 3 S14 W14 (fs14.flatMap Tri.args) (ws14.map Prod.snd) (triInt S14 fs14) (wInt W14 ws14) = true := by
  decide +kernel
theorem momOk14 : moments2 14 S14 W14 ((rows2 0 (wInt W14 ws14) (triInt S14 fs14)).map Row.nat) = true := by
  decide +kernel

/-- Units of `fs15` and `ws15`. -/
def S15 : Nat := 3 * 10 ^ 52
/-- See `S15`. -/
def W15 : Nat := 1 * 10 ^ 52
theorem saneOk15 : sane 3 S15 W15 (fs15.flatMap Tri.args) (ws15.map Prod.snd) (triInt S15 fs15) (wInt W15 ws15) = true := by
  decide +kernel
theorem momOk15 : moments2 15 S15 W15 ((rows2 0 (wInt W15 ws15) (triInt S15 fs15)).map Row.nat) = true := by
  decide +kernel

/-- Units of `fs16` and `ws16`. -/
def S16 : Nat := 3 * 10 ^ 52
/-- See `S16`. -/
def W16 : Nat := 1 * 10 ^ 52
theorem saneOk16 : sane 3 S16 W16 (fs16.flatMap Tri.args) (ws16.map Prod.snd) (triInt S16 fs16) (wInt W16 ws16) = true := by
  decide +kernel
theorem momOk16 : moments2 16 S16 W16 ((rows2 0 (wInt W16 ws16) (triInt S16 fs16)).map Row.nat) = true := by
  decide +kernel

/-- Units of `fs17` and `ws17`. -/
def S17 : Nat := 3 * 10 ^ 51
/-- See `S17`. -/
def W17 : Nat := 1 * 10 ^ 52
theorem saneOk17 : sane 3 S17 W17 (fs17.flatMap Tri.args) (ws17.map Prod.snd) (triInt S17 fs17) (wInt W17 ws17) = true := by
  decide +kernel
theorem momOk17 : moments2 17 S17 W17 ((rows2 0 (wInt W17 ws17) (triInt S17 fs17)).map Row.nat) = true := by
  decide +kernel

/-- Units of `fs18` and `ws18`. -/
def S18 : Nat := 3 * 10 ^ 51
/-- See `S18`. -/
def W18 : Nat := 1 * 10 ^ 52
theorem saneOk18 : sane 3 S18 W18 (fs18.flatMap Tri.args) (ws18.map Prod.snd) (triInt S18 fs18) (wInt W18 ws18) = true := by
  decide +kernel
theorem momOk18 : moments2 18 S18 W18 ((rows2 0 (wInt W18 ws18) (triInt S18 fs18)).map Row.nat) = true := by
  decide +kernel

/-- Units of `fs19` and `ws19`. -/
def S19 : Nat := 3 * 10 ^ 51
/-- See `S19`. -/
def W19 : Nat := 1 * 10 ^ 52
theorem saneOk19 : sane 3 S19 W19 (fs19.flatMap Tri.args) (ws19.map Prod.snd) (triInt S19 fs19) (wInt W19 ws19) = true := by
  decide +kernel
theorem momOk19 : moments2 19 S19 W19 ((rows2 0 (wInt W19 ws19) (triInt S19 fs19)).map Row.nat) = true := by
  decide +kernel

/-- Units of `fs20` and `ws20`. -/
def S20 : Nat := 3 * 10 ^ 52
/-- See `S20`. -/
def W20 : Nat := 1 * 10 ^ 52
theorem saneOk20 : sane 3 S20 W20 (fs20.flatMap Tri.args) (ws20.map Prod.snd) (triInt S20 fs20) (wInt W20 ws20) = true := by
  decide +kernel
theorem momOk20 : moments2 20 S20 W20 ((rows2 0 (wInt W20 ws20) (triInt S20 fs20)).map Row.nat) = true := by
  decide +kernel

end Verif.Quad.TriTab
