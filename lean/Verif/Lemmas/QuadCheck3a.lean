import Verif.Lemmas.QuadEval

/-! Kernel evaluation of the tetrahedron tables.  Written by `tools/gen_quadcheck.py`. -/
namespace Verif.Quad.TetTab

/-- Units of `fs1` and `ws1`. -/
def S1 : Nat := 12 * 10 ^ 0
/-- See `S1`. -/
def W1 : Nat := 1 * 10 ^ 0
theorem saneOk1 : sane 4 S1 W1 (fs1.flatMap Tet.args) (ws1.map Prod.snd) (tetInt S1 fs1) (wInt W1 ws1) = true := by
  decide +kernel
theorem momOk1_0 : (List.range' 0 2).all (moments3 1 S1 W1 ((rows3 (wInt W1 ws1) (tetInt S1 fs1)).map Row.nat)) = true := by
  decide +kernel
theorem momOk1 {a : Nat} (h : a ≤ 1) : moments3 1 S1 W1 ((rows3 (wInt W1 ws1) (tetInt S1 fs1)).map Row.nat) a = true := by
  exact List.all_eq_true.1 momOk1_0 a (List.mem_range'_1.2 (by omega))

/-- Units of `fs2` and `ws2`. -/
def S2 : Nat := 3 * 10 ^ 129
/-- See `S2`. -/
def W2 : Nat := 1 * 10 ^ 2
theorem saneOk2 : sane 4 S2 W2 (fs2.flatMap Tet.args) (ws2.map Prod.snd) (tetInt S2 fs2) (wInt W2 ws2) = true := by
  decide +kernel
theorem momOk2_0 : (List.range' 0 3).all (moments3 2 S2 W2 ((rows3 (wInt W2 ws2) (tetInt S2 fs2)).map Row.nat)) = true := by
  decide +kernel
theorem momOk2 {a : Nat} (h : a ≤ 2) : moments3 2 S2 W2 ((rows3 (wInt W2 ws2) (tetInt S2 fs2)).map Row.nat) a = true := by
  exact List.all_eq_true.1 momOk2_0 a (List.mem_range'_1.2 (by omega))

/-- Units of `fs3` and `ws3`. -/
def S3 : Nat := 3 * 10 ^ 130
/-- See `S3`. -/
def W3 : Nat := 1 * 10 ^ 129
theorem saneOk3 : sane 4 S3 W3 (fs3.flatMap Tet.args) (ws3.map Prod.snd) (tetInt S3 fs3) (wInt W3 ws3) = true := by
  decide +kernel
theorem momOk3_0 : (List.range' 0 4).all (moments3 3 S3 W3 ((rows3 (wInt W3 ws3) (tetInt S3 fs3)).map Row.nat)) = true := by
  decide +kernel
theorem momOk3 {a : Nat} (h : a ≤ 3) : moments3 3 S3 W3 ((rows3 (wInt W3 ws3) (tetInt S3 fs3)).map Row.nat) a = true := by
  exact List.all_eq_true.1 momOk3_0 a (List.mem_range'_1.2 (by omega))

/-- Units of `fs5` and `ws5`. -/
def S5 : Nat := 3 * 10 ^ 130
/-- See `S5`. -/
def W5 : Nat := 1 * 10 ^ 130
theorem saneOk5 : sane 4 S5 W5 (fs5.flatMap Tet.args) (ws5.map Prod.snd) (tetInt S5 fs5) (wInt W5 ws5) = true := by
  decide +kernel
theorem momOk5_0 : (List.range' 0 6).all (moments3 5 S5 W5 ((rows3 (wInt W5 ws5) (tetInt S5 fs5)).map Row.nat)) = true := by
  decide +kernel
theorem momOk5 {a : Nat} (h : a ≤ 5) : moments3 5 S5 W5 ((rows3 (wInt W5 ws5) (tetInt S5 fs5)).map Row.nat) a = true := by
  exact List.all_eq_true.1 momOk5_0 a (List.mem_range'_1.2 (by omega))

/-- Units of `fs6` and `ws6`. -/
def S6 : Nat := 3 * 10 ^ 130
/-- See `S6`. -/
def W6 : Nat := 1 * 10 ^ 130
theorem saneOk6 : sane 4 S6 W6 (fs6.flatMap Tet.args) (ws6.map Prod.snd) (tetInt S6 fs6) (wInt W6 ws6) = true := by
  decide +kernel
theorem momOk6_0 : (List.range' 0 7).all (moments3 6 S6 W6 ((rows3 (wInt W6 ws6) (tetInt S6 fs6)).map Row.nat)) = true := by
  decide +kernel
theorem momOk6 {a : Nat} (h : a ≤ 6) : moments3 6 S6 W6 ((rows3 (wInt W6 ws6) (tetInt S6 fs6)).map Row.nat) a = true := by
  exact List.all_eq_true.1 momOk6_0 a (List.mem_range'_1.2 (by omega))

/-- Units of `fs7` and `ws7`. -/
def S7 : Nat := 3 * 10 ^ 130
/-- See `S7`. -/
def W7 : Nat := 1 * 10 ^ 131
theorem saneOk7 : sane 4 S7 W7 (fs7.flatMap Tet.args) (ws7.map Prod.snd) (tetInt S7 fs7) (wInt W7 ws7) = true := by
  decide +kernel
theorem momOk7_0 : (List.range' 0 8).all (moments3 7 S7 W7 ((rows3 (wInt W7 ws7) (tetInt S7 fs7)).map Row.nat)) = true := by
  decide +kernel
theorem momOk7 {a : Nat} (h : a ≤ 7) : moments3 7 S7 W7 ((rows3 (wInt W7 ws7) (tetInt S7 fs7)).map Row.nat) a = true := by
  exact List.all_eq_true.1 momOk7_0 a (List.mem_range'_1.2 (by omega))

/-- Units of `fs8` and `ws8`. -/
def S8 : Nat := 3 * 10 ^ 131
/-- See `S8`. -/
def W8 : Nat := 1 * 10 ^ 131
theorem saneOk8 : sane 4 S8 W8 (fs8.flatMap Tet.args) (ws8.map Prod.snd) (tetInt S8 fs8) (wInt W8 ws8) = true := by
  decide +kernel
theorem momOk8_0 : (List.range' 0 9).all (moments3 8 S8 W8 ((rows3 (wInt W8 ws8) (tetInt S8 fs8)).map Row.nat)) = true := by
  decide +kernel
theorem momOk8 {a : Nat} (h : a ≤ 8) : moments3 8 S8 W8 ((rows3 (wInt W8 ws8) (tetInt S8 fs8)).map Row.nat) a = true := by
  exact List.all_eq_true.1 momOk8_0 a (List.mem_range'_1.2 (by omega))

/-- Units of `fs9` and `ws9`. -/
def S9 : Nat := 3 * 10 ^ 137
/-- See `S9`. -/
def W9 : Nat := 1 * 10 ^ 131
theorem saneOk9 : sane 4 S9 W9 (fs9.flatMap Tet.args) (ws9.map Prod.snd) (tetInt S9 fs9) (wInt W9 ws9) = true := by
  decide +kernel
theorem momOk9_0 : (List.range' 0 10).all (moments3 9 S9 W9 ((rows3 (wInt W9 ws9) (tetInt S9 fs9)).map Row.nat)) = true := by
  decide +kernel
theorem momOk9 {a : Nat} (h : a ≤ 9) : moments3 9 S9 W9 ((rows3 (wInt W9 ws9) (tetInt S9 fs9)).map Row.nat) a = true := by
  exact List.all_eq_true.1 momOk9_0 a (List.mem_range'_1.2 (by omega))

/-- Units of `fs10` and `ws10`. -/
def S10 : Nat := 3 * 10 ^ 132
/-- See `S10`. -/
def W10 : Nat := 1 * 10 ^ 131
theorem saneOk10 : sane 4 S10 W10 (fs10.flatMap Tet.args) (ws10.map Prod.snd) (tetInt S10 fs10) (wInt W10 ws10) = true := by
  decide +kernel
theorem momOk10_0 : (List.range' 0 11).all (moments3 10 S10 W10 ((rows3 (wInt W10 ws10) (tetInt S10 fs10)).map Row.nat)) = true := by
  decide +kernel
theorem momOk10 {a : Nat} (h : a ≤ 10) : moments3 10 S10 W10 ((rows3 (wInt W10 ws10) (tetInt S10 fs10)).map Row.nat) a = true := by
  exact List.all_eq_true.1 momOk10_0 a (List.mem_range'_1.2 (by omega))

/-- Units of `fs11` and `ws11`. -/
def S11 : Nat := 3 * 10 ^ 131
/-- See `S11`. -/
def W11 : Nat := 1 * 10 ^ 131
theorem saneOk11 : sane 4 S11 W11 (fs11.flatMap Tet.args) (ws11.map Prod.snd) (tetInt S11 fs11) (wInt W11 ws11) = true := by
  decide +kernel
theorem momOk11_0 : (List.range' 0 12).all (moments3 11 S11 W11 ((rows3 (wInt W11 ws11) (tetInt S11 fs11)).map Row.nat)) = true := by
  decide +kernel
theorem momOk11 {a : Nat} (h : a ≤ 11) : moments3 11 S11 W11 ((rows3 (wInt W11 ws11) (tetInt S11 fs11)).map Row.nat) a = true := by
  exact List.all_eq_true.1 momOk11_0 a (List.mem_range'_1.2 (by omega))

/-- Units of `fs12` and `ws12`. -/
def S12 : Nat := 3 * 10 ^ 132
/-- See `S12`. -/
def W12 : Nat := 1 * 10 ^ 132
theorem saneOk12 : sane 4 S12 W12 (fs12.flatMap Tet.args) (ws12.map Prod.snd) (tetInt S12 fs12) (wInt W12 ws12) = true := by
  decide +kernel
theorem momOk12_0 : (List.range' 0 13).all (moments3 12 S12 W12 ((rows3 (wInt W12 ws12) (tetInt S12 fs12)).map Row.nat)) = true := by
  decide +kernel
theorem momOk12 {a : Nat} (h : a ≤ 12) : moments3 12 S12 W12 ((rows3 (wInt W12 ws12) (tetInt S12 fs12)).map Row.nat) a = true := by
  exact List.all_eq_true.1 momOk12_0 a (List.mem_range'_1.2 (by omega))

/-- Units of `fs13` and `ws13`. -/
def S13 : Nat := 3 * 10 ^ 130
/-- See `S13`. -/
def W13 : Nat := 1 * 10 ^ 132
theorem saneOk13 : sane 4 S13 W13 (fs13.flatMap Tet.args) (ws13.map Prod.snd) (tetInt S13 fs13) (wInt W13 ws13) = true := by
  decide +kernel
theorem momOk13_0 : (List.range' 0 7).all (moments3 13 S13 W13 ((rows3 (wInt W13 ws13) (tetInt S13 fs13)).map Row.nat)) = true := by
  decide +kernel
theorem momOk13_1 : (List.range' 7 7).all (moments3 13 S13 W13 ((rows3 (wInt W13 ws13) (tetInt S13 fs13)).map Row.nat)) = true := by
  decide +kernel
theorem momOk13 {a : Nat} (h : a ≤ 13) : moments3 13 S13 W13 ((rows3 (wInt W13 ws13) (tetInt S13 fs13)).map Row.nat) a = true := by
  by_cases h0 : a < 7
  · exact List.all_eq_true.1 momOk13_0 a (List.mem_range'_1.2 (by omega))
  exact List.all_eq_true.1 momOk13_1 a (List.mem_range'_1.2 (by omega))

/-- Units of `fs14` and `ws14`. -/
def S14 : Nat := 3 * 10 ^ 131
/-- See `S14`. -/
def W14 : Nat := 1 * 10 ^ 132
theorem saneOk14 : sane 4 S14 W14 (fs14.flatMap Tet.args) (ws14.map Prod.snd) (tetInt S14 fs14) (wInt W14 ws14) = true := by
  decide +kernel
theorem momOk14_0 : (List.range' 0 7).all (moments3 14 S14 W14 ((rows3 (wInt W14 ws14) (tetInt S14 fs14)).map Row.nat)) = true := by
  decide +kernel
theorem momOk14_1 : (List.range' 7 8).all (moments3 14 S14 W14 ((rows3 (wInt W14 ws14) (tetInt S14 fs14)).map Row.nat)) = true := by
  decide +kernel
theorem momOk14 {a : Nat} (h : a ≤ 14) : moments3 14 S14 W14 ((rows3 (wInt W14 ws14) (tetInt S14 fs14)).map Row.nat) a = true := by
  by_cases h0 : a < 7
  · exact List.all_eq_true.1 momOk14_0 a (List.mem_range'_1.2 (by omega))
  exact List.all_eq_true.1 momOk14_1 a (List.mem_range'_1.2 (by omega))

/-- Units of `fs15` and `ws15`. -/
def S15 : Nat := 3 * 10 ^ 130
/-- See `S15`. -/
def W15 : Nat := 1 * 10 ^ 132
theorem saneOk15 : sane 4 S15 W15 (fs15.flatMap Tet.args) (ws15.map Prod.snd) (tetInt S15 fs15) (wInt W15 ws15) = true := by
  decide +kernel
theorem momOk15_0 : (List.range' 0 8).all (moments3 15 S15 W15 ((rows3 (wInt W15 ws15) (tetInt S15 fs15)).map Row.nat)) = true := by
  decide +kernel
theorem momOk15_1 : (List.range' 8 8).all (moments3 15 S15 W15 ((rows3 (wInt W15 ws15) (tetInt S15 fs15)).map Row.nat)) = true := by
  decide +kernel
theorem momOk15 {a : Nat} (h : a ≤ 15) : moments3 15 S15 W15 ((rows3 (wInt W15 ws15) (tetInt S15 fs15)).map Row.nat) a = true := by
  by_cases h0 : a < 8
  · exact List.all_eq_true.1 momOk15_0 a (List.mem_range'_1.2 (by omega))
  exact List.all_eq_true.1 momOk15_1 a (List.mem_range'_1.2 (by omega))

end Verif.Quad.TetTab
