import Verif.Lemmas.QuadCheck3a

/-! Kernel evaluation of the tetrahedron tables.  Written by `tools/gen_quadcheck.py`. -/
namespace Verif.Quad.TetTab

/-- Units of `fs16` and `ws16`. -/
def S16 : Nat := 3 * 10 ^ 131
/-- See `S16`. -/
def W16 : Nat := 1 * 10 ^ 132
theorem saneOk16 : sane 4 S16 W16 (fs16.flatMap Tet.args) (ws16.map Prod.snd) (tetInt S16 fs16) (wInt W16 ws16) = true := by
  decide +kernel
theorem momOk16_0 : (List.range' 0 6).all (moments3 16 S16 W16 ((rows3 (wInt W16 ws16) (tetInt S16 fs16)).map Row.nat)) = true := by
  decide +kernel
theorem momOk16_1 : (List.range' 6 2).all (moments3 16 S16 W16 ((rows3 (wInt W16 ws16) (tetInt S16 fs16)).map Row.nat)) = true := by
  decide +kernel
theorem momOk16_2 : (List.range' 8 2).all (moments3 16 S16 W16 ((rows3 (wInt W16 ws16) (tetInt S16 fs16)).map Row.nat)) = true := by
  decide +kernel
theorem momOk16_3 : (List.range' 10 7).all (moments3 16 S16 W16 ((rows3 (wInt W16 ws16) (tetInt S16 fs16)).map Row.nat)) = true := by
  decide +kernel
theorem momOk16 {a : Nat} (h : a ≤ 16) : moments3 16 S16 W16 ((rows3 (wInt W16 ws16) (tetInt S16 fs16)).map Row.nat) a = true := by
  by_cases h0 : a < 6
  · exact List.all_eq_true.1 momOk16_0 a (List.mem_range'_1.2 (by omega))
  by_cases h1 : a < 8
  · exact List.all_eq_true.1 momOk16_1 a (List.mem_range'_1.2 (by omega))
  by_cases h2 : a < 10
  · exact List.all_eq_true.1 momOk16_2 a (List.mem_range'_1.2 (by omega))
  exact List.all_eq_true.1 momOk16_3 a (List.mem_range'_1.2 (by omega))

/-- Units of `fs17` and `ws17`. -/
def S17 : Nat := 3 * 10 ^ 131
/-- See `S17`. -/
def W17 : Nat := 1 * 10 ^ 132
theorem saneOk17 : sane 4 S17 W17 (fs17.flatMap Tet.args) (ws17.map Prod.snd) (tetInt S17 fs17) (wInt W17 ws17) = true := by
  decide +kernel
theorem momOk17_0 : (List.range' 0 7).all (moments3 17 S17 W17 ((rows3 (wInt W17 ws17) (tetInt S17 fs17)).map Row.nat)) = true := by
  decide +kernel
theorem momOk17_1 : (List.range' 7 2).all (moments3 17 S17 W17 ((rows3 (wInt W17 ws17) (tetInt S17 fs17)).map Row.nat)) = true := by
  decide +kernel
theorem momOk17_2 : (List.range' 9 2).all (moments3 17 S17 W17 ((rows3 (wInt W17 ws17) (tetInt S17 fs17)).map Row.nat)) = true := by
  decide +kernel
theorem momOk17_3 : (List.range' 11 7).all (moments3 17 S17 W17 ((rows3 (wInt W17 ws17) (tetInt S17 fs17)).map Row.nat)) = true := by
  decide +kernel
theorem momOk17 {a : Nat} (h : a ≤ 17) : moments3 17 S17 W17 ((rows3 (wInt W17 ws17) (tetInt S17 fs17)).map Row.nat) a = true := by
  by_cases h0 : a < 7
  · exact List.all_eq_true.1 momOk17_0 a (List.mem_range'_1.2 (by omega))
  by_cases h1 : a < 9
  · exact List.all_eq_true.1 momOk17_1 a (List.mem_range'_1.2 (by omega))
  by_cases h2 : a < 11
  · exact List.all_eq_true.1 momOk17_2 a (List.mem_range'_1.2 (by omega))
  exact List.all_eq_true.1 momOk17_3 a (List.mem_range'_1.2 (by omega))

/-- Units of `fs18` and `ws18`. -/
def S18 : Nat := 3 * 10 ^ 131
/-- See `S18`. -/
def W18 : Nat := 1 * 10 ^ 133
theorem saneOk18 : sane 4 S18 W18 (fs18.flatMap Tet.args) (ws18.map Prod.snd) (tetInt S18 fs18) (wInt W18 ws18) = true := by
  decide +kernel
theorem momOk18_0 : (List.range' 0 7).all (moments3 18 S18 W18 ((rows3 (wInt W18 ws18) (tetInt S18 fs18)).map Row.nat)) = true := by
  decide +kernel
theorem momOk18_1 : (List.range' 7 2).all (moments3 18 S18 W18 ((rows3 (wInt W18 ws18) (tetInt S18 fs18)).map Row.nat)) = true := by
  decide +kernel
theorem momOk18_2 : (List.range' 9 3).all (moments3 18 S18 W18 ((rows3 (wInt W18 ws18) (tetInt S18 fs18)).map Row.nat)) = true := by
  decide +kernel
theorem momOk18_3 : (List.range' 12 7).all (moments3 18 S18 W18 ((rows3 (wInt W18 ws18) (tetInt S18 fs18)).map Row.nat)) = true := by
  decide +kernel
theorem momOk18 {a : Nat} (h : a ≤ 18) : moments3 18 S18 W18 ((rows3 (wInt W18 ws18) (tetInt S18 fs18)).map Row.nat) a = true := by
  by_cases h0 : a < 7
  · exact List.all_eq_true.1 momOk18_0 a (List.mem_range'_1.2 (by omega))
  by_cases h1 : a < 9
  · exact List.all_eq_true.1 momOk18_1 a (List.mem_range'_1.2 (by omega))
  by_cases h2 : a < 12
  · exact List.all_eq_true.1 momOk18_2 a (List.mem_range'_1.2 (by omega))
  exact List.all_eq_true.1 momOk18_3 a (List.mem_range'_1.2 (by omega))

end Verif.Quad.TetTab
