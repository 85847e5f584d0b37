import Verif.Lemmas.QuadCheck3b

/-! Kernel evaluation of the tetrahedron tables.  Written by `tools/gen_quadcheck.py`. -/
namespace Verif.Quad.TetTab

/-- Units of `fs19` and `ws19`. -/
def S19 : Nat := 3 * 10 ^ 131
/-- See `S19`. -/
def W19 : Nat := 1 * 10 ^ 132
theorem saneOk19 : sane 4 S19 W19 (fs19.flatMap Tet.args) (ws19.map Prod.snd) (tetInt S19 fs19) (wInt W19 ws19) = true := by
  decide +kernel
theorem momOk19_0 : (List.range' 0 7).all (moments3 19 S19 W19 ((rows3 (wInt W19 ws19) (tetInt S19 fs19)).map Row.nat)) = true := by
  decide +kernel
theorem momOk19_1 : (List.range' 7 3).all (moments3 19 S19 W19 ((rows3 (wInt W19 ws19) (tetInt S19 fs19)).map Row.nat)) = true := by
  decide +kernel
theorem momOk19_2 : (List.range' 10 2).all (moments3 19 S19 W19 ((rows3 (wInt W19 ws19) (tetInt S19 fs19)).map Row.nat)) = true := by
  decide +kernel
theorem momOk19_3 : (List.range' 12 8).all (moments3 19 S19 W19 ((rows3 (wInt W19 ws19) (tetInt S19 fs19)).map Row.nat)) = true := by
  decide +kernel
theorem momOk19 {a : Nat} (h : a ≤ 19) : moments3 19 S19 W19 ((rows3 (wInt W19 ws19) (tetInt S19 fs19)).map Row.nat) a = true := by
  by_cases h0 : a < 7
  · exact List.all_eq_true.1 momOk19_0 a (List.mem_range'_1.2 (by omega))
  by_cases h1 : a < 10
  · exact List.all_eq_true.1 momOk19_1 a (List.mem_range'_1.2 (by omega))
  by_cases h2 : a < 12
  · exact List.all_eq_true.1 momOk19_2 a (List.mem_range'_1.2 (by omega))
  exact List.all_eq_true.1 momOk19_3 a (List.mem_range'_1.2 (by omega))

/-- Units of `fs20` and `ws20`. -/
def S20 : Nat := 3 * 10 ^ 131
/-- See `S20`. -/
def W20 : Nat := 1 * 10 ^ 133
theorem saneOk20 : sane 4 S20 W20 (fs20.flatMap Tet.args) (ws20.map Prod.snd) (tetInt S20 fs20) (wInt W20 ws20) = true := by
  decide +kernel
theorem momOk20_0 : (List.range' 0 8).all (moments3 20 S20 W20 ((rows3 (wInt W20 ws20) (tetInt S20 fs20)).map Row.nat)) = true := by
  decide +kernel
theorem momOk20_1 : (List.range' 8 2).all (moments3 20 S20 W20 ((rows3 (wInt W20 ws20) (tetInt S20 fs20)).map Row.nat)) = true := by
  decide +kernel
theorem momOk20_2 : (List.range' 10 3).all (moments3 20 S20 W20 ((rows3 (wInt W20 ws20) (tetInt S20 fs20)).map Row.nat)) = true := by
  decide +kernel
theorem momOk20_3 : (List.range' 13 8).all (moments3 20 S20 W20 ((rows3 (wInt W20 ws20) (tetInt S20 fs20)).map Row.nat)) = true := by
  decide +kernel
theorem momOk20 {a : Nat} (h : a ≤ 20) : moments3 20 S20 W20 ((rows3 (wInt W20 ws20) (tetInt S20 fs20)).map Row.nat) a = true := by
  by_cases h0 : a < 8
  · exact List.all_eq_true.1 momOk20_0 a (List.mem_range'_1.2 (by omega))
  by_cases h1 : a < 10
  · exact List.all_eq_true.1 momOk20_1 a (List.mem_range'_1.2 (by omega))
  by_cases h2 : a < 13
  · exact List.all_eq_true.1 momOk20_2 a (List.mem_range'_1.2 (by omega))
  exact List.all_eq_true.1 momOk20_3 a (List.mem_range'_1.2 (by omega))

end Verif.Quad.TetTab
