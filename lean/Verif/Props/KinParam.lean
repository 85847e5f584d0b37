import Verif.Model.KinParam
import Mathlib.Tactic.NormNum
import Mathlib.Algebra.Order.Field.Rat

/-!
Property C81: parameters of the nonlinear solver set by name.
-/
namespace Verif.KinParam

/-- specification: the documented names of the real parameters and the settings of KINSOL they stand for -/
inductive RealName : String → RKey → Prop
  | etaConst : RealName "EtaConstValue" .etaConst
  | etaGamma : RealName "EtaGamma" .etaGamma
  | etaAlpha : RealName "EtaAlpha" .etaAlpha
  | wmin : RealName "ResMonWmin" .wmin
  | wmax : RealName "ResMonWmax" .wmax
  | resMonConst : RealName "ResMonConst" .resMonConst
  | maxNewtonStep : RealName "MaxNewtonStep" .maxNewtonStep
  | fnormTol : RealName "FuncNormTol" .fnormTol
  | scstepTol : RealName "ScaledSteptol" .scstepTol
  | damping : RealName "DampingAA" .damping

/-- specification: the documented names of the integer parameters -/
inductive IntName : String → IKey → Prop
  | maxIters : IntName "MaxIters" .maxIters
  | maxSetupCalls : IntName "MaxSetupCalls" .maxSetupCalls
  | maxSubSetupCalls : IntName "MaxSubSetupCalls" .maxSubSetupCalls
  | etaForm : IntName "EtaForm" .etaForm
  | maxBetaFails : IntName "MaxBetaFails" .maxBetaFails
  | maa : IntName "MAA" .maa

/-- specification: the documented names of the switches; KINSOL has the opposite switch -/
inductive SwitchName : String → IKey → Prop
  | init : SwitchName "UseInitSetup" .noInitSetup
  | res : SwitchName "UseResMon" .noResMon
  | eps : SwitchName "UseMinEps" .noMinEps

section
variable {K : Type} [Zero K] [One K] [LinearOrder K]

/-- the remembered parameters are those of KINSOL; true at the beginning, where both have the defaults of the documentation -/
def Inv {K : Type} (s : Sol K) : Prop :=
  s.egamma = s.real .etaGamma ∧ s.ealpha = s.real .etaAlpha ∧ s.rwmin = s.real .wmin ∧ s.rwmax = s.real .wmax

/-- KINSOL accepts the value `v` of the parameter `k` together with its present settings -/
def Accepts {K : Type} (a : Acc K) (s : Sol K) (k : RKey) (v : K) : Prop :=
  match k with
  | .etaGamma => a.eta v (s.real .etaAlpha) = true
  | .etaAlpha => a.eta (s.real .etaGamma) v = true
  | .wmin => a.res v (s.real .wmax) = true
  | .wmax => a.res (s.real .wmin) v = true
  | k => a.one k v = true

/-- **C81, part.** a real parameter with a value accepted by KINSOL: exactly the setting of this name changes and the answer is true.
In full the answer would be false for values which are not accepted; see `refused_wrong` -/
theorem real_partial (a : Acc K) (s : Sol K) (p : String) (k : RKey) (v : K) (hi : Inv s) (hp : RealName p k)
    (ha : Accepts a s k v) (hd : p = "DampingAA" → 0 ≤ v ∧ v ≤ 1) :
    (setReal a s p v).2 = true ∧ (∀ k', (setReal a s p v).1.real k' = if k' = k then v else s.real k') ∧
      (setReal a s p v).1.int = s.int ∧ Inv (setReal a s p v).1 := by
  obtain ⟨h1, h2, h3, h4⟩ := hi
  cases hp
  case damping =>
    obtain ⟨d1, d2⟩ := hd rfl
    have ha' : a.one .damping v = true := ha
    have n1 : ¬ 1 < v := not_lt.mpr d2
    have n2 : ¬ v < 0 := not_lt.mpr d1
    simp [setReal, kinOne, ha', store, Inv, h1, h2, h3, h4, n1, n2]
  case etaGamma =>
    have ha' : a.eta v (s.real .etaAlpha) = true := ha
    simp only [setReal, String.reduceEq, if_true, if_false, kinEta, h2, ha', store, Inv, h3, h4]
    refine ⟨trivial, fun k' => ?_, trivial, by simp⟩
    cases k' <;> simp
  case etaAlpha =>
    have ha' : a.eta (s.real .etaGamma) v = true := ha
    simp only [setReal, String.reduceEq, if_true, if_false, kinEta, h1, ha', store, Inv, h3, h4]
    refine ⟨trivial, fun k' => ?_, trivial, by simp⟩
    cases k' <;> simp
  case wmin =>
    have ha' : a.res v (s.real .wmax) = true := ha
    simp only [setReal, String.reduceEq, if_true, if_false, kinRes, h4, ha', store, Inv, h1, h2]
    refine ⟨trivial, fun k' => ?_, trivial, by simp⟩
    cases k' <;> simp
  case wmax =>
    have ha' : a.res (s.real .wmin) v = true := ha
    simp only [setReal, String.reduceEq, if_true, if_false, kinRes, h3, ha', store, Inv, h1, h2]
    refine ⟨trivial, fun k' => ?_, trivial, by simp⟩
    cases k' <;> simp
  all_goals
    have ha' := ha
    simp only [Accepts] at ha'
    simp [setReal, kinOne, ha', store, Inv, h1, h2, h3, h4]

/-- the solver at the beginning with the defaults of the documentation -/
def exSol : Sol ℚ :=
  ⟨fun k => match k with | .etaGamma => 9/10 | .etaAlpha => 2 | .wmin => 1/100000 | .wmax => 9/10 | _ => 1, fun _ => 5,
   9/10, 2, 1/100000, 9/10⟩

/-- KINSOL: the powers are in (1, 2], the factors in (0, 1], the damping is positive -/
def exAcc : Acc ℚ :=
  ⟨fun k v => match k with | .damping => decide (0 < v) | _ => true, fun g al => decide (0 < g ∧ g ≤ 1 ∧ 1 < al ∧ al ≤ 2),
   fun x y => decide (0 < x ∧ x ≤ y), fun _ v => decide (0 ≤ v)⟩

example : (setReal exAcc exSol "EtaAlpha" (3/2)).1.real .etaAlpha = 3/2 := by
  rw [(real_partial exAcc exSol "EtaAlpha" .etaAlpha (3/2) ⟨rfl, rfl, rfl, rfl⟩ .etaAlpha
    (by simp only [Accepts, exAcc, exSol, decide_eq_true_eq]; norm_num) (by decide)).2.1]
  simp

/-- **C81.** an integer parameter accepted by KINSOL (the form of η between 1 and 3): exactly this setting changes -/
theorem int_ok (a : Acc K) (s : Sol K) (p : String) (k : IKey) (v : Int) (hp : IntName p k) (ha : a.int k v = true)
    (he : p = "EtaForm" → 1 ≤ v ∧ v ≤ 3) :
    (setInt a s p v).2 = true ∧ (∀ k', (setInt a s p v).1.int k' = if k' = k then v else s.int k') ∧
      (setInt a s p v).1.real = s.real := by
  cases hp
  case etaForm =>
    obtain ⟨d1, d2⟩ := he rfl
    have n1 : ¬ v < 1 := not_lt.mpr d1
    have n2 : ¬ 3 < v := not_lt.mpr d2
    simp [setInt, kinInt, ha, storeInt, n1, n2]
  all_goals simp [setInt, kinInt, ha, storeInt]

example : (setInt exAcc exSol "EtaForm" 2).1.int .etaForm = 2 := by
  rw [(int_ok exAcc exSol "EtaForm" .etaForm 2 .etaForm (by decide) (by decide)).2.1]; simp

/-- **C81.** a switch: KINSOL gets the opposite, 0 or 1, of any number which is not 0 or is 0 -/
theorem switch_ok (a : Acc K) (s : Sol K) (p : String) (k : IKey) (v : Int) (hp : SwitchName p k) (h0 : a.int k 0 = true)
    (h1 : a.int k 1 = true) :
    (setInt a s p v).2 = true ∧ ((setInt a s p v).1.int k = 0 ↔ v ≠ 0) ∧ ((setInt a s p v).1.int k = 1 ↔ v = 0) ∧
      (∀ k', k' ≠ k → (setInt a s p v).1.int k' = s.int k') ∧ (setInt a s p v).1.real = s.real := by
  by_cases h : v = 0
  · cases hp <;> simp [setInt, kinInt, lnot, h, h0, h1, storeInt] <;> intro k' hk <;> simp [hk]
  · cases hp <;> simp [setInt, kinInt, lnot, h, h0, h1, storeInt] <;> intro k' hk <;> simp [hk]

example : (setInt exAcc exSol "UseResMon" 7).1.int .noResMon = 0 :=
  (switch_ok exAcc exSol "UseResMon" .noResMon 7 .res (by decide) (by decide)).2.1.mpr (by decide)

/-- **C81.** names which are not documented and forbidden values of the two checked parameters are refused and change nothing -/
theorem unknown_refused (a : Acc K) (s : Sol K) (p : String) :
    ((∀ k, ¬ RealName p k) → ∀ v, setReal a s p v = (s, false)) ∧
    ((∀ k, ¬ IntName p k ∧ ¬ SwitchName p k) → ∀ v, setInt a s p v = (s, false)) ∧
    (∀ v : K, v < 0 ∨ 1 < v → setReal a s "DampingAA" v = (s, false)) ∧
    (∀ v : Int, v < 1 ∨ 3 < v → setInt a s "EtaForm" v = (s, false)) := by
  refine ⟨fun h v => ?_, fun h v => ?_, fun v h => ?_, fun v h => ?_⟩
  · unfold setReal
    rw [if_neg, if_neg, if_neg, if_neg, if_neg, if_neg, if_neg, if_neg, if_neg, if_neg]
    all_goals rintro rfl
    · exact h _ .damping
    · exact h _ .scstepTol
    · exact h _ .fnormTol
    · exact h _ .maxNewtonStep
    · exact h _ .resMonConst
    · exact h _ .wmax
    · exact h _ .wmin
    · exact h _ .etaAlpha
    · exact h _ .etaGamma
    · exact h _ .etaConst
  · unfold setInt
    rw [if_neg, if_neg, if_neg, if_neg, if_neg, if_neg, if_neg, if_neg, if_neg]
    all_goals rintro rfl
    · exact (h _).1 .maa
    · exact (h _).1 .maxBetaFails
    · exact (h _).2 .eps
    · exact (h _).1 .etaForm
    · exact (h _).1 .maxSubSetupCalls
    · exact (h _).1 .maxSetupCalls
    · exact (h _).2 .res
    · exact (h _).2 .init
    · exact (h _).1 .maxIters
  · have : v > 1 ∨ v < 0 := h.symm
    simp only [setReal, String.reduceEq, if_true, if_false, this]
  · have : v < 1 ∨ v > 3 := h
    simp only [setInt, String.reduceEq, if_true, if_false, this]

example : setReal exAcc exSol "maxnewtonstep" 3 = (exSol, false) :=
  (unknown_refused exAcc exSol "maxnewtonstep").1 (fun k h => by
    generalize e : "maxnewtonstep" = p at h
    cases h <;> simp at e) 3

/-- **C81.** the published list of parameters and the table used to read texts have the same names and kinds, each name once -/
theorem table_published : available = prms ∧ (prms.map Prod.fst).Nodup := by decide +kernel

/-- **C81.** a parameter given as a text is set as the number read from it; a switch also by `true` and `false` in any case -/
theorem text_ok (a : Acc K) (atof : String → K) (atoi : String → Int) (lower : String → String) (s : Sol K) (p val : String) :
    (∀ k, RealName p k → setText a atof atoi lower s p val = setReal a s p (atof val)) ∧
    (∀ k, IntName p k → setText a atof atoi lower s p val = setInt a s p (atoi val)) ∧
    (∀ k, SwitchName p k → setText a atof atoi lower s p val =
      setInt a s p (if lower val = "true" then 1 else if lower val = "false" then 0 else atoi val)) ∧
    ((∀ k, ¬ RealName p k) → (∀ k, ¬ IntName p k ∧ ¬ SwitchName p k) → setText a atof atoi lower s p val = (s, false)) := by
  refine ⟨?_, ?_, ?_, ?_⟩
  · intro k h
    cases h <;> rfl
  · intro k h
    cases h <;> rfl
  · intro k h
    by_cases t : lower val = "true"
    · cases h <;> simp [setText, prms, List.lookup, t]
    · by_cases f : lower val = "false"
      · cases h <;> simp [setText, prms, List.lookup, f]
      · cases h <;> simp [setText, prms, List.lookup, t, f]
  · intro hr h
    have hn : prms.lookup p = none := by
      rw [List.lookup_eq_none_iff]
      intro q hq
      simp only [prms, List.mem_cons, List.not_mem_nil, or_false] at hq
      rw [bne_iff_ne]
      rintro rfl
      rcases hq with rfl | rfl | rfl | rfl | rfl | rfl | rfl | rfl | rfl | rfl | rfl | rfl | rfl | rfl | rfl | rfl | rfl | rfl | rfl
      · exact (h _).1 .maxIters
      · exact (h _).2 .init
      · exact (h _).2 .res
      · exact (h _).1 .maxSetupCalls
      · exact (h _).1 .maxSubSetupCalls
      · exact (h _).1 .etaForm
      · exact hr _ .etaConst
      · exact hr _ .etaGamma
      · exact hr _ .etaAlpha
      · exact hr _ .wmin
      · exact hr _ .wmax
      · exact hr _ .resMonConst
      · exact (h _).2 .eps
      · exact hr _ .maxNewtonStep
      · exact (h _).1 .maxBetaFails
      · exact hr _ .fnormTol
      · exact hr _ .scstepTol
      · exact (h _).1 .maa
      · exact hr _ .damping
    simp [setText, hn]

example : setText exAcc (fun _ => 0) (fun _ => 5) (fun _ => "true") exSol "UseMinEps" "True" = setInt exAcc exSol "UseMinEps" 1 :=
  (text_ok exAcc (fun _ => 0) (fun _ => 5) (fun _ => "true") exSol "UseMinEps" "True").2.2.1 _ .eps

/-- **C81 fails.** a power refused by KINSOL is answered with true and remembered; every later setting of the factor, of any value, is
then answered with true and changes nothing -/
theorem refused_wrong (a : Acc K) (s : Sol K) (v : K) (h : ∀ g, a.eta g v = false) :
    (setReal a s "EtaAlpha" v).2 = true ∧ (setReal a s "EtaAlpha" v).1.real = s.real ∧
      ∀ g, (setReal a (setReal a s "EtaAlpha" v).1 "EtaGamma" g).2 = true ∧
        (setReal a (setReal a s "EtaAlpha" v).1 "EtaGamma" g).1.real = s.real := by
  simp [setReal, kinEta, h]

/-- the power 3; afterwards the good factor 1/2 is not set -/
example : (setReal exAcc (setReal exAcc exSol "EtaAlpha" 3).1 "EtaGamma" (1/2)).1.real .etaGamma = 9/10 := by
  rw [((refused_wrong exAcc exSol 3 (fun g => by
    simp only [exAcc, decide_eq_false_iff_not]; rintro ⟨_, _, _, h⟩; norm_num at h)).2.2 (1/2)).2]
  rfl

/-- **C81 fails.** the damping 0, which the documentation excludes, is answered with true although KINSOL refuses it -/
theorem damping_zero_wrong {K : Type} [Field K] [LinearOrder K] [IsStrictOrderedRing K] (a : Acc K) (s : Sol K)
    (h : a.one .damping 0 = false) : setReal a s "DampingAA" 0 = (s, true) := by
  have n1 : ¬ (1 : K) < 0 := not_lt.mpr zero_le_one
  simp [setReal, kinOne, h, n1]

example : setReal exAcc exSol "DampingAA" 0 = (exSol, true) := damping_zero_wrong exAcc exSol (by simp [exAcc])

end
end Verif.KinParam
