import Mathlib.Algebra.Order.Field.Basic

/-!
Model of the parameters of the nonlinear solver: `kinsol_interface/SUNNonlinearSolver.cpp:1167-1277`. KINSOL itself is represented by
its settings and by what it accepts: a setter stores an accepted value and leaves the settings alone otherwise (its error code is not
looked at by the code; the special meaning of 0 as "default" is left out).
-/
namespace Verif.KinParam

/-- real settings of KINSOL set at `SUNNonlinearSolver.cpp:1195-1218` -/
inductive RKey
  | etaConst | etaGamma | etaAlpha | wmin | wmax | resMonConst | maxNewtonStep | fnormTol | scstepTol | damping
  deriving DecidableEq, Repr

/-- other settings of KINSOL set at `SUNNonlinearSolver.cpp:1224-1235`; the three in the middle are the negated switches of KINSOL -/
inductive IKey
  | maxIters | maxSetupCalls | maxSubSetupCalls | noInitSetup | noResMon | noMinEps | etaForm | maxBetaFails | maa
  deriving DecidableEq, Repr

/-- the solver: the settings of KINSOL and the remembered parameters (`SUNNonlinearSolver.h:370-371`) -/
structure Sol (K : Type) where
  real : RKey → K
  int : IKey → Int
  egamma : K
  ealpha : K
  rwmin : K
  rwmax : K

/-- what KINSOL accepts: single values, the pair of `KINSetEtaParams`, the pair of `KINSetResMonParams` and integers
(`SUNNonlinearSolver.cpp:1195-1235`, functions of KINSOL) -/
structure Acc (K : Type) where
  one : RKey → K → Bool
  eta : K → K → Bool
  res : K → K → Bool
  int : IKey → Int → Bool

/-- a real setting of KINSOL stored by a setter called at `SUNNonlinearSolver.cpp:1195-1218` -/
def store {K : Type} (s : Sol K) (k : RKey) (v : K) : Sol K :=
  { s with real := fun k' => if k' = k then v else s.real k' }

/-- an integer setting of KINSOL stored by a setter called at `SUNNonlinearSolver.cpp:1224-1235` -/
def storeInt {K : Type} (s : Sol K) (k : IKey) (v : Int) : Sol K :=
  { s with int := fun k' => if k' = k then v else s.int k' }

/-- a setter of KINSOL for one real value (`SUNNonlinearSolver.cpp:1195`) -/
def kinOne {K : Type} (a : Acc K) (s : Sol K) (k : RKey) (v : K) : Sol K :=
  if a.one k v then store s k v else s

/-- `KINSetEtaParams(kin, _egamma, _ealpha)` (`SUNNonlinearSolver.cpp:1198, 1202`) -/
def kinEta {K : Type} (a : Acc K) (s : Sol K) : Sol K :=
  if a.eta s.egamma s.ealpha then store (store s .etaGamma s.egamma) .etaAlpha s.ealpha else s

/-- `KINSetResMonParams(kin, _wmin, _wmax)` (`SUNNonlinearSolver.cpp:1206, 1210`) -/
def kinRes {K : Type} (a : Acc K) (s : Sol K) : Sol K :=
  if a.res s.rwmin s.rwmax then store (store s .wmin s.rwmin) .wmax s.rwmax else s

/-- a setter of KINSOL for an integer or a switch (`SUNNonlinearSolver.cpp:1224`) -/
def kinInt {K : Type} (a : Acc K) (s : Sol K) (k : IKey) (v : Int) : Sol K :=
  if a.int k v then storeInt s k v else s

/-- `!val` for an `int` (`SUNNonlinearSolver.cpp:1225`) -/
def lnot (v : Int) : Int := if v = 0 then 1 else 0

/-- `SetParameterReal` (`SUNNonlinearSolver.cpp:1194-1221`) -/
def setReal {K : Type} [Zero K] [One K] [LinearOrder K] (a : Acc K) (s : Sol K) (param : String) (val : K) : Sol K × Bool :=
  if param = "EtaConstValue" then (kinOne a s .etaConst val, true)
  else if param = "EtaGamma" then (kinEta a { s with egamma := val }, true)
  else if param = "EtaAlpha" then (kinEta a { s with ealpha := val }, true)
  else if param = "ResMonWmin" then (kinRes a { s with rwmin := val }, true)
  else if param = "ResMonWmax" then (kinRes a { s with rwmax := val }, true)
  else if param = "ResMonConst" then (kinOne a s .resMonConst val, true)
  else if param = "MaxNewtonStep" then (kinOne a s .maxNewtonStep val, true)
  else if param = "FuncNormTol" then (kinOne a s .fnormTol val, true)
  else if param = "ScaledSteptol" then (kinOne a s .scstepTol val, true)
  else if param = "DampingAA" then
    if val > 1 ∨ val < 0 then (s, false) else (kinOne a s .damping val, true)
  else (s, false)

/-- `SetParameterIntegral` (`SUNNonlinearSolver.cpp:1223-1237`) -/
def setInt {K : Type} (a : Acc K) (s : Sol K) (param : String) (val : Int) : Sol K × Bool :=
  if param = "MaxIters" then (kinInt a s .maxIters val, true)
  else if param = "UseInitSetup" then (kinInt a s .noInitSetup (lnot val), true)
  else if param = "UseResMon" then (kinInt a s .noResMon (lnot val), true)
  else if param = "MaxSetupCalls" then (kinInt a s .maxSetupCalls val, true)
  else if param = "MaxSubSetupCalls" then (kinInt a s .maxSubSetupCalls val, true)
  else if param = "EtaForm" then
    if val < 1 ∨ val > 3 then (s, false) else (kinInt a s .etaForm val, true)
  else if param = "UseMinEps" then (kinInt a s .noMinEps (lnot val), true)
  else if param = "MaxBetaFails" then (kinInt a s .maxBetaFails val, true)
  else if param = "MAA" then (kinInt a s .maa val, true)
  else (s, false)

/-- kinds of parameters (`SUNNonlinearSolver.h:237-242`) -/
inductive Kind
  | real | integer | boolean | etaChoice
  deriving DecidableEq, Repr

/-- the table `prms` in `SetParameter` (`SUNNonlinearSolver.cpp:1240-1260`) -/
def prms : List (String × Kind) :=
  [("MaxIters", .integer), ("UseInitSetup", .boolean), ("UseResMon", .boolean), ("MaxSetupCalls", .integer),
   ("MaxSubSetupCalls", .integer), ("EtaForm", .etaChoice), ("EtaConstValue", .real), ("EtaGamma", .real), ("EtaAlpha", .real),
   ("ResMonWmin", .real), ("ResMonWmax", .real), ("ResMonConst", .real), ("UseMinEps", .boolean), ("MaxNewtonStep", .real),
   ("MaxBetaFails", .integer), ("FuncNormTol", .real), ("ScaledSteptol", .real), ("MAA", .integer), ("DampingAA", .real)]

/-- names and kinds in `GetAvaliableParametrs` (`SUNNonlinearSolver.cpp:1168-1190`) -/
def available : List (String × Kind) :=
  [("MaxIters", .integer), ("UseInitSetup", .boolean), ("UseResMon", .boolean), ("MaxSetupCalls", .integer),
   ("MaxSubSetupCalls", .integer), ("EtaForm", .etaChoice), ("EtaConstValue", .real), ("EtaGamma", .real), ("EtaAlpha", .real),
   ("ResMonWmin", .real), ("ResMonWmax", .real), ("ResMonConst", .real), ("UseMinEps", .boolean), ("MaxNewtonStep", .real),
   ("MaxBetaFails", .integer), ("FuncNormTol", .real), ("ScaledSteptol", .real), ("MAA", .integer), ("DampingAA", .real)]

/-- `SetParameter` (`SUNNonlinearSolver.cpp:1239-1277`); `atof`, `atoi` and the lower-case form of a text are given -/
def setText {K : Type} [Zero K] [One K] [LinearOrder K] (a : Acc K) (atof : String → K) (atoi : String → Int)
    (lower : String → String) (s : Sol K) (param val : String) : Sol K × Bool :=
  match prms.lookup param with
  | none => (s, false)
  | some .real => setReal a s param (atof val)
  | some .integer => setInt a s param (atoi val)
  | some .boolean =>
    if lower val = "true" then setInt a s param 1
    else if lower val = "false" then setInt a s param 0
    else setInt a s param (atoi val)
  | some .etaChoice => setInt a s param (atoi val)

end Verif.KinParam
