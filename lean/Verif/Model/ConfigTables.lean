import Verif.Model.Config
import Verif.Model.MetricTables
import Mathlib.Analysis.SpecialFunctions.Pow.Real

/-!
# Tables of parameters and constants

Generated from `/repo/src/eprempy/parameter/reference.json` and `/repo/src/eprempy/parameter/_metadata.py`.  The columns
`minVal` and `maxVal` of the first file, which the package does not use, are left out.
-/

namespace Eprem.Config

open Eprem Eprem.Symbolic Eprem.Metric

/-- The parameters of `reference.json` (35-747): type (`_src.py` 389-396) and default value. -/
def packageReference : Dict Str (Ty × Str) := [
  (c! "FailModeDump", .int, c! "1"),
  (c! "adiabaticChangeAlg", .int, c! "1"),
  (c! "adiabaticFocusAlg", .int, c! "1"),
  (c! "aziSunStart", .float, c! "0.0"),
  (c! "boundaryFunctAmplitude", .float, c! "1.0"),
  (c! "boundaryFunctBeta", .float, c! "2.0"),
  (c! "boundaryFunctEcutoff", .float, c! "1.0"),
  (c! "boundaryFunctEr", .float, c! "1.0"),
  (c! "boundaryFunctGamma", .float, c! "2.0"),
  (c! "boundaryFunctR0", .float, c! "1.0"),
  (c! "boundaryFunctXi", .float, c! "1.0"),
  (c! "boundaryFunctionInitDomain", .int, c! "1"),
  (c! "charge", .list, c! "[1.0]"),
  (c! "checkSeedPopulation", .int, c! "1"),
  (c! "dsh_hel_min", .float, c! "2.5e-4"),
  (c! "dsh_min", .float, c! "5.0e-5"),
  (c! "dumpFreq", .int, c! "1"),
  (c! "dumpOnAbort", .int, c! "0"),
  (c! "eMax", .float, c! "1000.0"),
  (c! "eMin", .float, c! "1.0"),
  (c! "epCalcStartTime", .float, c! "config.simStartTime"),
  (c! "epEquilibriumCalcDuration", .float, c! "0.0"),
  (c! "epremDomain", .int, c! "0"),
  (c! "epremDomainOutputTime", .float, c! "0.0"),
  (c! "fieldAligned", .int, c! "0"),
  (c! "flowMag", .float, c! "400.0e5"),
  (c! "fluxLimiter", .int, c! "1"),
  (c! "focusingLimit", .float, c! "1.0"),
  (c! "gammaEhigh", .float, c! "0.0"),
  (c! "gammaElow", .float, c! "0.0"),
  (c! "idealShock", .int, c! "0"),
  (c! "idealShockFalloff", .float, c! "0.0"),
  (c! "idealShockInitTime", .float, c! "config.simStartTime"),
  (c! "idealShockJump", .float, c! "4.0"),
  (c! "idealShockPhi", .float, c! "0.0"),
  (c! "idealShockPhiWidth", .float, c! "config.idealShockWidth"),
  (c! "idealShockScale", .float, c! "config.idealShockSharpness / config.idealShockScaleLength"),
  (c! "idealShockScaleLength", .float, c! "0.0046491"),
  (c! "idealShockSharpness", .float, c! "1.0"),
  (c! "idealShockSpeed", .float, c! "1500e5"),
  (c! "idealShockTheta", .float, c! "HALF_PI"),
  (c! "idealShockThetaWidth", .float, c! "config.idealShockWidth"),
  (c! "idealShockWidth", .float, c! "0.0"),
  (c! "idw_p", .float, c! "3.0"),
  (c! "kperxkpar", .float, c! "0.01"),
  (c! "lamo", .float, c! "1.0"),
  (c! "mass", .list, c! "[1.0]"),
  (c! "mfpRadialPower", .float, c! "2.0"),
  (c! "mhdBAu", .float, c! "1.60e-5"),
  (c! "mhdBConvert", .float, c! "1.0"),
  (c! "mhdCouple", .int, c! "0"),
  (c! "mhdCoupledTime", .int, c! "1"),
  (c! "mhdDensityAu", .float, c! "8.30"),
  (c! "mhdDigits", .int, c! "3"),
  (c! "mhdDirectory", .str, c! ""),
  (c! "mhdInitFromOuterBoundary", .int, c! "2"),
  (c! "mhdInitMonteCarlo", .int, c! "0"),
  (c! "mhdInitRadius", .float, c! "0.0"),
  (c! "mhdInitTimeStep", .float, c! "0.000011574074074"),
  (c! "mhdNumFiles", .int, c! "0"),
  (c! "mhdRadialMax", .float, c! "0.0"),
  (c! "mhdRadialMin", .float, c! "0.0"),
  (c! "mhdRhoConvert", .float, c! "1.0"),
  (c! "mhdRotateSolution", .int, c! "1"),
  (c! "mhdStartTime", .float, c! "0.0"),
  (c! "mhdSteadyState", .int, c! "1"),
  (c! "mhdTimeConvert", .float, c! "1.0"),
  (c! "mhdVConvert", .float, c! "1.0"),
  (c! "mhdVmin", .float, c! "50.0e5"),
  (c! "minInjectionEnergy", .float, c! "0.01"),
  (c! "numColumnsPerFace", .int, c! "2"),
  (c! "numEnergySteps", .int, c! "20"),
  (c! "numEpSteps", .int, c! "30"),
  (c! "numMuSteps", .int, c! "20"),
  (c! "numNodesPerStream", .int, c! "N_PROCS"),
  (c! "numObservers", .int, c! "0"),
  (c! "numRowsPerFace", .int, c! "2"),
  (c! "numSpecies", .int, c! "1"),
  (c! "obsPhi", .list, c! "[0.0]"),
  (c! "obsR", .list, c! "[config.rScale]"),
  (c! "obsTheta", .list, c! "[0.0]"),
  (c! "omegaSun", .float, c! "0.001429813"),
  (c! "outputFloat", .int, c! "0"),
  (c! "outputRestart", .int, c! "0"),
  (c! "parallelFlow", .float, c! "0.0"),
  (c! "pointObserverOutput", .int, c! "0"),
  (c! "pointObserverOutputTime", .float, c! "0.0"),
  (c! "preEruptionDuration", .float, c! "0.0"),
  (c! "rScale", .float, c! "RSAU"),
  (c! "rigidityPower", .float, c! "third"),
  (c! "saveRestartFile", .int, c! "0"),
  (c! "seedFunctionTest", .int, c! "0"),
  (c! "shockDetectPercent", .float, c! "1.0"),
  (c! "shockInjectionFactor", .float, c! "1.0"),
  (c! "shockSolver", .int, c! "0"),
  (c! "simStartTime", .float, c! "0.0"),
  (c! "simStopTime", .float, c! "config.simStartTime + config.tDel"),
  (c! "streamFluxOutput", .int, c! "0"),
  (c! "streamFluxOutputTime", .float, c! "0.0"),
  (c! "streamSpawnLocAzi", .list, c! "[0.0]"),
  (c! "streamSpawnLocZen", .list, c! "[0.0]"),
  (c! "subTimeCouple", .int, c! "0"),
  (c! "tDel", .float, c! "0.01041666666667"),
  (c! "unifiedOutput", .int, c! "1"),
  (c! "unifiedOutputTime", .float, c! "0.0"),
  (c! "unstructuredDomain", .int, c! "0"),
  (c! "unstructuredDomainOutputTime", .float, c! "0.0"),
  (c! "useAdiabaticChange", .int, c! "1"),
  (c! "useAdiabaticFocus", .int, c! "1"),
  (c! "useBoundaryFunction", .int, c! "1"),
  (c! "useDegrees", .int, c! "0"),
  (c! "useDrift", .int, c! "0"),
  (c! "useEPBoundary", .int, c! "1"),
  (c! "useManualStreamSpawnLoc", .int, c! "0"),
  (c! "useMhdSteadyStateDt", .int, c! "1"),
  (c! "useParallelDiffusion", .int, c! "1"),
  (c! "useShellDiffusion", .int, c! "0"),
  (c! "useStochastic", .int, c! "0"),
  (c! "warningsFile", .str, c! "warningsXXX.txt")]

/-- The constants of `reference.json` (2-34) and their definitions. -/
def packageConstants : Dict Str Str := [
  (c! "AU", c! "1.495978707e13"),
  (c! "C", c! "2.99792458e10"),
  (c! "DAY", c! "( TAU / (24.0 * 60.0 * 60.0)  )"),
  (c! "DEG2RAD", c! "(PI/180.0)"),
  (c! "EV", c! "1.6022e-12"),
  (c! "F", c! "0"),
  (c! "FCONVERT", c! "( 1.0e30 / (C * C * C * C) )"),
  (c! "GEV", c! "1.6022e-3"),
  (c! "HALF_PI", c! "1.5707963267948966"),
  (c! "LARGEFLOAT", c! "1.0e33"),
  (c! "LARGEINT", c! "2147483647"),
  (c! "MAX_STRING_SIZE", c! "240"),
  (c! "MEV", c! "1.6022e-6"),
  (c! "MHD_B_NORM", c! "( sqrt(MP*MHD_DENSITY_NORM) * C )"),
  (c! "MHD_COUPLED", c! "1"),
  (c! "MHD_DEFAULT", c! "0"),
  (c! "MHD_DENSITY_NORM", c! "1.0"),
  (c! "MP", c! "1.6726e-24"),
  (c! "MZERO", c! "(MP*C*C/GEV)"),
  (c! "OM", c! "( MHD_B_NORM * Q * AU / (MP * C * C) )"),
  (c! "PI", c! "3.141592653589793"),
  (c! "Q", c! "4.80320425e-10"),
  (c! "RAD2DEG", c! "(180.0/PI)"),
  (c! "RSAU", c! "(RSUN/AU)"),
  (c! "RSUN", c! "6.96e10"),
  (c! "SMALLFLOAT", c! "1.0e-33"),
  (c! "T", c! "1"),
  (c! "TAU", c! "( AU / C )"),
  (c! "THRESH", c! "0.025"),
  (c! "TWO_PI", c! "6.283185307179586"),
  (c! "VOLT", c! "0.33333e-2")]

/-- The types of constants (`_metadata.py` 19-175, `type`). -/
def packageTypes : Dict Str Ty := [
  (c! "AU", .float),
  (c! "C", .float),
  (c! "DAY", .float),
  (c! "DEG2RAD", .float),
  (c! "EV", .float),
  (c! "F", .int),
  (c! "FCONVERT", .float),
  (c! "GEV", .float),
  (c! "HALF_PI", .float),
  (c! "LARGEFLOAT", .float),
  (c! "LARGEINT", .int),
  (c! "MAX_STRING_SIZE", .int),
  (c! "MEV", .float),
  (c! "MHD_B_NORM", .float),
  (c! "MHD_COUPLED", .int),
  (c! "MHD_DEFAULT", .int),
  (c! "MHD_DENSITY_NORM", .float),
  (c! "MP", .float),
  (c! "MZERO", .float),
  (c! "OM", .float),
  (c! "PI", .float),
  (c! "Q", .float),
  (c! "RAD2DEG", .float),
  (c! "RSAU", .float),
  (c! "RSUN", .float),
  (c! "SMALLFLOAT", .float),
  (c! "T", .int),
  (c! "TAU", .float),
  (c! "THRESH", .float),
  (c! "TWO_PI", .float),
  (c! "VOLT", .float)]

/-- Each parameter and constant in the metadata with its aliases (`_metadata.py` 8-607, 610-620). -/
def packageNames : List (List Str) := [
  [c! "minimum_energy", c! "Emin", c! "minimum energy"],
  [c! "AU"],
  [c! "C"],
  [c! "DAY"],
  [c! "DEG2RAD"],
  [c! "EV"],
  [c! "F"],
  [c! "FCONVERT"],
  [c! "GEV"],
  [c! "HALF_PI"],
  [c! "LARGEFLOAT"],
  [c! "LARGEINT"],
  [c! "MAX_STRING_SIZE"],
  [c! "MEV"],
  [c! "MHD_B_NORM"],
  [c! "MHD_COUPLED"],
  [c! "MHD_DEFAULT"],
  [c! "MHD_DENSITY_NORM"],
  [c! "MP"],
  [c! "MZERO"],
  [c! "OM"],
  [c! "PI"],
  [c! "Q"],
  [c! "RAD2DEG"],
  [c! "RSAU"],
  [c! "RSUN"],
  [c! "SMALLFLOAT"],
  [c! "T"],
  [c! "TAU"],
  [c! "THRESH"],
  [c! "TWO_PI"],
  [c! "VOLT"],
  [c! "FailModeDump"],
  [c! "adiabaticChangeAlg"],
  [c! "adiabaticFocusAlg"],
  [c! "aziSunStart"],
  [c! "boundaryFunctAmplitude", c! "J0"],
  [c! "boundaryFunctBeta", c! "beta"],
  [c! "boundaryFunctEcutoff", c! "E0"],
  [c! "boundaryFunctEr", c! "Er", c! "reference energy"],
  [c! "boundaryFunctGamma", c! "gamma"],
  [c! "boundaryFunctR0", c! "R0", c! "r0", c! "reference radius"],
  [c! "boundaryFunctXi", c! "xi"],
  [c! "boundaryFunctionInitDomain"],
  [c! "charge"],
  [c! "checkSeedPopulation"],
  [c! "dumpFreq"],
  [c! "eMax"],
  [c! "eMin"],
  [c! "epCalcStartTime"],
  [c! "epEquilibriumCalcDuration"],
  [c! "epremDomain"],
  [c! "epremDomainOutputTime"],
  [c! "flowMag"],
  [c! "fluxLimiter"],
  [c! "gammaEhigh"],
  [c! "gammaElow"],
  [c! "idealShock"],
  [c! "idealShockFalloff"],
  [c! "idealShockInitTime"],
  [c! "idealShockJump"],
  [c! "idealShockPhi"],
  [c! "idealShockPhiWidth"],
  [c! "idealShockScale"],
  [c! "idealShockScaleLength"],
  [c! "idealShockSharpness"],
  [c! "idealShockSpeed"],
  [c! "idealShockTheta"],
  [c! "idealShockThetaWidth"],
  [c! "idealShockWidth"],
  [c! "idw_p"],
  [c! "kperxkpar", c! "kper_kpar", c! "kper/kpar", c! "kper / kpar"],
  [c! "lamo", c! "lam0", c! "lambda0"],
  [c! "mass"],
  [c! "mfpRadialPower", c! "mfp_radial_power"],
  [c! "mhdBAu"],
  [c! "mhdBConvert"],
  [c! "mhdCouple"],
  [c! "mhdCoupledTime"],
  [c! "mhdDigits"],
  [c! "mhdDensityAu"],
  [c! "mhdDirectory"],
  [c! "mhdInitFromOuterBoundary"],
  [c! "mhdInitRadius"],
  [c! "mhdInitTimeStep"],
  [c! "mhdNumFiles"],
  [c! "mhdRadialMax"],
  [c! "mhdRadialMin"],
  [c! "mhdRhoConvert"],
  [c! "mhdRotateSolution"],
  [c! "mhdStartTime"],
  [c! "mhdSteadyState"],
  [c! "mhdTimeConvert"],
  [c! "mhdVConvert"],
  [c! "mhdVmin"],
  [c! "mhdVmax"],
  [c! "minInjectionEnergy"],
  [c! "numColumnsPerFace"],
  [c! "numEnergySteps"],
  [c! "numEpSteps"],
  [c! "numMuSteps"],
  [c! "numNodesPerStream"],
  [c! "numObservers"],
  [c! "numRowsPerFace"],
  [c! "numSpecies"],
  [c! "obsPhi"],
  [c! "obsR"],
  [c! "obsTheta"],
  [c! "omegaSun"],
  [c! "outputFloat"],
  [c! "pointObserverOutput"],
  [c! "pointObserverOutputTime"],
  [c! "preEruptionDuration"],
  [c! "rScale"],
  [c! "rigidityPower", c! "rigidity_power"],
  [c! "shockDetectPercent"],
  [c! "shockInjectionFactor"],
  [c! "shockSolver"],
  [c! "simStartTime"],
  [c! "simStopTime"],
  [c! "streamFluxOutput"],
  [c! "streamFluxOutputTime"],
  [c! "streamSpawnLocAzi"],
  [c! "streamSpawnLocZen"],
  [c! "subTimeCouple"],
  [c! "tDel"],
  [c! "unifiedOutput"],
  [c! "unifiedOutputTime"],
  [c! "unstructuredDomain"],
  [c! "unstructuredDomainOutputTime"],
  [c! "useAdiabaticChange"],
  [c! "useAdiabaticFocus"],
  [c! "useDegrees"],
  [c! "useDrift"],
  [c! "useManualStreamSpawnLoc"],
  [c! "useMhdSteadyStateDt"],
  [c! "useParallelDiffusion"],
  [c! "useShellDiffusion"],
  [c! "warningsFile"]]

/-- The units in the metadata (`_metadata.py` 8-607, 622-625), for the parameters that have one. -/
def packageUnits : Dict Str Str := [
  (c! "minimum_energy", c! "MeV"),
  (c! "AU", c! "cm"),
  (c! "C", c! "cm/s"),
  (c! "DAY", c! "day"),
  (c! "DEG2RAD", c! "1"),
  (c! "EV", c! "erg/eV"),
  (c! "FCONVERT", c! "1"),
  (c! "GEV", c! "erg/GeV"),
  (c! "MEV", c! "erg/MeV"),
  (c! "MHD_B_NORM", c! "1"),
  (c! "MHD_DENSITY_NORM", c! "1"),
  (c! "MP", c! "g"),
  (c! "MZERO", c! "GeV"),
  (c! "OM", c! "1"),
  (c! "Q", c! "statC"),
  (c! "RAD2DEG", c! "1"),
  (c! "RSAU", c! "1"),
  (c! "RSUN", c! "cm"),
  (c! "TAU", c! "s"),
  (c! "THRESH", c! "1"),
  (c! "VOLT", c! "1"),
  (c! "aziSunStart", c! "rad"),
  (c! "boundaryFunctAmplitude", c! "1 / (cm^2 * s * sr * (MeV/nuc))"),
  (c! "boundaryFunctBeta", c! "1"),
  (c! "boundaryFunctEcutoff", c! "MeV"),
  (c! "boundaryFunctEr", c! "MeV"),
  (c! "boundaryFunctGamma", c! "1"),
  (c! "boundaryFunctR0", c! "au"),
  (c! "boundaryFunctXi", c! "1"),
  (c! "charge", c! "e"),
  (c! "eMax", c! "MeV/nuc"),
  (c! "eMin", c! "MeV/nuc"),
  (c! "epCalcStartTime", c! "day"),
  (c! "epEquilibriumCalcDuration", c! "day"),
  (c! "epremDomainOutputTime", c! "day"),
  (c! "flowMag", c! "cm/s"),
  (c! "gammaEhigh", c! "1"),
  (c! "gammaElow", c! "1"),
  (c! "idealShockInitTime", c! "day"),
  (c! "idealShockJump", c! "1"),
  (c! "idealShockPhi", c! "rad"),
  (c! "idealShockPhiWidth", c! "rad"),
  (c! "idealShockScale", c! "au"),
  (c! "idealShockScaleLength", c! "au"),
  (c! "idealShockSharpness", c! "1"),
  (c! "idealShockSpeed", c! "cm/s"),
  (c! "idealShockTheta", c! "rad"),
  (c! "idealShockThetaWidth", c! "rad"),
  (c! "idealShockWidth", c! "rad"),
  (c! "idw_p", c! "1"),
  (c! "kperxkpar", c! "1"),
  (c! "lamo", c! "au"),
  (c! "mass", c! "nucleon"),
  (c! "mfpRadialPower", c! "1"),
  (c! "mhdBAu", c! "G"),
  (c! "mhdBConvert", c! "1"),
  (c! "mhdDensityAu", c! "cm^-3"),
  (c! "mhdInitRadius", c! "au"),
  (c! "mhdInitTimeStep", c! "day"),
  (c! "mhdRadialMax", c! "au"),
  (c! "mhdRadialMin", c! "au"),
  (c! "mhdRhoConvert", c! "1"),
  (c! "mhdStartTime", c! "day"),
  (c! "mhdTimeConvert", c! "1"),
  (c! "mhdVConvert", c! "1"),
  (c! "mhdVmin", c! "cm/s"),
  (c! "mhdVmax", c! "cm/s"),
  (c! "minInjectionEnergy", c! "MeV"),
  (c! "numObservers", c! "1"),
  (c! "obsPhi", c! "rad"),
  (c! "obsR", c! "au"),
  (c! "obsTheta", c! "rad"),
  (c! "omegaSun", c! "rad * cm / (au * s)"),
  (c! "pointObserverOutputTime", c! "day"),
  (c! "preEruptionDuration", c! "day"),
  (c! "rScale", c! "au"),
  (c! "rigidityPower", c! "1"),
  (c! "shockDetectPercent", c! "1"),
  (c! "shockInjectionFactor", c! "1"),
  (c! "simStartTime", c! "day"),
  (c! "simStopTime", c! "day"),
  (c! "streamFluxOutputTime", c! "day"),
  (c! "streamSpawnLocAzi", c! "rad"),
  (c! "streamSpawnLocZen", c! "rad"),
  (c! "tDel", c! "day"),
  (c! "unifiedOutputTime", c! "day"),
  (c! "unstructuredDomainOutputTime", c! "day")]

/-- `float(text)` for decimal numerals, without rounding.  Not modelled: underscores, `inf` and `nan`. -/
def readFloat (s : Str) : Option Rat :=
  match matchRational (strip s) with
  | some (.dec neg n f eneg e, []) => match (Num.dec neg n f eneg e).value with
    | .ok q => some q
    | .error _ => none
  | _ => none

/-- Arithmetic in rational numbers.  Powers with other than integral exponents, which no default value in the package needs,
are replaced by zero; `complex(text)` is left out. -/
def rationals : Numbers Rat where
  toFloat := readFloat
  toComplex := fun _ => none
  pow := fun x e => if e.den = 1 then x ^ e.num else 0

/-- What default values are computed from in the package (`_config.py` 21-27, `_src.py` 216-225). -/
def packageEnv : Env Rat where
  numbers := rationals
  reference := packageReference
  basetypes := fun k =>
    match computeConstant rationals packageConstants packageTypes.get? (packageConstants.length + 1) k with
    | .ok x => some x
    | .error _ => none

/-- Arithmetic in real numbers; `complex(text)` is left out. -/
noncomputable def reals : Numbers ℝ where
  toFloat := fun s => (readFloat s).map (fun q => (q : ℝ))
  toComplex := fun _ => none
  pow := fun x e => x ^ (e : ℝ)

/-- The parameters that are not in EPREM (`_metadata.py` 8-14) with their default values (`_runtime.py` 209-212). -/
def packageLocal {R : Type} [Field R] : List (Str × Val R) := [(c! "minimum_energy", .num 0)]

/-- The groups of aliases (`_metadata.py` 616-620). -/
def packageAliases : List (Finset Str) := packageNames.map List.toFinset


end Eprem.Config
