import Verif.Runtime.Model
import Verif.Py.Chars

/-!
# The tables shipped with `src/goats/eprem/runtime.py`

The contents of `runtime.json` and the metadata dictionaries at the end of `runtime.py`, entry by
entry.  The entries `info` (documentation) are left out.
-/

namespace Verif.Defaults

open Verif.Py Verif.Runtime

/-- The function that reads a parameter in `configuration.c` (runtime.py 389-396). -/
inductive Mode where
  | readInt | readDouble | readString | readDoubleArray
  deriving DecidableEq, Repr

/-- An entry of `_CONFIGURATION_C` in `runtime.json`. -/
structure Entry where
  mode : Mode
  default : Str
  minimum : Option Str
  maximum : Option Str
  deriving DecidableEq

/-- `_BASETYPES_H` (runtime.json 2-42): the texts of the constants. -/
def baseTexts : Dict Str Str :=
  [(c!"AU", c!"1.495978707e13"),
   (c!"BADINT", c!"2147483647"),
   (c!"BADVALUE", c!"1.0e33"),
   (c!"C", c!"2.99792458e10"),
   (c!"DAY", c!"( TAU / (24.0 * 60.0 * 60.0)  )"),
   (c!"EV", c!"1.6022e-12"),
   (c!"F", c!"0"),
   (c!"FCONVERT", c!"( 1.0e30 / (C * C * C * C) )"),
   (c!"GEV", c!"1.6022e-3"),
   (c!"MAS_B_CONVERT", c!"sqrt(4.0*PI*MAS_RHO_NORM)*MAS_LENGTH_NORM / MAS_TIME_NORM / MHD_B_NORM"),
   (c!"MAS_LENGTH_NORM", c!"6.96e10"),
   (c!"MAS_RHO_CONVERT", c!"(MAS_RHO_NORM / MP) / MHD_DENSITY_NORM"),
   (c!"MAS_RHO_NORM", c!"1.6726e-16"),
   (c!"MAS_TIME_CONVERT", c!"MAS_TIME_NORM / (24.0 * 60.0 * 60.0)"),
   (c!"MAS_TIME_NORM", c!"1445.87003080685"),
   (c!"MAS_V_CONVERT", c!"( MAS_LENGTH_NORM / MAS_TIME_NORM ) / C"),
   (c!"MAX_STRING_SIZE", c!"240"),
   (c!"MEV", c!"1.6022e-6"),
   (c!"MHD_BATSRUS", c!"3"),
   (c!"MHD_B_NORM", c!"( sqrt(MP*MHD_DENSITY_NORM) * C )"),
   (c!"MHD_DEFAULT", c!"0"),
   (c!"MHD_DENSITY_NORM", c!"1.0"),
   (c!"MHD_ENLIL", c!"1"),
   (c!"MHD_LFMH", c!"2"),
   (c!"MHD_MAS", c!"4"),
   (c!"MP", c!"1.6726e-24"),
   (c!"MZERO", c!"(MP*C*C/GEV)"),
   (c!"NUM_MPI_BOUNDARY_FLDS", c!"2"),
   (c!"OM", c!"( MHD_B_NORM * Q * AU / (MP * C * C) )"),
   (c!"PI", c!"3.1415926535897932"),
   (c!"Q", c!"4.80320425e-10"),
   (c!"RSAU", c!"(RSUN/AU)"),
   (c!"RSUN", c!"6.96e10"),
   (c!"T", c!"1"),
   (c!"TAU", c!"( AU / C )"),
   (c!"THRESH", c!"0.025"),
   (c!"TWO_PI", c!"6.283185307179586"),
   (c!"VERYSMALL", c!"1.0e-33"),
   (c!"VOLT", c!"0.33333e-2")]

/-- `_CONFIGURATION_C` (runtime.json 43-718). -/
def configEntries : Dict Str Entry :=
  [(c!"FailModeDump", ⟨.readInt, c!"1", some c!"0", some c!"1"⟩),
   (c!"aziSunStart", ⟨.readDouble, c!"0.0", some c!"0.0", some c!"BADVALUE"⟩),
   (c!"boundaryFunctAmplitude", ⟨.readDouble, c!"1.0", some c!"VERYSMALL", some c!"BADVALUE"⟩),
   (c!"boundaryFunctBeta", ⟨.readDouble, c!"1.7", some c!"0.0", some c!"BADVALUE"⟩),
   (c!"boundaryFunctEcutoff", ⟨.readDouble, c!"1.0", some c!"0.0", some c!"BADVALUE"⟩),
   (c!"boundaryFunctGamma", ⟨.readDouble, c!"2.0", some c!"0.0", some c!"BADVALUE"⟩),
   (c!"boundaryFunctXi", ⟨.readDouble, c!"1.0", some c!"0.0", some c!"BADVALUE"⟩),
   (c!"boundaryFunctionInitDomain", ⟨.readInt, c!"1", some c!"0", some c!"1"⟩),
   (c!"charge", ⟨.readDoubleArray, c!"[1.0]", none, none⟩),
   (c!"checkSeedPopulation", ⟨.readInt, c!"1", some c!"0", some c!"1"⟩),
   (c!"clusterNodes", ⟨.readInt, c!"0", some c!"0", some c!"1"⟩),
   (c!"dsh_hel_min", ⟨.readDouble, c!"2.5e-4", some c!"VERYSMALL", some c!"BADVALUE"⟩),
   (c!"dsh_min", ⟨.readDouble, c!"5.0e-5", some c!"VERYSMALL", some c!"BADVALUE"⟩),
   (c!"dumpFreq", ⟨.readInt, c!"1", some c!"0", some c!"1000000"⟩),
   (c!"dumpOnAbort", ⟨.readInt, c!"0", some c!"0", some c!"1"⟩),
   (c!"eMax", ⟨.readDouble, c!"1000.0", some c!"config.eMin", some c!"BADVALUE"⟩),
   (c!"eMin", ⟨.readDouble, c!"1.0", some c!"VERYSMALL", some c!"BADVALUE"⟩),
   (c!"epCalcStartTime", ⟨.readDouble, c!"config.simStartTime", some c!"0.0", some c!"BADVALUE"⟩),
   (c!"epEquilibriumCalcDuration", ⟨.readDouble, c!"0.0", some c!"0.0", some c!"BADVALUE"⟩),
   (c!"epremDomain", ⟨.readInt, c!"0", some c!"0", some c!"1"⟩),
   (c!"epremDomainOutputTime", ⟨.readDouble, c!"0.0", some c!"0.0", some c!"BADVALUE"⟩),
   (c!"fieldAligned", ⟨.readInt, c!"0", some c!"0", some c!"1"⟩),
   (c!"flowMag", ⟨.readDouble, c!"400.0e5", some c!"VERYSMALL", some c!"BADVALUE"⟩),
   (c!"fluxLimiter", ⟨.readInt, c!"1", some c!"0", some c!"1"⟩),
   (c!"focusingLimit", ⟨.readDouble, c!"1.0", some c!"0.0", some c!"1.0"⟩),
   (c!"gammaEhigh", ⟨.readDouble, c!"0.0", some c!"-1.0 * BADVALUE", some c!"BADVALUE"⟩),
   (c!"gammaElow", ⟨.readDouble, c!"0.0", some c!"-1.0 * BADVALUE", some c!"BADVALUE"⟩),
   (c!"idealShock", ⟨.readInt, c!"0", some c!"0", some c!"1"⟩),
   (c!"idealShockInitTime", ⟨.readDouble, c!"config.simStartTime", some c!"config.simStartTime", some c!"BADVALUE"⟩),
   (c!"idealShockJump", ⟨.readDouble, c!"4.0", some c!"VERYSMALL", some c!"BADVALUE"⟩),
   (c!"idealShockPhi", ⟨.readDouble, c!"0.0", some c!"0.0", some c!"2.0 * PI"⟩),
   (c!"idealShockScaleLength", ⟨.readDouble, c!"0.0046491", some c!"VERYSMALL", some c!"BADVALUE"⟩),
   (c!"idealShockSharpness", ⟨.readDouble, c!"1.0", some c!"VERYSMALL", some c!"BADVALUE"⟩),
   (c!"idealShockSpeed", ⟨.readDouble, c!"1500e5", some c!"VERYSMALL", some c!"BADVALUE"⟩),
   (c!"idealShockTheta", ⟨.readDouble, c!"1.570796", some c!"0.0", some c!"PI"⟩),
   (c!"idealShockWidth", ⟨.readDouble, c!"0.0", some c!"0.0", some c!"PI"⟩),
   (c!"idw_p", ⟨.readDouble, c!"3.0", some c!"VERYSMALL", some c!"BADVALUE"⟩),
   (c!"kperxkpar", ⟨.readDouble, c!"0.01", some c!"VERYSMALL", some c!"BADVALUE"⟩),
   (c!"lamo", ⟨.readDouble, c!"1.0", some c!"VERYSMALL", some c!"BADVALUE"⟩),
   (c!"masCorRotateFake", ⟨.readInt, c!"0", some c!"0", some c!"1"⟩),
   (c!"masCouple", ⟨.readInt, c!"0", some c!"0", some c!"1"⟩),
   (c!"masCoupledTime", ⟨.readInt, c!"1", some c!"0", some c!"1"⟩),
   (c!"masDigits", ⟨.readInt, c!"3", some c!"0", some c!"32767"⟩),
   (c!"masDirectory", ⟨.readString, c!"", none, none⟩),
   (c!"masHelCouple", ⟨.readInt, c!"0", some c!"0", some c!"1"⟩),
   (c!"masHelDigits", ⟨.readInt, c!"3", some c!"0", some c!"32767"⟩),
   (c!"masHelDirectory", ⟨.readString, c!"", none, none⟩),
   (c!"masHelNumFiles", ⟨.readInt, c!"0", some c!"0", some c!"32767"⟩),
   (c!"masHelRadialMax", ⟨.readDouble, c!"0.0", some c!"0.0", some c!"BADVALUE"⟩),
   (c!"masHelRadialMin", ⟨.readDouble, c!"0.0", some c!"0.0", some c!"BADVALUE"⟩),
   (c!"masInitFromOuterBoundary", ⟨.readInt, c!"2", some c!"0", some c!"2"⟩),
   (c!"masInitMonteCarlo", ⟨.readInt, c!"0", some c!"0", some c!"1"⟩),
   (c!"masInitRadius", ⟨.readDouble, c!"0.0", some c!"0.0", some c!"BADVALUE"⟩),
   (c!"masInitTimeStep", ⟨.readDouble, c!"0.000011574074074", some c!"0.0", some c!"BADVALUE"⟩),
   (c!"masNumFiles", ⟨.readInt, c!"0", some c!"0", some c!"32767"⟩),
   (c!"masRadialMax", ⟨.readDouble, c!"0.0", some c!"0.0", some c!"BADVALUE"⟩),
   (c!"masRadialMin", ⟨.readDouble, c!"0.0", some c!"0.0", some c!"BADVALUE"⟩),
   (c!"masRotateSolution", ⟨.readInt, c!"1", some c!"0", some c!"1"⟩),
   (c!"masStartTime", ⟨.readDouble, c!"0.0", some c!"0.0", some c!"BADVALUE"⟩),
   (c!"masSteadyState", ⟨.readInt, c!"1", some c!"0", some c!"1"⟩),
   (c!"masTriLinear", ⟨.readInt, c!"1", some c!"0", some c!"1"⟩),
   (c!"masVmin", ⟨.readDouble, c!"50.0e5", some c!"0.0", some c!"BADVALUE"⟩),
   (c!"mass", ⟨.readDoubleArray, c!"[1.0]", none, none⟩),
   (c!"mfpRadialPower", ⟨.readDouble, c!"2.0", some c!"-1.0 * BADVALUE", some c!"BADVALUE"⟩),
   (c!"mhdBAu", ⟨.readDouble, c!"1.60e-5", some c!"VERYSMALL", some c!"BADVALUE"⟩),
   (c!"mhdDensityAu", ⟨.readDouble, c!"8.30", some c!"VERYSMALL", some c!"BADVALUE"⟩),
   (c!"minInjectionEnergy", ⟨.readDouble, c!"0.01", some c!"VERYSMALL", some c!"BADVALUE"⟩),
   (c!"nodeClusterPhi", ⟨.readDouble, c!"0.0", some c!"0.0", some c!"2.0 * PI"⟩),
   (c!"nodeClusterTheta", ⟨.readDouble, c!"1.570796", some c!"0.0", some c!"PI"⟩),
   (c!"nodeClusterWidth", ⟨.readDouble, c!"0.0", some c!"0.0", some c!"PI"⟩),
   (c!"numColumnsPerFace", ⟨.readInt, c!"2", some c!"1", some c!"BADINT"⟩),
   (c!"numEnergySteps", ⟨.readInt, c!"20", some c!"2", some c!"BADINT"⟩),
   (c!"numEpSteps", ⟨.readInt, c!"30", some c!"1", some c!"BADINT"⟩),
   (c!"numMuSteps", ⟨.readInt, c!"20", some c!"2", some c!"BADINT"⟩),
   (c!"numNodesPerStream", ⟨.readInt, c!"N_PROCS", some c!"N_PROCS", some c!"BADINT"⟩),
   (c!"numObservers", ⟨.readInt, c!"0", some c!"0", some c!"1000"⟩),
   (c!"numRowsPerFace", ⟨.readInt, c!"2", some c!"1", some c!"BADINT"⟩),
   (c!"numSpecies", ⟨.readInt, c!"1", some c!"0", some c!"100"⟩),
   (c!"obsPhi", ⟨.readDoubleArray, c!"[0]", none, none⟩),
   (c!"obsR", ⟨.readDoubleArray, c!"[0]", none, none⟩),
   (c!"obsTheta", ⟨.readDoubleArray, c!"[0]", none, none⟩),
   (c!"omegaSun", ⟨.readDouble, c!"(0.004144/MAS_TIME_NORM)*TAU", some c!"0.0", some c!"BADVALUE"⟩),
   (c!"outputFloat", ⟨.readInt, c!"0", some c!"0", some c!"1"⟩),
   (c!"outputRestart", ⟨.readInt, c!"0", some c!"0", some c!"1000000"⟩),
   (c!"parallelFlow", ⟨.readDouble, c!"0.0", some c!"0.0", some c!"BADVALUE"⟩),
   (c!"pointObserverOutput", ⟨.readInt, c!"0", some c!"0", some c!"1"⟩),
   (c!"pointObserverOutputTime", ⟨.readDouble, c!"0.0", some c!"0.0", some c!"BADVALUE"⟩),
   (c!"preEruptionDuration", ⟨.readDouble, c!"0.0", some c!"0.0", some c!"BADVALUE"⟩),
   (c!"rScale", ⟨.readDouble, c!"0.005", some c!"VERYSMALL", some c!"BADVALUE"⟩),
   (c!"rigidityPower", ⟨.readDouble, c!"third", some c!"VERYSMALL", some c!"BADVALUE"⟩),
   (c!"saveRestartFile", ⟨.readInt, c!"0", some c!"0", some c!"1"⟩),
   (c!"seedFunctionTest", ⟨.readInt, c!"0", some c!"0", some c!"1"⟩),
   (c!"shockDetectPercent", ⟨.readDouble, c!"1.0", some c!"0.0", some c!"BADVALUE"⟩),
   (c!"shockInjectionFactor", ⟨.readDouble, c!"1.0", some c!"0.0", some c!"BADVALUE"⟩),
   (c!"shockSolver", ⟨.readInt, c!"0", some c!"0", some c!"1"⟩),
   (c!"simStartTime", ⟨.readDouble, c!"0.0", some c!"0.0", some c!"BADVALUE"⟩),
   (c!"simStopTime", ⟨.readDouble, c!"config.simStartTime + config.tDel", some c!"config.simStartTime", some c!"BADVALUE"⟩),
   (c!"streamFluxOutput", ⟨.readInt, c!"0", some c!"0", some c!"1"⟩),
   (c!"streamFluxOutputTime", ⟨.readDouble, c!"0.0", some c!"0.0", some c!"BADVALUE"⟩),
   (c!"subTimeCouple", ⟨.readInt, c!"0", some c!"0", some c!"1"⟩),
   (c!"tDel", ⟨.readDouble, c!"0.01041666666667", some c!"VERYSMALL", some c!"BADVALUE"⟩),
   (c!"unifiedOutput", ⟨.readInt, c!"1", some c!"0", some c!"1"⟩),
   (c!"unifiedOutputTime", ⟨.readDouble, c!"0.0", some c!"0.0", some c!"BADVALUE"⟩),
   (c!"unstructuredDomain", ⟨.readInt, c!"0", some c!"0", some c!"1"⟩),
   (c!"unstructuredDomainOutputTime", ⟨.readDouble, c!"0.0", some c!"0.0", some c!"BADVALUE"⟩),
   (c!"useAdiabaticChange", ⟨.readInt, c!"1", some c!"0", some c!"1"⟩),
   (c!"useAdiabaticFocus", ⟨.readInt, c!"1", some c!"0", some c!"1"⟩),
   (c!"useBoundaryFunction", ⟨.readInt, c!"1", some c!"0", some c!"1"⟩),
   (c!"useDrift", ⟨.readInt, c!"0", some c!"0", some c!"1"⟩),
   (c!"useEPBoundary", ⟨.readInt, c!"1", some c!"0", some c!"1"⟩),
   (c!"useMasSteadyStateDt", ⟨.readInt, c!"1", some c!"0", some c!"1"⟩),
   (c!"useParallelDiffusion", ⟨.readInt, c!"1", some c!"0", some c!"1"⟩),
   (c!"useShellDiffusion", ⟨.readInt, c!"0", some c!"0", some c!"1"⟩),
   (c!"useStochastic", ⟨.readInt, c!"0", some c!"0", some c!"1"⟩),
   (c!"warningsFile", ⟨.readString, c!"warningsXXX.txt", none, none⟩)]

/-- `_BASETYPES_H` (runtime.py 1311-1507): the type and unit of each constant. -/
def baseMeta : Dict Str (Typ × Option Str) :=
  [(c!"T", (.int, none)),
   (c!"F", (.int, none)),
   (c!"PI", (.float, none)),
   (c!"TWO_PI", (.float, none)),
   (c!"VERYSMALL", (.float, none)),
   (c!"BADVALUE", (.float, none)),
   (c!"BADINT", (.int, none)),
   (c!"MP", (.float, some c!"g")),
   (c!"EV", (.float, some c!"erg/eV")),
   (c!"MEV", (.float, some c!"erg/MeV")),
   (c!"GEV", (.float, some c!"erg/GeV")),
   (c!"Q", (.float, some c!"statC")),
   (c!"C", (.float, some c!"cm/s")),
   (c!"MZERO", (.float, some c!"GeV")),
   (c!"AU", (.float, some c!"cm")),
   (c!"RSUN", (.float, some c!"cm")),
   (c!"RSAU", (.float, some c!"1")),
   (c!"TAU", (.float, some c!"s")),
   (c!"DAY", (.float, some c!"day")),
   (c!"MHD_DENSITY_NORM", (.float, some c!"1")),
   (c!"MHD_B_NORM", (.float, some c!"1")),
   (c!"OM", (.float, some c!"1")),
   (c!"FCONVERT", (.float, some c!"1")),
   (c!"VOLT", (.float, some c!"1")),
   (c!"THRESH", (.float, some c!"1")),
   (c!"MAS_TIME_NORM", (.float, some c!"1")),
   (c!"MAS_LENGTH_NORM", (.float, some c!"1")),
   (c!"MAS_RHO_NORM", (.float, some c!"1")),
   (c!"MAS_TIME_CONVERT", (.float, some c!"1")),
   (c!"MAS_V_CONVERT", (.float, some c!"1")),
   (c!"MAS_RHO_CONVERT", (.float, some c!"1")),
   (c!"MAS_B_CONVERT", (.float, some c!"1")),
   (c!"MAX_STRING_SIZE", (.int, none)),
   (c!"MHD_DEFAULT", (.int, none)),
   (c!"MHD_ENLIL", (.int, none)),
   (c!"MHD_LFMH", (.int, none)),
   (c!"MHD_BATSRUS", (.int, none)),
   (c!"MHD_MAS", (.int, none)),
   (c!"NUM_MPI_BOUNDARY_FLDS", (.int, none))]

/-- `_CONFIGURATION_C` (runtime.py 1003-1308): the aliases and unit of each parameter. -/
def configMeta : Dict Str (List Str × Option Str) :=
  [(c!"boundaryFunctAmplitude", ([c!"J0"], some c!"1 / (cm^2 * s * sr * (MeV/nuc))")),
   (c!"boundaryFunctXi", ([c!"xi"], some c!"1")),
   (c!"boundaryFunctBeta", ([c!"beta"], some c!"1")),
   (c!"boundaryFunctGamma", ([c!"gamma"], some c!"1")),
   (c!"boundaryFunctEcutoff", ([c!"E0"], some c!"MeV")),
   (c!"kperxkpar", ([c!"kper_kpar", c!"kper/kpar", c!"kper / kpar"], some c!"1")),
   (c!"lamo", ([c!"lam0", c!"lambda0"], some c!"au")),
   (c!"mfpRadialPower", ([c!"mfp_radial_power"], some c!"1")),
   (c!"rigidityPower", ([c!"rigidity_power"], some c!"1")),
   (c!"flowMag", ([], some c!"km/s")),
   (c!"mhdDensityAu", ([], some c!"cm^-3")),
   (c!"mhdBAu", ([], some c!"G")),
   (c!"omegaSun", ([], some c!"rad * cm / (au * s)")),
   (c!"mass", ([], some c!"nucleon")),
   (c!"charge", ([], some c!"e")),
   (c!"minInjectionEnergy", ([], some c!"MeV")),
   (c!"maxInjectionEnergy", ([], some c!"MeV")),
   (c!"shockInjectionFactor", ([], some c!"1")),
   (c!"shockDetectPercent", ([], some c!"1")),
   (c!"rScale", ([], some c!"au")),
   (c!"simStartTime", ([], some c!"day")),
   (c!"simStopTime", ([], some c!"day")),
   (c!"eMin", ([], some c!"MeV/nuc")),
   (c!"eMax", ([], some c!"MeV/nuc")),
   (c!"numObservers", ([], some c!"1")),
   (c!"obsR", ([], some c!"au")),
   (c!"obsTheta", ([], some c!"rad")),
   (c!"obsPhi", ([], some c!"rad")),
   (c!"idw_p", ([], some c!"1")),
   (c!"idealShockSharpness", ([], some c!"1")),
   (c!"idealShockScaleLength", ([], some c!"au")),
   (c!"idealShockJump", ([], some c!"1")),
   (c!"idealShockSpeed", ([], some c!"km/s")),
   (c!"idealShockInitTime", ([], some c!"day")),
   (c!"idealShockTheta", ([], some c!"rad")),
   (c!"idealShockPhi", ([], some c!"rad")),
   (c!"idealShockWidth", ([], some c!"rad")),
   (c!"tDel", ([], some c!"day")),
   (c!"gammaElow", ([], some c!"1")),
   (c!"gammaEhigh", ([], some c!"1")),
   (c!"masInitTimeStep", ([], some c!"day")),
   (c!"masStartTime", ([], some c!"day")),
   (c!"epEquilibriumCalcDuration", ([], some c!"day")),
   (c!"preEruptionDuration", ([], some c!"day")),
   (c!"pointObserverOutput", ([], none)),
   (c!"enlilCouple", ([], none)),
   (c!"outputFloat", ([], none)),
   (c!"numRowsPerFace", ([], none)),
   (c!"numColumnsPerFace", ([], none)),
   (c!"numNodesPerStream", ([], none)),
   (c!"numEnergySteps", ([], none)),
   (c!"numMuSteps", ([], none)),
   (c!"useDrift", ([], none)),
   (c!"useShellDiffusion", ([], none)),
   (c!"unifiedOutput", ([], none)),
   (c!"streamFluxOutput", ([], none)),
   (c!"epremDomain", ([], none)),
   (c!"dumpFreq", ([], none)),
   (c!"idealShock", ([], none)),
   (c!"shockSolver", ([], none)),
   (c!"fluxLimiter", ([], none)),
   (c!"numEpSteps", ([], none)),
   (c!"useParallelDiffusion", ([], none)),
   (c!"useAdiabaticChange", ([], none)),
   (c!"useAdiabaticFocus", ([], none)),
   (c!"numSpecies", ([], none)),
   (c!"boundaryFunctionInitDomain", ([], none)),
   (c!"checkSeedPopulation", ([], none)),
   (c!"subTimeCouple", ([], none)),
   (c!"FailModeDump", ([], none)),
   (c!"masCouple", ([], none)),
   (c!"masDirectory", ([], none)),
   (c!"masInitFromOuterBoundary", ([], none)),
   (c!"masRotateSolution", ([], none)),
   (c!"useMasSteadyStateDt", ([], none)),
   (c!"masDigits", ([], none))]

/-- `_LOCAL` (runtime.py 983-999): the aliases, unit and default of each post-processing
parameter. -/
def localMeta : Dict Str (List Str × Option Str × Rat) :=
  [(c!"minimum_energy", ([c!"Emin", c!"minimum energy"], some c!"MeV", 0)),
   (c!"reference energy", ([c!"energy0"], some c!"MeV", 1)),
   (c!"reference radius", ([c!"r0"], some c!"au", 1))]

/-- `_BASE` (reference.py 11-135): the aliases and quantity of each observable. -/
def referenceBase : List (List Str × Str) :=
  [([c!"time", c!"t", c!"times"],
    c!"time"),
   ([c!"shell", c!"shells"],
    c!"number"),
   ([c!"mu", c!"mus", c!"pitch angle", c!"pitch-angle", c!"pitch-angle cosine", c!"pitch angles", c!"pitch-angles", c!"pitch-angle cosines"],
    c!"ratio"),
   ([c!"mass", c!"m"],
    c!"mass"),
   ([c!"charge", c!"q"],
    c!"charge"),
   ([c!"energy", c!"egrid", c!"energies", c!"E"],
    c!"energy"),
   ([c!"speed", c!"vgrid", c!"vparticle"],
    c!"velocity"),
   ([c!"radius", c!"R", c!"r"],
    c!"length"),
   ([c!"theta", c!"T"],
    c!"plane angle"),
   ([c!"phi", c!"P"],
    c!"plane angle"),
   ([c!"Br", c!"br"],
    c!"magnetic field"),
   ([c!"Bt", c!"bt", c!"Btheta", c!"btheta"],
    c!"magnetic field"),
   ([c!"Bp", c!"bp", c!"Bphi", c!"bphi"],
    c!"magnetic field"),
   ([c!"Vr", c!"vr"],
    c!"velocity"),
   ([c!"Vt", c!"vt", c!"Vtheta", c!"vtheta"],
    c!"velocity"),
   ([c!"Vp", c!"vp", c!"Vphi", c!"vphi"],
    c!"velocity"),
   ([c!"rho", c!"Rho"],
    c!"number density"),
   ([c!"dist", c!"Dist", c!"f"],
    c!"particle distribution"),
   ([c!"flux", c!"Flux", c!"J", c!"J(E)", c!"j", c!"j(E)"],
    c!"number / (area * solid_angle * time * energy / mass_number)"),
   ([c!"x", c!"X"],
    c!"length"),
   ([c!"y", c!"Y"],
    c!"length"),
   ([c!"z", c!"Z"],
    c!"length"),
   ([c!"B", c!"b_mag", c!"|B|", c!"bmag", c!"b mag"],
    c!"magnetic field"),
   ([c!"V", c!"v_mag", c!"|V|", c!"vmag", c!"v mag", c!"v", c!"|v|"],
    c!"velocity"),
   ([c!"BV", c!"bv_mag", c!"bv", c!"|bv|", c!"|BV|"],
    c!"velocity * magnetic field"),
   ([c!"Vpara", c!"v_para", c!"vpara"],
    c!"velocity"),
   ([c!"Vperp", c!"v_perp", c!"vperp"],
    c!"velocity"),
   ([c!"flow_angle", c!"flow angle", c!"angle"],
    c!"plane angle"),
   ([c!"div_v", c!"divV", c!"divv", c!"div V", c!"div v", c!"div(V)", c!"div(v)"],
    c!"1 / time"),
   ([c!"density_ratio", c!"density ratio", c!"n2/n1", c!"n_2/n_1"],
    c!"number"),
   ([c!"rigidity", c!"Rg", c!"R_g"],
    c!"momentum / charge"),
   ([c!"mean_free_path", c!"mean free path", c!"mfp"],
    c!"length"),
   ([c!"acceleration_rate", c!"acceleration rate"],
    c!"1 / time"),
   ([c!"energy_density", c!"energy density"],
    c!"energy / volume"),
   ([c!"average_energy", c!"average energy"],
    c!"energy"),
   ([c!"isotropic_distribution", c!"isotropic distribution", c!"isodist"],
    c!"particle distribution"),
   ([c!"fluence"],
    c!"number / (area * solid_angle * energy / mass_number)"),
   ([c!"integral_flux", c!"integral flux"],
    c!"number / (area * solid_angle * time)")]

end Verif.Defaults
