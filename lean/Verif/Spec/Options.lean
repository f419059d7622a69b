import Verif.Model.Word

/-!
# Specification: which option sets, counts and solver sets are consistent

Written from the user documentation of the options; it mentions neither bit
words nor the functions of the model (only the record `Counts` of size arguments
is shared with it).
-/

namespace Xrtm.Spec

/-- The 32 user-visible options. -/
inductive Opt
  | calcDerivs | reverseDerivs | deltaM | nTTms | fourConvOld | fourConvNew
  | noAzimuthal | outputAtLevels | outputAtTaus | partSolClassical | partSolGreens
  | phaseScalar | phaseMatrixGc | phaseMatrixLc | psa
  | quadNormGausLeg | quadDoubGausLeg | quadLobatto
  | saveLegPolys | savePhaseMats | saveLocalRT | saveLayerRTS | saveTotalRTS
  | sfi | sourceSolar | sourceThermal | stackReuseAdding | topDownAdding
  | bottomUpAdding | upwellingOutput | downwellingOutput | vector
  deriving DecidableEq, Repr

/-- The 11 solvers. -/
inductive Solver
  | doubAdd | eigAdd | eigBvp | fourStream | memBvp | padeAdd | single
  | sixStream | sos | twoOs | twoStream
  deriving DecidableEq, Repr

/-- An option set: which options are on. -/
abbrev OptSet := Opt → Prop

/-- Exactly one member of `l` is on. -/
def ExactlyOne (S : OptSet) (l : List Opt) : Prop :=
  ∃ x ∈ l, S x ∧ ∀ y ∈ l, S y → y = x

/-- The consistency rules for option sets. -/
structure Consistent (S : OptSet) : Prop where
  conv : ExactlyOne S [.fourConvOld, .fourConvNew]
  out : ExactlyOne S [.outputAtLevels, .outputAtTaus]
  part : ExactlyOne S [.partSolClassical, .partSolGreens]
  phase : ExactlyOne S [.phaseScalar, .phaseMatrixGc, .phaseMatrixLc]
  quad : ExactlyOne S [.quadNormGausLeg, .quadDoubGausLeg, .quadLobatto]
  tms : ¬ (S .nTTms ∧ S .noAzimuthal)
  stackSave : ¬ (S .stackReuseAdding ∧ S .saveLayerRTS)
  stackDerivs : S .stackReuseAdding → S .calcDerivs
  stackTop : ¬ (S .stackReuseAdding ∧ S .topDownAdding)
  topBottom : ¬ (S .topDownAdding ∧ S .bottomUpAdding)
  dir : S .upwellingOutput ∨ S .downwellingOutput
  vec : S .vector ↔ (S .phaseMatrixGc ∨ S .phaseMatrixLc)

/-- Every size is in its range. -/
structure SizesInRange (c : Counts) : Prop where
  coef : 0 ≤ c.maxCoef
  quad : 0 < c.nQuad
  stokes : 1 ≤ c.nStokes ∧ c.nStokes ≤ 4
  derivs : 0 ≤ c.nDerivs
  layers : 0 < c.nLayers
  theta0s : 0 < c.nTheta0s
  kernels : 0 ≤ c.nKernels
  kernelQuad : 0 < c.nKernels → 0 < c.nKernelQuad
  outLevels : 0 < c.nOutLevels
  outThetas : 0 ≤ c.nOutThetas

/-- Sizes consistent with the options. -/
structure SizesFit (c : Counts) (S : OptSet) : Prop where
  derivs : S .calcDerivs ↔ 0 < c.nDerivs
  deltaM : S .deltaM → 2 * c.nQuad + 1 ≤ c.maxCoef
  sfi : S .sfi → 0 < c.nOutThetas
  topDown : S .topDownAdding → c.nOutLevels = 1
  bottomUp : S .bottomUpAdding → c.nOutLevels = 1
  vector : 1 < c.nStokes → S .vector

/-- The option set after the documented defaults are filled in. -/
def withDefaults (S : OptSet) (c : Counts) : OptSet := fun o =>
  match o with
  | .vector => S .vector ∨ 1 < c.nStokes
  | .deltaM => S .deltaM ∨ S .nTTms
  | .fourConvNew => S .fourConvNew ∨ (¬ S .fourConvOld ∧ ¬ S .fourConvNew)
  | .partSolClassical =>
      S .partSolClassical ∨ (¬ S .partSolClassical ∧ ¬ S .partSolGreens)
  | .phaseScalar => S .phaseScalar ∨
      ((¬ S .phaseScalar ∧ ¬ S .phaseMatrixGc ∧ ¬ S .phaseMatrixLc) ∧
        ¬ (S .vector ∨ 1 < c.nStokes))
  | .phaseMatrixGc => S .phaseMatrixGc ∨
      ((¬ S .phaseScalar ∧ ¬ S .phaseMatrixGc ∧ ¬ S .phaseMatrixLc) ∧
        (S .vector ∨ 1 < c.nStokes))
  | .quadDoubGausLeg => S .quadDoubGausLeg ∨
      (¬ S .quadNormGausLeg ∧ ¬ S .quadDoubGausLeg ∧ ¬ S .quadLobatto)
  | .upwellingOutput => S .upwellingOutput ∨
      (¬ S .upwellingOutput ∧ ¬ S .downwellingOutput)
  | .downwellingOutput => S .downwellingOutput ∨
      (¬ S .upwellingOutput ∧ ¬ S .downwellingOutput)
  | o => S o

/-- Whether one solver can work under the given options and sizes: the
solver/option exclusion table. -/
def Supports (s : Solver) (S : OptSet) (c : Counts) : Prop :=
  match s with
  | .doubAdd => c.nOutLevels ≤ 2 ∧ ¬ S .outputAtTaus ∧ ¬ S .quadLobatto ∧ ¬ S .sfi
  | .eigAdd | .padeAdd => c.nTheta0s = 1 ∧ c.nOutLevels ≤ 2 ∧ ¬ S .outputAtTaus ∧
      ¬ S .quadLobatto ∧ ¬ S .sfi
  | .eigBvp => c.nTheta0s = 1 ∧ ¬ S .quadLobatto ∧ ¬ S .stackReuseAdding ∧
      ¬ S .topDownAdding ∧ ¬ S .bottomUpAdding
  | .twoStream => c.nQuad = 1 ∧ c.nTheta0s = 1 ∧ (0 < c.nOutThetas → S .sfi) ∧
      ¬ S .quadLobatto ∧ ¬ S .sourceThermal
  | .fourStream => c.nQuad = 2 ∧ c.nTheta0s = 1 ∧ (0 < c.nOutThetas → S .sfi) ∧
      ¬ S .quadLobatto ∧ ¬ S .sourceThermal
  | .sixStream => c.nQuad = 3 ∧ c.nTheta0s = 1 ∧ (0 < c.nOutThetas → S .sfi) ∧
      ¬ S .quadLobatto ∧ ¬ S .sourceThermal
  | .memBvp => c.nTheta0s = 1 ∧ ¬ S .quadLobatto ∧ ¬ S .sfi ∧ S .sourceSolar ∧
      ¬ S .sourceThermal ∧ ¬ S .stackReuseAdding ∧ ¬ S .topDownAdding ∧
      ¬ S .bottomUpAdding
  | .single => c.nTheta0s = 1 ∧ (S .deltaM → S .nTTms) ∧ ¬ S .noAzimuthal ∧
      ¬ S .quadLobatto ∧ S .sourceSolar ∧ ¬ S .sourceThermal ∧
      ¬ S .stackReuseAdding ∧ ¬ S .topDownAdding ∧ ¬ S .bottomUpAdding
  | .sos => c.nTheta0s = 1 ∧ c.nOutLevels ≤ 2 ∧ ¬ S .outputAtTaus ∧
      ¬ S .quadLobatto ∧ ¬ S .sfi ∧ S .sourceSolar ∧ ¬ S .sourceThermal ∧
      ¬ S .stackReuseAdding ∧ ¬ S .topDownAdding ∧ ¬ S .bottomUpAdding
  | .twoOs => c.nTheta0s = 1 ∧ c.nOutLevels ≤ 2 ∧ ¬ S .nTTms ∧ ¬ S .quadLobatto ∧
      S .sourceSolar ∧ ¬ S .sourceThermal ∧ ¬ S .stackReuseAdding ∧
      ¬ S .topDownAdding ∧ ¬ S .bottomUpAdding

/-- The kinds of surface kernel are numbered `0..10`. -/
def KernelValid (k : Int) : Prop := 0 ≤ k ∧ k < 11

end Xrtm.Spec
