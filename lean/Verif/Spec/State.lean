import Verif.Model.State
import Verif.Props.Options

/-!
# What the input interface promises

An abstract view of an instance as a map from inputs to values: which inputs a
configuration requires (`Required`), which inputs a call provides (`Provides`), which value
an accepted call gives to which cell (`assignF`, `assignI`), and the documented ranges.
Nothing here refers to the traces of `Verif.Model.State`; only the vocabulary of calls
(`Op`, `Get`) and cells (`FLoc`, `ILoc`, `SLoc`) is shared.
-/

namespace Xrtm.Spec

variable {F : Type}

/-- Number of parameters of the BRDF kernels 0..10 (Lambertian, direct and diffuse,
Roujean, Li-sparse, Li-dense, Ross-thin, Ross-thick, Hapke, Rahman, Cox-Munk, user
defined). -/
def kernelParams : List Int := [0, 4, 0, 2, 2, 0, 0, 3, 3, 2, 4]

/-- `p` is the number of a parameter of kernel type `t`. -/
def IsParam (t p : Int) : Prop := ∃ n, kernelParams[t.toNat]? = some n ∧ 0 ≤ t ∧ 0 ≤ p ∧ p < n

def IsLayer (c : Config) (i : Int) : Prop := 0 ≤ i ∧ i < c.nLayers
def IsDeriv (c : Config) (d : Int) : Prop := 0 ≤ d ∧ d < c.nDerivs
def IsKernel (c : Config) (k : Int) : Prop := 0 ≤ k ∧ k < c.nKernels

/-- The inputs a configuration needs before a solution can be computed. -/
def Required (c : Config) (kernels : Int → Int) : SLoc → Prop
  | .doubDTau => solversOf c.solvers .doubAdd
  | .padeParams => solversOf c.solvers .padeAdd
  | .sosParams => solversOf c.solvers .sos
  | .fourierTol => True
  | .lambda => False
  | .planetR => optsOf c.options .psa
  | .levelsZ => optsOf c.options .psa
  | .ulevels => optsOf c.options .outputAtLevels
  | .utaus => optsOf c.options .outputAtTaus
  | .umus => 0 < c.nOutThetas
  | .fIsoTop => True
  | .fIsoBot => True
  | .f0 => optsOf c.options .sourceSolar
  | .mu0 => optsOf c.options .sourceSolar
  | .phi0 => optsOf c.options .sourceSolar
  | .levelsB => optsOf c.options .sourceThermal
  | .surfaceB => optsOf c.options .sourceThermal
  | .coef i => IsLayer c i ∧ ∃ v, solversOf c.solvers v
  | .omega i => IsLayer c i
  | .ltau i => IsLayer c i
  | .ampfac k => IsKernel c k
  | .param k p => IsKernel c k ∧ IsParam (kernels k) p
  | .func k => IsKernel c k ∧ kernels k = 10

/-- The inputs a call provides when it is accepted. -/
def Provides (c : Config) (kernels : Int → Int) : Op F → SLoc → Prop
  | .setDoubDTau _, l => l = .doubDTau
  | .setPadeParams _ _, l => l = .padeParams
  | .setSosParams _ _ _, l => l = .sosParams
  | .setFourierTol _, l => l = .fourierTol
  | .setLambda _, l => l = .lambda
  | .setPlanetR _, l => l = .planetR
  | .setLevelsZ _, l => l = .levelsZ
  | .setOutLevels _, l => l = .ulevels
  | .setOutTaus _, l => l = .utaus
  | .setOutThetas _, l => l = .umus
  | .setFIsoTop _, l => l = .fIsoTop
  | .setFIsoBot _, l => l = .fIsoBot
  | .setF0 _, l => l = .f0
  | .setTheta0 _, l => l = .mu0
  | .setPhi0 _, l => l = .phi0
  | .setLevelsB _, l => l = .levelsB
  | .setSurfaceB _, l => l = .surfaceB
  | .setCoef1 i _ _, l => l = .coef i
  | .setCoefN _ _, l => ∃ i, IsLayer c i ∧ l = .coef i
  | .setOmega1 i _, l => l = .omega i
  | .setOmegaN _, l => ∃ i, IsLayer c i ∧ l = .omega i
  | .setLtau1 i _, l => l = .ltau i
  | .setLtauN _, l => ∃ i, IsLayer c i ∧ l = .ltau i
  | .setAmpfac k _, l => l = .ampfac k
  | .setParam1 k p _, l => l = .param k p
  | .setParamN k _, l => ∃ p, IsParam (kernels k) p ∧ l = .param k p
  | .setKernelFunc k _, l => l = .func k
  | _, _ => False

section
variable [Fp F]

open Classical in
/-- `some y` if the condition holds. -/
noncomputable def given {α : Type} (p : Prop) (y : α) : Option α := if p then some y else none

/-- The value a linearised argument has for layer `i` and derivative `j`, if it covers
that pair: `_11` one pair, `_n1` all layers of one derivative, `_1n` all derivatives of
one layer, `_nn` all. -/
noncomputable def linAt {α : Type} (c : Config) (i j : Int) : LinArg α → Option α
  | .l11 i' j' x => given (i = i' ∧ j = j') x
  | .ln1 j' x => given (IsLayer c i ∧ j = j') (x i)
  | .l1n i' x => given (i = i' ∧ IsDeriv c j) (x j)
  | .lnn x => given (IsLayer c i ∧ IsDeriv c j) (x i j)

/-- An angle in degrees, kept as its cosine. -/
def cosDeg (t : F) : F := Fp.cos (Fp.mul t Fp.d2r)

/-- The cosine table holds the quadrature points first and the user's output angles after
them: entry `nQuad + i` is output angle `i`. -/
def outAngle (c : Config) (i : Int) : Int := i - c.nQuad

/-- The value an accepted call gives to a `double` cell; `none` = the call does not
concern the cell. `cnt i` is the number of expansion coefficients in use in layer `i`
when the call is made. (`mu0`, the adjusted cosine, is not an input; see `setTheta0`.) -/
noncomputable def assignF (c : Config) (kernels : Int → Int) (cnt : Int → Option Int) :
    Op F → FLoc → Option F
  | .setDoubDTau x, .doubDTau => some x
  | .setSosParams _ t _, .sosMaxTau => some t
  | .setSosParams _ _ tol, .sosTol => some tol
  | .setFourierTol x, .fourierTol => some x
  | .setLambda x, .lambda => some x
  | .setPlanetR x, .planetR => some x
  | .setLevelsZ z, .levelsZ i => given (0 ≤ i ∧ i ≤ c.nLayers) (z i)
  | .setOutTaus t, .utaus i => given (0 ≤ i ∧ i < c.nOutLevels) (t i)
  | .setOutThetas t, .qx i =>
      given (0 ≤ outAngle c i ∧ outAngle c i < c.nOutThetas) (cosDeg (t (outAngle c i)))
  | .setFIsoTop x, .fIsoTop => some x
  | .setFIsoTopL1 d' x, .fIsoTopL d => given (d = d') x
  | .setFIsoTopLn x, .fIsoTopL d => given (IsDeriv c d) (x d)
  | .setFIsoBot x, .fIsoBot => some x
  | .setFIsoBotL1 d' x, .fIsoBotL d => given (d = d') x
  | .setFIsoBotLn x, .fIsoBotL d => given (IsDeriv c d) (x d)
  | .setF0 x, .f0 => some x
  | .setTheta0 x, .mu00 => some (cosDeg x)
  | .setPhi0 x, .phi0 => some x
  | .setLevelsB b, .levelsB i => given (0 ≤ i ∧ i ≤ c.nLayers) (b i)
  | .setLevelsBL1 d' b, .levelsBL i d => given (0 ≤ i ∧ i ≤ c.nLayers ∧ d = d') (b i)
  | .setLevelsBLn b, .levelsBL i d => given (0 ≤ i ∧ i ≤ c.nLayers ∧ IsDeriv c d) (b i d)
  | .setSurfaceB x, .surfaceB => some x
  | .setSurfaceBL1 d' x, .surfaceBL d => given (d = d') x
  | .setSurfaceBLn x, .surfaceBL d => given (IsDeriv c d) (x d)
  | .setCoef1 i' n v, .coef i e k =>
      given (i = i' ∧ 0 ≤ e ∧ e < c.nElem ∧ 0 ≤ k ∧ k < if n < 0 then c.nCoef else n) (v e k)
  | .setCoefN n v, .coef i e k =>
      given (IsLayer c i ∧ 0 ≤ e ∧ e < c.nElem ∧ 0 ≤ k ∧
        k < match n with | none => c.nCoef | some n => n i) (v i e k)
  | .setCoefL a, .coefL i d e k =>
      (linAt c i d a).bind fun v =>
        (cnt i).bind fun n => given (0 ≤ e ∧ e < c.nElem ∧ 0 ≤ k ∧ k < n) (v e k)
  | .setOmega1 i' x, .omega i => given (i = i') (adjustDown Fp.one x Fp.omegaEps)
  | .setOmegaN x, .omega i => given (IsLayer c i) (adjustDown Fp.one (x i) Fp.omegaEps)
  | .setOmegaL a, .omegaL i d => linAt c i d a
  | .setLtau1 i' x, .ltau i => given (i = i') x
  | .setLtauN x, .ltau i => given (IsLayer c i) (x i)
  | .setLtauL a, .ltauL i d => linAt c i d a
  | .setAmpfac k' x, .ampfac k => given (k = k') x
  | .setParam1 k' p' x, .param k p => given (k = k' ∧ p = p') x
  | .setParamN k' x, .param k p => given (k = k' ∧ IsParam (kernels k) p) (x p)
  | .setAmpfacL1 k' d' x, .ampfacL k d => given (k = k' ∧ d = d') x
  | .setAmpfacLn k' x, .ampfacL k d => given (k = k' ∧ IsDeriv c d) (x d)
  | .setParamL11 k' d' p' x, .paramL k d p => given (k = k' ∧ d = d' ∧ p = p') x
  | .setParamL1n k' d' x, .paramL k d p => given (k = k' ∧ d = d' ∧ IsParam (kernels k) p) (x p)
  | .setParamLn1 k' p' x, .paramL k d p => given (k = k' ∧ IsDeriv c d ∧ p = p') (x d)
  | .setParamLnn k' x, .paramL k d p =>
      given (k = k' ∧ IsDeriv c d ∧ IsParam (kernels k) p) (x d p)
  | _, _ => none

/-- The value an accepted call gives to an `int` cell. -/
noncomputable def assignI (c : Config) : Op F → ILoc → Option Int
  | .setPadeParams s _, .padeS => some s
  | .setPadeParams _ r, .padeR => some r
  | .setSosParams n _ _, .sosMaxOs => some n
  | .setOutLevels l, .ulevel i => given (0 ≤ i ∧ i < c.nOutLevels) (l i)
  | .setCoef1 i' n _, .nCoefLayer i => given (i = i') (if n < 0 then c.nCoef else n)
  | .setCoefN n _, .nCoefLayer i =>
      given (IsLayer c i) (match n with | none => c.nCoef | some n => n i)
  | .setKernelFunc k' fn, .kernelFunc k => given (k = k') fn
  | _, _ => none

/-- The inputs of an instance as plain maps. -/
structure Inputs (F : Type) where
  f : FLoc → Option F
  i : ILoc → Option Int

/-- The abstract machine: an accepted call overwrites exactly the cells it assigns, any
other call changes nothing. The history is newest first. -/
noncomputable def replay (c : Config) (kernels : Int → Int) (init : Inputs F) :
    List (Op F × Code) → Inputs F
  | [] => init
  | (op, .ok) :: h =>
      let r := replay c kernels init h
      { f := fun l => (assignF c kernels (fun i => r.i (.nCoefLayer i)) op l).or (r.f l)
        i := fun l => (assignI c op l).or (r.i l) }
  | (_, _) :: h => replay c kernels init h

end

/-! ### Getters -/

/-- The input a getter reports, when it is one that has to be set before use. -/
def needs : Get → Option SLoc
  | .doubDTau => some .doubDTau
  | .padeParams => some .padeParams
  | .sosParams => some .sosParams
  | .fourierTol => some .fourierTol
  | .lambda => some .lambda
  | .planetR => some .planetR
  | .levelsZ => some .levelsZ
  | .outLevels => some .ulevels
  | .outTaus => some .utaus
  | .outThetas => some .umus
  | .fIsoTop => some .fIsoTop
  | .fIsoBot => some .fIsoBot
  | .f0 => some .f0
  | .theta0 => some .mu0
  | .phi0 => some .phi0
  | .levelsB => some .levelsB
  | .surfaceB => some .surfaceB
  | .nCoef i => some (.coef i)
  | .coef i _ _ => some (.coef i)
  | .omega i => some (.omega i)
  | .ltau i => some (.ltau i)
  | .ampfac k => some (.ampfac k)
  | .param k p => some (.param k p)
  | _ => none

/-- The consecutive integers `0, 1, .., n-1`. -/
def indices (n : Int) : List Int := (List.range n.toNat).map (↑)

/-- The `int` values a getter reports, in order. -/
def reportsI (c : Config) : Get → List ILoc
  | .padeParams => [.padeS, .padeR]
  | .sosParams => [.sosMaxOs]
  | .outLevels => (indices c.nOutLevels).map .ulevel
  | .nCoef i => [.nCoefLayer i]
  | _ => []

/-- The `double` values a getter reports, in order. -/
def reportsF (c : Config) : Get → List FLoc
  | .doubDTau => [.doubDTau]
  | .padeParams => []
  | .sosParams => [.sosMaxTau, .sosTol]
  | .fourierTol => [.fourierTol]
  | .lambda => [.lambda]
  | .planetR => [.planetR]
  | .levelsZ => (indices (c.nLayers + 1)).map .levelsZ
  | .outLevels => []
  | .outTaus => (indices c.nOutLevels).map .utaus
  | .outThetas => (indices c.nOutThetas).map fun i => .qx (c.nQuad + i)
  | .fIsoTop => [.fIsoTop]
  | .fIsoTopL d => [.fIsoTopL d]
  | .fIsoBot => [.fIsoBot]
  | .fIsoBotL d => [.fIsoBotL d]
  | .f0 => [.f0]
  | .theta0 => [.mu00]
  | .phi0 => [.phi0]
  | .levelsB => (indices (c.nLayers + 1)).map .levelsB
  | .levelsBL d => (indices (c.nLayers + 1)).map fun i => .levelsBL i d
  | .surfaceB => [.surfaceB]
  | .surfaceBL d => [.surfaceBL d]
  | .g _ => []
  | .gL _ _ => []
  | .nCoef _ => []
  | .coef i e k => [.coef i e k]
  | .coefL i d e k => [.coefL i d e k]
  | .omega i => [.omega i]
  | .omegaL i d => [.omegaL i d]
  | .ltau i => [.ltau i]
  | .ltauL i d => [.ltauL i d]
  | .ampfac k => [.ampfac k]
  | .ampfacL k d => [.ampfacL k d]
  | .param k p => [.param k p]
  | .paramL k d p => [.paramL k d p]

/-- Angles are kept as cosines and shown in degrees. -/
def shown [Fp F] : Get → F → F
  | .outThetas, x => Fp.mul (Fp.acos x) Fp.r2d
  | .theta0, x => Fp.mul (Fp.acos x) Fp.r2d
  | _, x => x

/-- The getter makes sense for the configuration and its indices are in range; `cnt` gives
the number of coefficients in use per layer. -/
def Applicable (c : Config) (kernels : Int → Int) (cnt : Int → Option Int) : Get → Prop
  | .doubDTau => solversOf c.solvers .doubAdd
  | .padeParams => solversOf c.solvers .padeAdd
  | .sosParams => solversOf c.solvers .sos
  | .fourierTol => True
  | .lambda => optsOf c.options .sourceThermal
  | .planetR => optsOf c.options .psa
  | .levelsZ => optsOf c.options .psa
  | .outLevels => optsOf c.options .outputAtLevels
  | .outTaus => optsOf c.options .outputAtTaus
  | .outThetas => 0 < c.nOutThetas
  | .fIsoTop => True
  | .fIsoTopL d => IsDeriv c d
  | .fIsoBot => True
  | .fIsoBotL d => IsDeriv c d
  | .f0 => optsOf c.options .sourceSolar
  | .theta0 => optsOf c.options .sourceSolar
  | .phi0 => True
  | .levelsB => optsOf c.options .sourceThermal
  | .levelsBL d => optsOf c.options .sourceThermal ∧ IsDeriv c d
  | .surfaceB => optsOf c.options .sourceThermal
  | .surfaceBL d => optsOf c.options .sourceThermal ∧ IsDeriv c d
  | .g _ => False
  | .gL _ _ => False
  | .nCoef i => (∃ v, solversOf c.solvers v) ∧ IsLayer c i
  | .coef i e k => (∃ v, solversOf c.solvers v) ∧ IsLayer c i ∧ 0 ≤ e ∧ e < c.nElem ∧
      ∃ n, cnt i = some n ∧ 0 ≤ k ∧ k < n
  | .coefL i d e k => (∃ v, solversOf c.solvers v) ∧ IsLayer c i ∧ IsDeriv c d ∧ 0 ≤ e ∧
      e < c.nElem ∧ ∃ n, cnt i = some n ∧ 0 ≤ k ∧ k < n
  | .omega i => IsLayer c i
  | .omegaL i d => IsLayer c i ∧ IsDeriv c d
  | .ltau i => IsLayer c i
  | .ltauL i d => IsLayer c i ∧ IsDeriv c d
  | .ampfac k => IsKernel c k
  | .ampfacL k d => IsKernel c k ∧ IsDeriv c d
  | .param k p => IsKernel c k ∧ IsParam (kernels k) p
  | .paramL k d p => IsKernel c k ∧ IsDeriv c d ∧ IsParam (kernels k) p

/-- The index arguments of the getter that select a layer or kernel array entry are in
range. -/
def IndicesOk (c : Config) (kernels : Int → Int) : Get → Prop
  | .nCoef i => IsLayer c i
  | .coef i _ _ => IsLayer c i
  | .omega i => IsLayer c i
  | .ltau i => IsLayer c i
  | .ampfac k => IsKernel c k
  | .param k p => IsKernel c k ∧ IsParam (kernels k) p
  | _ => True

/-! ### Sizes of a created instance -/

/-- What creation guarantees about the sizes (`created_wf`). -/
structure WF (c : Config) : Prop where
  layers : 0 < c.nLayers
  quad : 0 < c.nQuad
  outLevels : 0 < c.nOutLevels
  thetas : 0 ≤ c.nOutThetas
  quadD : c.nQuadD = c.nQuad + c.nOutThetas
  coef : 0 ≤ c.nCoef
  kernels : 0 ≤ c.nKernels
  derivs : 0 ≤ c.nDerivs
  derivs' : optsOf c.options .calcDerivs ↔ 0 < c.nDerivs
  elems : 0 < c.nElem
  place : optsOf c.options .outputAtTaus ↔ ¬ optsOf c.options .outputAtLevels

/-! ### Documented ranges -/

/-- An angle stored as a cosine: it came from degrees in [0, 90). -/
def Angle [Fp F] (x : F) : Prop :=
  ∃ t, Fp.lt t Fp.zero = false ∧ Fp.le Fp.ninety t = false ∧ x = cosDeg t

/-- The documented range of a `double` input, as a comparison that must not hold (so that
it makes sense for NaN too). A single scattering albedo is the user's value in [0, 1], moved
down where it is closer to 1 than the threshold. -/
def ValidF [Fp F] (c : Config) : FLoc → F → Prop
  | .doubDTau, x => Fp.le x Fp.zero = false
  | .sosMaxTau, x => Fp.le x Fp.zero = false
  | .sosTol, x => Fp.lt x Fp.zero = false
  | .fourierTol, x => Fp.lt x Fp.zero = false
  | .lambda, x => Fp.le x Fp.zero = false
  | .planetR, x => Fp.le x Fp.zero = false
  | .utaus _, x => Fp.lt x Fp.zero = false
  | .qx i, x => c.nQuad ≤ i → Angle x
  | .fIsoTop, x => Fp.lt x Fp.zero = false
  | .fIsoBot, x => Fp.lt x Fp.zero = false
  | .f0, x => Fp.lt x Fp.zero = false
  | .mu00, x => Angle x
  | .levelsB _, x => Fp.lt x Fp.zero = false
  | .surfaceB, x => Fp.lt x Fp.zero = false
  | .omega _, x => ∃ y, Fp.lt y Fp.zero = false ∧ Fp.lt Fp.one y = false ∧
      x = adjustDown Fp.one y Fp.omegaEps
  | .ltau _, x => Fp.le x Fp.zero = false
  | .ampfac _, x => Fp.lt x Fp.zero = false ∧ Fp.lt Fp.one x = false
  | _, _ => True

/-- The documented range of an `int` input. -/
def ValidI (c : Config) : ILoc → Int → Prop
  | .sosMaxOs, n => 0 < n
  | .ulevel _, n => 0 ≤ n ∧ n ≤ c.nLayers
  | .nCoefLayer i, n => IsLayer c i → 0 ≤ n ∧ n ≤ c.nCoef
  | _, _ => True

/-! ### The calls with known partial effects when they fail -/

/-- Calls whose failure can leave traces. -/
def Leaky : Op F → Bool
  | .setOutTaus _ | .setOutThetas _ | .setTheta0 _ | .setCoef1 .. | .setCoefN .. => true
  | _ => false

/-- The cells such a failed call can touch. -/
def LeakF (c : Config) : Op F → FLoc → Prop
  | .setOutTaus _, .utaus i => 0 ≤ i ∧ i < c.nOutLevels
  | .setOutThetas _, .qx i => c.nQuad ≤ i
  | .setOutThetas _, .mu0 => True
  | .setTheta0 _, .mu00 => True
  | .setTheta0 _, .mu0 => True
  | .setCoefN _ _, .coef i _ _ => IsLayer c i
  | _, _ => False

def LeakI (c : Config) : Op F → ILoc → Prop
  | .setOutThetas _, .nFour2 => True
  | .setTheta0 _, .nFour2 => True
  | .setCoef1 i' _ _, .nCoefLayer i => i = i'
  | .setCoef1 i' _ _, .nCoefLayer2 i => i = i'
  | .setCoefN _ _, .nCoefLayer i => IsLayer c i
  | .setCoefN _ _, .nCoefLayer2 i => IsLayer c i
  | _, _ => False

def LeakS (c : Config) : Op F → SLoc → Prop
  | .setOutThetas _, .umus => True
  | .setCoefN _ _, .coef i => IsLayer c i
  | _, _ => False

/-! ### Output optical depths -/

section
variable [Fp F]

/-- Total optical thickness: the sum over the layers, top down. -/
def totalTau (c : Config) (f : FLoc → Option F) : F :=
  (indices c.nLayers).foldl (fun a i => Fp.add a ((f (.ltau i)).getD Fp.zero)) Fp.zero

/-- The output optical depths start inside the atmosphere, increase strictly and stay
inside. Stated as comparisons that must not hold. -/
def TausOk (c : Config) (f : FLoc → Option F) : Prop :=
  ∀ i x, 0 ≤ i → i < c.nOutLevels → f (.utaus i) = some x →
    Fp.lt (totalTau c f) x = false ∧
    (i = 0 → Fp.lt x Fp.zero = false) ∧
    ∀ y, 0 < i → f (.utaus (i - 1)) = some y → Fp.le x y = false

end

/-! ### Histories -/

/-- No call that failed was one of the leaky ones. -/
def Quiet (h : List (Op F × Code)) : Prop := ∀ o ∈ h, o.2 ≠ .ok → Leaky o.1 = false

/-- Some accepted call provided the input. -/
def Provided (c : Config) (kernels : Int → Int) (h : List (Op F × Code)) (l : SLoc) : Prop :=
  ∃ op, (op, Code.ok) ∈ h ∧ Provides c kernels op l

end Xrtm.Spec
