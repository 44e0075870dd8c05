import Verif.Spec.Site
import Verif.Spec.Calc
import Mathlib.Analysis.Calculus.Deriv.Basic

/-!
# Derivatives of the returned signal

What `jacobian()` is meant to return: derivatives of the sum of surface and volume
contribution, in the selected units, as a function of one parameter.
-/

namespace RT1

noncomputable section
open Classical

/-- `r` is the derivative at `t0` of the numbers `F t`, which are finite near `t0`. -/
def HasXDeriv (F : ℝ → XR) (r : XR) (t0 : ℝ) : Prop :=
  ∃ (g : ℝ → ℝ) (g' : ℝ), (∀ᶠ t in nhds t0, F t = XR.fin (g t)) ∧ HasDerivAt g g' t0 ∧ r = XR.fin g'

/-- `surface + volume` in linear intensity for the values `f`, `p` of BRDF and phase function. -/
def Site.lin (x : Site) (f p : ℝ) : ℝ := x.surface f + x.volume p

/-- `surface + volume` in the selected units. -/
def Site.signal (x : Site) (c : Cfg) (f p : ℝ) : XR := x.inUnits c.sig0 c.dB (x.lin f p)

/-- The expression is defined and differentiable in the symbol `key`: like `Expr.Def`, but
no power between 0 and 1 of zero, and the argument of `sign` is not zero (if it depends on
`key`). -/
def Expr.Smooth (key : String) (ρ : String → ℝ) : Expr → Prop
  | .num _ => True
  | .sym _ => True
  | .add a b => a.Smooth key ρ ∧ b.Smooth key ρ
  | .mul a b => a.Smooth key ρ ∧ b.Smooth key ρ
  | .pow a r => a.Smooth key ρ ∧ (0 < a.evalR ρ ∨ (∃ n : ℕ, r = n + 1) ∨ a.evalR ρ ≠ 0 ∧ ∃ k : ℤ, r = k)
  | .sin a => a.Smooth key ρ
  | .cos a => a.Smooth key ρ
  | .sign a => a.Smooth key ρ ∧ (a.evalR ρ ≠ 0 ∨ key ∉ a.free)
  | .exp a => a.Smooth key ρ

/-- The definition of a parameter is a formula that contains `key`. -/
def PDef.Uses (d : PDef) (key : String) : Prop :=
  match d with
  | .str e => key ∈ e.free
  | _ => False

/-- The definition is differentiable and uses none of the reserved names of the angles. -/
def PDef.Smooth (d : PDef) (key : String) (ρ : String → ℝ) : Prop :=
  match d with
  | .str e => e.Smooth key ρ ∧ ∀ n ∈ e.free, n ∉ ["theta_0", "theta_ex", "phi_0", "phi_ex"]
  | _ => True

/-- `key` is not used for tau, and for at most one of NormBRDF, bsf, SRF and at most one of
omega, bsf, V. -/
structure UsedOnce (c : Cfg) (d : PName → PDef) (key : String) : Prop where
  tau : ¬ (d .tau).Uses key
  omega : (d .omega).Uses key → ¬ (d .bsf).Uses key ∧ key ∉ c.V.phase.free
  NormBRDF : (d .NormBRDF).Uses key → ¬ (d .bsf).Uses key ∧ key ∉ c.SRF.phase.free
  bsf : (d .bsf).Uses key → key ∉ c.V.phase.free ∧ key ∉ c.SRF.phase.free

/-- Definitions and scattering functions are differentiable in `key` at the site. -/
structure Site.SmoothIn (x : Site) (c : Cfg) (d : PName → PDef) (key : String) : Prop where
  defs : ∀ p, (d p).Smooth key x.ρ
  V : c.V.phase.Smooth key x.env
  SRF : c.SRF.phase.Smooth key x.env

/-- The value of a parameter when the entries of `param_dict` have the values `ρ`; parameters
that are not defined by a formula keep their value `v`. -/
def PDef.value (d : PDef) (ρ : String → ℝ) (v : ℝ) : ℝ :=
  match d with
  | .str e => e.evalR ρ
  | _ => v

/-- The site with another value `t` of the entry `key` of `param_dict`. -/
def Site.vary (x : Site) (d : PName → PDef) (key : String) (t : ℝ) : Site :=
  let ρ := Function.update x.ρ key t
  { x with
    ρ := ρ
    tau := (d .tau).value ρ x.tau
    omega := (d .omega).value ρ x.omega
    NormBRDF := (d .NormBRDF).value ρ x.NormBRDF
    bsf := (d .bsf).value ρ x.bsf }

/-- Number that the scattering function returns at a site. -/
def Scatter.valueX (s : Scatter) (x : Site) : XR := s.phase.evalX fun n => XR.fin (x.env n)

/-- `surface + volume` in the selected units if both scattering functions return numbers. -/
def Site.signalX (x : Site) (c : Cfg) : XR :=
  match c.SRF.valueX x, c.V.valueX x with
  | .fin f, .fin p => x.signal c f p
  | _, _ => XR.nan

/-- The factor between the derivative of the linear intensity `v` and the derivative in the
selected units. -/
def Site.trueNorm (x : Site) (sig0 dB : Bool) (v : ℝ) : ℝ :=
  if dB = true then 10 / (Real.log 10 * v) else if sig0 = true then x.signorm else 1

/-- In dB the signal has to be positive to be a number. -/
def Site.Positive (x : Site) (sig0 dB : Bool) (v : ℝ) : Prop :=
  dB = true → 0 < (if sig0 = true then v * x.signorm else v)

/-- In some reachable state `jacobian(keys)` returned a list whose entry for `key` has, at a
valid index, the value `r`; the object has the settings `c` and the parameter definitions
`d`, and the getters report the site `x`. -/
def ObservesJac (key : String) (c : Cfg) (d : PName → PDef) (x : Site) (r : XR) : Prop :=
  ∃ (w : World) (id : ℕ) (keys : List String) (l : List Arr) (w' : World) (i : ℕ) (z : Arr)
    (idx : List ℕ),
    Reachable w ∧ jacobian id keys "list" w = (.ok (.inl l), w') ∧ keys[i]? = some key ∧
    l[i]? = some z ∧ Arr.Valid z.shape idx ∧ z.get idx = r ∧ SiteAt w' id idx x ∧
    ∃ o, w'.objs id = some o ∧ o.cfg = c ∧ o.pdef = d

end

end RT1
