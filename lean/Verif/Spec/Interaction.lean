import Verif.Spec.Fresh
import Verif.Spec.Site
import Mathlib.MeasureTheory.Integral.IntervalIntegral.Basic

/-!
# The documented interaction contribution

docs/theory.rst: the interaction contribution is built from the double integral `F_int` of the
truncated Legendre expansions over the upper hemisphere.
-/

namespace RT1

noncomputable section
open Classical

/-- Value of the truncated Legendre expansion returned by `legendre_expansion` for given numbers
(angles and the values `ρ` of all symbols). -/
def Scatter.expansionAt (o : Scatter) (ρ : String → ℝ) (t0 tex p0 pex : ℝ) : Py ℝ :=
  o.legExpansion (fun e => e.evalR ρ) ⟨Real.cos t0, Real.sin t0⟩ ⟨Real.cos tex, Real.sin tex⟩
    ⟨Real.cos p0, Real.sin p0⟩ ⟨Real.cos pex, Real.sin pex⟩

/-- The value of the expansion (0 if there is none; the theorems only use it if it exists). -/
def Scatter.expVal (o : Scatter) (ρ : String → ℝ) (t0 tex p0 pex : ℝ) : ℝ :=
  match o.expansionAt ρ t0 tex p0 pex with
  | .ok v => v
  | .error _ => 0

/-- The double integral of a function `q` of the intermediate direction with the weight of the
documentation; `θ` is the zenith angle of the intermediate direction. -/
def hemi (μ τ : ℝ) (q : ℝ → ℝ → ℝ) : ℝ :=
  ∫ θ in (0 : ℝ)..(Real.pi / 2), ∫ φ in (0 : ℝ)..(2 * Real.pi),
    Real.cos θ / (μ - Real.cos θ) * (Real.exp (-τ / μ) - Real.exp (-τ / Real.cos θ))
      * q θ φ * Real.sin θ

/-- `F_int(0 -> ex)`: the wave is scattered by the layer from the incidence direction to the
downward direction with zenith angle `π - θ`, then by the surface to the exit direction. -/
def Site.Fint (V S : Scatter) (x : Site) : ℝ :=
  hemi x.mu0 x.tau fun θ φ =>
    V.expVal x.env x.t0 (Real.pi - θ) x.p0 φ * S.expVal x.env θ x.tex φ x.pex

/-- The documented interaction contribution (linear intensity). -/
def Site.interaction (V S : Scatter) (x : Site) : ℝ :=
  x.NormBRDF * (1 - x.bsf) * x.I0 * x.mu0 * x.omega
    * (Real.exp (-x.tau / x.muEx) * x.Fint V S + Real.exp (-x.tau / x.mu0) * x.swap.Fint V S)

/-- `F_int` with the exit azimuth shifted by `δ` in the surface expansion. -/
def Site.FintAz (V S : Scatter) (δ : ℝ) (x : Site) : ℝ :=
  hemi x.mu0 x.tau fun θ φ =>
    V.expVal x.env x.t0 (Real.pi - θ) x.p0 φ * S.expVal x.env θ x.tex φ (x.pex + δ)

/-- The interaction contribution with the exit azimuth shifted by `δ` in the surface expansion
(`δ = 0` is the documented contribution). -/
def Site.interactionAz (V S : Scatter) (δ : ℝ) (x : Site) : ℝ :=
  x.NormBRDF * (1 - x.bsf) * x.I0 * x.mu0 * x.omega
    * (Real.exp (-x.tau / x.muEx) * x.FintAz V S δ + Real.exp (-x.tau / x.mu0) * x.swap.FintAz V S δ)

/-- Calls with valid arguments: no ready-made coefficients are passed to the constructor, fixed
angles are numbers, V and SRF are not replaced, angle arrays are not overwritten in place. -/
def Op.Proper : Op → Prop
  | .new _ _ _ _ _ fnI fneI _ => fnI = none ∧ fneI = none
  | .setMonostatic _ p => p ≠ some .other
  | .setBistatic _ a b c d => a ≠ some .other ∧ b ≠ some .other ∧ c ≠ some .other ∧ d ≠ some .other
  | .setV _ _ => False
  | .setSRF _ _ => False
  | .overwriteArg _ _ _ => False
  | _ => True

/-- A state some history of proper calls leads to. -/
def ReachableP (w : World) : Prop := ∃ b ops, (∀ op ∈ ops, Op.Proper op) ∧ w = run (initWorld b) ops

/-- The number of axes of the inputs fit: incidence and exit zenith angle have `r ≥ 1` axes,
the azimuth angles, the parameters and tau at most `r`; if all expansion coefficients are plain
numbers (then sympy returns numbers instead of arrays), `r = 1`. -/
structure Aligned (b : Backend) (o : Obj) (r : ℕ) : Prop where
  pos : 1 ≤ r
  t0 : ∀ a, o.ang .t0 = some a → a.shape.length = r
  tex : o.mono = false → ∀ a, o.ang .tex = some a → a.shape.length = r
  p0 : ∀ a, o.ang .p0 = some a → a.shape.length ≤ r
  pex : o.mono = false → ∀ a, o.ang .pex = some a → a.shape.length ≤ r
  params : ∀ p ∈ o.params, p.2.shape.length ≤ r
  tau : ∀ a, Fresh.par b o .tau = .ok a → a.shape.length ≤ r
  const : r = 1 ∨ b = .symengine ∨ ∃ fs, fnCoefs o.V o.SRF o.geom = .ok fs ∧ ∃ p ∈ fs, ¬ isConstFn p

/-- How the angles of an object are specified: the mode and the angles fixed by the call that
selected the mode. -/
structure Mode where
  mono : Bool
  fixed : List AngN

/-- The mode of an object. -/
def Obj.mode (o : Obj) : Mode := ⟨o.mono, o.fixed⟩

/-- Some successful call of `interaction` after proper calls returned, at a valid index, the
value `r`; the object has the settings `c`, the mode `md`, the getters report the site `x`, the
numbers of axes of the inputs fit. -/
def ObservesP (c : Cfg) (md : Mode) (x : Site) (r : XR) : Prop :=
  ∃ w id kw arr w' idx, ReachableP w ∧ interaction id kw w = (.ok arr, w') ∧
    Arr.Valid arr.shape idx ∧ arr.get idx = r ∧ SiteAt w' id idx x ∧
    ∃ o, w'.objs id = some o ∧ o.cfg = c ∧ o.mode = md ∧ ∃ k, Aligned w'.backend o k

/-- Like `Observes`, with the mode of the object. -/
def ObservesM (call : ℕ → Dict → M Arr) (c : Cfg) (md : Mode) (x : Site) (r : XR) : Prop :=
  ∃ w id kw arr w' idx, ReachableK w ∧ call id kw w = (.ok arr, w') ∧ Arr.Valid arr.shape idx ∧
    arr.get idx = r ∧ SiteAt w' id idx x ∧ ∃ o, w'.objs id = some o ∧ o.cfg = c ∧ o.mode = md

/-- Some successful call of `calc` after proper calls returned the array `arr`: row `k` of `arr`
is at `idx ++ [k]`; the object has the settings `c` and the mode `md`, the getters report the
site `site idx` at every index `idx` of a row, the numbers of axes of the inputs fit. -/
def CalcP (c : Cfg) (md : Mode) (arr : Arr) (S : List ℕ) (site : List ℕ → Site) : Prop :=
  ∃ w id kw w', ReachableP w ∧ calcOp id kw w = (.ok arr, w') ∧ (∃ n, arr.shape = S ++ [n]) ∧
    (∀ idx, Arr.Valid S idx → SiteAt w' id idx (site idx)) ∧
    ∃ o, w'.objs id = some o ∧ o.cfg = c ∧ o.mode = md ∧ ∃ k, Aligned w'.backend o k

/-- Row `k` of the array returned by some successful call of `calc` after proper calls has the
value `r` at a site `x`; the object has the settings `c` and the mode `md`, the numbers of axes of
the inputs fit. -/
def ObservesRowP (k : ℕ) (c : Cfg) (md : Mode) (x : Site) (r : XR) : Prop :=
  ∃ w id kw arr w' idx, ReachableP w ∧ calcOp id kw w = (.ok arr, w') ∧
    Arr.Valid arr.shape (idx ++ [k]) ∧ arr.get (idx ++ [k]) = r ∧ SiteAt w' id idx x ∧
    ∃ o, w'.objs id = some o ∧ o.cfg = c ∧ o.mode = md ∧ ∃ k, Aligned w'.backend o k

/-- Directions strictly between nadir and horizon, a canopy. -/
structure Site.Oblique (x : Site) : Prop where
  mu0 : 0 < x.mu0
  mu0' : x.mu0 < 1
  muEx : 0 < x.muEx
  muEx' : x.muEx < 1
  tau : 0 < x.tau

end

end RT1
