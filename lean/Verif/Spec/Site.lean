import Verif.Model.State

/-!
# What a user observes

A `Site` holds the real values of all public quantities of an RT1 object at one index of the
(broadcast) result; `SiteAt` says that the public getters report these values.  `Observes`
says that some successful call in some reachable state returned a value at such an index.
The formulas of the documentation are stated for sites.
-/

namespace RT1

noncomputable section
open Classical

/-- Real values of angles, parameters and incident intensity at one index. -/
structure Site where
  t0 : ℝ
  tex : ℝ
  p0 : ℝ
  pex : ℝ
  I0 : ℝ
  tau : ℝ
  omega : ℝ
  NormBRDF : ℝ
  bsf : ℝ
  /-- values of the entries of `param_dict` -/
  ρ : String → ℝ

namespace Site

/-- Cosine of the incidence angle. -/
def mu0 (x : Site) : ℝ := Real.cos x.t0
/-- Cosine of the exit angle. -/
def muEx (x : Site) : ℝ := Real.cos x.tex

/-- Values of the symbols in phase functions. -/
def env (x : Site) (s : String) : ℝ :=
  if s = "theta_0" then x.t0 else if s = "theta_ex" then x.tex else if s = "phi_0" then x.p0
  else if s = "phi_ex" then x.pex else x.ρ s

end Site

/-- An array is available and has the real value `v` at the (broadcast) index. -/
def HasVal (x : Py Arr) (idx : List ℕ) (v : ℝ) : Prop := ∃ a, x = .ok a ∧ a.at' idx = XR.fin v

/-- The public getters of object `id` in state `w` report the values of `x` at `idx`. -/
structure SiteAt (w : World) (id : ℕ) (idx : List ℕ) (x : Site) : Prop where
  t0 : HasVal (Self.t0 id w).1 idx x.t0
  tex : HasVal (Self.tex id w).1 idx x.tex
  p0 : HasVal (Self.p0 id w).1 idx x.p0
  pex : HasVal (Self.pex id w).1 idx x.pex
  tau : HasVal (Self.evalParam id .tau w).1 idx x.tau
  omega : HasVal (Self.evalParam id .omega w).1 idx x.omega
  NormBRDF : HasVal (Self.evalParam id .NormBRDF w).1 idx x.NormBRDF
  bsf : HasVal (Self.evalParam id .bsf w).1 idx x.bsf
  I0 : ∀ o, w.objs id = some o → o.I0.at' idx = XR.fin x.I0
  params : ∀ o, w.objs id = some o → ∀ k a, o.params.get? k = some a → a.at' idx = XR.fin (x.ρ k)

/-- The scattering function has the finite value `f` at the site. -/
def Scatter.ValueAt (s : Scatter) (x : Site) (f : ℝ) : Prop :=
  s.phase.evalX (fun n => XR.fin (x.env n)) = XR.fin f

/-- Settings of an object. -/
structure Cfg where
  V : Scatter
  SRF : Scatter
  intQ : Bool
  sig0 : Bool
  dB : Bool

/-- The settings of an object. -/
def Obj.cfg (o : Obj) : Cfg := ⟨o.V, o.SRF, o.intQ, o.sig0, o.dB⟩

/-- Calls other than overwriting an angle array in place. -/
def Op.Keeps : Op → Prop
  | .overwriteArg _ _ _ => False
  | _ => True

/-- A state that some history without overwriting an angle array in place leads to. -/
def ReachableK (w : World) : Prop := ∃ b ops, (∀ op ∈ ops, Op.Keeps op) ∧ w = run (initWorld b) ops

/-- Some successful call in some reachable state returned, at a valid index, the value `r`;
the object has the settings `c` and the getters report the site `x`. -/
def Observes (call : ℕ → Dict → M Arr) (c : Cfg) (x : Site) (r : XR) : Prop :=
  ∃ w id kw arr w' idx, ReachableK w ∧ call id kw w = (.ok arr, w') ∧ Arr.Valid arr.shape idx ∧
    arr.get idx = r ∧ SiteAt w' id idx x ∧ ∃ o, w'.objs id = some o ∧ o.cfg = c

/-- Like `Observes`, for the interaction contribution (V and SRF are never re-assigned). -/
def ObservesI (c : Cfg) (x : Site) (r : XR) : Prop :=
  ∃ w id kw arr w' idx, Reachable w ∧ interaction id kw w = (.ok arr, w') ∧ Arr.Valid arr.shape idx ∧
    arr.get idx = r ∧ SiteAt w' id idx x ∧ ∃ o, w'.objs id = some o ∧ o.cfg = c

/-- Like `Observes`, for the row `k` of the array returned by `calc`. -/
def ObservesRow (k : ℕ) (c : Cfg) (x : Site) (r : XR) : Prop :=
  ∃ w id kw arr w' idx, Reachable w ∧ calcOp id kw w = (.ok arr, w') ∧
    Arr.Valid arr.shape (idx ++ [k]) ∧
    arr.get (idx ++ [k]) = r ∧ SiteAt w' id idx x ∧ ∃ o, w'.objs id = some o ∧ o.cfg = c

/-- The documented surface contribution (linear intensity) for the BRDF value `f`. -/
def Site.surface (x : Site) (f : ℝ) : ℝ :=
  x.NormBRDF * ((1 - x.bsf) * Real.exp (-(x.tau / x.mu0) - x.tau / x.muEx) + x.bsf)
    * x.I0 * x.mu0 * f

/-- The documented volume contribution (linear intensity) for the phase function value `p`. -/
def Site.volume (x : Site) (p : ℝ) : ℝ :=
  (1 - x.bsf) * x.I0 * x.omega * (x.mu0 / (x.mu0 + x.muEx))
    * (1 - Real.exp (-(x.tau / x.mu0)) * Real.exp (-(x.tau / x.muEx))) * p

/-- Factor from intensity to sigma0. -/
def Site.signorm (x : Site) : ℝ := 4 * Real.pi * x.mu0 / x.I0

/-- A linear value in decibel: `10 log10 v`, `-inf` for zero, nan for negative values. -/
def dBValue (v : ℝ) : XR :=
  if 0 < v then XR.fin (10 * Real.logb 10 v) else if v = 0 then XR.ninf else XR.nan

/-- What a value in decibel stands for: `10^(d/10)`, zero for `-inf`. -/
def linOf : XR → Option ℝ
  | .fin d => some ((10 : ℝ) ^ (d / 10))
  | .ninf => some 0
  | _ => none

/-- Decibel of any number. -/
def dBOf : XR → XR
  | .fin v => dBValue v
  | .pinf => .pinf
  | _ => .nan

/-- A linear intensity in the selected units. -/
def Site.inUnits (x : Site) (sig0 dB : Bool) (v : ℝ) : XR :=
  let w := if sig0 = true then v * x.signorm else v
  if dB = true then dBValue w else XR.fin w

/-- The site with incidence and exit directions exchanged. -/
def Site.swap (x : Site) : Site := { x with t0 := x.tex, tex := x.t0, p0 := x.pex, pex := x.p0 }

/-- Physical values: `0 ≤ bsf ≤ 1`, non-negative omega, tau, NormBRDF, intensity, directions
in the upper hemisphere. -/
structure Site.Physical (x : Site) : Prop where
  bsf0 : 0 ≤ x.bsf
  bsf1 : x.bsf ≤ 1
  omega : 0 ≤ x.omega
  tau : 0 ≤ x.tau
  NormBRDF : 0 ≤ x.NormBRDF
  I0 : 0 ≤ x.I0
  mu0 : 0 < x.mu0
  muEx : 0 < x.muEx

/-- Evaluation at this site does not divide by zero. -/
structure Site.Regular (x : Site) (sig0 : Bool) : Prop where
  mu0 : x.mu0 ≠ 0
  muEx : x.muEx ≠ 0
  sum : x.mu0 + x.muEx ≠ 0
  I0 : sig0 = true → x.I0 ≠ 0

end

end RT1
