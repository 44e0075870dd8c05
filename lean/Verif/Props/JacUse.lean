import Verif.Spec.JacUse
import Verif.Props.JacKeys

/-!
# What `jacobian` returns for a name that is used more than once (C52)

The derivative of the signal is the sum over all places where the name is used.  The code
returns the summand of one place of the surface and of one place of the volume contribution.
-/

namespace RT1

noncomputable section
open Classical

theorem Use.only_smooth {d : PName → PDef} {key : String} {ρ : String → ℝ} (h : ∀ p, (d p).Smooth key ρ)
    (u : Use) (p : PName) : (u.only d p).Smooth key ρ := by
  unfold Use.only
  split_ifs
  · exact h p
  · trivial

theorem Use.only_self {d : PName → PDef} {key : String} {x : Site} (h : x.vary d key (x.ρ key) = x) (u : Use) :
    x.vary (u.only d) key (x.ρ key) = x := by
  have vT : (d .tau).value (Function.update x.ρ key (x.ρ key)) x.tau = x.tau := congrArg Site.tau h
  have vO : (d .omega).value (Function.update x.ρ key (x.ρ key)) x.omega = x.omega := congrArg Site.omega h
  have vN : (d .NormBRDF).value (Function.update x.ρ key (x.ρ key)) x.NormBRDF = x.NormBRDF :=
    congrArg Site.NormBRDF h
  have vB : (d .bsf).value (Function.update x.ρ key (x.ρ key)) x.bsf = x.bsf := congrArg Site.bsf h
  rw [Function.update_eq_self] at vT vO vN vB
  have e : ∀ (p : PName) (v : ℝ), (d p).value x.ρ v = v → (u.only d p).value x.ρ v = v := by
    intro p v hv
    unfold Use.only
    split_ifs
    · exact hv
    · rfl
  unfold Site.vary
  simp only [Function.update_eq_self, e _ _ vT, e _ _ vO, e _ _ vN, e _ _ vB]

/-- Derivative of the value of the scattering function at a place. -/
def Use.fnDeriv (u : Use) (s : Scatter) (x : Site) (key : String) : ℝ :=
  match u with
  | .par _ => 0
  | .fn => (s.phase.diff key).evalR x.env

theorem Use.value_deriv (u : Use) {s : Scatter} {x : Site} {key : String}
    (ha : key ∉ ["theta_0", "theta_ex", "phi_0", "phi_ex"]) (hs : s.phase.Smooth key x.env) :
    HasDerivAt (u.value s x key) (u.fnDeriv s x key) (x.ρ key) ∧ u.value s x key (x.ρ key) = s.phase.evalR x.env := by
  have hk : x.env key = x.ρ key := x.env_other' ha
  cases u with
  | par p => exact ⟨hasDerivAt_const _ _, rfl⟩
  | fn =>
    constructor
    · have := hs.hasDerivAt
      rw [hk] at this
      exact this
    · show s.phase.evalR (Function.update x.env key (x.ρ key)) = _
      rw [← hk, Function.update_eq_self]

/-- Derivative of the definition of a parameter, if this is the place. -/
def Use.parDeriv (u : Use) (d : PName → PDef) (x : Site) (key : String) (p : PName) : ℝ :=
  if u = .par p then (d p).deriv key x.ρ else 0

theorem Use.only_deriv (u : Use) (d : PName → PDef) (x : Site) (key : String) (p : PName) :
    (u.only d p).deriv key x.ρ = u.parDeriv d x key p := by
  unfold Use.only Use.parDeriv
  split_ifs <;> rfl

/-- The summand of a place in the derivative of the surface contribution. -/
def Use.dS (u : Use) (c : Cfg) (d : PName → PDef) (x : Site) (key : String) : ℝ :=
  x.dSurfTauR (c.SRF.phase.evalR x.env) * u.parDeriv d x key .tau +
    x.dSurfNormR (c.SRF.phase.evalR x.env) * u.parDeriv d x key .NormBRDF +
    x.dSurfBsfR (c.SRF.phase.evalR x.env) * u.parDeriv d x key .bsf + x.surface (u.fnDeriv c.SRF x key)

/-- The summand of a place in the derivative of the volume contribution. -/
def Use.dV (u : Use) (c : Cfg) (d : PName → PDef) (x : Site) (key : String) : ℝ :=
  x.dVolTauTrue (c.V.phase.evalR x.env) * u.parDeriv d x key .tau +
    x.dVolOmegaR (c.V.phase.evalR x.env) * u.parDeriv d x key .omega +
    x.dVolBsfR (c.V.phase.evalR x.env) * u.parDeriv d x key .bsf + x.volume (u.fnDeriv c.V x key)

section
variable {key : String} {c : Cfg} {d : PName → PDef} {x : Site}
  (ha : key ∉ ["theta_0", "theta_ex", "phi_0", "phi_ex"]) (hs : x.SmoothIn c d key)
  (hself : x.vary d key (x.ρ key) = x) (h0 : x.mu0 ≠ 0) (h1 : x.muEx ≠ 0)
include ha hs hself h0 h1

theorem Use.surface_deriv (u : Use) :
    HasDerivAt (u.surface c d x key) (u.dS c d x key) (x.ρ key) := by
  obtain ⟨hf, ef⟩ := u.value_deriv ha hs.SRF
  have h := hasDerivAt_vary h0 h1 (u.only_smooth hs.defs) (u.only_self hself) hf (hasDerivAt_const (x.ρ key) (0:ℝ))
  simp only [u.only_deriv, ef] at h
  have e : (fun t => (x.vary (u.only d) key t).lin (u.value c.SRF x key t) 0) = u.surface c d x key := by
    funext t
    unfold Use.surface Site.lin
    rw [Site.volume_att, mul_zero, add_zero]
  rw [e] at h
  refine h.congr_deriv ?_
  unfold Site.dKey Use.dS Site.dVolTauTrue Site.dVolOmegaR Site.dVolBsfR
  rw [Site.volume_att]
  ring

theorem Use.volume_deriv (u : Use) :
    HasDerivAt (u.volume c d x key) (u.dV c d x key) (x.ρ key) := by
  obtain ⟨hf, ef⟩ := u.value_deriv ha hs.V
  have h := hasDerivAt_vary h0 h1 (u.only_smooth hs.defs) (u.only_self hself) (hasDerivAt_const (x.ρ key) (0:ℝ)) hf
  simp only [u.only_deriv, ef] at h
  have e : (fun t => (x.vary (u.only d) key t).lin 0 (u.value c.V x key t)) = u.volume c d x key := by
    funext t
    unfold Use.volume Site.lin
    rw [Site.surface_att, mul_zero, zero_add]
  rw [e] at h
  refine h.congr_deriv ?_
  unfold Site.dKey Use.dV Site.dSurfTauR Site.dSurfNormR Site.dSurfBsfR
  rw [Site.surface_att]
  ring

end

/-- Factor by which the derivatives in linear sigma0 units are wrong. -/
def Site.scale (x : Site) (c : Cfg) : ℝ := if c.sig0 = true ∧ c.dB = false then x.I0 else 1

/-- **C52** (exact description): `A u` and `B u` are the derivatives of the surface and the volume
contribution if the entry varies at the place `u` only.  The derivative of the signal is the sum over
all places; `jacobian` returns the sum of two of them, the first ones in the order NormBRDF, bsf,
SRF and tau, omega, bsf, V, plus the error of C50 if the name is used for tau, times I0 in linear
sigma0 units (C51).  Partial: the entry is not the derivative in general (`C52_counterexample`). -/
theorem C52_uses_partial {key : String} {c : Cfg} {d : PName → PDef} {x : Site} {r : XR}
    (h : ObservesJac key c d x r) (hb : key ∉ ["omega", "tau", "NormBRDF", "bsf"])
    (ha : key ∉ ["theta_0", "theta_ex", "phi_0", "phi_ex"])
    (hs : x.SmoothIn c d key) (hx : x.Regular c.sig0)
    (hpos : x.Positive c.sig0 c.dB (x.lin (c.SRF.phase.evalR x.env) (c.V.phase.evalR x.env))) :
    ∃ (A B : Use → ℝ) (τ' : ℝ),
      (∀ u, HasDerivAt (u.surface c d x key) (A u) (x.ρ key)) ∧
      (∀ u, HasDerivAt (u.volume c d x key) (B u) (x.ρ key)) ∧
      HasDerivAt (fun t => (d .tau).value (Function.update x.ρ key t) x.tau) τ' (x.ρ key) ∧
      HasXDeriv (fun t => (x.vary d key t).signalX c)
        (XR.fin (((surfaceUses.map A).sum + (volumeUses.map B).sum) *
          x.trueNorm c.sig0 c.dB (x.lin (c.SRF.phase.evalR x.env) (c.V.phase.evalR x.env)))) (x.ρ key) ∧
      r = XR.fin ((A (firstUse d key [.NormBRDF, .bsf]) + B (firstUse d key [.tau, .omega, .bsf]) +
          x.tauError (c.V.phase.evalR x.env) * τ') *
        (x.trueNorm c.sig0 c.dB (x.lin (c.SRF.phase.evalR x.env) (c.V.phase.evalR x.env)) * x.scale c)) := by
  have hb' : ¬ builtin key := by
    unfold builtin
    simpa using hb
  obtain ⟨e1, e2⟩ := jac_key_value h hb' hs hx hpos
  refine ⟨fun u => u.dS c d x key, fun u => u.dV c d x key, (d .tau).deriv key x.ρ,
    fun u => u.surface_deriv ha hs e2 hx.mu0 hx.muEx, fun u => u.volume_deriv ha hs e2 hx.mu0 hx.muEx,
    (hs.defs .tau).hasDerivAt _, ?_, ?_⟩
  · refine (congrArg (fun v => HasXDeriv _ (XR.fin (v * _)) _) ?_).mp (hasXDeriv_key ha hs e2 hx hpos)
    simp [surfaceUses, volumeUses, Use.dS, Use.dV, Use.parDeriv, Use.fnDeriv, Site.dKey, Site.surface_att,
      Site.volume_att]
    ring
  · rw [e1]
    congr 1
    have en : x.codeNorm c.sig0 c.dB (x.lin (c.SRF.phase.evalR x.env) (c.V.phase.evalR x.env)) =
        x.trueNorm c.sig0 c.dB (x.lin (c.SRF.phase.evalR x.env) (c.V.phase.evalR x.env)) * x.scale c := by
      unfold Site.scale
      split_ifs with hc
      · exact codeNorm_scaled _ hc.1 hc.2 (hx.I0 hc.1)
      · rw [mul_one]
        refine codeNorm_eq _ fun a b => absurd ⟨a, b⟩ hc
    rw [en]
    congr 1
    have eT : ∀ p, x.dVolTauR p = x.dVolTauTrue p + x.tauError p := by
      intro p
      unfold Site.dVolTauR Site.dVolTauTrue Site.tauError Site.att Site.mu0 Site.muEx
      ring
    have z0 : x.surface 0 = 0 := by rw [Site.surface_att, mul_zero]
    have z1 : x.volume 0 = 0 := by rw [Site.volume_att, mul_zero]
    have zT : ¬ (d .tau).Uses key → (d .tau).deriv key x.ρ = 0 := (hs.defs .tau).deriv_zero
    unfold Site.codeKey firstUse firstUse firstUse firstUse
    rw [eT]
    by_cases uT : (d .tau).Uses key <;> by_cases uN : (d .NormBRDF).Uses key <;>
      by_cases uB : (d .bsf).Uses key <;> by_cases uO : (d .omega).Uses key <;>
      simp [uT, uN, uB, uO, Use.dS, Use.dV, Use.parDeriv, Use.fnDeriv, z0, z1, zT] <;> ring

/-- tau defined as `x` with an attenuated surface: two places contribute to the derivative, the code
returns one of them (with the error of C50). -/
example : ∃ r, ObservesJac "x" (demoCfg exS exS true false false) (keyDefs .tau (.sym "x"))
      (keySite .tau (.sym "x") 1 0 0 0 1 1 0 1) r ∧
    firstUse (keyDefs .tau (.sym "x")) "x" [.NormBRDF, .bsf] = .fn ∧
    firstUse (keyDefs .tau (.sym "x")) "x" [.tau, .omega, .bsf] = .par .tau ∧
    (keySite .tau (.sym "x") 1 0 0 0 1 1 0 1).Regular false ∧
    (keySite .tau (.sym "x") 1 0 0 0 1 1 0 1).SmoothIn (demoCfg exS exS true false false)
      (keyDefs .tau (.sym "x")) "x" ∧
    ∀ v, (keySite .tau (.sym "x") 1 0 0 0 1 1 0 1).Positive false false v := by
  obtain ⟨r, hr⟩ := key_jac exS exS true false false .tau (.sym "x") 1 0 0 0 1 1 0 1
    exS_names exS_names (by simp [Expr.free]) trivial
  refine ⟨r, hr, ?_, ?_, ⟨?_, ?_, ?_, ?_⟩, ⟨?_, trivial, trivial⟩, fun v h => by cases h⟩
  · simp [firstUse, keyDefs, defaultDefs, PDef.Uses, Expr.free]
  · simp [firstUse, keyDefs, PDef.Uses, Expr.free]
  · simp [keySite, Site.mu0]
  · simp [keySite, Site.muEx]
  · simp [keySite, Site.mu0, Site.muEx]
  · intro h; cases h
  · intro p
    cases p <;> simp [keyDefs, defaultDefs, PDef.Smooth, Expr.Smooth, Expr.free]

end

end RT1
