import Verif.Lemmas.JacKeyL
import Verif.Props.Jacobian
import Verif.Lemmas.DemoKey

/-!
# Derivatives with respect to parameters that are used in definitions (C52)

The code adds the derivative of one definition to the surface term and the derivative of one
definition to the volume term: the first one in which the name occurs.  This is the derivative
of the signal if the name is not used for tau and only once in each term.
-/

namespace RT1

noncomputable section
open Classical

/-- What the code returns for the name `key`, in linear units. -/
def Site.codeKey (x : Site) (d : PName → PDef) (key : String) (f f' p p' τ' ω' N' β' : ℝ) : ℝ :=
  (if (d .NormBRDF).Uses key then x.dSurfNormR f * N'
    else if (d .bsf).Uses key then x.dSurfBsfR f * β' else x.surface f') +
  (if (d .tau).Uses key then x.dVolTauR p * τ'
    else if (d .omega).Uses key then x.dVolOmegaR p * ω'
    else if (d .bsf).Uses key then x.dVolBsfR p * β' else x.volume p')

theorem jac_key_value {key : String} {c : Cfg} {d : PName → PDef} {x : Site} {r : XR}
    (h : ObservesJac key c d x r) (hb : ¬ builtin key) (hs : x.SmoothIn c d key)
    (hx : x.Regular c.sig0)
    (hpos : x.Positive c.sig0 c.dB (x.lin (c.SRF.phase.evalR x.env) (c.V.phase.evalR x.env))) :
    r = XR.fin (x.codeKey d key (c.SRF.phase.evalR x.env) ((c.SRF.phase.diff key).evalR x.env)
      (c.V.phase.evalR x.env) ((c.V.phase.diff key).evalR x.env) ((d .tau).deriv key x.ρ)
      ((d .omega).deriv key x.ρ) ((d .NormBRDF).deriv key x.ρ) ((d .bsf).deriv key x.ρ) *
      x.codeNorm c.sig0 c.dB (x.lin (c.SRF.phase.evalR x.env) (c.V.phase.evalR x.env))) ∧
    x.vary d key (x.ρ key) = x := by
  obtain ⟨b, o, idx, hf, hc, hd, hr⟩ := h.elim
  have hSv : c.SRF.ValueAt x (c.SRF.phase.evalR x.env) := Expr.evalX_of_def hs.SRF.def
  have hVv : c.V.ValueAt x (c.V.phase.evalR x.env) := Expr.evalX_of_def hs.V.def
  have h1 := hr _ _ hSv hVv
  obtain ⟨e1, e2, e3, e4, e5, e6⟩ := hf.x_entries hx.mu0 hx.muEx hx.sum
    (c.SRF.phase.evalR x.env) (c.V.phase.evalR x.env)
  have hn := hf.x_norm hx.mu0 hx.muEx hx.sum c.sig0 c.dB (c.SRF.phase.evalR x.env)
    (c.V.phase.evalR x.env) fun hd => hpos.ne hd
  have hcs : o.sig0 = c.sig0 := by rw [← hc]; rfl
  have hcd : o.dB = c.dB := by rw [← hc]; rfl
  have hcS : o.SRF = c.SRF := by rw [← hc]; rfl
  have hcV : o.V = c.V := by rw [← hc]; rfl
  rw [hcs, hcd, hn] at h1
  subst hd
  refine ⟨?_, hf.vary_self hs.defs⟩
  rw [h1, ← XR.fin_mul]
  congr 1
  unfold builtin at hb
  simp only [not_or] at hb
  unfold XSite.entry
  rw [if_neg hb.1, if_neg hb.2.1, if_neg hb.2.2.1, if_neg hb.2.2.2]
  unfold Site.codeKey
  rw [← XR.fin_add]
  congr 1
  · unfold XSite.dSurfKey
    simp only [symbs_uses]
    split_ifs with u1 u2
    · rw [e5, ddef_eq (hs.defs _) u1, XR.fin_mul]
    · rw [e6, ddef_eq (hs.defs _) u2, XR.fin_mul]
    · rw [hcS, Expr.evalX_of_def hs.SRF.diff_def, hf.x_surface hx.mu0 hx.muEx]
  · unfold XSite.dVolKey
    simp only [symbs_uses]
    split_ifs with u1 u2 u3
    · rw [e1, ddef_eq (hs.defs _) u1, XR.fin_mul]
    · rw [e3, ddef_eq (hs.defs _) u2, XR.fin_mul]
    · rw [e4, ddef_eq (hs.defs _) u3, XR.fin_mul]
    · rw [hcV, Expr.evalX_of_def hs.V.diff_def, hf.x_volume hx.mu0 hx.muEx hx.sum]

/-- The signal has a derivative with respect to the entry of `param_dict`. -/
theorem hasXDeriv_key {key : String} {c : Cfg} {d : PName → PDef} {x : Site}
    (ha : key ∉ ["theta_0", "theta_ex", "phi_0", "phi_ex"]) (hs : x.SmoothIn c d key)
    (hself : x.vary d key (x.ρ key) = x) (hx : x.Regular c.sig0)
    (hpos : x.Positive c.sig0 c.dB (x.lin (c.SRF.phase.evalR x.env) (c.V.phase.evalR x.env))) :
    HasXDeriv (fun t => (x.vary d key t).signalX c)
      (XR.fin (x.dKey (c.SRF.phase.evalR x.env) ((c.SRF.phase.diff key).evalR x.env)
        (c.V.phase.evalR x.env) ((c.V.phase.diff key).evalR x.env) ((d .tau).deriv key x.ρ)
        ((d .omega).deriv key x.ρ) ((d .NormBRDF).deriv key x.ρ) ((d .bsf).deriv key x.ρ) *
        x.trueNorm c.sig0 c.dB (x.lin (c.SRF.phase.evalR x.env) (c.V.phase.evalR x.env))))
      (x.ρ key) := by
  have hk : x.env key = x.ρ key := x.env_other' ha
  have hF := hs.SRF.hasDerivAt
  have hP := hs.V.hasDerivAt
  rw [hk] at hF hP
  have hF0 : c.SRF.phase.evalR (Function.update x.env key (x.ρ key)) = c.SRF.phase.evalR x.env := by
    rw [← hk, Function.update_eq_self]
  have hP0 : c.V.phase.evalR (Function.update x.env key (x.ρ key)) = c.V.phase.evalR x.env := by
    rw [← hk, Function.update_eq_self]
  have hL := hasDerivAt_vary hx.mu0 hx.muEx hs.defs hself hF hP
  simp only [hF0, hP0] at hL
  have hpos' : (x.vary d key (x.ρ key)).Positive c.sig0 c.dB
      ((x.vary d key (x.ρ key)).lin (c.SRF.phase.evalR (Function.update x.env key (x.ρ key)))
        (c.V.phase.evalR (Function.update x.env key (x.ρ key)))) := by
    rw [hself, hF0, hP0]; exact hpos
  have hU := hasXDeriv_units (X := fun t => x.vary d key t) hL (fun _ => rfl) hpos'
  simp only [hself, hF0, hP0] at hU
  obtain ⟨g, g', h1, h2, h3⟩ := hU
  refine ⟨g, g', ?_, h2, h3⟩
  have eF := hs.SRF.eventually_def
  have eP := hs.V.eventually_def
  rw [hk] at eF eP
  filter_upwards [h1, eF, eP] with t ht hf hp
  rw [← ht]
  refine Site.signalX_eq ?_ ?_
  · show c.SRF.phase.evalX _ = _
    rw [x.vary_env d ha]
    exact Expr.evalX_of_def hf
  · show c.V.phase.evalX _ = _
    rw [x.vary_env d ha]
    exact Expr.evalX_of_def hp

/-- **C52** (partial): the entry for a name that is used in definitions or scattering functions is
the derivative of the signal with respect to this parameter.  Partial: the name must not be used
for tau and only once in surface and volume term (`C52_counterexample`); in linear sigma0 units
only for `I0 = 1`. -/
theorem C52_partial {key : String} {c : Cfg} {d : PName → PDef} {x : Site} {r : XR}
    (h : ObservesJac key c d x r) (hb : key ∉ ["omega", "tau", "NormBRDF", "bsf"])
    (ha : key ∉ ["theta_0", "theta_ex", "phi_0", "phi_ex"]) (hu : UsedOnce c d key)
    (hs : x.SmoothIn c d key) (hx : x.Regular c.sig0)
    (hpos : x.Positive c.sig0 c.dB (x.lin (c.SRF.phase.evalR x.env) (c.V.phase.evalR x.env)))
    (hI : c.sig0 = true → c.dB = false → x.I0 = 1) :
    HasXDeriv (fun t => (x.vary d key t).signalX c) r (x.ρ key) := by
  have hb' : ¬ builtin key := by
    unfold builtin
    simpa using hb
  obtain ⟨h1, h2⟩ := jac_key_value h hb' hs hx hpos
  have h3 := hasXDeriv_key ha hs h2 hx hpos
  rw [h1, codeNorm_eq _ hI]
  refine (congrArg (fun v => HasXDeriv _ (XR.fin (v * _)) _) ?_).mp h3
  have zS : key ∉ c.SRF.phase.free → (c.SRF.phase.diff key).evalR x.env = 0 := hs.SRF.diff_zero
  have zV : key ∉ c.V.phase.free → (c.V.phase.diff key).evalR x.env = 0 := hs.V.diff_zero
  have zT := (hs.defs .tau).deriv_zero hu.tau
  have zs : ∀ v, v = 0 → x.surface v = 0 := fun v hv => by rw [hv, Site.surface_att, mul_zero]
  have zv : ∀ v, v = 0 → x.volume v = 0 := fun v hv => by rw [hv, Site.volume_att, mul_zero]
  unfold Site.dKey Site.codeKey
  rw [if_neg hu.tau, zT]
  by_cases uB : (d .bsf).Uses key
  · have n1 : ¬ (d .NormBRDF).Uses key := fun hn => (hu.NormBRDF hn).1 uB
    have n2 : ¬ (d .omega).Uses key := fun hn => (hu.omega hn).1 uB
    rw [if_neg n1, if_neg n2, if_pos uB, if_pos uB, (hs.defs _).deriv_zero n1, (hs.defs _).deriv_zero n2,
      zs _ (zS (hu.bsf uB).2), zv _ (zV (hu.bsf uB).1)]
    ring
  · rw [if_neg uB, if_neg uB, (hs.defs _).deriv_zero uB]
    by_cases uN : (d .NormBRDF).Uses key <;> by_cases uO : (d .omega).Uses key
    · rw [if_pos uN, if_pos uO, zs _ (zS (hu.NormBRDF uN).2), zv _ (zV (hu.omega uO).2)]
      ring
    · rw [if_pos uN, if_neg uO, zs _ (zS (hu.NormBRDF uN).2), (hs.defs _).deriv_zero uO]
      ring
    · rw [if_neg uN, if_pos uO, zv _ (zV (hu.omega uO).2), (hs.defs _).deriv_zero uN]
      ring
    · rw [if_neg uN, if_neg uO, (hs.defs _).deriv_zero uN, (hs.defs _).deriv_zero uO]
      ring

theorem exS_names : ∀ n ∈ exS.phase.free, n ∈ ["theta_0", "theta_ex", "phi_0", "phi_ex", "x"] :=
  fun n hn => by cases hn

/-- omega defined as `x**2`, in dB and sigma0. -/
example : ∃ r, ObservesJac "x" (demoCfg exS exS true true true) (keyDefs .omega (.pow (.sym "x") 2))
      (keySite .omega (.pow (.sym "x") 2) 2 0 0 1 0 1 (1 / 2) (1 / 2)) r ∧
    HasXDeriv (fun t => ((keySite .omega (.pow (.sym "x") 2) 2 0 0 1 0 1 (1 / 2) (1 / 2)).vary
      (keyDefs .omega (.pow (.sym "x") 2)) "x" t).signalX (demoCfg exS exS true true true)) r (1 / 2) := by
  obtain ⟨r, hr⟩ := key_jac exS exS true true true .omega (.pow (.sym "x") 2) 2 0 0 1 0 1 (1 / 2) (1 / 2)
    exS_names exS_names (by simp [Expr.free]) ⟨trivial, Or.inr (Or.inl ⟨2, by norm_num⟩)⟩
  refine ⟨r, hr, C52_partial hr (by simp) (by simp) ⟨?_, ?_, ?_, ?_⟩ ⟨?_, trivial, trivial⟩ ⟨?_, ?_, ?_, ?_⟩ ?_
    (by intro _ h; cases h)⟩
  · simp [keyDefs, defaultDefs, PDef.Uses, Expr.free]
  · exact fun _ => ⟨by simp [keyDefs, defaultDefs, PDef.Uses, Expr.free], by intro h; cases h⟩
  · exact fun _ => ⟨by simp [keyDefs, defaultDefs, PDef.Uses, Expr.free], by intro h; cases h⟩
  · exact fun _ => ⟨(by intro h; cases h), (by intro h; cases h)⟩
  · intro p
    cases p
    · simp [keyDefs, defaultDefs, PDef.Smooth, Expr.Smooth, Expr.free]
    · exact ⟨⟨trivial, Or.inr (Or.inl ⟨1, by norm_num⟩)⟩, by simp [Expr.free]⟩
    · simp [keyDefs, defaultDefs, PDef.Smooth, Expr.Smooth, Expr.free]
    · simp [keyDefs, defaultDefs, PDef.Smooth, Expr.Smooth, Expr.free]
  · simp [keySite, Site.mu0]
  · simp [keySite, Site.muEx]
  · simp [keySite, Site.mu0, Site.muEx]
  · intro _; simp [keySite]
  · intro _
    have hpi := Real.pi_pos
    have h1 : Real.exp (-1) < 1 := Real.exp_lt_one_iff.mpr (by norm_num)
    have h3 := Real.exp_pos (-1 - 1)
    have h5 := Real.exp_pos (-1)
    have h4 : 0 < 1 - Real.exp (-1) * Real.exp (-1) := by nlinarith
    rw [show (demoCfg exS exS true true true).sig0 = true from rfl, if_pos rfl]
    show 0 < Site.lin _ (1 / Real.pi) (1 / Real.pi) * _
    simp only [keySite, keyDefs, defaultDefs, PDef.value, keyρ, demoSite, Site.lin, Site.surface, Site.volume, Site.signorm,
      Site.mu0, Site.muEx, Real.cos_zero, div_one, Function.update_self, ne_eq, reduceCtorEq, not_false_eq_true,
      Function.update_of_ne, Expr.evalR, String.reduceEq, if_true, if_false]
    positivity

/-- C52 is false for a name that is used for tau: the derivative of the attenuation of the surface
contribution is missing.  Here tau is defined as `x`, and even the sign of the entry is wrong. -/
theorem C52_counterexample : ∃ (c : Cfg) (d : PName → PDef) (x : Site) (r : XR),
    ObservesJac "x" c d x r ∧ (d .tau) = .str (.sym "x") ∧ x.Regular c.sig0 ∧ c.sig0 = false ∧ c.dB = false ∧
    ¬ HasXDeriv (fun t => (x.vary d "x" t).signalX c) r (x.ρ "x") := by
  obtain ⟨r, hr⟩ := key_jac exS exS true false false .tau (.sym "x") 1 0 0 0 1 1 0 1
    exS_names exS_names (by simp [Expr.free]) trivial
  have hx : (keySite .tau (.sym "x") 1 0 0 0 1 1 0 1).Regular false := by
    refine ⟨?_, ?_, ?_, ?_⟩
    · simp [keySite, Site.mu0]
    · simp [keySite, Site.muEx]
    · simp [keySite, Site.mu0, Site.muEx]
    · intro h; cases h
  have hs : (keySite .tau (.sym "x") 1 0 0 0 1 1 0 1).SmoothIn (demoCfg exS exS true false false)
      (keyDefs .tau (.sym "x")) "x" := by
    refine ⟨?_, trivial, trivial⟩
    intro p
    cases p <;> simp [keyDefs, defaultDefs, PDef.Smooth, Expr.Smooth, Expr.free]
  refine ⟨_, _, _, r, hr, rfl, hx, rfl, rfl, fun hd => ?_⟩
  have hpos : ∀ v, (keySite .tau (.sym "x") 1 0 0 0 1 1 0 1).Positive false false v := fun v h => by cases h
  obtain ⟨h1, h2⟩ := jac_key_value hr (by simp [builtin]) hs hx (hpos _)
  have h3 := hd.unique (hasXDeriv_key (by simp) hs h2 hx (hpos _))
  rw [h1] at h3
  have h4 := XR.fin.inj h3
  have hpi := Real.pi_pos
  have he := Real.exp_pos (-1 - 1)
  simp [demoCfg, Site.codeKey, Site.dKey, Site.codeNorm, Site.trueNorm, keyDefs, defaultDefs, PDef.Uses, PDef.deriv,
    Expr.free, Expr.diff, Expr.evalR, Site.surface, Site.volume, Site.dVolTauR, Site.dVolTauTrue, Site.dSurfTauR,
    Site.dVolOmegaR, Site.dSurfNormR, Site.dSurfBsfR, Site.dVolBsfR, Site.att, keySite, PDef.value, keyρ, demoSite,
    Site.mu0, Site.muEx, exS, Scatter.phase, Scatter.primPhase] at h4
  have : 0 < Real.exp (-1 - 1) * Real.pi⁻¹ := by positivity
  nlinarith

end

end RT1
