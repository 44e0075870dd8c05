import Verif.Lemmas.JacObs
import Verif.Props.Contrib

/-!
# The derivatives returned by `jacobian()` (C49 - C51)

`HasXDeriv F r t0` says that `r` is the derivative at `t0` of the returned numbers `F t`.
`Site.signalX` is the sum of the documented surface and volume contributions in the selected
units.  Each theorem is about an entry of the list that `jacobian()` returned in a reachable
state; `ρ` allows the entries of `param_dict` to change together with the parameter as long as
the scattering functions keep their values.
-/

namespace RT1

noncomputable section
open Classical

theorem HasXDeriv.unique {F : ℝ → XR} {r r' : XR} {t : ℝ} (h : HasXDeriv F r t)
    (h' : HasXDeriv F r' t) : r = r' := by
  obtain ⟨g, d, hg, hd, rfl⟩ := h
  obtain ⟨g2, d2, hg2, hd2, rfl⟩ := h'
  have he : g =ᶠ[nhds t] g2 := by
    filter_upwards [hg, hg2] with s h1 h2
    rw [h1] at h2
    exact XR.fin.inj h2
  rw [(hd2.congr_of_eventuallyEq he).unique hd]

theorem Site.signalX_eq {x : Site} {c : Cfg} {f p : ℝ} (hf : c.SRF.ValueAt x f)
    (hp : c.V.ValueAt x p) : x.signalX c = x.inUnits c.sig0 c.dB (x.lin f p) := by
  unfold Site.signalX Scatter.valueX
  rw [show c.SRF.phase.evalX _ = XR.fin f from hf, show c.V.phase.evalX _ = XR.fin p from hp]
  rfl

/-- The entry is the derivative of the linear signal times the factor of the code. -/
theorem jac_value {key : String} {c : Cfg} {d : PName → PDef} {x : Site} {r : XR}
    (h : ObservesJac key c d x r) {f p : ℝ} (hf : c.SRF.ValueAt x f) (hp : c.V.ValueAt x p)
    (hx : x.Regular c.sig0) (hpos : x.Positive c.sig0 c.dB (x.lin f p)) :
    (key = "omega" → r = XR.fin (x.dVolOmegaR p * x.codeNorm c.sig0 c.dB (x.lin f p))) ∧
    (key = "tau" → r = XR.fin ((x.dSurfTauR f + x.dVolTauR p) *
      x.codeNorm c.sig0 c.dB (x.lin f p))) ∧
    (key = "NormBRDF" → r = XR.fin (x.dSurfNormR f * x.codeNorm c.sig0 c.dB (x.lin f p))) ∧
    (key = "bsf" → r = XR.fin ((x.dSurfBsfR f + x.dVolBsfR p) *
      x.codeNorm c.sig0 c.dB (x.lin f p))) := by
  obtain ⟨b, o, idx, hs, hc, -, hr⟩ := h.elim
  have h1 := hr f p hf hp
  obtain ⟨e1, e2, e3, e4, e5, e6⟩ := hs.x_entries hx.mu0 hx.muEx hx.sum f p
  have hn := hs.x_norm hx.mu0 hx.muEx hx.sum c.sig0 c.dB f p fun hd => hpos.ne hd
  have hcs : o.sig0 = c.sig0 := by rw [← hc]; rfl
  have hcd : o.dB = c.dB := by rw [← hc]; rfl
  rw [hcs, hcd, hn] at h1
  refine ⟨?_, ?_, ?_, ?_⟩ <;> rintro rfl <;> rw [h1] <;>
    simp [XSite.entry, e1, e2, e3, e4, e5, e6, XR.fin_add, XR.fin_mul]

/-! ### the derivatives of the formulas -/

theorem hasDerivAt_omega (x : Site) (f p : ℝ) (ρ : ℝ → String → ℝ) :
    HasDerivAt (fun t => (x.withOmega t (ρ t)).lin f p) (x.dVolOmegaR p) x.omega := by
  have e : (fun t => (x.withOmega t (ρ t)).lin f p) =
      fun t => t * x.dVolOmegaR p + x.surface f := by
    funext t
    unfold Site.lin
    rw [Site.volume_att]
    simp only [Site.withOmega, Site.surface, Site.dVolOmegaR, Site.att, Site.mu0, Site.muEx]
    ring
  rw [e]
  simpa using ((hasDerivAt_id x.omega).mul_const (x.dVolOmegaR p)).add_const (x.surface f)

theorem hasDerivAt_norm (x : Site) (f p : ℝ) (ρ : ℝ → String → ℝ) :
    HasDerivAt (fun t => (x.withNorm t (ρ t)).lin f p) (x.dSurfNormR f) x.NormBRDF := by
  have e : (fun t => (x.withNorm t (ρ t)).lin f p) =
      fun t => t * x.dSurfNormR f + x.volume p := by
    funext t
    unfold Site.lin
    rw [Site.surface_att]
    simp only [Site.withNorm, Site.volume, Site.dSurfNormR, Site.att, Site.mu0, Site.muEx]
    ring
  rw [e]
  simpa using ((hasDerivAt_id x.NormBRDF).mul_const (x.dSurfNormR f)).add_const (x.volume p)

theorem hasDerivAt_bsf (x : Site) (f p : ℝ) (ρ : ℝ → String → ℝ) :
    HasDerivAt (fun t => (x.withBsf t (ρ t)).lin f p) (x.dSurfBsfR f + x.dVolBsfR p) x.bsf := by
  have e : (fun t => (x.withBsf t (ρ t)).lin f p) =
      fun t => t * (x.dSurfBsfR f + x.dVolBsfR p) + (x.withBsf 0 (ρ t)).lin f p := by
    funext t
    unfold Site.lin
    rw [Site.surface_att, Site.volume_att, Site.surface_att, Site.volume_att]
    simp only [Site.withBsf, Site.dSurfBsfR, Site.dVolBsfR, Site.att, Site.mu0, Site.muEx]
    ring
  have e2 : (fun t => (x.withBsf 0 (ρ t)).lin f p) = fun _ => (x.withBsf 0 x.ρ).lin f p := rfl
  rw [e]
  have e3 : (fun t => t * (x.dSurfBsfR f + x.dVolBsfR p) + (x.withBsf 0 (ρ t)).lin f p) =
    fun t => t * (x.dSurfBsfR f + x.dVolBsfR p) + (x.withBsf 0 x.ρ).lin f p := rfl
  rw [e3]
  simpa using ((hasDerivAt_id x.bsf).mul_const (x.dSurfBsfR f + x.dVolBsfR p)).add_const
    ((x.withBsf 0 x.ρ).lin f p)

theorem hasDerivAt_tau (x : Site) (h0 : x.mu0 ≠ 0) (h1 : x.muEx ≠ 0) (f p : ℝ) (ρ : ℝ → String → ℝ) :
    HasDerivAt (fun t => (x.withTau t (ρ t)).lin f p) (x.dSurfTauR f + x.dVolTauTrue p) x.tau := by
  have hatt : HasDerivAt (fun t => Real.exp (-(t / x.mu0) - t / x.muEx))
      (x.att * (-1 / x.mu0 - 1 / x.muEx)) x.tau := by
    have h2 : HasDerivAt (fun t : ℝ => -(t / x.mu0) - t / x.muEx) (-1 / x.mu0 - 1 / x.muEx) x.tau := by
      have h3 := ((hasDerivAt_id x.tau).div_const x.mu0).neg.sub
        ((hasDerivAt_id x.tau).div_const x.muEx)
      refine HasDerivAt.congr_deriv h3 ?_
      ring
    exact h2.exp
  have e : (fun t => (x.withTau t (ρ t)).lin f p) = fun t =>
      Real.exp (-(t / x.mu0) - t / x.muEx) * (x.NormBRDF * (1 - x.bsf) * x.I0 * x.mu0 * f -
        (1 - x.bsf) * x.I0 * x.omega * (x.mu0 / (x.mu0 + x.muEx)) * p) +
      (x.NormBRDF * x.bsf * x.I0 * x.mu0 * f +
        (1 - x.bsf) * x.I0 * x.omega * (x.mu0 / (x.mu0 + x.muEx)) * p) := by
    funext t
    unfold Site.lin
    rw [Site.surface_att, Site.volume_att]
    simp only [Site.withTau, Site.att, Site.mu0, Site.muEx]
    ring
  rw [e]
  refine HasDerivAt.congr_deriv ((hatt.mul_const _).add_const _) ?_
  unfold Site.dSurfTauR Site.dVolTauTrue
  ring

/-! ### C49 -/

/-- The 'omega' entry is the derivative of the signal with respect to omega.  Partial: in
linear sigma0 units only for `I0 = 1`, see `C51_partial`. -/
theorem C49_omega_partial {c : Cfg} {d : PName → PDef} {x : Site} {r : XR}
    (h : ObservesJac "omega" c d x r) (hx : x.Regular c.sig0) {f p : ℝ} (ρ : ℝ → String → ℝ)
    (hf : c.SRF.ValueAt x f) (hp : c.V.ValueAt x p)
    (hf' : ∀ t, c.SRF.ValueAt (x.withOmega t (ρ t)) f)
    (hp' : ∀ t, c.V.ValueAt (x.withOmega t (ρ t)) p)
    (hpos : x.Positive c.sig0 c.dB (x.lin f p))
    (hI : c.sig0 = true → c.dB = false → x.I0 = 1) :
    HasXDeriv (fun t => (x.withOmega t (ρ t)).signalX c) r x.omega := by
  rw [(jac_value h hf hp hx hpos).1 rfl, codeNorm_eq _ hI]
  simp only [fun t => Site.signalX_eq (hf' t) (hp' t)]
  exact hasXDeriv_units (X := fun t => x.withOmega t (ρ t)) (hasDerivAt_omega x f p ρ)
    (fun _ => rfl) hpos

/-- The 'NormBRDF' entry is the derivative of the signal with respect to NormBRDF.  Partial: in
linear sigma0 units only for `I0 = 1`. -/
theorem C49_NormBRDF_partial {c : Cfg} {d : PName → PDef} {x : Site} {r : XR}
    (h : ObservesJac "NormBRDF" c d x r) (hx : x.Regular c.sig0) {f p : ℝ} (ρ : ℝ → String → ℝ)
    (hf : c.SRF.ValueAt x f) (hp : c.V.ValueAt x p)
    (hf' : ∀ t, c.SRF.ValueAt (x.withNorm t (ρ t)) f)
    (hp' : ∀ t, c.V.ValueAt (x.withNorm t (ρ t)) p)
    (hpos : x.Positive c.sig0 c.dB (x.lin f p))
    (hI : c.sig0 = true → c.dB = false → x.I0 = 1) :
    HasXDeriv (fun t => (x.withNorm t (ρ t)).signalX c) r x.NormBRDF := by
  rw [(jac_value h hf hp hx hpos).2.2.1 rfl, codeNorm_eq _ hI]
  simp only [fun t => Site.signalX_eq (hf' t) (hp' t)]
  exact hasXDeriv_units (X := fun t => x.withNorm t (ρ t)) (hasDerivAt_norm x f p ρ)
    (fun _ => rfl) hpos

/-- The 'bsf' entry is the derivative of the signal with respect to bsf.  Partial: in
linear sigma0 units only for `I0 = 1`. -/
theorem C49_bsf_partial {c : Cfg} {d : PName → PDef} {x : Site} {r : XR}
    (h : ObservesJac "bsf" c d x r) (hx : x.Regular c.sig0) {f p : ℝ} (ρ : ℝ → String → ℝ)
    (hf : c.SRF.ValueAt x f) (hp : c.V.ValueAt x p)
    (hf' : ∀ t, c.SRF.ValueAt (x.withBsf t (ρ t)) f)
    (hp' : ∀ t, c.V.ValueAt (x.withBsf t (ρ t)) p)
    (hpos : x.Positive c.sig0 c.dB (x.lin f p))
    (hI : c.sig0 = true → c.dB = false → x.I0 = 1) :
    HasXDeriv (fun t => (x.withBsf t (ρ t)).signalX c) r x.bsf := by
  rw [(jac_value h hf hp hx hpos).2.2.2 rfl, codeNorm_eq _ hI]
  simp only [fun t => Site.signalX_eq (hf' t) (hp' t)]
  exact hasXDeriv_units (X := fun t => x.withBsf t (ρ t)) (hasDerivAt_bsf x f p ρ)
    (fun _ => rfl) hpos

/-- A BRDF and a phase function that do not depend on parameters. -/
example : ∃ r, ObservesJac "omega" (demoCfg exS exS true true true) defaultDefs
    (demoSite 2 0 0 1 1 1 (1 / 2)) r ∧
    (demoSite 2 0 0 1 1 1 (1 / 2)).Regular true ∧
    (demoSite 2 0 0 1 1 1 (1 / 2)).Positive true true
      ((demoSite 2 0 0 1 1 1 (1 / 2)).lin (1 / Real.pi) (1 / Real.pi)) := by
  obtain ⟨r, hr⟩ := demo_jac exS_plain exS_plain true true true 2 0 0 1 1 1 (1 / 2)
    (key := "omega") (Or.inl rfl)
  have hpi := Real.pi_pos
  refine ⟨r, hr, ⟨?_, ?_, ?_, ?_⟩, ?_⟩
  · simp [demoSite, Site.mu0]
  · simp [demoSite, Site.muEx]
  · simp [demoSite, Site.mu0, Site.muEx]
  · intro _; simp [demoSite]
  · intro _
    have h1 : Real.exp (-1 + -1) < 1 := Real.exp_lt_one_iff.mpr (by norm_num)
    have h2 : Real.exp (-1) * Real.exp (-1) < 1 := by rw [← Real.exp_add]; exact h1
    have h3 := Real.exp_pos (-1 - 1)
    rw [if_pos rfl]
    simp only [demoSite, Site.lin, Site.surface, Site.volume, Site.signorm, Site.mu0, Site.muEx,
      Real.cos_zero, div_one]
    have h4 : 0 < 1 - Real.exp (-1) * Real.exp (-1) := by linarith
    positivity

/-! ### C51 -/

/-- In linear sigma0 units the entries for omega, NormBRDF and bsf are the derivative of the
returned sigma0 times I0 (the factor is missing in the code). -/
theorem C51_partial {c : Cfg} {d : PName → PDef} {x : Site} {r : XR} (hs : c.sig0 = true)
    (hd : c.dB = false) (hx : x.Regular c.sig0) {f p : ℝ} (ρ : ℝ → String → ℝ)
    (hf : c.SRF.ValueAt x f) (hp : c.V.ValueAt x p) :
    (ObservesJac "omega" c d x r → (∀ t, c.SRF.ValueAt (x.withOmega t (ρ t)) f) →
      (∀ t, c.V.ValueAt (x.withOmega t (ρ t)) p) →
      ∃ r', HasXDeriv (fun t => (x.withOmega t (ρ t)).signalX c) r' x.omega ∧
        r = r' * XR.fin x.I0) ∧
    (ObservesJac "NormBRDF" c d x r → (∀ t, c.SRF.ValueAt (x.withNorm t (ρ t)) f) →
      (∀ t, c.V.ValueAt (x.withNorm t (ρ t)) p) →
      ∃ r', HasXDeriv (fun t => (x.withNorm t (ρ t)).signalX c) r' x.NormBRDF ∧
        r = r' * XR.fin x.I0) ∧
    (ObservesJac "bsf" c d x r → (∀ t, c.SRF.ValueAt (x.withBsf t (ρ t)) f) →
      (∀ t, c.V.ValueAt (x.withBsf t (ρ t)) p) →
      ∃ r', HasXDeriv (fun t => (x.withBsf t (ρ t)).signalX c) r' x.bsf ∧
        r = r' * XR.fin x.I0) := by
  have hpos : x.Positive c.sig0 c.dB (x.lin f p) := fun h => by rw [hd] at h; cases h
  refine ⟨fun h hf' hp' => ?_, fun h hf' hp' => ?_, fun h hf' hp' => ?_⟩
  · simp only [fun t => Site.signalX_eq (hf' t) (hp' t)]
    refine ⟨_, hasXDeriv_units (X := fun t => x.withOmega t (ρ t)) (hasDerivAt_omega x f p ρ)
      (fun _ => rfl) hpos, ?_⟩
    rw [(jac_value h hf hp hx hpos).1 rfl, codeNorm_scaled _ hs hd (hx.I0 hs), XR.fin_mul, mul_assoc]
    rfl
  · simp only [fun t => Site.signalX_eq (hf' t) (hp' t)]
    refine ⟨_, hasXDeriv_units (X := fun t => x.withNorm t (ρ t)) (hasDerivAt_norm x f p ρ)
      (fun _ => rfl) hpos, ?_⟩
    rw [(jac_value h hf hp hx hpos).2.2.1 rfl, codeNorm_scaled _ hs hd (hx.I0 hs), XR.fin_mul, mul_assoc]
    rfl
  · simp only [fun t => Site.signalX_eq (hf' t) (hp' t)]
    refine ⟨_, hasXDeriv_units (X := fun t => x.withBsf t (ρ t)) (hasDerivAt_bsf x f p ρ)
      (fun _ => rfl) hpos, ?_⟩
    rw [(jac_value h hf hp hx hpos).2.2.2 rfl, codeNorm_scaled _ hs hd (hx.I0 hs), XR.fin_mul, mul_assoc]
    rfl

theorem omega_entry_pos (I : ℝ) (hI : 0 < I) (τ ω N : ℝ) (hτ : 0 < τ) :
    0 < (demoSite I 0 0 τ ω N 0).dVolOmegaR (1 / Real.pi) := by
  have h1 : Real.exp (-τ - τ) < 1 := Real.exp_lt_one_iff.mpr (by linarith)
  have hpi := Real.pi_pos
  simp only [demoSite, Site.dVolOmegaR, Site.att, Site.mu0, Site.muEx, Real.cos_zero, div_one]
  have h4 : 0 < 1 - Real.exp (-τ - τ) := by linarith
  have h5 : (0:ℝ) < 1 - 0 := by norm_num
  positivity

/-- With `I0 = 2` the entries in linear sigma0 units are not the derivatives. -/
theorem C51_counterexample : ∃ (c : Cfg) (x : Site) (r : XR), c.sig0 = true ∧ c.dB = false ∧
    x.Regular c.sig0 ∧ ObservesJac "omega" c defaultDefs x r ∧
    ¬ HasXDeriv (fun t => (x.withOmega t x.ρ).signalX c) r x.omega := by
  obtain ⟨r, hr⟩ := demo_jac exS_plain exS_plain true true false 2 0 0 1 1 1 0
    (key := "omega") (Or.inl rfl)
  have hx : (demoSite 2 0 0 1 1 1 0).Regular true := by
    refine ⟨?_, ?_, ?_, ?_⟩
    · simp [demoSite, Site.mu0]
    · simp [demoSite, Site.muEx]
    · simp [demoSite, Site.mu0, Site.muEx]
    · intro _; simp [demoSite]
  refine ⟨_, _, r, rfl, rfl, hx, hr, fun hd => ?_⟩
  have hv : ∀ y : Site, exS.ValueAt y (1 / Real.pi) := exS_value
  obtain ⟨r', h1, h2⟩ := (C51_partial (c := demoCfg exS exS true true false) rfl rfl hx
    (fun _ => (demoSite 2 0 0 1 1 1 0).ρ) (hv _) (hv _) (d := defaultDefs) (r := r)).1 hr
    (fun _ => hv _) (fun _ => hv _)
  have h3 := hd.unique h1
  have h4 := (jac_value hr (hv _) (hv _) hx (fun h => by cases h)).1 rfl
  rw [h4] at h3
  rw [← h3, h4, XR.fin_mul] at h2
  have h5 := XR.fin.inj h2
  have h6 := omega_entry_pos 2 (by norm_num) 1 1 1 one_pos
  have hpi := Real.pi_pos
  simp only [Site.codeNorm, demoCfg] at h5
  simp only [and_self, if_true] at h5
  have h7 : (demoSite 2 0 0 1 1 1 0).I0 = 2 := rfl
  have h8 : (demoSite 2 0 0 1 1 1 0).mu0 = 1 := by simp [demoSite, Site.mu0]
  rw [h7, h8] at h5
  have : 0 < (demoSite 2 0 0 1 1 1 0).dVolOmegaR (1 / Real.pi) * (4 * Real.pi * 1) := by positivity
  linarith

/-! ### C50 -/

/-- What is wrong with the 'tau' entry (linear intensity). -/
def Site.tauError (x : Site) (p : ℝ) : ℝ :=
  (1 - x.bsf) * x.I0 * x.omega * (Real.cos x.t0 / (Real.cos x.t0 + Real.cos x.tex)) *
    (Real.cos x.tex - 1 / Real.cos x.tex) *
    Real.exp (-(x.tau / Real.cos x.t0) - x.tau / Real.cos x.tex) * p

/-- The 'tau' entry is the derivative with respect to tau plus an error (the code uses
`1/μ0 + μex` instead of `1/μ0 + 1/μex`), which vanishes for `cos(t_ex) = 1`.  In linear sigma0
units for `I0 = 1`. -/
theorem C50_error_partial {c : Cfg} {d : PName → PDef} {x : Site} {r : XR}
    (h : ObservesJac "tau" c d x r) (hx : x.Regular c.sig0) {f p : ℝ} (ρ : ℝ → String → ℝ)
    (hf : c.SRF.ValueAt x f) (hp : c.V.ValueAt x p)
    (hf' : ∀ t, c.SRF.ValueAt (x.withTau t (ρ t)) f)
    (hp' : ∀ t, c.V.ValueAt (x.withTau t (ρ t)) p)
    (hpos : x.Positive c.sig0 c.dB (x.lin f p))
    (hI : c.sig0 = true → c.dB = false → x.I0 = 1) :
    ∃ r', HasXDeriv (fun t => (x.withTau t (ρ t)).signalX c) r' x.tau ∧
      r = r' + XR.fin (x.tauError p * x.trueNorm c.sig0 c.dB (x.lin f p)) := by
  simp only [fun t => Site.signalX_eq (hf' t) (hp' t)]
  refine ⟨_, hasXDeriv_units (X := fun t => x.withTau t (ρ t))
    (hasDerivAt_tau x hx.mu0 hx.muEx f p ρ) (fun _ => rfl) hpos, ?_⟩
  rw [(jac_value h hf hp hx hpos).2.1 rfl, codeNorm_eq _ hI, XR.fin_add]
  congr 1
  have e : x.dSurfTauR f + x.dVolTauR p = x.dSurfTauR f + x.dVolTauTrue p + x.tauError p := by
    unfold Site.dVolTauR Site.dVolTauTrue Site.tauError Site.att Site.mu0 Site.muEx
    ring
  rw [e, add_mul]
  rfl

/-- The 'tau' entry is the derivative if the exit direction is the nadir.  Partial: for other
directions it is not, see `C50_counterexample`. -/
theorem C50_partial {c : Cfg} {d : PName → PDef} {x : Site} {r : XR}
    (h : ObservesJac "tau" c d x r) (hx : x.Regular c.sig0) {f p : ℝ} (ρ : ℝ → String → ℝ)
    (hf : c.SRF.ValueAt x f) (hp : c.V.ValueAt x p)
    (hf' : ∀ t, c.SRF.ValueAt (x.withTau t (ρ t)) f)
    (hp' : ∀ t, c.V.ValueAt (x.withTau t (ρ t)) p)
    (hpos : x.Positive c.sig0 c.dB (x.lin f p))
    (hI : c.sig0 = true → c.dB = false → x.I0 = 1) (hex : Real.cos x.tex = 1) :
    HasXDeriv (fun t => (x.withTau t (ρ t)).signalX c) r x.tau := by
  obtain ⟨r', h1, h2⟩ := C50_error_partial h hx ρ hf hp hf' hp' hpos hI
  have h0 : x.tauError p = 0 := by unfold Site.tauError; rw [hex]; ring
  have h3 : r = r' := by
    obtain ⟨g, g', -, -, hr'⟩ := h1
    rw [h2, h0, hr', XR.fin_add]; simp
  rw [h3]; exact h1

/-- The hypotheses of `C50_partial` are met at nadir. -/
example : ∃ r, ObservesJac "tau" (demoCfg exS exS true true false) defaultDefs
    (demoSite 1 0 0 1 1 1 0) r ∧ (demoSite 1 0 0 1 1 1 0).Regular true ∧
    Real.cos (demoSite 1 0 0 1 1 1 0).tex = 1 ∧ (demoSite 1 0 0 1 1 1 0).I0 = 1 := by
  obtain ⟨r, hr⟩ := demo_jac exS_plain exS_plain true true false 1 0 0 1 1 1 0
    (key := "tau") (Or.inr (Or.inl rfl))
  refine ⟨r, hr, ⟨?_, ?_, ?_, ?_⟩, ?_, rfl⟩
  · simp [demoSite, Site.mu0]
  · simp [demoSite, Site.muEx]
  · simp [demoSite, Site.mu0, Site.muEx]
  · intro _; simp [demoSite]
  · simp [demoSite]

/-- At 60 degrees incidence the 'tau' entry is not the derivative. -/
theorem C50_counterexample : ∃ (c : Cfg) (x : Site) (r : XR), c.sig0 = false ∧ c.dB = false ∧
    x.Regular c.sig0 ∧ ObservesJac "tau" c defaultDefs x r ∧
    ¬ HasXDeriv (fun t => (x.withTau t x.ρ).signalX c) r x.tau := by
  obtain ⟨r, hr⟩ := demo_jac exS_plain exS_plain true false false 1 (Real.pi / 3) 0 1 1 1 0
    (key := "tau") (Or.inr (Or.inl rfl))
  have hx : (demoSite 1 (Real.pi / 3) 0 1 1 1 0).Regular false := demo_regular false one_ne_zero _ _ _ _ _
  refine ⟨_, _, r, rfl, rfl, hx, hr, fun hd => ?_⟩
  have hv : ∀ y : Site, exS.ValueAt y (1 / Real.pi) := exS_value
  obtain ⟨r', h1, h2⟩ := C50_error_partial hr hx
    (fun _ => (demoSite 1 (Real.pi / 3) 0 1 1 1 0).ρ) (hv _) (hv _) (fun _ => hv _) (fun _ => hv _)
    (fun h => by cases h) (fun h => by cases h)
  have h3 := hd.unique h1
  rw [h3] at h2
  obtain ⟨g, g', -, -, rfl⟩ := h1
  rw [XR.fin_add] at h2
  have h5 := XR.fin.inj h2
  have h6 : (demoSite 1 (Real.pi / 3) 0 1 1 1 0).tauError (1 / Real.pi) < 0 := by
    have hpi := Real.pi_pos
    have he := Real.exp_pos (-(1 / (1 / 2 : ℝ)) - 1 / (1 / 2))
    simp only [Site.tauError, demoSite, Real.cos_pi_div_three]
    have : (1 - 0) * 1 * 1 * ((1:ℝ) / 2 / (1 / 2 + 1 / 2)) * (1 / 2 - 1 / (1 / 2)) *
      Real.exp (-(1 / (1 / 2)) - 1 / (1 / 2)) * (1 / Real.pi) =
      - (3 / 4 * (Real.exp (-(1 / (1 / 2)) - 1 / (1 / 2)) * (1 / Real.pi))) := by ring
    rw [this]
    have : 0 < Real.exp (-(1 / (1 / 2)) - 1 / (1 / 2)) * (1 / Real.pi) := by positivity
    linarith
  have h7 : (demoSite 1 (Real.pi / 3) 0 1 1 1 0).trueNorm (demoCfg exS exS true false false).sig0
      (demoCfg exS exS true false false).dB ((demoSite 1 (Real.pi / 3) 0 1 1 1 0).lin
        (1 / Real.pi) (1 / Real.pi)) = 1 := by
    simp [Site.trueNorm, demoCfg]
  rw [h7] at h5
  linarith

end

end RT1
