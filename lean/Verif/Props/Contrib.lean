import Verif.Lemmas.RowVals

/-!
# Surface and volume contributions: formulas, units, limits

Statements about what a user observes: `Observes surface c x r` says that in some reachable
state a successful `surface(...)` call returned `r` at an index where the public getters of
the object report the values `x` (angles, parameters, intensity) and the object has the
settings `c`.  `ObservesRow k` is the same for row `k` of `calc`.
-/

namespace RT1

noncomputable section
open Classical

/-! ## Concrete sites for the examples -/

/-- A Rayleigh layer above an isotropic ground. -/
def exV : Scatter := .prim .volRayleigh volA none
def exS : Scatter := .prim .srfIsotropic srfA none

theorem exV_plain : exV.Plain := by
  intro n hn
  simp [exV, Scatter.phase, Scatter.primPhase, Scatter.angleExpr, volA, Expr.free] at hn
  aesop
theorem exS_plain : exS.Plain := by
  intro n hn
  simp [exS, Scatter.phase, Scatter.primPhase, Expr.free] at hn

theorem exS_value (x : Site) : exS.ValueAt x (1 / Real.pi) := rfl

theorem exV_value (x : Site) :
    exV.ValueAt x (Phase.rayleigh (Phase.cosTheta (-1) 1 1 x.t0 x.tex x.p0 x.pex)) := by
  have hd : exV.phase.Def x.env := by
    refine ⟨trivial, trivial, angle_def ⟨?_, ?_, ?_⟩, Or.inr (Or.inl ⟨2, by norm_num⟩)⟩ <;> trivial
  unfold Scatter.ValueAt
  rw [Expr.evalX_of_def hd]
  congr 1
  simp only [exV, Scatter.phase, Scatter.primPhase, Expr.evalR_mul, Expr.evalR_add,
    Expr.evalR_num, Expr.evalR_pow, angle_evalR, Phase.rayleigh]
  have e : ∀ y : ℝ, y ^ (2 : ℝ) = y ^ 2 := fun y => by exact_mod_cast Real.rpow_natCast y 2
  rw [e]
  rfl

theorem demo_cos (I p τ ω N β : ℝ) :
    (demoSite I (Real.pi / 3) p τ ω N β).mu0 = 1 / 2 ∧
    (demoSite I (Real.pi / 3) p τ ω N β).muEx = 1 / 2 := by
  simp [Site.mu0, Site.muEx, demoSite]

theorem demo_regular (s : Bool) {I : ℝ} (hI : I ≠ 0) (p τ ω N β : ℝ) :
    (demoSite I (Real.pi / 3) p τ ω N β).Regular s := by
  obtain ⟨h1, h2⟩ := demo_cos I p τ ω N β
  exact ⟨by rw [h1]; norm_num, by rw [h2]; norm_num, by rw [h1, h2]; norm_num, fun _ => hI⟩

/-! ## C18, C19: the formulas -/

/-- The surface contribution, in the selected units, whatever happened before; the same for
`surface()` and for row 1 of `calc()`. -/
theorem C18_surface {c : Cfg} {x : Site} {r : XR}
    (h : Observes surface c x r ∨ ObservesRow 1 c x r) {f : ℝ}
    (hf : c.SRF.ValueAt x f) (h0 : Real.cos x.t0 ≠ 0) (h1 : Real.cos x.tex ≠ 0)
    (hI : c.sig0 = true → x.I0 ≠ 0) :
    r = x.inUnits c.sig0 c.dB (x.NormBRDF
      * ((1 - x.bsf) * Real.exp (-(x.tau / Real.cos x.t0) - x.tau / Real.cos x.tex) + x.bsf)
      * x.I0 * Real.cos x.t0 * f) := by
  rcases h with h | h
  · exact h.surface_val hf h0 h1 hI
  · exact h.surface_val hf h0 h1 hI

/-- C18 in linear intensity units. -/
theorem C18_surface_linear {c : Cfg} {x : Site} {r : XR}
    (h : Observes surface c x r ∨ ObservesRow 1 c x r) {f : ℝ}
    (hf : c.SRF.ValueAt x f) (h0 : Real.cos x.t0 ≠ 0) (h1 : Real.cos x.tex ≠ 0)
    (hs : c.sig0 = false) (hd : c.dB = false) :
    r = XR.fin (x.NormBRDF
      * ((1 - x.bsf) * Real.exp (-(x.tau / Real.cos x.t0) - x.tau / Real.cos x.tex) + x.bsf)
      * x.I0 * Real.cos x.t0 * f) := by
  rw [C18_surface h hf h0 h1 (by simp [hs])]
  simp [Site.inUnits, hs, hd]

example : ∃ r, Observes surface (demoCfg exV exS true false false)
    (demoSite 1 (Real.pi / 3) 0 (1/2) (1/4) 1 (1/8)) r ∧
    r = XR.fin (1 * ((1 - 1/8) * Real.exp (-((1/2) / (1/2)) - (1/2) / (1/2)) + 1/8) * 1 * (1/2)
      * (1 / Real.pi)) := by
  obtain ⟨r, hr⟩ := demo_surface exV_plain exS_plain true false false 1 (Real.pi / 3) 0 (1/2) (1/4) 1
    (1/8)
  obtain ⟨h1, h2⟩ := demo_cos 1 0 (1/2) (1/4) 1 (1/8)
  refine ⟨r, hr, ?_⟩
  have e0 : Real.cos (demoSite 1 (Real.pi / 3) 0 (1/2) (1/4) 1 (1/8)).t0 = 1 / 2 := h1
  have e1 : Real.cos (demoSite 1 (Real.pi / 3) 0 (1/2) (1/4) 1 (1/8)).tex = 1 / 2 := h2
  rw [C18_surface_linear (Or.inl hr) (exS_value _) (by rw [e0]; norm_num) (by rw [e1]; norm_num)
    rfl rfl, e0, e1]
  rfl

/-- The volume contribution, in the selected units; for `volume()` and, if tau is not
negative, for row 2 of `calc()`. -/
theorem C19_volume {c : Cfg} {x : Site} {r : XR}
    (h : Observes volume c x r ∨ ObservesRow 2 c x r ∧ 0 ≤ x.tau) {p : ℝ}
    (hf : c.V.ValueAt x p) (h0 : Real.cos x.t0 ≠ 0) (h1 : Real.cos x.tex ≠ 0)
    (h2 : Real.cos x.t0 + Real.cos x.tex ≠ 0) (hI : c.sig0 = true → x.I0 ≠ 0) :
    r = x.inUnits c.sig0 c.dB ((1 - x.bsf) * x.I0 * x.omega
      * (Real.cos x.t0 / (Real.cos x.t0 + Real.cos x.tex))
      * (1 - Real.exp (-(x.tau / Real.cos x.t0)) * Real.exp (-(x.tau / Real.cos x.tex))) * p) := by
  rcases h with h | ⟨h, ht⟩
  · exact h.volume_val hf ⟨h0, h1, h2, hI⟩
  · exact h.volume_val hf ⟨h0, h1, h2, hI⟩ ht

/-- C19 in linear intensity units. -/
theorem C19_volume_linear {c : Cfg} {x : Site} {r : XR}
    (h : Observes volume c x r ∨ ObservesRow 2 c x r ∧ 0 ≤ x.tau) {p : ℝ}
    (hf : c.V.ValueAt x p) (h0 : Real.cos x.t0 ≠ 0) (h1 : Real.cos x.tex ≠ 0)
    (h2 : Real.cos x.t0 + Real.cos x.tex ≠ 0) (hs : c.sig0 = false) (hd : c.dB = false) :
    r = XR.fin ((1 - x.bsf) * x.I0 * x.omega
      * (Real.cos x.t0 / (Real.cos x.t0 + Real.cos x.tex))
      * (1 - Real.exp (-(x.tau / Real.cos x.t0)) * Real.exp (-(x.tau / Real.cos x.tex))) * p) := by
  rw [C19_volume h hf h0 h1 h2 (by simp [hs])]
  simp [Site.inUnits, hs, hd]

example : ∃ r, Observes volume (demoCfg exV exS true true true)
    (demoSite 2 (Real.pi / 3) 0 (1/2) (1/4) 1 (1/8)) r ∧ ∃ v, r = (demoSite 2 (Real.pi / 3) 0 (1/2)
      (1/4) 1 (1/8)).inUnits true true v := by
  obtain ⟨r, hr⟩ := demo_volume exV_plain exS_plain true true true 2 (Real.pi / 3) 0 (1/2) (1/4) 1
    (1/8)
  have hreg := demo_regular true (I := 2) (by norm_num) 0 (1/2) (1/4) 1 (1/8)
  exact ⟨r, hr, _, C19_volume (Or.inl hr) (exV_value _) hreg.mu0 hreg.muEx hreg.sum hreg.I0⟩

/-! ## C22, C23: mixtures and linearity -/

/-- Another bare-soil fraction (and parameter values), everything else equal. -/
def Site.withBsf (x : Site) (β : ℝ) (ρ : String → ℝ) : Site := { x with bsf := β, ρ := ρ }
/-- Another omega. -/
def Site.withOmega (x : Site) (ω : ℝ) (ρ : String → ℝ) : Site := { x with omega := ω, ρ := ρ }
/-- Another NormBRDF. -/
def Site.withNorm (x : Site) (n : ℝ) (ρ : String → ℝ) : Site := { x with NormBRDF := n, ρ := ρ }
/-- Another optical depth. -/
def Site.withTau (x : Site) (τ : ℝ) (ρ : String → ℝ) : Site := { x with tau := τ, ρ := ρ }
/-- Another incident intensity. -/
def Site.withI0 (x : Site) (I : ℝ) : Site := { x with I0 := I }

/-- Unit factor of linear units. -/
def Site.unit (x : Site) (sig0 : Bool) : ℝ := if sig0 = true then x.signorm else 1

theorem Site.inUnits_linear (x : Site) (s : Bool) (v : ℝ) :
    x.inUnits s false v = XR.fin (v * x.unit s) := by
  cases s <;> simp [inUnits, unit]

/-- `surface` is affine in bsf: bare soil for 1, attenuated for 0, in between the mixture. -/
theorem C22_surface_affine {c : Cfg} {x : Site} (hd : c.dB = false)
    (h0 : Real.cos x.t0 ≠ 0) (h1 : Real.cos x.tex ≠ 0) (hI : c.sig0 = true → x.I0 ≠ 0) {f : ℝ} :
    ∀ β ρ r, Observes surface c (x.withBsf β ρ) r ∨ ObservesRow 1 c (x.withBsf β ρ) r →
      c.SRF.ValueAt (x.withBsf β ρ) f →
      r = XR.fin (((1 - β) * (x.NormBRDF * Real.exp (-(x.tau / Real.cos x.t0) - x.tau / Real.cos x.tex)
          * x.I0 * Real.cos x.t0 * f)
        + β * (x.NormBRDF * x.I0 * Real.cos x.t0 * f)) * x.unit c.sig0) := by
  intro β ρ r h hf
  rw [C18_surface h hf h0 h1 hI, hd, Site.inUnits_linear]
  congr 1
  simp only [Site.withBsf, Site.unit, Site.signorm, Site.mu0]
  ring

/-- `volume` is affine in bsf: it vanishes for 1. -/
theorem C22_volume_affine {c : Cfg} {x : Site} (hd : c.dB = false) (hx : x.Regular c.sig0) {p : ℝ} :
    ∀ β ρ r, Observes volume c (x.withBsf β ρ) r ∨ ObservesRow 2 c (x.withBsf β ρ) r ∧ 0 ≤ x.tau →
      c.V.ValueAt (x.withBsf β ρ) p →
      r = XR.fin (((1 - β) * (x.I0 * x.omega * (Real.cos x.t0 / (Real.cos x.t0 + Real.cos x.tex))
      * (1 - Real.exp (-(x.tau / Real.cos x.t0)) * Real.exp (-(x.tau / Real.cos x.tex))) * p)
        + β * 0) * x.unit c.sig0) := by
  intro β ρ r h hf
  rw [C19_volume h hf hx.mu0 hx.muEx hx.sum hx.I0, hd, Site.inUnits_linear]
  congr 1
  simp only [Site.withBsf, Site.unit, Site.signorm, Site.mu0]
  ring

/-- Two bare-soil fractions of one observation. -/
example : ∃ x r r', x.Regular true ∧
    Observes surface (demoCfg exV exS true true false) (Site.withBsf x (1/8) x.ρ) r ∧
    Observes volume (demoCfg exV exS true true false) (Site.withBsf x (1/8) x.ρ) r' ∧
    (∃ ρ s s', Observes surface (demoCfg exV exS true true false) (Site.withBsf x (1/3) ρ) s ∧
      Observes volume (demoCfg exV exS true true false) (Site.withBsf x (1/3) ρ) s') ∧
    r' = XR.fin (((1 - 1/8) * (x.I0 * x.omega * (Real.cos x.t0 / (Real.cos x.t0 + Real.cos x.tex))
      * (1 - Real.exp (-(x.tau / Real.cos x.t0)) * Real.exp (-(x.tau / Real.cos x.tex)))
      * Phase.rayleigh (Phase.cosTheta (-1) 1 1 x.t0 x.tex x.p0 x.pex)) + 1/8 * 0) * x.unit true) := by
  obtain ⟨r, hr⟩ := demo_surface exV_plain exS_plain true true false 2 (Real.pi / 3) 0 (1/2) (1/4) 1 (1/8)
  obtain ⟨r', hr'⟩ := demo_volume exV_plain exS_plain true true false 2 (Real.pi / 3) 0 (1/2) (1/4) 1 (1/8)
  obtain ⟨s, hs⟩ := demo_surface exV_plain exS_plain true true false 2 (Real.pi / 3) 0 (1/2) (1/4) 1 (1/3)
  obtain ⟨s', hs'⟩ := demo_volume exV_plain exS_plain true true false 2 (Real.pi / 3) 0 (1/2) (1/4) 1 (1/3)
  have hreg := demo_regular true (I := 2) (by norm_num) 0 (1/2) (1/4) 1 (1/8)
  exact ⟨_, r, r', hreg, hr, hr', ⟨_, s, s', hs, hs'⟩,
    C22_volume_affine (c := demoCfg exV exS true true false) rfl hreg (1/8)
      (demoSite 2 (Real.pi / 3) 0 (1/2) (1/4) 1 (1/8)).ρ r' (Or.inl hr') (exV_value _)⟩

/-- `surface` is proportional to NormBRDF and independent of omega. -/
theorem C23_surface {c : Cfg} {x : Site} (hd : c.dB = false)
    (h0 : Real.cos x.t0 ≠ 0) (h1 : Real.cos x.tex ≠ 0) (hI : c.sig0 = true → x.I0 ≠ 0) {f : ℝ} :
    ∃ k : ℝ, ∀ n ω ρ r, Observes surface c ((x.withNorm n ρ).withOmega ω ρ) r ∨
        ObservesRow 1 c ((x.withNorm n ρ).withOmega ω ρ) r →
      c.SRF.ValueAt ((x.withNorm n ρ).withOmega ω ρ) f → r = XR.fin (n * k) := by
  refine ⟨((1 - x.bsf) * Real.exp (-(x.tau / Real.cos x.t0) - x.tau / Real.cos x.tex) + x.bsf)
      * x.I0 * Real.cos x.t0 * f * x.unit c.sig0, fun n ω ρ r h hf => ?_⟩
  rw [C18_surface h hf h0 h1 hI, hd, Site.inUnits_linear]
  congr 1
  simp only [Site.withNorm, Site.withOmega, Site.unit, Site.signorm, Site.mu0]
  ring

/-- `volume` is proportional to omega and independent of NormBRDF. -/
theorem C23_volume {c : Cfg} {x : Site} (hd : c.dB = false) (hx : x.Regular c.sig0) {p : ℝ} :
    ∃ k : ℝ, ∀ n ω ρ r, Observes volume c ((x.withNorm n ρ).withOmega ω ρ) r ∨
        ObservesRow 2 c ((x.withNorm n ρ).withOmega ω ρ) r ∧ 0 ≤ x.tau →
      c.V.ValueAt ((x.withNorm n ρ).withOmega ω ρ) p → r = XR.fin (ω * k) := by
  refine ⟨(1 - x.bsf) * x.I0 * (Real.cos x.t0 / (Real.cos x.t0 + Real.cos x.tex))
      * (1 - Real.exp (-(x.tau / Real.cos x.t0)) * Real.exp (-(x.tau / Real.cos x.tex))) * p
      * x.unit c.sig0, fun n ω ρ r h hf => ?_⟩
  rw [C19_volume h hf hx.mu0 hx.muEx hx.sum hx.I0, hd, Site.inUnits_linear]
  congr 1
  simp only [Site.withNorm, Site.withOmega, Site.unit, Site.signorm, Site.mu0]
  ring

/-- Two values of omega and NormBRDF for one observation: the surface value is three times as
large, the volume value twice. -/
example : ∃ k l : ℝ, Observes surface (demoCfg exV exS true false false)
      (demoSite 2 (Real.pi / 3) 0 (1/2) (1/4) 1 (1/8)) (XR.fin (1 * k)) ∧
    Observes surface (demoCfg exV exS true false false)
      (demoSite 2 (Real.pi / 3) 0 (1/2) (1/2) 3 (1/8)) (XR.fin (3 * k)) ∧
    Observes volume (demoCfg exV exS true false false)
      (demoSite 2 (Real.pi / 3) 0 (1/2) (1/4) 1 (1/8)) (XR.fin (1/4 * l)) ∧
    Observes volume (demoCfg exV exS true false false)
      (demoSite 2 (Real.pi / 3) 0 (1/2) (1/2) 3 (1/8)) (XR.fin (1/2 * l)) := by
  have hreg := demo_regular false (I := 2) (by norm_num) 0 (1/2) (1/4) 1 (1/8)
  obtain ⟨k, hk⟩ := C23_surface (c := demoCfg exV exS true false false)
    (x := demoSite 2 (Real.pi / 3) 0 (1/2) (1/4) 1 (1/8)) (f := 1 / Real.pi) rfl hreg.mu0 hreg.muEx hreg.I0
  obtain ⟨l, hl⟩ := C23_volume (c := demoCfg exV exS true false false) rfl hreg
    (p := Phase.rayleigh (Phase.cosTheta (-1) 1 1 (Real.pi / 3) (Real.pi / 3) 0 (0 + Real.pi)))
  obtain ⟨r, hr⟩ := demo_surface exV_plain exS_plain true false false 2 (Real.pi / 3) 0 (1/2) (1/4) 1 (1/8)
  obtain ⟨r', hr'⟩ := demo_surface exV_plain exS_plain true false false 2 (Real.pi / 3) 0 (1/2) (1/2) 3 (1/8)
  obtain ⟨v, hv⟩ := demo_volume exV_plain exS_plain true false false 2 (Real.pi / 3) 0 (1/2) (1/4) 1 (1/8)
  obtain ⟨v', hv'⟩ := demo_volume exV_plain exS_plain true false false 2 (Real.pi / 3) 0 (1/2) (1/2) 3 (1/8)
  refine ⟨k, l, ?_, ?_, ?_, ?_⟩
  · exact hk 1 (1/4) (demoSite 2 (Real.pi / 3) 0 (1/2) (1/4) 1 (1/8)).ρ r (Or.inl hr) (exS_value _) ▸ hr
  · exact hk 3 (1/2) (demoSite 2 (Real.pi / 3) 0 (1/2) (1/2) 3 (1/8)).ρ r' (Or.inl hr') (exS_value _) ▸ hr'
  · exact hl 1 (1/4) (demoSite 2 (Real.pi / 3) 0 (1/2) (1/4) 1 (1/8)).ρ v (Or.inl hv) (exV_value _) ▸ hv
  · exact hl 3 (1/2) (demoSite 2 (Real.pi / 3) 0 (1/2) (1/2) 3 (1/8)).ρ v' (Or.inl hv') (exV_value _) ▸ hv'

/-! ## C24, C25: units -/

/-- In linear intensity units both contributions are proportional to the incident intensity. -/
theorem C24_intensity {c : Cfg} {x : Site} (hd : c.dB = false) (hs : c.sig0 = false)
    (hx : x.Regular false) {f p : ℝ} : ∃ k l : ℝ, ∀ I r,
      ((Observes surface c (x.withI0 I) r ∨ ObservesRow 1 c (x.withI0 I) r) →
        c.SRF.ValueAt (x.withI0 I) f → r = XR.fin (I * k)) ∧
      ((Observes volume c (x.withI0 I) r ∨ ObservesRow 2 c (x.withI0 I) r ∧ 0 ≤ x.tau) →
        c.V.ValueAt (x.withI0 I) p → r = XR.fin (I * l)) := by
  refine ⟨x.NormBRDF * ((1 - x.bsf) * Real.exp (-(x.tau / Real.cos x.t0) - x.tau / Real.cos x.tex)
      + x.bsf) * Real.cos x.t0 * f, (1 - x.bsf) * x.omega
      * (Real.cos x.t0 / (Real.cos x.t0 + Real.cos x.tex))
      * (1 - Real.exp (-(x.tau / Real.cos x.t0)) * Real.exp (-(x.tau / Real.cos x.tex))) * p,
      fun I r => ⟨fun h hf => ?_, fun h hf => ?_⟩⟩
  · rw [C18_surface_linear h hf hx.mu0 hx.muEx hs hd]
    congr 1
    simp only [Site.withI0]
    ring
  · rw [C19_volume_linear h hf hx.mu0 hx.muEx hx.sum hs hd]
    congr 1
    simp only [Site.withI0]
    ring

/-- In sigma0 units (linear or dB) both contributions do not depend on the incident
intensity. -/
theorem C24_sigma0 {c : Cfg} {x : Site} (hs : c.sig0 = true) (hx : x.Regular false) {f p : ℝ}
    {I I' : ℝ} (hI : I ≠ 0) (hI' : I' ≠ 0) {r r' : XR} :
    ((Observes surface c (x.withI0 I) r ∨ ObservesRow 1 c (x.withI0 I) r) →
      (Observes surface c (x.withI0 I') r' ∨ ObservesRow 1 c (x.withI0 I') r') →
        c.SRF.ValueAt x f → r = r') ∧
    ((Observes volume c (x.withI0 I) r ∨ ObservesRow 2 c (x.withI0 I) r ∧ 0 ≤ x.tau) →
      (Observes volume c (x.withI0 I') r' ∨ ObservesRow 2 c (x.withI0 I') r' ∧ 0 ≤ x.tau) →
        c.V.ValueAt x p → r = r') := by
  refine ⟨fun h h' hf => ?_, fun h h' hf => ?_⟩
  · rw [C18_surface (f := f) h hf hx.mu0 hx.muEx fun _ => hI,
      C18_surface (f := f) h' hf hx.mu0 hx.muEx fun _ => hI', hs]
    simp only [Site.inUnits, Site.withI0, Site.signorm, Site.mu0, if_true]
    have : ∀ a b d : ℝ, a * I * b * f * (4 * Real.pi * d / I) = a * I' * b * f * (4 * Real.pi * d / I') := by
      intro a b d; field_simp
    rw [this]
  · rw [C19_volume (p := p) h hf hx.mu0 hx.muEx hx.sum fun _ => hI,
      C19_volume (p := p) h' hf hx.mu0 hx.muEx hx.sum fun _ => hI', hs]
    simp only [Site.inUnits, Site.withI0, Site.signorm, Site.mu0, if_true]
    have : ∀ a b d e : ℝ, a * I * b * d * p * (4 * Real.pi * e / I) = a * I' * b * d * p * (4 * Real.pi * e / I') := by
      intro a b d e; field_simp
    have e := this (1 - x.bsf) (x.omega * (Real.cos x.t0 / (Real.cos x.t0 + Real.cos x.tex)))
      (1 - Real.exp (-(x.tau / Real.cos x.t0)) * Real.exp (-(x.tau / Real.cos x.tex))) (Real.cos x.t0)
    simp only [← mul_assoc] at e ⊢
    rw [e]

/-- The same settings with other units. -/
def Cfg.units (c : Cfg) (s d : Bool) : Cfg := { c with sig0 := s, dB := d }

/-- sigma0 is `4 pi cos(t_0)/I0` times the intensity. -/
theorem C24_factor {c : Cfg} {x : Site} (hx : x.Regular true) {f p : ℝ} {r r' : ℝ} :
    ((Observes surface (c.units false false) x (XR.fin r) ∨ ObservesRow 1 (c.units false false) x (XR.fin r)) →
      (Observes surface (c.units true false) x (XR.fin r') ∨ ObservesRow 1 (c.units true false) x (XR.fin r')) →
        c.SRF.ValueAt x f → r' = 4 * Real.pi * Real.cos x.t0 / x.I0 * r) ∧
    ((Observes volume (c.units false false) x (XR.fin r) ∨ ObservesRow 2 (c.units false false) x (XR.fin r) ∧ 0 ≤ x.tau) →
      (Observes volume (c.units true false) x (XR.fin r') ∨ ObservesRow 2 (c.units true false) x (XR.fin r') ∧ 0 ≤ x.tau) →
        c.V.ValueAt x p → r' = 4 * Real.pi * Real.cos x.t0 / x.I0 * r) := by
  refine ⟨fun h h' hf => ?_, fun h h' hf => ?_⟩
  · have e1 := C18_surface (f := f) h hf hx.mu0 hx.muEx fun _ => hx.I0 rfl
    have e2 := C18_surface (f := f) h' hf hx.mu0 hx.muEx fun _ => hx.I0 rfl
    simp only [Cfg.units, Site.inUnits_linear, Site.unit, Bool.false_eq_true, if_false, if_true,
      XR.fin.injEq, Site.signorm, Site.mu0] at e1 e2
    rw [e1, e2]; ring
  · have e1 := C19_volume (p := p) h hf hx.mu0 hx.muEx hx.sum fun _ => hx.I0 rfl
    have e2 := C19_volume (p := p) h' hf hx.mu0 hx.muEx hx.sum fun _ => hx.I0 rfl
    simp only [Cfg.units, Site.inUnits_linear, Site.unit, Bool.false_eq_true, if_false, if_true,
      XR.fin.injEq, Site.signorm, Site.mu0] at e1 e2
    rw [e1, e2]; ring

/-- Two intensities give the same sigma0 in dB; the intensity is turned into sigma0 by the
factor (here pi). -/
example : (∃ r, Observes surface (demoCfg exV exS true true true)
      (demoSite 2 (Real.pi / 3) 0 (1/2) (1/4) 1 (1/8)) r ∧
    Observes surface (demoCfg exV exS true true true)
      (demoSite 5 (Real.pi / 3) 0 (1/2) (1/4) 1 (1/8)) r) ∧
    ∃ v v' : ℝ, Observes volume (demoCfg exV exS true false false)
      (demoSite 2 (Real.pi / 3) 0 (1/2) (1/4) 1 (1/8)) (XR.fin v) ∧
    Observes volume (demoCfg exV exS true true false)
      (demoSite 2 (Real.pi / 3) 0 (1/2) (1/4) 1 (1/8)) (XR.fin v') ∧ v' = Real.pi * v := by
  have hreg := demo_regular false (I := 2) (by norm_num) 0 (1/2) (1/4) 1 (1/8)
  have hreg' := demo_regular true (I := 2) (by norm_num) 0 (1/2) (1/4) 1 (1/8)
  obtain ⟨h1, -⟩ := demo_cos 2 0 (1/2) (1/4) 1 (1/8)
  constructor
  · obtain ⟨r, hr⟩ := demo_surface exV_plain exS_plain true true true 2 (Real.pi / 3) 0 (1/2) (1/4) 1 (1/8)
    obtain ⟨r', hr'⟩ := demo_surface exV_plain exS_plain true true true 5 (Real.pi / 3) 0 (1/2) (1/4) 1 (1/8)
    have := (C24_sigma0 (c := demoCfg exV exS true true true) rfl hreg (p := 0) (I := 2) (I' := 5)
      (by norm_num) (by norm_num) (r := r) (r' := r')).1 (Or.inl hr) (Or.inl hr') (exS_value _)
    exact ⟨r, hr, this ▸ hr'⟩
  · obtain ⟨v, hv⟩ := demo_volume exV_plain exS_plain true false false 2 (Real.pi / 3) 0 (1/2) (1/4) 1 (1/8)
    obtain ⟨v', hv'⟩ := demo_volume exV_plain exS_plain true true false 2 (Real.pi / 3) 0 (1/2) (1/4) 1 (1/8)
    have e := C19_volume (Or.inl hv) (exV_value _) hreg.mu0 hreg.muEx hreg.sum hreg.I0
    have e' := C19_volume (Or.inl hv') (exV_value _) hreg'.mu0 hreg'.muEx hreg'.sum hreg'.I0
    rw [show (demoCfg exV exS true false false).dB = false from rfl, Site.inUnits_linear] at e
    rw [show (demoCfg exV exS true true false).dB = false from rfl, Site.inUnits_linear] at e'
    subst e e'
    refine ⟨_, _, hv, hv', ?_⟩
    rw [(C24_factor (c := demoCfg exV exS true false false) hreg' (f := 0)).2 (Or.inl hv) (Or.inl hv')
      (exV_value _)]
    have e0 : Real.cos (demoSite 2 (Real.pi / 3) 0 (1/2) (1/4) 1 (1/8)).t0 = 1 / 2 := h1
    rw [e0, show (demoSite 2 (Real.pi / 3) 0 (1/2) (1/4) 1 (1/8)).I0 = 2 from rfl]
    ring

/-! ## C26, C27: bounds and limits -/

/-- Surface and volume are non-negative and bounded by the bare-soil value and the
infinite-depth value. -/
theorem C26_bounds {c : Cfg} {x : Site} (hx : x.Physical) (hd : c.dB = false) (hs : c.sig0 = false)
    {r : XR} :
    (∀ f, 0 ≤ f → c.SRF.ValueAt x f → (Observes surface c x r ∨ ObservesRow 1 c x r) →
      ∃ v, r = XR.fin v ∧ 0 ≤ v ∧ v ≤ x.NormBRDF * x.I0 * Real.cos x.t0 * f) ∧
    (∀ p, 0 ≤ p → c.V.ValueAt x p → (Observes volume c x r ∨ ObservesRow 2 c x r) →
      ∃ v, r = XR.fin v ∧ 0 ≤ v ∧
        v ≤ (1 - x.bsf) * x.I0 * x.omega * (Real.cos x.t0 / (Real.cos x.t0 + Real.cos x.tex)) * p) := by
  have m0 : 0 < Real.cos x.t0 := hx.mu0
  have m1 : 0 < Real.cos x.tex := hx.muEx
  have hb := hx.bsf0
  have hb1 := hx.bsf1
  have hI := hx.I0
  have hN := hx.NormBRDF
  have hω := hx.omega
  have hτ := hx.tau
  have a0 : 0 ≤ x.tau / Real.cos x.t0 := div_nonneg hτ m0.le
  have a1 : 0 ≤ x.tau / Real.cos x.tex := div_nonneg hτ m1.le
  refine ⟨fun f hf hv h => ⟨_, C18_surface_linear h hv m0.ne' m1.ne' hs hd, ?_, ?_⟩,
    fun p hp hv h => ⟨_, C19_volume_linear (h.imp id fun h => ⟨h, hτ⟩) hv m0.ne' m1.ne' (by positivity) hs hd, ?_, ?_⟩⟩
  · have : 0 ≤ 1 - x.bsf := by linarith
    positivity
  · have he : Real.exp (-(x.tau / Real.cos x.t0) - x.tau / Real.cos x.tex) ≤ 1 :=
      Real.exp_le_one_iff.mpr (by linarith)
    have h1 : (1 - x.bsf) * Real.exp (-(x.tau / Real.cos x.t0) - x.tau / Real.cos x.tex) + x.bsf ≤ 1 := by
      nlinarith
    have h2 : 0 ≤ x.NormBRDF * x.I0 * Real.cos x.t0 * f := by positivity
    calc _ = (x.NormBRDF * x.I0 * Real.cos x.t0 * f) * ((1 - x.bsf)
        * Real.exp (-(x.tau / Real.cos x.t0) - x.tau / Real.cos x.tex) + x.bsf) := by ring
      _ ≤ _ := mul_le_of_le_one_right h2 h1
  · have he : Real.exp (-(x.tau / Real.cos x.t0)) * Real.exp (-(x.tau / Real.cos x.tex)) ≤ 1 := by
      rw [← Real.exp_add]; exact Real.exp_le_one_iff.mpr (by linarith)
    have h1 : 0 ≤ 1 - Real.exp (-(x.tau / Real.cos x.t0)) * Real.exp (-(x.tau / Real.cos x.tex)) := by
      linarith
    have : 0 ≤ 1 - x.bsf := by linarith
    positivity
  · have he : 0 < Real.exp (-(x.tau / Real.cos x.t0)) * Real.exp (-(x.tau / Real.cos x.tex)) := by
      positivity
    have : 0 ≤ 1 - x.bsf := by linarith
    have h2 : 0 ≤ (1 - x.bsf) * x.I0 * x.omega * (Real.cos x.t0 / (Real.cos x.t0 + Real.cos x.tex)) * p := by
      positivity
    calc _ = ((1 - x.bsf) * x.I0 * x.omega * (Real.cos x.t0 / (Real.cos x.t0 + Real.cos x.tex)) * p)
        * (1 - Real.exp (-(x.tau / Real.cos x.t0)) * Real.exp (-(x.tau / Real.cos x.tex))) := by ring
      _ ≤ _ := mul_le_of_le_one_right h2 (by linarith)

theorem demo_physical {I τ ω N β : ℝ} (hI : 0 ≤ I) (hτ : 0 ≤ τ) (hω : 0 ≤ ω) (hN : 0 ≤ N)
    (hβ : 0 ≤ β) (hβ1 : β ≤ 1) (p : ℝ) : (demoSite I (Real.pi / 3) p τ ω N β).Physical := by
  obtain ⟨h1, h2⟩ := demo_cos I p τ ω N β
  exact ⟨hβ, hβ1, hω, hτ, hN, hI, by rw [h1]; norm_num, by rw [h2]; norm_num⟩

example : ∃ r, Observes volume (demoCfg exV exS true false false)
    (demoSite 1 (Real.pi / 3) 0 (1/2) (1/4) 1 (1/8)) r ∧ ∃ v, r = XR.fin v ∧ 0 ≤ v := by
  obtain ⟨r, hr⟩ := demo_volume exV_plain exS_plain true false false 1 (Real.pi / 3) 0 (1/2) (1/4) 1
    (1/8)
  have hp := demo_physical (I := 1) (τ := 1/2) (ω := 1/4) (N := 1) (β := 1/8) (by norm_num)
    (by norm_num) (by norm_num) (by norm_num) (by norm_num) (by norm_num) 0
  obtain ⟨v, h1, h2, -⟩ := (C26_bounds (c := demoCfg exV exS true false false) hp rfl rfl).2 _ (by
    unfold Phase.rayleigh; positivity) (exV_value _) (Or.inl hr)
  exact ⟨r, hr, v, h1, h2⟩

/-- Growing optical depth: surface does not increase, volume does not decrease. -/
theorem C27_monotone {c : Cfg} {x : Site} (hx : x.Physical) (hd : c.dB = false) (hs : c.sig0 = false)
    {τ τ' : ℝ} {ρ ρ' : String → ℝ} (h0 : 0 ≤ τ) (hle : τ ≤ τ') :
    (∀ f r r', 0 ≤ f → c.SRF.ValueAt (x.withTau τ ρ) f → c.SRF.ValueAt (x.withTau τ' ρ') f →
      (Observes surface c (x.withTau τ ρ) (XR.fin r) ∨ ObservesRow 1 c (x.withTau τ ρ) (XR.fin r)) →
      (Observes surface c (x.withTau τ' ρ') (XR.fin r') ∨ ObservesRow 1 c (x.withTau τ' ρ') (XR.fin r')) →
      r' ≤ r) ∧
    (∀ p r r', 0 ≤ p → c.V.ValueAt (x.withTau τ ρ) p → c.V.ValueAt (x.withTau τ' ρ') p →
      (Observes volume c (x.withTau τ ρ) (XR.fin r) ∨ ObservesRow 2 c (x.withTau τ ρ) (XR.fin r)) →
      (Observes volume c (x.withTau τ' ρ') (XR.fin r') ∨ ObservesRow 2 c (x.withTau τ' ρ') (XR.fin r')) →
      r ≤ r') := by
  have m0 : 0 < Real.cos x.t0 := hx.mu0
  have m1 : 0 < Real.cos x.tex := hx.muEx
  have hb := hx.bsf0
  have hb1 : 0 ≤ 1 - x.bsf := by linarith [hx.bsf1]
  have hI := hx.I0
  have hN := hx.NormBRDF
  have hω := hx.omega
  have q0 : τ / Real.cos x.t0 ≤ τ' / Real.cos x.t0 := by gcongr
  have q1 : τ / Real.cos x.tex ≤ τ' / Real.cos x.tex := by gcongr
  refine ⟨fun f r r' hf hv hv' h h' => ?_, fun p r r' hp hv hv' h h' => ?_⟩
  · have e := C18_surface_linear h hv m0.ne' m1.ne' hs hd
    have e' := C18_surface_linear h' hv' m0.ne' m1.ne' hs hd
    simp only [XR.fin.injEq] at e e'
    rw [e, e']
    have he : Real.exp (-(τ' / Real.cos x.t0) - τ' / Real.cos x.tex)
        ≤ Real.exp (-(τ / Real.cos x.t0) - τ / Real.cos x.tex) := Real.exp_le_exp.mpr (by linarith)
    simp only [Site.withTau]
    gcongr
  · have e := C19_volume_linear (h.imp id fun h => ⟨h, h0⟩) hv m0.ne' m1.ne'
      (by show Real.cos x.t0 + Real.cos x.tex ≠ 0; positivity) hs hd
    have e' := C19_volume_linear (h'.imp id fun h => ⟨h, h0.trans hle⟩) hv' m0.ne' m1.ne'
      (by show Real.cos x.t0 + Real.cos x.tex ≠ 0; positivity) hs hd
    simp only [XR.fin.injEq] at e e'
    rw [e, e']
    have he : Real.exp (-(τ' / Real.cos x.t0)) * Real.exp (-(τ' / Real.cos x.tex))
        ≤ Real.exp (-(τ / Real.cos x.t0)) * Real.exp (-(τ / Real.cos x.tex)) := by
      rw [← Real.exp_add, ← Real.exp_add]; exact Real.exp_le_exp.mpr (by linarith)
    simp only [Site.withTau]
    gcongr

/-- Two optical depths of one observation. -/
example : ∃ v v' : ℝ, Observes volume (demoCfg exV exS true false false)
      (demoSite 1 (Real.pi / 3) 0 (1/2) (1/4) 1 (1/8)) (XR.fin v) ∧
    Observes volume (demoCfg exV exS true false false)
      (demoSite 1 (Real.pi / 3) 0 2 (1/4) 1 (1/8)) (XR.fin v') ∧ v ≤ v' := by
  have hp := demo_physical (I := 1) (τ := 1/2) (ω := 1/4) (N := 1) (β := 1/8) (by norm_num)
    (by norm_num) (by norm_num) (by norm_num) (by norm_num) (by norm_num) 0
  have hreg := demo_regular false (I := 1) (by norm_num) 0 (1/2) (1/4) 1 (1/8)
  obtain ⟨v, hv⟩ := demo_volume exV_plain exS_plain true false false 1 (Real.pi / 3) 0 (1/2) (1/4) 1 (1/8)
  obtain ⟨v', hv'⟩ := demo_volume exV_plain exS_plain true false false 1 (Real.pi / 3) 0 2 (1/4) 1 (1/8)
  have e := C19_volume_linear (Or.inl hv) (exV_value _) hreg.mu0 hreg.muEx hreg.sum rfl rfl
  have e' := C19_volume_linear (Or.inl hv') (exV_value _) hreg.mu0 hreg.muEx hreg.sum rfl rfl
  subst e e'
  exact ⟨_, _, hv, hv', (C27_monotone (c := demoCfg exV exS true false false) (τ := 1/2) (τ' := 2)
    (ρ := (demoSite 1 (Real.pi / 3) 0 (1/2) (1/4) 1 (1/8)).ρ)
    (ρ' := (demoSite 1 (Real.pi / 3) 0 2 (1/4) 1 (1/8)).ρ) hp rfl rfl (by norm_num)
    (by norm_num)).2 _ _ _ (by unfold Phase.rayleigh; positivity) (exV_value _) (exV_value _)
    (Or.inl hv) (Or.inl hv')⟩

theorem exp_neg_div_tendsto {m : ℝ} (hm : 0 < m) :
    Filter.Tendsto (fun τ : ℝ => Real.exp (-(τ / m))) Filter.atTop (nhds 0) :=
  Real.tendsto_exp_neg_atTop_nhds_zero.comp (Filter.tendsto_id.atTop_div_const hm)

/-- Large optical depth: for every precision there is an optical depth beyond which every
observed surface value is this close to the bare-soil part and every observed volume value
to the infinite-depth value. -/
theorem C27_limit {c : Cfg} {x : Site} (hx : x.Physical) (hd : c.dB = false) (hs : c.sig0 = false)
    (f p : ℝ) {ε : ℝ} (hε : 0 < ε) : ∃ T : ℝ, ∀ τ, T ≤ τ → ∀ ρ r,
    (c.SRF.ValueAt (x.withTau τ ρ) f →
      (Observes surface c (x.withTau τ ρ) r ∨ ObservesRow 1 c (x.withTau τ ρ) r) →
      ∃ v, r = XR.fin v ∧ |v - x.NormBRDF * x.bsf * x.I0 * Real.cos x.t0 * f| < ε) ∧
    (c.V.ValueAt (x.withTau τ ρ) p →
      (Observes volume c (x.withTau τ ρ) r ∨ ObservesRow 2 c (x.withTau τ ρ) r) →
      ∃ v, r = XR.fin v ∧ |v - (1 - x.bsf) * x.I0 * x.omega
        * (Real.cos x.t0 / (Real.cos x.t0 + Real.cos x.tex)) * p| < ε) := by
  have m0 : 0 < Real.cos x.t0 := hx.mu0
  have m1 : 0 < Real.cos x.tex := hx.muEx
  have t0 := exp_neg_div_tendsto m0
  have t1 := exp_neg_div_tendsto m1
  have t2 := t0.mul t1
  have l1 : Filter.Tendsto (fun τ : ℝ => x.NormBRDF * ((1 - x.bsf)
      * (Real.exp (-(τ / Real.cos x.t0)) * Real.exp (-(τ / Real.cos x.tex))) + x.bsf) * x.I0
      * Real.cos x.t0 * f) Filter.atTop (nhds (x.NormBRDF * ((1 - x.bsf) * (0 * 0) + x.bsf) * x.I0
      * Real.cos x.t0 * f)) :=
    ((((t2.const_mul _).add_const _).const_mul _).mul_const _ |>.mul_const _ |>.mul_const _)
  have l2 : Filter.Tendsto (fun τ : ℝ => (1 - x.bsf) * x.I0 * x.omega
      * (Real.cos x.t0 / (Real.cos x.t0 + Real.cos x.tex))
      * (1 - Real.exp (-(τ / Real.cos x.t0)) * Real.exp (-(τ / Real.cos x.tex))) * p) Filter.atTop
      (nhds ((1 - x.bsf) * x.I0 * x.omega
      * (Real.cos x.t0 / (Real.cos x.t0 + Real.cos x.tex)) * (1 - 0 * 0) * p)) :=
    ((t2.const_sub _).const_mul _).mul_const _
  obtain ⟨T1, hT1⟩ := (Metric.tendsto_atTop.mp l1) ε hε
  obtain ⟨T2, hT2⟩ := (Metric.tendsto_atTop.mp l2) ε hε
  refine ⟨max 0 (max T1 T2), fun τ hτ ρ r => ⟨fun hv h => ⟨_, C18_surface_linear h hv m0.ne' m1.ne' hs hd, ?_⟩,
    fun hv h => ⟨_, C19_volume_linear (h.imp id fun h => ⟨h, (le_max_left _ _).trans hτ⟩) hv m0.ne' m1.ne'
      (by show Real.cos x.t0 + Real.cos x.tex ≠ 0; positivity) hs hd, ?_⟩⟩⟩
  · have := hT1 τ ((le_max_left _ _).trans ((le_max_right _ _).trans hτ))
    rw [Real.dist_eq] at this
    simp only [Site.withTau]
    rw [sub_eq_add_neg (-(τ / Real.cos x.t0)), Real.exp_add]
    convert this using 2
    ring
  · have := hT2 τ ((le_max_right _ _).trans ((le_max_right _ _).trans hτ))
    rw [Real.dist_eq] at this
    simp only [Site.withTau]
    convert this using 2
    ring

/-- Every precision is reached by observations at large optical depth. -/
example (ε : ℝ) (hε : 0 < ε) : ∃ τ v : ℝ, Observes volume (demoCfg exV exS true false false)
      (demoSite 1 (Real.pi / 3) 0 τ (1/4) 1 (1/8)) (XR.fin v) ∧
    |v - (1 - 1/8) * 1 * (1/4) * ((1/2) / (1/2 + 1/2))
      * Phase.rayleigh (Phase.cosTheta (-1) 1 1 (Real.pi / 3) (Real.pi / 3) 0 (0 + Real.pi))| < ε := by
  have hp := demo_physical (I := 1) (τ := 1/2) (ω := 1/4) (N := 1) (β := 1/8) (by norm_num)
    (by norm_num) (by norm_num) (by norm_num) (by norm_num) (by norm_num) 0
  obtain ⟨T, hT⟩ := C27_limit (c := demoCfg exV exS true false false) hp rfl rfl 0
    (Phase.rayleigh (Phase.cosTheta (-1) 1 1 (Real.pi / 3) (Real.pi / 3) 0 (0 + Real.pi))) hε
  obtain ⟨r, hr⟩ := demo_volume exV_plain exS_plain true false false 1 (Real.pi / 3) 0 T (1/4) 1 (1/8)
  obtain ⟨v, rfl, hv⟩ := (hT T le_rfl (demoSite 1 (Real.pi / 3) 0 T (1/4) 1 (1/8)).ρ r).2 (exV_value _)
    (Or.inl hr)
  obtain ⟨h1, h2⟩ := demo_cos 1 0 (1/2) (1/4) 1 (1/8)
  refine ⟨T, v, hr, ?_⟩
  have e0 : Real.cos (demoSite 1 (Real.pi / 3) 0 (1/2) (1/4) 1 (1/8)).t0 = 1 / 2 := h1
  have e1 : Real.cos (demoSite 1 (Real.pi / 3) 0 (1/2) (1/4) 1 (1/8)).tex = 1 / 2 := h2
  rw [e0, e1] at hv
  exact hv

end

end RT1
