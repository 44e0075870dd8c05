import Verif.Lemmas.IntObs
import Mathlib.MeasureTheory.Integral.IntervalIntegral.Periodic

/-! The interaction contribution of the geometry entries and the documented one. -/

namespace RT1

noncomputable section
open Classical MeasureTheory Set

theorem hemi_congr {μ τ : ℝ} {q q' : ℝ → ℝ → ℝ} (h : ∀ θ φ, q θ φ = q' θ φ) : hemi μ τ q = hemi μ τ q' := by
  have : q = q' := funext fun θ => funext fun φ => h θ φ
  rw [this]

/-- Rotating the intermediate azimuth does not change the double integral. -/
theorem hemi_shift {μ τ : ℝ} {q : ℝ → ℝ → ℝ} (h : ∀ θ φ, q θ (φ + 2 * Real.pi) = q θ φ) (δ : ℝ) :
    hemi μ τ (fun θ φ => q θ (φ + δ)) = hemi μ τ q := by
  unfold hemi
  refine intervalIntegral.integral_congr fun θ _ => ?_
  set f : ℝ → ℝ := fun φ => Real.cos θ / (μ - Real.cos θ) *
    (Real.exp (-τ / μ) - Real.exp (-τ / Real.cos θ)) * q θ φ * Real.sin θ with hf
  have hper : Function.Periodic f (2 * Real.pi) := fun φ => by simp only [hf, h]
  show ∫ φ in (0 : ℝ)..(2 * Real.pi), f (φ + δ) = ∫ φ in (0 : ℝ)..(2 * Real.pi), f φ
  rw [intervalIntegral.integral_comp_add_right f δ, zero_add, add_comm (2 * Real.pi) δ,
    hper.intervalIntegral_add_eq δ 0, zero_add]

theorem expVal_period {o : Scatter} {ρ : String → ℝ} {t0 tex p0 pex : ℝ} :
    o.expVal ρ t0 tex p0 (pex + 2 * Real.pi) = o.expVal ρ t0 tex p0 pex :=
  Scatter.expVal_angle rfl (by rw [Real.cos_add_two_pi]) (by rw [Real.sin_add_two_pi])

theorem expVal_period' {o : Scatter} {ρ : String → ℝ} {t0 tex p0 pex : ℝ} :
    o.expVal ρ t0 tex (p0 + 2 * Real.pi) pex = o.expVal ρ t0 tex p0 pex :=
  Scatter.expVal_angle rfl (by rw [Real.cos_add_two_pi]) (by rw [Real.sin_add_two_pi])

theorem expVal_updown {o : Scatter} {ρ : String → ℝ} {t0 tex p0 pex : ℝ} :
    o.expVal ρ (Real.pi - t0) tex p0 pex = o.expVal ρ t0 (Real.pi - tex) p0 pex :=
  Scatter.expVal_angle (by rw [Real.cos_pi_sub, Real.cos_pi_sub]; ring)
    (by rw [Real.sin_pi_sub, Real.sin_pi_sub]) (by rw [Real.sin_pi_sub, Real.sin_pi_sub])

theorem Site.env_t0 (x : Site) : x.env "theta_0" = x.t0 := by simp [Site.env]
theorem Site.env_tex (x : Site) : x.env "theta_ex" = x.tex := by simp [Site.env]
theorem Site.env_p0 (x : Site) : x.env "phi_0" = x.p0 := by simp [Site.env]
theorem Site.env_pex (x : Site) : x.env "phi_ex" = x.pex := by simp [Site.env]

theorem Site.FintAz_zero (V S : Scatter) (x : Site) : x.FintAz V S 0 = x.Fint V S := by
  unfold Site.FintAz Site.Fint
  simp only [add_zero]

theorem Site.interactionAz_zero (V S : Scatter) (x : Site) :
    x.interactionAz V S 0 = x.interaction V S := by
  unfold Site.interactionAz Site.interaction
  rw [Site.FintAz_zero, Site.FintAz_zero]

/-- Monostatic geometry: the documented contribution, whether the azimuth is fixed or not. -/
theorem geomInteraction_mono {md : Mode} {g : Geom4} {x : Site} (h : GeomAt md g x)
    (hm : md.mono = true) (V S : Scatter) : geomInteraction V S g x = x.interaction V S := by
  obtain ⟨h1, h2, h3, h4, h5, h6⟩ := h.mono hm
  have e1 : geomFint V S g x.mu0 x.tau x.env = x.Fint V S := by
    unfold geomFint Site.Fint
    refine hemi_congr fun θ φ => ?_
    rw [h5, h3, h4]
    have hp : g.p0.val x.env = x.p0 := by
      rcases h6 with h6 | h6
      · rw [h6.1]; exact x.env_p0
      · rw [h6.1]; rfl
    show V.expVal x.env (Real.pi - x.env "theta_0") θ _ φ * S.expVal x.env θ (x.env "theta_0") φ _ = _
    rw [hp, x.env_t0, expVal_updown, h1, h2]
  have e2 : geomFint V S g x.muEx x.tau x.swap.env = x.swap.Fint V S := by
    unfold geomFint Site.Fint
    rw [h5, h3, h4]
    show hemi x.muEx x.tau (fun θ φ => V.expVal x.swap.env (Real.pi - x.swap.env "theta_0") θ _ φ *
      S.expVal x.swap.env θ (x.swap.env "theta_0") φ _) = hemi x.muEx x.tau fun θ φ =>
        V.expVal x.swap.env x.tex (Real.pi - θ) x.pex φ * S.expVal x.swap.env θ x.t0 φ x.p0
    rw [x.swap.env_t0]
    show hemi x.muEx x.tau (fun θ φ => V.expVal x.swap.env (Real.pi - x.tex) θ _ φ *
      S.expVal x.swap.env θ x.tex φ _) = _
    simp only [expVal_updown, h1]
    rcases h6 with h6 | h6
    · rw [h6.1]
      refine hemi_congr fun θ φ => ?_
      show V.expVal x.swap.env _ _ (x.swap.env "phi_0") φ * S.expVal x.swap.env θ _ φ (x.swap.env "phi_0" + _) = _
      rw [x.swap.env_p0]
      show V.expVal x.swap.env _ _ x.pex φ * S.expVal x.swap.env θ _ φ (x.pex + _) = _
      have e : x.pex + Real.pi = x.p0 + 2 * Real.pi := by rw [h2]; ring
      rw [e, expVal_period]
    · rw [h6.1]
      show hemi x.muEx x.tau (fun θ φ => V.expVal x.swap.env _ _ x.p0 φ *
        S.expVal x.swap.env θ _ φ (x.p0 + Real.pi)) = _
      rw [← hemi_shift (q := fun θ φ => V.expVal x.swap.env x.t0 (Real.pi - θ) x.pex φ *
        S.expVal x.swap.env θ x.t0 φ x.p0) (fun θ φ => by rw [expVal_period, expVal_period']) Real.pi]
      refine hemi_congr fun θ φ => ?_
      rw [h2]
      congr 1
      · exact Scatter.expVal_angle rfl (by rw [Real.cos_add_pi, Real.cos_add_pi]; ring)
          (by rw [Real.sin_add_pi, Real.sin_add_pi]; ring)
      · exact Scatter.expVal_angle rfl (by rw [Real.cos_add_pi, Real.cos_add_pi]; ring)
          (by rw [Real.sin_add_pi, Real.sin_add_pi]; ring)
  unfold geomInteraction Site.interaction
  rw [e1, e2]
  ring

/-- Bistatic geometry, no fixed angles: the surface expansion is evaluated at the opposite exit
azimuth. -/
theorem geomInteraction_bi {md : Mode} {g : Geom4} {x : Site} (h : GeomAt md g x)
    (hm : md.mono = false) (hf : md.fixed = []) (V S : Scatter) :
    geomInteraction V S g x = x.interactionAz V S Real.pi := by
  have hb := h.bi hm
  rw [hf] at hb
  have b1 : g.t0 = .sym "theta_0" := by simpa [Geom4.entry, AngN.symName] using hb .t0
  have b2 : g.tex = .sym "theta_ex" := by simpa [Geom4.entry, AngN.symName] using hb .tex
  have b3 : g.p0 = .sym "phi_0" := by simpa [Geom4.entry, AngN.symName] using hb .p0
  have b4 : g.pex = .sym "phi_ex" := by simpa [Geom4.entry, AngN.symName] using hb .pex
  have e : ∀ y : Site, geomFint V S g y.mu0 y.tau y.env = y.FintAz V S Real.pi := by
    intro y
    unfold geomFint Site.FintAz
    refine hemi_congr fun θ φ => ?_
    rw [b1, b2, b3, b4]
    show V.expVal y.env (Real.pi - y.env "theta_0") θ (y.env "phi_0") φ *
      S.expVal y.env θ (y.env "theta_ex") φ (y.env "phi_ex" + Real.pi) = _
    rw [y.env_t0, y.env_tex, y.env_p0, y.env_pex, expVal_updown]
  have e1 := e x
  have e2 : geomFint V S g x.muEx x.tau x.swap.env = x.swap.FintAz V S Real.pi := e x.swap
  unfold geomInteraction Site.interactionAz
  rw [e1, e2]
  ring

theorem polar_kernel_nonneg {μ τ x : ℝ} (hμ : 0 < μ) (hτ : 0 ≤ τ) (hx : 0 ≤ x) :
    0 ≤ x / (μ - x) * (Real.exp (-τ / μ) - Real.exp (-τ / x)) := by
  rcases hx.eq_or_lt with rfl | hx
  · simp
  rcases lt_trichotomy x μ with h | rfl | h
  · have : Real.exp (-τ / x) ≤ Real.exp (-τ / μ) := by
      rw [Real.exp_le_exp, neg_div, neg_div, neg_le_neg_iff]
      exact div_le_div_of_nonneg_left hτ hx h.le
    exact mul_nonneg (div_nonneg hx.le (by linarith)) (by linarith)
  · simp
  · have : Real.exp (-τ / μ) ≤ Real.exp (-τ / x) := by
      rw [Real.exp_le_exp, neg_div, neg_div, neg_le_neg_iff]
      exact div_le_div_of_nonneg_left hτ hμ h.le
    exact mul_nonneg_of_nonpos_of_nonpos (div_nonpos_of_nonneg_of_nonpos hx.le (by linarith)) (by linarith)

theorem hemi_nonneg {μ τ : ℝ} (hμ : 0 < μ) (hτ : 0 ≤ τ) {q : ℝ → ℝ → ℝ}
    (h : ∀ θ φ, 0 ≤ q θ φ) : 0 ≤ hemi μ τ q := by
  unfold hemi
  refine intervalIntegral.integral_nonneg (by positivity) fun θ hθ => ?_
  refine intervalIntegral.integral_nonneg (by positivity) fun φ _ => ?_
  have hc : 0 ≤ Real.cos θ := Real.cos_nonneg_of_mem_Icc ⟨by linarith [hθ.1, Real.pi_pos], hθ.2⟩
  have hs : 0 ≤ Real.sin θ := Real.sin_nonneg_of_nonneg_of_le_pi hθ.1 (by linarith [hθ.2, Real.pi_pos])
  exact mul_nonneg (mul_nonneg (polar_kernel_nonneg hμ hτ hc) (h θ φ)) hs

theorem geomInteraction_nonneg {V S : Scatter} {g : Geom4} {x : Site} (hx : x.Physical) (h0 : 0 < x.mu0)
    (h1 : 0 < x.muEx) (hV : ∀ ρ a b c d, 0 ≤ V.expVal ρ a b c d)
    (hS : ∀ ρ a b c d, 0 ≤ S.expVal ρ a b c d) : 0 ≤ geomInteraction V S g x := by
  unfold geomInteraction geomFint
  have f1 : ∀ μ ρ, 0 < μ → 0 ≤ hemi μ x.tau fun θ φ =>
      V.expVal ρ (Real.pi - g.t0.val ρ) θ (g.p0.val ρ) φ *
        S.expVal ρ θ (g.tex.val ρ) φ (g.pex.val ρ + Real.pi) := fun μ ρ hμ =>
    hemi_nonneg hμ hx.tau fun θ φ => mul_nonneg (hV _ _ _ _ _) (hS _ _ _ _ _)
  have hb : 0 ≤ 1 - x.bsf := by linarith [hx.bsf1]
  refine mul_nonneg (mul_nonneg hx.NormBRDF hb) (mul_nonneg (mul_nonneg (mul_nonneg hx.I0 h0.le) hx.omega) ?_)
  exact add_nonneg (mul_nonneg (Real.exp_pos _).le (f1 _ _ h0)) (mul_nonneg (Real.exp_pos _).le (f1 _ _ h1))

end

end RT1
