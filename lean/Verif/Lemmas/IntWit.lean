import Verif.Lemmas.IntNan
import Verif.Lemmas.ExprL

/-! Interaction contributions of two-term Henyey-Greenstein expansions in closed form; they serve
as witnesses. -/

namespace RT1

noncomputable section
open Classical MeasureTheory Set

/-- Volume Henyey-Greenstein function with two coefficients. -/
def hgV (t : ℝ) : Scatter := .prim (.volHG (.num t)) volA (some 2)
/-- Surface Henyey-Greenstein function with two coefficients. -/
def hgS (s : ℝ) : Scatter := .prim (.srfHG (.num s)) srfA (some 2)

theorem hgV_free (t : ℝ) : ∀ k ∈ (hgV t).phase.free, k ∈ ["theta_0", "theta_ex", "phi_0", "phi_ex"] := by
  intro k hk
  simp [hgV, Scatter.phase, Scatter.primPhase, Scatter.hgExpr, Scatter.angleExpr, volA] at hk
  simp
  tauto

theorem hgS_free (t : ℝ) : ∀ k ∈ (hgS t).phase.free, k ∈ ["theta_0", "theta_ex", "phi_0", "phi_ex"] := by
  intro k hk
  simp [hgS, Scatter.phase, Scatter.primPhase, Scatter.hgExpr, Scatter.angleExpr, srfA] at hk
  simp
  tauto

theorem hgV_ncoefs (t : ℝ) : (hgV t).ncoefs = .ok (1 + 1) := by simp [hgV, Scatter.ncoefs]
theorem hgS_ncoefs (t : ℝ) : (hgS t).ncoefs = .ok (1 + 1) := by simp [hgS, Scatter.ncoefs]

theorem hg_fnCoefs (t s : ℝ) (g : Geom4) : ∃ fs, fnCoefs (hgV t) (hgS s) g = .ok fs := by
  unfold fnCoefs interactionExpansion fPoly
  simp only [Scatter.legExpansion, hgV, hgS, Scatter.ncoefs, okb]
  exact ⟨_, rfl⟩

theorem hgV_val (t : ℝ) (ρ : String → ℝ) (t0 tex p0 pex : ℝ) :
    (hgV t).expVal ρ t0 tex p0 pex = 1 / (4 * Real.pi) *
      (1 + 3 * t * (-Real.cos t0 * Real.cos tex + Real.sin t0 * Real.sin tex * Real.cos (p0 - pex))) := by
  refine Scatter.expVal_of_ok ?_
  unfold Scatter.expansionAt hgV
  simp only [Scatter.legExpansion, Scatter.ncoefs, okb]
  rw [if_pos (by norm_num)]
  congr 1
  unfold Scatter.legSum Scatter.angleR
  rw [Finset.sum_range_succ, Finset.sum_range_one, Real.cos_sub]
  simp [Scatter.primCoef, legendre, volA]
  ring

theorem hgS_val (t : ℝ) (ρ : String → ℝ) (t0 tex p0 pex : ℝ) :
    (hgS t).expVal ρ t0 tex p0 pex = 1 / Real.pi *
      (1 + 3 * t * (Real.cos t0 * Real.cos tex + Real.sin t0 * Real.sin tex * Real.cos (p0 - pex))) := by
  refine Scatter.expVal_of_ok ?_
  unfold Scatter.expansionAt hgS
  simp only [Scatter.legExpansion, Scatter.ncoefs, okb]
  rw [if_pos (by norm_num)]
  congr 1
  unfold Scatter.legSum Scatter.angleR
  rw [Finset.sum_range_succ, Finset.sum_range_one, Real.cos_sub]
  simp [Scatter.primCoef, legendre, srfA]
  ring

theorem integral_two_cos (A B C D p q : ℝ) :
    ∫ φ in (0 : ℝ)..(2 * Real.pi), (A + B * Real.cos (p - φ)) * (C + D * Real.cos (φ - q)) =
      2 * Real.pi * (A * C) + Real.pi * (B * D * Real.cos (p - q)) := by
  set F : ℝ → ℝ := fun φ => A * C * φ + (A * D * Real.cos q + B * C * Real.cos p) * Real.sin φ
    - (A * D * Real.sin q + B * C * Real.sin p) * Real.cos φ
    + B * D * (Real.cos p * Real.cos q * (φ / 2 + Real.sin φ * Real.cos φ / 2)
      + Real.sin p * Real.sin q * (φ / 2 - Real.sin φ * Real.cos φ / 2)
      + (Real.cos p * Real.sin q + Real.sin p * Real.cos q) * (Real.sin φ * Real.sin φ / 2)) with hF
  have hd : ∀ φ, HasDerivAt F ((A + B * Real.cos (p - φ)) * (C + D * Real.cos (φ - q))) φ := by
    intro φ
    have hs := Real.hasDerivAt_sin φ
    have hc := Real.hasDerivAt_cos φ
    have hi := hasDerivAt_id' φ
    have := ((((hi.const_mul (A * C)).add (hs.const_mul (A * D * Real.cos q + B * C * Real.cos p))).sub
      (hc.const_mul (A * D * Real.sin q + B * C * Real.sin p))).add
      ((((((hi.div_const 2).add ((hs.mul hc).div_const 2)).const_mul (Real.cos p * Real.cos q)).add
        (((hi.div_const 2).sub ((hs.mul hc).div_const 2)).const_mul (Real.sin p * Real.sin q))).add
        (((hs.mul hs).div_const 2).const_mul
          (Real.cos p * Real.sin q + Real.sin p * Real.cos q))).const_mul (B * D)))
    refine this.congr_deriv ?_
    have h1 := Real.sin_sq_add_cos_sq φ
    rw [Real.cos_sub, Real.cos_sub]
    linear_combination (B * D * (Real.cos p * Real.cos q + Real.sin p * Real.sin q) / 2) * (-h1)
  rw [intervalIntegral.integral_eq_sub_of_hasDerivAt (fun φ _ => hd φ)
    ((by fun_prop : Continuous fun φ => (A + B * Real.cos (p - φ)) * (C + D * Real.cos (φ - q))).intervalIntegrable _ _)]
  simp only [hF]
  rw [Real.cos_sub]
  simp
  ring

/-- The double integral for the two-term expansions. -/
theorem hg_hemi {t s μ τ : ℝ} (hμ : 0 < μ) (hτ : 0 ≤ τ) (ρ : String → ℝ) (t0 tex p0 pex : ℝ) :
    hemi μ τ (fun θ φ => (hgV t).expVal ρ t0 (Real.pi - θ) p0 φ * (hgS s).expVal ρ θ tex φ pex) =
      1 / (4 * Real.pi) * (
        (2 + 9 * t * s * (Real.sin t0 * Real.sin tex * Real.cos (p0 - pex))) * polar μ τ 0
        + 6 * (t * Real.cos t0 + s * Real.cos tex) * polar μ τ 1
        + (18 * t * s * (Real.cos t0 * Real.cos tex)
          - 9 * t * s * (Real.sin t0 * Real.sin tex * Real.cos (p0 - pex))) * polar μ τ 2) := by
  have hπ := Real.pi_ne_zero
  set c : ℕ → ℝ := fun n => 1 / (4 * Real.pi) * (if n = 0 then
      (2 + 9 * t * s * (Real.sin t0 * Real.sin tex * Real.cos (p0 - pex)))
    else if n = 1 then 6 * (t * Real.cos t0 + s * Real.cos tex)
    else (18 * t * s * (Real.cos t0 * Real.cos tex)
          - 9 * t * s * (Real.sin t0 * Real.sin tex * Real.cos (p0 - pex)))) with hc
  rw [hemi_eq (L := 3) (c := c) hμ hτ]
  · rw [Finset.sum_range_succ, Finset.sum_range_succ, Finset.sum_range_one]
    simp only [hc]
    norm_num
    ring
  · intro θ
    have e : ∀ φ, (hgV t).expVal ρ t0 (Real.pi - θ) p0 φ * (hgS s).expVal ρ θ tex φ pex =
        1 / (4 * Real.pi) * (1 / Real.pi) * (((1 + 3 * t * (Real.cos t0 * Real.cos θ))
          + 3 * t * (Real.sin t0 * Real.sin θ) * Real.cos (p0 - φ))
          * ((1 + 3 * s * (Real.cos θ * Real.cos tex))
          + 3 * s * (Real.sin θ * Real.sin tex) * Real.cos (φ - pex))) := by
      intro φ
      rw [hgV_val, hgS_val, Real.cos_pi_sub, Real.sin_pi_sub]
      ring
    simp only [e]
    rw [intervalIntegral.integral_const_mul, integral_two_cos, Finset.sum_range_succ,
      Finset.sum_range_succ, Finset.sum_range_one]
    simp only [hc]
    norm_num
    have h1 := Real.sin_sq_add_cos_sq θ
    field_simp
    linear_combination (-9 * t * s * Real.sin t0 * Real.sin tex * Real.cos (p0 - pex)) * h1

/-! ### strict positivity of polar integrals -/

theorem polar_kernel_pos {μ τ x : ℝ} (hμ : 0 < μ) (hτ : 0 < τ) (hx : 0 < x) (hne : x ≠ μ) :
    0 < x / (μ - x) * (Real.exp (-τ / μ) - Real.exp (-τ / x)) := by
  rcases lt_or_gt_of_ne hne with h | h
  · have : Real.exp (-τ / x) < Real.exp (-τ / μ) := by
      rw [Real.exp_lt_exp, neg_div, neg_div, neg_lt_neg_iff]
      exact div_lt_div_of_pos_left hτ hx h
    exact mul_pos (div_pos hx (by linarith)) (by linarith)
  · have : Real.exp (-τ / μ) < Real.exp (-τ / x) := by
      rw [Real.exp_lt_exp, neg_div, neg_div, neg_lt_neg_iff]
      exact div_lt_div_of_pos_left hτ hμ h
    exact mul_pos_of_neg_of_neg (div_neg_of_pos_of_neg hx (by linarith)) (by linarith)

theorem polar_pos_of {μ τ : ℝ} (hμ : 0 < μ) (hτ : 0 < τ) {w : ℝ → ℝ}
    (hw : ∀ x ∈ Ioo (0 : ℝ) 1, 0 < w x)
    (hi : IntegrableOn (fun x => x / (μ - x) * (Real.exp (-τ / μ) - Real.exp (-τ / x)) * w x) (Ioo 0 1)) :
    0 < ∫ x in Ioo (0 : ℝ) 1, x / (μ - x) * (Real.exp (-τ / μ) - Real.exp (-τ / x)) * w x := by
  rw [setIntegral_pos_iff_support_of_nonneg_ae ?_ hi]
  · have hsub : Ioo 0 (min μ 1) ⊆ Function.support
        (fun x => x / (μ - x) * (Real.exp (-τ / μ) - Real.exp (-τ / x)) * w x) ∩ Ioo 0 1 := by
      intro x hx
      have h1 : x < μ := lt_of_lt_of_le hx.2 (min_le_left _ _)
      have h2 : x < 1 := lt_of_lt_of_le hx.2 (min_le_right _ _)
      exact ⟨(mul_pos (polar_kernel_pos hμ hτ hx.1 h1.ne) (hw x ⟨hx.1, h2⟩)).ne', hx.1, h2⟩
    refine lt_of_lt_of_le ?_ (measure_mono hsub)
    rw [Real.volume_Ioo]
    simp [hμ]
  · refine (ae_restrict_iff' measurableSet_Ioo).mpr (.of_forall fun x hx => ?_)
    exact mul_nonneg (polar_kernel_nonneg hμ hτ.le hx.1.le) (hw x hx).le

theorem polar_pos {μ τ : ℝ} (hμ : 0 < μ) (hτ : 0 < τ) (n : ℕ) : 0 < polar μ τ n := by
  unfold polar
  rw [intervalIntegral.integral_of_le zero_le_one, integral_Ioc_eq_integral_Ioo]
  exact polar_pos_of hμ hτ (w := fun x => x ^ n) (fun x hx => pow_pos hx.1 n)
    (polar_integrand_integrable hμ hτ.le n)

theorem polar_lt {μ τ : ℝ} (hμ : 0 < μ) (hτ : 0 < τ) : polar μ τ 2 < polar μ τ 0 := by
  have h0 := polar_integrand_integrable hμ hτ.le 0
  have h2 := polar_integrand_integrable hμ hτ.le 2
  have h := polar_pos_of hμ hτ (w := fun x => 1 - x ^ 2) (fun x hx => by nlinarith [hx.1, hx.2]) (by
    refine (h0.sub h2).congr_fun (fun x _ => ?_) measurableSet_Ioo
    simp only [Pi.sub_apply]
    ring)
  have e : ∫ x in Ioo (0 : ℝ) 1, x / (μ - x) * (Real.exp (-τ / μ) - Real.exp (-τ / x)) * (1 - x ^ 2) =
      polar μ τ 0 - polar μ τ 2 := by
    unfold polar
    rw [intervalIntegral.integral_of_le zero_le_one, integral_Ioc_eq_integral_Ioo,
      intervalIntegral.integral_of_le zero_le_one, integral_Ioc_eq_integral_Ioo, ← integral_sub h0 h2]
    refine setIntegral_congr_fun measurableSet_Ioo fun x _ => ?_
    ring
  rw [e] at h
  linarith

end

end RT1
