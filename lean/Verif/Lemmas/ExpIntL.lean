import Verif.Spec.ExpInt
import Mathlib.Analysis.SpecialFunctions.ImproperIntegrals
import Mathlib.Analysis.Calculus.DSlope
import Mathlib.Analysis.SpecialFunctions.Trigonometric.DerivHyp
import Mathlib.Analysis.Calculus.MeanValue
import Mathlib.Analysis.Calculus.ParametricIntegral
import Mathlib.MeasureTheory.Function.JacobianOneDim
import Mathlib.Analysis.SpecialFunctions.Integrals.Basic

/-! Exponential integrals and the closed form of the polar integral. -/

namespace RT1

open MeasureTheory Filter Topology Set

/-! ### E_1 and Ei -/

theorem exp_div_integrableOn {x : ℝ} (hx : 0 < x) :
    IntegrableOn (fun v => Real.exp (-v) / v) (Ioi x) := by
  have h := (integrableOn_exp_neg_Ioi x).mul_const (1 / x)
  refine Integrable.mono' h ?_ ?_
  · refine (ContinuousOn.div (by fun_prop) continuousOn_id fun v hv => ?_).aestronglyMeasurable
      measurableSet_Ioi
    exact (hx.trans hv).ne'
  · refine (ae_restrict_iff' measurableSet_Ioi).mpr (.of_forall fun v hv => ?_)
    have hv' : 0 < v := hx.trans hv
    rw [Real.norm_of_nonneg (by positivity), div_eq_mul_one_div]
    exact mul_le_mul_of_nonneg_left (one_div_le_one_div_of_le hx (le_of_lt hv)) (Real.exp_pos _).le

theorem expInt_one {x : ℝ} (hx : 0 < x) : expInt 1 x = ∫ v in Ioi x, Real.exp (-v) / v := by
  have h := integral_comp_mul_left_Ioi' (fun v => Real.exp (-v) / v) 1 hx
  rw [mul_one] at h
  rw [← h, smul_eq_mul, ← integral_const_mul]
  unfold expInt
  refine setIntegral_congr_fun measurableSet_Ioi fun t ht => ?_
  have : (0 : ℝ) < t := lt_trans one_pos ht
  simp only [pow_one]
  rw [neg_mul]
  field_simp

theorem expInt_one_sub {x y : ℝ} (hx : 0 < x) (hy : 0 < y) :
    expInt 1 x - expInt 1 y = ∫ v in x..y, Real.exp (-v) / v := by
  rw [expInt_one hx, expInt_one hy]
  exact intervalIntegral.integral_Ioi_sub_Ioi' (exp_div_integrableOn hx) (exp_div_integrableOn hy)

theorem expInt_one_hasDerivAt {x : ℝ} (hx : 0 < x) :
    HasDerivAt (expInt 1) (-(Real.exp (-x) / x)) x := by
  have h1 : HasDerivAt (fun y => ∫ v in x..y, Real.exp (-v) / v) (Real.exp (-x) / x) x := by
    refine intervalIntegral.integral_hasDerivAt_right (by simp) ?_ ?_
    · refine ContinuousAt.stronglyMeasurableAtFilter isOpen_Ioi (s := Ioi 0) (fun v hv => ?_) x hx
      exact ContinuousAt.div (by fun_prop) continuousAt_id (ne_of_gt hv)
    · exact ContinuousAt.div (by fun_prop) continuousAt_id (ne_of_gt hx)
  have h2 := (h1.const_sub (expInt 1 x))
  refine h2.congr_of_eventuallyEq ?_
  filter_upwards [lt_mem_nhds hx] with y hy
  have := expInt_one_sub hx hy
  linarith

theorem Ei_neg {x : ℝ} (hx : 0 < x) : Ei (-x) = -expInt 1 x := by
  unfold Ei
  rw [if_pos (by linarith), expInt_one hx]
  have h := integral_comp_neg_Iic (-x) (fun v => -(Real.exp (-v) / v))
  rw [neg_neg] at h
  rw [← integral_neg, ← h]
  refine setIntegral_congr_fun measurableSet_Iic fun t _ => ?_
  simp only [neg_neg]
  rw [div_neg, neg_neg]

/-- sinh(t)/t -/
noncomputable def shc : ℝ → ℝ := dslope Real.sinh 0

theorem shc_continuous : Continuous shc := by
  rw [← continuousOn_univ]
  exact (continuousOn_dslope (by simp)).mpr
    ⟨Real.continuous_sinh.continuousOn, (Real.hasDerivAt_sinh 0).differentiableAt⟩

theorem shc_of_ne {t : ℝ} (ht : t ≠ 0) : shc t = Real.sinh t / t := by
  unfold shc
  rw [dslope_of_ne _ ht, slope_def_field]
  simp

theorem Ei_pv {x ε : ℝ} (hx : 0 < x) (hε : 0 < ε) :
    (∫ t in Iic (-ε), Real.exp t / t) + ∫ t in ε..x, Real.exp t / t =
      -expInt 1 x + ∫ t in ε..x, 2 * shc t := by
  have h1 : ∫ t in Iic (-ε), Real.exp t / t = -expInt 1 ε := by
    have := Ei_neg hε
    unfold Ei at this
    rwa [if_pos (by linarith)] at this
  have h2 := expInt_one_sub hε hx
  have hsub : uIcc ε x ⊆ Ioi 0 := fun t ht => lt_of_lt_of_le (lt_min hε hx) ht.1
  have c1 : IntervalIntegrable (fun t => Real.exp t / t) volume ε x :=
    (ContinuousOn.div (by fun_prop) continuousOn_id fun t ht => (hsub ht).ne').intervalIntegrable
  have c2 : IntervalIntegrable (fun t => Real.exp (-t) / t) volume ε x :=
    (ContinuousOn.div (by fun_prop) continuousOn_id fun t ht => (hsub ht).ne').intervalIntegrable
  have h3 : ∫ t in ε..x, 2 * shc t = (∫ t in ε..x, Real.exp t / t) - ∫ t in ε..x, Real.exp (-t) / t := by
    rw [← intervalIntegral.integral_sub c1 c2]
    refine intervalIntegral.integral_congr fun t ht => ?_
    have : t ≠ 0 := (hsub ht).ne'
    rw [shc_of_ne this, Real.sinh_eq]
    field_simp
  rw [h1, h3, ← h2]
  ring

theorem Ei_pos {x : ℝ} (hx : 0 < x) : Ei x = -expInt 1 x + ∫ t in (0 : ℝ)..x, 2 * shc t := by
  unfold Ei
  rw [if_neg (by linarith)]
  refine Tendsto.limUnder_eq ?_
  have hc : Continuous fun ε => ∫ t in ε..x, 2 * shc t := by
    have : (fun ε => ∫ t in ε..x, 2 * shc t) = fun ε => -∫ t in x..ε, 2 * shc t := by
      funext ε; rw [intervalIntegral.integral_symm]
    rw [this]
    exact (intervalIntegral.continuous_primitive
      (fun a b => (continuous_const.mul shc_continuous).intervalIntegrable a b) x).neg
  have h := ((hc.tendsto 0).mono_left (nhdsWithin_le_nhds (s := Ioi 0))).const_add (-expInt 1 x)
  refine h.congr' ?_
  filter_upwards [self_mem_nhdsWithin] with ε hε
  exact (Ei_pv hx hε).symm

theorem Ei_hasDerivAt {x : ℝ} (hx : 0 < x) : HasDerivAt Ei (Real.exp x / x) x := by
  have h1 : HasDerivAt (fun y => ∫ t in (0 : ℝ)..y, 2 * shc t) (2 * shc x) x :=
    intervalIntegral.integral_hasDerivAt_right
      ((continuous_const.mul shc_continuous).intervalIntegrable _ _)
      ((continuous_const.mul shc_continuous).stronglyMeasurableAtFilter _ _)
      (continuous_const.mul shc_continuous).continuousAt
  have h2 := (expInt_one_hasDerivAt hx).neg.add h1
  have e : - -(Real.exp (-x) / x) + 2 * shc x = Real.exp x / x := by
    rw [shc_of_ne hx.ne', Real.sinh_eq]
    field_simp
    ring
  rw [e] at h2
  refine h2.congr_of_eventuallyEq ?_
  filter_upwards [lt_mem_nhds hx] with y hy
  exact Ei_pos hy

theorem expInt_one_scale {c : ℝ} (hc : 0 < c) :
    Tendsto (fun τ => expInt 1 τ - expInt 1 (c * τ)) (𝓝[>] 0) (𝓝 (Real.log c)) := by
  have h1 : ∀ τ : ℝ, 0 < τ → expInt 1 τ - expInt 1 (c * τ) = ∫ s in (1 : ℝ)..c, Real.exp (-(τ * s)) / s := by
    intro τ hτ
    rw [expInt_one_sub hτ (mul_pos hc hτ)]
    have h := intervalIntegral.smul_integral_comp_mul_left (a := 1) (b := c)
      (fun v => Real.exp (-v) / v) τ
    rw [mul_one, mul_comm τ c] at h
    rw [← h, smul_eq_mul, ← intervalIntegral.integral_const_mul]
    refine intervalIntegral.integral_congr fun s _ => ?_
    by_cases hs : s = 0
    · simp [hs]
    · field_simp
  have hsub : uIcc 1 c ⊆ Ioi 0 := fun t ht => lt_of_lt_of_le (lt_min one_pos hc) ht.1
  have h2 : ∫ s in (1 : ℝ)..c, 1 / s = Real.log c := by
    rw [integral_one_div_of_pos one_pos hc, div_one]
  rw [← h2]
  have h3 : Tendsto (fun τ : ℝ => ∫ s in (1 : ℝ)..c, Real.exp (-(τ * s)) / s) (𝓝[>] 0)
      (𝓝 (∫ s in (1 : ℝ)..c, 1 / s)) := by
    refine intervalIntegral.tendsto_integral_filter_of_dominated_convergence (fun s => 1 / s) ?_ ?_ ?_ ?_
    · refine .of_forall fun τ => ?_
      refine (ContinuousOn.div (by fun_prop) continuousOn_id fun t ht => ?_).aestronglyMeasurable
        measurableSet_uIoc
      exact (hsub (uIoc_subset_uIcc ht)).ne'
    · filter_upwards [self_mem_nhdsWithin] with τ hτ
      refine .of_forall fun s hs => ?_
      have hs0 : 0 < s := hsub (uIoc_subset_uIcc hs)
      have hτ0 : (0 : ℝ) < τ := hτ
      rw [Real.norm_of_nonneg (by positivity)]
      refine div_le_div_of_nonneg_right ?_ hs0.le
      rw [Real.exp_le_one_iff]
      have := mul_pos hτ0 hs0
      linarith
    · exact (ContinuousOn.div continuousOn_const continuousOn_id fun t ht =>
        (hsub ht).ne').intervalIntegrable
    · refine .of_forall fun s _ => ?_
      have : Continuous fun τ : ℝ => Real.exp (-(τ * s)) / s := by fun_prop
      have := (this.tendsto 0).mono_left (nhdsWithin_le_nhds (s := Ioi 0))
      simpa using this
  refine h3.congr' ?_
  filter_upwards [self_mem_nhdsWithin] with τ hτ
  exact (h1 τ hτ).symm

/-- The behaviour of E_1 and Ei at 0. -/
theorem E1_add_Ei {c : ℝ} (hc : 0 < c) :
    Tendsto (fun τ => expInt 1 τ + Ei (c * τ)) (𝓝[>] 0) (𝓝 (Real.log c)) := by
  have h1 : Continuous fun τ => ∫ t in (0 : ℝ)..(c * τ), 2 * shc t :=
    (intervalIntegral.continuous_primitive
      (fun a b => (continuous_const.mul shc_continuous).intervalIntegrable a b) 0).comp
      (continuous_const.mul continuous_id)
  have h2 := (expInt_one_scale hc).add ((h1.tendsto 0).mono_left (nhdsWithin_le_nhds (s := Ioi 0)))
  simp only [mul_zero, intervalIntegral.integral_same, add_zero] at h2
  refine h2.congr' ?_
  filter_upwards [self_mem_nhdsWithin] with τ hτ
  rw [Ei_pos (mul_pos hc hτ)]
  ring

/-! ### E_n on the unit interval -/

theorem inv_image_Ioo : (fun x : ℝ => x⁻¹) '' Ioo 0 1 = Ioi 1 := by
  ext t
  constructor
  · rintro ⟨x, hx, rfl⟩
    exact (one_lt_inv₀ hx.1).mpr hx.2
  · intro ht
    have ht0 : (0 : ℝ) < t := lt_trans one_pos ht
    exact ⟨t⁻¹, ⟨inv_pos.mpr ht0, inv_lt_one_of_one_lt₀ ht⟩, inv_inv t⟩

theorem expInt_unit (n : ℕ) (τ : ℝ) :
    expInt n τ = ∫ x in Ioo (0 : ℝ) 1, x ^ n * Real.exp (-τ / x) / x ^ 2 := by
  unfold expInt
  rw [← inv_image_Ioo, integral_image_eq_integral_abs_deriv_smul (f' := fun x => -(x ^ 2)⁻¹)
    measurableSet_Ioo (fun x hx => (hasDerivAt_inv hx.1.ne').hasDerivWithinAt)
    (inv_injective.injOn)]
  refine setIntegral_congr_fun measurableSet_Ioo fun x hx => ?_
  have hx0 : 0 < x := hx.1
  simp only [smul_eq_mul]
  rw [abs_neg, abs_of_pos (by positivity), inv_pow, div_inv_eq_mul, ← div_eq_mul_inv]
  field_simp

theorem expInt_unit' (k : ℕ) (τ : ℝ) :
    expInt (k + 2) τ = ∫ x in Ioo (0 : ℝ) 1, x ^ k * Real.exp (-τ / x) := by
  rw [expInt_unit]
  refine setIntegral_congr_fun measurableSet_Ioo fun x hx => ?_
  have hx0 : x ≠ 0 := hx.1.ne'
  rw [pow_add]
  field_simp

theorem expInt_one_unit (τ : ℝ) :
    expInt 1 τ = ∫ x in Ioo (0 : ℝ) 1, Real.exp (-τ / x) / x := by
  rw [expInt_unit]
  refine setIntegral_congr_fun measurableSet_Ioo fun x hx => ?_
  have hx0 : x ≠ 0 := hx.1.ne'
  field_simp

/-! ### the polar integral -/

/-- e^(tau/mu) times the kernel of the polar integral. -/
noncomputable def kern (μ τ x : ℝ) : ℝ := (1 - Real.exp (τ / μ - τ / x)) / (μ - x)

theorem kern_bound {μ τ x : ℝ} (hμ : 0 < μ) (hτ : 0 ≤ τ) (hx : 0 < x) :
    |kern μ τ x| ≤ 2 / μ + 2 * τ / μ ^ 2 * Real.exp (τ / μ) := by
  unfold kern
  have hE : 1 ≤ Real.exp (τ / μ) := Real.one_le_exp (by positivity)
  have ha : τ / μ - τ / x = τ * (x - μ) / (μ * x) := by field_simp
  rcases lt_trichotomy x μ with h | h | h
  · have hneg : τ / μ - τ / x ≤ 0 := by
      rw [ha]
      exact div_nonpos_of_nonpos_of_nonneg (mul_nonpos_of_nonneg_of_nonpos hτ (by linarith)) (by positivity)
    have h0 : 0 ≤ 1 - Real.exp (τ / μ - τ / x) := by
      have := Real.exp_le_one_iff.mpr hneg
      linarith
    rw [abs_of_nonneg (div_nonneg h0 (by linarith))]
    by_cases hx2 : x ≤ μ / 2
    · have h1 : (1 - Real.exp (τ / μ - τ / x)) / (μ - x) ≤ 2 / μ := by
        rw [div_le_div_iff₀ (by linarith) hμ]
        have := Real.exp_pos (τ / μ - τ / x)
        nlinarith
      have : 0 ≤ 2 * τ / μ ^ 2 * Real.exp (τ / μ) := by positivity
      linarith
    · push Not at hx2
      have h1 : 1 - Real.exp (τ / μ - τ / x) ≤ τ * (μ - x) / (μ * x) := by
        have := Real.add_one_le_exp (τ / μ - τ / x)
        have e : τ * (μ - x) / (μ * x) = -(τ / μ - τ / x) := by rw [ha]; ring
        rw [e]
        linarith
      have h2 : (1 - Real.exp (τ / μ - τ / x)) / (μ - x) ≤ τ / (μ * x) := by
        rw [div_le_iff₀ (by linarith)]
        calc _ ≤ _ := h1
          _ = _ := by ring
      have h3 : τ / (μ * x) ≤ 2 * τ / μ ^ 2 := by
        rw [div_le_div_iff₀ (by positivity) (by positivity)]
        nlinarith [mul_nonneg hτ hμ.le]
      have h4 : 2 * τ / μ ^ 2 ≤ 2 * τ / μ ^ 2 * Real.exp (τ / μ) :=
        le_mul_of_one_le_right (by positivity) hE
      have : 0 ≤ 2 / μ := by positivity
      linarith
  · subst h
    simp
    positivity
  · have hpos : 0 ≤ τ / μ - τ / x := by
      rw [ha]
      exact div_nonneg (mul_nonneg hτ (by linarith)) (by positivity)
    have hle : Real.exp (τ / μ - τ / x) ≤ Real.exp (τ / μ) := by
      refine Real.exp_le_exp.mpr ?_
      have : 0 ≤ τ / x := by positivity
      linarith
    have h0 : 1 ≤ Real.exp (τ / μ - τ / x) := Real.one_le_exp hpos
    have e1 : (1 - Real.exp (τ / μ - τ / x)) / (μ - x) = (Real.exp (τ / μ - τ / x) - 1) / (x - μ) := by
      rw [← neg_div_neg_eq]; ring
    rw [e1, abs_of_nonneg (div_nonneg (by linarith) (by linarith))]
    have h1 : Real.exp (τ / μ - τ / x) - 1 ≤ (τ / μ - τ / x) * Real.exp (τ / μ - τ / x) := by
      have h := Real.add_one_le_exp (-(τ / μ - τ / x))
      have hp := Real.exp_pos (τ / μ - τ / x)
      have hm : Real.exp (-(τ / μ - τ / x)) * Real.exp (τ / μ - τ / x) = 1 := by
        rw [← Real.exp_add]; simp
      nlinarith
    have h2 : (Real.exp (τ / μ - τ / x) - 1) / (x - μ) ≤ τ / (μ * x) * Real.exp (τ / μ) := by
      rw [div_le_iff₀ (by linarith)]
      calc Real.exp (τ / μ - τ / x) - 1 ≤ (τ / μ - τ / x) * Real.exp (τ / μ - τ / x) := h1
        _ ≤ (τ / μ - τ / x) * Real.exp (τ / μ) := mul_le_mul_of_nonneg_left hle hpos
        _ = _ := by rw [ha]; ring
    have h3 : τ / (μ * x) ≤ 2 * τ / μ ^ 2 := by
      rw [div_le_div_iff₀ (by positivity) (by positivity)]
      nlinarith [mul_nonneg hτ hμ.le]
    have h4 := mul_le_mul_of_nonneg_right h3 (Real.exp_pos (τ / μ)).le
    have : 0 ≤ 2 / μ := by positivity
    linarith

theorem kern_measurable (μ τ : ℝ) : Measurable (kern μ τ) := by
  unfold kern
  fun_prop

theorem integrable_unit_of_bound {f : ℝ → ℝ} (hf : AEStronglyMeasurable f (volume.restrict (Ioo 0 1)))
    {B : ℝ} (hB : ∀ x ∈ Ioo (0 : ℝ) 1, |f x| ≤ B) : IntegrableOn f (Ioo (0 : ℝ) 1) := by
  refine Integrable.mono' (integrable_const B) hf ?_
  exact (ae_restrict_iff' measurableSet_Ioo).mpr (.of_forall fun x hx => hB x hx)

theorem kern_integrable {μ τ : ℝ} (hμ : 0 < μ) (hτ : 0 ≤ τ) : IntegrableOn (kern μ τ) (Ioo 0 1) :=
  integrable_unit_of_bound (kern_measurable μ τ).aestronglyMeasurable
    fun _ hx => kern_bound hμ hτ hx.1

/-- e^(tau/mu) times the polar integral for the power -1. -/
noncomputable def KI (μ τ : ℝ) : ℝ := ∫ x in Ioo (0 : ℝ) 1, kern μ τ x

theorem KI_tendsto {μ : ℝ} (hμ : 0 < μ) : Tendsto (KI μ) (𝓝[>] 0) (𝓝 0) := by
  have h : Tendsto (fun τ => ∫ x in Ioo (0 : ℝ) 1, kern μ τ x) (𝓝[>] 0)
      (𝓝 (∫ x in Ioo (0 : ℝ) 1, (0 : ℝ))) := by
    refine tendsto_integral_filter_of_dominated_convergence
      (fun _ => 2 / μ + 2 * 1 / μ ^ 2 * Real.exp (1 / μ)) ?_ ?_ ?_ ?_
    · exact .of_forall fun τ => (kern_measurable μ τ).aestronglyMeasurable
    · have h1 : ∀ᶠ τ : ℝ in 𝓝[>] 0, τ < 1 := by
        exact (gt_mem_nhds one_pos).filter_mono nhdsWithin_le_nhds
      filter_upwards [self_mem_nhdsWithin, h1] with τ hτ hτ1
      refine (ae_restrict_iff' measurableSet_Ioo).mpr (.of_forall fun x hx => ?_)
      have hτ0 : (0 : ℝ) < τ := hτ
      refine (kern_bound hμ hτ0.le hx.1).trans ?_
      gcongr
    · exact integrable_const _
    · refine .of_forall fun x => ?_
      have : Continuous fun τ => kern μ τ x := by unfold kern; fun_prop
      have := (this.tendsto 0).mono_left (nhdsWithin_le_nhds (s := Ioi 0))
      simpa [kern] using this
  rw [integral_zero] at h
  exact h

theorem KI_hasDerivAt {μ τ : ℝ} (hμ : 0 < μ) (hτ : 0 < τ) :
    HasDerivAt (KI μ) (Real.exp (τ / μ) / μ * expInt 1 τ) τ := by
  have hae : ∀ᵐ x ∂(volume.restrict (Ioo (0 : ℝ) 1)), x ≠ μ := by
    refine ae_restrict_of_ae ?_
    exact (measure_eq_zero_iff_ae_notMem (s := {μ})).mp (by simp)
  have hin : ∀ᵐ x ∂(volume.restrict (Ioo (0 : ℝ) 1)), x ∈ Ioo (0 : ℝ) 1 :=
    ae_restrict_mem measurableSet_Ioo
  have h := hasDerivAt_integral_of_dominated_loc_of_deriv_le (μ := volume.restrict (Ioo (0 : ℝ) 1))
    (F := fun τ x => kern μ τ x) (F' := fun τ x => Real.exp (τ / μ - τ / x) / (μ * x))
    (s := Ioo (τ / 2) (2 * τ)) (x₀ := τ) (bound := fun _ => Real.exp (2 * τ / μ) * (2 / (μ * τ)))
    (Ioo_mem_nhds (by linarith) (by linarith))
    (.of_forall fun t => (kern_measurable μ t).aestronglyMeasurable)
    (kern_integrable hμ hτ.le) (Measurable.aestronglyMeasurable (by fun_prop)) ?_
    (integrable_const _) ?_
  · have h2 := h.2
    have e : ∫ x in Ioo (0 : ℝ) 1, Real.exp (τ / μ - τ / x) / (μ * x) =
        Real.exp (τ / μ) / μ * expInt 1 τ := by
      rw [expInt_one_unit, ← integral_const_mul]
      refine setIntegral_congr_fun measurableSet_Ioo fun x hx => ?_
      have hx0 : x ≠ 0 := hx.1.ne'
      rw [sub_eq_add_neg, Real.exp_add, neg_div]
      field_simp
    rw [e] at h2
    exact h2
  · filter_upwards [hin] with x hx t ht
    have hx0 := hx.1
    have ht0 : 0 < t := by have := ht.1; linarith
    have hτ2 : 0 < τ / 2 := by linarith
    rw [Real.norm_of_nonneg (by positivity), sub_eq_add_neg, Real.exp_add]
    have h1 : Real.exp (t / μ) ≤ Real.exp (2 * τ / μ) := by
      refine Real.exp_le_exp.mpr ?_
      have := ht.2
      gcongr
    have h2 : Real.exp (-(t / x)) ≤ 2 * x / τ := by
      have h3 : Real.exp (-(t / x)) ≤ Real.exp (-(τ / 2 / x)) := by
        refine Real.exp_le_exp.mpr (neg_le_neg ?_)
        have := ht.1
        gcongr
      refine h3.trans ?_
      have h4 := Real.add_one_le_exp (τ / 2 / x)
      rw [Real.exp_neg, inv_le_comm₀ (Real.exp_pos _) (by positivity)]
      have e : (2 * x / τ)⁻¹ = τ / 2 / x := by field_simp
      rw [e]
      linarith
    calc Real.exp (t / μ) * Real.exp (-(t / x)) / (μ * x)
        ≤ Real.exp (2 * τ / μ) * (2 * x / τ) / (μ * x) := by gcongr
      _ = _ := by field_simp
  · filter_upwards [hin, hae] with x hx hxμ t _
    have hx0 : x ≠ 0 := hx.1.ne'
    have hd : μ - x ≠ 0 := sub_ne_zero.mpr (Ne.symm hxμ)
    have h1 : HasDerivAt (fun t : ℝ => t / μ - t / x) (1 / μ - 1 / x) t :=
      ((hasDerivAt_id t).div_const μ).sub ((hasDerivAt_id t).div_const x)
    have h2 := (h1.exp.const_sub 1).div_const (μ - x)
    refine h2.congr_deriv ?_
    have := hμ.ne'
    field_simp
    ring

theorem expInt_one_log {t : ℝ} (ht : 0 < t) (ht1 : t ≤ 1) : expInt 1 t ≤ expInt 1 1 - Real.log t := by
  have h := expInt_one_sub ht one_pos
  have h2 : ∫ v in t..1, Real.exp (-v) / v ≤ ∫ v in t..1, 1 / v := by
    have hsub : uIcc t 1 ⊆ Ioi 0 := fun v hv => lt_of_lt_of_le (lt_min ht one_pos) hv.1
    refine intervalIntegral.integral_mono_on ht1 ?_ ?_ fun v hv => ?_
    · exact (ContinuousOn.div (by fun_prop) continuousOn_id fun t ht => (hsub ht).ne').intervalIntegrable
    · exact (ContinuousOn.div (by fun_prop) continuousOn_id fun t ht => (hsub ht).ne').intervalIntegrable
    · have hv0 : 0 < v := ht.trans_le hv.1
      refine div_le_div_of_nonneg_right ?_ hv0.le
      rw [Real.exp_le_one_iff]
      linarith
  rw [integral_one_div_of_pos ht one_pos, one_div, Real.log_inv] at h2
  linarith

theorem expInt_one_nonneg {t : ℝ} (ht : 0 < t) : 0 ≤ expInt 1 t := by
  rw [expInt_one ht]
  refine setIntegral_nonneg measurableSet_Ioi fun v hv => ?_
  have : (0 : ℝ) < v := ht.trans hv
  positivity

theorem exp_sub_one_mul_E1 {μ : ℝ} (hμ : 0 < μ) :
    Tendsto (fun t => (Real.exp (t / μ) - 1) * expInt 1 t) (𝓝[>] 0) (𝓝 0) := by
  have hc : Continuous fun t : ℝ => Real.exp (t / μ) / μ * (t * expInt 1 1 - t * Real.log t) :=
    (by fun_prop : Continuous fun t : ℝ => Real.exp (t / μ) / μ).mul
      ((continuous_id.mul continuous_const).sub Real.continuous_mul_log)
  have h0 := (hc.tendsto 0).mono_left (nhdsWithin_le_nhds (s := Ioi 0))
  simp only [zero_mul, sub_self, mul_zero] at h0
  have h1 : ∀ᶠ τ : ℝ in 𝓝[>] 0, τ < 1 := (gt_mem_nhds one_pos).filter_mono nhdsWithin_le_nhds
  refine squeeze_zero' ?_ ?_ h0
  · filter_upwards [self_mem_nhdsWithin] with t ht
    have ht0 : (0 : ℝ) < t := ht
    have := Real.one_le_exp (show 0 ≤ t / μ by positivity)
    exact mul_nonneg (by linarith) (expInt_one_nonneg ht0)
  · filter_upwards [self_mem_nhdsWithin, h1] with t ht ht1
    have ht0 : (0 : ℝ) < t := ht
    have e1 : Real.exp (t / μ) - 1 ≤ t / μ * Real.exp (t / μ) := by
      have h := Real.add_one_le_exp (-(t / μ))
      have hp := Real.exp_pos (t / μ)
      have hm : Real.exp (-(t / μ)) * Real.exp (t / μ) = 1 := by
        rw [← Real.exp_add]; simp
      nlinarith
    have e2 := expInt_one_log ht0 ht1.le
    calc (Real.exp (t / μ) - 1) * expInt 1 t ≤ t / μ * Real.exp (t / μ) * (expInt 1 1 - Real.log t) :=
          mul_le_mul e1 e2 (expInt_one_nonneg ht0) (by positivity)
      _ = _ := by ring

/-- Closed form for the power -1. -/
theorem KI_eq {μ τ : ℝ} (hμ : 0 < μ) (hμ1 : μ < 1) (hτ : 0 < τ) :
    KI μ τ = Real.log (μ / (1 - μ)) + Real.exp (τ / μ) * expInt 1 τ + Ei (τ / μ - τ) := by
  set c := (1 - μ) / μ with hc
  have hc0 : 0 < c := div_pos (by linarith) hμ
  have harg : ∀ t, t / μ - t = c * t := by intro t; rw [hc]; field_simp
  set D : ℝ → ℝ := fun t => KI μ t - (Real.log (μ / (1 - μ)) + Real.exp (t / μ) * expInt 1 t
    + Ei (c * t)) with hD
  have hder : ∀ t ∈ Ioi (0 : ℝ), HasDerivAt D 0 t := by
    intro t ht
    have ht0 : (0 : ℝ) < t := ht
    have h1 := KI_hasDerivAt hμ ht0
    have h2 : HasDerivAt (fun t : ℝ => Real.exp (t / μ)) (Real.exp (t / μ) * (1 / μ)) t :=
      ((hasDerivAt_id t).div_const μ).exp
    have h3 := h2.mul (expInt_one_hasDerivAt ht0)
    have h4 : HasDerivAt (fun t => Ei (c * t)) (Real.exp (c * t) / (c * t) * c) t := by
      have h5 : HasDerivAt (fun t : ℝ => c * t) c t := by
        simpa using (hasDerivAt_id t).const_mul c
      exact (Ei_hasDerivAt (mul_pos hc0 ht0)).comp t h5
    have h5 := h1.sub ((h3.const_add (Real.log (μ / (1 - μ)))).add h4)
    refine (h5.congr_deriv ?_).congr_of_eventuallyEq (.of_forall fun s => ?_)
    · rw [← harg t, sub_eq_add_neg (t / μ) t, Real.exp_add]
      have e : t / μ + -t = c * t := by rw [← harg]; ring
      rw [e]
      field_simp
      ring
    · simp only [hD, Pi.add_apply, Pi.mul_apply, Pi.sub_apply]
  have hconst : ∀ t ∈ Ioi (0 : ℝ), D t = D τ := by
    intro t ht
    refine isOpen_Ioi.is_const_of_deriv_eq_zero isPreconnected_Ioi
      (fun s hs => (hder s hs).differentiableAt.differentiableWithinAt)
      (fun s hs => (hder s hs).deriv) ht hτ
  have hlim : Tendsto D (𝓝[>] 0) (𝓝 0) := by
    have h1 := KI_tendsto hμ
    have h2 := E1_add_Ei hc0
    have h3 : Tendsto (fun t => (Real.exp (t / μ) - 1) * expInt 1 t) (𝓝[>] 0) (𝓝 0) :=
      exp_sub_one_mul_E1 hμ
    have h4 := h1.sub ((h3.add h2).const_add (Real.log (μ / (1 - μ))))
    have e : (0 : ℝ) - (Real.log (μ / (1 - μ)) + (0 + Real.log c)) = 0 := by
      have : μ / (1 - μ) = c⁻¹ := by rw [hc, inv_div]
      rw [this, Real.log_inv]
      ring
    rw [e] at h4
    refine h4.congr fun t => ?_
    simp only [hD]
    ring
  have hlim' : Tendsto D (𝓝[>] 0) (𝓝 (D τ)) := by
    refine tendsto_const_nhds.congr' ?_
    filter_upwards [self_mem_nhdsWithin] with t ht
    exact (hconst t ht).symm
  have h0 : D τ = 0 := tendsto_nhds_unique hlim' hlim
  have := sub_eq_zero.mp h0
  rw [harg]
  exact this

/-! ### all powers -/

/-- The polar integral of the documentation for the power `n` of the cosine. -/
noncomputable def polar (μ τ : ℝ) (n : ℕ) : ℝ :=
  ∫ x in (0 : ℝ)..1, x / (μ - x) * (Real.exp (-τ / μ) - Real.exp (-τ / x)) * x ^ n

/-- The closed form used by the code. -/
noncomputable def polarClosed (μ τ : ℝ) (n : ℕ) : ℝ :=
  μ ^ (n + 1) * (Real.exp (-τ / μ) * Real.log (μ / (1 - μ)) - Ei (-τ)
    + Real.exp (-τ / μ) * Ei (τ / μ - τ)
    + ∑ k ∈ Finset.range (n + 1),
        1 / μ ^ (k + 1) * (expInt (k + 2) τ - Real.exp (-τ / μ) / ((k + 1 : ℕ) : ℝ)))

theorem psi_integrable {μ τ : ℝ} (hμ : 0 < μ) (hτ : 0 ≤ τ) (n : ℕ) :
    IntegrableOn (fun x => x ^ n * kern μ τ x) (Ioo 0 1) := by
  refine integrable_unit_of_bound (B := 2 / μ + 2 * τ / μ ^ 2 * Real.exp (τ / μ))
    (Measurable.aestronglyMeasurable ((measurable_id.pow_const n).mul (kern_measurable μ τ))) ?_
  intro x hx
  rw [abs_mul, abs_of_nonneg (pow_nonneg hx.1.le n)]
  refine (mul_le_of_le_one_left (abs_nonneg _) (pow_le_one₀ hx.1.le hx.2.le)).trans ?_
  exact kern_bound hμ hτ hx.1

theorem pow_exp_integrable {τ : ℝ} (hτ : 0 ≤ τ) (n : ℕ) :
    IntegrableOn (fun x : ℝ => x ^ n * Real.exp (-τ / x)) (Ioo 0 1) := by
  refine integrable_unit_of_bound (B := 1) (Measurable.aestronglyMeasurable (by fun_prop)) ?_
  intro x hx
  rw [abs_of_nonneg (mul_nonneg (pow_nonneg hx.1.le n) (Real.exp_pos _).le)]
  refine mul_le_one₀ (pow_le_one₀ hx.1.le hx.2.le) (Real.exp_pos _).le ?_
  rw [Real.exp_le_one_iff]
  exact div_nonpos_of_nonpos_of_nonneg (by linarith) hx.1.le

/-- e^(tau/mu) times the moments of the kernel. -/
noncomputable def KM (μ τ : ℝ) (n : ℕ) : ℝ := ∫ x in Ioo (0 : ℝ) 1, x ^ n * kern μ τ x

theorem pow_integral (n : ℕ) : ∫ x in Ioo (0 : ℝ) 1, x ^ n = 1 / ((n + 1 : ℕ) : ℝ) := by
  rw [← integral_Ioc_eq_integral_Ioo, ← intervalIntegral.integral_of_le zero_le_one, integral_pow]
  simp

theorem KM_succ {μ τ : ℝ} (hμ : 0 < μ) (hτ : 0 ≤ τ) (n : ℕ) :
    KM μ τ (n + 1) = μ * KM μ τ n - (1 / ((n + 1 : ℕ) : ℝ) - Real.exp (τ / μ) * expInt (n + 2) τ) := by
  unfold KM
  rw [expInt_unit', ← pow_integral, ← integral_const_mul, ← integral_const_mul, ← integral_sub,
    ← integral_sub]
  · refine setIntegral_congr_fun measurableSet_Ioo fun x hx => ?_
    have hx0 : x ≠ 0 := hx.1.ne'
    have e : Real.exp (τ / μ - τ / x) = Real.exp (τ / μ) * Real.exp (-τ / x) := by
      rw [← Real.exp_add, neg_div, ← sub_eq_add_neg]
    simp only [kern]
    rw [e]
    by_cases h : x = μ
    · subst h
      have e2 : Real.exp (τ / x) * Real.exp (-τ / x) = 1 := by
        rw [← Real.exp_add, neg_div]; simp
      simp only [sub_self, div_zero, mul_zero]
      linear_combination -(x ^ n * e2)
    · have hd : μ - x ≠ 0 := sub_ne_zero.mpr (Ne.symm h)
      field_simp
      ring
  · exact (psi_integrable hμ hτ n).const_mul μ
  · refine Integrable.sub ?_ ?_
    · exact integrable_unit_of_bound (B := 1) (Measurable.aestronglyMeasurable (by fun_prop))
        fun x hx => by
          rw [abs_of_nonneg (pow_nonneg hx.1.le n)]
          exact pow_le_one₀ hx.1.le hx.2.le
    · exact (pow_exp_integrable hτ n).const_mul _
  · exact integrable_unit_of_bound (B := 1) (Measurable.aestronglyMeasurable (by fun_prop))
      fun x hx => by
        rw [abs_of_nonneg (pow_nonneg hx.1.le n)]
        exact pow_le_one₀ hx.1.le hx.2.le
  · exact (pow_exp_integrable hτ n).const_mul _

theorem polar_eq_KM {μ τ : ℝ} (n : ℕ) : polar μ τ n = Real.exp (-τ / μ) * KM μ τ (n + 1) := by
  unfold polar KM
  rw [intervalIntegral.integral_of_le zero_le_one, integral_Ioc_eq_integral_Ioo, ← integral_const_mul]
  refine setIntegral_congr_fun measurableSet_Ioo fun x hx => ?_
  have e : Real.exp (-τ / x) = Real.exp (-τ / μ) * Real.exp (τ / μ - τ / x) := by
    rw [← Real.exp_add]; congr 1; ring
  simp only [kern]
  rw [e]
  ring

/-- The closed form is the defining integral. -/
theorem polar_closed {μ τ : ℝ} (hμ : 0 < μ) (hμ1 : μ < 1) (hτ : 0 < τ) (n : ℕ) :
    polar μ τ n = polarClosed μ τ n := by
  have hE : Real.exp (-τ / μ) * Real.exp (τ / μ) = 1 := by
    rw [← Real.exp_add, neg_div]; simp
  rw [polar_eq_KM]
  unfold polarClosed
  rw [Ei_neg hτ]
  induction n with
  | zero =>
    have h0 : KM μ τ 0 = KI μ τ := by unfold KM KI; simp
    rw [KM_succ hμ hτ.le, h0, KI_eq hμ hμ1 hτ]
    simp only [zero_add, Finset.sum_range_one, pow_one, Nat.cast_one, div_one]
    have := hμ.ne'
    field_simp
    rw [neg_div] at hE
    linear_combination (μ * expInt 1 τ + expInt 2 τ) * hE
  | succ n ih =>
    rw [KM_succ hμ hτ.le, Finset.sum_range_succ]
    have e : Real.exp (-τ / μ) * (μ * KM μ τ (n + 1) -
        (1 / ((n + 1 + 1 : ℕ) : ℝ) - Real.exp (τ / μ) * expInt (n + 1 + 2) τ)) =
        μ * (Real.exp (-τ / μ) * KM μ τ (n + 1)) - Real.exp (-τ / μ) / ((n + 1 + 1 : ℕ) : ℝ)
          + expInt (n + 1 + 2) τ := by
      linear_combination expInt (n + 1 + 2) τ * hE
    rw [e, ih]
    have := hμ.ne'
    field_simp
    ring

end RT1
