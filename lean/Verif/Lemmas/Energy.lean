import Mathlib.MeasureTheory.Integral.Prod
import Mathlib.MeasureTheory.Integral.DominatedConvergence
import Mathlib.Analysis.SpecialFunctions.Integrals.Basic
import Mathlib.Analysis.Convex.SpecificFunctions.Basic
import Verif.Spec.Energy
import Verif.Spec.Interaction

/-!
# Energy balance of a layer above a surface

Real analysis for C74: the energy of single scattering, surface reflection and the interaction of
both, summed over all exit directions, does not exceed the incoming energy.
-/

namespace RT1.Energy

noncomputable section

open MeasureTheory Real

/-! ### inequalities for the weights -/

/-- Convexity of the exponential function. -/
theorem exp_convex {u v : ℝ} (hu : 0 ≤ u) (hv : u ≤ v) : v * exp (-u) ≤ (v - u) + u * exp (-v) := by
  rcases hu.eq_or_lt with rfl | hu'
  · simp
  have hv0 : 0 < v := hu'.trans_le hv
  have h1 : 0 ≤ (v - u) / v := div_nonneg (by linarith) hv0.le
  have h2 : 0 ≤ u / v := div_nonneg hu hv0.le
  have h3 : (v - u) / v + u / v = 1 := by field_simp; ring
  have h := convexOn_exp.2 (Set.mem_univ 0) (Set.mem_univ (-v)) h1 h2 h3
  simp only [smul_eq_mul, mul_zero, zero_add, exp_zero, mul_one] at h
  have e : u / v * -v = -u := by field_simp
  rw [e] at h
  calc v * exp (-u) ≤ v * ((v - u) / v + u / v * exp (-v)) := mul_le_mul_of_nonneg_left h hv0.le
    _ = _ := by field_simp

/-- Weight of the documentation: from depth zero along the direction with cosine `μ`, then down
along the direction with cosine `ν`. -/
def weight (τ μ ν : ℝ) : ℝ := ν / (μ - ν) * (exp (-τ / μ) - exp (-τ / ν))

theorem weight_le {τ μ ν : ℝ} (hτ : 0 ≤ τ) (hμ : 0 < μ) (hν : 0 ≤ ν) : weight τ μ ν ≤ 1 - exp (-τ / μ) := by
  have h0 : 0 ≤ 1 - exp (-τ / μ) := by
    have : exp (-τ / μ) ≤ 1 := exp_le_one_iff.mpr (div_nonpos_of_nonpos_of_nonneg (by linarith) hμ.le)
    linarith
  rcases hν.eq_or_lt with rfl | hν
  · simpa [weight] using h0
  unfold weight
  have e1 : -τ / μ = -(τ / μ) := by ring
  have e2 : -τ / ν = -(τ / ν) := by ring
  rw [e1] at h0 ⊢
  rw [e2]
  rcases lt_trichotomy ν μ with h | h | h
  · -- y > x
    have hxy : τ / μ ≤ τ / ν := div_le_div_of_nonneg_left hτ hν h.le
    have k1 : exp (-(τ / μ)) - exp (-(τ / ν)) ≤ (τ / ν - τ / μ) * exp (-(τ / μ)) := by
      have := add_one_le_exp (-(τ / ν - τ / μ))
      have e : exp (-(τ / ν)) = exp (-(τ / μ)) * exp (-(τ / ν - τ / μ)) := by rw [← exp_add]; congr 1; ring
      rw [e]
      have hp := (exp_pos (-(τ / μ))).le
      nlinarith [mul_le_mul_of_nonneg_left this hp]
    have k2 : τ / μ * exp (-(τ / μ)) ≤ 1 - exp (-(τ / μ)) := by
      have := add_one_le_exp (τ / μ)
      have e : exp (τ / μ) * exp (-(τ / μ)) = 1 := by rw [← exp_add]; simp
      have hp := (exp_pos (-(τ / μ))).le
      nlinarith [mul_le_mul_of_nonneg_right this hp]
    have hd : 0 < μ - ν := by linarith
    calc ν / (μ - ν) * (exp (-(τ / μ)) - exp (-(τ / ν))) ≤ ν / (μ - ν) * ((τ / ν - τ / μ) * exp (-(τ / μ))) :=
          mul_le_mul_of_nonneg_left k1 (by positivity)
      _ = τ / μ * exp (-(τ / μ)) := by field_simp
      _ ≤ _ := k2
  · rw [h]; simpa using h0
  · have hxy : τ / ν ≤ τ / μ := div_le_div_of_nonneg_left hτ hμ h.le
    have k := exp_convex (div_nonneg hτ hν.le) hxy
    have hd : 0 < ν - μ := by linarith
    rcases hτ.eq_or_lt with rfl | hτ
    · simp
    have k' : τ / μ * (exp (-(τ / ν)) - exp (-(τ / μ))) ≤ (τ / μ - τ / ν) * (1 - exp (-(τ / μ))) := by
      linarith [k]
    have e : ν / (μ - ν) * (exp (-(τ / μ)) - exp (-(τ / ν))) =
        (μ * ν / (τ * (ν - μ))) * (τ / μ * (exp (-(τ / ν)) - exp (-(τ / μ)))) := by
      have : μ - ν ≠ 0 := by linarith
      field_simp
      ring
    rw [e]
    calc _ ≤ (μ * ν / (τ * (ν - μ))) * ((τ / μ - τ / ν) * (1 - exp (-(τ / μ)))) :=
          mul_le_mul_of_nonneg_left k' (by positivity)
      _ = _ := by field_simp

theorem mul_weight_le {τ μ ν : ℝ} (hτ : 0 ≤ τ) (hμ : 0 ≤ μ) (hν : 0 ≤ ν) :
    μ * weight τ μ ν ≤ ν - ν * exp (-τ / ν) := by
  rcases hν.eq_or_lt with rfl | hν
  · simp [weight]
  have e : μ * weight τ μ ν = ν * weight τ ν μ := by
    unfold weight
    rcases eq_or_ne μ ν with h | h
    · rw [h]
    · have h1 : μ - ν ≠ 0 := sub_ne_zero.mpr h
      have h2 : ν - μ ≠ 0 := sub_ne_zero.mpr h.symm
      field_simp
      ring
  rw [e]
  have := mul_le_mul_of_nonneg_left (weight_le hτ hν hμ) hν.le
  linarith

/-- Weight of the volume contribution. -/
theorem volume_weight_le {τ μ0 μ : ℝ} (hτ : 0 ≤ τ) (h0 : 0 < μ0) (hμ : 0 ≤ μ) :
    μ * (μ0 / (μ0 + μ) * (1 - exp (-(τ / μ0)) * exp (-(τ / μ)))) ≤ μ0 * (1 - exp (-(τ / μ0))) := by
  have hp : 0 ≤ 1 - exp (-(τ / μ0)) := by
    have : exp (-(τ / μ0)) ≤ 1 := exp_le_one_iff.mpr (by have := div_nonneg hτ h0.le; linarith)
    linarith
  rcases hμ.eq_or_lt with rfl | hμ
  · simpa using mul_nonneg h0.le hp
  rcases hτ.eq_or_lt with rfl | hτ
  · simp
  have k := exp_convex (u := τ / μ0) (v := τ / μ0 + τ / μ) (by positivity) (by have := div_nonneg hτ.le hμ.le; linarith)
  rw [← exp_add]
  have e : -(τ / μ0) + -(τ / μ) = -(τ / μ0 + τ / μ) := by ring
  rw [e]
  have k' : τ / μ0 * (1 - exp (-(τ / μ0 + τ / μ))) ≤ (τ / μ0 + τ / μ) * (1 - exp (-(τ / μ0))) := by linarith [k]
  have e1 : μ * (μ0 / (μ0 + μ) * (1 - exp (-(τ / μ0 + τ / μ)))) =
      (μ0 ^ 2 * μ / (τ * (μ0 + μ))) * (τ / μ0 * (1 - exp (-(τ / μ0 + τ / μ)))) := by
    field_simp
  have e2 : μ0 * (1 - exp (-(τ / μ0))) = (μ0 ^ 2 * μ / (τ * (μ0 + μ))) * ((τ / μ0 + τ / μ) * (1 - exp (-(τ / μ0)))) := by
    field_simp
    ring
  rw [e1, e2]
  exact mul_le_mul_of_nonneg_left k' (by positivity)

/-! ### integrals over the upper hemisphere -/

/-- Directions of the upper hemisphere as (zenith angle, azimuth), without the weight sin. -/
def ν : Measure (ℝ × ℝ) := (MeasureTheory.volume.restrict (Set.Ioc 0 (π / 2))).prod (MeasureTheory.volume.restrict (Set.Ioc 0 (2 * π)))

instance : IsFiniteMeasure ν := by unfold ν; infer_instance

theorem ν_eq : ν = MeasureTheory.volume.restrict (Set.Ioc 0 (π / 2) ×ˢ Set.Ioc 0 (2 * π)) := by
  unfold ν
  rw [Measure.prod_restrict, Measure.volume_eq_prod]

theorem integrable {g : ℝ × ℝ → ℝ} (hg : Continuous g) : Integrable g ν := by
  rw [ν_eq]
  exact (hg.continuousOn.integrableOn_compact (isCompact_Icc.prod isCompact_Icc)).mono_set
    (Set.prod_mono Set.Ioc_subset_Icc_self Set.Ioc_subset_Icc_self)

theorem integrable2 {g : (ℝ × ℝ) × (ℝ × ℝ) → ℝ} (hg : Continuous g) : Integrable g (ν.prod ν) := by
  rw [ν_eq, Measure.prod_restrict, ← Measure.volume_eq_prod]
  exact (hg.continuousOn.integrableOn_compact ((isCompact_Icc.prod isCompact_Icc).prod
    (isCompact_Icc.prod isCompact_Icc))).mono_set
    (Set.prod_mono (Set.prod_mono Set.Ioc_subset_Icc_self Set.Ioc_subset_Icc_self)
      (Set.prod_mono Set.Ioc_subset_Icc_self Set.Ioc_subset_Icc_self))

theorem swap {g : ℝ × ℝ → ℝ × ℝ → ℝ} (hg : Continuous (Function.uncurry g)) :
    ∫ x, ∫ y, g x y ∂ν ∂ν = ∫ y, ∫ x, g x y ∂ν ∂ν := integral_integral_swap (integrable2 hg)

theorem two_pi_nonneg : (0 : ℝ) ≤ 2 * π := by positivity
theorem half_pi_nonneg : (0 : ℝ) ≤ π / 2 := by positivity

/-- The measure as iterated integral, azimuth outside. -/
theorem eq_iter {g : ℝ × ℝ → ℝ} (hg : Continuous g) :
    ∫ p in (0 : ℝ)..2 * π, ∫ t in (0 : ℝ)..π / 2, g (t, p) = ∫ z, g z ∂ν := by
  rw [intervalIntegral.integral_of_le two_pi_nonneg]
  simp only [intervalIntegral.integral_of_le half_pi_nonneg]
  have := integral_prod_symm (μ := MeasureTheory.volume.restrict (Set.Ioc 0 (π / 2))) (ν := MeasureTheory.volume.restrict (Set.Ioc 0 (2 * π))) g
    (integrable hg)
  exact this.symm

/-- The measure as iterated integral, azimuth inside. -/
theorem eq_iter' {g : ℝ × ℝ → ℝ} (hg : Continuous g) :
    ∫ t in (0 : ℝ)..π / 2, ∫ p in (0 : ℝ)..2 * π, g (t, p) = ∫ z, g z ∂ν := by
  rw [intervalIntegral.integral_of_le half_pi_nonneg]
  simp only [intervalIntegral.integral_of_le two_pi_nonneg]
  exact (integral_prod (μ := MeasureTheory.volume.restrict (Set.Ioc 0 (π / 2))) (ν := MeasureTheory.volume.restrict (Set.Ioc 0 (2 * π))) g
    (integrable hg)).symm

/-- A bound for an integral (that need not exist). -/
theorem int_le {a b : ℝ} (hab : a ≤ b) {g h : ℝ → ℝ} (hh : Continuous h) (h0 : ∀ x ∈ Set.Icc a b, 0 ≤ h x)
    (hgh : ∀ x ∈ Set.Icc a b, g x ≤ h x) : ∫ x in a..b, g x ≤ ∫ x in a..b, h x := by
  by_cases hi : IntervalIntegrable g MeasureTheory.volume a b
  · exact intervalIntegral.integral_mono_on hab hi (hh.intervalIntegrable _ _) hgh
  · rw [intervalIntegral.integral_undef hi]
    exact intervalIntegral.integral_nonneg hab h0

/-- A bound for an iterated integral, azimuth outside. -/
theorem iter_le {g : ℝ → ℝ → ℝ} {h : ℝ × ℝ → ℝ} (hh : Continuous h)
    (h0 : ∀ t ∈ Set.Icc 0 (π / 2), ∀ p ∈ Set.Icc 0 (2 * π), 0 ≤ h (t, p))
    (hgh : ∀ t ∈ Set.Icc 0 (π / 2), ∀ p ∈ Set.Icc 0 (2 * π), g t p ≤ h (t, p)) :
    ∫ p in (0 : ℝ)..2 * π, ∫ t in (0 : ℝ)..π / 2, g t p ≤ ∫ z, h z ∂ν := by
  rw [← eq_iter hh]
  refine int_le two_pi_nonneg (intervalIntegral.continuous_parametric_intervalIntegral_of_continuous'
    (f := fun p t => h (t, p)) (hh.comp (by fun_prop)) _ _)
    (fun p hp => intervalIntegral.integral_nonneg half_pi_nonneg fun t ht => h0 t ht p hp)
    (fun p hp => int_le half_pi_nonneg (hh.comp (by fun_prop)) (fun t ht => h0 t ht p hp) fun t ht => hgh t ht p hp)

/-- A bound for an iterated integral, azimuth inside. -/
theorem iter_le' {g : ℝ → ℝ → ℝ} {h : ℝ × ℝ → ℝ} (hh : Continuous h)
    (h0 : ∀ t ∈ Set.Icc 0 (π / 2), ∀ p ∈ Set.Icc 0 (2 * π), 0 ≤ h (t, p))
    (hgh : ∀ t ∈ Set.Icc 0 (π / 2), ∀ p ∈ Set.Icc 0 (2 * π), g t p ≤ h (t, p)) :
    ∫ t in (0 : ℝ)..π / 2, ∫ p in (0 : ℝ)..2 * π, g t p ≤ ∫ z, h z ∂ν := by
  rw [← eq_iter' hh]
  refine int_le half_pi_nonneg (intervalIntegral.continuous_parametric_intervalIntegral_of_continuous'
    (f := fun t p => h (t, p)) (hh.comp (by fun_prop)) _ _)
    (fun t ht => intervalIntegral.integral_nonneg two_pi_nonneg fun p hp => h0 t ht p hp)
    (fun t ht => int_le two_pi_nonneg (hh.comp (by fun_prop)) (fun p hp => h0 t ht p hp) fun p hp => hgh t ht p hp)

/-- Monotonicity for functions on the hemisphere. -/
theorem mono {g h : ℝ × ℝ → ℝ} (hg : Continuous g) (hh : Continuous h)
    (hgh : ∀ t ∈ Set.Icc 0 (π / 2), ∀ p ∈ Set.Icc 0 (2 * π), g (t, p) ≤ h (t, p)) :
    ∫ z, g z ∂ν ≤ ∫ z, h z ∂ν := by
  have hi := integrable hg
  have hj := integrable hh
  rw [ν_eq] at hi hj ⊢
  refine setIntegral_mono_on hi hj (measurableSet_Ioc.prod measurableSet_Ioc) fun z hz => ?_
  exact hgh z.1 (Set.Ioc_subset_Icc_self hz.1) z.2 (Set.Ioc_subset_Icc_self hz.2)

/-! ### cosine and attenuated cosine as continuous functions -/

/-- Cosine of the zenith angle, 0 below the horizon. -/
def cs (t : ℝ) : ℝ := max (cos t) 0

theorem cs_cont : Continuous cs := continuous_cos.max continuous_const

theorem cs_eq {t : ℝ} (ht : t ∈ Set.Icc 0 (π / 2)) : cs t = cos t :=
  max_eq_left (cos_nonneg_of_neg_pi_div_two_le_of_le (by linarith [ht.1, pi_pos]) ht.2)

theorem cs_nonneg (t : ℝ) : 0 ≤ cs t := le_max_right _ _

/-- Attenuated cosine. -/
def att (τ t : ℝ) : ℝ := cs t * exp (-τ / cs t)

theorem att_nonneg (τ t : ℝ) : 0 ≤ att τ t := mul_nonneg (cs_nonneg t) (exp_pos _).le

theorem att_le {τ : ℝ} (hτ : 0 ≤ τ) (t : ℝ) : att τ t ≤ cs t := by
  have : exp (-τ / cs t) ≤ 1 := exp_le_one_iff.mpr (div_nonpos_of_nonpos_of_nonneg (by linarith) (cs_nonneg t))
  exact mul_le_of_le_one_right (cs_nonneg t) this

theorem att_cont {τ : ℝ} (hτ : 0 ≤ τ) : Continuous (att τ) := by
  rw [continuous_iff_continuousAt]
  intro t
  rcases (cs_nonneg t).eq_or_lt with h | h
  · have e : att τ t = 0 := by unfold att; rw [← h]; simp
    unfold ContinuousAt
    rw [e]
    refine squeeze_zero (fun x => att_nonneg τ x) (fun x => att_le hτ x) ?_
    have := cs_cont.tendsto t
    rwa [← h] at this
  · exact cs_cont.continuousAt.mul ((continuousAt_const.div cs_cont.continuousAt h.ne').rexp)

theorem sin_nonneg' {t : ℝ} (ht : t ∈ Set.Icc 0 (π / 2)) : 0 ≤ sin t :=
  sin_nonneg_of_nonneg_of_le_pi ht.1 (by linarith [ht.2, pi_pos])

/-- Integrals over the hemisphere of continuous functions depending on a parameter. -/
theorem cont_param {X : Type*} [TopologicalSpace X] {g : X → ℝ × ℝ → ℝ} (hg : Continuous (Function.uncurry g)) :
    Continuous fun x => ∫ z, g x z ∂ν := by
  have e : (fun x => ∫ z, g x z ∂ν) = fun x => ∫ t in (0 : ℝ)..π / 2, ∫ p in (0 : ℝ)..2 * π, g x (t, p) := by
    funext x
    exact (eq_iter' (hg.comp (by fun_prop : Continuous fun z : ℝ × ℝ => (x, z)))).symm
  rw [e]
  refine intervalIntegral.continuous_parametric_intervalIntegral_of_continuous'
    (f := fun x t => ∫ p in (0 : ℝ)..2 * π, g x (t, p)) ?_ _ _
  refine intervalIntegral.continuous_parametric_intervalIntegral_of_continuous'
    (f := fun (y : X × ℝ) p => g y.1 (y.2, p)) ?_ _ _
  exact hg.comp (by fun_prop : Continuous fun y : (X × ℝ) × ℝ => (y.1.1, (y.1.2, y.2)))

theorem cont_param' {g : ℝ × ℝ → ℝ × ℝ → ℝ} (hg : Continuous (Function.uncurry g)) :
    Continuous fun y => ∫ x, g x y ∂ν :=
  cont_param (g := fun y x => g x y) (hg.comp continuous_swap)

theorem _root_.RT1.Bidir.Cont.comp {P : Bidir} (h : P.Cont) {X : Type*} [TopologicalSpace X] {a b c d : X → ℝ} (ha : Continuous a)
    (hb : Continuous b) (hc : Continuous c) (hd : Continuous d) : Continuous fun x => P (a x) (b x) (c x) (d x) :=
  Continuous.comp (g := fun x : (ℝ × ℝ) × (ℝ × ℝ) => P x.1.1 x.2.1 x.1.2 x.2.2)
    (f := fun x => ((a x, c x), (b x, d x))) h (by fun_prop)

section
variable {P F : Bidir} {R : ℝ} (h : Balanced P F R)
include h

theorem _root_.RT1.Balanced.refl' {t : ℝ} (ht : t ∈ Set.Icc 0 (π / 2)) (p : ℝ) :
    ∫ z, F t z.1 p z.2 * cs z.1 * sin z.1 ∂ν ≤ R := by
  have hc : Continuous fun z : ℝ × ℝ => F t z.1 p z.2 * cs z.1 * sin z.1 :=
    ((h.contF.comp (by fun_prop) (by fun_prop) (by fun_prop) (by fun_prop)).mul (cs_cont.comp continuous_fst)).mul
      (by fun_prop)
  refine le_trans (le_of_eq ?_) (h.refl t ht p)
  rw [← eq_iter hc]
  unfold hemReflectance
  refine intervalIntegral.integral_congr fun q _ => intervalIntegral.integral_congr fun s hs => ?_
  rw [Set.uIcc_of_le half_pi_nonneg] at hs
  simp only
  rw [cs_eq hs]

/-- Upward and downward part of the layer. -/
theorem _root_.RT1.Balanced.halves (t p : ℝ) :
    ∫ z, P t z.1 p z.2 * sin z.1 ∂ν + ∫ z, P t (π - z.1) p z.2 * sin z.1 ∂ν = 1 := by
  have c1 : Continuous fun z : ℝ × ℝ => P t z.1 p z.2 * sin z.1 :=
    (h.contP.comp (by fun_prop) (by fun_prop) (by fun_prop) (by fun_prop)).mul (by fun_prop)
  have c2 : Continuous fun z : ℝ × ℝ => P t (π - z.1) p z.2 * sin z.1 :=
    (h.contP.comp (by fun_prop) (by fun_prop) (by fun_prop) (by fun_prop)).mul (by fun_prop)
  rw [← eq_iter c1, ← eq_iter c2, ← h.norm t p, ← intervalIntegral.integral_add]
  · unfold sphereIntegral
    refine intervalIntegral.integral_congr fun q _ => ?_
    simp only
    have c : Continuous fun s => P t s p q * sin s :=
      (h.contP.comp (by fun_prop) (by fun_prop) (by fun_prop) (by fun_prop)).mul (by fun_prop)
    have e : ∫ s in (0 : ℝ)..π / 2, P t (π - s) p q * sin s = ∫ s in (π / 2)..π, P t s p q * sin s := by
      have := intervalIntegral.integral_comp_sub_left (a := 0) (b := π / 2) (fun s => P t s p q * sin s) π
      simp only [sin_pi_sub, sub_zero] at this
      rw [this]
      congr 1
      ring
    rw [e, intervalIntegral.integral_add_adjacent_intervals (c.intervalIntegrable _ _) (c.intervalIntegrable _ _)]
  · exact (intervalIntegral.continuous_parametric_intervalIntegral_of_continuous'
      (f := fun q s => P t s p q * sin s) (c1.comp (by fun_prop : Continuous fun y : ℝ × ℝ => (y.2, y.1))) _ _).intervalIntegrable _ _
  · exact (intervalIntegral.continuous_parametric_intervalIntegral_of_continuous'
      (f := fun q s => P t (π - s) p q * sin s) (c2.comp (by fun_prop : Continuous fun y : ℝ × ℝ => (y.2, y.1))) _ _).intervalIntegrable _ _

theorem _root_.RT1.Balanced.up_le (t p : ℝ) : ∫ z, P t z.1 p z.2 * sin z.1 ∂ν ≤ 1 := by
  have c2 : Continuous fun z : ℝ × ℝ => P t (π - z.1) p z.2 * sin z.1 :=
    (h.contP.comp (by fun_prop) (by fun_prop) (by fun_prop) (by fun_prop)).mul (by fun_prop)
  have h1 := h.halves t p
  have h2 : 0 ≤ ∫ z, P t (π - z.1) p z.2 * sin z.1 ∂ν := by
    have := mono (g := fun _ => 0) continuous_const c2 fun s hs q _ => mul_nonneg (h.P0 _ _ _ _) (sin_nonneg' hs)
    simpa using this
  linarith

/-- Layer, then surface: at most the fraction `R` of what goes down. -/
theorem _root_.RT1.Balanced.down_up (t p : ℝ) :
    ∫ z, cs z.1 * sin z.1 * ∫ y, P t (π - y.1) p y.2 * F y.1 z.1 y.2 z.2 * sin y.1 ∂ν ∂ν
      ≤ R * ∫ y, P t (π - y.1) p y.2 * sin y.1 ∂ν := by
  have cP : Continuous fun y : ℝ × ℝ => P t (π - y.1) p y.2 * sin y.1 :=
    (h.contP.comp (by fun_prop) (by fun_prop) (by fun_prop) (by fun_prop)).mul (by fun_prop)
  have cg : Continuous (Function.uncurry fun z y : ℝ × ℝ =>
      cs z.1 * sin z.1 * (P t (π - y.1) p y.2 * F y.1 z.1 y.2 z.2 * sin y.1)) := by
    have h1 : Continuous fun x : (ℝ × ℝ) × (ℝ × ℝ) => P t (π - x.2.1) p x.2.2 :=
      h.contP.comp (by fun_prop) (by fun_prop) (by fun_prop) (by fun_prop)
    have h2 : Continuous fun x : (ℝ × ℝ) × (ℝ × ℝ) => F x.2.1 x.1.1 x.2.2 x.1.2 :=
      h.contF.comp (by fun_prop) (by fun_prop) (by fun_prop) (by fun_prop)
    have h3 : Continuous fun x : (ℝ × ℝ) × (ℝ × ℝ) => cs x.1.1 := cs_cont.comp (by fun_prop)
    exact (h3.mul (by fun_prop)).mul ((h1.mul h2).mul (by fun_prop))
  simp only [← integral_const_mul]
  rw [swap cg]
  refine mono (cont_param' cg) (continuous_const.mul cP) fun s hs q _ => ?_
  simp only
  have e : ∀ z : ℝ × ℝ, cs z.1 * sin z.1 * (P t (π - s) p q * F s z.1 q z.2 * sin s) =
      (P t (π - s) p q * sin s) * (F s z.1 q z.2 * cs z.1 * sin z.1) := fun z => by ring
  simp only [e]
  rw [integral_const_mul]
  have := mul_le_mul_of_nonneg_left (h.refl' hs q) (mul_nonneg (h.P0 t (π - s) p q) (sin_nonneg' hs))
  linarith

/-- Surface, then layer: at most what the layer takes from the reflected energy. -/
theorem _root_.RT1.Balanced.up_up {τ : ℝ} (hτ : 0 ≤ τ) (t p : ℝ) :
    ∫ z, sin z.1 * ∫ y, (cs y.1 - att τ y.1) * (P z.1 (π - y.1) z.2 y.2 * F y.1 t y.2 p) * sin y.1 ∂ν ∂ν
      ≤ ∫ y, F t y.1 p y.2 * (cs y.1 - att τ y.1) * sin y.1 ∂ν := by
  have cF : Continuous fun y : ℝ × ℝ => F t y.1 p y.2 * (cs y.1 - att τ y.1) * sin y.1 :=
    ((h.contF.comp (by fun_prop) (by fun_prop) (by fun_prop) (by fun_prop)).mul ((cs_cont.comp continuous_fst).sub
      ((att_cont hτ).comp continuous_fst))).mul (by fun_prop)
  have cg : Continuous (Function.uncurry fun z y : ℝ × ℝ =>
      sin z.1 * ((cs y.1 - att τ y.1) * (P z.1 (π - y.1) z.2 y.2 * F y.1 t y.2 p) * sin y.1)) := by
    have h1 : Continuous fun x : (ℝ × ℝ) × (ℝ × ℝ) => P x.1.1 (π - x.2.1) x.1.2 x.2.2 :=
      h.contP.comp (by fun_prop) (by fun_prop) (by fun_prop) (by fun_prop)
    have h2 : Continuous fun x : (ℝ × ℝ) × (ℝ × ℝ) => F x.2.1 t x.2.2 p :=
      h.contF.comp (by fun_prop) (by fun_prop) (by fun_prop) (by fun_prop)
    have h3 : Continuous fun x : (ℝ × ℝ) × (ℝ × ℝ) => cs x.2.1 := cs_cont.comp (by fun_prop)
    have h4 : Continuous fun x : (ℝ × ℝ) × (ℝ × ℝ) => att τ x.2.1 := (att_cont hτ).comp (by fun_prop)
    have h5 : Continuous fun x : (ℝ × ℝ) × (ℝ × ℝ) => sin x.1.1 := by fun_prop
    have h6 : Continuous fun x : (ℝ × ℝ) × (ℝ × ℝ) => sin x.2.1 := by fun_prop
    exact h5.mul (((h3.sub h4).mul (h1.mul h2)).mul h6)
  simp only [← integral_const_mul]
  rw [swap cg]
  refine mono (cont_param' cg) cF fun s hs q _ => ?_
  simp only
  have e : ∀ z : ℝ × ℝ, sin z.1 * ((cs s - att τ s) * (P z.1 (π - s) z.2 q * F s t q p) * sin s) =
      (F t s p q * (cs s - att τ s) * sin s) * (P (π - s) z.1 q z.2 * sin z.1) := fun z => by
    rw [h.symP z.1, h.symF s]; ring
  simp only [e]
  rw [integral_const_mul]
  refine mul_le_of_le_one_right ?_ (h.up_le _ _)
  exact mul_nonneg (mul_nonneg (h.F0 _ _ _ _) (by linarith [att_le hτ s])) (sin_nonneg' hs)

end

theorem int_sum5 {f1 f2 f3 f4 f5 : ℝ × ℝ → ℝ} (h1 : Continuous f1) (h2 : Continuous f2) (h3 : Continuous f3)
    (h4 : Continuous f4) (h5 : Continuous f5) {c1 c2 c3 c4 c5 : ℝ} :
    ∫ z, (c1 * f1 z + c2 * f2 z + c3 * f3 z + c4 * f4 z + c5 * f5 z) ∂ν =
      c1 * (∫ z, f1 z ∂ν) + c2 * (∫ z, f2 z ∂ν) + c3 * (∫ z, f3 z ∂ν) + c4 * (∫ z, f4 z ∂ν) + c5 * ∫ z, f5 z ∂ν := by
  rw [integral_add (integrable (by fun_prop)) (integrable (by fun_prop)),
    integral_add (integrable (by fun_prop)) (integrable (by fun_prop)),
    integral_add (integrable (by fun_prop)) (integrable (by fun_prop)),
    integral_add (integrable (by fun_prop)) (integrable (by fun_prop))]
  simp only [integral_const_mul]

/-! ### the weight of the interaction -/

theorem weight_nonneg {τ μ ν : ℝ} (hτ : 0 ≤ τ) (hμ : 0 < μ) (hν : 0 ≤ ν) : 0 ≤ weight τ μ ν := by
  rcases hν.eq_or_lt with rfl | hν
  · simp [weight]
  unfold weight
  rcases le_total ν μ with h | h
  · refine mul_nonneg (div_nonneg hν.le (by linarith)) (sub_nonneg.mpr (exp_le_exp.mpr ?_))
    rw [div_le_div_iff₀ hν hμ]
    nlinarith
  · refine mul_nonneg_of_nonpos_of_nonpos (div_nonpos_of_nonneg_of_nonpos hν.le (by linarith))
      (sub_nonpos.mpr (exp_le_exp.mpr ?_))
    rw [div_le_div_iff₀ hμ hν]
    nlinarith

theorem weight_le_one {τ μ ν : ℝ} (hτ : 0 ≤ τ) (hμ : 0 < μ) (hν : 0 ≤ ν) : weight τ μ ν ≤ 1 :=
  (weight_le hτ hμ hν).trans (by linarith [exp_pos (-τ / μ)])

theorem weight_meas (τ : ℝ) : Measurable fun x : ℝ × ℝ => weight τ x.1 x.2 := by
  unfold weight
  fun_prop

theorem ae_mem : ∀ᵐ z ∂ν, z.1 ∈ Set.Ioo 0 (π / 2) ∧ z.2 ∈ Set.Ioo 0 (2 * π) := by
  have e : ν = MeasureTheory.volume.restrict (Set.Ioo 0 (π / 2) ×ˢ Set.Ioo 0 (2 * π)) := by
    unfold ν
    rw [← restrict_Ioo_eq_restrict_Ioc, ← restrict_Ioo_eq_restrict_Ioc, Measure.prod_restrict, Measure.volume_eq_prod]
  rw [e]
  filter_upwards [ae_restrict_mem (measurableSet_Ioo.prod measurableSet_Ioo)] with z hz
  exact hz

/-- Bounded measurable functions are integrable. -/
theorem integrable_of_le {g h : ℝ × ℝ → ℝ} (hg : Measurable g) (hh : Continuous h)
    (hgh : ∀ t ∈ Set.Ioo 0 (π / 2), ∀ p ∈ Set.Ioo 0 (2 * π), 0 ≤ g (t, p) ∧ g (t, p) ≤ h (t, p)) : Integrable g ν := by
  refine Integrable.mono' (integrable hh) hg.aestronglyMeasurable ?_
  filter_upwards [ae_mem] with z hz
  have := hgh z.1 hz.1 z.2 hz.2
  rw [norm_eq_abs, abs_of_nonneg this.1]
  exact this.2

theorem mono_of_le {g h : ℝ × ℝ → ℝ} (hg : Measurable g) (hh : Continuous h)
    (hgh : ∀ t ∈ Set.Ioo 0 (π / 2), ∀ p ∈ Set.Ioo 0 (2 * π), 0 ≤ g (t, p) ∧ g (t, p) ≤ h (t, p)) :
    0 ≤ ∫ z, g z ∂ν ∧ ∫ z, g z ∂ν ≤ ∫ z, h z ∂ν := by
  constructor
  · refine integral_nonneg_of_ae ?_
    filter_upwards [ae_mem] with z hz
    exact (hgh z.1 hz.1 z.2 hz.2).1
  · refine integral_mono_ae (integrable_of_le hg hh hgh) (integrable hh) ?_
    filter_upwards [ae_mem] with z hz
    exact (hgh z.1 hz.1 z.2 hz.2).2

theorem weight_int_meas {τ : ℝ} {q : ℝ × ℝ → ℝ} (hq : Continuous q) (μ : ℝ) :
    Measurable fun z : ℝ × ℝ => weight τ μ (cs z.1) * q z * sin z.1 := by
  have : Measurable fun z : ℝ × ℝ => weight τ μ (cs z.1) :=
    (weight_meas τ).comp (measurable_const.prodMk (cs_cont.measurable.comp measurable_fst))
  exact (this.mul hq.measurable).mul (by fun_prop)

/-- The double integral of the documentation as one integral. -/
theorem hemi_eq {τ μ : ℝ} (hτ : 0 ≤ τ) (hμ : 0 < μ) {q : ℝ → ℝ → ℝ} (hq : Continuous fun z : ℝ × ℝ => q z.1 z.2)
    (hq0 : ∀ s φ, 0 ≤ q s φ) : hemi μ τ q = ∫ z, weight τ μ (cs z.1) * q z.1 z.2 * sin z.1 ∂ν := by
  have hi : Integrable (fun z : ℝ × ℝ => weight τ μ (cs z.1) * q z.1 z.2 * sin z.1) ν := by
    refine integrable_of_le (weight_int_meas hq μ) (h := fun z => q z.1 z.2 * sin z.1) (by fun_prop) fun t ht p _ => ?_
    have hs := sin_nonneg' (Set.Ioo_subset_Icc_self ht)
    have h1 := weight_nonneg hτ hμ (cs_nonneg t)
    have h2 := weight_le_one hτ hμ (cs_nonneg t)
    exact ⟨mul_nonneg (mul_nonneg h1 (hq0 _ _)) hs, mul_le_mul_of_nonneg_right (mul_le_of_le_one_left (hq0 _ _) h2) hs⟩
  have e : hemi μ τ q = ∫ t in (0 : ℝ)..π / 2, ∫ p in (0 : ℝ)..2 * π, weight τ μ (cs t) * q t p * sin t := by
    unfold hemi
    refine intervalIntegral.integral_congr fun s hs => intervalIntegral.integral_congr fun p _ => ?_
    rw [Set.uIcc_of_le half_pi_nonneg] at hs
    rw [cs_eq hs]
    rfl
  rw [e, intervalIntegral.integral_of_le half_pi_nonneg]
  simp only [intervalIntegral.integral_of_le two_pi_nonneg]
  exact (integral_prod (μ := MeasureTheory.volume.restrict (Set.Ioc 0 (π / 2))) (ν := MeasureTheory.volume.restrict (Set.Ioc 0 (2 * π))) _ hi).symm

/-! ### the balance -/

/-- What the energy balance is computed from: surface, volume and interaction contribution (linear
intensity) for the exit direction `t`, `p`. -/
structure Setting where
  I0 : ℝ
  τ : ℝ
  ω : ℝ
  N : ℝ
  b : ℝ
  t0 : ℝ
  p0 : ℝ

namespace Setting

def srf (x : Setting) (F : Bidir) (t p : ℝ) : ℝ :=
  x.N * ((1 - x.b) * exp (-(x.τ / cos x.t0) - x.τ / cos t) + x.b) * x.I0 * cos x.t0 * F x.t0 t x.p0 p

def vol (x : Setting) (P : Bidir) (t p : ℝ) : ℝ :=
  (1 - x.b) * x.I0 * x.ω * (cos x.t0 / (cos x.t0 + cos t)) * (1 - exp (-(x.τ / cos x.t0)) * exp (-(x.τ / cos t)))
    * P x.t0 t x.p0 p

def inter (x : Setting) (P F : Bidir) (t p : ℝ) : ℝ :=
  x.N * (1 - x.b) * x.I0 * cos x.t0 * x.ω
    * (exp (-x.τ / cos t) * hemi (cos x.t0) x.τ (fun s q => P x.t0 (π - s) x.p0 q * F s t q p)
      + exp (-x.τ / cos x.t0) * hemi (cos t) x.τ (fun s q => P t (π - s) p q * F s x.t0 q x.p0))

structure OK (x : Setting) (R : ℝ) : Prop where
  I0 : 0 ≤ x.I0
  τ : 0 ≤ x.τ
  ω0 : 0 ≤ x.ω
  ω1 : x.ω ≤ 1
  N : 0 ≤ x.N
  NR : x.N * R ≤ 1
  b0 : 0 ≤ x.b
  b1 : x.b ≤ 1
  mu0 : 0 < cos x.t0
  t0 : x.t0 ∈ Set.Icc 0 (π / 2)

end Setting

section
variable {P F : Bidir} {R : ℝ} (h : Balanced P F R) {x : Setting} (hx : x.OK R)
include h hx

/-- First part of the interaction: layer, then surface. -/
theorem int1 (t p : ℝ) :
    0 ≤ hemi (cos x.t0) x.τ (fun s q => P x.t0 (π - s) x.p0 q * F s t q p) ∧
    hemi (cos x.t0) x.τ (fun s q => P x.t0 (π - s) x.p0 q * F s t q p) ≤
      (1 - exp (-x.τ / cos x.t0)) * ∫ y, P x.t0 (π - y.1) x.p0 y.2 * F y.1 t y.2 p * sin y.1 ∂ν := by
  have hq : Continuous fun y : ℝ × ℝ => P x.t0 (π - y.1) x.p0 y.2 * F y.1 t y.2 p :=
    (h.contP.comp (by fun_prop) (by fun_prop) (by fun_prop) (by fun_prop)).mul
      (h.contF.comp (by fun_prop) (by fun_prop) (by fun_prop) (by fun_prop))
  have hq0 : ∀ s q, 0 ≤ P x.t0 (π - s) x.p0 q * F s t q p := fun s q => mul_nonneg (h.P0 _ _ _ _) (h.F0 _ _ _ _)
  rw [hemi_eq hx.τ hx.mu0 hq hq0, ← integral_const_mul]
  refine mono_of_le (weight_int_meas hq _) (continuous_const.mul (hq.mul (by fun_prop))) fun s hs q _ => ?_
  have hsn := sin_nonneg' (Set.Ioo_subset_Icc_self hs)
  have h1 := weight_nonneg hx.τ hx.mu0 (cs_nonneg s)
  have h2 := weight_le hx.τ hx.mu0 (cs_nonneg s)
  refine ⟨mul_nonneg (mul_nonneg h1 (hq0 _ _)) hsn, ?_⟩
  have := mul_le_mul_of_nonneg_right h2 (mul_nonneg (hq0 s q) hsn)
  simp only
  linarith

/-- Second part of the interaction: surface, then layer. -/
theorem int2 {t : ℝ} (ht : 0 < cos t) (p : ℝ) :
    0 ≤ hemi (cos t) x.τ (fun s q => P t (π - s) p q * F s x.t0 q x.p0) ∧
    cos t * hemi (cos t) x.τ (fun s q => P t (π - s) p q * F s x.t0 q x.p0) ≤
      ∫ y, (cs y.1 - att x.τ y.1) * (P t (π - y.1) p y.2 * F y.1 x.t0 y.2 x.p0) * sin y.1 ∂ν := by
  have hq : Continuous fun y : ℝ × ℝ => P t (π - y.1) p y.2 * F y.1 x.t0 y.2 x.p0 :=
    (h.contP.comp (by fun_prop) (by fun_prop) (by fun_prop) (by fun_prop)).mul
      (h.contF.comp (by fun_prop) (by fun_prop) (by fun_prop) (by fun_prop))
  have hq0 : ∀ s q, 0 ≤ P t (π - s) p q * F s x.t0 q x.p0 := fun s q => mul_nonneg (h.P0 _ _ _ _) (h.F0 _ _ _ _)
  have hc : Continuous fun y : ℝ × ℝ => (cs y.1 - att x.τ y.1) := (cs_cont.comp continuous_fst).sub
    ((att_cont hx.τ).comp continuous_fst)
  have key := mono_of_le (g := fun y => cos t * (weight x.τ (cos t) (cs y.1) * (P t (π - y.1) p y.2 * F y.1 x.t0 y.2 x.p0) * sin y.1))
    (measurable_const.mul (weight_int_meas hq (cos t))) (h := fun y => (cs y.1 - att x.τ y.1) * (P t (π - y.1) p y.2 * F y.1 x.t0 y.2 x.p0) * sin y.1)
    ((hc.mul hq).mul (by fun_prop : Continuous fun y : ℝ × ℝ => sin y.1))
    fun s hs q _ => by
      have hsn := sin_nonneg' (Set.Ioo_subset_Icc_self hs)
      have h1 := weight_nonneg hx.τ ht (cs_nonneg s)
      have h2 := mul_weight_le hx.τ ht.le (cs_nonneg s)
      refine ⟨mul_nonneg ht.le (mul_nonneg (mul_nonneg h1 (hq0 _ _)) hsn), ?_⟩
      have := mul_le_mul_of_nonneg_right h2 (mul_nonneg (hq0 s q) hsn)
      simp only [att]
      linarith
  rw [hemi_eq hx.τ ht hq hq0]
  rw [integral_const_mul] at key
  exact ⟨nonneg_of_mul_nonneg_right key.1 ht, key.2⟩

/-- The bound for the energy in direction `z`. -/
def bound (x : Setting) (P F : Bidir) (z : ℝ × ℝ) : ℝ :=
  x.I0 * cos x.t0 * (
    x.N * (1 - x.b) * exp (-x.τ / cos x.t0) * (F x.t0 z.1 x.p0 z.2 * att x.τ z.1 * sin z.1)
    + x.N * x.b * (F x.t0 z.1 x.p0 z.2 * cs z.1 * sin z.1)
    + (1 - x.b) * x.ω * (1 - exp (-x.τ / cos x.t0)) * (P x.t0 z.1 x.p0 z.2 * sin z.1)
    + x.N * (1 - x.b) * x.ω * (1 - exp (-x.τ / cos x.t0))
      * (cs z.1 * sin z.1 * ∫ y, P x.t0 (π - y.1) x.p0 y.2 * F y.1 z.1 y.2 z.2 * sin y.1 ∂ν)
    + x.N * (1 - x.b) * x.ω * exp (-x.τ / cos x.t0)
      * (sin z.1 * ∫ y, (cs y.1 - att x.τ y.1) * (P z.1 (π - y.1) z.2 y.2 * F y.1 x.t0 y.2 x.p0) * sin y.1 ∂ν))

theorem bound_parts :
    (Continuous fun z : ℝ × ℝ => F x.t0 z.1 x.p0 z.2 * att x.τ z.1 * sin z.1) ∧
    (Continuous fun z : ℝ × ℝ => F x.t0 z.1 x.p0 z.2 * cs z.1 * sin z.1) ∧
    (Continuous fun z : ℝ × ℝ => P x.t0 z.1 x.p0 z.2 * sin z.1) ∧
    (Continuous fun z : ℝ × ℝ => cs z.1 * sin z.1 * ∫ y, P x.t0 (π - y.1) x.p0 y.2 * F y.1 z.1 y.2 z.2 * sin y.1 ∂ν) ∧
    (Continuous fun z : ℝ × ℝ => sin z.1 * ∫ y, (cs y.1 - att x.τ y.1)
      * (P z.1 (π - y.1) z.2 y.2 * F y.1 x.t0 y.2 x.p0) * sin y.1 ∂ν) := by
  have cc : Continuous fun z : ℝ × ℝ => cs z.1 := cs_cont.comp continuous_fst
  have ca : Continuous fun z : ℝ × ℝ => att x.τ z.1 := (att_cont hx.τ).comp continuous_fst
  have sn : Continuous fun z : ℝ × ℝ => sin z.1 := by fun_prop
  have cF : Continuous fun z : ℝ × ℝ => F x.t0 z.1 x.p0 z.2 :=
    h.contF.comp (by fun_prop) (by fun_prop) (by fun_prop) (by fun_prop)
  have cP : Continuous fun z : ℝ × ℝ => P x.t0 z.1 x.p0 z.2 :=
    h.contP.comp (by fun_prop) (by fun_prop) (by fun_prop) (by fun_prop)
  refine ⟨(cF.mul ca).mul sn, (cF.mul cc).mul sn, cP.mul sn, (cc.mul sn).mul (cont_param ?_), sn.mul (cont_param ?_)⟩
  · have h1 : Continuous fun x' : (ℝ × ℝ) × (ℝ × ℝ) => P x.t0 (π - x'.2.1) x.p0 x'.2.2 :=
      h.contP.comp (by fun_prop) (by fun_prop) (by fun_prop) (by fun_prop)
    have h2 : Continuous fun x' : (ℝ × ℝ) × (ℝ × ℝ) => F x'.2.1 x'.1.1 x'.2.2 x'.1.2 :=
      h.contF.comp (by fun_prop) (by fun_prop) (by fun_prop) (by fun_prop)
    exact (h1.mul h2).mul (sn.comp continuous_snd)
  · have h1 : Continuous fun x' : (ℝ × ℝ) × (ℝ × ℝ) => P x'.1.1 (π - x'.2.1) x'.1.2 x'.2.2 :=
      h.contP.comp (by fun_prop) (by fun_prop) (by fun_prop) (by fun_prop)
    have h2 : Continuous fun x' : (ℝ × ℝ) × (ℝ × ℝ) => F x'.2.1 x.t0 x'.2.2 x.p0 :=
      h.contF.comp (by fun_prop) (by fun_prop) (by fun_prop) (by fun_prop)
    exact (((cc.sub ca).comp continuous_snd).mul (h1.mul h2)).mul (sn.comp continuous_snd)

theorem bound_cont : Continuous (bound x P F) := by
  obtain ⟨h1, h2, h3, h4, h5⟩ := bound_parts h hx
  exact continuous_const.mul (((((continuous_const.mul h1).add (continuous_const.mul h2)).add
    (continuous_const.mul h3)).add (continuous_const.mul h4)).add (continuous_const.mul h5))

theorem exp_le : exp (-x.τ / cos x.t0) ≤ 1 :=
  exp_le_one_iff.mpr (div_nonpos_of_nonpos_of_nonneg (by linarith [hx.τ]) hx.mu0.le)

/-- The bounds sum up to at most the incoming energy. -/
theorem bound_int : ∫ z, bound x P F z ∂ν ≤ x.I0 * cos x.t0 := by
  obtain ⟨h1, h2, h3, h4, h5⟩ := bound_parts h hx
  unfold bound
  rw [integral_const_mul]
  refine mul_le_of_le_one_right (mul_nonneg hx.I0 hx.mu0.le) ?_
  rw [int_sum5 h1 h2 h3 h4 h5]
  have k2 := h.refl' hx.t0 x.p0
  have k3 := h.halves x.t0 x.p0
  have k4 := h.down_up x.t0 x.p0
  have k5 := h.up_up hx.τ x.t0 x.p0
  have cP : Continuous fun z : ℝ × ℝ => P x.t0 (π - z.1) x.p0 z.2 * sin z.1 :=
    (h.contP.comp (by fun_prop) (by fun_prop) (by fun_prop) (by fun_prop)).mul (by fun_prop)
  have hD : 0 ≤ ∫ z, P x.t0 (π - z.1) x.p0 z.2 * sin z.1 ∂ν := by
    have := mono (g := fun _ => 0) continuous_const cP fun s hs q _ => mul_nonneg (h.P0 _ _ _ _) (sin_nonneg' hs)
    simpa using this
  have hU : 0 ≤ ∫ z, P x.t0 z.1 x.p0 z.2 * sin z.1 ∂ν := by
    have := mono (g := fun _ => 0) continuous_const h3 fun s hs q _ => mul_nonneg (h.P0 _ _ _ _) (sin_nonneg' hs)
    simpa using this
  have e5 : ∫ y, F x.t0 y.1 x.p0 y.2 * (cs y.1 - att x.τ y.1) * sin y.1 ∂ν =
      (∫ z, F x.t0 z.1 x.p0 z.2 * cs z.1 * sin z.1 ∂ν) - ∫ z, F x.t0 z.1 x.p0 z.2 * att x.τ z.1 * sin z.1 ∂ν := by
    rw [← integral_sub (integrable h2) (integrable h1)]
    congr 1
    funext y
    ring
  rw [e5] at k5
  have hXY : ∫ z, F x.t0 z.1 x.p0 z.2 * att x.τ z.1 * sin z.1 ∂ν ≤ ∫ z, F x.t0 z.1 x.p0 z.2 * cs z.1 * sin z.1 ∂ν :=
    mono h1 h2 fun s hs q _ => mul_le_mul_of_nonneg_right (mul_le_mul_of_nonneg_left (att_le hx.τ s) (h.F0 _ _ _ _))
      (sin_nonneg' hs)
  have he := exp_le h hx
  have he0 := (exp_pos (-x.τ / cos x.t0)).le
  generalize exp (-x.τ / cos x.t0) = e at *
  generalize (∫ z, F x.t0 z.1 x.p0 z.2 * att x.τ z.1 * sin z.1 ∂ν) = X at *
  generalize (∫ z, F x.t0 z.1 x.p0 z.2 * cs z.1 * sin z.1 ∂ν) = Y at *
  generalize (∫ z, P x.t0 z.1 x.p0 z.2 * sin z.1 ∂ν) = U at *
  generalize (∫ z, P x.t0 (π - z.1) x.p0 z.2 * sin z.1 ∂ν) = D at *
  generalize (∫ z, cs z.1 * sin z.1 * ∫ y, P x.t0 (π - y.1) x.p0 y.2 * F y.1 z.1 y.2 z.2 * sin y.1 ∂ν ∂ν) = K1 at *
  generalize (∫ z, sin z.1 * ∫ y, (cs y.1 - att x.τ y.1) * (P z.1 (π - y.1) z.2 y.2 * F y.1 x.t0 y.2 x.p0) * sin y.1 ∂ν ∂ν) = K2 at *
  obtain ⟨_, _, w0, w1, N0, NR, b0, b1, _, _⟩ := hx
  have b' : 0 ≤ 1 - x.b := by linarith
  have e' : 0 ≤ 1 - e := by linarith
  have NY : x.N * Y ≤ 1 := (mul_le_mul_of_nonneg_left k2 N0).trans NR
  have NK1 : x.N * K1 ≤ D := by
    have := mul_le_mul_of_nonneg_left k4 N0
    have := mul_le_of_le_one_left hD NR
    linarith
  have NX : x.N * X + x.ω * (x.N * K2) ≤ 1 := by
    have a1 := mul_le_mul_of_nonneg_left k5 N0
    have a2 : 0 ≤ x.N * (Y - X) := mul_nonneg N0 (by linarith)
    have a3 := mul_le_mul_of_nonneg_left a1 w0
    have a4 := mul_le_of_le_one_left a2 w1
    linarith
  have UD : x.ω * (U + x.N * K1) ≤ 1 := by
    have a1 := mul_le_mul_of_nonneg_left (show U + x.N * K1 ≤ 1 by linarith) w0
    linarith
  have t1 := mul_le_mul_of_nonneg_left NX (mul_nonneg b' he0)
  have t2 := mul_le_mul_of_nonneg_left UD (mul_nonneg b' e')
  have t3 := mul_le_mul_of_nonneg_left NY b0
  linarith

/-- The energy in one direction is non-negative and at most the bound. -/
theorem le_bound {k : ℝ} (hk0 : 0 ≤ k) (hk1 : k ≤ 1) {t : ℝ} (ht : t ∈ Set.Ioo 0 (π / 2)) (p : ℝ) :
    0 ≤ (x.srf F t p + x.vol P t p + k * x.inter P F t p) * cos t * sin t ∧
    (x.srf F t p + x.vol P t p + k * x.inter P F t p) * cos t * sin t ≤ bound x P F (t, p) := by
  have hc : 0 < cos t := cos_pos_of_mem_Ioo ⟨by linarith [ht.1, pi_pos], ht.2⟩
  have ht' := Set.Ioo_subset_Icc_self ht
  have hs := sin_nonneg' ht'
  obtain ⟨a0, a1⟩ := int1 h hx t p
  obtain ⟨c0, c1⟩ := int2 h hx hc p
  have hF := h.F0 x.t0 t x.p0 p
  have hP := h.P0 x.t0 t x.p0 p
  have vw := volume_weight_le hx.τ hx.mu0 hc.le
  have he := exp_le h hx
  have he0 := (exp_pos (-x.τ / cos x.t0)).le
  have hE0 := (exp_pos (-x.τ / cos t)).le
  have hE1 : exp (-x.τ / cos t) ≤ 1 :=
    exp_le_one_iff.mpr (div_nonpos_of_nonpos_of_nonneg (by linarith [hx.τ]) hc.le)
  have v0 : 0 ≤ cos x.t0 / (cos x.t0 + cos t) * (1 - exp (-(x.τ / cos x.t0)) * exp (-(x.τ / cos t))) := by
    refine mul_nonneg (div_nonneg hx.mu0.le (add_pos hx.mu0 hc).le) ?_
    rw [← neg_div, ← neg_div]
    have := mul_le_one₀ he hE0 hE1
    linarith
  unfold Setting.srf Setting.vol Setting.inter bound
  simp only [att, cs_eq ht'] at *
  rw [show -(x.τ / cos x.t0) - x.τ / cos t = -x.τ / cos x.t0 + -x.τ / cos t by ring, exp_add]
  rw [← neg_div, ← neg_div] at vw v0 ⊢
  generalize exp (-x.τ / cos x.t0) = e at *
  generalize exp (-x.τ / cos t) = E at *
  generalize hemi (cos x.t0) x.τ (fun s q => P x.t0 (π - s) x.p0 q * F s t q p) = A at *
  generalize hemi (cos t) x.τ (fun s q => P t (π - s) p q * F s x.t0 q x.p0) = B at *
  generalize (∫ y, P x.t0 (π - y.1) x.p0 y.2 * F y.1 t y.2 p * sin y.1 ∂ν) = K1 at *
  generalize (∫ y, (cs y.1 - cs y.1 * exp (-x.τ / cs y.1)) * (P t (π - y.1) p y.2 * F y.1 x.t0 y.2 x.p0) * sin y.1 ∂ν) = K2 at *
  generalize F x.t0 t x.p0 p = f at *
  generalize P x.t0 t x.p0 p = v at *
  generalize cos x.t0 / (cos x.t0 + cos t) = m at *
  obtain ⟨I0, _, w0, w1, N0, NR, b0, b1, mu0, _⟩ := hx
  have b' : 0 ≤ 1 - x.b := by linarith
  have e' : 0 ≤ 1 - e := by linarith
  have hW : 0 ≤ x.N * (1 - x.b) * x.I0 * cos x.t0 * x.ω := by positivity
  have hin0 : 0 ≤ x.N * (1 - x.b) * x.I0 * cos x.t0 * x.ω * (E * A + e * B) := by positivity
  have hvol0 : 0 ≤ (1 - x.b) * x.I0 * x.ω * m * (1 - e * E) * v := by
    have : 0 ≤ (1 - x.b) * x.I0 * x.ω * (m * (1 - e * E)) * v := by positivity
    linarith
  have hsrf0 : 0 ≤ x.N * ((1 - x.b) * (e * E) + x.b) * x.I0 * cos x.t0 * f := by positivity
  constructor
  · positivity
  · have s1 : x.N * (1 - x.b) * x.I0 * cos x.t0 * x.ω * (E * A + e * B) * cos t * sin t ≤
        x.N * (1 - x.b) * x.I0 * cos x.t0 * x.ω * ((1 - e) * (cos t * sin t * K1) + e * (sin t * K2)) := by
      have q1 : E * A * (cos t * sin t) ≤ (1 - e) * K1 * (cos t * sin t) :=
        mul_le_mul_of_nonneg_right ((mul_le_of_le_one_left a0 hE1).trans a1) (by positivity)
      have q2 : e * (cos t * B) * sin t ≤ e * K2 * sin t :=
        mul_le_mul_of_nonneg_right (mul_le_mul_of_nonneg_left c1 he0) hs
      have := mul_le_mul_of_nonneg_left (add_le_add q1 q2) hW
      linarith
    have s2 : (1 - x.b) * x.I0 * x.ω * m * (1 - e * E) * v * cos t * sin t ≤
        (1 - x.b) * x.I0 * x.ω * v * sin t * (cos x.t0 * (1 - e)) := by
      have := mul_le_mul_of_nonneg_left vw (show 0 ≤ (1 - x.b) * x.I0 * x.ω * v * sin t by positivity)
      linarith
    have s3 : k * (x.N * (1 - x.b) * x.I0 * cos x.t0 * x.ω * (E * A + e * B)) * cos t * sin t ≤
        x.N * (1 - x.b) * x.I0 * cos x.t0 * x.ω * (E * A + e * B) * cos t * sin t :=
      mul_le_mul_of_nonneg_right (mul_le_mul_of_nonneg_right (mul_le_of_le_one_left hin0 hk1) hc.le) hs
    linarith

/-- The part of `inter` that is easily seen to be measurable. -/
theorem inter_meas : ∃ g : ℝ × ℝ → ℝ, Measurable g ∧ ∀ t, 0 < cos t → ∀ p, x.inter P F t p = g (t, p) := by
  have w := weight_meas x.τ
  refine ⟨fun z => x.N * (1 - x.b) * x.I0 * cos x.t0 * x.ω
    * (exp (-x.τ / cos z.1) * (∫ y, weight x.τ (cos x.t0) (cs y.1) * (P x.t0 (π - y.1) x.p0 y.2 * F y.1 z.1 y.2 z.2) * sin y.1 ∂ν)
      + exp (-x.τ / cos x.t0) * (∫ y, weight x.τ (cos z.1) (cs y.1) * (P z.1 (π - y.1) z.2 y.2 * F y.1 x.t0 y.2 x.p0) * sin y.1 ∂ν)),
    ?_, fun t ht p => ?_⟩
  · have m1 : Measurable fun z : ℝ × ℝ =>
        ∫ y, weight x.τ (cos x.t0) (cs y.1) * (P x.t0 (π - y.1) x.p0 y.2 * F y.1 z.1 y.2 z.2) * sin y.1 ∂ν := by
      refine (StronglyMeasurable.integral_prod_right (ν := ν) (f := fun z y : ℝ × ℝ =>
        weight x.τ (cos x.t0) (cs y.1) * (P x.t0 (π - y.1) x.p0 y.2 * F y.1 z.1 y.2 z.2) * sin y.1) ?_).measurable
      refine Measurable.stronglyMeasurable ?_
      have h0 : Measurable fun x' : (ℝ × ℝ) × (ℝ × ℝ) => weight x.τ (cos x.t0) (cs x'.2.1) :=
        w.comp (measurable_const.prodMk (cs_cont.measurable.comp (by fun_prop)))
      have h1 : Continuous fun x' : (ℝ × ℝ) × (ℝ × ℝ) => P x.t0 (π - x'.2.1) x.p0 x'.2.2 :=
        h.contP.comp (by fun_prop) (by fun_prop) (by fun_prop) (by fun_prop)
      have h2 : Continuous fun x' : (ℝ × ℝ) × (ℝ × ℝ) => F x'.2.1 x'.1.1 x'.2.2 x'.1.2 :=
        h.contF.comp (by fun_prop) (by fun_prop) (by fun_prop) (by fun_prop)
      have h3 : Measurable fun x' : (ℝ × ℝ) × (ℝ × ℝ) => sin x'.2.1 := by fun_prop
      exact (h0.mul (h1.mul h2).measurable).mul h3
    have m2 : Measurable fun z : ℝ × ℝ =>
        ∫ y, weight x.τ (cos z.1) (cs y.1) * (P z.1 (π - y.1) z.2 y.2 * F y.1 x.t0 y.2 x.p0) * sin y.1 ∂ν := by
      refine (StronglyMeasurable.integral_prod_right (ν := ν) (f := fun z y : ℝ × ℝ =>
        weight x.τ (cos z.1) (cs y.1) * (P z.1 (π - y.1) z.2 y.2 * F y.1 x.t0 y.2 x.p0) * sin y.1) ?_).measurable
      refine Measurable.stronglyMeasurable ?_
      have h0 : Measurable fun x' : (ℝ × ℝ) × (ℝ × ℝ) => weight x.τ (cos x'.1.1) (cs x'.2.1) :=
        w.comp (Measurable.prodMk (by fun_prop) (cs_cont.measurable.comp (by fun_prop)))
      have h1 : Continuous fun x' : (ℝ × ℝ) × (ℝ × ℝ) => P x'.1.1 (π - x'.2.1) x'.1.2 x'.2.2 :=
        h.contP.comp (by fun_prop) (by fun_prop) (by fun_prop) (by fun_prop)
      have h2 : Continuous fun x' : (ℝ × ℝ) × (ℝ × ℝ) => F x'.2.1 x.t0 x'.2.2 x.p0 :=
        h.contF.comp (by fun_prop) (by fun_prop) (by fun_prop) (by fun_prop)
      have h3 : Measurable fun x' : (ℝ × ℝ) × (ℝ × ℝ) => sin x'.2.1 := by fun_prop
      exact (h0.mul (h1.mul h2).measurable).mul h3
    fun_prop
  · unfold Setting.inter
    have e1 := hemi_eq hx.τ hx.mu0 (q := fun s q => P x.t0 (π - s) x.p0 q * F s t q p)
      ((h.contP.comp (by fun_prop) (by fun_prop) (by fun_prop) (by fun_prop)).mul
        (h.contF.comp (by fun_prop) (by fun_prop) (by fun_prop) (by fun_prop)))
      (fun s q => mul_nonneg (h.P0 _ _ _ _) (h.F0 _ _ _ _))
    have e2 := hemi_eq hx.τ ht (q := fun s q => P t (π - s) p q * F s x.t0 q x.p0)
      ((h.contP.comp (by fun_prop) (by fun_prop) (by fun_prop) (by fun_prop)).mul
        (h.contF.comp (by fun_prop) (by fun_prop) (by fun_prop) (by fun_prop)))
      (fun s q => mul_nonneg (h.P0 _ _ _ _) (h.F0 _ _ _ _))
    rw [e1, e2]

/-- The energy balance. -/
theorem balance {k : ℝ} (hk0 : 0 ≤ k) (hk1 : k ≤ 1) {g : ℝ → ℝ → ℝ}
    (hg : ∀ t ∈ Set.Ioo 0 (π / 2), ∀ p ∈ Set.Ioo 0 (2 * π), g t p = x.srf F t p + x.vol P t p + k * x.inter P F t p) :
    IntegrableOn (fun z : ℝ × ℝ => g z.1 z.2 * cos z.1 * sin z.1) (Set.Ioc 0 (π / 2) ×ˢ Set.Ioc 0 (2 * π)) ∧
    0 ≤ hemReflectance g ∧ hemReflectance g ≤ x.I0 * cos x.t0 := by
  obtain ⟨j, hj, hij⟩ := inter_meas h hx
  have hF : Measurable fun z : ℝ × ℝ => F x.t0 z.1 x.p0 z.2 :=
    (h.contF.comp (by fun_prop) (by fun_prop) (by fun_prop) (by fun_prop)).measurable
  have hP : Measurable fun z : ℝ × ℝ => P x.t0 z.1 x.p0 z.2 :=
    (h.contP.comp (by fun_prop) (by fun_prop) (by fun_prop) (by fun_prop)).measurable
  have hm : Measurable fun z : ℝ × ℝ => (x.srf F z.1 z.2 + x.vol P z.1 z.2 + k * j z) * cos z.1 * sin z.1 := by
    unfold Setting.srf Setting.vol
    fun_prop
  have hle : ∀ t ∈ Set.Ioo 0 (π / 2), ∀ p ∈ Set.Ioo 0 (2 * π),
      0 ≤ (x.srf F t p + x.vol P t p + k * j (t, p)) * cos t * sin t ∧
      (x.srf F t p + x.vol P t p + k * j (t, p)) * cos t * sin t ≤ bound x P F (t, p) := by
    intro t ht p _
    rw [← hij t (cos_pos_of_mem_Ioo ⟨by linarith [ht.1, pi_pos], ht.2⟩) p]
    exact le_bound h hx hk0 hk1 ht p
  have hae : (fun z : ℝ × ℝ => (x.srf F z.1 z.2 + x.vol P z.1 z.2 + k * j z) * cos z.1 * sin z.1) =ᵐ[ν]
      fun z => g z.1 z.2 * cos z.1 * sin z.1 := by
    filter_upwards [ae_mem] with z hz
    rw [hg z.1 hz.1 z.2 hz.2, hij z.1 (cos_pos_of_mem_Ioo ⟨by linarith [hz.1.1, pi_pos], hz.1.2⟩) z.2]
  have hI : Integrable (fun z : ℝ × ℝ => g z.1 z.2 * cos z.1 * sin z.1) ν :=
    (integrable_of_le hm (bound_cont h hx) hle).congr hae
  have e : hemReflectance g = ∫ z, g z.1 z.2 * cos z.1 * sin z.1 ∂ν := by
    unfold hemReflectance
    rw [intervalIntegral.integral_of_le two_pi_nonneg]
    simp only [intervalIntegral.integral_of_le half_pi_nonneg]
    exact (integral_prod_symm (μ := MeasureTheory.volume.restrict (Set.Ioc 0 (π / 2)))
      (ν := MeasureTheory.volume.restrict (Set.Ioc 0 (2 * π))) _ hI).symm
  have key := mono_of_le hm (bound_cont h hx) hle
  rw [integral_congr_ae hae] at key
  refine ⟨by rw [ν_eq] at hI; exact hI, by rw [e]; exact key.1, by rw [e]; exact key.2.trans (bound_int h hx)⟩

end

end

end RT1.Energy
