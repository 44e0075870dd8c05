import Mathlib.MeasureTheory.Integral.IntervalIntegral.Basic
import Mathlib.Analysis.SpecialFunctions.Trigonometric.Basic

/-! # Integrals over directions -/

namespace RT1

noncomputable section

/-- Integral over the unit sphere of a function of zenith angle `t` and azimuth `p`. -/
def sphereIntegral (f : ℝ → ℝ → ℝ) : ℝ :=
  ∫ p in (0 : ℝ)..2 * Real.pi, ∫ t in (0 : ℝ)..Real.pi, f t p * Real.sin t

/-- Hemispherical reflectance of a BRDF: integral over the upper hemisphere, weighted with the
cosine of the zenith angle. -/
def hemReflectance (f : ℝ → ℝ → ℝ) : ℝ :=
  ∫ p in (0 : ℝ)..2 * Real.pi, ∫ t in (0 : ℝ)..Real.pi / 2, f t p * Real.cos t * Real.sin t

end

end RT1
