import Mathlib.Analysis.SpecialFunctions.Pow.Real
import Mathlib.Analysis.SpecialFunctions.Trigonometric.Basic

/-!
# Textbook scattering functions

Cosine of the (generalised) scattering angle and the scattering functions of the literature,
as functions of real numbers.
-/

namespace RT1.Phase

noncomputable section

/-- Cosine of the generalised scattering angle. -/
def cosTheta (a0 a1 a2 t0 tex p0 pex : ℝ) : ℝ :=
  a0 * Real.cos t0 * Real.cos tex
    + Real.sin t0 * Real.sin tex * (a1 * Real.cos p0 * Real.cos pex + a2 * Real.sin p0 * Real.sin pex)

/-- Cartesian components of the unit vector with zenith angle `t` and azimuth `p`. -/
def unitVec (t p : ℝ) : ℝ × ℝ × ℝ :=
  (Real.sin t * Real.cos p, Real.sin t * Real.sin p, Real.cos t)

/-- Scalar product. -/
def dot (u v : ℝ × ℝ × ℝ) : ℝ := u.1 * v.1 + u.2.1 * v.2.1 + u.2.2 * v.2.2

/-- Rayleigh phase function (normalised on the sphere). -/
def rayleigh (x : ℝ) : ℝ := 3 / (16 * Real.pi) * (1 + x ^ 2)

/-- Henyey-Greenstein function with prefactor `1/c` (`c = 4 pi` on the sphere). -/
def hg (c t x : ℝ) : ℝ := 1 / c * ((1 - t ^ 2) / (1 + t ^ 2 - 2 * t * x) ^ (3 / 2 : ℝ))

/-- HG-Rayleigh function. -/
def hgRayleigh (t x : ℝ) : ℝ :=
  3 / (8 * Real.pi) * (1 / (2 + t ^ 2)) * ((1 + x ^ 2) * (1 - t ^ 2) / (1 + t ^ 2 - 2 * t * x) ^ (3 / 2 : ℝ))

/-- Cosine lobe of power `i`. -/
def cosineLobe (i : ℕ) (x : ℝ) : ℝ := 1 / Real.pi * (max x 0) ^ i

/-- Nadir hemispherical reflectance of the Henyey-Greenstein surface function:
`2 pi ∫_0^1 hg(pi, t, a0 mu) mu dmu` in closed form. -/
def hgNadir (a0 t : ℝ) : ℝ :=
  4 * ((1 - t ^ 2) * (1 - t * (-t + a0) - Real.sqrt ((1 + t ^ 2 - 2 * a0 * t) * (1 + t ^ 2)))
    / (2 * a0 ^ 2 * t ^ 2 * Real.sqrt (1 + t ^ 2 - 2 * a0 * t)))

end

end RT1.Phase
