import Mathlib.MeasureTheory.Integral.IntervalIntegral.Basic
import Mathlib.Analysis.SpecialFunctions.Exp
import Mathlib.Topology.Basic

/-!
# Exponential integrals

Textbook definitions of the functions that scipy provides as `expn` and `expi`.
-/

namespace RT1

open MeasureTheory Filter Topology

/-- `E_n(x) = ∫_1^∞ exp(-x t) / t^n dt`. -/
noncomputable def expInt (n : ℕ) (x : ℝ) : ℝ :=
  ∫ t in Set.Ioi (1 : ℝ), Real.exp (-x * t) / t ^ n

/-- `Ei(x) = PV ∫_{-∞}^x exp(t)/t dt`: the integral for `x < 0`, its Cauchy principal
value for `x > 0`. -/
noncomputable def Ei (x : ℝ) : ℝ :=
  if x < 0 then ∫ t in Set.Iic x, Real.exp t / t
  else limUnder (𝓝[>] (0 : ℝ)) fun ε =>
    (∫ t in Set.Iic (-ε), Real.exp t / t) + ∫ t in ε..x, Real.exp t / t

end RT1
