import Verif.Lemmas.LegendreL
import Verif.Lemmas.ScatterL
import Mathlib.Analysis.SpecialFunctions.Gamma.Beta
import Mathlib.Analysis.SpecialFunctions.Integrals.Basic
import Mathlib.Topology.Algebra.Polynomial

/-! Legendre coefficients of cosine lobes. -/

namespace RT1

noncomputable section
open Classical

theorem legP_continuous (n : ℕ) : Continuous (legP n) := by
  unfold legP; exact Polynomial.continuous _

/-- Moments of the Legendre polynomials on [0, 1]. -/
def moment (i n : ℕ) : ℝ := ∫ y in (0 : ℝ)..1, y ^ i * legP n y

theorem moment_zero (i : ℕ) : moment i 0 = 1 / (i + 1) := by
  unfold moment
  simp [legP_zero]

theorem moment_one (i : ℕ) : moment i 1 = 1 / (i + 2) := by
  unfold moment
  have : ∀ y : ℝ, y ^ i * legP 1 y = y ^ (i + 1) := fun y => by rw [legP_one, pow_succ]
  simp only [this, integral_pow]
  simp
  ring

theorem moment_rec (i n : ℕ) : ((n : ℝ) + 2) * moment i (n + 2) =
    (2 * n + 3) * moment (i + 1) (n + 1) - (n + 1) * moment i n := by
  unfold moment
  rw [← intervalIntegral.integral_const_mul, ← intervalIntegral.integral_const_mul,
    ← intervalIntegral.integral_const_mul, ← intervalIntegral.integral_sub]
  · refine intervalIntegral.integral_congr fun y _ => ?_
    have := legP_rec n y
    show (n + 2) * (y ^ i * legP (n + 2) y) = (2 * n + 3) * (y ^ (i + 1) * legP (n + 1) y) - (n + 1) * (y ^ i * legP n y)
    rw [pow_succ]
    linear_combination y ^ i * this
  · exact (continuous_const.mul ((continuous_pow _).mul (legP_continuous _))).intervalIntegrable _ _
  · exact (continuous_const.mul ((continuous_pow _).mul (legP_continuous _))).intervalIntegrable _ _

/-- The closed form of the code. -/
def momentG (i n : ℕ) : ℝ := (2 : ℝ) ^ (-1 - (i : ℝ)) * Real.sqrt Real.pi * Real.Gamma (1 + i)
  / (Real.Gamma ((2 - n + i) * (1 / 2)) * Real.Gamma ((3 + n + i) * (1 / 2)))

theorem one_div_Gamma (s : ℝ) : 1 / Real.Gamma s = s / Real.Gamma (s + 1) := by
  by_cases h : s = 0
  · subst h; simp
  · rw [Real.Gamma_add_one h]
    by_cases hg : Real.Gamma s = 0
    · simp [hg]
    · field_simp

theorem momentG_factor (i n : ℕ) : momentG i n = (2 : ℝ) ^ (-1 - (i : ℝ)) * Real.sqrt Real.pi * Real.Gamma (1 + i)
    * (1 / Real.Gamma ((2 - n + i) * (1 / 2))) * (1 / Real.Gamma ((3 + n + i) * (1 / 2))) := by
  unfold momentG
  generalize Real.Gamma ((2 - n + i) * (1 / 2)) = A
  generalize Real.Gamma ((3 + n + i) * (1 / 2)) = B
  rw [div_eq_mul_inv, mul_inv, one_div, one_div, mul_assoc _ A⁻¹ B⁻¹]

theorem momentG_two (i n : ℕ) : (i + n + 3 : ℝ) * momentG i (n + 2) = (i - n) * momentG i n := by
  rw [momentG_factor, momentG_factor]
  push_cast
  have h1 := one_div_Gamma ((2 - ((n : ℝ) + 2) + i) * (1 / 2))
  rw [show (2 - ((n : ℝ) + 2) + i) * (1 / 2) + 1 = (2 - n + i) * (1 / 2) by ring] at h1
  have h2 := one_div_Gamma ((3 + (n : ℝ) + i) * (1 / 2))
  rw [show (3 + (n : ℝ) + i) * (1 / 2) + 1 = (3 + (n + 2) + i) * (1 / 2) by ring] at h2
  rw [h1, h2]
  ring

theorem momentG_diag (i n : ℕ) : (i + n + 3 : ℝ) * momentG (i + 1) (n + 1) = (i + 1) * momentG i n := by
  rw [momentG_factor, momentG_factor]
  push_cast
  have h2 := one_div_Gamma ((3 + (n : ℝ) + i) * (1 / 2))
  rw [show (3 + (n : ℝ) + i) * (1 / 2) + 1 = (3 + (n + 1) + (i + 1)) * (1 / 2) by ring] at h2
  have h3 : Real.Gamma (1 + ((i : ℝ) + 1)) = (1 + i) * Real.Gamma (1 + i) := by
    rw [← Real.Gamma_add_one (by positivity)]; ring_nf
  have h4 : (2 : ℝ) ^ (-1 - ((i : ℝ) + 1)) = 2 ^ (-1 - (i : ℝ)) / 2 := by
    rw [show -1 - ((i : ℝ) + 1) = -1 - i - 1 by ring, Real.rpow_sub_one (by norm_num)]
  rw [h2, h3, h4, show (2 - ((n : ℝ) + 1) + (i + 1)) * (1 / 2) = (2 - n + i) * (1 / 2) by ring]
  ring

theorem momentG_rec (i n : ℕ) : ((n : ℝ) + 2) * momentG i (n + 2) =
    (2 * n + 3) * momentG (i + 1) (n + 1) - (n + 1) * momentG i n := by
  have h1 := momentG_two i n
  have h2 := momentG_diag i n
  have h0 : (i + n + 3 : ℝ) ≠ 0 := by positivity
  refine mul_left_cancel₀ h0 ?_
  linear_combination ((n : ℝ) + 2) * h1 - (2 * n + 3) * h2

theorem two_rpow_aux (i : ℕ) : (2 : ℝ) ^ (1 - (2 + (i : ℝ))) = 2 ^ (-1 - (i : ℝ)) := by
  congr 1; ring

theorem momentG_zero (i : ℕ) : momentG i 0 = 1 / (i + 1) := by
  unfold momentG
  have h := Real.Gamma_mul_Gamma_add_half ((2 + (i : ℝ)) * (1 / 2))
  rw [show (2 + (i : ℝ)) * (1 / 2) + 1 / 2 = (3 + i) * (1 / 2) by ring,
    show 2 * ((2 + (i : ℝ)) * (1 / 2)) = 2 + i by ring] at h
  simp only [Nat.cast_zero, sub_zero, add_zero]
  rw [h, two_rpow_aux]
  have h3 : Real.Gamma (2 + (i : ℝ)) = (1 + i) * Real.Gamma (1 + i) := by
    rw [← Real.Gamma_add_one (by positivity)]; ring_nf
  rw [h3]
  have hg : Real.Gamma (1 + (i : ℝ)) ≠ 0 := (Real.Gamma_pos_of_pos (by positivity)).ne'
  have hp : (2 : ℝ) ^ (-1 - (i : ℝ)) ≠ 0 := (Real.rpow_pos_of_pos (by norm_num) _).ne'
  have hs : Real.sqrt Real.pi ≠ 0 := (Real.sqrt_pos.mpr Real.pi_pos).ne'
  field_simp
  ring

theorem momentG_one (i : ℕ) : momentG i 1 = 1 / (i + 2) := by
  unfold momentG
  have h := Real.Gamma_mul_Gamma_add_half ((1 + (i : ℝ)) * (1 / 2))
  rw [show (1 + (i : ℝ)) * (1 / 2) + 1 / 2 = (2 + i) * (1 / 2) by ring,
    show 2 * ((1 + (i : ℝ)) * (1 / 2)) = 1 + i by ring] at h
  have h4 : Real.Gamma ((4 + (i : ℝ)) * (1 / 2)) = (2 + i) * (1 / 2) * Real.Gamma ((2 + i) * (1 / 2)) := by
    rw [← Real.Gamma_add_one (by positivity)]; ring_nf
  rw [Nat.cast_one, show (2 - 1 + (i : ℝ)) * (1 / 2) = (1 + i) * (1 / 2) by ring,
    show (3 + 1 + (i : ℝ)) * (1 / 2) = (4 + i) * (1 / 2) by ring, h4,
    show Real.Gamma ((1 + (i : ℝ)) * (1 / 2)) * ((2 + i) * (1 / 2) * Real.Gamma ((2 + i) * (1 / 2))) =
      (2 + i) * (1 / 2) * (Real.Gamma ((1 + (i : ℝ)) * (1 / 2)) * Real.Gamma ((2 + i) * (1 / 2))) by ring, h]
  have e : (2 : ℝ) ^ (1 - (1 + (i : ℝ))) = 2 * 2 ^ (-1 - (i : ℝ)) := by
    rw [show 1 - (1 + (i : ℝ)) = -1 - i + 1 by ring, Real.rpow_add_one (by norm_num)]; ring
  rw [e]
  have hg : Real.Gamma (1 + (i : ℝ)) ≠ 0 := (Real.Gamma_pos_of_pos (by positivity)).ne'
  have hp : (2 : ℝ) ^ (-1 - (i : ℝ)) ≠ 0 := (Real.rpow_pos_of_pos (by norm_num) _).ne'
  have hs : Real.sqrt Real.pi ≠ 0 := (Real.sqrt_pos.mpr Real.pi_pos).ne'
  field_simp
  ring

theorem moment_eq (n : ℕ) : ∀ i, moment i n = momentG i n := by
  induction n using Nat.strong_induction_on with
  | _ n ih =>
    intro i
    match n with
    | 0 => rw [moment_zero, momentG_zero]
    | 1 => rw [moment_one, momentG_one]
    | n + 2 =>
      have h2 : ((n : ℝ) + 2) ≠ 0 := by positivity
      refine mul_left_cancel₀ h2 ?_
      rw [moment_rec, momentG_rec, ih (n + 1) (by omega), ih n (by omega)]

theorem lobe_integral {i : ℕ} (hi : i ≠ 0) (n : ℕ) :
    ∫ y in (-1 : ℝ)..1, Phase.cosineLobe i y * legP n y = 1 / Real.pi * moment i n := by
  have hc : Continuous fun y => Phase.cosineLobe i y * legP n y := by
    unfold Phase.cosineLobe
    exact (continuous_const.mul ((continuous_id.max continuous_const).pow i)).mul (legP_continuous n)
  rw [← intervalIntegral.integral_add_adjacent_intervals (hc.intervalIntegrable (-1) 0) (hc.intervalIntegrable 0 1)]
  have h1 : ∫ y in (-1 : ℝ)..0, Phase.cosineLobe i y * legP n y = 0 := by
    rw [intervalIntegral.integral_congr (g := fun _ => 0)]
    · simp
    · intro y hy
      rw [Set.uIcc_of_le (by norm_num)] at hy
      simp [Phase.cosineLobe, max_eq_right hy.2, hi]
  rw [h1, zero_add]
  unfold moment
  rw [← intervalIntegral.integral_const_mul]
  refine intervalIntegral.integral_congr fun y hy => ?_
  rw [Set.uIcc_of_le (by norm_num)] at hy
  simp only [Phase.cosineLobe, max_eq_left hy.1]
  ring

theorem lobe_coef (i n : ℕ) (a : A3) (ρ : String → ℝ) :
    (Scatter.primCoef a (.srfCosineLobe i) n).evalR ρ = 1 / Real.pi * ((2 * n + 1) / 2 * momentG i n) := by
  simp only [Scatter.primCoef, Expr.evalR_num, momentG]
  have e : (2 : ℝ) ^ (-2 - (i : ℝ)) = 2 ^ (-1 - (i : ℝ)) / 2 := by
    rw [show -2 - (i : ℝ) = -1 - i - 1 by ring, Real.rpow_sub_one (by norm_num)]
  rw [e]
  ring

end

end RT1
