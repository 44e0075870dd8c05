import Verif.Lemmas.ScatterL
import Mathlib.MeasureTheory.Integral.Prod
import Mathlib.MeasureTheory.Integral.IntervalIntegral.IntegrationByParts
import Mathlib.MeasureTheory.Integral.IntervalIntegral.Periodic
import Mathlib.Analysis.SpecialFunctions.Integrals.Basic
import Mathlib.Analysis.SpecialFunctions.Sqrt

/-! Integrals over the sphere: rotation invariance, proved by differentiation in the
direction of the axis. -/

namespace RT1

noncomputable section
open Classical MeasureTheory intervalIntegral

theorem swap_cont {F : ℝ → ℝ → ℝ} (h : Continuous fun p : ℝ × ℝ => F p.1 p.2) (a b c d : ℝ) :
    ∫ x in a..b, ∫ y in c..d, F x y = ∫ y in c..d, ∫ x in a..b, F x y := by
  refine intervalIntegral_intervalIntegral_swap ?_
  refine IntegrableOn.mono_set (t := Set.uIcc a b ×ˢ Set.uIcc c d) ?_
    (Set.prod_mono Set.uIoc_subset_uIcc Set.uIoc_subset_uIcc)
  exact ContinuousOn.integrableOn_compact (isCompact_uIcc.prod isCompact_uIcc) h.continuousOn

theorem cont_inner {X : Type} [TopologicalSpace X] {F : X → ℝ → ℝ} (h : Continuous fun p : X × ℝ => F p.1 p.2)
    (a b : ℝ) : Continuous fun x => ∫ y in a..b, F x y :=
  continuous_parametric_intervalIntegral_of_continuous' (f := F) h a b

/-- Scalar product of the directions `(r, 0)` and `(t, p)`. -/
def sphC (r p t : ℝ) : ℝ := Real.cos r * Real.cos t + Real.sin r * Real.sin t * Real.cos p

theorem sphC_abs (r p t : ℝ) : |sphC r p t| ≤ 1 := by
  have := Phase.cosTheta_abs_le (a0 := 1) (a1 := 1) (a2 := 1) (by simp) (by simp) (by simp) r t p 0
  unfold Phase.cosTheta at this
  unfold sphC
  simpa using this

theorem sphC_mem (r p t : ℝ) : sphC r p t ∈ Set.Icc (-1 : ℝ) 1 := by
  have := abs_le.mp (sphC_abs r p t); exact ⟨this.1, this.2⟩

theorem sphC_cont : Continuous fun q : ℝ × ℝ × ℝ => sphC q.1 q.2.1 q.2.2 := by
  unfold sphC; fun_prop

theorem sphC_dr (r p t : ℝ) : HasDerivAt (fun r => sphC r p t)
    (-Real.sin r * Real.cos t + Real.cos r * Real.sin t * Real.cos p) r :=
  ((Real.hasDerivAt_cos r).mul_const _).add (((Real.hasDerivAt_sin r).mul_const _).mul_const _)

theorem sphC_dt (r p t : ℝ) : HasDerivAt (fun t => sphC r p t)
    (Real.cos r * -Real.sin t + Real.sin r * Real.cos t * Real.cos p) t :=
  ((Real.hasDerivAt_cos t).const_mul _).add (((Real.hasDerivAt_sin t).const_mul _).mul_const _)

theorem sphC_dp (r p t : ℝ) : HasDerivAt (fun p => sphC r p t)
    (Real.sin r * Real.sin t * -Real.sin p) p := by
  have := ((Real.hasDerivAt_cos p).const_mul (Real.sin r * Real.sin t)).const_add (Real.cos r * Real.cos t)
  exact this

section
variable {f f' : ℝ → ℝ} (hd : ∀ x, |x| ≤ 1 → HasDerivAt f (f' x) x) (hc : ContinuousOn f' (Set.Icc (-1) 1))
include hd hc

theorem sph_f_cont : Continuous fun q : ℝ × ℝ × ℝ => f (sphC q.1 q.2.1 q.2.2) := by
  have : ContinuousOn f (Set.Icc (-1) 1) := fun x hx =>
    (hd x (abs_le.mpr ⟨hx.1, hx.2⟩)).continuousAt.continuousWithinAt
  exact this.comp_continuous sphC_cont fun q => sphC_mem _ _ _

theorem sph_f'_cont : Continuous fun q : ℝ × ℝ × ℝ => f' (sphC q.1 q.2.1 q.2.2) :=
  hc.comp_continuous sphC_cont fun q => sphC_mem _ _ _

/-- The derivative in the direction of the axis integrates to 0. -/
theorem sph_deriv_zero (r : ℝ) : ∫ p in (0 : ℝ)..2 * Real.pi, ∫ t in (0 : ℝ)..Real.pi,
    f' (sphC r p t) * (-Real.sin r * Real.cos t + Real.cos r * Real.sin t * Real.cos p) * Real.sin t = 0 := by
  have hf := sph_f_cont hd hc
  have hf' := sph_f'_cont hd hc
  have k2 : Continuous fun q : ℝ × ℝ => f (sphC r q.1 q.2) := hf.comp (by fun_prop : Continuous fun q : ℝ × ℝ => (r, q.1, q.2))
  have k2' : Continuous fun q : ℝ × ℝ => f' (sphC r q.1 q.2) := hf'.comp (by fun_prop : Continuous fun q : ℝ × ℝ => (r, q.1, q.2))
  -- the two parts of the integrand
  have hA : Continuous fun q : ℝ × ℝ => -Real.cos q.1 * (Real.sin q.2 * (f' (sphC r q.1 q.2) *
      (Real.cos r * -Real.sin q.2 + Real.sin r * Real.cos q.2 * Real.cos q.1))) :=
    (by fun_prop : Continuous fun q : ℝ × ℝ => -Real.cos q.1).mul
      ((by fun_prop : Continuous fun q : ℝ × ℝ => Real.sin q.2).mul (k2'.mul (by fun_prop)))
  have hB : Continuous fun q : ℝ × ℝ => Real.cos q.2 * (Real.sin q.1 * (f' (sphC r q.1 q.2) *
      (Real.sin r * Real.sin q.2 * -Real.sin q.1))) :=
    (by fun_prop : Continuous fun q : ℝ × ℝ => Real.cos q.2).mul
      ((by fun_prop : Continuous fun q : ℝ × ℝ => Real.sin q.1).mul (k2'.mul (by fun_prop)))
  have hC : Continuous fun q : ℝ × ℝ => Real.cos q.1 * (Real.cos q.2 * f (sphC r q.1 q.2)) :=
    (by fun_prop : Continuous fun q : ℝ × ℝ => Real.cos q.1).mul
      ((by fun_prop : Continuous fun q : ℝ × ℝ => Real.cos q.2).mul k2)
  have row : ∀ {F : ℝ × ℝ → ℝ}, Continuous F → ∀ p, Continuous fun t => F (p, t) := fun h p =>
    h.comp (by fun_prop : Continuous fun t : ℝ => (p, t))
  have col : ∀ {F : ℝ × ℝ → ℝ}, Continuous F → ∀ t, Continuous fun p => F (p, t) := fun h t =>
    h.comp (by fun_prop : Continuous fun p : ℝ => (p, t))
  have e1 : ∀ p t, f' (sphC r p t) * (-Real.sin r * Real.cos t + Real.cos r * Real.sin t * Real.cos p) * Real.sin t =
      -Real.cos p * (Real.sin t * (f' (sphC r p t) *
      (Real.cos r * -Real.sin t + Real.sin r * Real.cos t * Real.cos p)))
      + Real.cos t * (Real.sin p * (f' (sphC r p t) * (Real.sin r * Real.sin t * -Real.sin p))) := by
    intro p t
    linear_combination (f' (sphC r p t) * Real.sin r * Real.sin t * Real.cos t) * (Real.sin_sq_add_cos_sq p)
  simp only [e1]
  have iA : ∀ p, ∫ t in (0 : ℝ)..Real.pi, -Real.cos p * (Real.sin t * (f' (sphC r p t) *
      (Real.cos r * -Real.sin t + Real.sin r * Real.cos t * Real.cos p))) =
      ∫ t in (0 : ℝ)..Real.pi, Real.cos p * (Real.cos t * f (sphC r p t)) := by
    intro p
    rw [intervalIntegral.integral_const_mul, intervalIntegral.integral_const_mul]
    have := integral_mul_deriv_eq_deriv_mul (a := 0) (b := Real.pi) (u := Real.sin) (u' := Real.cos)
      (v := fun t => f (sphC r p t)) (v' := fun t => f' (sphC r p t) *
        (Real.cos r * -Real.sin t + Real.sin r * Real.cos t * Real.cos p))
      (fun x _ => Real.hasDerivAt_sin x) (fun x _ => (hd _ (sphC_abs r p x)).comp x (sphC_dt r p x))
      (Real.continuous_cos.intervalIntegrable _ _)
      (((row k2' p).mul (by fun_prop)).intervalIntegrable _ _)
    rw [this]
    simp
  have iB : ∀ t, ∫ p in (0 : ℝ)..2 * Real.pi, Real.cos t * (Real.sin p * (f' (sphC r p t) *
      (Real.sin r * Real.sin t * -Real.sin p))) =
      -∫ p in (0 : ℝ)..2 * Real.pi, Real.cos p * (Real.cos t * f (sphC r p t)) := by
    intro t
    rw [intervalIntegral.integral_const_mul]
    have := integral_mul_deriv_eq_deriv_mul (a := 0) (b := 2 * Real.pi) (u := Real.sin) (u' := Real.cos)
      (v := fun p => f (sphC r p t)) (v' := fun p => f' (sphC r p t) * (Real.sin r * Real.sin t * -Real.sin p))
      (fun x _ => Real.hasDerivAt_sin x) (fun x _ => (hd _ (sphC_abs r x t)).comp x (sphC_dp r x t))
      (Real.continuous_cos.intervalIntegrable _ _)
      (((col k2' t).mul (by fun_prop)).intervalIntegrable _ _)
    rw [this]
    simp only [Real.sin_two_pi, Real.sin_zero, zero_mul, sub_zero, zero_sub, mul_neg]
    rw [← intervalIntegral.integral_const_mul]
    congr 1
    refine intervalIntegral.integral_congr fun p _ => ?_
    show Real.cos t * (Real.cos p * f (sphC r p t)) = Real.cos p * (Real.cos t * f (sphC r p t))
    ring
  have split : ∀ p, ∫ t in (0 : ℝ)..Real.pi, (-Real.cos p * (Real.sin t * (f' (sphC r p t) *
      (Real.cos r * -Real.sin t + Real.sin r * Real.cos t * Real.cos p)))
      + Real.cos t * (Real.sin p * (f' (sphC r p t) * (Real.sin r * Real.sin t * -Real.sin p)))) =
      (∫ t in (0 : ℝ)..Real.pi, Real.cos p * (Real.cos t * f (sphC r p t))) +
      ∫ t in (0 : ℝ)..Real.pi, Real.cos t * (Real.sin p * (f' (sphC r p t) * (Real.sin r * Real.sin t * -Real.sin p))) := by
    intro p
    rw [intervalIntegral.integral_add ((row hA p).intervalIntegrable _ _) ((row hB p).intervalIntegrable _ _), iA]
  simp only [split]
  rw [intervalIntegral.integral_add ((cont_inner hC _ _).intervalIntegrable _ _)
    ((cont_inner hB _ _).intervalIntegrable _ _),
    swap_cont (F := fun p t => Real.cos t * (Real.sin p * (f' (sphC r p t) * (Real.sin r * Real.sin t * -Real.sin p)))) hB,
    swap_cont (F := fun p t => Real.cos p * (Real.cos t * f (sphC r p t))) hC]
  simp only [iB]
  rw [intervalIntegral.integral_neg]
  ring

/-- Rotation invariance of the integral over the sphere. -/
theorem sph_rot (s : ℝ) : ∫ p in (0 : ℝ)..2 * Real.pi, ∫ t in (0 : ℝ)..Real.pi, f (sphC s p t) * Real.sin t =
    2 * Real.pi * ∫ x in (-1 : ℝ)..1, f x := by
  have hf := sph_f_cont hd hc
  have hf' := sph_f'_cont hd hc
  have hF : Continuous fun q : ℝ × ℝ × ℝ => f' (sphC q.1 q.2.1 q.2.2) *
      (-Real.sin q.1 * Real.cos q.2.2 + Real.cos q.1 * Real.sin q.2.2 * Real.cos q.2.1) * Real.sin q.2.2 :=
    (hf'.mul (by fun_prop)).mul (by fun_prop)
  have hg : ∀ r, Continuous fun q : ℝ × ℝ => f (sphC r q.1 q.2) * Real.sin q.2 := fun r =>
    (hf.comp (by fun_prop : Continuous fun q : ℝ × ℝ => (r, q.1, q.2))).mul (by fun_prop)
  have row : ∀ {F : ℝ × ℝ → ℝ}, Continuous F → ∀ p, Continuous fun t => F (p, t) := fun h p =>
    h.comp (by fun_prop : Continuous fun t : ℝ => (p, t))
  have ftc : ∀ p t, f (sphC s p t) * Real.sin t = f (sphC 0 p t) * Real.sin t +
      ∫ r in (0 : ℝ)..s, f' (sphC r p t) *
        (-Real.sin r * Real.cos t + Real.cos r * Real.sin t * Real.cos p) * Real.sin t := by
    intro p t
    rw [integral_eq_sub_of_hasDerivAt (f := fun r => f (sphC r p t) * Real.sin t)
      (fun r _ => ((hd _ (sphC_abs r p t)).comp r (sphC_dr r p t)).mul_const _)]
    · ring
    · exact (hF.comp (by fun_prop : Continuous fun r : ℝ => (r, p, t))).intervalIntegrable _ _
  simp only [ftc]
  have hFt : ∀ p, Continuous fun q : ℝ × ℝ => f' (sphC q.2 p q.1) *
      (-Real.sin q.2 * Real.cos q.1 + Real.cos q.2 * Real.sin q.1 * Real.cos p) * Real.sin q.1 := fun p =>
    ((hf'.comp (by fun_prop : Continuous fun q : ℝ × ℝ => (q.2, p, q.1))).mul (by fun_prop)).mul (by fun_prop)
  have hFp : Continuous fun q : (ℝ × ℝ) × ℝ => f' (sphC q.1.2 q.1.1 q.2) *
      (-Real.sin q.1.2 * Real.cos q.2 + Real.cos q.1.2 * Real.sin q.2 * Real.cos q.1.1) * Real.sin q.2 :=
    ((hf'.comp (by fun_prop : Continuous fun q : (ℝ × ℝ) × ℝ => (q.1.2, q.1.1, q.2))).mul
      (by fun_prop)).mul (by fun_prop)
  have hin : Continuous fun q : ℝ × ℝ => ∫ t in (0 : ℝ)..Real.pi, f' (sphC q.2 q.1 t) *
      (-Real.sin q.2 * Real.cos t + Real.cos q.2 * Real.sin t * Real.cos q.1) * Real.sin t :=
    cont_inner (X := ℝ × ℝ) (F := fun q t => f' (sphC q.2 q.1 t) *
      (-Real.sin q.2 * Real.cos t + Real.cos q.2 * Real.sin t * Real.cos q.1) * Real.sin t) hFp 0 Real.pi
  have hsplit : ∀ p, ∫ t in (0 : ℝ)..Real.pi, (f (sphC 0 p t) * Real.sin t +
      ∫ r in (0 : ℝ)..s, f' (sphC r p t) *
        (-Real.sin r * Real.cos t + Real.cos r * Real.sin t * Real.cos p) * Real.sin t) =
      (∫ t in (0 : ℝ)..Real.pi, f (sphC 0 p t) * Real.sin t) +
      ∫ r in (0 : ℝ)..s, ∫ t in (0 : ℝ)..Real.pi, f' (sphC r p t) *
        (-Real.sin r * Real.cos t + Real.cos r * Real.sin t * Real.cos p) * Real.sin t := by
    intro p
    rw [intervalIntegral.integral_add ((row (hg 0) p).intervalIntegrable _ _)
      ((cont_inner (hFt p) _ _).intervalIntegrable _ _), 
      swap_cont (F := fun t r => f' (sphC r p t) *
        (-Real.sin r * Real.cos t + Real.cos r * Real.sin t * Real.cos p) * Real.sin t) (hFt p)]
  simp only [hsplit]
  rw [intervalIntegral.integral_add ((cont_inner (hg 0) _ _).intervalIntegrable _ _)
    ((cont_inner (F := fun p r => ∫ t in (0 : ℝ)..Real.pi, f' (sphC r p t) *
      (-Real.sin r * Real.cos t + Real.cos r * Real.sin t * Real.cos p) * Real.sin t) hin _ _).intervalIntegrable _ _),
    swap_cont (F := fun p r => ∫ t in (0 : ℝ)..Real.pi, f' (sphC r p t) *
      (-Real.sin r * Real.cos t + Real.cos r * Real.sin t * Real.cos p) * Real.sin t) hin]
  simp only [sph_deriv_zero hd hc, intervalIntegral.integral_zero, add_zero]
  have h0 : ∀ p t, sphC 0 p t = Real.cos t := fun p t => by simp [sphC]
  simp only [h0, intervalIntegral.integral_const, smul_eq_mul, sub_zero]
  congr 1
  have hsub := integral_comp_mul_deriv'' (a := 0) (b := Real.pi) (f := Real.cos) (f' := fun t => -Real.sin t) (g := f)
    Real.continuous_cos.continuousOn (fun x _ => (Real.hasDerivAt_cos x).hasDerivWithinAt)
    (by fun_prop) (fun x hx => by
      obtain ⟨t, _, rfl⟩ := hx
      exact (hd _ (Real.abs_cos_le_one t)).continuousAt.continuousWithinAt)
  simp only [Real.cos_zero, Real.cos_pi, Function.comp, mul_neg, intervalIntegral.integral_neg] at hsub
  rw [intervalIntegral.integral_symm (-1) 1] at hsub
  linarith

end

end

end RT1
