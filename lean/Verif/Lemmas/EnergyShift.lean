import Verif.Lemmas.Energy
import Mathlib.MeasureTheory.Integral.IntervalIntegral.Periodic

/-!
# Energy balance with a shifted azimuth in the interaction term (C36, C74)
-/

namespace RT1

noncomputable section
open MeasureTheory Real

namespace Energy

theorem hemReflectance_shift {f : ℝ → ℝ → ℝ} (h : ∀ t p, f t (p + 2 * π) = f t p) :
    hemReflectance (fun t p => f t (p + π)) = hemReflectance f := by
  unfold hemReflectance
  set g : ℝ → ℝ := fun p => ∫ t in (0 : ℝ)..(π / 2), f t p * cos t * sin t with hg
  have hper : Function.Periodic g (2 * π) := fun p => by simp only [hg, h]
  show ∫ p in (0 : ℝ)..(2 * π), g (p + π) = ∫ p in (0 : ℝ)..(2 * π), g p
  rw [intervalIntegral.integral_comp_add_right g π, zero_add, add_comm (2 * π) π,
    hper.intervalIntegral_add_eq π 0, zero_add]

theorem _root_.RT1.Balanced.shift {P F : Bidir} {R : ℝ} (h : Balanced P F R) (hF : F.Turns) : Balanced P F.shift R where
  contP := h.contP
  contF := h.contF.comp (by fun_prop) (by fun_prop) (by fun_prop) (by fun_prop)
  P0 := h.P0
  F0 := fun _ _ _ _ => h.F0 _ _ _ _
  norm := h.norm
  refl := fun t ht p => by
    have := hemReflectance_shift (f := fun t' p' => F t t' p p') fun t' p' => hF.full _ _ _ _
    unfold Bidir.shift
    rw [this]
    exact h.refl t ht p
  symP := h.symP
  symF := fun t t' p p' => by
    show F t t' p (p' + π) = F t' t p' (p + π)
    rw [h.symF, ← hF.half t' t p' (p + π), add_assoc, ← two_mul, hF.full]

theorem hemReflectance_eq {g : ℝ → ℝ → ℝ} (hI : Integrable (fun z : ℝ × ℝ => g z.1 z.2 * cos z.1 * sin z.1) ν) :
    hemReflectance g = ∫ z, g z.1 z.2 * cos z.1 * sin z.1 ∂ν := by
  unfold hemReflectance
  rw [intervalIntegral.integral_of_le two_pi_nonneg]
  simp only [intervalIntegral.integral_of_le half_pi_nonneg]
  exact (integral_prod_symm (μ := MeasureTheory.volume.restrict (Set.Ioc 0 (π / 2)))
    (ν := MeasureTheory.volume.restrict (Set.Ioc 0 (2 * π))) _ hI).symm

/-- The energy balance, if the exit azimuth of the surface is shifted by pi in the interaction term. -/
theorem balance_shift {P F : Bidir} {R : ℝ} (h : Balanced P F R) (hF : F.Turns) {x : Setting} (hx : x.OK R) {g : ℝ → ℝ → ℝ}
    (hg : ∀ t ∈ Set.Ioo 0 (π / 2), ∀ p ∈ Set.Ioo 0 (2 * π), g t p = x.srf F t p + x.vol P t p + x.inter P F.shift t p) :
    IntegrableOn (fun z : ℝ × ℝ => g z.1 z.2 * cos z.1 * sin z.1) (Set.Ioc 0 (π / 2) ×ˢ Set.Ioc 0 (2 * π)) ∧
    0 ≤ hemReflectance g ∧ hemReflectance g ≤ x.I0 * cos x.t0 := by
  have hx0 : ({ x with N := 0 } : Setting).OK R := ⟨hx.I0, hx.τ, hx.ω0, hx.ω1, le_rfl, by simp, hx.b0, hx.b1, hx.mu0, hx.t0⟩
  have hz0 : ∀ (G : Bidir) t p, ({ x with N := 0 } : Setting).srf G t p = 0 := fun G t p => by simp [Setting.srf]
  have b0 := (balance h hx0 le_rfl zero_le_one (g := fun t p => x.vol P t p) fun t _ p _ => by rw [hz0]; simp [Setting.vol]).1
  have b1 := (balance h hx le_rfl zero_le_one (g := fun t p => x.srf F t p + x.vol P t p) fun t _ p _ => by simp).1
  have b2 := (balance (h.shift hF) hx le_rfl zero_le_one (g := fun t p => x.srf F.shift t p + x.vol P t p) fun t _ p _ => by simp).1
  obtain ⟨b3, l3, u3⟩ := balance (h.shift hF) hx zero_le_one le_rfl
    (g := fun t p => x.srf F.shift t p + x.vol P t p + x.inter P F.shift t p) fun t _ p _ => by rw [one_mul]
  unfold IntegrableOn at b0 b1 b2 b3
  rw [← ν_eq] at b0 b1 b2 b3
  have s1 : Integrable (fun z : ℝ × ℝ => x.srf F z.1 z.2 * cos z.1 * sin z.1) ν :=
    (b1.sub b0).congr (Filter.Eventually.of_forall fun z => by simp only [Pi.sub_apply]; ring)
  have s2 : Integrable (fun z : ℝ × ℝ => x.srf F.shift z.1 z.2 * cos z.1 * sin z.1) ν :=
    (b2.sub b0).congr (Filter.Eventually.of_forall fun z => by simp only [Pi.sub_apply]; ring)
  have es : ∫ z, x.srf F z.1 z.2 * cos z.1 * sin z.1 ∂ν = ∫ z, x.srf F.shift z.1 z.2 * cos z.1 * sin z.1 ∂ν := by
    rw [← hemReflectance_eq s1, ← hemReflectance_eq s2, ← hemReflectance_shift (f := x.srf F) fun t p => by
      simp only [Setting.srf, hF.full]]
    rfl
  have hae : (fun z : ℝ × ℝ => (x.srf F.shift z.1 z.2 + x.vol P z.1 z.2 + x.inter P F.shift z.1 z.2) * cos z.1 * sin z.1
        + (x.srf F z.1 z.2 * cos z.1 * sin z.1 - x.srf F.shift z.1 z.2 * cos z.1 * sin z.1)) =ᵐ[ν]
      fun z => g z.1 z.2 * cos z.1 * sin z.1 := by
    filter_upwards [ae_mem] with z hz
    rw [hg z.1 hz.1 z.2 hz.2]
    ring
  have hI := (b3.add (s1.sub s2)).congr hae
  have e : hemReflectance g = hemReflectance fun t p => x.srf F.shift t p + x.vol P t p + x.inter P F.shift t p := by
    have e1 := integral_add b3 (s1.sub s2)
    simp only [Pi.sub_apply] at e1
    rw [hemReflectance_eq hI, hemReflectance_eq b3, ← integral_congr_ae hae, e1, integral_sub s1 s2, es, sub_self, add_zero]
  rw [e]
  exact ⟨by rw [ν_eq] at hI; exact hI, l3, u3⟩

end Energy

end

end RT1
