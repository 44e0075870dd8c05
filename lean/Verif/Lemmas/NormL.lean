import Verif.Lemmas.SphereL
import Verif.Spec.Sphere

/-! Normalisation of the scattering functions. -/

namespace RT1

noncomputable section
open Classical MeasureTheory intervalIntegral

/-- Square root in the Henyey-Greenstein function. -/
def hgv (t x : ℝ) : ℝ := Real.sqrt (1 + t ^ 2 - 2 * t * x)

theorem hgv_pos {t x : ℝ} (ht : |t| < 1) (hx : |x| ≤ 1) : 0 < hgv t x := Real.sqrt_pos.mpr (hg_base_pos ht hx)

theorem hgv_sq {t x : ℝ} (ht : |t| < 1) (hx : |x| ≤ 1) : hgv t x ^ 2 = 1 + t ^ 2 - 2 * t * x :=
  Real.sq_sqrt (hg_base_pos ht hx).le

theorem hgv_rpow {t x : ℝ} (ht : |t| < 1) (hx : |x| ≤ 1) : (1 + t ^ 2 - 2 * t * x) ^ (3 / 2 : ℝ) = hgv t x ^ 3 := by
  have hD := hg_base_pos ht hx
  rw [show (3 / 2 : ℝ) = 1 + 1 / 2 by norm_num, Real.rpow_add hD, Real.rpow_one, ← Real.sqrt_eq_rpow]
  show _ * hgv t x = _
  rw [← hgv_sq ht hx]; ring

theorem hgv_cont (t : ℝ) : Continuous (hgv t) := by
  unfold hgv; exact Real.continuous_sqrt.comp (by fun_prop)

theorem hgv_deriv {t x : ℝ} (ht : |t| < 1) (hx : |x| ≤ 1) : HasDerivAt (hgv t) (-t / hgv t x) x := by
  have h : HasDerivAt (fun x => 1 + t ^ 2 - 2 * t * x) (-(2 * t)) x := by
    simpa using ((hasDerivAt_id x).const_mul (2 * t)).const_sub (1 + t ^ 2)
  have := h.sqrt (hg_base_pos ht hx).ne'
  refine HasDerivAt.congr_deriv (f := hgv t) this ?_
  show -(2 * t) / (2 * hgv t x) = -t / hgv t x
  have := (hgv_pos ht hx).ne'
  generalize hgv t x = v at *
  field_simp

theorem hgv_one {t : ℝ} (ht : |t| < 1) : hgv t 1 = 1 - t := by
  have := (abs_lt.mp ht).2
  unfold hgv; rw [show 1 + t ^ 2 - 2 * t * 1 = (1 - t) ^ 2 by ring, Real.sqrt_sq (by linarith)]

theorem hgv_neg_one {t : ℝ} (ht : |t| < 1) : hgv t (-1) = 1 + t := by
  have := (abs_lt.mp ht).1
  unfold hgv; rw [show 1 + t ^ 2 - 2 * t * (-1) = (1 + t) ^ 2 by ring, Real.sqrt_sq (by linarith)]

/-- The common form of the volume phase functions. -/
def quadHG (α β t x : ℝ) : ℝ := (α + β * x ^ 2) / hgv t x ^ 3

def quadHG' (α β t x : ℝ) : ℝ :=
  (2 * β * x * hgv t x ^ 3 - (α + β * x ^ 2) * (3 * hgv t x ^ 2 * (-t / hgv t x))) / (hgv t x ^ 3) ^ 2

theorem quadHG_deriv (α β : ℝ) {t x : ℝ} (ht : |t| < 1) (hx : |x| ≤ 1) :
    HasDerivAt (quadHG α β t) (quadHG' α β t x) x := by
  have h1 : HasDerivAt (fun x => α + β * x ^ 2) (2 * β * x) x := by
    have := ((hasDerivAt_pow 2 x).const_mul β).const_add α
    simp only [Nat.cast_ofNat, Nat.add_one_sub_one, pow_one] at this
    rw [show 2 * β * x = β * (2 * x) by ring]; exact this
  have h2 : HasDerivAt (fun x => hgv t x ^ 3) (3 * hgv t x ^ 2 * (-t / hgv t x)) x := (hgv_deriv ht hx).pow 3
  exact h1.div h2 (pow_ne_zero _ (hgv_pos ht hx).ne')

theorem quadHG'_cont (α β : ℝ) {t : ℝ} (ht : |t| < 1) : ContinuousOn (quadHG' α β t) (Set.Icc (-1) 1) := by
  have hv := (hgv_cont t).continuousOn (s := Set.Icc (-1) 1)
  have h0 : ∀ x ∈ Set.Icc (-1 : ℝ) 1, hgv t x ≠ 0 := fun x hx => (hgv_pos ht (abs_le.mpr ⟨hx.1, hx.2⟩)).ne'
  unfold quadHG'
  refine ContinuousOn.div ?_ ((hv.pow 3).pow 2) fun x hx => pow_ne_zero _ (pow_ne_zero _ (h0 x hx))
  refine ContinuousOn.sub (ContinuousOn.mul (by fun_prop) (hv.pow 3)) ?_
  exact ContinuousOn.mul (by fun_prop) ((continuousOn_const.mul (hv.pow 2)).mul (continuousOn_const.div hv h0))

theorem quadHG_cont (α β : ℝ) {t : ℝ} (ht : |t| < 1) : ContinuousOn (quadHG α β t) (Set.Icc (-1) 1) := fun _ hx =>
  (quadHG_deriv α β ht (abs_le.mpr ⟨hx.1, hx.2⟩)).continuousAt.continuousWithinAt

theorem quadHG_integral (α β : ℝ) {t : ℝ} (ht : |t| < 1) :
    ∫ x in (-1 : ℝ)..1, quadHG α β t x = (2 * α + β * (2 + 4 * t ^ 2) / 3) / (1 - t ^ 2) := by
  by_cases h0 : t = 0
  · subst h0
    have : ∀ x, quadHG α β 0 x = α + β * x ^ 2 := fun x => by simp [quadHG, hgv]
    simp only [this]
    rw [intervalIntegral.integral_add (by simp) (Continuous.intervalIntegrable (by fun_prop) _ _),
      intervalIntegral.integral_const_mul, integral_pow]
    simp
    ring
  · have h1 := abs_lt.mp ht
    have hm : (1 - t) ≠ 0 := by linarith
    have hp : (1 + t) ≠ 0 := by linarith
    have hmp : 1 - t ^ 2 ≠ 0 := by
      rw [show 1 - t ^ 2 = (1 - t) * (1 + t) by ring]; exact mul_ne_zero hm hp
    rw [integral_eq_sub_of_hasDerivAt (f := fun x => α * (1 / t * (hgv t x)⁻¹) +
      β * (1 / (4 * t ^ 3) * ((1 + t ^ 2) ^ 2 * (hgv t x)⁻¹ + 2 * (1 + t ^ 2) * hgv t x - 1 / 3 * hgv t x ^ 3)))]
    · simp only [hgv_one ht, hgv_neg_one ht]
      rw [show 1 - t ^ 2 = (1 - t) * (1 + t) by ring]
      field_simp
      ring
    · intro x hx
      rw [Set.uIcc_of_le (by norm_num)] at hx
      have hx' : |x| ≤ 1 := abs_le.mpr ⟨hx.1, hx.2⟩
      have hv := hgv_deriv ht hx'
      have hne := (hgv_pos ht hx').ne'
      have hs := hgv_sq ht hx'
      have hi := hv.inv hne
      have hd := ((hi.const_mul (1 / t)).const_mul α).add
        ((((((hi.const_mul ((1 + t ^ 2) ^ 2)).add (hv.const_mul (2 * (1 + t ^ 2)))).sub ((hv.pow 3).const_mul (1 / 3)))).const_mul
          (1 / (4 * t ^ 3))).const_mul β)
      refine hd.congr_deriv ?_
      unfold quadHG
      generalize hgv t x = v at *
      have hx2 : x = (1 + t ^ 2 - v ^ 2) / (2 * t) := by field_simp; linarith
      subst hx2
      simp only [Nat.cast_ofNat, Nat.add_one_sub_one]
      field_simp
      ring
    · exact ((quadHG_cont α β ht).mono (by rw [Set.uIcc_of_le (by norm_num)])).intervalIntegrable

/-- The volume functions in the common form. -/
theorem hg_quad (c : ℝ) {t x : ℝ} (ht : |t| < 1) (hx : |x| ≤ 1) : Phase.hg c t x = quadHG (1 / c * (1 - t ^ 2)) 0 t x := by
  unfold Phase.hg quadHG; rw [hgv_rpow ht hx]; ring

theorem hgRayleigh_quad {t x : ℝ} (ht : |t| < 1) (hx : |x| ≤ 1) : Phase.hgRayleigh t x =
    quadHG (3 / (8 * Real.pi) * (1 / (2 + t ^ 2)) * (1 - t ^ 2)) (3 / (8 * Real.pi) * (1 / (2 + t ^ 2)) * (1 - t ^ 2)) t x := by
  unfold Phase.hgRayleigh quadHG; rw [hgv_rpow ht hx]; ring

theorem rayleigh_quad (x : ℝ) : Phase.rayleigh x = quadHG (3 / (16 * Real.pi)) (3 / (16 * Real.pi)) 0 x := by
  unfold Phase.rayleigh quadHG hgv; simp; ring

/-- The predefined volume functions. -/
def Kind.IsVol : Kind → Prop
  | .volIsotropic => True
  | .volRayleigh => True
  | .volHG _ => True
  | .volHGRayleigh _ => True
  | _ => False

theorem Kind.vol_quad {k : Kind} (hk : k.IsVol) {a0 t : ℝ} (ht : |t| < 1) : ∃ α β s, |s| < 1 ∧
    (∀ x, |x| ≤ 1 → k.val a0 t x = quadHG α β s x) ∧
    2 * Real.pi * ((2 * α + β * (2 + 4 * s ^ 2) / 3) / (1 - s ^ 2)) = 1 := by
  have hpi := Real.pi_ne_zero
  have h1 := abs_lt.mp ht
  have hmp : 1 - t ^ 2 ≠ 0 := by nlinarith
  have h2 : 2 + t ^ 2 ≠ 0 := by positivity
  cases k with
  | volIsotropic => exact ⟨1 / (4 * Real.pi), 0, 0, by simp, fun x _ => by simp [quadHG, hgv, Kind.val], by field_simp; norm_num⟩
  | volRayleigh => exact ⟨_, _, 0, by simp, fun x _ => rayleigh_quad x, by field_simp; norm_num⟩
  | volHG te => exact ⟨_, _, t, ht, fun x hx => hg_quad _ ht hx, by field_simp; ring⟩
  | volHGRayleigh te => exact ⟨_, _, t, ht, fun x hx => hgRayleigh_quad ht hx, by field_simp; ring⟩
  | _ => exact hk.elim

/-- Scattering angle of the volume functions. -/
theorem vol_cosTheta (t0 t p0 p : ℝ) : Phase.cosTheta (-1) 1 1 t0 t p0 p = sphC (Real.pi - t0) (p0 - p) t := by
  unfold Phase.cosTheta sphC
  rw [Real.cos_pi_sub, Real.sin_pi_sub, Real.cos_sub]
  ring

/-- Integration over the azimuth can start anywhere. -/
theorem azimuth_shift {g : ℝ → ℝ} (hg : Function.Periodic g (2 * Real.pi)) (p0 : ℝ) :
    ∫ p in (0 : ℝ)..2 * Real.pi, g (p0 - p) = ∫ p in (0 : ℝ)..2 * Real.pi, g p := by
  rw [intervalIntegral.integral_comp_sub_left (fun p => g p)]
  have h := hg.intervalIntegral_add_eq (p0 - 2 * Real.pi) 0
  rw [show p0 - 2 * Real.pi + 2 * Real.pi = p0 - 0 by ring, zero_add] at h
  exact h

theorem Kind.vol_normalised {k : Kind} (hk : k.IsVol) {a0 t : ℝ} (ht : |t| < 1) (t0 p0 : ℝ) :
    sphereIntegral (fun tex pex => k.val a0 t (Phase.cosTheta (-1) 1 1 t0 tex p0 pex)) = 1 := by
  obtain ⟨α, β, s, hs, hq, h1⟩ := k.vol_quad hk (a0 := a0) ht
  unfold sphereIntegral
  simp only [vol_cosTheta]
  have : ∀ p t', k.val a0 t (sphC (Real.pi - t0) p t') = quadHG α β s (sphC (Real.pi - t0) p t') := fun p t' =>
    hq _ (sphC_abs _ _ _)
  simp only [this]
  rw [azimuth_shift (g := fun p => ∫ t in (0 : ℝ)..Real.pi, quadHG α β s (sphC (Real.pi - t0) p t) * Real.sin t),
    sph_rot (fun x hx => quadHG_deriv α β hs hx) (quadHG'_cont α β hs), quadHG_integral α β hs, h1]
  intro p
  simp only [sphC, Real.cos_add_two_pi]

theorem Kind.vol_continuous {k : Kind} (hk : k.IsVol) {a0 t : ℝ} (ht : |t| < 1) (t0 p0 : ℝ) :
    Continuous fun q : ℝ × ℝ => k.val a0 t (Phase.cosTheta (-1) 1 1 t0 q.1 p0 q.2) := by
  obtain ⟨α, β, s, hs, hq, h1⟩ := k.vol_quad hk (a0 := a0) ht
  simp only [vol_cosTheta]
  have : ∀ p t', k.val a0 t (sphC (Real.pi - t0) p t') = quadHG α β s (sphC (Real.pi - t0) p t') := fun p t' =>
    hq _ (sphC_abs _ _ _)
  simp only [this]
  refine (quadHG_cont α β hs).comp_continuous ?_ fun q => sphC_mem _ _ _
  unfold sphC
  fun_prop

/-- Nadir reflectance of the Henyey-Greenstein BRDF. -/
theorem hgNadir_integral {a0 t : ℝ} (h0 : a0 ≠ 0) (ha : |a0| ≤ 1) (ht0 : t ≠ 0) (ht : |t| < 1) :
    2 * Real.pi * ∫ θ in (0 : ℝ)..Real.pi / 2, Phase.hg Real.pi t (a0 * Real.cos θ) * Real.cos θ * Real.sin θ
      = Phase.hgNadir a0 t := by
  have hb : ∀ θ, |a0 * Real.cos θ| ≤ 1 := fun θ => by
    rw [abs_mul]; exact mul_le_one₀ ha (abs_nonneg _) (Real.abs_cos_le_one θ)
  have hpi := Real.pi_ne_zero
  have hq : ∀ θ, Phase.hg Real.pi t (a0 * Real.cos θ) = 1 / Real.pi * (1 - t ^ 2) / hgv t (a0 * Real.cos θ) ^ 3 := fun θ => by
    rw [hg_quad _ ht (hb θ)]; simp [quadHG]
  simp only [hq]
  rw [integral_eq_sub_of_hasDerivAt (f := fun θ => -(1 / Real.pi * (1 - t ^ 2) * (1 / (2 * t ^ 2 * a0 ^ 2)) *
      ((1 + t ^ 2) * (hgv t (a0 * Real.cos θ))⁻¹ + hgv t (a0 * Real.cos θ))))]
  · simp only [Real.cos_zero, Real.cos_pi_div_two, mul_zero, mul_one]
    have e0 : hgv t 0 ^ 2 = 1 + t ^ 2 := by rw [hgv_sq ht (by simp)]; ring
    have e1 : hgv t a0 ^ 2 = 1 + t ^ 2 - 2 * t * a0 := hgv_sq ht ha
    have n0 : hgv t 0 ≠ 0 := (hgv_pos ht (by simp)).ne'
    have n1 : hgv t a0 ≠ 0 := (hgv_pos ht ha).ne'
    have s1 : Real.sqrt (1 + t ^ 2 - 2 * a0 * t) = hgv t a0 := by unfold hgv; ring_nf
    have s0 : Real.sqrt ((1 + t ^ 2 - 2 * a0 * t) * (1 + t ^ 2)) = hgv t a0 * hgv t 0 := by
      have hp := hg_base_pos ht ha
      rw [Real.sqrt_mul (by linarith), s1]
      unfold hgv; ring_nf
    unfold Phase.hgNadir
    rw [s0, s1, ← e0]
    generalize hgv t 0 = v0 at *
    generalize hgv t a0 = v1 at *
    have ea : t * a0 = (v0 ^ 2 - v1 ^ 2) / 2 := by rw [e0, e1]; ring
    have ea' : 1 - t * (-t + a0) = (v0 ^ 2 + v1 ^ 2) / 2 := by rw [e0, e1]; ring
    rw [ea']
    field_simp
    ring
  · intro θ _
    have hne := (hgv_pos ht (hb θ)).ne'
    have hs := hgv_sq ht (hb θ)
    have hv : HasDerivAt (fun θ => hgv t (a0 * Real.cos θ)) (-t / hgv t (a0 * Real.cos θ) * (a0 * -Real.sin θ)) θ :=
      HasDerivAt.comp (h₂ := hgv t) (h := fun θ => a0 * Real.cos θ) θ (hgv_deriv ht (hb θ))
        ((Real.hasDerivAt_cos θ).const_mul a0)
    have hd := (((hv.inv hne).const_mul (1 + t ^ 2)).add hv).const_mul (1 / Real.pi * (1 - t ^ 2) * (1 / (2 * t ^ 2 * a0 ^ 2)))
    refine hd.neg.congr_deriv ?_
    generalize hgv t (a0 * Real.cos θ) = v at *
    have hc : Real.cos θ = (1 + t ^ 2 - v ^ 2) / (2 * t * a0) := by field_simp; linarith
    rw [hc]
    field_simp
    ring
  · refine Continuous.intervalIntegrable ?_ _ _
    have hv : Continuous fun θ => hgv t (a0 * Real.cos θ) := (hgv_cont t).comp (by fun_prop)
    exact ((continuous_const.div (hv.pow 3) fun θ => pow_ne_zero _ (hgv_pos ht (hb θ)).ne').mul (by fun_prop)).mul (by fun_prop)

theorem cos_pow_sin (n : ℕ) : ∫ θ in (0 : ℝ)..Real.pi / 2, Real.cos θ ^ n * Real.sin θ = 1 / (n + 1) := by
  have hn : (n : ℝ) + 1 ≠ 0 := by positivity
  rw [integral_eq_sub_of_hasDerivAt (f := fun θ => -(1 / ((n : ℝ) + 1) * Real.cos θ ^ (n + 1)))]
  · simp
  · intro θ _
    have := (((Real.hasDerivAt_cos θ).pow (n + 1)).const_mul (1 / ((n : ℝ) + 1))).neg
    refine this.congr_deriv ?_
    rw [show n + 1 - 1 = n from rfl]
    push_cast
    field_simp
  · exact Continuous.intervalIntegrable (by fun_prop) _ _

end

end RT1
