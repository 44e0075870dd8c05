import Verif.Spec.Site
import Verif.Spec.Sphere

/-!
# Energy balance

Radiances seen from all directions of the upper hemisphere, compared with the incoming energy
(C74).
-/

namespace RT1

noncomputable section

/-- Functions of two directions: the arguments are the zenith angles of both directions, then the
azimuths of both directions. -/
abbrev Bidir := ℝ → ℝ → ℝ → ℝ → ℝ

/-- Joint continuity. -/
def Bidir.Cont (P : Bidir) : Prop := Continuous fun x : (ℝ × ℝ) × (ℝ × ℝ) => P x.1.1 x.2.1 x.1.2 x.2.2

/-- Turning both directions by pi, or one direction by 2 pi, makes no difference. -/
structure Bidir.Turns (F : Bidir) : Prop where
  full : ∀ a b u v, F a b u (v + 2 * Real.pi) = F a b u v
  half : ∀ a b u v, F a b (u + Real.pi) (v + Real.pi) = F a b u v

/-- The exit azimuth shifted by pi. -/
def Bidir.shift (F : Bidir) : Bidir := fun a b u v => F a b u (v + Real.pi)

/-- A layer with the phase function `P` above a surface with the BRDF `F`: both are continuous,
non-negative and reciprocal, the phase function is normalised, the surface reflects at most the
fraction `R`. -/
structure Balanced (P F : Bidir) (R : ℝ) : Prop where
  contP : P.Cont
  contF : F.Cont
  P0 : ∀ t t' p p', 0 ≤ P t t' p p'
  F0 : ∀ t t' p p', 0 ≤ F t t' p p'
  /-- scattering in the layer conserves energy (up to the factor omega) -/
  norm : ∀ t p, sphereIntegral (fun t' p' => P t t' p p') = 1
  /-- the surface reflects at most the fraction `R`, for every incidence direction -/
  refl : ∀ t ∈ Set.Icc 0 (Real.pi / 2), ∀ p, hemReflectance (fun t' p' => F t t' p p') ≤ R
  symP : ∀ t t' p p', P t t' p p' = P t' t p' p
  symF : ∀ t t' p p', F t t' p p' = F t' t p' p

/-- The same site, seen from another direction. -/
def Site.toward (x : Site) (t p : ℝ) : Site := { x with tex := t, pex := p }

/-- Physical values; the surface with hemispherical reflectance `R` and the layer do not amplify
(`NormBRDF * R ≤ 1`, `omega ≤ 1`). -/
structure Site.Passive (x : Site) (R : ℝ) : Prop where
  I0 : 0 ≤ x.I0
  tau : 0 ≤ x.tau
  omega0 : 0 ≤ x.omega
  omega1 : x.omega ≤ 1
  NormBRDF : 0 ≤ x.NormBRDF
  refl : x.NormBRDF * R ≤ 1
  bsf0 : 0 ≤ x.bsf
  bsf1 : x.bsf ≤ 1
  t0 : 0 ≤ x.t0
  t0' : x.t0 < Real.pi / 2

/-- The radiance `J` (a function of zenith angle and azimuth of the exit direction) summed over the
upper hemisphere: the integral exists and is between 0 and `E`. -/
def AtMost (J : ℝ → ℝ → ℝ) (E : ℝ) : Prop :=
  MeasureTheory.IntegrableOn (fun z : ℝ × ℝ => J z.1 z.2 * Real.cos z.1 * Real.sin z.1)
    (Set.Ioc 0 (Real.pi / 2) ×ˢ Set.Ioc 0 (2 * Real.pi)) ∧
  0 ≤ hemReflectance J ∧ hemReflectance J ≤ E

/-- `obs` holds for every direction of the upper hemisphere (nadir, horizon and the azimuth 0
excluded; they do not contribute to integrals). -/
def AllDirs (obs : ℝ → ℝ → Prop) : Prop :=
  ∀ t ∈ Set.Ioo 0 (Real.pi / 2), ∀ p ∈ Set.Ioo 0 (2 * Real.pi), obs t p

end

end RT1
