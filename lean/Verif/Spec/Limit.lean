import Verif.Spec.Energy
import Verif.Spec.Interaction
import Verif.Spec.Calc

/-!
# The interaction contribution without truncation

The documented double integral with the scattering functions themselves in place of their truncated
Legendre expansions (C75); scattering objects with a growing number of coefficients.
-/

namespace RT1

noncomputable section
open Filter Topology

/-- `F_int(0 -> ex)` of a phase function `P` and a BRDF `F`; the exit azimuth is shifted by `δ` in
the BRDF. -/
def Site.FintOf (P F : Bidir) (δ : ℝ) (x : Site) : ℝ :=
  hemi x.mu0 x.tau fun θ φ => P x.t0 (Real.pi - θ) x.p0 φ * F θ x.tex φ (x.pex + δ)

/-- The interaction contribution of a phase function and a BRDF (`δ = 0`: as documented). -/
def Site.interactionOf (P F : Bidir) (δ : ℝ) (x : Site) : ℝ :=
  x.NormBRDF * (1 - x.bsf) * x.I0 * x.mu0 * x.omega
    * (Real.exp (-x.tau / x.muEx) * x.FintOf P F δ + Real.exp (-x.tau / x.mu0) * x.swap.FintOf P F δ)

/-- `x`, or the reverse path `y` of `x`, with the angles a bistatic object uses for it: angles fixed in
the constructor keep the values of `x`. -/
def Site.pinned (fixed : List AngN) (x y : Site) : Site :=
  { y with
    t0 := if AngN.t0 ∈ fixed then x.t0 else y.t0
    tex := if AngN.tex ∈ fixed then x.tex else y.tex
    p0 := if AngN.p0 ∈ fixed then x.p0 else y.p0
    pex := if AngN.pex ∈ fixed then x.pex else y.pex }

/-- `F_int` along the path of `y` with the directions of `z`; the exit azimuth is shifted by `δ` in the
BRDF. -/
def Site.FintDirs (P F : Bidir) (δ : ℝ) (y z : Site) : ℝ :=
  hemi y.mu0 y.tau fun θ φ => P z.t0 (Real.pi - θ) z.p0 φ * F θ z.tex φ (z.pex + δ)

/-- The interaction contribution if fixed angles keep their values along the reverse path. -/
def Site.interactionPinned (fixed : List AngN) (P F : Bidir) (δ : ℝ) (x : Site) : ℝ :=
  x.NormBRDF * (1 - x.bsf) * x.I0 * x.mu0 * x.omega
    * (Real.exp (-x.tau / x.muEx) * Site.FintDirs P F δ x (Site.pinned fixed x x)
      + Real.exp (-x.tau / x.mu0) * Site.FintDirs P F δ x.swap (Site.pinned fixed x x.swap))

/-- From some number on all returned values are numbers, and they converge to `l`. -/
def Approach (r : ℕ → XR) (l : ℝ) : Prop := ∃ u : ℕ → ℝ, (∀ᶠ N in atTop, r N = XR.fin (u N)) ∧ Tendsto u atTop (𝓝 l)

/-- The constructor argument `ncoefs` (the isotropic functions and Rayleigh have none). -/
def Kind.order (N : ℕ) : Kind → Option ℕ
  | .volIsotropic => none
  | .volRayleigh => none
  | .srfIsotropic => none
  | _ => some (N + 1)

/-- Parameters for which a predefined function is defined and has a convergent expansion, and the
values of `a` and `t` for the parameter values of the site `x`, whatever the angles. -/
structure Kind.Admissible (k : Kind) (a : A3) (x : Site) (a0 a1 a2 t : ℝ) : Prop where
  aIs : ∀ y : Site, y.ρ = x.ρ → a.Is y.env a0 a1 a2
  le0 : |a0| ≤ 1
  le1 : |a1| ≤ 1
  le2 : |a2| ≤ 1
  tIs : ∀ y : Site, y.ρ = x.ρ → k.TIs y.env t
  lt : |t| < 1
  nadir : k.IsNadirnorm → a0 ≠ 0 ∧ t ≠ 0
  lobe : k ≠ .srfCosineLobe 0

/-- The predefined function as a function of two directions. -/
def Kind.dirs (k : Kind) (a0 a1 a2 t : ℝ) : Bidir := fun t0 tex p0 pex =>
  k.val a0 t (Phase.cosTheta a0 a1 a2 t0 tex p0 pex)

/-- One summand of a linear combination: a predefined function and its weight, with the values for the
parameter values of the site `x`. -/
structure Summand (x : Site) where
  w : Expr
  k : Kind
  a : A3
  c : ℝ
  a0 : ℝ
  a1 : ℝ
  a2 : ℝ
  t : ℝ
  weight : ∀ y : Site, y.ρ = x.ρ → w.Is y.env c
  ok : k.Admissible a x a0 a1 a2 t

/-- The linear combination with `N + 1` coefficients for every function. -/
def comb {x : Site} (l : List (Summand x)) (a : A3) (N : ℕ) : Scatter :=
  .lin (l.map (·.w)) (l.map fun s => .prim s.k s.a (s.k.order N)) a

/-- The linear combination as a function of two directions. -/
def combDirs {x : Site} (l : List (Summand x)) : Bidir := fun t0 tex p0 pex =>
  (l.map fun s => s.c * s.k.dirs s.a0 s.a1 s.a2 s.t t0 tex p0 pex).sum

/-- Scattering objects with a growing number of coefficients, and the function they stand for at the
site `x`: a predefined function, or a linear combination of such functions. -/
inductive Family (x : Site) : (ℕ → Scatter) → Bidir → Prop
  | prim {k : Kind} {a : A3} {a0 a1 a2 t : ℝ} (h : k.Admissible a x a0 a1 a2 t) :
      Family x (fun N => .prim k a (k.order N)) (k.dirs a0 a1 a2 t)
  | lin (l : List (Summand x)) (a : A3) (h : l ≠ []) : Family x (comb l a) (combDirs l)

end

end RT1
