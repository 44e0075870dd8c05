import Verif.Spec.Limit

/-!
# Error of truncated expansions and the optically thick canopy (C78, C79)
-/

namespace RT1

noncomputable section

/-- What the interaction contribution amounts to at most if phase function and BRDF are at most 1: the
wave is attenuated along one path and scattered along the other. -/
def Site.coupling (x : Site) : ℝ :=
  |x.NormBRDF * (1 - x.bsf) * x.I0 * x.omega| * x.mu0 * (2 * Real.pi) *
    (Real.exp (-x.tau / x.muEx) * (1 - Real.exp (-x.tau / x.mu0)) + Real.exp (-x.tau / x.mu0) * (1 - Real.exp (-x.tau / x.muEx)))

/-- Bound of a predefined function (except the cosine lobe). -/
def Kind.peak (a0 t : ℝ) : Kind → ℝ
  | .volIsotropic => 1 / (4 * Real.pi)
  | .volRayleigh => 3 / (8 * Real.pi)
  | .volHG _ => 1 / (4 * Real.pi) * ((1 + |t|) / (1 - |t|) ^ 2)
  | .volHGRayleigh _ => 3 / (4 * Real.pi * (2 + t ^ 2)) * ((1 + |t|) / (1 - |t|) ^ 2)
  | .srfIsotropic => 1 / Real.pi
  | .srfCosineLobe _ => 1 / Real.pi
  | .srfHG _ => 1 / Real.pi * ((1 + |t|) / (1 - |t|) ^ 2)
  | .srfHGnadirnorm _ => |1 / Phase.hgNadir a0 t| * (1 / Real.pi * ((1 + |t|) / (1 - |t|) ^ 2))

/-- Relative to the bound: what is left out by an expansion with `n` coefficients (except for the
cosine lobe). -/
def Kind.rest (t : ℝ) (n : ℕ) : Kind → ℝ
  | .volHG _ => (2 * n + 1) * |t| ^ n
  | .volHGRayleigh _ => (2 * n + 1) * |t| ^ (n - 2)
  | .srfHG _ => (2 * n + 1) * |t| ^ n
  | .srfHGnadirnorm _ => (2 * n + 1) * |t| ^ n
  | _ => 0

/-- A scattering object with `N + 1` coefficients (at least two), the function it stands for at the
site `x`, an error of the expansion and a bound of the function: a predefined function other than the
cosine lobe, or a linear combination of such functions. -/
inductive Truncated (x : Site) (N : ℕ) : Scatter → Bidir → ℝ → ℝ → Prop
  | prim {k : Kind} {a : A3} {a0 a1 a2 t : ℝ} (h : k.Admissible a x a0 a1 a2 t) (hk : ∀ i, k ≠ .srfCosineLobe i) (hN : 1 ≤ N) :
      Truncated x N (.prim k a (k.order N)) (k.dirs a0 a1 a2 t) (k.peak a0 t * k.rest t (N + 1)) (k.peak a0 t)
  | lin (l : List (Summand x)) (a : A3) (h : l ≠ []) (hk : ∀ s ∈ l, ∀ i, s.k ≠ .srfCosineLobe i) (hN : 1 ≤ N) :
      Truncated x N (comb l a N) (combDirs l) (l.map fun s => |s.c| * (s.k.peak s.a0 s.t * s.k.rest s.t (N + 1))).sum
        (l.map fun s => |s.c| * s.k.peak s.a0 s.t).sum

/-- The signal of a canopy without end: the bare soil part, and the volume scattering of a half space. -/
def Site.thick (x : Site) (F P : ℝ) : ℝ :=
  x.bsf * (x.I0 * x.mu0 * x.NormBRDF * F) + (1 - x.bsf) * (x.I0 * x.omega * x.mu0 / (x.mu0 + x.muEx) * P)

/-- How far the signal is from that of a canopy without end, if phase function and BRDF have the values
`P` and `F` for the two directions, and `K` bounds the product of their expansions. -/
def Site.fade (x : Site) (F P K : ℝ) : ℝ :=
  |(1 - x.bsf) * x.I0| * x.mu0 * (|x.NormBRDF * F| + |x.omega * P| / (x.mu0 + x.muEx)) *
      Real.exp (-(x.tau / x.mu0) - x.tau / x.muEx) + x.coupling * K

/-- Largest possible error of the interaction contribution for the errors `eV`, `eS` of the expansions
and the bounds `MV`, `MS` of the functions: one function is off, the other one takes its largest value. -/
def Site.truncError (x : Site) (eV MV eS MS : ℝ) : ℝ := x.coupling * (eV * (MS + eS) + MV * eS)

/-- The same summed over the upper hemisphere (an upper bound). -/
def Site.energyError (x : Site) (eV MV eS MS : ℝ) : ℝ :=
  2 * Real.pi ^ 2 * |x.NormBRDF * (1 - x.bsf) * x.I0 * x.omega| * x.mu0 * (eV * (MS + eS) + MV * eS)

end

end RT1
