import Verif.Spec.Trunc

/-!
# Small changes of the inputs (C80)
-/

namespace RT1

noncomputable section
open Filter Topology

/-- The angles and parameter values of the sites `xs n` converge to those of the site `x`. -/
structure Site.Tends (xs : ℕ → Site) (x : Site) : Prop where
  t0 : Tendsto (fun n => (xs n).t0) atTop (𝓝 x.t0)
  tex : Tendsto (fun n => (xs n).tex) atTop (𝓝 x.tex)
  p0 : Tendsto (fun n => (xs n).p0) atTop (𝓝 x.p0)
  pex : Tendsto (fun n => (xs n).pex) atTop (𝓝 x.pex)
  I0 : Tendsto (fun n => (xs n).I0) atTop (𝓝 x.I0)
  tau : Tendsto (fun n => (xs n).tau) atTop (𝓝 x.tau)
  omega : Tendsto (fun n => (xs n).omega) atTop (𝓝 x.omega)
  NormBRDF : Tendsto (fun n => (xs n).NormBRDF) atTop (𝓝 x.NormBRDF)
  bsf : Tendsto (fun n => (xs n).bsf) atTop (𝓝 x.bsf)

/-- One predefined function with a weight along a sequence of sites: the values of the weight and of
the parameters converge. -/
structure Course (xs : ℕ → Site) (x : Site) where
  w : Expr
  k : Kind
  a : A3
  cs : ℕ → ℝ
  a0s : ℕ → ℝ
  a1s : ℕ → ℝ
  a2s : ℕ → ℝ
  ts : ℕ → ℝ
  c : ℝ
  a0 : ℝ
  a1 : ℝ
  a2 : ℝ
  t : ℝ
  weights : ∀ n, ∀ y : Site, y.ρ = (xs n).ρ → w.Is y.env (cs n)
  oks : ∀ n, k.Admissible a (xs n) (a0s n) (a1s n) (a2s n) (ts n)
  weight : ∀ y : Site, y.ρ = x.ρ → w.Is y.env c
  ok : k.Admissible a x a0 a1 a2 t
  limC : Tendsto cs atTop (𝓝 c)
  lim0 : Tendsto a0s atTop (𝓝 a0)
  lim1 : Tendsto a1s atTop (𝓝 a1)
  lim2 : Tendsto a2s atTop (𝓝 a2)
  limT : Tendsto ts atTop (𝓝 t)

/-- The summand at the site `xs n`. -/
def Course.at {xs : ℕ → Site} {x : Site} (s : Course xs x) (n : ℕ) : Summand (xs n) :=
  ⟨s.w, s.k, s.a, s.cs n, s.a0s n, s.a1s n, s.a2s n, s.ts n, s.weights n, s.oks n⟩

/-- The summand at the site `x`. -/
def Course.limit {xs : ℕ → Site} {x : Site} (s : Course xs x) : Summand x :=
  ⟨s.w, s.k, s.a, s.c, s.a0, s.a1, s.a2, s.t, s.weight, s.ok⟩

/-- A scattering object whose parameter values converge along a sequence of sites, and the functions it
stands for: a predefined function, or a linear combination of such functions. -/
inductive Settles (xs : ℕ → Site) (x : Site) : Scatter → (ℕ → Bidir) → Bidir → Prop
  | prim {k : Kind} {a : A3} {a0s a1s a2s ts : ℕ → ℝ} {a0 a1 a2 t : ℝ} (N : ℕ)
      (hs : ∀ n, k.Admissible a (xs n) (a0s n) (a1s n) (a2s n) (ts n)) (h : k.Admissible a x a0 a1 a2 t)
      (l0 : Tendsto a0s atTop (𝓝 a0)) (l1 : Tendsto a1s atTop (𝓝 a1)) (l2 : Tendsto a2s atTop (𝓝 a2))
      (lt : Tendsto ts atTop (𝓝 t)) :
      Settles xs x (.prim k a (k.order N)) (fun n => k.dirs (a0s n) (a1s n) (a2s n) (ts n)) (k.dirs a0 a1 a2 t)
  | lin (l : List (Course xs x)) (a : A3) (N : ℕ) (h : l ≠ []) :
      Settles xs x (comb (l.map Course.limit) a N) (fun n => combDirs (l.map fun s => s.at n)) (combDirs (l.map Course.limit))

/-- The signal of the bare soil. -/
def Site.bare (x : Site) (F : ℝ) : ℝ := x.I0 * x.mu0 * x.NormBRDF * F

/-- How far the signal is from that of the bare soil, if phase function and BRDF have the values `P` and
`F` for the two directions, and `K` bounds the product of their expansions. -/
def Site.veil (x : Site) (F P K : ℝ) : ℝ :=
  |(1 - x.bsf) * x.I0| * x.mu0 * (|x.NormBRDF * F| + |x.omega * P| / (x.mu0 + x.muEx) +
    |x.NormBRDF * x.omega| * (2 * Real.pi) * K) * (x.tau / x.mu0 + x.tau / x.muEx)

end

end RT1
