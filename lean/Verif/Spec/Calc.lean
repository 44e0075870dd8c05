import Verif.Model.Scatter
import Verif.Spec.Phase

/-! What a user observes of a scattering function: values returned by `calc`. -/

namespace RT1

noncomputable section
open Classical

/-- Two directions and the values of custom parameters. -/
structure Dirs where
  t0 : ℝ
  tex : ℝ
  p0 : ℝ
  pex : ℝ
  ρ : String → ℝ

namespace Dirs

/-- Values of the symbols in phase functions. -/
def env (x : Dirs) (s : String) : ℝ :=
  if s = "theta_0" then x.t0 else if s = "theta_ex" then x.tex else if s = "phi_0" then x.p0
  else if s = "phi_ex" then x.pex else x.ρ s

/-- Incidence and exit direction exchanged. -/
def swap (x : Dirs) : Dirs := ⟨x.tex, x.t0, x.pex, x.p0, x.ρ⟩

end Dirs

/-- Some successful call `s.calc(t_0, t_ex, p_0, p_ex, param_dict)` returned `r` at a valid index
where the arguments have the values `x`. -/
def Scatter.Returns (s : Scatter) (x : Dirs) (r : XR) : Prop :=
  ∃ b a1 a2 a3 a4 pd arr idx, s.calcVal b a1 a2 a3 a4 pd = .ok arr ∧ Arr.Valid arr.shape idx ∧
    a1.at' idx = XR.fin x.t0 ∧ a2.at' idx = XR.fin x.tex ∧ a3.at' idx = XR.fin x.p0 ∧
    a4.at' idx = XR.fin x.pex ∧ (∀ k a, Dict.get? pd k = some a → a.at' idx = XR.fin (x.ρ k)) ∧
    arr.get idx = r

/-- The mathematical value of the expression is defined: no power of a negative number with
fractional exponent, no negative power of zero. -/
def Expr.Def (ρ : String → ℝ) : Expr → Prop
  | num _ => True
  | sym _ => True
  | add a b => a.Def ρ ∧ b.Def ρ
  | mul a b => a.Def ρ ∧ b.Def ρ
  | pow a r => a.Def ρ ∧ (0 < a.evalR ρ ∨ (∃ n : ℕ, r = n) ∨ a.evalR ρ ≠ 0 ∧ ∃ k : ℤ, r = k)
  | sin a => a.Def ρ
  | cos a => a.Def ρ
  | sign a => a.Def ρ
  | exp a => a.Def ρ

/-- The expression has a mathematically defined value, which is `v`, for these values of the
symbols. -/
def Expr.Is (e : Expr) (ρ : String → ℝ) (v : ℝ) : Prop := e.Def ρ ∧ e.evalR ρ = v

/-- The parameters `a` have the values `a0, a1, a2`. -/
structure A3.Is (a : A3) (ρ : String → ℝ) (a0 a1 a2 : ℝ) : Prop where
  h0 : a.a0.Is ρ a0
  h1 : a.a1.Is ρ a1
  h2 : a.a2.Is ρ a2

/-- Generalised scattering angle of two directions. -/
def Dirs.cosTheta (x : Dirs) (a0 a1 a2 : ℝ) : ℝ :=
  Phase.cosTheta a0 a1 a2 x.t0 x.tex x.p0 x.pex

/-- The textbook value of a predefined function, for the value `t` of its own parameter. -/
def Kind.val (a0 t x : ℝ) : Kind → ℝ
  | .volIsotropic => 1 / (4 * Real.pi)
  | .volRayleigh => Phase.rayleigh x
  | .volHG _ => Phase.hg (4 * Real.pi) t x
  | .volHGRayleigh _ => Phase.hgRayleigh t x
  | .srfIsotropic => 1 / Real.pi
  | .srfCosineLobe i => Phase.cosineLobe i x
  | .srfHG _ => Phase.hg Real.pi t x
  | .srfHGnadirnorm _ => 1 / Phase.hgNadir a0 t * Phase.hg Real.pi t x

/-- The own parameter of a predefined function has the value `t`. -/
def Kind.TIs (ρ : String → ℝ) (t : ℝ) : Kind → Prop
  | .volHG te => te.Is ρ t
  | .volHGRayleigh te => te.Is ρ t
  | .srfHG te => te.Is ρ t
  | .srfHGnadirnorm te => te.Is ρ t
  | _ => True

/-- The function is HG_nadirnorm. -/
def Kind.IsNadirnorm : Kind → Prop
  | .srfHGnadirnorm _ => True
  | _ => False

/-- The functions of the Henyey-Greenstein family. -/
def Kind.IsHG : Kind → Prop
  | .volHG _ => True
  | .volHGRayleigh _ => True
  | .srfHG _ => True
  | .srfHGnadirnorm _ => True
  | _ => False

/-- HG_nadirnorm is only defined for non-zero `t` and `a[0]` (0/0 otherwise). -/
def Kind.NadirOK (a0 t : ℝ) : Kind → Prop
  | .srfHGnadirnorm _ => a0 ≠ 0 ∧ t ≠ 0 ∧ 0 < 1 + t ^ 2 - 2 * a0 * t ∧ Phase.hgNadir a0 t ≠ 0
  | _ => True

/-- A predefined scattering function with `n > 0` expansion coefficients. -/
def Scatter.IsPart (o : Scatter) (n : ℕ) : Prop :=
  (∃ k a nc, o = .prim k a nc) ∧ 0 < n ∧ o.ncoefs = .ok n

/-- A predefined scattering function with expansion coefficients, or a linear combination of
at least one such function. -/
def Scatter.Simple (s : Scatter) : Prop :=
  (∃ n, s.IsPart n) ∨ ∃ ws os a, s = .lin ws os a ∧ os ≠ [] ∧ ∀ o ∈ os, ∃ n, Scatter.IsPart o n

end

end RT1
