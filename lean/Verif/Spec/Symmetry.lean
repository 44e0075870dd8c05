import Verif.Spec.Interaction
import Verif.Spec.Calc

/-! Scattering functions whose own parameters do not depend on the directions, rotated sites. -/

namespace RT1

noncomputable section
open Classical

/-- The expression uses none of the four names reserved for the angles. -/
def Expr.NoAngles (e : Expr) : Prop :=
  ∀ n ∈ e.free, n ≠ "theta_0" ∧ n ≠ "theta_ex" ∧ n ≠ "phi_0" ∧ n ≠ "phi_ex"

/-- The own parameters of a predefined function. -/
def Kind.params : Kind → List Expr
  | .volHG t => [t]
  | .volHGRayleigh t => [t]
  | .srfHG t => [t]
  | .srfHGnadirnorm t => [t]
  | _ => []

/-- All own parameters and weights of the scattering function and its parts satisfy `P`, all
generalisation parameters `a` satisfy `Q`. -/
inductive Scatter.Over (P : Expr → Prop) (Q : A3 → Prop) : Scatter → Prop
  | prim {k : Kind} {a : A3} {nc : Option ℕ} : (∀ e ∈ k.params, P e) → Q a → Over P Q (.prim k a nc)
  | lin {ws : List Expr} {os : List Scatter} {a : A3} : (∀ w ∈ ws, P w) → (∀ o ∈ os, Over P Q o) →
      Q a → Over P Q (.lin ws os a)

/-- The entries of `a` do not use the names of the angles. -/
def A3.NoAngles (a : A3) : Prop := a.a0.NoAngles ∧ a.a1.NoAngles ∧ a.a2.NoAngles

/-- No own parameter of the scattering function depends on the directions. -/
def Scatter.NoAngles (s : Scatter) : Prop := s.Over Expr.NoAngles A3.NoAngles

/-- No own parameter depends on the directions, and `a[1] == a[2]` (finite) for the function and
all its parts. -/
def Scatter.Azimuthal (s : Scatter) (ρ : String → ℝ) : Prop :=
  s.Over Expr.NoAngles fun a => a.NoAngles ∧ ∃ v, a.a1.Is ρ v ∧ a.a2.Is ρ v

/-- The site with other azimuth angles. -/
def Site.withAz (x : Site) (p0 pex : ℝ) : Site := { x with p0 := p0, pex := pex }

end

end RT1
