import Verif.Model.HemFigure

/-!
# What the figure of the hemispherical reflectance must show
-/

namespace RT1

noncomputable section

/-- The line consists of the points (incidence angle `tmin + k * step` in degrees, `v k`), `k < m`. -/
def HemLine.Shows (l : HemLine) (g : HemArgs) (m : ℕ) (v : ℕ → ℝ) : Prop :=
  l.xs = (List.range m).map (fun (k : ℕ) => g.tmin + k * g.step) ∧ l.ys = (List.range m).map fun k => .fin (v k)

/-- A point with the vertical coordinate `y` lies within the axes. -/
def HemFig.Visible (fig : HemFig) (y : ℝ) : Prop := 0 ≤ y ∧ y ≤ fig.top

/-- The value of NormBRDF: that of the object, or the entry of `param_dict`, 1 if there is none. -/
def HemSource.Norm (src : HemSource) (pd : Dict) (w : World) (N : Arr) : Prop :=
  match src with
  | .R id => (Self.evalParam id .NormBRDF w).1 = .ok N
  | .SRF _ => pd.get? "NormBRDF" = some N ∨ pd.get? "NormBRDF" = Option.none ∧ N = Arr.lit 1
  | .none => False

/-- The object exists. -/
def HemSource.Exists (src : HemSource) (w : World) : Prop := ∀ id, src = .R id → ∃ o, w.objs id = some o

end

end RT1
