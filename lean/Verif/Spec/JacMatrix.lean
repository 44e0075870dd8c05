import Verif.Spec.Jac

/-!
# The matrix of derivatives that `scipy.optimize.least_squares` expects

`scipy.optimize.least_squares` changes one number of the fitted values at a time and needs the
derivatives of the (ravelled) residuals.  A fitted parameter is a number or a timeseries with one
number per timestamp.
-/

namespace RT1

noncomputable section
open Classical

/-- The number(s) of a parameter changed by `ε`. -/
def Arr.shiftAll (a : Arr) (ε : ℝ) : Arr := ⟨a.shape, fun i => a.get i + XR.fin ε⟩

/-- The number of timestamp `t` (first axis) changed by `ε`, the others kept. -/
def Arr.shiftAt (a : Arr) (t : ℕ) (ε : ℝ) : Arr :=
  ⟨a.shape, fun i => if i.getLast? = some t then a.get i + XR.fin ε else a.get i⟩

/-- The total (first row) that `calc` returned at an index; nan if it raised an exception. -/
def totalAt (r : Py Arr) (idx : List ℕ) : XR :=
  match r with
  | .ok a => a.get (idx ++ [0])
  | .error _ => XR.nan

/-- `col` holds, for the observation `i` of timestamp `r` at position `r * k + i`, the derivative of
the total returned by `calc(key = v ε)` with respect to `ε` at `ε = 0`. -/
def IsColumn (w : World) (id : ℕ) (key : String) (v : ℝ → Arr) (n k : ℕ) (col : List XR) : Prop :=
  col.length = n * k ∧ ∀ r < n, ∀ i < k, ∃ d, col[r * k + i]? = some d ∧
    HasXDeriv (fun ε => totalAt (calcOp id [(key, v ε)] w).1 [i, r]) d 0

/-- A parameter for which the derivatives are right: omega, NormBRDF or bsf, defined by its own name
that is used nowhere else, or (with symengine) another name that is used at most once in surface and
volume and not for tau. -/
def Derivable (b : Backend) (c : Cfg) (d : PName → PDef) (key : String) : Prop :=
  (∃ q : PName, (key, q) ∈ [("omega", PName.omega), ("NormBRDF", PName.NormBRDF), ("bsf", PName.bsf)] ∧
    d q = .str (.sym key) ∧ (∀ q', q' ≠ q → ¬ (d q').Uses key) ∧ key ∉ c.V.phase.free ∧
    key ∉ c.SRF.phase.free) ∨
  (b = .symengine ∧ key ∉ ["omega", "tau", "NormBRDF", "bsf"] ∧
    key ∉ ["theta_0", "theta_ex", "phi_0", "phi_ex"] ∧ UsedOnce c d key)

end

end RT1
