import Verif.Model.Analyze

/-!
# The numerical hemispherical reflectance

`hemreflect` of plot.py (253-393) with `returnarray=True`.  The figure drawn otherwise is not
modelled.  `simps` of scipy is modelled for exactly equidistant points: in the code the distances
between the points are computed from the points.  scipy versions without `simps` (1.14 and later)
fail at the import and are not modelled.
-/

namespace RT1

noncomputable section
open Classical

/-- What `scipy.integrate.simps` does with an even number of points: the mean of the results with a
trapezoid at either end (scipy before 1.11), or a correction for the last interval (1.11 to 1.13). -/
inductive EvenRule where
  | avg
  | correct

/-- Simpson's rule for the `m` double intervals that start at point `s` (`_basic_simpson` of
scipy). -/
def panels (f : ℕ → XR) (h : ℝ) (s m : ℕ) : XR :=
  Arr.sumX ((List.range m).map fun k =>
    XR.fin (h / 3) * (f (s + 2 * k) + XR.fin 4 * f (s + 2 * k + 1) + f (s + 2 * k + 2)))

/-- The trapezoid between the points `k` and `k + 1`. -/
def trapezoid (f : ℕ → XR) (h : ℝ) (k : ℕ) : XR := XR.fin (h / 2) * (f (k + 1) + f k)

/-- `simps` of `n > 0` values at distance `h`. -/
def simpsX (r : EvenRule) (f : ℕ → XR) (h : ℝ) (n : ℕ) : XR :=
  if n % 2 = 1 then panels f h 0 ((n - 1) / 2)
  else
    match r with
    | .avg =>
      XR.fin (1 / 2) * ((trapezoid f h (n - 2) + panels f h 0 ((n - 2) / 2))
        + (trapezoid f h 0 + panels f h 1 ((n - 2) / 2)))
    | .correct =>
      if n = 2 then trapezoid f h 0
      else panels f h 0 ((n - 2) / 2) + (XR.fin (5 / 12 * h) * f (n - 1)
        + XR.fin (2 / 3 * h) * f (n - 2) - XR.fin (1 / 12 * h) * f (n - 3))

/-- `simps(z, x)` for `n` points `x` at distance `h`: integration along the last axis (first in our
lists), which must have the length of `x`; no value can be taken from an empty array. -/
def simpsArr (r : EvenRule) (z : Arr) (n : ℕ) (h : ℝ) : Py Arr :=
  match z.shape with
  | [] => .error .indexError
  | k :: s =>
    if k = n then
      if n = 0 then .error .indexError
      else .ok ⟨s, fun i => simpsX r (fun j => z.get (j :: i)) h n⟩
    else .error .valueError

/-- Distance of the points of `np.linspace(a, b, n)`. -/
def stepOf (a b : ℝ) (n : ℕ) : ℝ := (b - a) / ((n : ℝ) - 1)

/-- `np.arange(a, b, step)`.  A vanishing step raises an exception that is not distinguished
further. -/
def arange (a b step : ℝ) : Py (List ℝ) :=
  if step = 0 then .error .valueError
  else .ok ((List.range ⌈(b - a) / step⌉₊).map fun (k : ℕ) => a + k * step)

/-- `x[:, None]` for `x = np.linspace(0, pi/2, n)` (plot.py 335, 358). -/
def thetaGrid (n : ℕ) : Arr := ⟨[1, n], fun i => XR.fin (linspace 0 (Real.pi / 2) n (i.getD 1 0))⟩

/-- `y = np.linspace(0, 2 * pi, n)` (plot.py 336). -/
def phiGrid (n : ℕ) : Arr := ⟨[n], fun i => XR.fin (linspace 0 (2 * Real.pi) n (i.getD 0 0))⟩

/-- `integfunkt(x[:, None], y)` (plot.py 350-358). -/
def hemIntegrand (b : Backend) (srf : Scatter) (pd : Dict) (n : ℕ) (t0 p0 : ℝ) : Py Arr := do
  let x := thetaGrid n
  let w ← Arr.mul (x.map XR.sin) (x.map XR.cos)
  let f ← srf.calcVal b (Arr.lit t0) x (Arr.lit p0) (phiGrid n) pd
  Arr.mul w f

/-- One pass of the loop: `simps(simps(z, y), x)` (plot.py 345-359). -/
def hemAt (r : EvenRule) (b : Backend) (srf : Scatter) (pd : Dict) (n : ℕ) (p0 t0 : ℝ) : Py Arr := do
  let z ← hemIntegrand b srf pd n t0 p0
  let s ← simpsArr r z n (stepOf 0 (2 * Real.pi) n)
  simpsArr r s n (stepOf 0 (Real.pi / 2) n)

/-- The numerical arguments of `hemreflect` (plot.py 256-260). -/
structure HemArgs where
  phi0 : ℝ := 0
  step : ℝ := 5
  tmin : ℝ := 0
  tmax : ℝ := 90
  n : ℕ := 1000

/-- The returned array and whether the warning is printed. -/
structure HemOut where
  sol : Arr
  warned : Prop

/-- Whether `x > 1`. -/
def XR.gtOne : XR → Prop
  | .fin r => 1 < r
  | .pinf => True
  | _ => False

/-- The grid, the loop, the factor and the check (plot.py 330-365). -/
def hemLoop (r : EvenRule) (b : Backend) (srf : Scatter) (pd : Dict) (N : Arr) (g : HemArgs) :
    Py HemOut := do
  let inc ← arange g.tmin g.tmax g.step
  let l ← inc.mapM fun d => hemAt r b srf pd g.n g.phi0 (deg2rad d)
  let s ← Arr.stack l
  let sol ← Arr.mul s N
  pure ⟨sol, ∃ i, Arr.Valid sol.shape i ∧ (sol.get i).gtOne⟩

/-- What is given: an RT1 object, a surface function or none of them (plot.py 314-328).  An RT1
object takes precedence. -/
inductive HemSource where
  | R (id : ℕ)
  | SRF (s : Scatter)
  | none

/-- The `NormBRDF` used for an RT1 object (plot.py 317-322): its numerical value has no
`free_symbols`, so the first branch always fails. -/
def hemNorm (id : ℕ) : M Arr :=
  tryCatch (do
      let _ ← Self.evalParam id .NormBRDF
      throw .attributeError)
    fun _ => Self.evalParam id .NormBRDF

/-- `hemreflect(R, SRF, ..., returnarray=True, param_dict=pd)` (plot.py 253-369). -/
def hemreflect (r : EvenRule) (src : HemSource) (pd : Dict) (g : HemArgs) : M HemOut :=
  match src with
  | .R id => do
    let N ← hemNorm id
    let o ← getObj id
    let w ← getW
    liftPy (hemLoop r w.backend o.SRF pd N g)
  | .SRF s => do
    let w ← getW
    liftPy (hemLoop r w.backend s pd ((pd.get? "NormBRDF").getD (Arr.lit 1)) g)
  | .none => throw .assertionError

end

end RT1
