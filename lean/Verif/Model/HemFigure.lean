import Verif.Model.HemReflect

/-!
# The figure of the hemispherical reflectance

`hemreflect` of plot.py with `returnarray=False` (370-393).  Of matplotlib only what is handed to it is
modelled: the drawn lines with their labels and the upper limit of the vertical axis, and the calls that
matplotlib rejects.  Titles, colours, legend and grid are not modelled.
-/

namespace RT1

noncomputable section
open Classical

/-- One line handed to `axnum.plot`.  Of the label `"NormBRDF = " + str(...)` the printed numbers are
kept; the red points have no label. -/
structure HemLine where
  label : Option (List XR)
  xs : List ℝ
  ys : List XR

/-- The lines in the order of drawing and the upper limit of the vertical axis (the lower is 0).
(Matplotlib widens an interval of width zero, which is not modelled.) -/
structure HemFig where
  lines : List HemLine
  top : ℝ

/-- `a[i]` along the leading axis (last in our lists): a number has no items.  (TypeError for python's numbers;
numpy raises IndexError for its own, which is not distinguished.) -/
def Arr.item (a : Arr) (i : ℕ) : Py Arr :=
  if a.shape = [] then .error (.typeError [])
  else if i < a.shape.getLastD 0 then .ok ⟨a.shape.dropLast, fun j => a.get (j ++ [i])⟩
  else .error .indexError

/-- `axnum.plot(xs, y)`: `y` must have as many rows as there are `xs`; every column is a line, arrays with
more than two axes are rejected. -/
def axPlot (label : Option (List XR)) (xs : List ℝ) (y : Arr) : Py (List HemLine) :=
  match y.shape with
  | [] => if xs.length = 1 then .ok [⟨label, xs, [y.get []]⟩] else .error .valueError
  | [n] => if n = xs.length then .ok [⟨label, xs, (List.range n).map fun j => y.get [j]⟩] else .error .valueError
  | [m, n] =>
    if n = xs.length then
      .ok ((List.range m).map fun c => ⟨label, xs, (List.range n).map fun j => y.get [c, j]⟩)
    else .error .valueError
  | _ => .error .valueError

/-- `np.max(a)`: nan if there is one, ValueError for an empty array. -/
def npMax (a : Arr) : Py XR :=
  if a.entries = [] then .error .valueError
  else if XR.nan ∈ a.entries then .ok .nan
  else .ok (nanmax a.entries)

/-- A line and, if wanted, its red points (plot.py 378-380, 382-384). -/
def hemPlot (pts : Bool) (inc : List ℝ) (label : List XR) (y : Arr) : Py (List HemLine) := do
  let a ← axPlot (some label) inc y
  let p ← if pts then axPlot none inc y else pure []
  pure (a ++ p)

/-- The lines (plot.py 376-384) and the array that is called `sol` afterwards: the loop over the rows binds
this name again. -/
def hemLines (pts : Bool) (inc : List ℝ) (N sol : Arr) : Py (List HemLine × Arr) :=
  if 1 < sol.shape.length then do
    let l ← (List.range (sol.shape.getLastD 0)).mapM fun i => do
      let y ← sol.item i
      let n ← N.item i
      let ls ← hemPlot pts inc n.entries y
      pure (ls, y)
    pure (l.flatMap (·.1), (l.map (·.2)).getLastD sol)
  else do
    let ls ← hemPlot pts inc N.entries sol
    pure (ls, sol)

/-- The figure (plot.py 370-393); matplotlib raises ValueError if the limit is not finite. -/
def hemDraw (pts : Bool) (inc : List ℝ) (N sol : Arr) : Py HemFig := do
  let (ls, last) ← hemLines pts inc N sol
  let m ← npMax last
  match m * XR.fin 1.1 with
  | .fin t => pure ⟨ls, t⟩
  | _ => throw .valueError

/-- The loop of plot.py 330-365 and the figure (370-393). -/
def hemFigLoop (r : EvenRule) (b : Backend) (srf : Scatter) (pd : Dict) (N : Arr) (g : HemArgs) (pts : Bool) :
    Py HemFig := do
  let out ← hemLoop r b srf pd N g
  let inc ← arange g.tmin g.tmax g.step
  hemDraw pts inc N out.sol

/-- `hemreflect(R, SRF, ..., returnarray=False, showpoints=pts, param_dict=pd)` (plot.py 253-393). -/
def hemFigure (r : EvenRule) (src : HemSource) (pd : Dict) (g : HemArgs) (pts : Bool) : M HemFig :=
  match src with
  | .R id => do
    let N ← hemNorm id
    let o ← getObj id
    let w ← getW
    liftPy (hemFigLoop r w.backend o.SRF pd N g pts)
  | .SRF s => do
    let w ← getW
    liftPy (hemFigLoop r w.backend s pd ((pd.get? "NormBRDF").getD (Arr.lit 1)) g pts)
  | .none => throw .assertionError

end

end RT1
