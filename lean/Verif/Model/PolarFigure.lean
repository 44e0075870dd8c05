import Verif.Model.PolarPlot
import Mathlib.Algebra.Order.Round

/-!
# Colours, arrows, ticks and legend of polar plots

The decoration drawn by `polarplot` of plot.py (110, 136-160, 169-250) around the curves of `Model/PolarPlot.lean`.
Line widths, transparency, the position of the legend and the radial limits are not modelled.
-/

namespace RT1

noncomputable section
open Classical

/-- The arguments `label`, `legend` and `groundcolor` (plot.py 24-28). -/
structure DecoArgs where
  label : Option String := none
  legend : Bool := true
  groundcolor : Option String := some ".5"

/-- The format strings of the lines of one incidence angle and the colour of the area (plot.py 187-191). -/
structure PaintedCurve where
  curve : Curve
  solid : String
  dashed : Option String
  fill : String

/-- An entry of the legend (plot.py 228-243): colour and angle in tenths of a degree, or the dashed black line
"approx.".  Simplified: the decimal representation of the number is not modelled. -/
inductive LegendLine where
  | angle (colour : String) (tenths : ℤ)
  | approx

/-- The figure: lines, arrows (polar angle and colour), the legend, the ticks (polar angle and the number of degrees
written next to it), the title if one is set, the colour of the ground if it is drawn. -/
structure PolarFigure where
  lines : List PaintedCurve
  arrows : List (ℝ × String)
  legend : Option (List LegendLine)
  ticks : List (ℝ × ℕ)
  title : Option String
  ground : Option String

/-- `use_colors` (plot.py 110). -/
def useColors : List String := ["k", "r", "g", "b", "c", "m", "y"]

/-- `n` times `next(colors)` for `colors = cycle(pal)`, of which `rest` is left in the present round (plot.py 172-178).
Nothing for an empty palette (StopIteration in the code, the palette is fixed). -/
def cycleColours (pal : List String) : ℕ → List String → List String
  | 0, _ => []
  | n + 1, c :: r => c :: cycleColours pal n r
  | n + 1, [] => match pal with
    | [] => []
    | c :: r => c :: cycleColours pal n r

/-- `used_colors` (plot.py 172-178). -/
def usedColors (inc : List ℝ) : List String := cycleColours useColors inc.length useColors

/-- `np.rad2deg(x)` -/
def rad2deg (x : ℝ) : ℝ := x * (180 / Real.pi)

/-- `np.round(x, decimals=1)` in tenths: to the nearest integer, halves to the even one. -/
def roundTenths (x : ℝ) : ℤ :=
  if Int.fract (10 * x) = 1 / 2 then (if Even ⌊10 * x⌋ then ⌊10 * x⌋ else ⌊10 * x⌋ + 1) else round (10 * x)

/-- The lines of one incidence angle in the given colour (plot.py 187-191). -/
def paintCurve (c : Curve) (colour : String) : PaintedCurve :=
  ⟨c, colour, c.approx.map fun _ => colour ++ "--", colour⟩

/-- `set_xticks` and `set_xticklabels` (plot.py 192-201). -/
def polarTicks : List (ℝ × ℕ) :=
  ([0, 45, 90, 125, 180].map deg2rad).zip [0, 45, 90, 135, 180]

/-- The legend (plot.py 228-248). -/
def polarLegend (aprox : Bool) (plottis : List ℝ) (used : List String) : List LegendLine :=
  ((plottis.zip used).map fun x => .angle x.2 (roundTenths (rad2deg x.1))) ++ if aprox then [.approx] else []

/-- The title (plot.py 140-142, 150-151). -/
def polarTitle (src : PolarSrc) (label : Option String) : String :=
  match label with
  | some l => l
  | none => match src with
    | .surface _ => "Surface-Scattering Phase Function"
    | _ => "Volume-Scattering Phase Function"

/-- The filled lower half plane (plot.py 209-211). -/
def polarGround (src : PolarSrc) (groundcolor : Option String) : Option String :=
  match src with
  | .surface _ => groundcolor
  | _ => none

/-- The figure with the given curves (plot.py 136-160, 169-250).  Ticks and title are set inside of the loops, that
is, not without incidence angles. -/
def decorate (src : PolarSrc) (g : PolarArgs) (dg : DecoArgs) (inc : List ℝ) (curves : List Curve) : PolarFigure where
  lines := (curves.zip (g.params.toList.flatMap fun _ => usedColors inc)).map fun x => paintCurve x.1 x.2
  arrows := ((inc.map deg2rad).zip (usedColors inc)).map fun x => (-x.1, x.2)
  legend := if dg.legend then some (polarLegend (g.aprox && src.hasNcoefs) (inc.map deg2rad) (usedColors inc)) else none
  ticks := if inc = [] then [] else polarTicks
  title := if inc = [] then none else some (polarTitle src dg.label ++ "\n")
  ground := polarGround src dg.groundcolor

/-- `polarplot(V_SRF=src, ...)` with its decoration (plot.py 20-250). -/
def polarFigure (b : Backend) (kept : Bool) (src : PolarSrc) (g : PolarArgs) (dg : DecoArgs) : Py PolarFigure := do
  let out ← polarplot b kept src g
  .ok (decorate src g dg (g.inc.getD []) out.curves)

end

end RT1
