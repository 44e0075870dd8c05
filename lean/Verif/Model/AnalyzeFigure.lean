import Verif.Model.Analyze

/-!
# The figures of the analyzers

`Analyze._init_figure` and `Analyze3D._init_figure` of plot.py (500-541, 720-763): places of the sliders, buttons for
the range parameter, label of the vertical axis.  Sizes and distances are not modelled.
-/

namespace RT1

noncomputable section
open Classical

/-- `rows = max(1, int(np.ceil(len(self.param_dict) / slider_cols)))` (plot.py 504, 724). -/
def sliderRows (n cols : ℕ) : ℕ := max 1 ⌈(n : ℝ) / cols⌉₊

/-- The iteration over `GridSpecFromSubplotSpec(rows, cols, ...)` (plot.py 505, 725): row and column of the cells. -/
def gridCells (rows cols : ℕ) : List (ℕ × ℕ) := (List.range (rows * cols)).map fun k => (k / cols, k % cols)

/-- `for (key, params), spec in zip(self._slider_params.items(), sliderspecs)` (plot.py 523, 734): the sliders that
are created, with their places. -/
def placeSliders {α : Type} (cols : ℕ) (params : List (String × α)) : List ((String × α) × (ℕ × ℕ)) :=
  params.zip (gridCells (sliderRows params.length cols) cols)

/-- `ax.set_ylabel(...)` (plot.py 512-519). -/
def analyzeYLabel (sig0 dB : Bool) : String :=
  (if sig0 then "Backscatter Coefficient $\\sigma^0$" else "Intensity Ratio $\\frac{I}{I_{inc}}$") ++
    (if dB then " [db]" else "")

/-- The radio buttons `["None", *self._slider_params]` (plot.py 533). -/
def rangeButtons (names : List String) : List String := "None" :: names

/-- `active=params.index(self._range_parameter) if self._range_parameter else 0` (plot.py 538). -/
def activeButton (range : Option String) (names : List String) : Py ℕ :=
  match range with
  | none => .ok 0
  | some k =>
    if k = "" then .ok 0
    else match (rangeButtons names).idxOf? k with
      | some i => .ok i
      | none => .error .valueError

/-- The callback of the radio buttons (plot.py 543-549): the range parameter afterwards. -/
def clickButton (label : String) : Event := if label = "None" then .select none else .select (some label)

end

end RT1
