import Verif.Model.Analyze

/-!
# What the axes of the 3D analyzer contain
-/

namespace RT1

noncomputable section
open Classical

/-- Something drawn on the axes: a surface with label and colour, a black line from a point to the
origin (dashed or solid), the ground plane. -/
inductive Artist3D
  | surface (label colour : String) (x y z : Arr)
  | ray (dashed : Bool) (tip : XR × XR × XR)
  | ground (x y z : Arr)

/-- The axes of a 3D analyzer: what is drawn on them, each with its identity; the identities in
`self._artists` (plot.py 714); the next free identity; labels and colours of the legend. -/
structure Axes3D where
  drawn : List (ℕ × Artist3D)
  own : List ℕ
  next : ℕ
  legend : List (String × String)

/-- Axes without content (`_init_figure`, plot.py 720-763, as far as `self.ax` is concerned). -/
def Axes3D.empty : Axes3D := ⟨[], [], 0, []⟩

/-- `self.ax.plot_surface(…)`, `self.ax.plot(…)` -/
def Axes3D.draw (f : Axes3D) (a : Artist3D) : Axes3D :=
  { f with drawn := f.drawn ++ [(f.next, a)], next := f.next + 1 }

/-- `self._artists.add(self.ax.plot…)` -/
def Axes3D.drawOwn (f : Axes3D) (a : Artist3D) : Axes3D :=
  { f.draw a with own := f.next :: f.own }

/-- The loop that empties `self._artists` and removes its members from the axes (plot.py 807-809). -/
def Axes3D.clear (f : Axes3D) : Axes3D :=
  { f with drawn := f.drawn.filter fun p => decide (p.1 ∉ f.own), own := [] }

/-- `self.ax.legend()` (plot.py 852-853): one line for each labelled artist, in the order of
drawing.  (Which artists have a label: the surfaces of the contributions.  Matplotlib gives lines drawn by
`plot` a label that starts with an underscore, which the legend skips; they are drawn later anyhow.) -/
def Axes3D.addLegend (f : Axes3D) : Axes3D :=
  { f with legend := f.drawn.filterMap fun p => match p.2 with
      | .surface l c _ _ _ => some (l, c)
      | _ => none }

/-- `_getsurface([-L, L])` (plot.py 799-804) -/
def getsurface (L : ℝ) : Arr × Arr × Arr :=
  (⟨[100, 100], fun i => XR.fin (linspace (-L) L 100 (i.getD 0 0))⟩,
   ⟨[100, 100], fun i => XR.fin (linspace (-L) L 100 (i.getD 1 0))⟩,
   fullLike ⟨[100, 100], fun _ => XR.fin 0⟩ 0)

/-- `self._labels[i]` (plot.py 687) -/
def labels3d (i : ℕ) : String := ["Total", "Surface", "Volume", "Interaction"].getD i ""

/-- `self._colors[i]` (plot.py 688) -/
def colors3d (i : ℕ) : String := ["C0", "C1", "C2", "C3"].getD i ""

/-- The surfaces that `_update` draws (plot.py 838-850): `self._use_contribs` is the list of
indices; the coordinate arrays are those of `Analyzer3D.update`. -/
def Analyzer3D.artists (A : Analyzer3D) : List Artist3D :=
  match useContribs A.contribs with
  | .ok idx => (idx.zip A.surfaces).map fun p => .surface (labels3d p.1) (colors3d p.1) p.2.1 p.2.2.1 p.2.2.2
  | .error _ => []

/-- The two lines that `_update` draws last (plot.py 855-874). -/
def Axes3D.rays (f : Axes3D) (A : Analyzer3D) : Axes3D :=
  (f.drawOwn (.ray true A.arrows.1)).drawOwn (.ray false A.arrows.2)

/-- `_update(None)` in `__init__` (plot.py 806-876): ground plane, surfaces, legend, lines.
`L` is the half-width of the axes, a number since the creation fails otherwise. -/
def Axes3D.first (A : Analyzer3D) (L : ℝ) : Axes3D :=
  let g := getsurface L
  let f := Axes3D.empty.clear.draw (.ground g.1 g.2.1 g.2.2)
  ((A.artists.foldl Axes3D.drawOwn f).addLegend).rays A

/-- `_update(event)` as callback of a slider (plot.py 806-876).  The old content is removed before
anything is calculated; `r` is the result of the calculation. If it raises, nothing is drawn.  (The
calculation can only raise before the first surface is drawn, once the analyzer was created.) -/
def Axes3D.update (f : Axes3D) (r : Py Analyzer3D) : Axes3D :=
  match r with
  | .ok A => (A.artists.foldl Axes3D.drawOwn f.clear).rays A
  | .error _ => f.clear

/-- The attributes of the analyzer after the slider was moved, before its callback. -/
def Analyzer3D.moved (A : Analyzer3D) (key : String) (v : ℝ) : Analyzer3D :=
  if key = "inc" then { A with inc := v } else
    { A with sliders := A.sliders.map fun p => if p.1 = key then (p.1, { p.2 with val := v }) else p }

end

end RT1
