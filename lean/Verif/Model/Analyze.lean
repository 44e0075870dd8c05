import Verif.Model.Misc

/-!
# The analyzer widgets

`Analyze` and `Analyze3D` of plot.py as programs on RT1 objects: which calls they make and which
arrays they hand to matplotlib, the limits of the 3D axes and the lines drawn for the directions.
Drawing (figures, legends, colours) is not modelled.
-/

namespace RT1

noncomputable section
open Classical

namespace Arr

/-- The index into an array of shape `s` that belongs to an index into the squeezed array. -/
def unsqueeze : List ℕ → List ℕ → List ℕ
  | [], _ => []
  | a :: s, i =>
    if a = 1 then 0 :: unsqueeze s i
    else
      match i with
      | [] => 0 :: unsqueeze s []
      | j :: i => j :: unsqueeze s i

/-- `x.squeeze()`: axes of length 1 are dropped. -/
def squeeze (x : Arr) : Arr :=
  ⟨x.shape.filter fun n => decide (n ≠ 1), fun i => x.get (unsqueeze x.shape i)⟩

end Arr

/-- Iteration over an array: its rows along the leading axis. -/
def rowsOf (x : Arr) : Py (List Arr) :=
  match x.shape with
  | [] => .error (.typeError [])
  | s => .ok ((List.range (s.getLastD 0)).map fun k => ⟨s.dropLast, fun i => x.get (i ++ [k])⟩)

/-- Entry `k` of `np.linspace(a, b, n)`. -/
def linspace (a b : ℝ) (n k : ℕ) : ℝ := a + k * ((b - a) / ((n : ℝ) - 1))

/-- `np.deg2rad(d)` -/
def deg2rad (d : ℝ) : ℝ := d * (Real.pi / 180)

/-- A slider: its limits and its current value. -/
structure Slider where
  lo : ℝ
  hi : ℝ
  val : ℝ

/-- `Slider(ax=..., **params)` of matplotlib: numbers are required; the start value is moved
into the limits. -/
def mkSlider (p : SliderParams) : Py Slider :=
  match p.valmin, p.valmax, p.valinit with
  | .number a, .number b, .number c =>
    .ok ⟨a, b, if c ≤ a then a else if b ≤ c then b else c⟩
  | _, _, _ => .error (.typeError [])

/-- The loop that creates the sliders (plot.py 523-527, 725-731). -/
def mkSliders : List (String × SliderParams) → Py (List (String × Slider))
  | [] => .ok []
  | (k, p) :: l => do
    let s ← mkSlider p
    let r ← mkSliders l
    .ok ((k, s) :: r)

/-- `{key: s.val for key, s in self.sliders.items()}` -/
def sliderVals (l : List (String × Slider)) : Dict := l.map fun p => (p.1, Arr.lit p.2.val)

/-- The common part of both constructors (plot.py 482-488, 702-708 and the creation of the
sliders): check, selection of the parameters used by the model, creation of the sliders. -/
def analyzerSliders (id : ℕ) (parameters : List (String × List SliderArg)) :
    M (List (String × Slider)) := do
  let symbs ← checkParams id (parameters.map Prod.fst)
  let used := parameters.filter fun p => decide (p.1 ∈ symbs)
  let ps ← liftPy (parseParameters used)
  liftPy (mkSliders ps)

/-! ### Analyze -/

/-- Attributes of an `Analyze` object: sliders, range parameter, the lines with their labels (the
dashed line for surface + volume has none) and values, the values of the range overlay. -/
structure Analyzer where
  sliders : List (String × Slider)
  range : Option String
  lines : Option (List (Option String × Arr))
  overlay : Option Arr

/-- `labels` (plot.py 559). -/
def lineLabels : List String := ["Total", "Surface", "Volume", "Interaction"]

/-- Incidence angles `np.deg2rad(np.linspace(10, 80, 100))[np.newaxis]` (plot.py 466, 475). -/
def analyzeT0 : Arr := ⟨[100, 1], fun i => XR.fin (deg2rad (linspace 10 80 100 (i.getD 0 0)))⟩

/-- `for l, c in zip(self._lines, contribs): l.set_ydata(c)` (plot.py 587-588). -/
def setLines : List (Option String × Arr) → List Arr → List (Option String × Arr)
  | l :: ls, c :: cs => (l.1, c) :: setLines ls cs
  | ls, _ => ls

/-- `self._lines[-1].set_ydata(sv)` (plot.py 590-591). -/
def setLast : List (Option String × Arr) → Arr → List (Option String × Arr)
  | [], _ => []
  | [l], y => [(l.1, y)]
  | l :: ls, y => l :: setLast ls y

/-- The lines after an update (plot.py 566-591). -/
def newLines (old : Option (List (Option String × Arr))) (contribs : List Arr) (sv : Option Arr) :
    List (Option String × Arr) :=
  match old with
  | none =>
    (contribs.zip lineLabels).map (fun p => (some p.2, p.1)) ++
      (match sv with
        | some y => [(none, y)]
        | none => [])
  | some ls =>
    match sv with
    | some y => setLast (setLines ls contribs) y
    | none => setLines ls contribs

/-- The parameter values of `_get_range_lines` (plot.py 617-627): 20 copies of the slider values,
the range parameter runs from the lower to the upper limit of its slider. -/
def rangeVals (l : List (String × Slider)) (key : String) : Dict :=
  l.map fun p => (p.1, ⟨[1, 20], fun i => XR.fin
    (if p.1 = key then linspace p.2.lo p.2.hi 20 (i.getD 1 0) else p.2.val)⟩)

/-- `_get_range_lines()` (plot.py 616-632). -/
def rangeLines (id : ℕ) (l : List (String × Slider)) (key : String) : M Arr := do
  if key ∉ l.map Prod.fst then throw PyErr.keyError
  else do
    updateParams id (rangeVals l key)
    calcOp id []

/-- `_update(val)` (plot.py 555-614). An exception ends the program (the state of the widget after
an exception is not modelled, the state of the RT1 object is). -/
def Analyzer.update (id : ℕ) (A : Analyzer) : M Analyzer := do
  updateParams id (sliderVals A.sliders)
  let res ← calcOp id []
  let contribs ← liftPy (rowsOf res.squeeze)
  let o ← getObj id
  let sv ← (if o.intQ = true then do
      let y ← surfaceVolume id
      pure (some y.squeeze)
    else pure none : M (Option Arr))
  let lines := newLines A.lines contribs sv
  match A.range with
  | none => pure { A with lines := some lines, overlay := none }
  | some k => do
    let r ← rangeLines id A.sliders k
    pure { A with lines := some lines, overlay := some r }

/-- `Analyze(R, range_parameter, **parameters)` (plot.py 430-499); `params.index(...)` (plot.py 539)
raises ValueError for a range parameter without slider, unless it is empty or "None". -/
def analyze (id : ℕ) (range : Option String) (parameters : List (String × List SliderArg)) :
    M Analyzer := do
  setMonostatic id (some (.number 0))
  setGeometry id [("t_0", some analyzeT0)]
  let sl ← analyzerSliders id parameters
  match range with
  | none => Analyzer.update id ⟨sl, none, none, none⟩
  | some k =>
    if k = "" ∨ k = "None" ∨ k ∈ sl.map Prod.fst then Analyzer.update id ⟨sl, some k, none, none⟩
    else throw PyErr.valueError

/-- What the user does with the widget: moving a slider, selecting the range parameter. -/
inductive Event where
  | slide (key : String) (v : ℝ)
  | select (key : Option String)

/-- The widget state before `_update` is called (plot.py 546-551 for the radio buttons). -/
def Analyzer.apply (A : Analyzer) : Event → Analyzer
  | .slide k v => { A with sliders := A.sliders.map fun p => if p.1 = k then (p.1, { p.2 with val := v }) else p }
  | .select k => { A with range := k }

/-- One event: the callback is `_update`. -/
def Analyzer.event (id : ℕ) (A : Analyzer) (e : Event) : M Analyzer := Analyzer.update id (A.apply e)

/-! ### Analyze3D -/

/-- Exit angles of the 3D analyzer: `np.meshgrid` of the polar angles 0..89 degrees (columns) and
the azimuth angles -180..180 degrees (rows) (plot.py 683-685). -/
def analyze3dTex (n : ℕ) : Arr := ⟨[n, n], fun i => XR.fin (deg2rad (linspace 0 89 n (i.getD 0 0)))⟩
/-- The azimuth angles of the grid. -/
def analyze3dPex (n : ℕ) : Arr := ⟨[n, n], fun i => XR.fin (deg2rad (linspace (-180) 180 n (i.getD 1 0)))⟩

/-- `np.full_like(x, r)` -/
def fullLike (x : Arr) (r : ℝ) : Arr := ⟨x.shape, fun _ => XR.fin r⟩

/-- `_getvals(inc)` (plot.py 778-792): cartesian coordinates of the result. -/
def getvals (id : ℕ) (cs : List Char) (inc : ℝ) : M (Arr × Arr × Arr) := do
  let tex ← Self.tex id
  let pex ← Self.pex id
  setGeometry id [("t_0", some (fullLike tex (deg2rad inc))), ("t_ex", some tex), ("p_ex", some pex)]
  let res ← withIntQ id cs (calcOp id [])
  let t ← Self.tex id
  let p ← Self.pex id
  let a ← liftPy (Arr.mul res (Arr.map XR.sin t))
  let x ← liftPy (Arr.mul a (Arr.map XR.cos p))
  let b ← liftPy (Arr.mul res (Arr.map XR.sin t))
  let y ← liftPy (Arr.mul b (Arr.map XR.sin p))
  let z ← liftPy (Arr.mul res (Arr.map XR.cos t))
  pure (x, y, z)

/-- Attributes of an `Analyze3D` object: sliders (without the one for the incidence angle), the
incidence angle in degrees, the requested contributions, the drawn surfaces (coordinate arrays). -/
structure Analyzer3D where
  sliders : List (String × Slider)
  inc : ℝ
  contribs : List Char
  surfaces : List (Arr × Arr × Arr)

/-- `x[i], y[i], z[i]` -/
def surfaceOf (x y z : Arr) (i : ℕ) : Py (Arr × Arr × Arr) := do
  let a ← rowOf x i
  let b ← rowOf y i
  let c ← rowOf z i
  .ok (a, b, c)

/-- `_update(event)` (plot.py 808-876).  `self.sliders["inc"]` is the slider of the incidence angle,
also if the model has a parameter with this name.  Without any value (no contributions requested)
`np.nanmin` (first call) and `np.nanmax` raise ValueError. -/
def Analyzer3D.update (id : ℕ) (A : Analyzer3D) : M Analyzer3D := do
  updateParams id (sliderVals (A.sliders.filter fun p => decide (p.1 ≠ "inc")))
  let (x, y, z) ← getvals id A.contribs A.inc
  let idx ← liftPy (useContribs A.contribs)
  let l ← liftPy (idx.mapM (surfaceOf x y z))
  if A.contribs = [] ∨ (∃ n ∈ x.shape, n = 0) then throw PyErr.valueError
  else pure { A with surfaces := l }

/-- All indices of an array of the given shape. -/
def Arr.idxs : List ℕ → List (List ℕ)
  | [] => [[]]
  | n :: s => (List.range n).flatMap fun i => (Arr.idxs s).map (i :: ·)

/-- All entries of an array. -/
def Arr.entries (a : Arr) : List XR := (Arr.idxs a.shape).map a.get

/-- `x < y` for floats (False if one of them is nan). -/
def XR.lt : XR → XR → Prop
  | .fin a, .fin b => a < b
  | .fin _, .pinf => True
  | .ninf, .fin _ => True
  | .ninf, .pinf => True
  | _, _ => False

/-- `abs` -/
def XR.abs : XR → XR
  | .fin a => .fin |a|
  | .pinf => .pinf
  | .ninf => .pinf
  | .nan => .nan

/-- `np.nanmax`: the largest entry that is not nan, nan if there is none. -/
def nanmax : List XR → XR
  | [] => .nan
  | x :: l => if x = .nan then nanmax l else if XR.lt x (nanmax l) then nanmax l else x

/-- `np.nanmin` -/
def nanmin : List XR → XR
  | [] => .nan
  | x :: l => if x = .nan then nanmin l else if XR.lt (nanmin l) x then nanmin l else x

/-- The half-width `limmax` of the axes of a new 3D analyzer (plot.py 819-824).  Python's `min` and `max`
return their first argument unless the second is smaller (larger); `.max()` of an array with nan is nan. -/
def frame3d (l : List (Arr × Arr × Arr)) : XR :=
  let xs := l.flatMap fun s => s.1.entries
  let ys := l.flatMap fun s => s.2.1.entries
  let lo := if XR.lt (nanmin ys) (nanmin xs) then nanmin ys else nanmin xs
  let hi := if XR.lt (nanmax xs) (nanmax ys) then nanmax ys else nanmax xs
  if lo = .nan ∨ hi = .nan then .nan else if XR.lt lo.abs hi.abs then hi.abs else lo.abs

/-- `_update(None)` in `__init__`: the axes get the limits `-limmax, limmax` (plot.py 818-829);
matplotlib raises ValueError if they are not finite.  (Matplotlib widens an interval of width zero, which
is not modelled.)  The limits are set before the surfaces are drawn; the state of the RT1 object does
not depend on this. -/
def Analyzer3D.first (id : ℕ) (A : Analyzer3D) : M Analyzer3D := do
  let A ← Analyzer3D.update id A
  if (frame3d A.surfaces).isFin then pure A else throw PyErr.valueError

/-- `_getarrow(r, t_0)` (plot.py 793-797) with `self._p_0 = 0`: the end of the line that is not the
origin. -/
def getarrow (r : XR) (t : ℝ) : XR × XR × XR :=
  (r * .fin (Real.sin t) * .fin (Real.cos 0), r * .fin (Real.sin t) * .fin (Real.sin 0), r * .fin (Real.cos t))

/-- The ends of the dashed and of the solid line drawn by `_update` (plot.py 855-874). -/
def Analyzer3D.arrows (A : Analyzer3D) : (XR × XR × XR) × (XR × XR × XR) :=
  let r := nanmax (A.surfaces.flatMap fun s => s.2.2.entries.map XR.abs)
  (getarrow r (deg2rad A.inc), getarrow r (deg2rad (-A.inc)))

/-- `Analyze3D(R, samples, contributions, **parameters)` (plot.py 636-718). -/
def analyze3d (id samples : ℕ) (cs : List Char) (parameters : List (String × List SliderArg)) :
    M Analyzer3D := do
  modObj id fun o => { o with dB := false }
  clearAll
  let _ ← liftPy (useContribs cs)
  setBistatic id none none (some (.number 0)) none
  setGeometry id [("t_0", some (fullLike (analyze3dTex samples) (deg2rad 45))),
    ("t_ex", some (analyze3dTex samples)), ("p_ex", some (analyze3dPex samples))]
  let sl ← analyzerSliders id parameters
  Analyzer3D.first id ⟨sl, 45, cs, []⟩

/-- The user moves a slider; `"inc"` is the slider of the incidence angle. -/
def Analyzer3D.slide (id : ℕ) (A : Analyzer3D) (key : String) (v : ℝ) : M Analyzer3D :=
  Analyzer3D.update id (if key = "inc" then { A with inc := v } else
    { A with sliders := A.sliders.map fun p => if p.1 = key then (p.1, { p.2 with val := v }) else p })

end

end RT1
