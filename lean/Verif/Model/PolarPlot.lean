import Verif.Model.HemReflect

/-!
# Polar plots of scattering functions

`polarplot` of plot.py (20-250), except for colors, labels, legend and decoration of the axes.
-/

namespace RT1

noncomputable section
open Classical

/-- The argument `V_SRF`: nothing, a surface or volume function, or a tuple as offered by the documentation. -/
inductive PolarSrc where
  | none
  | surface (s : Scatter)
  | volume (s : Scatter)
  | tuple

/-- The argument `param_dict` (plot.py 81-85). -/
inductive PolarParams where
  | none
  | dict (d : Dict)
  | list (l : List Dict)

/-- `param_dict` as a list (plot.py 114-117). -/
def PolarParams.toList : PolarParams → List Dict
  | .none => [[]]
  | .dict d => [d]
  | .list l => l

/-- The other arguments.  `inc` is absent if it is not a list, `multipFloat` tells whether `multip` is a
float, `axPolar` whether the axes are polar axes. -/
structure PolarArgs where
  inc : Option (List ℝ) := some [15, 35, 55, 75]
  multipFloat : Bool := true
  aprox : Bool := true
  params : PolarParams := .none
  axPolar : Bool := true

/-- The lines drawn for one incidence angle: polar angles (clockwise, from the zenith), the values of the
phase function and, if requested, of the approximation; the polar angle at which the arrow of the incident
direction starts. -/
structure Curve where
  theta : List ℝ
  rad : ℕ → XR
  approx : Option (ℕ → ℝ)
  arrow : ℝ

/-- The plotted functions, and whether the warning about `ncoefs` is printed. -/
structure PolarOut where
  curves : List Curve
  warned : Bool

/-- The value of `ncoefs` exists (plot.py 88-96). -/
def PolarSrc.hasNcoefs : PolarSrc → Bool
  | .surface s => s.ncoefs.toBool
  | .volume s => s.ncoefs.toBool
  | _ => false

/-- `required_symbs - set(params)` (plot.py 120-127). -/
def polarMissing (s : Scatter) (d : Dict) : List String :=
  s.phase.free.filter fun n => n ∉ ["phi_0", "phi_ex", "theta_0", "theta_ex"] ∧ n ∉ d.keys

/-- `ax.plot(thetass, y)` and `ax.fill_between(thetass, y)` only accept one value per angle. -/
def polarShape (n : ℕ) (s : List ℕ) : Py Unit := if s = [n] then .ok () else .error .valueError

/-- Values of the symbols in the approximation (plot.py 145-158): the angle symbols of surface functions
have other names than those of volume functions. -/
def polarEnv (surf : Bool) (d : Dict) (t0 t : ℝ) (i : ℕ) (n : String) : ℝ :=
  if n = (if surf then "theta_ex" else "theta_0") then t0
  else if n = "theta_s" then t
  else if n = (if surf then "phi_ex" else "phi_0") then 0
  else if n = "phi_s" then 0
  else match Dict.get? d n with
    | some a => match a.at' [i] with
      | .fin r => r
      | _ => 0
    | none => 0

/-- `V_SRF.legendre_expansion(*angs).doit()` (plot.py 165-168) for the values `ρ` of the symbols and the angles
`t0` and `t`; both azimuth angles are 0.  Values that are no numbers and symbols that are not bound are not
represented. -/
def polarExpansion (s : Scatter) (ρ : String → ℝ) (t0 t : ℝ) : Py ℝ :=
  s.legExpansion (fun e => e.evalR ρ) ⟨Real.cos t0, Real.sin t0⟩ ⟨Real.cos t, Real.sin t⟩ ⟨Real.cos 0, Real.sin 0⟩
    ⟨Real.cos 0, Real.sin 0⟩

/-- The approximate line (plot.py 178-181).  `kept` tells whether the exit angle still occurs in the expansion
after simplification by sympy; if not, sympy code returns a scalar.  All given parameters are broadcast (in the
code those that occur, with sympy; this makes a difference only for arrays given for names that do not occur). -/
def polarApprox (b : Backend) (surf : Bool) (s : Scatter) (kept : Bool) (d : Dict) (grid : List ℝ) (t0 : ℝ) :
    Py (ℕ → ℝ) :=
  match Arr.bshapes ((if b = .symengine ∨ kept then [[grid.length]] else [])
      ++ d.keys.filterMap fun k => (Dict.get? d k).map Arr.shape) with
  | none => .error .valueError
  | some sh => do
    polarShape grid.length sh
    .ok fun i =>
      match polarExpansion s (polarEnv surf d t0 (grid.getD i 0) i) t0 (grid.getD i 0) with
      | .ok v => v
      | .error _ => 0

/-- The body of the loops for one incidence angle in radians (plot.py 173-190, 213-220). -/
def polarCurve (b : Backend) (surf : Bool) (s : Scatter) (kept aprox : Bool) (d : Dict) (grid : List ℝ) (t0 : ℝ) :
    Py Curve := do
  let rad ← s.calcVal b (Arr.lit t0) ⟨[grid.length], fun i => XR.fin (grid.getD (i.getD 0 0) 0)⟩ (Arr.lit 0)
    (Arr.lit 0) d
  polarShape grid.length rad.shape
  if aprox then do
    let f ← polarApprox b surf s kept d grid t0
    .ok ⟨grid, fun i => rad.get [i], some f, -t0⟩
  else .ok ⟨grid, fun i => rad.get [i], none, -t0⟩

/-- The curves for one parameter dictionary (plot.py 162-190).  Whether the expansion exists does not depend on
the values of the symbols and angles. -/
def polarCurves (b : Backend) (surf : Bool) (s : Scatter) (kept aprox : Bool) (inc grid : List ℝ) (d : Dict) :
    Py (List Curve) :=
  if aprox then do
    let _ ← polarExpansion s (fun _ => 0) 0 0
    inc.mapM fun t => polarCurve b surf s kept aprox d grid (deg2rad t)
  else inc.mapM fun t => polarCurve b surf s kept aprox d grid (deg2rad t)

/-- `thetass` (plot.py 147, 155). -/
def polarGrid (surf : Bool) : Py (List ℝ) :=
  if surf then arange (-Real.pi / 2) (Real.pi / 2) (1 / 100) else arange 0 (2 * Real.pi) (1 / 100)

/-- `polarplot` for one scattering function, after the checks of the arguments (plot.py 119-190).  Without any
parameter dictionary the names of the last loop are never bound (plot.py 210, 211). -/
def polarOne (b : Backend) (surf : Bool) (s : Scatter) (kept aprox : Bool) (inc : List ℝ) (g : PolarArgs) :
    Py (List Curve) :=
  match g.params.toList.find? fun d => polarMissing s d ≠ [] with
  | some d => .error (.assertMissing (polarMissing s d))
  | none =>
    if g.axPolar then
      if g.params.toList = [] then .error .nameError
      else do
        let grid ← polarGrid surf
        let l ← g.params.toList.mapM (polarCurves b surf s kept aprox inc grid)
        .ok l.flatten
    else .error .assertionError

/-- `polarplot(V_SRF=src, ...)` (plot.py 20-250). -/
def polarplot (b : Backend) (kept : Bool) (src : PolarSrc) (g : PolarArgs) : Py PolarOut :=
  match g.inc with
  | none => .error .assertionError
  | some inc =>
    if g.multipFloat then
      match src with
      | .none => .error .assertionError
      | .tuple => .error .attributeError
      | .surface s => do
        let l ← polarOne b true s kept (g.aprox && src.hasNcoefs) inc g
        .ok ⟨l, g.aprox && !src.hasNcoefs⟩
      | .volume s => do
        let l ← polarOne b false s kept (g.aprox && src.hasNcoefs) inc g
        .ok ⟨l, g.aprox && !src.hasNcoefs⟩
    else .error .assertionError

end

end RT1
