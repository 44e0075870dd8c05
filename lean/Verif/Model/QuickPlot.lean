import Verif.Model.Analyze
import Verif.Model.PolarPlot

/-!
# Quick access to the plot functions

The methods `polarplot` and `hemreflect` of scattering functions (_scatter.py 177-194) and `analyze`,
`analyze3d` of RT1 objects (_calc.py 23-29, 202-210).  They hand their arguments to the functions of plot.py;
modelled is which parameter of the function receives which value.  How Python assigns arguments to
parameters and what `functools.partial` does is part of the language; it is modelled by `Sig.bind` and
`Sig.partialBind`.  Docstrings and names set by `update_wrapper` and `wraps` are not modelled.
-/

namespace RT1

noncomputable section
open Classical

/-- The parameters of a function with their default values (none: required), and whether it accepts
further keyword arguments (`**kwargs`). -/
structure Sig (α : Type) where
  params : List (String × Option α)
  varkw : Bool

/-- The value of a parameter that has no positional argument: the keyword argument, the default or TypeError. -/
def takeKw {α : Type} (kw : List (String × α)) (p : String × Option α) : Py α :=
  match kw.lookup p.1 with
  | some v => .ok v
  | none =>
    match p.2 with
    | some v => .ok v
    | none => .error (.typeError [p.1])

/-- The call `f(*args, **kw)`: the values of the parameters in their order, and what `**kwargs` collects.
TypeError for too many positional arguments, for a second value for a parameter, for unknown keywords and for
required parameters without value.  The names in `kw` are different from each other. -/
def Sig.bind {α : Type} (s : Sig α) (args : List α) (kw : List (String × α)) : Py (List α × List (String × α)) :=
  if s.params.length < args.length then .error (.typeError [])
  else if ∃ p ∈ kw, p.1 ∈ (s.params.take args.length).map Prod.fst then .error (.typeError [])
  else if s.varkw = false ∧ ∃ p ∈ kw, p.1 ∉ s.params.map Prod.fst then .error (.typeError [])
  else do
    let rest ← (s.params.drop args.length).mapM (takeKw kw)
    .ok (args ++ rest, kw.filter fun p => decide (p.1 ∉ s.params.map Prod.fst))

/-- `{**bound, **kw}` -/
def mergeKw {α : Type} (bound kw : List (String × α)) : List (String × α) :=
  bound.map (fun p => (p.1, (kw.lookup p.1).getD p.2)) ++ kw.filter fun p => decide (p.1 ∉ bound.map Prod.fst)

/-- `functools.partial(f, **bound)(*args, **kw)` -/
def Sig.partialBind {α : Type} (s : Sig α) (bound : List (String × α)) (args : List α) (kw : List (String × α)) :
    Py (List α × List (String × α)) :=
  s.bind args (mergeKw bound kw)

/-- Values handed to the plot functions. -/
inductive PlotVal where
  | none
  | surface (s : Scatter)
  | volume (s : Scatter)
  | rt1 (id : ℕ)
  | bool (b : Bool)
  | int (n : ℤ)
  | float (r : ℝ)
  | text (s : String)
  | list (l : List ℝ)
  | tuple (l : List SliderArg)
  | dict (d : Dict)
  | dicts (l : List Dict)
  | axes (polar : Bool)

/-- The parameters of `polarplot` (plot.py 20-31). -/
def polarSig : Sig PlotVal where
  params := [("V_SRF", some .none), ("inc", some (.list [15, 35, 55, 75])), ("multip", some (.float 2)),
    ("label", some .none), ("aprox", some (.bool true)), ("legend", some (.bool true)),
    ("legpos", some (.tuple [.number (3 / 4), .number (1 / 2)])), ("groundcolor", some (.text ".5")),
    ("param_dict", some .none), ("ax", some .none)]
  varkw := false

/-- The parameters of `hemreflect` (plot.py 253-264). -/
def hemSig : Sig PlotVal where
  params := [("R", some .none), ("SRF", some .none), ("phi_0", some (.float 0)), ("t_0_step", some (.float 5)),
    ("t_0_min", some (.float 0)), ("t_0_max", some (.float 90)), ("simps_N", some (.int 1000)),
    ("showpoints", some (.bool true)), ("returnarray", some (.bool false)), ("param_dict", some (.dict []))]
  varkw := false

/-- What `polarplot` draws for the value of `V_SRF`: everything else than a scattering function has no
attribute `ncoefs`, like a tuple. -/
def polarSrc : PlotVal → PolarSrc
  | .none => .none
  | .surface s => .surface s
  | .volume s => .volume s
  | _ => .tuple

/-- Which BRDF `hemreflect` evaluates (plot.py 314-328): `R.SRF` if `R` is given (other objects than RT1
objects have no attribute `SRF`), `SRF.calc` otherwise (volume functions also have a method `calc`). -/
def hemSrc (R SRF : PlotVal) : Py HemSource :=
  match R with
  | .rt1 id => .ok (.R id)
  | .none =>
    match SRF with
    | .none => .ok .none
    | .surface s => .ok (.SRF s)
    | .volume s => .ok (.SRF s)
    | _ => .error .attributeError
  | _ => .error .attributeError

/-- The call `polarplot(*args, **kw)`: the drawn object and the values of the other parameters. -/
def callPolar (args : List PlotVal) (kw : List (String × PlotVal)) : Py (PolarSrc × List PlotVal) := do
  let v ← polarSig.bind args kw
  match v.1 with
  | x :: l => .ok (polarSrc x, l)
  | [] => .error (.typeError [])

/-- The call `hemreflect(*args, **kw)`: the evaluated BRDF and the values of the other parameters. -/
def callHem (args : List PlotVal) (kw : List (String × PlotVal)) : Py (HemSource × List PlotVal) := do
  let v ← hemSig.bind args kw
  match v.1 with
  | r :: s :: l => do
    let src ← hemSrc r s
    .ok (src, l)
  | _ => .error (.typeError [])

/-- `self.polarplot(*args, **kw)` with `self.polarplot = partial(polarplot, V_SRF=self)` (_scatter.py 185);
`avail` tells whether plot.py could be imported (_scatter.py 180-182, 192), otherwise there is no such
attribute. -/
def methodPolar (avail : Bool) (self : PlotVal) (args : List PlotVal) (kw : List (String × PlotVal)) :
    Py (PolarSrc × List PlotVal) :=
  if avail then do
    let v ← polarSig.partialBind [("V_SRF", self)] args kw
    match v.1 with
    | x :: l => .ok (polarSrc x, l)
    | [] => .error (.typeError [])
  else .error .attributeError

/-- `self.hemreflect(*args, **kw)` with `self.hemreflect = partial(hemreflect, SRF=self)`, for surface
functions only (_scatter.py 188-191). -/
def methodHem (avail : Bool) (self : PlotVal) (args : List PlotVal) (kw : List (String × PlotVal)) :
    Py (HemSource × List PlotVal) :=
  match avail, self with
  | true, .surface s => do
    let v ← hemSig.partialBind [("SRF", .surface s)] args kw
    match v.1 with
    | r :: x :: l => do
      let src ← hemSrc r x
      .ok (src, l)
    | _ => .error (.typeError [])
  | _, _ => .error .attributeError

/-- The parameters of the methods `analyze` and `analyze3d` (_calc.py 205, 209). -/
def methodSig : Sig PlotVal := ⟨[("self", none)], true⟩

/-- The parameters of `Analyze.__init__` (plot.py 430). -/
def analyzeSig : Sig PlotVal := ⟨[("self", none), ("R", none), ("range_parameter", some .none)], true⟩

/-- The parameters of `Analyze3D.__init__` (plot.py 637). -/
def analyze3dSig : Sig PlotVal :=
  ⟨[("self", none), ("R", none), ("samples", some (.int 35)), ("contributions", some (.text "ts"))], true⟩

/-- The ranges of the sliders.  Simplified: other values than tuples raise TypeError before anything is
changed (in the code after the geometry of the object has been set, and only if the model uses the parameter). -/
def tuplesOf (kw : List (String × PlotVal)) : Py (List (String × List SliderArg)) :=
  kw.mapM fun p => match p.2 with
    | .tuple l => .ok (p.1, l)
    | _ => .error (.typeError [p.1])

/-- `Analyze(*args, **kw)`: the new object is the first argument of `__init__`.  Simplified: range parameters
other than None and names raise ValueError before anything is changed (in the code afterwards). -/
def callAnalyze (args : List PlotVal) (kw : List (String × PlotVal)) : M Analyzer := do
  let v ← liftPy (analyzeSig.bind (.none :: args) kw)
  match v.1 with
  | [_, .rt1 id, r] => do
    let ps ← liftPy (tuplesOf v.2)
    match r with
    | .none => analyze id none ps
    | .text k => analyze id (some k) ps
    | _ => throw .valueError
  | _ => throw .attributeError

/-- `Analyze3D(*args, **kw)`.  Simplified: values of `samples` and `contributions` that are no number or no
string raise TypeError and negative `samples` ValueError before anything is changed. -/
def callAnalyze3d (args : List PlotVal) (kw : List (String × PlotVal)) : M Analyzer3D := do
  let v ← liftPy (analyze3dSig.bind (.none :: args) kw)
  match v.1 with
  | [_, .rt1 id, .int n, .text cs] => do
    let ps ← liftPy (tuplesOf v.2)
    if n < 0 then throw .valueError else analyze3d id n.toNat cs.toList ps
  | [_, .rt1 _, _, _] => throw (.typeError [])
  | _ => throw .attributeError

/-- `R.analyze(*args, **kw)` for the RT1 object `id` (_calc.py 202-206): `Analyze(R=self, **kwargs)`.  A second
value for `R` in `kwargs` is a TypeError of the call expression. -/
def methodAnalyze (avail : Bool) (id : ℕ) (args : List PlotVal) (kw : List (String × PlotVal)) : M Analyzer :=
  if avail then do
    let v ← liftPy (methodSig.bind (.rt1 id :: args) kw)
    if "R" ∈ v.2.map Prod.fst then throw (.typeError ["R"])
    else callAnalyze [] (("R", .rt1 id) :: v.2)
  else throw .attributeError

/-- `R.analyze3d(*args, **kw)` (_calc.py 208-210). -/
def methodAnalyze3d (avail : Bool) (id : ℕ) (args : List PlotVal) (kw : List (String × PlotVal)) : M Analyzer3D :=
  if avail then do
    let v ← liftPy (methodSig.bind (.rt1 id :: args) kw)
    if "R" ∈ v.2.map Prod.fst then throw (.typeError ["R"])
    else callAnalyze3d [] (("R", .rt1 id) :: v.2)
  else throw .attributeError

end

end RT1
