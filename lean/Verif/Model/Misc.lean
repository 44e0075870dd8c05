import Verif.Model.State

/-!
# Backend setting, analyzer widgets, docstring merging
-/

namespace RT1

noncomputable section
open Classical

/-- `set_lambda_backend(name)` (rt1_model/__init__.py 29-52): the new setting, or an
AssertionError; the setting is changed only after the check. -/
def setLambdaBackend (cur : String) (name : String) : Py Unit × String :=
  if name ∈ ["sympy", "symengine"] then (.ok (), name) else (.error .assertionError, cur)

/-- An entry of the tuple given for a slider: a number or the name. -/
inductive SliderArg where
  | number (r : ℝ)
  | name (s : String)

/-- Keyword arguments of a slider. -/
structure SliderParams where
  valmin : SliderArg
  valmax : SliderArg
  valinit : SliderArg
  label : String

/-- `p["valmax"] - p["valmin"]` divided by 2; TypeError for strings. -/
def halfRange : SliderArg → SliderArg → Py SliderArg
  | .number a, .number b => .ok (.number ((b - a) / 2))
  | _, _ => .error (.typeError [])

/-- One iteration of the loop in `Analyze._parse_parameters` (plot.py 546-551): the tuple
is zipped with valmin, valmax, valinit (further entries are ignored); the default of
valinit is always computed. -/
def parseParameter (key : String) : List SliderArg → Py SliderParams
  | a :: b :: rest => do
    let d ← halfRange a b
    .ok ⟨a, b, (match rest with | c :: _ => c | [] => d), key⟩
  | _ => .error .keyError

/-- `Analyze._parse_parameters(**kwargs)` (plot.py 543-553). -/
def parseParameters : List (String × List SliderArg) → Py (List (String × SliderParams))
  | [] => .ok []
  | (k, v) :: l => do
    let p ← parseParameter k v
    let r ← parseParameters l
    .ok ((k, p) :: r)

/-- `"tsvi".index(c)` (plot.py 675). -/
def contribIndex : Char → Py ℕ
  | 't' => .ok 0
  | 's' => .ok 1
  | 'v' => .ok 2
  | 'i' => .ok 3
  | _ => .error .valueError

/-- `self._use_contribs` (plot.py 675). -/
def useContribs (cs : List Char) : Py (List ℕ) := cs.mapM contribIndex

/-- `res[k]`: a row of the stacked result. -/
def rowOf (x : Arr) (k : ℕ) : Py Arr :=
  match x.shape with
  | [] => .error .indexError
  | s => if k < s.getLastD 0 then .ok ⟨s.dropLast, fun i => x.get (i ++ [k])⟩
         else .error .indexError

/-- `with self._cx_set_intq(): body` (plot.py 765-776): int_Q is set for the block and
restored afterwards, also if the block raises. -/
def withIntQ {α : Type} (id : ℕ) (cs : List Char) (body : M α) : M α := do
  let o ← getObj id
  modObj id fun o' => { o' with intQ := decide ('i' ∈ cs) }
  fun w =>
    let r := body w
    (r.1, ((modObj id fun o' => { o' with intQ := o.intQ }) r.2).2)

/-- The rows displayed by the 3D analyzer (plot.py 778-792, 834-846); the conversion to
cartesian coordinates and the drawing are not modelled. -/
def shownRows (id : ℕ) (cs : List Char) : M (List Arr) := do
  let idx ← liftPy (useContribs cs)
  let res ← withIntQ id cs (calcOp id [])
  liftPy (idx.mapM (rowOf res))

/-- The part of `append_numpy_docstring` that merges parameter lists
(helpers.py 136-142): parameters are pairs of name and description. -/
def mergeParams (own : List (String × String)) : List (List (String × String)) →
    List (String × String)
  | [] => own
  | f :: fs =>
    mergeParams (f.foldl (fun comb p =>
      if comb.any (fun i => i.1 == p.1) then comb else comb ++ [p]) own) fs

end

end RT1
