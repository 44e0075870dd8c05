import Verif.Model.Arr

/-!
# sympy expressions and lambdified functions

`Expr` stands for a sympy expression.  Only the operations used by the repository (and by
typical parameter definitions) are represented.  A parameter definition given as a string
is represented by the expression that `sp.parse_expr` returns (helpers.py 10-16; parsing
itself is not modelled).
-/

namespace RT1

/-- A sympy expression. `num` are numbers (including `sp.pi`), `sym` symbols, `pow` powers
with a numeric exponent (`x / y` is `x * y ** (-1)`, `sp.sqrt` is `** 0.5`). -/
inductive Expr where
  | num (r : ℝ)
  | sym (s : String)
  | add (a b : Expr)
  | mul (a b : Expr)
  | pow (a : Expr) (r : ℝ)
  | sin (a : Expr)
  | cos (a : Expr)
  | sign (a : Expr)
  | exp (a : Expr)

namespace Expr

noncomputable section
open Classical

instance : Add Expr := ⟨add⟩
instance : Mul Expr := ⟨mul⟩
instance : Neg Expr := ⟨fun a => mul (num (-1)) a⟩
instance : Sub Expr := ⟨fun a b => add a (mul (num (-1)) b)⟩
instance : Div Expr := ⟨fun a b => mul a (pow b (-1))⟩

/-- `expr.free_symbols` (as a list; the order is irrelevant). -/
def free : Expr → List String
  | num _ => []
  | sym s => [s]
  | add a b => a.free ++ b.free
  | mul a b => a.free ++ b.free
  | pow a _ => a.free
  | sin a => a.free
  | cos a => a.free
  | sign a => a.free
  | exp a => a.free

/-- Mathematical value of an expression for given real values of the symbols. -/
def evalR (ρ : String → ℝ) : Expr → ℝ
  | num r => r
  | sym s => ρ s
  | add a b => a.evalR ρ + b.evalR ρ
  | mul a b => a.evalR ρ * b.evalR ρ
  | pow a r => (a.evalR ρ) ^ r
  | sin a => Real.sin (a.evalR ρ)
  | cos a => Real.cos (a.evalR ρ)
  | sign a => if 0 < a.evalR ρ then 1 else if a.evalR ρ < 0 then -1 else 0
  | exp a => Real.exp (a.evalR ρ)

/-- Numerical value computed by a lambdified expression (numpy scalar semantics). -/
def evalX (ρ : String → XR) : Expr → XR
  | num r => XR.fin r
  | sym s => ρ s
  | add a b => a.evalX ρ + b.evalX ρ
  | mul a b => a.evalX ρ * b.evalX ρ
  | pow a r => XR.rpow (a.evalX ρ) r
  | sin a => XR.sin (a.evalX ρ)
  | cos a => XR.cos (a.evalX ρ)
  | sign a => XR.sign (a.evalX ρ)
  | exp a => XR.exp (a.evalX ρ)

/-- `sp.diff(expr, sp.Symbol(key))`.  Simplified: the derivative of `sign` is 0 (sympy
returns an unevaluated derivative, or a Dirac delta, if its argument depends on `key`), and
the result is not simplified (sympy drops vanishing terms, so that its result can have fewer
symbols and never multiplies zero with an infinite value). -/
def diff (key : String) : Expr → Expr
  | num _ => num 0
  | sym s => if s = key then num 1 else num 0
  | add a b => add (a.diff key) (b.diff key)
  | mul a b => add (mul (a.diff key) b) (mul a (b.diff key))
  | pow a r => mul (mul (num r) (pow a (r - 1))) (a.diff key)
  | sin a => mul (cos a) (a.diff key)
  | cos a => mul (mul (num (-1)) (sin a)) (a.diff key)
  | sign _ => num 0
  | exp a => mul (exp a) (a.diff key)

end

end Expr

/-- The two lambdify backends (`rt1_model/__init__.py` 23-52). -/
inductive Backend where
  | sympy
  | symengine
deriving DecidableEq, Repr

/-- An ordered python dict from parameter names to arrays. -/
abbrev Dict := List (String × Arr)

namespace Dict

/-- `d.keys()`. -/
def keys (d : Dict) : List String := d.map Prod.fst

/-- `d.get(k)`. -/
def get? (d : Dict) (k : String) : Option Arr := (d.find? fun p => p.1 = k).map Prod.snd

/-- `d[k] = v`: existing names keep their position, new names are appended. -/
def set : Dict → String → Arr → Dict
  | [], k, v => [(k, v)]
  | (k', v') :: d, k, v => if k' = k then (k', v) :: d else (k', v') :: set d k v

/-- `d.update(kw)`. -/
def update (d : Dict) (kw : Dict) : Dict := kw.foldl (fun d p => set d p.1 p.2) d

end Dict

/-- A function created by `_lambdify(variables, expr)` for a single expression
(helpers.py 19-92). -/
structure Lam where
  vars : List String
  body : Expr

namespace Lam

noncomputable section
open Classical

/-- `_lambdify` (helpers.py 19-92): symengine rejects unknown symbols on compilation,
sympy only when the function is called. -/
def compile (b : Backend) (vars : List String) (body : Expr) : Py Lam :=
  match b with
  | .sympy => .ok ⟨vars, body⟩
  | .symengine =>
    if ∀ s ∈ body.free, s ∈ vars then .ok ⟨vars, body⟩ else .error .runtimeError

/-- Binding of positional and keyword arguments to the variable names.  sympy functions
are plain python functions (wrong, missing or unexpected arguments raise TypeError); the
symengine wrapper (helpers.py 69-76) picks the remaining variables from the keywords and
ignores all other keywords. -/
def bindArgs (b : Backend) (vars : List String) (pos : List Arr) (kw : Dict) :
    Py (List (String × Arr)) :=
  let rest := vars.drop pos.length
  match b with
  | .sympy =>
    if vars.length < pos.length then .error (.typeError [])
    else if ∃ p ∈ kw, p.1 ∉ rest then .error (.typeError [])
    else
      match rest.mapM (fun k => kw.get? k) with
      | none => .error (.typeError [])
      | some vals => .ok (vars.zip (pos ++ vals))
  | .symengine =>
    match rest.mapM (fun k => kw.get? k) with
    | none => .error .keyError
    | some vals =>
      if vars.length < pos.length then .error .valueError
      else .ok (vars.zip (pos ++ vals))

/-- Value of a bound variable at a broadcast index (unbound names cannot be read). -/
def envAt (bnd : List (String × Arr)) (idx : List ℕ) (s : String) : XR :=
  match (bnd.find? fun p => p.1 = s) with
  | some p => p.2.at' idx
  | none => XR.nan

/-- Evaluate an expression for bound arguments: sympy code only touches (and broadcasts)
the variables that occur in the expression and raises NameError for unknown ones; the
symengine wrapper broadcasts all arguments. -/
def evalBound (b : Backend) (body : Expr) (bnd : List (String × Arr)) : Py Arr :=
  match b with
  | .sympy =>
    if ∀ s ∈ body.free, s ∈ bnd.map Prod.fst then
      match Arr.bshapes ((bnd.filter fun p => decide (p.1 ∈ body.free)).map fun p => p.2.shape) with
      | none => .error .valueError
      | some sh => .ok ⟨sh, fun idx => body.evalX (envAt bnd idx)⟩
    else .error .nameError
  | .symengine =>
    match Arr.bshapes (bnd.map fun p => p.2.shape) with
    | none => .error .valueError
    | some sh => .ok ⟨sh, fun idx => body.evalX (envAt bnd idx)⟩

/-- `func(*pos, **kw)`. -/
def call (b : Backend) (f : Lam) (pos : List Arr) (kw : Dict) : Py Arr := do
  let bnd ← bindArgs b f.vars pos kw
  evalBound b f.body bnd

end

end Lam

end RT1
