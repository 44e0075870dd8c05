import Verif.Model.Expr

/-!
# Definitions given as texts

`_parse_sympy_param` (helpers.py 7-16) turns a text into an expression with `sp.parse_expr`: python
evaluates the text, where a name that is neither in `_local_variable_symbols` nor among the names
sympy knows has been replaced by a symbol.

Simplification: the syntax tree of the text (python's tokens and precedence) is given; exponents are
numbers; functions have one argument.
-/

namespace RT1

noncomputable section
open Classical

/-- The syntax tree of a text. -/
inductive Src where
  | num (r : ℝ)
  | name (n : String)
  | neg (a : Src)
  | add (a b : Src)
  | sub (a b : Src)
  | mul (a b : Src)
  | div (a b : Src)
  | pow (a : Src) (r : ℝ)
  | call (f : String) (a : Src)

/-- What a name of sympy stands for. `other`: everything that is no real number and no function
represented here (`I`, `S`, `Q`, `beta`, `id`, ...). -/
inductive SymObj where
  | number (r : ℝ)
  | func (f : Expr → Expr)
  | other

/-- The names `sp.parse_expr` knows: those of `from sympy import *` and python's builtin functions.
Only some of them are fixed here, theorems hold for all others. -/
structure SympyNames where
  find : String → Option SymObj
  e : find "E" = some (.number (Real.exp 1))
  pi : find "pi" = some (.number Real.pi)
  sin : find "sin" = some (.func .sin)
  cos : find "cos" = some (.func .cos)
  exp : find "exp" = some (.func .exp)
  sqrt : find "sqrt" = some (.func fun a => .pow a (1 / 2))
  sign : find "sign" = some (.func .sign)

/-- `_local_variable_symbols` (helpers.py 7). -/
def localSymbols : List (String × Expr) := [("N", .sym "N")]

/-- `_parse_sympy_param` of a text (helpers.py 10-16).

Simplification: `.error` also stands for the results outside of the model (complex numbers, functions
that are not represented, undefined functions). -/
def parseText (ns : SympyNames) : Src → Py Expr
  | .num r => .ok (.num r)
  | .name n =>
    match localSymbols.lookup n with
    | some e => .ok e
    | none =>
      match ns.find n with
      | none => .ok (.sym n)
      | some (.number r) => .ok (.num r)
      | some _ => .error (.typeError [])
  | .neg a => do
    let x ← parseText ns a
    .ok (-x)
  | .add a b => do
    let x ← parseText ns a
    let y ← parseText ns b
    .ok (x + y)
  | .sub a b => do
    let x ← parseText ns a
    let y ← parseText ns b
    .ok (x - y)
  | .mul a b => do
    let x ← parseText ns a
    let y ← parseText ns b
    .ok (x * y)
  | .div a b => do
    let x ← parseText ns a
    let y ← parseText ns b
    .ok (x / y)
  | .pow a r => do
    let x ← parseText ns a
    .ok (.pow x r)
  | .call f a => do
    let x ← parseText ns a
    match localSymbols.lookup f with
    | some _ => .error (.typeError [])
    | none =>
      match ns.find f with
      | some (.func g) => .ok (g x)
      | _ => .error (.typeError [])

end

end RT1
