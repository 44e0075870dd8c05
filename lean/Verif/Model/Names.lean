import Verif.Model.State

/-!
# The names of the module `_calc`

When the coefficients of the interaction term are compiled, `sp.var` is called with the names of
the angles and of all parameters (_calc.py 859-862).  Besides creating symbols, `sp.var` assigns them
to global variables of the module it is called from.  The functions of `_calc.py` look up imported
names (`np`, `sp`, ...) and builtins (`isinstance`, `range`, ...) in the same namespace.

`Model/State.lean` models the calls of a program whose namespace is intact.  Here a program state
has, in addition, the set of the names `sp.var` has assigned, and calls are modelled as a relation:
what is known about a call in such a state.
-/

namespace RT1

noncomputable section
open Classical

/-- The global names and builtins which functions of the module look up when they are called
(_calc.py 87-1597; names used only in the class body, i.e. on import, are left out). -/
def moduleNames : List String :=
  ["Analyze", "Analyze3D", "AttributeError", "Exception", "TypeError", "_lambdify", "_log", "_parse_sympy_param",
    "block_diag", "chain", "csr_matrix", "dict", "enumerate", "expi", "expn", "float", "get_lambda_backend", "getattr",
    "int", "isinstance", "len", "list", "lru_cache", "map", "np", "range", "seng_expand", "set", "setattr", "sp", "str",
    "sum", "timeit", "tuple", "type", "vstack", "zip"]

/-- A program state with the names assigned by `sp.var`. -/
structure Scoped where
  world : World
  names : Set String

/-- None of the names the module needs has been assigned. -/
def Intact (names : Set String) : Prop := ∀ n ∈ names, n ∉ moduleNames

/-- The state after importing the package. -/
def Scoped.init (b : Backend) : Scoped := ⟨initWorld b, ∅⟩

/-- The call compiles the coefficients of an object, with `n` among the arguments of the compiled
function (_calc.py 845-864). -/
def Compiles {α : Type} (m : M α) (w : World) (n : String) : Prop :=
  ∃ id o o' lam, w.objs id = some o ∧ o.fnevals_ = none ∧ (m w).2.objs id = some o' ∧ o'.fnevals_ = some lam ∧ n ∈ lam.vars

/-- What is known about a call `m` in the state `s`, with result `r` and state `s'` afterwards; `needs` are
names which the call looks up for sure, unless it raises before.

Simplification: nothing else is said about the result and the objects if a name of the module is assigned
before or during the call. -/
structure ScopedCall {α : Type} (m : M α) (needs : List String) (s : Scoped) (r : Py α) (s' : Scoped) : Prop where
  /-- names are never removed -/
  mono : s.names ⊆ s'.names
  /-- `sp.var` is called before the coefficients are compiled -/
  assigns : Intact s.names → ∀ n, Compiles m s.world n → n ∈ s'.names
  /-- `sp.var` is only called with the names of the angles and of the parameters of some object -/
  only : Intact s.names → ∀ n ∈ s'.names, n ∈ s.names ∨ n ∈ ["theta_0", "phi_0", "theta_ex", "phi_ex"] ∨
    ∃ id o, (m s.world).2.objs id = some o ∧ n ∈ o.params.keys
  /-- the call finds everything it looks up -/
  intact : Intact s.names → Intact s'.names → m s.world = (r, s'.world)
  /-- a symbol is found instead of a module, function or class: it has no such attribute, cannot be called, and
  is no class -/
  fails : ∀ n ∈ needs, n ∈ s.names → ∃ e, r = .error e

/-- Names which a call looks up for sure, unless it raises before: `RT1.__init__` (_calc.py 115-125, and
`set_monostatic`), `set_monostatic` (351), `set_bistatic` (379, 383), `set_geometry` with keywords (401, 445),
`update_params` (478, with keywords 484), `calc` (also 518, 622), `surface` (622), `volume` (653), `interaction`
(698), `__getstate__` (130, 141), `_clear_cache` (161). -/
def Op.needs : Op → List String
  | .new _ _ _ _ _ _ _ _ => ["dict", "set", "sp"]
  | .setMonostatic _ _ => ["sp"]
  | .setBistatic _ _ _ _ _ => ["sp", "enumerate", "zip"]
  | .setGeometry _ kw => if kw = [] then [] else ["setattr", "np"]
  | .updateParams _ kw => ["isinstance", "str"] ++ if kw = [] then [] else ["np"]
  | .evalCalc _ _ => ["isinstance", "str", "int", "np"]
  | .surface _ _ => ["isinstance", "str", "np"]
  | .volume _ _ => ["isinstance", "str", "np"]
  | .interaction _ _ => ["isinstance", "str", "np"]
  | .surfaceVolume _ => ["np"]
  | .pickle _ => ["_log", "get_lambda_backend"]
  | .clearCaches _ => ["getattr", "type"]
  | _ => []

/-- Programs; every call may raise, the program goes on. -/
inductive ScopedExec : List Op → Scoped → Scoped → Prop
  | nil (s : Scoped) : ScopedExec [] s s
  | cons {op : Op} {ops : List Op} {s s1 s' : Scoped} {r : Py Unit} (h : ScopedCall (step op) op.needs s r s1)
      (hs : ScopedExec ops s1 s') : ScopedExec (op :: ops) s s'

end

end RT1
