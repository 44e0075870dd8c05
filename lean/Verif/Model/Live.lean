import Verif.Model.State

/-!
# Scattering functions as objects

In `Model/Scatter.lean` a scattering function is a value.  In the code it is an object: it has an
identity, its attributes `a`, `t` and `i` can be assigned, a linear combination refers to its parts
(and so shares them with other combinations), and the functions compiled by `_lambda_func`
(_scatter.py 83-105) are kept in one memo table for all scattering functions, with the object and the
parameter names as key.  This file models programs that create, change and evaluate such objects.
-/

namespace RT1.Live

noncomputable section
open Classical

/-- Attributes of a scattering object.  A linear combination keeps references to its parts and the
groups of parts with equal `a`, formed when it was created (_scatter.py 231-246). -/
inductive SObj where
  | prim (k : Kind) (a : A3) (nc : Option ℕ)
  | lin (ws : List Expr) (os : List ℕ) (groups : List (A3 × List (Expr × ℕ))) (a : A3)

namespace SObj

/-- `self.a` (volume.py 39, surface.py 40). -/
def a : SObj → A3
  | prim _ a _ => a
  | lin _ _ _ a => a

/-- `o.a = a` -/
def setA (a : A3) : SObj → SObj
  | prim k _ nc => prim k a nc
  | lin ws os g _ => lin ws os g a

/-- `o.t = t` for an expression or a number (volume.py 160, 202; surface.py 178, 222).  On objects
without this attribute the assignment has no effect on the calculations. -/
def setT (t : Expr) : SObj → SObj
  | prim (.volHG _) a nc => prim (.volHG t) a nc
  | prim (.volHGRayleigh _) a nc => prim (.volHGRayleigh t) a nc
  | prim (.srfHG _) a nc => prim (.srfHG t) a nc
  | prim (.srfHGnadirnorm _) a nc => prim (.srfHGnadirnorm t) a nc
  | o => o

/-- `o.i = i` (surface.py 119). -/
def setI (i : ℕ) : SObj → SObj
  | prim (.srfCosineLobe _) a nc => prim (.srfCosineLobe i) a nc
  | o => o

end SObj

/-- All scattering objects (an object is its position in the list), the memo table of
`_lambda_func` and the selected backend.  The entries of the table keep their objects alive, so
positions are not reused. -/
structure Heap where
  objs : List SObj
  memo : LRU (ℕ × List String) (Lam × Backend)
  backend : Backend

/-- What an object stands for at the moment: the properties `phase_function` and `ncoefs` are
computed from the current attributes of the object and its parts whenever they are read
(_scatter.py 248-262).  The parts of a combination are older than the combination. -/
def scatterOf (l : List SObj) (i : ℕ) : Option Scatter :=
  match l[i]? with
  | none => none
  | some (.prim k a nc) => some (.prim k a nc)
  | some (.lin ws os _ a) =>
    (os.mapM fun j => if _ : j < i then scatterOf l j else none).map fun ss => .lin ws ss a
termination_by i

/-- One step of the grouping loop (_scatter.py 242-243). -/
def addGroup (l : List SObj) (gs : List (A3 × List (Expr × ℕ))) (p : Expr × ℕ) : List (A3 × List (Expr × ℕ)) :=
  match l[p.2]? with
  | none => gs
  | some o => ins o.a gs
where
  /-- `setdefault(key, []).append(p)` -/
  ins (k : A3) : List (A3 × List (Expr × ℕ)) → List (A3 × List (Expr × ℕ))
    | [] => [(k, [p])]
    | (k', m) :: gs => if k' = k then (k', m ++ [p]) :: gs else (k', m) :: ins k gs

section
variable {R : Type} [CommRing R] [Algebra ℝ R] (emb : Expr → R)

/-- `legendre_expansion` of an object (_scatter.py 107-147, 271-291): a combination uses the groups
formed when it was created and the current coefficients of its parts. -/
def expansionOf (l : List SObj) (t0 tex p0 pex : Scatter.Trig R) (i : ℕ) : Py R :=
  match l[i]? with
  | none => .error .nameError
  | some (.prim k a nc) => Scatter.legExpansion emb t0 tex p0 pex (.prim k a nc)
  | some (.lin _ _ gs _) =>
    match gs.mapM (fun g => (g.2.mapM fun p => (scatterOf l p.2).map fun s => (p.1, s)).map fun m => (g.1, m)) with
    | none => .error .nameError
    | some gs => Scatter.groupsExpansion emb t0 tex p0 pex gs

end

/-- `self._lambda_func(*names)` (_scatter.py 83-105): `functools.lru_cache()` with the object and
the names as key; exceptions are not stored. -/
def lambdaFunc (i : ℕ) (names : List String) (h : Heap) : Py (Lam × Backend) × Heap :=
  match LRU.find h.memo (i, names) with
  | some f => (.ok f, { h with memo := LRU.put h.memo (i, names) f })
  | none =>
    match scatterOf h.objs i with
    | none => (.error .nameError, h)
    | some s =>
      match Lam.compile h.backend (["theta_0", "theta_ex", "phi_0", "phi_ex"] ++ names) s.phase with
      | .ok f => (.ok (f, h.backend), { h with memo := LRU.put h.memo (i, names) (f, h.backend) })
      | .error e => (.error e, h)

/-- `o.calc(t_0, t_ex, p_0, p_ex, param_dict)` (_scatter.py 149-175). -/
def evalFn (i : ℕ) (t0 tex p0 pex : Arr) (pd : Dict) (h : Heap) : Py Arr × Heap :=
  match lambdaFunc i pd.keys h with
  | (.ok f, h') => (f.1.call f.2 [t0, tex, p0, pex] pd, h')
  | (.error e, h') => (.error e, h')

/-- What a program does with scattering functions. -/
inductive LOp where
  /-- a predefined function -/
  | prim (k : Kind) (a : A3) (nc : Option ℕ)
  /-- `LinComb(choices)` -/
  | lin (choices : List (Expr × ℕ)) (a : A3)
  | setA (i : ℕ) (a : A3)
  | setT (i : ℕ) (t : Expr)
  | setI (i : ℕ) (n : ℕ)
  | eval (i : ℕ) (t0 tex p0 pex : Arr) (pd : Dict)
  /-- `set_lambda_backend` (helpers.py) -/
  | backend (b : Backend)

/-- Assign an attribute. -/
def Heap.modify (h : Heap) (i : ℕ) (f : SObj → SObj) : Heap := { h with objs := h.objs.modify i f }

/-- Execute one call.  A combination of objects that do not exist cannot be written down in
python, it has no effect here. -/
def act (h : Heap) : LOp → Heap
  | .prim k a nc => { h with objs := h.objs ++ [.prim k a nc] }
  | .lin cs a =>
    if ∀ c ∈ cs, c.2 < h.objs.length then
      { h with objs := h.objs ++ [.lin (cs.map Prod.fst) (cs.map Prod.snd) (cs.foldl (addGroup h.objs) []) a] }
    else h
  | .setA i a => h.modify i (SObj.setA a)
  | .setT i t => h.modify i (SObj.setT t)
  | .setI i n => h.modify i (SObj.setI n)
  | .eval i a b c d pd => (evalFn i a b c d pd h).2
  | .backend b => { h with backend := b }

/-- State after a program. -/
def exec (h : Heap) (ops : List LOp) : Heap := ops.foldl act h

/-- The state after importing the package. -/
def start (b : Backend) : Heap := ⟨[], [], b⟩

end

end RT1.Live
