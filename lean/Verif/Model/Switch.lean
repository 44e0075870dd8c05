import Verif.Model.State

/-!
# Switching the backend in the middle of a program

`_lambdify` (helpers.py 19-92) reads the backend when a function is *compiled*; the compiled
functions are memoised (`_Scatter._lambda_func`, `_get_param_funcs`, `_fnevals`, the derivatives
of the phase functions), so after `set_lambda_backend` a call may use functions that were compiled
with different backends.  This file models the calls of `Model/State.lean` for a program that
switches the backend: a `Policy` says which backend each compiled function runs with and what it
remembers.  `realPolicy` is the policy of the code; the theorems that hold for every policy do not
depend on its details.
-/

namespace RT1

noncomputable section
open Classical

/-- Computations of a program that switches backends: the state of `M` and what the policy
remembers (`T`). -/
def SM (T : Type) (α : Type) : Type := World × T → Py α × (World × T)

instance (T : Type) : Monad (SM T) where
  pure a := fun s => (.ok a, s)
  bind x f := fun s =>
    match x s with
    | (.ok a, s') => f a s'
    | (.error e, s') => (.error e, s')

instance (T : Type) : MonadExceptOf PyErr (SM T) where
  throw e := fun s => (.error e, s)
  tryCatch x h := fun s =>
    match x s with
    | (.ok a, s') => (.ok a, s')
    | (.error e, s') => h e s'

/-- Which backend a compiled function of an object runs with, and how the memory of this changes
by a call. -/
structure Policy (T : Type) where
  /-- the function `c` of the object `id` is fetched (compiled unless it is memoised) or called -/
  pick : (id : ℕ) → (c : Callee) → World → T → Backend × T
  /-- after a call that does not evaluate anything -/
  note : Op → World → T → T

namespace Switch

variable {T : Type}

/-- A step that compiles and calls nothing. -/
def plain {α : Type} (x : M α) : SM T α := fun s =>
  let r := x s.1
  (r.1, (r.2, s.2))

/-- A step that fetches (and possibly calls) the compiled function `c` of the object `id`: it runs
with the backend of that function; the global setting is not changed. -/
def fetch {α : Type} (P : Policy T) (id : ℕ) (c : Callee) (x : M α) : SM T α := fun s =>
  let q := P.pick id c s.1 s.2
  let r := x { s.1 with backend := q.1 }
  (r.1, ({ r.2 with backend := s.1.backend }, q.2))

/-- What the evaluation methods read from `self`; see `Self.acc`. -/
def acc (P : Policy T) (id : ℕ) : Acc (SM T) where
  backend := fun c s =>
    let q := P.pick id c s.1 s.2
    (.ok q.1, (s.1, q.2))
  V := plain (do let o ← getObj id; pure o.V)
  SRF := plain (do let o ← getObj id; pure o.SRF)
  intQ := plain (do let o ← getObj id; pure o.intQ)
  sig0 := plain (do let o ← getObj id; pure o.sig0)
  dB := plain (do let o ← getObj id; pure o.dB)
  I0 := plain (do let o ← getObj id; pure o.I0)
  t0 := plain (Self.t0 id)
  tex := plain (Self.tex id)
  p0 := plain (Self.p0 id)
  pex := plain (Self.pex id)
  mu0 := plain (Self.mu0 id)
  muEx := plain (Self.muEx id)
  mu0x := plain (Self.mu0x id)
  muExx := plain (Self.muExx id)
  par := fun p => fetch P id (.par p) (Self.evalParam id p)
  symbs := fun p => plain (Self.paramSymbs id p)
  pdef := fun p => plain (do let o ← getObj id; pure (o.pdef p))
  params := plain (do let o ← getObj id; pure o.params)
  fnevals := fetch P id .fn (Self.fnevals id)
  dVolLam := fun key => fetch P id (.dVol key) (Self.dVolLam id key)
  dSrfLam := fun key => fetch P id (.dSrf key) (Self.dSrfLam id key)

variable (P : Policy T)

/-- `calc(**params)` (_calc.py 486-583). -/
def calcOp (id : ℕ) (kw : Dict) : SM T Arr := do
  plain (updateParams id kw)
  (acc P id).calcTry

/-- `surface(**params)` (_calc.py 585-606). -/
def surface (id : ℕ) (kw : Dict) : SM T Arr := do
  plain (updateParams id kw)
  let x ← (acc P id).surface
  (acc P id).convert x

/-- `volume(**params)` (_calc.py 626-647). -/
def volume (id : ℕ) (kw : Dict) : SM T Arr := do
  plain (updateParams id kw)
  let x ← (acc P id).volume
  (acc P id).convert x

/-- `interaction(**params)` (_calc.py 665-686). -/
def interaction (id : ℕ) (kw : Dict) : SM T Arr := do
  plain (updateParams id kw)
  let x ← (acc P id).interaction
  (acc P id).convert x

/-- `jacobian(param_list, format)` (_calc.py 1496-1597). -/
def jacobian (id : ℕ) (keys : List String) (format : String) :
    SM T (List Arr ⊕ List (List XR)) := do
  let jac ← (acc P id).jacList keys
  if format = "list" then pure (.inl jac)
  else if format = "scipy_least_squares" then do
    let o ← plain (getObj id)
    let cols ← liftPy (Jac.columns o.params (keys.zip jac))
    pure (.inr cols)
  else throw (PyErr.typeError [])

/-- `R._surface_volume()` (_calc.py 705-712). -/
def surfaceVolume (id : ℕ) : SM T Arr := do
  let _ ← plain (getObj id)
  let x ← (acc P id).surface +. (acc P id).volume
  (acc P id).convert x

end Switch

/-- A call, or `set_lambda_backend(name)`. -/
inductive SOp where
  | op (o : Op)
  | setBackend (name : String)

/-- The backend with a given name. -/
def Backend.ofName : String → Option Backend
  | "sympy" => some .sympy
  | "symengine" => some .symengine
  | _ => none

namespace Switch

variable {T : Type} (P : Policy T)

/-- `set_lambda_backend(name)` (rt1_model/__init__.py 29-52); symengine is assumed to be
installed. -/
def setBackend (name : String) : SM T Unit := fun s =>
  match Backend.ofName name with
  | some b => (.ok (), ({ s.1 with backend := b }, s.2))
  | none => (.error .assertionError, s)

/-- Execute a call; returned values are dropped. -/
def step : SOp → SM T Unit
  | .setBackend name => setBackend name
  | .op (.evalCalc id kw) => do let _ ← calcOp P id kw; pure ()
  | .op (.surface id kw) => do let _ ← surface P id kw; pure ()
  | .op (.volume id kw) => do let _ ← volume P id kw; pure ()
  | .op (.interaction id kw) => do let _ ← interaction P id kw; pure ()
  | .op (.jacobian id ks f) => do let _ ← jacobian P id ks f; pure ()
  | .op (.getParam id p) => do let _ ← (acc P id).par p; pure ()
  | .op (.surfaceVolume id) => do let _ ← surfaceVolume P id; pure ()
  | .op o => fun s =>
    let r := RT1.step o s.1
    (r.1, (r.2, P.note o s.1 s.2))

/-- State after a history. -/
def run (s : World × T) (ops : List SOp) : World × T := ops.foldl (fun s op => (step P op s).2) s

/-- The calls of a history other than `set_lambda_backend`. -/
def calls (ops : List SOp) : List Op := ops.filterMap fun
  | .op o => some o
  | .setBackend _ => none

end Switch

/-! ### the policy of the code -/

/-- With which backend the memoised functions were compiled. -/
structure Tags where
  /-- `_get_param_funcs` (_calc.py 755-767) -/
  par : ℕ × PName → Backend
  /-- `_fnevals` (_calc.py 845-873) -/
  fn : ℕ → Backend
  /-- `_d_volume_dummy_lambda`, `_d_surface_dummy_lambda` (_calc.py 1394-1423, 1465-1494) -/
  dVol : ℕ × String → Backend
  dSrf : ℕ × String → Backend
  /-- `_Scatter._lambda_func` (_scatter.py 83-105): a memo table that is never cleared, with the
  scattering object and the names of the parameters as key.  Simplification: scattering objects
  with equal definitions are not distinguished. -/
  scatter : LRU (Scatter × List String) Backend

namespace Tags

/-- The backend of a memoised function: the remembered one, or the current setting if the function
is compiled now. -/
def look {κ : Type} (cur : Backend) (stored : Bool) (tag : κ → Backend) (k : κ) :
    Backend × (κ → Backend) :=
  if stored = true then (tag k, tag) else (cur, Function.update tag k cur)

/-- `_Scatter._lambda_func(*names)` (_scatter.py 83-105, 173): exceptions are not stored. -/
def scat (cur : Backend) (o : Scatter) (names : List String)
    (t : LRU (Scatter × List String) Backend) : Backend × LRU (Scatter × List String) Backend :=
  match LRU.find t (o, names) with
  | some b => (b, LRU.put t (o, names) b)
  | none =>
    match Lam.compile cur (["theta_0", "theta_ex", "phi_0", "phi_ex"] ++ names) o.phase with
    | .ok _ => (cur, LRU.put t (o, names) cur)
    | .error _ => (cur, t)

end Tags

/-- The policy of the code.  Simplification: compiled coefficients that are supplied by the user
(`fnevals_input`) run with the current backend. -/
def realPolicy : Policy Tags where
  pick := fun id c w t =>
    match w.objs id with
    | none => (w.backend, t)
    | some o =>
      match c with
      | .V =>
        let r := Tags.scat w.backend o.V o.params.keys t.scatter
        (r.1, { t with scatter := r.2 })
      | .SRF =>
        let r := Tags.scat w.backend o.SRF o.params.keys t.scatter
        (r.1, { t with scatter := r.2 })
      | .fn =>
        let r := Tags.look w.backend o.fnevals_.isSome t.fn id
        (r.1, { t with fn := r.2 })
      | .dpar => (w.backend, t)
      | .dVol key =>
        let r := Tags.look w.backend (LRU.find w.caches.dVol (id, key)).isSome t.dVol (id, key)
        (r.1, { t with dVol := r.2 })
      | .dSrf key =>
        let r := Tags.look w.backend (LRU.find w.caches.dSrf (id, key)).isSome t.dSrf (id, key)
        (r.1, { t with dSrf := r.2 })
      | .par p =>
        let r := Tags.look w.backend (LRU.find w.caches.pfun (id, p)).isSome t.par (id, p)
        (r.1, { t with par := r.2 })
  note := fun op w t =>
    match op with
    | .pickle id => { t with fn := Function.update t.fn w.next (t.fn id) }
    | _ => t

/-- The memory after importing the package. -/
def Tags.init : Tags :=
  { par := fun _ => .sympy, fn := fun _ => .sympy, dVol := fun _ => .sympy, dSrf := fun _ => .sympy
    scatter := [] }

end

end RT1
