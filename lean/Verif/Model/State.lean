import Verif.Model.Eval
import Verif.Model.Jac

/-!
# The RT1 object as a state machine

Models the attributes of `RT1` objects, the class-level memo tables (`functools.lru_cache`
keyed on the object), and the public methods of `_calc.py` as state transformers.  An
exception keeps all state changes that happened before it was raised.
-/

namespace RT1

noncomputable section
open Classical

/-- The four angles. -/
inductive AngN where
  | t0
  | tex
  | p0
  | pex
deriving DecidableEq, Repr

/-- Keyword names of `set_geometry` (_calc.py 431). -/
def AngN.ofName : String → Option AngN
  | "t_0" => some .t0
  | "t_ex" => some .tex
  | "p_0" => some .p0
  | "p_ex" => some .pex
  | _ => none

/-- Attributes of an RT1 object (_calc.py 98-125, 335-396, 838, 864). `analyze` tells
whether `R.analyze`/`R.analyze3d` are still callable. -/
structure Obj where
  V : Scatter
  SRF : Scatter
  intQ : Bool
  sig0 : Bool
  dB : Bool
  I0 : Arr
  pdef : PName → PDef
  params : Dict
  fixed : List AngN
  mono : Bool
  ang : AngN → Option Arr
  geom : Geom4
  fn_ : Option (List P)
  fnevals_ : Option FnLam
  fnInput : Option (List P)
  fnevalsInput : Option FnLam
  analyze : Bool

/-- A memo table of `functools.lru_cache()`: most recently used entry first. -/
abbrev LRU (κ ν : Type) := List (κ × ν)

namespace LRU
variable {κ ν : Type}

/-- Lookup. -/
def find (c : LRU κ ν) (k : κ) : Option ν := (c.find? fun p => p.1 = k).map Prod.snd

/-- Insert or refresh an entry; the table holds at most 128 entries (the default `maxsize`),
the least recently used one is dropped. -/
def put (c : LRU κ ν) (k : κ) (v : ν) : LRU κ ν :=
  ((k, v) :: c.filter fun p => decide (p.1 ≠ k)).take 128

end LRU

/-- The class-level memo tables (_calc.py 72-85). -/
structure Caches where
  mu0 : LRU ℕ Arr
  muEx : LRU ℕ Arr
  mu0x : LRU ℕ Arr
  muExx : LRU ℕ Arr
  pfun : LRU (ℕ × PName) (Option Lam)
  psym : LRU (ℕ × PName) (List String)
  dVol : LRU (ℕ × String) Lam
  dSrf : LRU (ℕ × String) Lam

/-- Program state: all objects (numbers are never reused: a memo table keeps its objects
alive), the next free number, the memo tables, the backend. -/
structure World where
  objs : ℕ → Option Obj
  next : ℕ
  caches : Caches
  backend : Backend

/-- Python computations: state changes persist when an exception is raised. -/
def M (α : Type) : Type := World → Py α × World

instance : Monad M where
  pure a := fun w => (.ok a, w)
  bind x f := fun w =>
    match x w with
    | (.ok a, w') => f a w'
    | (.error e, w') => (.error e, w')

instance : MonadExceptOf PyErr M where
  throw e := fun w => (.error e, w)
  tryCatch x h := fun w =>
    match x w with
    | (.ok a, w') => (.ok a, w')
    | (.error e, w') => h e w'

/-- Read the state. -/
def getW : M World := fun w => (.ok w, w)
/-- Change the state. -/
def modW (f : World → World) : M Unit := fun w => (.ok (), f w)

/-- `self` -/
def getObj (id : ℕ) : M Obj := fun w =>
  match w.objs id with
  | some o => (.ok o, w)
  | none => (.error .attributeError, w)

/-- Change attributes of `self`. -/
def modObj (id : ℕ) (f : Obj → Obj) : M Unit :=
  modW fun w => { w with objs := Function.update w.objs id ((w.objs id).map f) }

/-- A memoised function: look up, otherwise compute and store (exceptions are not stored). -/
def memo {κ ν : Type} (tab : Caches → LRU κ ν) (setTab : Caches → LRU κ ν → Caches)
    (k : κ) (compute : M ν) : M ν := fun w =>
  match LRU.find (tab w.caches) k with
  | some v => (.ok v, { w with caches := setTab w.caches (LRU.put (tab w.caches) k v) })
  | none =>
    match compute w with
    | (.ok v, w') =>
      (.ok v, { w' with caches := setTab w'.caches (LRU.put (tab w'.caches) k v) })
    | (.error e, w') => (.error e, w')

namespace Self

/-- `R.t_0` (_calc.py 263-270). -/
def t0 (id : ℕ) : M Arr := do
  let o ← getObj id
  match o.ang .t0 with
  | some a => pure a
  | none => throw .attributeError

/-- `R.p_0` (_calc.py 278-285). -/
def p0 (id : ℕ) : M Arr := do
  let o ← getObj id
  match o.ang .p0 with
  | some a => pure a
  | none => throw .attributeError

/-- `R.t_ex` (_calc.py 288-298). -/
def tex (id : ℕ) : M Arr := do
  let o ← getObj id
  if o.mono = true then t0 id
  else
    match o.ang .tex with
    | some a => pure a
    | none => throw .attributeError

/-- `R.p_ex` (_calc.py 306-316). -/
def pex (id : ℕ) : M Arr := do
  let o ← getObj id
  if o.mono = true then do
    let a ← p0 id
    liftPy (Arr.add a (Arr.lit Real.pi))
  else
    match o.ang .pex with
    | some a => pure a
    | none => throw .attributeError

/-- `R._mu_0` (_calc.py 272-275). -/
def mu0 (id : ℕ) : M Arr :=
  memo Caches.mu0 (fun c t => { c with mu0 := t }) id do
    let a ← t0 id
    pure (Arr.cos a)

/-- `R._mu_ex` (_calc.py 300-303). -/
def muEx (id : ℕ) : M Arr :=
  memo Caches.muEx (fun c t => { c with muEx := t }) id do
    let a ← tex id
    pure (Arr.cos a)

/-- `self.V.ncoefs + self.SRF.ncoefs - 1` -/
def nmax (id : ℕ) : M ℕ := do
  let o ← getObj id
  let nV ← liftPy o.V.ncoefs
  let nS ← liftPy o.SRF.ncoefs
  pure (nV + nS - 1)

/-- `R._mu_0_x` (_calc.py 799-805); `_mu_0` is read once instead of once per power. -/
def mu0x (id : ℕ) : M Arr :=
  memo Caches.mu0x (fun c t => { c with mu0x := t }) id do
    let n ← nmax id
    let mu ← mu0 id
    liftPy (Acc.muPowers n mu)

/-- `R._mu_ex_x` (_calc.py 807-813). -/
def muExx (id : ℕ) : M Arr :=
  memo Caches.muExx (fun c t => { c with muExx := t }) id do
    let n ← nmax id
    let mu ← muEx id
    liftPy (Acc.muPowers n mu)

/-- `R._get_param_symbs(param)` (_calc.py 743-753). -/
def paramSymbs (id : ℕ) (p : PName) : M (List String) :=
  memo Caches.psym (fun c t => { c with psym := t }) (id, p) do
    let o ← getObj id
    pure (match o.pdef p with
      | .str e => e.free.dedup
      | _ => [])

/-- `R._get_param_funcs(param)` (_calc.py 755-767). -/
def paramFuncs (id : ℕ) (p : PName) : M (Option Lam) :=
  memo Caches.pfun (fun c t => { c with pfun := t }) (id, p) do
    let o ← getObj id
    match o.pdef p with
    | .val _ => pure none
    | .str e => do
      let vs ← paramSymbs id p
      let w ← getW
      let f ← liftPy (Lam.compile w.backend vs e)
      pure (some f)
    | .basic e => do
      let vs ← paramSymbs id p
      let w ← getW
      let f ← liftPy (Lam.compile w.backend vs e)
      pure (some f)

/-- The keyword dictionary `{key: self.param_dict[key] for key in params}`. -/
def pick (pd : Dict) (ks : List String) : Py Dict :=
  match ks.mapM (fun k => (pd.get? k).map fun v => (k, v)) with
  | some d => .ok d
  | none => .error .keyError

/-- `R._eval_param(param)` (_calc.py 769-796). -/
def evalParam (id : ℕ) (p : PName) : M Arr := do
  let f ← paramFuncs id p
  match f with
  | some f => do
    let ks ← paramSymbs id p
    let o ← getObj id
    let w ← getW
    tryCatch (liftPy (do
        let kw ← pick o.params ks
        f.call w.backend [] kw))
      fun e =>
        let missing := ks.filter fun k => decide (k ∉ o.params.keys)
        if missing ≠ [] then throw (.typeError missing) else throw e
  | none => do
    let o ← getObj id
    match o.pdef p with
    | .val a => pure a
    | _ => throw (.typeError [])

/-- `R._fn` (_calc.py 815-843). -/
def fn (id : ℕ) : M (Option (List P)) := do
  let o ← getObj id
  match o.fn_ with
  | some f => pure (some f)
  | none =>
    match o.fnInput with
    | some f => pure (some f)
    | none =>
      if o.intQ = true then do
        let f ← liftPy (fnCoefs o.V o.SRF o.geom)
        modObj id fun o => { o with fn_ := some f }
        pure (some f)
      else pure none

/-- The argument names of the compiled coefficients (_calc.py 859-862). -/
def fnVars (pd : Dict) : List String := ["theta_0", "phi_0", "theta_ex", "phi_ex"] ++ pd.keys

/-- `R._fnevals` (_calc.py 845-873). symengine rejects unknown symbols on compilation. -/
def fnevals (id : ℕ) : M (Option FnLam) := do
  let o ← getObj id
  match o.fnevals_ with
  | some f => pure (some f)
  | none =>
    match o.fnevalsInput with
    | some f => pure (some f)
    | none =>
      if o.intQ = true then do
        let f ← fn id
        match f with
        | none => throw (.typeError [])
        | some f => do
          let w ← getW
          let lam : FnLam := ⟨fnVars o.params, o.V.phase.free ++ o.SRF.phase.free, f⟩
          if w.backend = .symengine ∧ ∃ s ∈ lam.free, s ∉ lam.vars then throw .runtimeError
          else do
            modObj id fun o => { o with fnevals_ := some lam }
            pure (some lam)
      else pure none

/-- `R._d_volume_dummy_lambda(key)` (_calc.py 1394-1423). -/
def dVolLam (id : ℕ) (key : String) : M Lam :=
  memo Caches.dVol (fun c t => { c with dVol := t }) (id, key) do
    let o ← getObj id
    let w ← getW
    liftPy (Lam.compile w.backend
      (["theta_0", "theta_ex", "phi_0", "phi_ex"] ++ o.params.keys) (o.V.phase.diff key))

/-- `R._d_surface_dummy_lambda(key)` (_calc.py 1465-1494). -/
def dSrfLam (id : ℕ) (key : String) : M Lam :=
  memo Caches.dSrf (fun c t => { c with dSrf := t }) (id, key) do
    let o ← getObj id
    let w ← getW
    liftPy (Lam.compile w.backend
      (["theta_0", "theta_ex", "phi_0", "phi_ex"] ++ o.params.keys) (o.SRF.phase.diff key))

/-- What the evaluation methods read from `self`. -/
def acc (b : Backend) (id : ℕ) : Acc M where
  backend := fun _ => pure b
  V := do let o ← getObj id; pure o.V
  SRF := do let o ← getObj id; pure o.SRF
  intQ := do let o ← getObj id; pure o.intQ
  sig0 := do let o ← getObj id; pure o.sig0
  dB := do let o ← getObj id; pure o.dB
  I0 := do let o ← getObj id; pure o.I0
  t0 := t0 id
  tex := tex id
  p0 := p0 id
  pex := pex id
  mu0 := mu0 id
  muEx := muEx id
  mu0x := mu0x id
  muExx := muExx id
  par := evalParam id
  symbs := paramSymbs id
  pdef := fun p => do let o ← getObj id; pure (o.pdef p)
  params := do let o ← getObj id; pure o.params
  fnevals := fnevals id
  dVolLam := dVolLam id
  dSrfLam := dSrfLam id

end Self

/-- `self._clear_geom_cache()` (_calc.py 170-172): clears the tables for all objects. -/
def clearGeom : M Unit :=
  modW fun w => { w with caches := { w.caches with mu0 := [], muEx := [], mu0x := [], muExx := [] } }

/-- `self._clear_param_cache()` (_calc.py 166-168). -/
def clearParam : M Unit :=
  modW fun w => { w with caches := { w.caches with pfun := [], psym := [] } }

/-- `self._clear_cache()` without names (_calc.py 152-164): clears the eight tables for all
objects. -/
def clearAll : M Unit :=
  modW fun w => { w with caches := ⟨[], [], [], [], [], [], [], []⟩ }

/-- An argument for a fixed angle: a number or something else (a string, a list, ...). -/
inductive PyArg where
  | number (r : ℝ)
  | other

/-- `np.atleast_1d(number)` -/
def arr1 (r : ℝ) : Arr := (Arr.lit r).atleast1d

/-- Common start of `set_monostatic` and `set_bistatic` (_calc.py 335-340, 369-374). -/
def resetGeom (id : ℕ) (mono : Bool) : M Unit := do
  modObj id fun o => { o with mono := mono }
  clearGeom
  modObj id fun o => { o with fixed := [], fn_ := none, fnevals_ := none }

/-- Set the attribute of a fixed angle (_calc.py 346-347, 393-394). -/
def fixAngle (id : ℕ) (n : AngN) (r : ℝ) : M Unit :=
  modObj id fun o =>
    { o with ang := Function.update o.ang n (some (arr1 r)), fixed := n :: o.fixed }

/-- `set_monostatic(p_0)` (_calc.py 318-352). -/
def setMonostatic (id : ℕ) (p0 : Option PyArg) : M Unit := do
  resetGeom id true
  let s ← (match p0 with
    | none => pure (AngS.sym "phi_0")
    | some .other => throw PyErr.assertionError
    | some (.number r) => do
      fixAngle id .p0 r
      pure (AngS.num r) : M AngS)
  modObj id fun o => { o with geom := ⟨.sym "theta_0", .sym "theta_0", s, s⟩ }

/-- One iteration of the loop in `set_bistatic` (_calc.py 383-394). -/
def bistaticAngle (id : ℕ) (n : AngN) (s : String) : Option PyArg → M AngS
  | none => pure (.sym s)
  | some .other => throw PyErr.assertionError
  | some (.number r) => do
    fixAngle id n r
    pure (.num r)

/-- `set_bistatic(t_0, t_ex, p_0, p_ex)` (_calc.py 354-396). -/
def setBistatic (id : ℕ) (t0 tex p0 pex : Option PyArg) : M Unit := do
  resetGeom id false
  let a ← bistaticAngle id .t0 "theta_0" t0
  let b ← bistaticAngle id .tex "theta_ex" tex
  let c ← bistaticAngle id .p0 "phi_0" p0
  let d ← bistaticAngle id .pex "phi_ex" pex
  modObj id fun o => { o with geom := ⟨a, b, c, d⟩ }

/-- `setattr(self, f"_{key}", self._sanitize_geometry_parameter(key, val))` for all items
(_calc.py 398-401, 444-445). `none` is python's `None`. -/
def setAngles (id : ℕ) : List (String × Option Arr) → M Unit
  | [] => pure ()
  | (k, v) :: l => do
    match AngN.ofName k with
    | none => pure ()
    | some n => do
      let o ← getObj id
      if n ∈ o.fixed then throw PyErr.assertionError
      else
        match v with
        | none => throw PyErr.assertionError
        | some a =>
          modObj id fun o => { o with ang := Function.update o.ang n (some a.atleast1d) }
    setAngles id l

/-- `set_geometry(**kwargs)` (_calc.py 403-445). -/
def setGeometry (id : ℕ) (kw : List (String × Option Arr)) : M Unit := do
  if ∃ p ∈ kw, AngN.ofName p.1 = none then throw (PyErr.typeError [])
  else do
    let o ← getObj id
    if (∃ p ∈ kw, p.1 = "t_ex" ∨ p.1 = "p_ex") ∧ o.mono = true then throw PyErr.assertionError
    else do
      clearGeom
      setAngles id kw

/-- `update_params(**kwargs)` (_calc.py 447-484); the definition `_bsf == "bsf"` is
represented by the symbol `bsf`. -/
def updateParams (id : ℕ) (kw : Dict) : M Unit := do
  let o ← getObj id
  let kw' :=
    match o.pdef .bsf with
    | .str (.sym "bsf") =>
      if "bsf" ∈ o.params.keys ∨ "bsf" ∈ kw.keys then kw else kw ++ [("bsf", Arr.lit 0)]
    | _ => kw
  modObj id fun o =>
    { o with params := Dict.update o.params (kw'.map fun p => (p.1, p.2.atleast1d)) }

/-- `R.tau = value` etc. (_calc.py 227-260). -/
def setParamDef (id : ℕ) (p : PName) (d : PDef) : M Unit := do
  clearParam
  modObj id fun o => { o with pdef := Function.update o.pdef p d }

/-- `calc(**params)` (_calc.py 486-583). -/
def calcOp (id : ℕ) (kw : Dict) : M Arr := do
  updateParams id kw
  let w ← getW
  (Self.acc w.backend id).calcTry

/-- `surface(**params)` (_calc.py 585-606). -/
def surface (id : ℕ) (kw : Dict) : M Arr := do
  updateParams id kw
  let w ← getW
  let A := Self.acc w.backend id
  let x ← A.surface
  A.convert x

/-- `volume(**params)` (_calc.py 626-647). -/
def volume (id : ℕ) (kw : Dict) : M Arr := do
  updateParams id kw
  let w ← getW
  let A := Self.acc w.backend id
  let x ← A.volume
  A.convert x

/-- `interaction(**params)` (_calc.py 665-686). -/
def interaction (id : ℕ) (kw : Dict) : M Arr := do
  updateParams id kw
  let w ← getW
  let A := Self.acc w.backend id
  let x ← A.interaction
  A.convert x

/-- `jacobian(param_list, format="list")`. -/
def jacobianList (id : ℕ) (keys : List String) : M (List Arr) := do
  let w ← getW
  (Self.acc w.backend id).jacList keys

/-- `jacobian(param_list, format)` (_calc.py 1496-1597). -/
def jacobian (id : ℕ) (keys : List String) (format : String) : M (List Arr ⊕ List (List XR)) := do
  let jac ← jacobianList id keys
  if format = "list" then pure (.inl jac)
  else if format = "scipy_least_squares" then do
    let o ← getObj id
    let cols ← liftPy (Jac.columns o.params (keys.zip jac))
    pure (.inr cols)
  else throw (PyErr.typeError [])

/-- The default definitions of tau, omega, NormBRDF, bsf (_calc.py 115-118). -/
def defaultDefs : PName → PDef
  | .tau => .str (.sym "tau")
  | .omega => .str (.sym "omega")
  | .NormBRDF => .str (.sym "NormBRDF")
  | .bsf => .str (.sym "bsf")

/-- `RT1(V, SRF, int_Q, sig0, dB, fn_input, fnevals_input, I0)` (_calc.py 87-125). -/
def newObj (V SRF : Scatter) (intQ sig0 dB : Bool) (fnI : Option (List P))
    (fneI : Option FnLam) (I0 : Arr) : M ℕ := do
  let w ← getW
  let o : Obj :=
    { V := V, SRF := SRF, intQ := intQ, sig0 := sig0, dB := dB, I0 := I0
      pdef := defaultDefs, params := [("bsf", Arr.lit 0)], fixed := [], mono := true
      ang := fun _ => none
      geom := ⟨.sym "theta_0", .sym "theta_0", .sym "phi_0", .sym "phi_0"⟩
      fn_ := none, fnevals_ := none, fnInput := fnI, fnevalsInput := fneI, analyze := true }
  modW fun w => { w with objs := Function.update w.objs w.next (some o), next := w.next + 1 }
  setMonostatic w.next none
  pure w.next

/-- `pickle.loads(pickle.dumps(R))` (_calc.py 127-150): `__getstate__` replaces the plot
methods of the live object by `None` and returns its attributes (the attribute names it
wants to drop do not exist); the loaded object gets the same attributes. -/
def pickle (id : ℕ) : M ℕ := do
  modObj id fun o => { o with analyze := false }
  let o ← getObj id
  let w ← getW
  modW fun w => { w with objs := Function.update w.objs w.next (some o), next := w.next + 1 }
  pure w.next

/-- `R.V = V` (no setter: the attribute is replaced). -/
def setV (id : ℕ) (V : Scatter) : M Unit := modObj id fun o => { o with V := V }
/-- `R.SRF = SRF`. -/
def setSRF (id : ℕ) (SRF : Scatter) : M Unit := modObj id fun o => { o with SRF := SRF }

/-- The caller overwrites, in place, the array it passed for an angle (`np.atleast_1d`
returns arrays with at least one axis unchanged, so the object holds the caller's array). -/
def overwriteArg (id : ℕ) (n : AngN) (a : Arr) : M Unit :=
  modObj id fun o => { o with ang := Function.update o.ang n ((o.ang n).map fun _ => a) }

/-- `R._surface_volume()` (_calc.py 705-712), the dashed line of the analyzer. -/
def surfaceVolume (id : ℕ) : M Arr := do
  let _ ← getObj id
  let w ← getW
  let x ← (Self.acc w.backend id).surface +. (Self.acc w.backend id).volume
  (Self.acc w.backend id).convert x

/-- `_check_params(R, param_dict)` (plot.py 396-424) without additional parameters: the
symbols of the model other than the angles, or an AssertionError whose message lists the
symbols found neither among the supplied names nor in `R.param_dict`.  Sets are modelled as
lists. -/
def checkParams (id : ℕ) (names : List String) : M (List String) := do
  let _ ← getObj id
  let w ← getW
  let a ← (Self.acc w.backend id).symbs .tau
  let b ← (Self.acc w.backend id).symbs .omega
  let c ← (Self.acc w.backend id).symbs .NormBRDF
  let d ← (Self.acc w.backend id).symbs .bsf
  let v ← (Self.acc w.backend id).V
  let s ← (Self.acc w.backend id).SRF
  let symbs := (a ++ b ++ c ++ d ++ v.phase.free ++ s.phase.free).filter fun k =>
    decide (k ∉ ["phi_0", "phi_ex", "theta_0", "theta_ex"])
  let ignored := symbs.filter fun k => decide (k ∉ names)
  let pd ← (Self.acc w.backend id).params
  let missing := ignored.filter fun k => decide (k ∉ pd.keys)
  if missing ≠ [] then throw (.assertMissing missing) else pure symbs

/-- The calls a user can make.  The last three are what the analyzers of plot.py do in
addition to the public methods. -/
inductive Op where
  | new (V SRF : Scatter) (intQ sig0 dB : Bool) (fnI : Option (List P))
      (fneI : Option FnLam) (I0 : Arr)
  | setMonostatic (id : ℕ) (p0 : Option PyArg)
  | setBistatic (id : ℕ) (t0 tex p0 pex : Option PyArg)
  | setGeometry (id : ℕ) (kw : List (String × Option Arr))
  | updateParams (id : ℕ) (kw : Dict)
  | setParamDef (id : ℕ) (p : PName) (d : PDef)
  | setIntQ (id : ℕ) (b : Bool)
  | setSig0 (id : ℕ) (b : Bool)
  | setDB (id : ℕ) (b : Bool)
  | setI0 (id : ℕ) (a : Arr)
  | evalCalc (id : ℕ) (kw : Dict)
  | surface (id : ℕ) (kw : Dict)
  | volume (id : ℕ) (kw : Dict)
  | interaction (id : ℕ) (kw : Dict)
  | jacobian (id : ℕ) (keys : List String) (format : String)
  | getParam (id : ℕ) (p : PName)
  | pickle (id : ℕ)
  | setV (id : ℕ) (V : Scatter)
  | setSRF (id : ℕ) (SRF : Scatter)
  | overwriteArg (id : ℕ) (n : AngN) (a : Arr)
  | clearCaches (id : ℕ)
  | surfaceVolume (id : ℕ)
  | checkParams (id : ℕ) (names : List String)

/-- Execute a call; returned values are dropped (the state is what matters for histories). -/
def step : Op → M Unit
  | .new V SRF q s d f fe i => do let _ ← newObj V SRF q s d f fe i; pure ()
  | .setMonostatic id p => setMonostatic id p
  | .setBistatic id a b c d => setBistatic id a b c d
  | .setGeometry id kw => setGeometry id kw
  | .updateParams id kw => updateParams id kw
  | .setParamDef id p d => setParamDef id p d
  | .setIntQ id b => modObj id fun o => { o with intQ := b }
  | .setSig0 id b => modObj id fun o => { o with sig0 := b }
  | .setDB id b => modObj id fun o => { o with dB := b }
  | .setI0 id a => modObj id fun o => { o with I0 := a }
  | .evalCalc id kw => do let _ ← calcOp id kw; pure ()
  | .surface id kw => do let _ ← surface id kw; pure ()
  | .volume id kw => do let _ ← volume id kw; pure ()
  | .interaction id kw => do let _ ← interaction id kw; pure ()
  | .jacobian id ks f => do let _ ← jacobian id ks f; pure ()
  | .getParam id p => do let _ ← Self.evalParam id p; pure ()
  | .pickle id => do let _ ← pickle id; pure ()
  | .setV id V => setV id V
  | .setSRF id S => setSRF id S
  | .overwriteArg id n a => overwriteArg id n a
  | .clearCaches _ => clearAll
  | .surfaceVolume id => do let _ ← surfaceVolume id; pure ()
  | .checkParams id names => do let _ ← checkParams id names; pure ()

/-- State after a history; every call may raise, the program goes on. -/
def run (w : World) (ops : List Op) : World := ops.foldl (fun w op => (step op w).2) w

/-- The state after importing the package. -/
def initWorld (b : Backend) : World :=
  { objs := fun _ => none, next := 0, caches := ⟨[], [], [], [], [], [], [], []⟩, backend := b }

/-- Calls other than re-assigning `R.V`, `R.SRF` and overwriting an angle array in place. -/
def Op.Plain : Op → Prop
  | .setV _ _ => False
  | .setSRF _ _ => False
  | .overwriteArg _ _ _ => False
  | _ => True

/-- A state that some history leads to. -/
def ReachableAny (w : World) : Prop := ∃ b ops, w = run (initWorld b) ops

/-- A state that some history of plain calls leads to. -/
def Reachable (w : World) : Prop :=
  ∃ b ops, (∀ op ∈ ops, Op.Plain op) ∧ w = run (initWorld b) ops

end

end RT1
