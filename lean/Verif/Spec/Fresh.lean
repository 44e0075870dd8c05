import Verif.Model.State

/-!
# Evaluation without memo tables

What the attributes and properties of an RT1 object denote if nothing is memoised: plain
functions of the current attributes of the object.  This is the reference the memoised
evaluation is compared with.
-/

namespace RT1.Fresh

noncomputable section
open Classical

/-- An angle attribute that has to be set by the user. -/
def ang (o : Obj) (n : AngN) : Py Arr :=
  match o.ang n with
  | some a => .ok a
  | none => .error .attributeError

/-- The exit zenith angle: in monostatic mode the incidence angle. -/
def tex (o : Obj) : Py Arr := if o.mono = true then ang o .t0 else ang o .tex

/-- The exit azimuth angle: in monostatic mode the opposite of the incidence azimuth. -/
def pex (o : Obj) : Py Arr :=
  if o.mono = true then do
    let a ← ang o .p0
    Arr.add a (Arr.lit Real.pi)
  else ang o .pex

/-- Cosine of the incidence angle. -/
def mu0 (o : Obj) : Py Arr := do
  let a ← ang o .t0
  .ok (Arr.cos a)

/-- Cosine of the exit angle. -/
def muEx (o : Obj) : Py Arr := do
  let a ← tex o
  .ok (Arr.cos a)

/-- Number of fn-coefficients. -/
def nmax (o : Obj) : Py ℕ := do
  let nV ← o.V.ncoefs
  let nS ← o.SRF.ncoefs
  .ok (nV + nS - 1)

/-- Powers of the cosine of the incidence angle. -/
def mu0x (o : Obj) : Py Arr := do
  let n ← nmax o
  let mu ← mu0 o
  Acc.muPowers n mu

/-- Powers of the cosine of the exit angle. -/
def muExx (o : Obj) : Py Arr := do
  let n ← nmax o
  let mu ← muEx o
  Acc.muPowers n mu

/-- The symbols in the definition of a parameter. -/
def symbs (o : Obj) (p : PName) : List String :=
  match o.pdef p with
  | .str e => e.free.dedup
  | _ => []

/-- The compiled definition of a parameter. -/
def pfun (b : Backend) (o : Obj) (p : PName) : Py (Option Lam) :=
  match o.pdef p with
  | .val _ => .ok none
  | .str e => do
    let f ← Lam.compile b (symbs o p) e
    .ok (some f)
  | .basic e => do
    let f ← Lam.compile b (symbs o p) e
    .ok (some f)

/-- The value of tau, omega, NormBRDF, bsf. -/
def par (b : Backend) (o : Obj) (p : PName) : Py Arr := do
  let f ← pfun b o p
  match f with
  | some f =>
    tryCatch (do
        let kw ← Self.pick o.params (symbs o p)
        f.call b [] kw)
      fun e =>
        let missing := (symbs o p).filter fun k => decide (k ∉ o.params.keys)
        if missing ≠ [] then throw (.typeError missing) else throw e
  | none =>
    match o.pdef p with
    | .val a => .ok a
    | _ => .error (.typeError [])

/-- The fn-coefficients in use. -/
def fn (o : Obj) : Py (Option (List P)) :=
  match o.fn_ with
  | some f => .ok (some f)
  | none =>
    match o.fnInput with
    | some f => .ok (some f)
    | none =>
      if o.intQ = true then do
        let f ← fnCoefs o.V o.SRF o.geom
        .ok (some f)
      else .ok none

/-- Compile the fn-coefficients for the names of the current parameters. -/
def fnCompile (b : Backend) (o : Obj) (f : List P) : Py FnLam :=
  let lam : FnLam := ⟨Self.fnVars o.params, o.V.phase.free ++ o.SRF.phase.free, f⟩
  if b = .symengine ∧ ∃ s ∈ lam.free, s ∉ lam.vars then .error .runtimeError else .ok lam

/-- The compiled fn-coefficients in use. -/
def fnevals (b : Backend) (o : Obj) : Py (Option FnLam) :=
  match o.fnevals_ with
  | some f => .ok (some f)
  | none =>
    match o.fnevalsInput with
    | some f => .ok (some f)
    | none =>
      if o.intQ = true then do
        let f ← fn o
        match f with
        | none => .error (.typeError [])
        | some f => do
          let lam ← fnCompile b o f
          .ok (some lam)
      else .ok none

/-- The derivative of the volume phase function, compiled for the current names. -/
def dVol (b : Backend) (o : Obj) (key : String) : Py Lam :=
  Lam.compile b (["theta_0", "theta_ex", "phi_0", "phi_ex"] ++ o.params.keys) (o.V.phase.diff key)

/-- The derivative of the surface phase function, compiled for the current names. -/
def dSrf (b : Backend) (o : Obj) (key : String) : Py Lam :=
  Lam.compile b (["theta_0", "theta_ex", "phi_0", "phi_ex"] ++ o.params.keys) (o.SRF.phase.diff key)

/-- Accessors without memo tables; `dv`, `ds` provide the derivatives of the phase functions. -/
def acc (b : Backend) (o : Obj) (dv ds : String → Py Lam) : Acc Py where
  backend := fun _ => pure b
  V := .ok o.V
  SRF := .ok o.SRF
  intQ := .ok o.intQ
  sig0 := .ok o.sig0
  dB := .ok o.dB
  I0 := .ok o.I0
  t0 := ang o .t0
  tex := tex o
  p0 := ang o .p0
  pex := pex o
  mu0 := mu0 o
  muEx := muEx o
  mu0x := mu0x o
  muExx := muExx o
  par := par b o
  symbs := fun p => .ok (symbs o p)
  pdef := fun p => .ok (o.pdef p)
  params := .ok o.params
  fnevals := fnevals b o
  dVolLam := dv
  dSrfLam := ds

/-- The accessors used for evaluations (they do not read derivatives). -/
def acc0 (b : Backend) (o : Obj) : Acc Py := acc b o (dVol b o) (dSrf b o)

/-- `surface()` of an object. -/
def surface (b : Backend) (o : Obj) : Py Arr := do
  let x ← (acc0 b o).surface
  (acc0 b o).convert x

/-- `volume()` of an object. -/
def volume (b : Backend) (o : Obj) : Py Arr := do
  let x ← (acc0 b o).volume
  (acc0 b o).convert x

/-- `interaction()` of an object. -/
def interaction (b : Backend) (o : Obj) : Py Arr := do
  let x ← (acc0 b o).interaction
  (acc0 b o).convert x

/-- `calc()` of an object. -/
def calcAll (b : Backend) (o : Obj) : Py Arr := (acc0 b o).calcTry

/-- The object after `update_params(**kw)`. -/
def update (o : Obj) (kw : Dict) : Obj :=
  let kw' :=
    match o.pdef .bsf with
    | .str (.sym "bsf") =>
      if "bsf" ∈ o.params.keys ∨ "bsf" ∈ kw.keys then kw else kw ++ [("bsf", Arr.lit 0)]
    | _ => kw
  { o with params := Dict.update o.params (kw'.map fun p => (p.1, p.2.atleast1d)) }

end

end RT1.Fresh
