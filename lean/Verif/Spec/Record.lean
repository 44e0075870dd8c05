import Verif.Spec.Fresh

/-!
# Objects as plain records (C82)

A second, much simpler machine for the same calls: an object is a record of its settings, a
setter changes the record, an evaluation is a function of the record.  There are no memo
tables, no stored coefficients and no state shared between objects.
-/

namespace RT1

noncomputable section
open Classical

/-- What a call returns. -/
inductive Answer where
  | done
  | obj (n : ℕ)
  | arr (a : Arr)
  | jac (j : List Arr ⊕ List (List XR))
  | names (l : List String)

/-- Execute a call on the objects of the package and keep what it returns. -/
def answer : Op → M Answer
  | .new V SRF q s d f fe i => do let n ← newObj V SRF q s d f fe i; pure (.obj n)
  | .evalCalc id kw => do let a ← calcOp id kw; pure (.arr a)
  | .surface id kw => do let a ← surface id kw; pure (.arr a)
  | .volume id kw => do let a ← volume id kw; pure (.arr a)
  | .interaction id kw => do let a ← interaction id kw; pure (.arr a)
  | .jacobian id ks f => do let j ← jacobian id ks f; pure (.jac j)
  | .getParam id p => do let a ← Self.evalParam id p; pure (.arr a)
  | .pickle id => do let n ← pickle id; pure (.obj n)
  | .surfaceVolume id => do let a ← surfaceVolume id; pure (.arr a)
  | .checkParams id names => do let l ← checkParams id names; pure (.names l)
  | op => do step op; pure .done

/-- What all calls of a program return; a call that raises does not end the program. -/
def trace (w : World) : List Op → List (Py Answer)
  | [] => []
  | op :: l => (answer op w).1 :: trace (answer op w).2 l

/-- The settings of an object. -/
structure Record where
  V : Scatter
  SRF : Scatter
  intQ : Bool
  sig0 : Bool
  dB : Bool
  I0 : Arr
  pdef : PName → PDef
  params : Dict
  fixed : List AngN
  mono : Bool
  ang : AngN → Option Arr
  geom : Geom4
  fnInput : Option (List P)
  fnevalsInput : Option FnLam
  analyze : Bool

namespace Record

/-- An object with these settings that has never been evaluated. -/
def fresh (r : Record) : Obj where
  V := r.V
  SRF := r.SRF
  intQ := r.intQ
  sig0 := r.sig0
  dB := r.dB
  I0 := r.I0
  pdef := r.pdef
  params := r.params
  fixed := r.fixed
  mono := r.mono
  ang := r.ang
  geom := r.geom
  fn_ := none
  fnevals_ := none
  fnInput := r.fnInput
  fnevalsInput := r.fnevalsInput
  analyze := r.analyze

/-! ### values -/

/-- The coefficients of the interaction term: those supplied by the user, otherwise those of
the two scattering functions. -/
def coefs (b : Backend) (r : Record) : Py (Option FnLam) :=
  match r.fnevalsInput with
  | some f => .ok (some f)
  | none => do
    let f ← (match r.fnInput with
      | some f => .ok f
      | none => fnCoefs r.V r.SRF r.geom)
    let l ← Fresh.fnCompile b r.fresh f
    .ok (some l)

/-- What the formulas read: the settings. -/
def acc (b : Backend) (r : Record) : Acc Py := { Fresh.acc0 b r.fresh with fnevals := r.coefs b }

/-- Value of tau, omega, NormBRDF, bsf. -/
def param (b : Backend) (r : Record) (p : PName) : Py Arr := Fresh.par b r.fresh p

/-- Value of the surface contribution. -/
def surface (b : Backend) (r : Record) : Py Arr := do
  let x ← (r.acc b).surface
  (r.acc b).convert x

/-- Value of the volume contribution. -/
def volume (b : Backend) (r : Record) : Py Arr := do
  let x ← (r.acc b).volume
  (r.acc b).convert x

/-- Value of the interaction contribution. -/
def interaction (b : Backend) (r : Record) : Py Arr := do
  let x ← (r.acc b).interaction
  (r.acc b).convert x

/-- Value of surface and volume contribution together. -/
def surfaceVolume (b : Backend) (r : Record) : Py Arr := do
  let s ← (r.acc b).surface
  let v ← (r.acc b).volume
  let x ← Arr.add s v
  (r.acc b).convert x

/-- Value of all contributions. -/
def total (b : Backend) (r : Record) : Py Arr := (r.acc b).calcTry

/-- Value of the derivatives. -/
def jacobian (b : Backend) (r : Record) (keys : List String) (format : String) :
    Py (List Arr ⊕ List (List XR)) := do
  let l ← (r.acc b).jacList keys
  if format = "list" then .ok (.inl l)
  else if format = "scipy_least_squares" then do
    let cols ← Jac.columns r.params (keys.zip l)
    .ok (.inr cols)
  else .error (.typeError [])

/-- The symbols of the model other than the angles; an error if one of them has no value. -/
def check (r : Record) (names : List String) : Py (List String) :=
  let symbs := (Fresh.symbs r.fresh .tau ++ Fresh.symbs r.fresh .omega ++ Fresh.symbs r.fresh .NormBRDF
    ++ Fresh.symbs r.fresh .bsf ++ r.V.phase.free ++ r.SRF.phase.free).filter fun k =>
      decide (k ∉ ["phi_0", "phi_ex", "theta_0", "theta_ex"])
  let missing := (symbs.filter fun k => decide (k ∉ names)).filter fun k => decide (k ∉ r.params.keys)
  if missing ≠ [] then .error (.assertMissing missing) else .ok symbs

/-! ### changes -/

/-- Set parameters; bsf is 0 if it is neither given nor known and its definition is the plain
symbol. -/
def update (r : Record) (kw : Dict) : Record :=
  let d := match r.pdef .bsf with
    | .str (.sym "bsf") =>
      if "bsf" ∈ r.params.keys ∨ "bsf" ∈ kw.keys then [] else [("bsf", Arr.lit 0)]
    | _ => []
  { r with params := Dict.update r.params ((kw ++ d).map fun p => (p.1, p.2.atleast1d)) }

/-- Fix an angle. -/
def fix (r : Record) (n : AngN) (x : ℝ) : Record :=
  { r with ang := Function.update r.ang n (some (arr1 x)), fixed := n :: r.fixed }

/-- Select monostatic mode; the mode changes even if the argument is invalid. -/
def selectMono (r : Record) : Option PyArg → Py Unit × Record
  | none => (.ok (), { r with mono := true, fixed := [], geom := ⟨.sym "theta_0", .sym "theta_0", .sym "phi_0", .sym "phi_0"⟩ })
  | some .other => (.error .assertionError, { r with mono := true, fixed := [] })
  | some (.number x) => (.ok (),
    { r with mono := true, fixed := [.p0], ang := Function.update r.ang .p0 (some (arr1 x)),
             geom := ⟨.sym "theta_0", .sym "theta_0", .num x, .num x⟩ })

/-- Fix angles one after the other, up to the first invalid value. -/
def fixAll (r : Record) : List (AngN × Option PyArg) → Py Unit × Record
  | [] => (.ok (), r)
  | (_, none) :: l => r.fixAll l
  | (_, some .other) :: _ => (.error .assertionError, r)
  | (n, some (.number x)) :: l => (r.fix n x).fixAll l

/-- An angle in the coefficients: a number if it is fixed, otherwise its symbol. -/
def inCoefs (s : String) : Option PyArg → AngS
  | some (.number x) => .num x
  | _ => .sym s

/-- Select bistatic mode. -/
def selectBi (r : Record) (a b c d : Option PyArg) : Py Unit × Record :=
  match ({ r with mono := false, fixed := [] } : Record).fixAll [(.t0, a), (.tex, b), (.p0, c), (.pex, d)] with
  | (.ok (), r) => (.ok (), { r with geom := ⟨inCoefs "theta_0" a, inCoefs "theta_ex" b, inCoefs "phi_0" c, inCoefs "phi_ex" d⟩ })
  | (.error e, r) => (.error e, r)

/-- Assign angles one after the other, up to the first one that is fixed or `None`. -/
def assign (r : Record) : List (String × Option Arr) → Py Unit × Record
  | [] => (.ok (), r)
  | (k, v) :: l =>
    match AngN.ofName k, v with
    | none, _ => r.assign l
    | some n, some a =>
      if n ∈ r.fixed then (.error .assertionError, r)
      else ({ r with ang := Function.update r.ang n (some a.atleast1d) } : Record).assign l
    | some _, none => (.error .assertionError, r)

/-- Set the angles: unknown names, and exit angles in monostatic mode, are refused. -/
def setAngles (r : Record) (kw : List (String × Option Arr)) : Py Unit × Record :=
  if ∃ p ∈ kw, p.1 ∉ ["t_0", "t_ex", "p_0", "p_ex"] then (.error (.typeError []), r)
  else if r.mono = true ∧ ∃ p ∈ kw, p.1 = "t_ex" ∨ p.1 = "p_ex" then (.error .assertionError, r)
  else r.assign kw

/-- The settings of a new object. -/
def default (V SRF : Scatter) (q s d : Bool) (fnI : Option (List P)) (fneI : Option FnLam) (I0 : Arr) : Record where
  V := V
  SRF := SRF
  intQ := q
  sig0 := s
  dB := d
  I0 := I0
  pdef
    | .tau => .str (.sym "tau")
    | .omega => .str (.sym "omega")
    | .NormBRDF => .str (.sym "NormBRDF")
    | .bsf => .str (.sym "bsf")
  params := [("bsf", Arr.lit 0)]
  fixed := []
  mono := true
  ang := fun _ => none
  geom := ⟨.sym "theta_0", .sym "theta_0", .sym "phi_0", .sym "phi_0"⟩
  fnInput := fnI
  fnevalsInput := fneI
  analyze := true

/-- A call on a record: what it returns and the record afterwards. -/
def act (b : Backend) (r : Record) : Op → Py Answer × Record
  | .setMonostatic _ p => ((r.selectMono p).1.map fun _ => .done, (r.selectMono p).2)
  | .setBistatic _ t u p q => ((r.selectBi t u p q).1.map fun _ => .done, (r.selectBi t u p q).2)
  | .setGeometry _ kw => ((r.setAngles kw).1.map fun _ => .done, (r.setAngles kw).2)
  | .updateParams _ kw => (.ok .done, r.update kw)
  | .setParamDef _ p d => (.ok .done, { r with pdef := Function.update r.pdef p d })
  | .setIntQ _ q => (.ok .done, { r with intQ := q })
  | .setSig0 _ s => (.ok .done, { r with sig0 := s })
  | .setDB _ d => (.ok .done, { r with dB := d })
  | .setI0 _ a => (.ok .done, { r with I0 := a })
  | .evalCalc _ kw => (((r.update kw).total b).map .arr, r.update kw)
  | .surface _ kw => (((r.update kw).surface b).map .arr, r.update kw)
  | .volume _ kw => (((r.update kw).volume b).map .arr, r.update kw)
  | .interaction _ kw => (((r.update kw).interaction b).map .arr, r.update kw)
  | .jacobian _ ks f => ((r.jacobian b ks f).map .jac, r)
  | .getParam _ p => ((r.param b p).map .arr, r)
  | .setV _ V => (.ok .done, { r with V := V })
  | .setSRF _ S => (.ok .done, { r with SRF := S })
  | .overwriteArg _ n a => (.ok .done, { r with ang := Function.update r.ang n ((r.ang n).map fun _ => a) })
  | .surfaceVolume _ => ((r.surfaceVolume b).map .arr, r)
  | .checkParams _ names => ((r.check names).map .names, r)
  | _ => (.ok .done, r)

end Record

/-- The object a call refers to. -/
def Op.on : Op → Option ℕ
  | .new _ _ _ _ _ _ _ _ => none
  | .setMonostatic id _ | .setBistatic id _ _ _ _ | .setGeometry id _ | .updateParams id _
  | .setParamDef id _ _ | .setIntQ id _ | .setSig0 id _ | .setDB id _ | .setI0 id _
  | .evalCalc id _ | .surface id _ | .volume id _ | .interaction id _ | .jacobian id _ _
  | .getParam id _ | .pickle id | .setV id _ | .setSRF id _ | .overwriteArg id _ _
  | .clearCaches id | .surfaceVolume id | .checkParams id _ => some id

/-- A list of records, numbered in the order of their creation. -/
abbrev Records := List Record

/-- A call on a list of records: `new` and pickle append a record, all other calls touch only
the record they refer to. -/
def Records.act (b : Backend) (rs : Records) : Op → Py Answer × Records
  | .new V SRF q s d f fe i => (.ok (.obj rs.length), rs ++ [Record.default V SRF q s d f fe i])
  | .pickle id =>
    match rs[id]? with
    | none => (.error .attributeError, rs)
    | some r =>
      let r' : Record := { r with analyze := false }
      (.ok (.obj rs.length), rs.set id r' ++ [r'])
  | op =>
    match op.on with
    | none => (.error .attributeError, rs)
    | some id =>
      match rs[id]? with
      | none => (.error .attributeError, rs)
      | some r => ((r.act b op).1, rs.set id (r.act b op).2)

/-- What all calls of a program return. -/
def Records.trace (b : Backend) (rs : Records) : List Op → List (Py Answer)
  | [] => []
  | op :: l => (Records.act b rs op).1 :: Records.trace b (Records.act b rs op).2 l

/-- The records after a program. -/
def Records.run (b : Backend) (rs : Records) (ops : List Op) : Records :=
  ops.foldl (fun rs op => (Records.act b rs op).2) rs

/-- All calls refer to objects that exist at that time (`n` objects exist at the start). -/
def Sound : ℕ → List Op → Prop
  | _, [] => True
  | n, .new _ _ _ _ _ _ _ _ :: l => Sound (n + 1) l
  | n, .pickle id :: l => id < n ∧ Sound (n + 1) l
  | n, op :: l => (∀ id, op.on = some id → id < n) ∧ Sound n l

/-- Calls whose answer is determined by the settings alone: all calls but `interaction`, `calc` of
an object with interaction term, and derivatives with respect to symbols of the user. -/
def Op.Determined (rs : Records) : Op → Prop
  | .interaction _ _ => False
  | .evalCalc id _ => ∀ r, rs[id]? = some r → r.intQ = false
  | .jacobian _ ks _ => ∀ k ∈ ks, k ∈ ["omega", "tau", "NormBRDF", "bsf"]
  | _ => True

/-- Derivatives are requested with respect to omega, tau, NormBRDF and bsf only. -/
def Op.OwnJac : Op → Prop
  | .jacobian _ ks _ => ∀ k ∈ ks, k ∈ ["omega", "tau", "NormBRDF", "bsf"]
  | _ => True

/-- The interaction term is never switched on nor asked for. -/
def Op.NoInt : Op → Prop
  | .new _ _ q _ _ _ _ _ => q = false
  | .setIntQ _ q => q = false
  | .interaction _ _ => False
  | _ => True

end

end RT1
