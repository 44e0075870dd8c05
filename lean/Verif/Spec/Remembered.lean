import Verif.Spec.Record

/-!
# Records with compiled coefficients (C82)

The only thing an object remembers beside its settings is a list of names: those of the parameters it knew when the
coefficients of the interaction term were compiled.
-/

namespace RT1

noncomputable section
open Classical

/-- Settings, and the names the coefficients have been compiled for. -/
structure Remembered where
  settings : Record
  names : Option (List String)

namespace Remembered

/-- The coefficients as expressions. -/
def symbolic (r : Record) : Py (List P) :=
  match r.fnInput with
  | some f => .ok f
  | none => fnCoefs r.V r.SRF r.geom

/-- The compiled coefficients in use: those supplied by the user, those compiled before, or those compiled now for
the parameters known now (only with interaction term). -/
def coefs (b : Backend) (k : Remembered) : Py (Option FnLam) :=
  match k.settings.fnevalsInput with
  | some f => .ok (some f)
  | none =>
    match k.names with
    | some ns => do
      let f ← symbolic k.settings
      .ok (some ⟨["theta_0", "phi_0", "theta_ex", "phi_ex"] ++ ns, k.settings.V.phase.free ++ k.settings.SRF.phase.free, f⟩)
    | none =>
      if k.settings.intQ = true then do
        let f ← symbolic k.settings
        let l ← Fresh.fnCompile b k.settings.fresh f
        .ok (some l)
      else .ok none

/-- What the formulas read. -/
def acc (b : Backend) (k : Remembered) : Acc Py := { Fresh.acc0 b k.settings.fresh with fnevals := k.coefs b }

/-- Value of the interaction contribution. -/
def interaction (b : Backend) (k : Remembered) : Py Arr := do
  let x ← (k.acc b).interaction
  (k.acc b).convert x

/-- Value of all contributions. -/
def total (b : Backend) (k : Remembered) : Py Arr := (k.acc b).calcTry

/-- The angles are set and can be broadcast with the values of all parameters. -/
def Ready (r : Record) : Prop :=
  ∃ t p u q l, Fresh.ang r.fresh .t0 = .ok t ∧ Fresh.ang r.fresh .p0 = .ok p ∧ Fresh.tex r.fresh = .ok u ∧
    Fresh.pex r.fresh = .ok q ∧ Arr.broadcastArrays ([t, p, u, q] ++ r.params.map Prod.snd) = .ok l

/-- `calc` gets as far as the interaction term: it is switched on, surface and volume contribution are defined, and
a tau that is a plain number is positive. -/
def Total (b : Backend) (r : Record) : Prop :=
  r.intQ = true ∧ Ready r ∧ (∃ x, (r.acc b).surface = .ok x) ∧ (∃ x, (r.acc b).volume = .ok x) ∧
    ∃ t, r.param b .tau = .ok t ∧ (t.shape = [] → (t.get []).isPos = true)

/-- Compile the coefficients, unless this has been done or they are supplied by the user. -/
def compile (b : Backend) (k : Remembered) : Remembered :=
  if k.settings.fnevalsInput = none ∧ k.names = none ∧ k.settings.intQ = true ∧ ∃ l, k.coefs b = .ok l then
    { k with names := some k.settings.params.keys }
  else k

/-- Set parameters. -/
def update (k : Remembered) (kw : Dict) : Remembered := { k with settings := k.settings.update kw }

/-- A call on a record.  Mode calls forget the compiled coefficients; evaluations of the interaction term
compile them. -/
def act (b : Backend) (k : Remembered) : Op → Py Answer × Remembered
  | .setMonostatic i p => ((k.settings.act b (.setMonostatic i p)).1, ⟨(k.settings.act b (.setMonostatic i p)).2, none⟩)
  | .setBistatic i t u p q =>
    ((k.settings.act b (.setBistatic i t u p q)).1, ⟨(k.settings.act b (.setBistatic i t u p q)).2, none⟩)
  | .interaction _ kw =>
    (((k.update kw).interaction b).map .arr,
      if Ready (k.update kw).settings then (k.update kw).compile b else k.update kw)
  | .evalCalc _ kw =>
    (((k.update kw).total b).map .arr,
      if Total b (k.update kw).settings then (k.update kw).compile b else k.update kw)
  | op => ((k.settings.act b op).1, { k with settings := (k.settings.act b op).2 })

/-- A call on a list of records. -/
def step (b : Backend) (ks : List Remembered) : Op → Py Answer × List Remembered
  | .new V SRF q s d f fe i => (.ok (.obj ks.length), ks ++ [⟨Record.default V SRF q s d f fe i, none⟩])
  | .pickle id =>
    match ks[id]? with
    | none => (.error .attributeError, ks)
    | some k =>
      let k' : Remembered := { k with settings := { k.settings with analyze := false } }
      (.ok (.obj ks.length), ks.set id k' ++ [k'])
  | op =>
    match op.on with
    | none => (.error .attributeError, ks)
    | some id =>
      match ks[id]? with
      | none => (.error .attributeError, ks)
      | some k => ((k.act b op).1, ks.set id (k.act b op).2)

/-- What all calls of a program return. -/
def trace (b : Backend) (ks : List Remembered) : List Op → List (Py Answer)
  | [] => []
  | op :: l => (step b ks op).1 :: trace b (step b ks op).2 l

end Remembered

end

end RT1
