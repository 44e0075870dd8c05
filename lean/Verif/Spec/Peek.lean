import Verif.Spec.Site

/-!
# Settings of an object, evaluations that are inserted into a program (C81)
-/

namespace RT1

noncomputable section

/-- Two objects have the same settings: everything that can be set or read by the user. -/
structure SameSettings (o o' : Obj) : Prop where
  V : o.V = o'.V
  SRF : o.SRF = o'.SRF
  intQ : o.intQ = o'.intQ
  sig0 : o.sig0 = o'.sig0
  dB : o.dB = o'.dB
  I0 : o.I0 = o'.I0
  pdef : o.pdef = o'.pdef
  params : o.params = o'.params
  fixed : o.fixed = o'.fixed
  mono : o.mono = o'.mono
  ang : o.ang = o'.ang
  geom : o.geom = o'.geom
  fnInput : o.fnInput = o'.fnInput
  fnevalsInput : o.fnevalsInput = o'.fnevalsInput

/-- Calls that only look at objects: evaluations without arguments, the getters of tau,
omega, NormBRDF and bsf, jacobian, and clearing the memo tables. -/
def Op.Looks : Op → Prop
  | .evalCalc _ kw => kw = []
  | .surface _ kw => kw = []
  | .volume _ kw => kw = []
  | .interaction _ kw => kw = []
  | .jacobian _ _ _ => True
  | .getParam _ _ => True
  | .clearCaches _ => True
  | .surfaceVolume _ => True
  | .checkParams _ _ => True
  | _ => False

/-- The second program is the first one with calls inserted that only look at objects. -/
inductive Inserted : List Op → List Op → Prop
  | start : Inserted [] []
  | call (op : Op) {ops ops' : List Op} (h : Inserted ops ops') : Inserted (ops ++ [op]) (ops' ++ [op])
  | look (op : Op) {ops ops' : List Op} (h : Inserted ops ops') (hl : op.Looks) : Inserted ops (ops' ++ [op])

end

end RT1
