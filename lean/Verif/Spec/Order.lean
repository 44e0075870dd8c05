import Verif.Spec.Remembered

/-!
# The order of settings (C84)
-/

namespace RT1

/-- The same call with its keywords in another order (python rejects repeated keywords). -/
inductive Op.Alike : Op → Op → Prop where
  | refl (op : Op) : Alike op op
  | updateParams (id : ℕ) {kw kw' : Dict} (h : kw.Perm kw') (hn : (kw.map Prod.fst).Nodup) :
    Alike (.updateParams id kw) (.updateParams id kw')
  | evalCalc (id : ℕ) {kw kw' : Dict} (h : kw.Perm kw') (hn : (kw.map Prod.fst).Nodup) :
    Alike (.evalCalc id kw) (.evalCalc id kw')
  | surface (id : ℕ) {kw kw' : Dict} (h : kw.Perm kw') (hn : (kw.map Prod.fst).Nodup) :
    Alike (.surface id kw) (.surface id kw')
  | volume (id : ℕ) {kw kw' : Dict} (h : kw.Perm kw') (hn : (kw.map Prod.fst).Nodup) :
    Alike (.volume id kw) (.volume id kw')
  | interaction (id : ℕ) {kw kw' : Dict} (h : kw.Perm kw') (hn : (kw.map Prod.fst).Nodup) :
    Alike (.interaction id kw) (.interaction id kw')

/-- No compiled coefficients are handed to the constructor. -/
def Op.NotSupplied : Op → Prop
  | .new _ _ _ _ _ _ fe _ => fe = none
  | _ => True

/-- The groups of settings. -/
inductive Part where
  | geometry
  | params
  | definition (p : PName)
  | intQ
  | sig0
  | dB
  | I0
deriving DecidableEq

/-- The object and the group of settings that a setter changes. -/
def Op.part : Op → Option (ℕ × Part)
  | .setMonostatic id _ => some (id, .geometry)
  | .setBistatic id _ _ _ _ => some (id, .geometry)
  | .setGeometry id _ => some (id, .geometry)
  | .updateParams id _ => some (id, .params)
  | .setParamDef id p _ => some (id, .definition p)
  | .setIntQ id _ => some (id, .intQ)
  | .setSig0 id _ => some (id, .sig0)
  | .setDB id _ => some (id, .dB)
  | .setI0 id _ => some (id, .I0)
  | _ => none

end RT1
