import Verif.Lemmas.Steps

/-! The evaluation calls equal their memo-free counterparts. -/

namespace RT1

noncomputable section
open Classical

theorem updateParams_eq {w : World} {id : ℕ} {o : Obj} (ho : w.objs id = some o) (kw : Dict) :
    updateParams id kw w =
      (.ok (), { w with objs := Function.update w.objs id (some (Fresh.update o kw)) }) := by
  unfold updateParams
  rw [bind_ok (getObj_some ho)]
  show ((.ok (), { w with objs := Function.update w.objs id ((w.objs id).map _) }) :
    Py Unit × World) = _
  rw [ho]
  rfl

/-- The state after the parameter update of an evaluation. -/
def World.updated (w : World) (id : ℕ) (o : Obj) (kw : Dict) : World :=
  { w with objs := Function.update w.objs id (some (Fresh.update o kw)) }

theorem World.updated_objs (w : World) (id : ℕ) (o : Obj) (kw : Dict) :
    (w.updated id o kw).objs id = some (Fresh.update o kw) := by simp [World.updated]

theorem Inv.updated {full : Bool} {w : World} (hw : Inv full w) {id : ℕ} {o : Obj}
    (ho : w.objs id = some o) (kw : Dict) : Inv full (w.updated id o kw) := by
  have := Inv.updateParams (id := id) kw w hw
  rw [updateParams_eq ho] at this
  exact this

/-- States during an evaluation. -/
abbrev DuringE (full : Bool) (w : World) (id : ℕ) (o : Obj) : World → Prop :=
  During full w id o fun _ _ => True

theorem evalOp_eq {full : Bool} {w : World} (hw : Inv full w) {id : ℕ} {o : Obj} {α : Type}
    (ho : w.objs id = some o) (kw : Dict) {f : Backend → M α} {y : Py α}
    (h : Refines (DuringE full (w.updated id o kw) id (Fresh.update o kw)) (f w.backend) y) :
    ((updateParams id kw >>= fun _ => getW >>= fun w => f w.backend) w).1 = y ∧
      DuringE full (w.updated id o kw) id (Fresh.update o kw)
        ((updateParams id kw >>= fun _ => getW >>= fun w => f w.backend) w).2 := by
  rw [bind_ok (updateParams_eq ho kw)]
  have := h (w.updated id o kw) (During.init (hw.updated ho kw) (w.updated_objs id o kw) trivial)
  exact this

theorem surface_eq {full : Bool} {w : World} (hw : Inv full w) {id : ℕ} {o : Obj}
    (ho : w.objs id = some o) (kw : Dict) :
    (surface id kw w).1 = Fresh.surface w.backend (Fresh.update o kw) ∧
      DuringE full (w.updated id o kw) id (Fresh.update o kw) (surface id kw w).2 := by
  refine evalOp_eq (f := fun b => do
    let x ← (Self.acc b id).surface
    (Self.acc b id).convert x) hw ho kw ?_
  have h := accRef (full := full) (w0 := w.updated id o kw) (id := id) (o := Fresh.update o kw)
    (S := fun _ _ => True) (Fresh.dVol w.backend (Fresh.update o kw))
    (Fresh.dSrf w.backend (Fresh.update o kw))
  exact Refines.bind h.surface fun _ _ => h.convert _

theorem volume_eq {full : Bool} {w : World} (hw : Inv full w) {id : ℕ} {o : Obj}
    (ho : w.objs id = some o) (kw : Dict) :
    (volume id kw w).1 = Fresh.volume w.backend (Fresh.update o kw) ∧
      DuringE full (w.updated id o kw) id (Fresh.update o kw) (volume id kw w).2 := by
  refine evalOp_eq (f := fun b => do
    let x ← (Self.acc b id).volume
    (Self.acc b id).convert x) hw ho kw ?_
  have h := accRef (full := full) (w0 := w.updated id o kw) (id := id) (o := Fresh.update o kw)
    (S := fun _ _ => True) (Fresh.dVol w.backend (Fresh.update o kw))
    (Fresh.dSrf w.backend (Fresh.update o kw))
  exact Refines.bind h.volume fun _ _ => h.convert _

theorem interaction_eq {w : World} (hw : Inv true w) {id : ℕ} {o : Obj}
    (ho : w.objs id = some o) (kw : Dict) :
    (interaction id kw w).1 = Fresh.interaction w.backend (Fresh.update o kw) ∧
      DuringE true (w.updated id o kw) id (Fresh.update o kw) (interaction id kw w).2 := by
  refine evalOp_eq (f := fun b => do
    let x ← (Self.acc b id).interaction
    (Self.acc b id).convert x) hw ho kw ?_
  have h := accRef (full := true) (w0 := w.updated id o kw) (id := id) (o := Fresh.update o kw)
    (S := fun _ _ => True) (Fresh.dVol w.backend (Fresh.update o kw))
    (Fresh.dSrf w.backend (Fresh.update o kw))
  have hi := accRefInt (full := true) (w0 := w.updated id o kw) (id := id) (o := Fresh.update o kw)
    (S := fun _ _ => True) rfl (Fresh.dVol w.backend (Fresh.update o kw))
    (Fresh.dSrf w.backend (Fresh.update o kw))
  exact Refines.bind (h.interaction hi) fun _ _ => h.convert _

theorem calcOp_eq {w : World} (hw : Inv true w) {id : ℕ} {o : Obj}
    (ho : w.objs id = some o) (kw : Dict) :
    (calcOp id kw w).1 = Fresh.calcAll w.backend (Fresh.update o kw) ∧
      DuringE true (w.updated id o kw) id (Fresh.update o kw) (calcOp id kw w).2 := by
  refine evalOp_eq (f := fun b => (Self.acc b id).calcTry) hw ho kw ?_
  have h := accRef (full := true) (w0 := w.updated id o kw) (id := id) (o := Fresh.update o kw)
    (S := fun _ _ => True) (Fresh.dVol w.backend (Fresh.update o kw))
    (Fresh.dSrf w.backend (Fresh.update o kw))
  have hi := accRefInt (full := true) (w0 := w.updated id o kw) (id := id) (o := Fresh.update o kw)
    (S := fun _ _ => True) rfl (Fresh.dVol w.backend (Fresh.update o kw))
    (Fresh.dSrf w.backend (Fresh.update o kw))
  exact h.calcTry hi

/-- An object that does not exist. -/
theorem evalOp_none {w : World} {id : ℕ} {α : Type} (ho : w.objs id = none) (kw : Dict)
    (f : Unit → M α) : (updateParams id kw >>= f) w = (.error .attributeError, w) :=
  bind_error (updateParams_none ho kw)

end

end RT1
