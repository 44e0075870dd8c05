import Verif.Lemmas.Remembered
import Verif.Props.Record

/-!
# C82: what an object remembers beside its settings
-/

namespace RT1

noncomputable section
open Classical

/-- The names the coefficients of an object have been compiled for. -/
def Obj.names (o : Obj) : Option (List String) := o.fnevals_.map fun l => l.vars.drop 4

/-- Settings and names of an object. -/
def Obj.remembered (o : Obj) : Remembered := ⟨o.record, o.names⟩

theorem coefs_eq {b c : Backend} {o : Obj} (h : ObjOK c o) : Fresh.fnevals b o = o.remembered.coefs b := by
  have hsym : ∀ f, (o.fnInput = some f ∨ o.fnInput = none ∧ fnCoefs o.V o.SRF o.geom = .ok f) →
      Remembered.symbolic o.record = .ok f := by
    rintro f (hf | ⟨hf, hc⟩)
    · unfold Remembered.symbolic
      rw [show o.record.fnInput = some f from hf]
    · unfold Remembered.symbolic
      rw [show o.record.fnInput = none from hf]
      exact hc
  unfold Remembered.coefs Fresh.fnevals
  cases hl : o.fnevals_ with
  | some l =>
    obtain ⟨hi, ks, f, -, he, hf, -⟩ := h.fnevals l hl
    rw [show o.remembered.settings.fnevalsInput = none from hi,
      show o.remembered.names = some (l.vars.drop 4) from congrArg (Option.map _) hl]
    simp only
    rw [show Remembered.symbolic o.remembered.settings = .ok f from hsym f hf, he]
    rfl
  | none =>
    cases hi : o.fnevalsInput with
    | some g => rw [show o.remembered.settings.fnevalsInput = some g from hi]
    | none =>
      rw [show o.remembered.settings.fnevalsInput = none from hi,
        show o.remembered.names = none from congrArg (Option.map _) hl]
      simp only
      rw [show o.remembered.settings.intQ = o.intQ from rfl]
      by_cases hq : o.intQ = true
      · simp only [hq, if_true]
        unfold Fresh.fn
        cases hf : o.fn_ with
        | some f =>
          obtain ⟨h1, h2⟩ := h.fn f hf
          rw [show Remembered.symbolic o.remembered.settings = .ok f from hsym f (.inr ⟨h1, h2⟩)]
          rfl
        | none =>
          cases hI : o.fnInput with
          | some f =>
            rw [show Remembered.symbolic o.remembered.settings = .ok f from hsym f (.inl hI)]
            rfl
          | none =>
            simp only [hq, if_true]
            have : Remembered.symbolic o.remembered.settings = fnCoefs o.V o.SRF o.geom := by
              unfold Remembered.symbolic
              rw [show o.remembered.settings.fnInput = none from hI]
              rfl
            rw [this]
            cases fnCoefs o.V o.SRF o.geom <;> rfl
      · simp only [hq]
        rfl

theorem acc_eq {b c : Backend} {o : Obj} (h : ObjOK c o) : Fresh.acc0 b o = o.remembered.acc b := by
  have h1 : Fresh.acc0 b o = { Fresh.acc0 b o.core with fnevals := Fresh.fnevals b o } := rfl
  rw [h1, coefs_eq h]
  rfl

theorem remembered_after {b : Backend} {o o' : Obj} (h : ObjOK b o) (hc : o'.core = o.core) (hl : o'.fnevals_ = o.lamAfter b) :
    o'.remembered = o.remembered.compile b := by
  have hr : o'.record = o.record := Obj.record_core hc
  unfold Remembered.compile
  by_cases h1 : o.fnevals_ = none ∧ o.fnevalsInput = none ∧ o.intQ = true
  · obtain ⟨ha, hb, hq⟩ := h1
    have hn : o.remembered.names = none := congrArg (Option.map _) ha
    rw [← coefs_eq h]
    unfold Obj.lamAfter at hl
    rw [if_pos ⟨ha, hb, hq⟩] at hl
    cases he : Fresh.fnevals b o with
    | error e =>
      rw [he] at hl
      rw [if_neg (by rintro ⟨-, -, -, l, hl⟩; cases hl)]
      unfold Obj.remembered Obj.names
      rw [hl, hr, ha]
    | ok l =>
      rw [he] at hl
      rw [if_pos ⟨hb, hn, hq, l, rfl⟩]
      have hv : l.map (fun l => l.vars.drop 4) = some o.params.keys := by
        unfold Fresh.fnevals at he
        rw [ha, hb] at he
        simp only [hq, if_true] at he
        obtain ⟨f, -, he⟩ := ok_bind he
        cases f with
        | none => cases he
        | some f =>
          obtain ⟨lam, h1, h2⟩ := ok_bind he
          cases h2
          unfold Fresh.fnCompile at h1
          simp only at h1
          split_ifs at h1
          cases h1
          rfl
      unfold Obj.remembered Obj.names
      rw [hl, hr, hv]
      rfl
  · rw [if_neg]
    · unfold Obj.lamAfter at hl
      rw [if_neg h1] at hl
      unfold Obj.remembered Obj.names
      rw [hl, hr]
    · rintro ⟨h2, h3, h4, -⟩
      refine h1 ⟨?_, h2, h4⟩
      cases hf : o.fnevals_ with
      | none => rfl
      | some l =>
        have h3' : o.fnevals_.map (fun l => l.vars.drop 4) = none := h3
        rw [hf] at h3'
        cases h3'

theorem remembered_same {o o' : Obj} (hc : o'.core = o.core) (hl : o'.fnevals_ = o.fnevals_) : o'.remembered = o.remembered := by
  unfold Obj.remembered Obj.names
  rw [hl, Obj.record_core hc]

theorem fixLoop_names (l : List (AngN × Option PyArg)) : ∀ o : Obj, (Obj.fixLoop l o).fnevals_ = o.fnevals_ := by
  induction l with
  | nil => exact fun o => rfl
  | cons p l ih =>
    intro o
    obtain ⟨n, p⟩ := p
    unfold Obj.fixLoop
    cases p with
    | none => exact ih o
    | some a =>
      cases a with
      | other => rfl
      | number x => exact ih _

theorem angLoop_names (l : List (String × Option Arr)) : ∀ o : Obj, (Obj.angLoop l o).fnevals_ = o.fnevals_ := by
  induction l with
  | nil => exact fun o => rfl
  | cons p l ih =>
    intro o
    obtain ⟨k, v⟩ := p
    unfold Obj.angLoop
    split
    · exact ih o
    · split_ifs
      · rfl
      · split
        · rfl
        · exact ih _

/-- An evaluation that does not need the interaction term leaves the compiled coefficients as they are. -/
theorem evalOp_names {w : World} {id : ℕ} {o : Obj} (ho : w.objs id = some o) {α : Type} (kw : Dict) {f : Backend → M α}
    (hf : ObjsKept (f w.backend)) :
    ((updateParams id kw >>= fun _ => getW >>= fun w => f w.backend) w).2.objs id = some (Fresh.update o kw) := by
  rw [bind_ok (updateParams_eq ho kw)]
  have := hf (w.updated id o kw)
  show ((f w.backend) (w.updated id o kw)).2.objs id = _
  rw [this]
  exact w.updated_objs id o kw

theorem step_remembered {w : World} (hw : Inv true w) (hn : NextOK w) {id : ℕ} {o : Obj} (ho : w.objs id = some o) {op : Op}
    (hp : op.Plain) (ht : op.target = some id) (hc : ¬ op.creates) :
    ∃ o', (step op w).2.objs id = some o' ∧ o'.remembered = (o.remembered.act w.backend op).2 := by
  -- calls that leave the coefficients alone
  have same : ∀ {o' : Obj}, (step op w).2.objs id = some o' → o'.fnevals_ = o.fnevals_ →
      (o.remembered.act w.backend op).2 = ⟨(o.record.act w.backend op).2, o.names⟩ →
      ∃ o', (step op w).2.objs id = some o' ∧ o'.remembered = (o.remembered.act w.backend op).2 := by
    intro o' ho' hl he
    obtain ⟨o'', ho'', hcore⟩ := step_core hn ho ht
    rw [ho'] at ho''
    cases ho''
    refine ⟨o', ho', ?_⟩
    rw [he, act_after _ ho hc, ← Obj.record_core hcore]
    unfold Obj.remembered Obj.names
    rw [hl]
  -- mode calls
  have mode : ∀ {o' : Obj}, (step op w).2.objs id = some o' → o'.fnevals_ = none →
      (o.remembered.act w.backend op).2 = ⟨(o.record.act w.backend op).2, none⟩ →
      ∃ o', (step op w).2.objs id = some o' ∧ o'.remembered = (o.remembered.act w.backend op).2 := by
    intro o' ho' hl he
    obtain ⟨o'', ho'', hcore⟩ := step_core hn ho ht
    rw [ho'] at ho''
    cases ho''
    refine ⟨o', ho', ?_⟩
    rw [he, act_after _ ho hc, ← Obj.record_core hcore]
    unfold Obj.remembered Obj.names
    rw [hl]
    rfl
  have st : ∀ {α : Type} (x : M α), (do let _ ← x; pure () : M Unit) w = ((x w).1.map fun _ => (), (x w).2) :=
    fun x => map_state x (fun _ => ()) w
  have kept : ∀ {α : Type} {x : M α}, ObjsKept x → ((do let _ ← x; pure () : M Unit) w).2.objs id = some o := by
    intro α x hx
    rw [st]
    show (x w).2.objs id = some o
    rw [hx]; exact ho
  have hk := accKept w.backend id
  cases op <;> simp only [Op.target, Option.some.injEq, reduceCtorEq] at ht <;> subst ht
  case setMonostatic p =>
    refine mode (setMonostatic_obj ho p) ?_ rfl
    cases p with
    | none => rfl
    | some a => cases a <;> rfl
  case setBistatic a b c d =>
    refine mode (setBistatic_obj ho a b c d) ?_ rfl
    unfold Obj.afterBi
    split_ifs
    · exact fixLoop_names _ _
    · exact fixLoop_names _ _
  case setGeometry kw =>
    refine same (setGeometry_obj ho kw) ?_ rfl
    unfold Obj.afterGeom
    split_ifs
    · rfl
    · rfl
    · exact angLoop_names _ _
  case updateParams kw =>
    have h := congrArg (fun x => x.2.objs) (updateParams_eq ho kw)
    exact same (o' := Fresh.update o kw) ((congrFun h _).trans (Function.update_self ..)) rfl rfl
  case setParamDef p d => exact same (modObj_get (by exact ho) _) rfl rfl
  case setIntQ q => exact same (modObj_get ho _) rfl rfl
  case setSig0 q => exact same (modObj_get ho _) rfl rfl
  case setDB q => exact same (modObj_get ho _) rfl rfl
  case setI0 q => exact same (modObj_get ho _) rfl rfl
  case evalCalc kw =>
    rename_i id
    have e : (step (.evalCalc id kw) w).2 = (calcOp id kw w).2 := congrArg Prod.snd (st (calcOp id kw))
    rw [e]
    have e2 : (calcOp id kw w).2 = ((Self.acc w.backend id).calcTry (w.updated id o kw)).2 := by
      unfold calcOp
      rw [bind_ok (updateParams_eq ho kw)]
      rfl
    have hO := (hw.updated ho kw).obj rfl id _ (w.updated_objs id o kw)
    obtain ⟨o', ho', hcore, hl⟩ := calc_lamAfter (hw.updated ho kw) (w.updated_objs id o kw)
    rw [e2]
    refine ⟨o', ho', ?_⟩
    have hu : o.remembered.update kw = (Fresh.update o kw).remembered := by
      unfold Remembered.update
      rw [show o.remembered.settings.update kw = (Fresh.update o kw).record from (record_update o kw).symm]
      rfl
    show o'.remembered = if Remembered.Total w.backend (o.remembered.update kw).settings then (o.remembered.update kw).compile w.backend
      else o.remembered.update kw
    rw [hu]
    split_ifs with hT
    · exact remembered_after hO hcore (hl.trans (if_pos hT))
    · exact remembered_same hcore (hl.trans (if_neg hT))
  case surface kw =>
    rename_i id
    refine same (o' := Fresh.update o kw) ?_ rfl rfl
    rw [show (step (.surface id kw) w).2 = (surface id kw w).2 from congrArg Prod.snd (st (surface id kw))]
    exact evalOp_names ho kw (f := fun b => do
      let x ← (Self.acc b id).surface
      (Self.acc b id).convert x) (.bind hk.surface fun _ => hk.convert _)
  case volume kw =>
    rename_i id
    refine same (o' := Fresh.update o kw) ?_ rfl rfl
    rw [show (step (.volume id kw) w).2 = (volume id kw w).2 from congrArg Prod.snd (st (volume id kw))]
    exact evalOp_names ho kw (f := fun b => do
      let x ← (Self.acc b id).volume
      (Self.acc b id).convert x) (.bind hk.volume fun _ => hk.convert _)
  case interaction kw =>
    rename_i id
    have e : (step (.interaction id kw) w).2 = (interaction id kw w).2 := congrArg Prod.snd (st (interaction id kw))
    rw [e]
    have e2 : (interaction id kw w).2.objs = ((Self.acc w.backend id).interaction (w.updated id o kw)).2.objs := by
      unfold interaction
      rw [bind_ok (updateParams_eq ho kw)]
      exact bind_kept (w.updated id o kw) fun x => hk.convert x
    have hO := (hw.updated ho kw).obj rfl id _ (w.updated_objs id o kw)
    obtain ⟨o', ho', hcore, hl⟩ := interaction_lamAfter (hw.updated ho kw) (w.updated_objs id o kw)
    rw [e2]
    refine ⟨o', ho', ?_⟩
    have hu : o.remembered.update kw = (Fresh.update o kw).remembered := by
      unfold Remembered.update
      rw [show o.remembered.settings.update kw = (Fresh.update o kw).record from (record_update o kw).symm]
      rfl
    show o'.remembered = if Remembered.Ready (o.remembered.update kw).settings then (o.remembered.update kw).compile w.backend
      else o.remembered.update kw
    rw [hu]
    split_ifs with hT
    · exact remembered_after hO hcore (hl.trans (if_pos hT))
    · exact remembered_same hcore (hl.trans (if_neg hT))
  case jacobian ks f =>
    rename_i id
    refine same (o' := o) (kept (x := jacobian id ks f) ?_) rfl rfl
    refine .bind (.bind .world fun w' => (accKept w'.backend id).jacList ks) fun l => ?_
    split_ifs
    · exact .pure _
    · exact .bind (.obj id) fun _ => .bind (.lift _) fun _ => .pure _
    · exact .throw _
  case getParam p =>
    rename_i id
    exact same (o' := o) (kept (.evalParam id p)) rfl rfl
  case pickle => exact absurd trivial hc
  case setV => exact hp.elim
  case setSRF => exact hp.elim
  case overwriteArg => exact hp.elim
  case clearCaches => exact same (o' := o) ho rfl rfl
  case surfaceVolume =>
    rename_i id
    refine same (o' := o) (kept (x := surfaceVolume id) ?_) rfl rfl
    exact .bind (.obj id) fun _ => .bind .world fun w' => .bind (.add (accKept w'.backend id).surface (accKept w'.backend id).volume) fun _ =>
      (accKept w'.backend id).convert _
  case checkParams names =>
    rename_i id
    exact same (o' := o) (kept (.check id names)) rfl rfl

/-! ### programs -/

/-- Settings and names of all objects. -/
structure MirrorsR (ks : List Remembered) (w : World) : Prop where
  base : Mirrors (ks.map Remembered.settings) w
  get : ∀ i, (w.objs i).map Obj.remembered = ks[i]?

theorem MirrorsR.init (b : Backend) : MirrorsR [] (initWorld b) := ⟨Mirrors.init b, fun _ => by simp [initWorld]⟩

theorem MirrorsR.find {ks : List Remembered} {w : World} (h : MirrorsR ks w) {id : ℕ} (hid : id < ks.length) :
    ∃ o, w.objs id = some o ∧ ks[id]? = some o.remembered := by
  have h1 := h.get id
  cases ho : w.objs id with
  | none => rw [ho] at h1; simp at h1; omega
  | some o => rw [ho] at h1; exact ⟨o, rfl, h1.symm⟩

theorem Remembered.step_eq {b : Backend} {ks : List Remembered} {op : Op} (hc : ¬ op.creates) {id : ℕ}
    (ht : op.target = some id) {k : Remembered} (hr : ks[id]? = some k) :
    Remembered.step b ks op = ((k.act b op).1, ks.set id (k.act b op).2) := by
  have hon : op.on = some id := by rw [Op.on_target]; exact ht
  cases op <;> first | exact absurd trivial hc | skip
  all_goals
    simp only [Op.on, Option.some.injEq] at hon
    subst hon
    simp only [Remembered.step, Op.on, hr]

/-- The settings change as those of the plain records. -/
theorem Remembered.act_settings (b : Backend) (k : Remembered) (op : Op) :
    (k.act b op).2.settings = (k.settings.act b op).2 := by
  cases op <;> try rfl
  case interaction kw =>
    have hcomp : ∀ k : Remembered, (k.compile b).settings = k.settings := by
      intro k; unfold Remembered.compile; split_ifs <;> rfl
    show (if _ then _ else _ : Remembered).settings = _
    split_ifs
    · exact hcomp _
    · rfl
  case evalCalc kw =>
    have hcomp : ∀ k : Remembered, (k.compile b).settings = k.settings := by
      intro k; unfold Remembered.compile; split_ifs <;> rfl
    show (if _ then _ else _ : Remembered).settings = _
    split_ifs
    · exact hcomp _
    · rfl

theorem Remembered.step_settings (b : Backend) (ks : List Remembered) {op : Op} (hs : ∀ id, op.on = some id → id < ks.length) :
    (Remembered.step b ks op).2.map Remembered.settings = (Records.act b (ks.map Remembered.settings) op).2 := by
  by_cases hc : op.creates
  · cases op <;> try exact hc.elim
    case new => simp [Remembered.step, Records.act]
    case pickle i =>
      have hi := hs i rfl
      have hg := List.getElem?_eq_getElem hi
      have hg' : (ks.map Remembered.settings)[i]? = some ks[i].settings := by rw [List.getElem?_map, hg]; rfl
      simp only [Remembered.step, Records.act, hg, hg']
      simp [List.map_set]
  · obtain ⟨id, ht⟩ : ∃ id, op.target = some id := by
      cases op <;> first | exact ⟨_, rfl⟩ | exact absurd trivial hc
    have hid := hs id (by rw [Op.on_target]; exact ht)
    have hg := List.getElem?_eq_getElem hid
    have hg' : (ks.map Remembered.settings)[id]? = some ks[id].settings := by rw [List.getElem?_map, hg]; rfl
    rw [Remembered.step_eq hc ht hg, Records.act_eq hc ht hg', ← Remembered.act_settings, List.map_set]

theorem MirrorsR.step {ks : List Remembered} {w : World} (h : MirrorsR ks w) (hw : Inv true w) {op : Op} (hp : op.Plain)
    (hs : ∀ id, op.on = some id → id < ks.length) : MirrorsR (Remembered.step w.backend ks op).2 (RT1.step op w).2 := by
  have hbase := h.base.step (op := op) (by simpa using hs)
  rw [← Remembered.step_settings _ _ hs] at hbase
  refine ⟨hbase, ?_⟩
  have hlen : w.next = ks.length := by simpa using h.base.len
  by_cases hc : op.creates
  · cases op <;> try exact hc.elim
    case new V SRF q s d f fe i =>
      have e : (RT1.step (.new V SRF q s d f fe i) w).2 =
        (setMonostatic w.next none (w.addObj (initObj V SRF q s d f fe i))).2 := rfl
      have hfr := FrameP.setMonostatic (id := w.next) none _
        (FrameP.refl (w.addObj (initObj V SRF q s d f fe i)) w.next)
      have hself : (w.addObj (initObj V SRF q s d f fe i)).objs w.next = some (initObj V SRF q s d f fe i) :=
        Function.update_self ..
      have hobj := setMonostatic_obj hself none
      rw [← e] at hfr hobj
      intro j
      show _ = (ks ++ [_])[j]?
      by_cases hj : j = w.next
      · subst hj
        rw [hobj, hlen, List.getElem?_append_right le_rfl]
        simp
        rfl
      · rw [hfr.objs j hj]
        show Option.map _ (Function.update w.objs w.next _ j) = _
        rw [Function.update_of_ne hj, h.get j]
        rcases Nat.lt_or_gt_of_ne hj with hlt | hgt
        · rw [List.getElem?_append_left (by rw [← hlen]; exact hlt)]
        · rw [List.getElem?_eq_none (by rw [← hlen]; omega), List.getElem?_eq_none (by simp; rw [← hlen]; omega)]
    case pickle i =>
      obtain ⟨o, ho, hr⟩ := h.find (hs i rfl)
      have e : (RT1.step (.pickle i) w).2 = (pickle i w).2 := bind_pure_state _ _
      have hlt := lt_next h.base.ok ho
      have e' : (pickle i w).2 = ((modObj i fun o => { o with analyze := false }) w).2.addObj { o with analyze := false } := by
        rw [pickle_eq, ho]
      rw [e, e']
      have ha : (Remembered.step w.backend ks (.pickle i)).2 =
          ks.set i ({ o with analyze := false } : Obj).remembered ++ [({ o with analyze := false } : Obj).remembered] := by
        simp only [Remembered.step, hr]
        rfl
      rw [ha]
      intro j
      show Option.map _ (Function.update (Function.update w.objs i _) w.next _ j) = _
      by_cases hj : j = w.next
      · subst hj
        rw [Function.update_self, hlen, List.getElem?_append_right (by simp)]
        simp
      · rw [Function.update_of_ne hj]
        by_cases hji : j = i
        · subst hji
          rw [Function.update_self, ho, List.getElem?_append_left (by simp; rw [← hlen]; exact hlt),
            List.getElem?_set_self (by rw [← hlen]; exact hlt)]
          rfl
        · rw [Function.update_of_ne hji, h.get j]
          rcases Nat.lt_or_gt_of_ne hj with hl | hg
          · rw [List.getElem?_append_left (by simp; rw [← hlen]; exact hl), List.getElem?_set_ne (Ne.symm hji)]
          · rw [List.getElem?_eq_none (by rw [← hlen]; omega), List.getElem?_eq_none (by simp; rw [← hlen]; omega)]
  · obtain ⟨id, ht⟩ : ∃ id, op.target = some id := by
      cases op <;> first | exact ⟨_, rfl⟩ | exact absurd trivial hc
    have hid := hs id (by rw [Op.on_target]; exact ht)
    obtain ⟨o, ho, hr⟩ := h.find hid
    have hfr := frame_step ht hc w w (FrameP.refl w id)
    rw [Remembered.step_eq hc ht hr]
    intro j
    by_cases hj : j = id
    · subst hj
      obtain ⟨o', ho', he⟩ := step_remembered hw h.base.ok ho hp ht hc
      rw [ho', List.getElem?_set_self hid, ← he]
      rfl
    · rw [hfr.objs j hj, h.get j, List.getElem?_set_ne (Ne.symm hj)]

/-- The answer of one call. -/
theorem MirrorsR.answer {ks : List Remembered} {w : World} (h : MirrorsR ks w) (hw : Inv true w) {op : Op}
    (hs : ∀ id, op.on = some id → id < ks.length) (hj : op.OwnJac) :
    (answer op w).1 = (Remembered.step w.backend ks op).1 := by
  have hlen : w.next = ks.length := by simpa using h.base.len
  by_cases hc : op.creates
  · cases op <;> try exact hc.elim
    case new V SRF q s d f fe i =>
      show ((newObj V SRF q s d f fe i >>= fun n => pure (Answer.obj n)) w).1 = .ok (.obj ks.length)
      rw [map_state, ← hlen]
      rfl
    case pickle i =>
      obtain ⟨o, ho, hr⟩ := h.find (hs i rfl)
      show ((pickle i >>= fun n => pure (Answer.obj n)) w).1 = _
      rw [map_state, pickle_eq, ho]
      simp only [Remembered.step, hr, ← hlen]
      rfl
  · obtain ⟨id, ht⟩ : ∃ id, op.target = some id := by
      cases op <;> first | exact ⟨_, rfl⟩ | exact absurd trivial hc
    have hid := hs id (by rw [Op.on_target]; exact ht)
    obtain ⟨o, ho, hr⟩ := h.find hid
    rw [Remembered.step_eq hc ht hr]
    by_cases hi : (∃ kw, op = .interaction id kw) ∨ ∃ kw, op = .evalCalc id kw
    · have hok : ∀ kw, ObjOK w.backend (Fresh.update o kw) := fun kw =>
        (hw.updated ho kw).obj rfl id _ (World.updated_objs _ id o kw)
      have hu : ∀ kw, o.remembered.update kw = (Fresh.update o kw).remembered := by
        intro kw
        unfold Remembered.update
        rw [show o.remembered.settings.update kw = (Fresh.update o kw).record from (record_update o kw).symm]
        rfl
      rcases hi with ⟨kw, rfl⟩ | ⟨kw, rfl⟩
      · refine map_answer (interaction id kw) Answer.arr w ((interaction_eq hw ho kw).1.trans ?_)
        rw [hu]
        unfold Fresh.interaction Remembered.interaction
        rw [acc_eq (hok kw)]
      · refine map_answer (calcOp id kw) Answer.arr w ((calcOp_eq hw ho kw).1.trans ?_)
        rw [hu]
        unfold Fresh.calcAll Remembered.total
        rw [acc_eq (hok kw)]
    · have := answer_determined hw ho ht hc (fun kw h => hi (.inl ⟨kw, h⟩)) (fun kw h => absurd (.inr ⟨kw, h⟩) hi) hj
      rw [this]
      cases op <;> first | rfl | skip
      case interaction kw => cases ht; exact absurd (.inl ⟨kw, rfl⟩) hi
      case evalCalc kw => cases ht; exact absurd (.inr ⟨kw, rfl⟩) hi

theorem SoundR.cons {b : Backend} {ks : List Remembered} {op : Op} {l : List Op} (h : Sound ks.length (op :: l)) :
    (∀ id, op.on = some id → id < ks.length) ∧ Sound (Remembered.step b ks op).2.length l := by
  have h' : Sound (ks.map Remembered.settings).length (op :: l) := by simpa using h
  obtain ⟨h1, h2⟩ := Sound.cons (b := b) h'
  have h1' : ∀ id, op.on = some id → id < ks.length := by simpa using h1
  refine ⟨h1', ?_⟩
  rw [← Remembered.step_settings _ _ h1'] at h2
  simpa using h2

/-- **C82**, with interaction term: any program that does not assign V or SRF nor overwrite the arrays it has passed
is indistinguishable from the same program on records that remember, beside the settings, one list of names: those
of the parameters known when the coefficients of the interaction term were compiled.  The list is set by the first
evaluation of the interaction term that finds all angles set and parameters of suitable shape, and forgotten by the
mode calls.  Everything all calls return is the same: arrays, exceptions, object numbers. -/
theorem C82_trace_interaction {b : Backend} {ops : List Op} (hk : ∀ x ∈ ops, x.Plain) (hj : ∀ x ∈ ops, x.OwnJac)
    (hs : Sound 0 ops) : trace (initWorld b) ops = Remembered.trace b [] ops := by
  have key : ∀ (l : List Op) (ks : List Remembered) (w : World), MirrorsR ks w → Reachable w → Sound ks.length l →
      (∀ x ∈ l, x.Plain) → (∀ x ∈ l, x.OwnJac) → trace w l = Remembered.trace w.backend ks l := by
    intro l
    induction l with
    | nil => intros; rfl
    | cons op l ih =>
      intro ks w hm hw hs hk hj
      obtain ⟨h1, h2⟩ := SoundR.cons (b := w.backend) hs
      have hk' : op.Plain := hk op (by simp)
      have hj' : op.OwnJac := hj op (by simp)
      unfold trace Remembered.trace
      rw [hm.answer hw.inv h1 hj', answer_state]
      congr 1
      have := ih _ _ (hm.step hw.inv hk' h1) (hw.step hk') h2 (fun x h => hk x (by simp [h])) (fun x h => hj x (by simp [h]))
      rw [step_backend] at this
      exact this
  exact key ops [] (initWorld b) (MirrorsR.init b) ⟨b, [], by simp, rfl⟩ hs hk hj

/-! ### when the interaction term is that of the plain records -/

/-- The coefficients of an object are those of its settings: they are supplied by the user, or compiled for the
parameters known now, or will be compiled by the next evaluation. -/
def Remembered.Current (k : Remembered) : Prop :=
  k.settings.fnevalsInput ≠ none ∨ k.names = some k.settings.params.keys ∨ k.names = none ∧ k.settings.intQ = true

theorem coefs_current {b : Backend} {o : Obj} (h : ObjOK b o) (hc : o.remembered.Current) :
    Fresh.fnevals b o = o.record.coefs b := by
  rw [coefs_eq h]
  unfold Remembered.coefs Record.coefs
  cases hi : o.fnevalsInput with
  | some f =>
    rw [show o.remembered.settings.fnevalsInput = some f from hi, show o.record.fnevalsInput = some f from hi]
  | none =>
    rw [show o.remembered.settings.fnevalsInput = none from hi, show o.record.fnevalsInput = none from hi]
    rcases hc with hc | hc | ⟨hc, hq⟩
    · exact absurd hi hc
    · have hc' : o.fnevals_.map (fun l => l.vars.drop 4) = some o.params.keys := hc
      cases hl : o.fnevals_ with
      | none => rw [hl] at hc'; cases hc'
      | some l =>
        rw [hl] at hc'
        obtain ⟨-, ks, f, -, he, hf, hbad⟩ := h.fnevals l hl
        have hks : ks = o.params.keys := by
          have := Option.some.inj hc'
          rw [he] at this
          exact this
        rw [hc]
        simp only
        have hsym : Remembered.symbolic o.remembered.settings = .ok f := by
          unfold Remembered.symbolic
          rcases hf with hf | ⟨hf, hfc⟩
          · rw [show o.remembered.settings.fnInput = some f from hf]
          · rw [show o.remembered.settings.fnInput = none from hf]; exact hfc
        have hcomp : Fresh.fnCompile b o.record.fresh f = .ok l := by
          subst hks
          have el : (⟨Self.fnVars o.record.fresh.params, o.record.fresh.V.phase.free ++ o.record.fresh.SRF.phase.free, f⟩ : FnLam) = l := by
            rw [he]; rfl
          have hbad' : ¬ (b = .symengine ∧ ∃ s ∈ (⟨Self.fnVars o.record.fresh.params,
              o.record.fresh.V.phase.free ++ o.record.fresh.SRF.phase.free, f⟩ : FnLam).free, s ∉ (⟨Self.fnVars o.record.fresh.params,
              o.record.fresh.V.phase.free ++ o.record.fresh.SRF.phase.free, f⟩ : FnLam).vars) := by rw [el]; exact hbad
          unfold Fresh.fnCompile
          exact (if_neg hbad').trans (congrArg Except.ok el)
        show (Remembered.symbolic o.remembered.settings >>= _) = (Remembered.symbolic o.remembered.settings >>= fun f =>
          Fresh.fnCompile b o.record.fresh f >>= fun l => .ok (some l))
        rw [hsym]
        show _ = (Fresh.fnCompile b o.record.fresh f >>= fun l => .ok (some l))
        rw [hcomp, he, hks]
        rfl
    · rw [hc]
      simp only [hq, if_true]
      rfl

theorem not_current {b : Backend} {o : Obj} (h : ObjOK b o) (hc : ¬ o.remembered.Current) {x : Arr}
    (hx : (Fresh.acc0 b o).interaction = .ok x) : False := by
  have hl := interaction_lam h hx
  have hi : o.fnevalsInput = none := by
    by_contra hi
    exact hc (.inl hi)
  obtain ⟨f, hf⟩ : ∃ f, Fresh.fnevals b o = .ok (some f) := by
    unfold Acc.interaction at hx
    obtain ⟨y, hy, -⟩ := ok_bind hx
    unfold Acc.fint1 Acc.fint at hy
    obtain ⟨a, -, hy⟩ := ok_bind hy
    obtain ⟨pd, -, hy⟩ := ok_bind hy
    obtain ⟨args, -, hy⟩ := ok_bind hy
    obtain ⟨f, hf, hy⟩ := ok_bind hy
    cases f with
    | some f => exact ⟨f, hf⟩
    | none => obtain ⟨_, h, -⟩ := ok_bind hy; cases h
  rw [hf] at hl
  have hl' : o.record.coefs b = .ok (some f) := hl.symm
  have hv : f.vars.drop 4 = o.params.keys := by
    unfold Record.coefs at hl'
    rw [show o.record.fnevalsInput = none from hi] at hl'
    obtain ⟨g, -, hl'⟩ := ok_bind hl'
    obtain ⟨lam, h1, h2⟩ := ok_bind hl'
    cases h2
    unfold Fresh.fnCompile at h1
    simp only at h1
    split_ifs at h1
    cases h1
    rfl
  cases hn : o.fnevals_ with
  | some l =>
    have : Fresh.fnevals b o = .ok (some l) := by unfold Fresh.fnevals; rw [hn]
    rw [hf] at this
    cases this
    exact hc (.inr (.inl (by
      show o.fnevals_.map _ = _
      rw [hn]
      exact congrArg some hv)))
  | none =>
    by_cases hq : o.intQ = true
    · exact hc (.inr (.inr ⟨by show o.fnevals_.map _ = _; rw [hn]; rfl, hq⟩))
    · unfold Fresh.fnevals at hf
      rw [hn, hi] at hf
      simp only [hq] at hf
      cases hf

/-- **C82**: after any program, `interaction` returns exactly what a plain record of the settings returns (array or
exception) if the coefficients of the object belong to the parameters known now; otherwise it raises an exception. -/
theorem C82_interaction_exact {w : World} (hw : Reachable w) {id : ℕ} {o : Obj} (ho : w.objs id = some o) (kw : Dict) :
    if (Fresh.update o kw).remembered.Current then (interaction id kw w).1 = (o.record.update kw).interaction w.backend
    else ∃ e, (interaction id kw w).1 = .error e := by
  have hok : ObjOK w.backend (Fresh.update o kw) :=
    (hw.inv.updated ho kw).obj rfl id _ (World.updated_objs _ id o kw)
  rw [(interaction_eq hw.inv ho kw).1, ← record_update]
  split_ifs with hc
  · have ha : Fresh.acc0 w.backend (Fresh.update o kw) = (Fresh.update o kw).record.acc w.backend := by
      have h1 : Fresh.acc0 w.backend (Fresh.update o kw) = { Fresh.acc0 w.backend (Fresh.update o kw).core with
        fnevals := Fresh.fnevals w.backend (Fresh.update o kw) } := rfl
      rw [h1, coefs_current hok hc]
      rfl
    unfold Fresh.interaction Record.interaction
    rw [ha]
  · cases hx : Fresh.interaction w.backend (Fresh.update o kw) with
    | error e => exact ⟨e, rfl⟩
    | ok z =>
      obtain ⟨x, hx, -⟩ := ok_bind hx
      exact (not_current hok hc hx).elim

/-- **C82**: after any program, `calc` of an object whose coefficients belong to the parameters known now returns
exactly what a plain record of the settings returns. -/
theorem C82_total_exact {w : World} (hw : Reachable w) {id : ℕ} {o : Obj} (ho : w.objs id = some o) (kw : Dict)
    (hc : (Fresh.update o kw).remembered.Current) :
    (calcOp id kw w).1 = (o.record.update kw).total w.backend := by
  have hok : ObjOK w.backend (Fresh.update o kw) :=
    (hw.inv.updated ho kw).obj rfl id _ (World.updated_objs _ id o kw)
  rw [(calcOp_eq hw.inv ho kw).1, ← record_update]
  have ha : Fresh.acc0 w.backend (Fresh.update o kw) = (Fresh.update o kw).record.acc w.backend := by
    have h1 : Fresh.acc0 w.backend (Fresh.update o kw) = { Fresh.acc0 w.backend (Fresh.update o kw).core with
      fnevals := Fresh.fnevals w.backend (Fresh.update o kw) } := rfl
    rw [h1, coefs_current hok hc]
    rfl
  unfold Fresh.calcAll Record.total
  rw [ha]

/-! ### examples -/

/-- A program with interaction term: the second evaluation names a further parameter and raises
(`C12_counterexample`), the mode call forgets the compiled coefficients, the copy keeps them. -/
def rememberOps : List Op :=
  extendOps [] ++ [.interaction 0 [], .interaction 0 [("x", Arr.lit 0)], .pickle 0, .evalCalc 1 [], .setMonostatic 0 none,
    .interaction 0 [], .setIntQ 0 false, .interaction 0 [], .jacobian 0 ["tau", "bsf"] "list"]

example (b : Backend) : trace (initWorld b) rememberOps = Remembered.trace b [] rememberOps ∧ rememberOps.length = 13 := by
  refine ⟨C82_trace_interaction ?_ ?_ ?_, rfl⟩
  · intro x hx
    simp only [rememberOps, extendOps, scalarOps, if_true, List.cons_append, List.nil_append, List.mem_cons, List.not_mem_nil, or_false] at hx
    rcases hx with rfl | rfl | rfl | rfl | rfl | rfl | rfl | rfl | rfl | rfl | rfl | rfl | rfl <;> trivial
  · intro x hx
    simp only [rememberOps, extendOps, scalarOps, if_true, List.cons_append, List.nil_append, List.mem_cons, List.not_mem_nil, or_false] at hx
    rcases hx with rfl | rfl | rfl | rfl | rfl | rfl | rfl | rfl | rfl | rfl | rfl | rfl | rfl <;> first | trivial | (simp [Op.OwnJac])
  · refine Sound.built _ _ _ _ _ _ (scalarOps_sets _ _ _ _) _ ?_
    simp [Sound, Op.on]

/-- Both cases of `C82_interaction_exact` occur: at first the coefficients are current; after an evaluation and with a
further parameter they are not. -/
example (b : Backend) : ∃ w w1 o o1 arr, Reachable w ∧ w.objs 0 = some o ∧ (Fresh.update o []).remembered.Current ∧
    interaction 0 [] w = (.ok arr, w1) ∧ Reachable w1 ∧ w1.objs 0 = some o1 ∧ (Fresh.update o1 []).remembered.Current ∧
    ¬ (Fresh.update o1 [("x", Arr.lit 0)]).remembered.Current := by
  obtain ⟨arr, w1, he, -, -⟩ := scalar_interaction_call b (V := isoV) (SRF := isoS) false false
    (x := witSite 1 1 0 Real.pi) (mono := true) (l := []) (fun _ => ⟨rfl, by simp [witSite]⟩) (witSite_reports ..)
    (fun n hn => List.mem_append_left _ (isoV_plain n hn))
    (fun n hn => List.mem_append_left _ (isoS_plain n hn)) iso_fnCoefs ⟨0, isoV_ncoefs⟩ ⟨0, isoS_ncoefs⟩
  have hwP := scalarW_reachableP b isoV isoS true false false (witSite 1 1 0 Real.pi) true (fun _ => false)
    (scalarKw (witSite 1 1 0 Real.pi) [])
  have hw0 := hwP.reachable
  have ho := scalarW_obj b isoV isoS true false false (witSite 1 1 0 Real.pi) true (fun _ => false)
    (scalarKw (witSite 1 1 0 Real.pi) [])
  have hu := scalar_update isoV isoS true false false (witSite 1 1 0 Real.pi) true (fun _ => false)
    (scalarKw (witSite 1 1 0 Real.pi) [])
  have hk := scalar_keys isoV isoS true false false (witSite 1 1 0 Real.pi) true (fun _ => false) []
  have hc := scalar_cfg isoV isoS true false false (witSite 1 1 0 Real.pi) true (fun _ => false)
    (scalarKw (witSite 1 1 0 Real.pi) [])
  generalize scalarW b isoV isoS true false false (witSite 1 1 0 Real.pi) true (fun _ => false)
    (scalarKw (witSite 1 1 0 Real.pi) []) = w0 at *
  generalize scalarObj isoV isoS true false false (witSite 1 1 0 Real.pi) true (fun _ => false)
    (scalarKw (witSite 1 1 0 Real.pi) []) = o at *
  have hq : o.intQ = true := congrArg Cfg.intQ hc
  have hfe : o.fnevalsInput = none := (hwP.geomOK ho).fneI
  obtain ⟨u, o1, hco⟩ := interaction_callOK hw0 he
  have : u = o := by have := hco.before; rw [ho] at this; cases this; rfl
  subst this
  have hcore := hco.filled.core
  rw [hu] at hcore
  have hw1 : Reachable w1 := by
    have := hw0.step (op := .interaction 0 []) trivial
    have e : (step (.interaction 0 []) w0).2 = (interaction 0 [] w0).2 := congrArg Prod.snd (map_state (interaction 0 []) (fun _ => ()) w0)
    have e' : run w0 [.interaction 0 []] = w1 := by
      show (step (.interaction 0 []) w0).2 = w1
      rw [e, he]
    first | exact e' ▸ this | (rw [e, he] at this; exact this)
  have hp1 : o1.params = u.params := by obtain ⟨-, -, -, c4, -⟩ := core_fields hcore; exact c4
  have hfe1 : o1.fnevalsInput = none := by
    have e : o1.core.fnevalsInput = u.core.fnevalsInput := congrArg Obj.fnevalsInput hcore
    exact e.trans hfe
  have hbsf : "bsf" ∈ o1.params.keys := by rw [hp1, hk]; simp
  obtain ⟨l, hl⟩ : ∃ l, o1.fnevals_ = some l := by
    have h1 := interaction_ready 0 [] w0 arr (by rw [he])
    rw [he] at h1
    rcases h1 o1 hco.after with h1 | h1 | h1
    · exact Option.isSome_iff_exists.1 h1
    · rw [hfe1] at h1; cases h1
    · have e : o1.core.intQ = u.core.intQ := congrArg Obj.intQ hcore
      have e : o1.intQ = u.intQ := e
      rw [e, hq] at h1; cases h1
  obtain ⟨-, ks, f, hks, hlv, -⟩ := (hw1.inv.obj rfl 0 o1 hco.after).fnevals l hl
  have hnames : ∀ kw, (Fresh.update o1 kw).remembered.names = some ks := by
    intro kw
    show o1.fnevals_.map _ = _
    rw [hl, hlv]; rfl
  have hx0 : "x" ∉ ks := fun h => by
    have := hks.subset h
    rw [hp1, hk] at this
    simp at this
  refine ⟨w0, w1, u, o1, arr, hw0, ho, ?_, he, hw1, hco.after, ?_, ?_⟩
  · by_contra hcur
    have := C82_interaction_exact hw0 ho []
    rw [if_neg hcur, he] at this
    obtain ⟨e, he⟩ := this
    cases he
  · have hr1 := hco.after
    refine .inr (.inl ?_)
    rw [hnames]
    -- the coefficients have been compiled for the parameters known then
    have hcur : (Fresh.update u []).remembered.Current := by
      by_contra hcur
      have := C82_interaction_exact hw0 ho []
      rw [if_neg hcur, he] at this
      obtain ⟨e, he⟩ := this
      cases he
    have hmr := step_remembered hw0.inv hw0.inv.next ho (op := .interaction 0 []) trivial rfl (fun h => h)
    obtain ⟨o', ho', he'⟩ := hmr
    have e : (step (.interaction 0 []) w0).2 = (interaction 0 [] w0).2 := congrArg Prod.snd (map_state (interaction 0 []) (fun _ => ()) w0)
    rw [e, he] at ho'
    rw [hr1] at ho'
    cases ho'
    have hset : (Fresh.update o1 []).params = o1.params := by
      rw [update_params hbsf]; rfl
    show some ks = some (Fresh.update o1 []).params.keys
    rw [hset]
    have hn1 : o1.remembered.names = some ks := by
      show o1.fnevals_.map _ = _
      rw [hl, hlv]; rfl
    rw [he'] at hn1
    have hcase : ∀ k : Remembered, (k.names = some k.settings.params.keys ∨ k.names = none) →
        (k.compile w0.backend).names = some ks → some ks = some k.settings.params.keys := by
      intro k hk' h
      unfold Remembered.compile at h
      split_ifs at h
      · exact h.symm
      · rcases hk' with h' | h'
        · rw [← h, h']
        · rw [h'] at h; cases h
    have hU : u.remembered.update [] = (Fresh.update u []).remembered := by
      unfold Remembered.update
      rw [show u.remembered.settings.update [] = (Fresh.update u []).record from (record_update u []).symm]
      rfl
    change (if Remembered.Ready (u.remembered.update []).settings then (u.remembered.update []).compile w0.backend
      else u.remembered.update []).names = some ks at hn1
    rw [hU] at hn1
    have hc2 : (Fresh.update u []).remembered.names = some (Fresh.update u []).remembered.settings.params.keys ∨
        (Fresh.update u []).remembered.names = none := by
      rcases hcur with h | h | h
      · exact absurd hfe h
      · exact .inl h
      · exact .inr h.1
    have hpu : (Fresh.update u []).remembered.settings.params = o1.params := by
      rw [hp1]; exact congrArg Obj.params hu
    split_ifs at hn1
    · rw [hcase _ hc2 hn1, hpu]
    · rcases hc2 with h' | h'
      · rw [← hn1, h', hpu]
      · rw [h'] at hn1; cases hn1
  · rintro (h | h | h)
    · exact h hfe1
    · rw [hnames] at h
      have h := Option.some.inj h
      have hx : "x" ∈ (Fresh.update o1 [("x", Arr.lit 0)]).params.keys := by
        rw [update_params hbsf, Dict.mem_keys_update]
        exact .inr (by simp [Dict.keys])
      exact hx0 (h ▸ hx)
    · rw [hnames] at h
      cases h.1

end

end RT1
