import Verif.Lemmas.Ops

/-! Histories of one object: every call acts on the attributes of its own object by a plain
function (`Obj.after`), apart from the memoised coefficients. -/

namespace RT1

noncomputable section
open Classical

/-- Attributes after the common start of the mode calls. -/
def Obj.reset (o : Obj) (m : Bool) : Obj :=
  { o with mono := m, fixed := [], fn_ := none, fnevals_ := none }

/-- Attributes after fixing an angle. -/
def Obj.fix (o : Obj) (n : AngN) (r : ℝ) : Obj :=
  { o with ang := Function.update o.ang n (some (arr1 r)), fixed := n :: o.fixed }

/-- Attributes after `set_monostatic`. -/
def Obj.afterMono (o : Obj) : Option PyArg → Obj
  | none => { o.reset true with geom := ⟨.sym "theta_0", .sym "theta_0", .sym "phi_0", .sym "phi_0"⟩ }
  | some .other => o.reset true
  | some (.number r) =>
    { (o.reset true).fix .p0 r with geom := ⟨.sym "theta_0", .sym "theta_0", .num r, .num r⟩ }

/-- Fix the given angles one after the other, stop at an invalid value. -/
def Obj.fixLoop : List (AngN × Option PyArg) → Obj → Obj
  | [], o => o
  | (_, none) :: l, o => fixLoop l o
  | (_, some .other) :: _, o => o
  | (n, some (.number r)) :: l, o => fixLoop l (o.fix n r)

/-- Symbol or number of an angle. -/
def angS (s : String) : Option PyArg → AngS
  | some (.number r) => .num r
  | _ => .sym s

/-- Is the argument valid? -/
def PyArg.ok : Option PyArg → Bool
  | some .other => false
  | _ => true

/-- Attributes after `set_bistatic`. -/
def Obj.afterBi (o : Obj) (a b c d : Option PyArg) : Obj :=
  let o' := Obj.fixLoop [(.t0, a), (.tex, b), (.p0, c), (.pex, d)] (o.reset false)
  if PyArg.ok a ∧ PyArg.ok b ∧ PyArg.ok c ∧ PyArg.ok d then
    { o' with geom := ⟨angS "theta_0" a, angS "theta_ex" b, angS "phi_0" c, angS "phi_ex" d⟩ }
  else o'

/-- Assign the given angles one after the other, stop at a fixed angle or at `None`. -/
def Obj.angLoop : List (String × Option Arr) → Obj → Obj
  | [], o => o
  | (k, v) :: l, o =>
    match AngN.ofName k with
    | none => angLoop l o
    | some n =>
      if n ∈ o.fixed then o
      else
        match v with
        | none => o
        | some a => angLoop l { o with ang := Function.update o.ang n (some a.atleast1d) }

/-- Attributes after `set_geometry`. -/
def Obj.afterGeom (o : Obj) (kw : List (String × Option Arr)) : Obj :=
  if ∃ p ∈ kw, AngN.ofName p.1 = none then o
  else if (∃ p ∈ kw, p.1 = "t_ex" ∨ p.1 = "p_ex") ∧ o.mono = true then o
  else Obj.angLoop kw o

/-- Attributes of an object after a call on it (memoised coefficients aside). -/
def Obj.after (o : Obj) : Op → Obj
  | .new _ _ _ _ _ _ _ _ => o
  | .setMonostatic _ p => o.afterMono p
  | .setBistatic _ a b c d => o.afterBi a b c d
  | .setGeometry _ kw => o.afterGeom kw
  | .updateParams _ kw => Fresh.update o kw
  | .setParamDef _ p d => { o with pdef := Function.update o.pdef p d }
  | .setIntQ _ b => { o with intQ := b }
  | .setSig0 _ b => { o with sig0 := b }
  | .setDB _ b => { o with dB := b }
  | .setI0 _ a => { o with I0 := a }
  | .evalCalc _ kw => Fresh.update o kw
  | .surface _ kw => Fresh.update o kw
  | .volume _ kw => Fresh.update o kw
  | .interaction _ kw => Fresh.update o kw
  | .jacobian _ _ _ => o
  | .getParam _ _ => o
  | .pickle _ => { o with analyze := false }
  | .setV _ V => { o with V := V }
  | .setSRF _ S => { o with SRF := S }
  | .overwriteArg _ n a => { o with ang := Function.update o.ang n ((o.ang n).map fun _ => a) }
  | .clearCaches _ => o
  | .surfaceVolume _ => o
  | .checkParams _ _ => o

/-- The object `id` exists with these attributes (coefficients aside). -/
def HasCore (id : ℕ) (c : Obj) (w : World) : Prop := ∃ o, w.objs id = some o ∧ o.core = c.core

theorem HasCore.caches {id : ℕ} {c : Obj} {w : World} {t : Caches} (h : HasCore id c w) :
    HasCore id c { w with caches := t } := h

theorem HasCore.stable (id : ℕ) (c : Obj) : MemoStable (HasCore id c) id := by
  refine MemoStable.of_objs ⟨fun f => ?_, fun f => ?_⟩ fun w t h => h
  all_goals
    rintro w ⟨o, ho, hc⟩
    refine ⟨_, by show Function.update w.objs id _ id = _; rw [Function.update_self, ho]; rfl, ?_⟩
    rw [← hc]; rfl

theorem modObj_get {w : World} {id : ℕ} {o : Obj} (ho : w.objs id = some o) (f : Obj → Obj) :
    ((modObj id f) w).2.objs id = some (f o) := by
  show Function.update w.objs id _ id = _
  rw [Function.update_self, ho]; rfl

theorem setAngles_obj {id : ℕ} (l : List (String × Option Arr)) : ∀ {w : World} {o : Obj},
    w.objs id = some o → (setAngles id l w).2.objs id = some (Obj.angLoop l o) := by
  induction l with
  | nil => intro w o ho; exact ho
  | cons p l ih =>
    intro w o ho
    obtain ⟨k, v⟩ := p
    unfold RT1.setAngles Obj.angLoop
    cases AngN.ofName k with
    | none => exact ih ho
    | some n =>
      simp only
      rw [bind_ok (getObj_some ho)]
      by_cases hn : n ∈ o.fixed
      · simp only [hn, if_true]
        exact ho
      · simp only [hn, if_false]
        cases v with
        | none => exact ho
        | some a =>
          exact ih (modObj_get ho _)

theorem resetGeom_obj {w : World} {id : ℕ} {o : Obj} (ho : w.objs id = some o) (m : Bool) :
    (resetGeom id m w).1 = .ok () ∧ (resetGeom id m w).2.objs id = some (o.reset m) := by
  refine ⟨rfl, ?_⟩
  show Function.update (Function.update w.objs id _) id (Option.map _ (Function.update w.objs id _ id)) id = _
  simp [ho, Obj.reset]

theorem setMonostatic_obj {w : World} {id : ℕ} {o : Obj} (ho : w.objs id = some o)
    (p : Option PyArg) : (setMonostatic id p w).2.objs id = some (o.afterMono p) := by
  obtain ⟨h1, h2⟩ := resetGeom_obj ho true
  have hx : resetGeom id true w = (.ok (), (resetGeom id true w).2) := by rw [← h1]
  unfold setMonostatic
  rw [bind_ok hx]
  cases p with
  | none => exact modObj_get h2 _
  | some a =>
    cases a with
    | other => exact h2
    | number r => exact modObj_get (modObj_get h2 _) _

theorem bistaticAngle_obj {w : World} {id : ℕ} {o : Obj} (ho : w.objs id = some o) (n : AngN)
    (s : String) (p : Option PyArg) :
    ∃ w', bistaticAngle id n s p w =
      (if PyArg.ok p = true then .ok (angS s p) else .error .assertionError, w') ∧
      w'.objs id = some (Obj.fixLoop [(n, p)] o) := by
  cases p with
  | none => exact ⟨w, rfl, ho⟩
  | some a =>
    cases a with
    | other => exact ⟨w, rfl, ho⟩
    | number r => exact ⟨_, rfl, modObj_get ho _⟩

theorem fixLoop_cons_ok {n : AngN} {p : Option PyArg} (h : PyArg.ok p = true)
    (l : List (AngN × Option PyArg)) (o : Obj) :
    Obj.fixLoop ((n, p) :: l) o = Obj.fixLoop l (Obj.fixLoop [(n, p)] o) := by
  cases p with
  | none => rfl
  | some a =>
    cases a with
    | other => cases h
    | number r => rfl

theorem fixLoop_cons_bad {n : AngN} {p : Option PyArg} (h : ¬ PyArg.ok p = true)
    (l : List (AngN × Option PyArg)) (o : Obj) :
    Obj.fixLoop ((n, p) :: l) o = Obj.fixLoop [(n, p)] o := by
  cases p with
  | none => exact absurd rfl h
  | some a =>
    cases a with
    | other => rfl
    | number r => exact absurd rfl h

theorem setBistatic_obj {w : World} {id : ℕ} {o : Obj} (ho : w.objs id = some o)
    (a b c d : Option PyArg) : (setBistatic id a b c d w).2.objs id = some (o.afterBi a b c d) := by
  obtain ⟨h1, h2⟩ := resetGeom_obj ho false
  have hx : resetGeom id false w = (.ok (), (resetGeom id false w).2) := by rw [← h1]
  unfold setBistatic Obj.afterBi
  rw [bind_ok hx]
  obtain ⟨w1, e1, o1⟩ := bistaticAngle_obj h2 .t0 "theta_0" a
  by_cases ha : PyArg.ok a = true
  · rw [if_pos ha] at e1
    rw [bind_ok e1, fixLoop_cons_ok ha]
    obtain ⟨w2, e2, o2⟩ := bistaticAngle_obj o1 .tex "theta_ex" b
    by_cases hb : PyArg.ok b = true
    · rw [if_pos hb] at e2
      rw [bind_ok e2, fixLoop_cons_ok hb]
      obtain ⟨w3, e3, o3⟩ := bistaticAngle_obj o2 .p0 "phi_0" c
      by_cases hc : PyArg.ok c = true
      · rw [if_pos hc] at e3
        rw [bind_ok e3, fixLoop_cons_ok hc]
        obtain ⟨w4, e4, o4⟩ := bistaticAngle_obj o3 .pex "phi_ex" d
        by_cases hd : PyArg.ok d = true
        · rw [if_pos hd] at e4
          rw [bind_ok e4, if_pos ⟨ha, hb, hc, hd⟩]
          exact modObj_get o4 _
        · rw [if_neg hd] at e4
          rw [bind_error e4, if_neg (fun h => hd h.2.2.2)]
          exact o4
      · rw [if_neg hc] at e3
        rw [bind_error e3, if_neg (fun h => hc h.2.2.1), fixLoop_cons_bad hc]
        exact o3
    · rw [if_neg hb] at e2
      rw [bind_error e2, if_neg (fun h => hb h.2.1), fixLoop_cons_bad hb]
      exact o2
  · rw [if_neg ha] at e1
    rw [bind_error e1, if_neg (fun h => ha h.1), fixLoop_cons_bad ha]
    exact o1

theorem setGeometry_obj {w : World} {id : ℕ} {o : Obj} (ho : w.objs id = some o)
    (kw : List (String × Option Arr)) : (setGeometry id kw w).2.objs id = some (o.afterGeom kw) := by
  unfold setGeometry Obj.afterGeom
  by_cases h : ∃ p ∈ kw, AngN.ofName p.1 = none
  · rw [if_pos h, if_pos h]; exact ho
  · rw [if_neg h, if_neg h, bind_ok (getObj_some ho)]
    by_cases h2 : (∃ p ∈ kw, p.1 = "t_ex" ∨ p.1 = "p_ex") ∧ o.mono = true
    · rw [if_pos h2, if_pos h2]; exact ho
    · rw [if_neg h2, if_neg h2, bind_ok (show clearGeom w = (.ok (), _) from rfl)]
      exact setAngles_obj kw ho

theorem evalOp_core {w : World} {id : ℕ} {o : Obj} (ho : w.objs id = some o) {α : Type} (kw : Dict)
    {f : Unit → M α} (hf : ∀ P, MemoStable P id → Safe P (f ())) :
    HasCore id (Fresh.update o kw) ((updateParams id kw >>= f) w).2 := by
  rw [bind_ok (updateParams_eq ho kw)]
  exact hf _ (HasCore.stable id _) _ ⟨_, by simp, rfl⟩

theorem bind_pure_state {α : Type} (x : M α) (w : World) :
    ((x >>= fun _ => pure ()) w).2 = (x w).2 := by
  cases hx : x w with
  | mk r w' =>
    cases r with
    | error e => rw [bind_error hx]
    | ok a => rw [bind_ok hx]; rfl

/-- A call on the object acts by `Obj.after`. -/
theorem step_core {w : World} {id : ℕ} {o : Obj} {op : Op} (hn : NextOK w)
    (ho : w.objs id = some o) (ht : op.target = some id) :
    HasCore id (o.after op) (step op w).2 := by
  cases op <;> simp only [Op.target, Option.some.injEq, reduceCtorEq] at ht <;> subst ht
  case setMonostatic p => exact ⟨_, setMonostatic_obj ho p, rfl⟩
  case setBistatic a b c d => exact ⟨_, setBistatic_obj ho a b c d, rfl⟩
  case setGeometry l => exact ⟨_, setGeometry_obj ho l, rfl⟩
  case updateParams kw =>
    refine ⟨Fresh.update o kw, ?_, rfl⟩
    show (updateParams _ kw w).2.objs _ = _
    rw [updateParams_eq ho]; simp
  case setParamDef p d => exact ⟨_, modObj_get (w := (clearParam w).2) ho _, rfl⟩
  case setIntQ b => exact ⟨_, modObj_get ho _, rfl⟩
  case setSig0 b => exact ⟨_, modObj_get ho _, rfl⟩
  case setDB b => exact ⟨_, modObj_get ho _, rfl⟩
  case setI0 b => exact ⟨_, modObj_get ho _, rfl⟩
  case evalCalc kw =>
    show HasCore _ _ ((calcOp _ kw >>= fun _ => pure ()) w).2
    rw [bind_pure_state]
    exact evalOp_core ho kw fun P hP => Safe.bind Safe.getW fun _ => (hP.acc _).calcTry
  case surface kw =>
    show HasCore _ _ ((RT1.surface _ kw >>= fun _ => pure ()) w).2
    rw [bind_pure_state]
    exact evalOp_core ho kw fun P hP => Safe.bind Safe.getW fun _ =>
      Safe.bind (hP.acc _).surface fun _ => (hP.acc _).convert _
  case volume kw =>
    show HasCore _ _ ((RT1.volume _ kw >>= fun _ => pure ()) w).2
    rw [bind_pure_state]
    exact evalOp_core ho kw fun P hP => Safe.bind Safe.getW fun _ =>
      Safe.bind (hP.acc _).volume fun _ => (hP.acc _).convert _
  case interaction kw =>
    show HasCore _ _ ((RT1.interaction _ kw >>= fun _ => pure ()) w).2
    rw [bind_pure_state]
    exact evalOp_core ho kw fun P hP => Safe.bind Safe.getW fun _ =>
      Safe.bind (hP.acc _).interaction fun _ => (hP.acc _).convert _
  case jacobian ks f =>
    show HasCore _ _ ((RT1.jacobian _ ks f >>= fun _ => pure ()) w).2
    rw [bind_pure_state]
    exact Safe.jacobianOp (HasCore.stable _ o) w ⟨o, ho, rfl⟩
  case getParam p =>
    show HasCore _ _ ((Self.evalParam _ p >>= fun _ => pure ()) w).2
    rw [bind_pure_state]
    exact Safe.evalParam (HasCore.stable _ o) p w ⟨o, ho, rfl⟩
  case pickle =>
    rename_i i
    show HasCore _ _ ((pickle _ >>= fun _ => pure ()) w).2
    rw [bind_pure_state, pickle_eq, ho]
    refine ⟨{ o with analyze := false }, ?_, rfl⟩
    show Function.update (Function.update w.objs i _) w.next _ i = _
    have hne : i ≠ w.next := by
      rintro rfl
      rw [hn _ le_rfl] at ho; cases ho
    rw [Function.update_of_ne hne, Function.update_self, ho]; rfl
  case setV V => exact ⟨_, modObj_get ho _, rfl⟩
  case setSRF V => exact ⟨_, modObj_get ho _, rfl⟩
  case overwriteArg n a => exact ⟨_, modObj_get ho _, rfl⟩
  case clearCaches => exact ⟨o, ho, rfl⟩
  case surfaceVolume =>
    show HasCore _ _ ((RT1.surfaceVolume _ >>= fun _ => pure ()) w).2
    rw [bind_pure_state]
    exact Safe.surfaceVolumeOp (HasCore.stable _ o) w ⟨o, ho, rfl⟩
  case checkParams names =>
    show HasCore _ _ ((RT1.checkParams _ names >>= fun _ => pure ()) w).2
    rw [bind_pure_state]
    exact Safe.checkParamsOp (HasCore.stable _ o) w ⟨o, ho, rfl⟩

theorem modObj_next {w : World} (hn : NextOK w) (id : ℕ) (f : Obj → Obj) :
    NextOK ((modObj id f) w).2 := by
  intro j hj
  show Function.update w.objs id _ j = none
  have h0 := hn j hj
  by_cases hji : j = id
  · subst hji; simp [h0]
  · simp [Function.update_of_ne hji, h0]

theorem addObj_next {w : World} (hn : NextOK w) (o : Obj) : NextOK (w.addObj o) := by
  intro j hj
  have hj' : w.next + 1 ≤ j := hj
  show Function.update w.objs w.next _ j = none
  rw [Function.update_of_ne (by omega)]
  exact hn j (by omega)

/-- A call does not touch other objects and keeps the numbering. -/
theorem step_other {w : World} (hn : NextOK w) (op : Op) :
    NextOK (step op w).2 ∧ w.next ≤ (step op w).2.next ∧
      ∀ j, op.target ≠ some j → j < w.next → (step op w).2.objs j = w.objs j := by
  by_cases hc : op.creates
  · cases op <;> try exact hc.elim
    case new V SRF q s d f fe i =>
      have e : (step (.new V SRF q s d f fe i) w).2 =
        (setMonostatic w.next none (w.addObj (initObj V SRF q s d f fe i))).2 := rfl
      have hfr := FrameP.setMonostatic (id := w.next) none _
        (FrameP.refl (w.addObj (initObj V SRF q s d f fe i)) w.next)
      rw [e]
      have hadd := addObj_next hn (initObj V SRF q s d f fe i)
      refine ⟨?_, ?_, ?_⟩
      · intro j hj
        rw [hfr.next] at hj
        have hj' : w.next + 1 ≤ j := hj
        rw [hfr.objs j (by omega)]
        exact hadd j hj
      · rw [hfr.next]; exact Nat.le_succ _
      · intro j _ hj
        rw [hfr.objs j (by omega)]
        show Function.update w.objs w.next _ j = _
        rw [Function.update_of_ne (by omega)]
    case pickle i =>
      have e : (step (.pickle i) w).2 = (pickle i w).2 := bind_pure_state _ _
      rw [e, pickle_eq]
      have hm := modObj_next hn i fun o => { o with analyze := false }
      cases ho : w.objs i with
      | none =>
        refine ⟨hm, le_rfl, fun j hj _ => ?_⟩
        show Function.update w.objs i _ j = _
        rw [Function.update_of_ne]
        rintro rfl; exact hj rfl
      | some o =>
        refine ⟨addObj_next hm _, Nat.le_succ _, fun j hj hlt => ?_⟩
        show Function.update (Function.update w.objs i _) w.next _ j = _
        rw [Function.update_of_ne (by omega), Function.update_of_ne]
        rintro rfl; exact hj rfl
  · obtain ⟨id, hid⟩ : ∃ id, op.target = some id := by
      cases op <;> first | exact ⟨_, rfl⟩ | exact absurd trivial hc
    have hfr := frame_step hid hc w w (FrameP.refl w id)
    refine ⟨?_, hfr.next.ge, fun j hj _ => hfr.objs j fun h => hj (by rw [hid, h])⟩
    intro j hj
    rw [hfr.next] at hj
    have h0 := hn j hj
    by_cases hji : j = id
    · subst hji
      have := hfr.ex
      rw [h0] at this
      simpa using this
    · rw [hfr.objs j hji]; exact h0

theorem initWorld_next (b : Backend) : NextOK (initWorld b) := fun _ _ => rfl

theorem run_next {w : World} (hn : NextOK w) (ops : List Op) : NextOK (run w ops) :=
  run_induction (P := NextOK) (fun op _ => fun _ hw => (step_other hw op).1) hn

theorem ReachableAny.next {w : World} (h : ReachableAny w) : NextOK w := by
  obtain ⟨b, ops, rfl⟩ := h
  exact run_next (initWorld_next b) ops

theorem lt_next {w : World} (hn : NextOK w) {id : ℕ} {o : Obj} (ho : w.objs id = some o) :
    id < w.next := by
  by_contra h
  rw [hn id (not_lt.mp h)] at ho; cases ho

/-- A condition on the attributes of one object that its calls in a history preserve holds
after the history. -/
theorem run_obj {Q : Obj → Prop} {id : ℕ} (hcore : ∀ o o', o.core = o'.core → Q o → Q o')
    {ops : List Op} (hQ : ∀ op ∈ ops, op.target = some id → ∀ o, Q o → Q (o.after op))
    {w : World} (hn : NextOK w) (h : Holds w id Q) : Holds (run w ops) id Q := by
  have := run_induction (P := fun w => NextOK w ∧ Holds w id Q) (ops := ops)
    (fun op hop => by
      rintro w ⟨hn, o, ho, hq⟩
      refine ⟨(step_other hn op).1, ?_⟩
      by_cases ht : op.target = some id
      · obtain ⟨o', ho', hc⟩ := step_core hn ho ht
        exact ⟨o', ho', hcore _ _ hc.symm (hQ op hop ht o hq)⟩
      · refine ⟨o, ?_, hq⟩
        rw [(step_other hn op).2.2 id ht (lt_next hn ho), ho]) ⟨hn, h⟩
  exact this.2

theorem core_fields {o o' : Obj} (h : o.core = o'.core) :
    o.V = o'.V ∧ o.SRF = o'.SRF ∧ o.pdef = o'.pdef ∧ o.params = o'.params ∧ o.fixed = o'.fixed ∧
      o.mono = o'.mono ∧ o.ang = o'.ang ∧ o.geom = o'.geom := by
  refine ⟨?_, ?_, ?_, ?_, ?_, ?_, ?_, ?_⟩
  · have := congrArg Obj.V h; exact this
  · have := congrArg Obj.SRF h; exact this
  · have := congrArg Obj.pdef h; exact this
  · have := congrArg Obj.params h; exact this
  · have := congrArg Obj.fixed h; exact this
  · have := congrArg Obj.mono h; exact this
  · have := congrArg Obj.ang h; exact this
  · have := congrArg Obj.geom h; exact this

end

end RT1
