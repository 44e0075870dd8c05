import Verif.Lemmas.Record
import Verif.Props.Extend

/-!
# C82: objects behave like plain records of their settings
-/

namespace RT1

noncomputable section
open Classical

/-! ### answers of one call -/

theorem jacLoop_record (b : Backend) (o : Obj) (norm : Arr) (ks : List String) :
    (Fresh.acc0 b o).jacLoop norm ks = (o.record.acc b).jacLoop norm ks := by
  have ee : ∀ k, (Fresh.acc0 b o).jacEntry norm k = (o.record.acc b).jacEntry norm k := fun _ => rfl
  induction ks with
  | nil => rfl
  | cons k ks ih =>
    unfold Acc.jacLoop
    rw [ih, ee]

theorem jacList_record (b : Backend) (o : Obj) (ks : List String) :
    (Fresh.acc0 b o).jacList ks = (o.record.acc b).jacList ks := by
  have en : (Fresh.acc0 b o).jacNorm = (o.record.acc b).jacNorm := rfl
  unfold Acc.jacList
  rw [en]
  congr 1
  funext norm
  exact jacLoop_record b o norm ks

theorem jacobian_own {full : Bool} {w : World} (hw : Inv full w) {id : ℕ} {o : Obj} (ho : w.objs id = some o)
    {ks : List String} (hk : ∀ k ∈ ks, k ∈ ownNames) (format : String) :
    (jacobian id ks format w).1 = o.record.jacobian w.backend ks format := by
  have h := accRef (full := full) (w0 := w) (id := id) (o := o)
    (S := fun _ _ => True) (Fresh.dVol w.backend o) (Fresh.dSrf w.backend o)
  have hR := Refines.bind h.jacNorm (fun norm _ => h.jacOwnLoop norm ks hk) w (During.init hw ho trivial)
  have h1 : (jacobianList id ks w).1 = (Fresh.acc0 w.backend o).jacList ks := hR.1
  have h2 : DuringE full w id o (jacobianList id ks w).2 := hR.2
  rw [jacList_record] at h1
  unfold jacobian Record.jacobian
  rw [← h1]
  cases hx : jacobianList id ks w with
  | mk r w1 =>
    rw [hx] at h2
    cases r with
    | error e => rw [bind_error hx]; rfl
    | ok l =>
      rw [bind_ok hx]
      obtain ⟨o', ho', hf⟩ := h2.obj
      show _ = (if format = "list" then _ else _)
      split_ifs
      · rfl
      · rw [bind_ok (getObj_some ho'), hf.params]
        show _ = (Jac.columns o.params (ks.zip l) >>= _)
        cases hc : Jac.columns o.params (ks.zip l) with
        | error e => rfl
        | ok c => rfl
      · rfl

theorem map_answer {α β : Type} (x : M α) (f : α → β) (w : World) {y : Py α} (h : (x w).1 = y) :
    ((x >>= fun a => pure (f a)) w).1 = y.map f := by
  rw [map_state, h]

/-- Answers of calls that do not create objects. -/
theorem answer_determined {full : Bool} {w : World} (hw : Inv full w) {id : ℕ} {o : Obj} (ho : w.objs id = some o)
    {op : Op} (ht : op.target = some id) (hc : ¬ op.creates) (hi : ∀ kw, op ≠ .interaction id kw)
    (hq : ∀ kw, op = .evalCalc id kw → o.intQ = false) (hj : op.OwnJac) :
    (answer op w).1 = (o.record.act w.backend op).1 := by
  cases op <;> simp only [Op.target, Option.some.injEq, reduceCtorEq] at ht <;> subst ht
  case setMonostatic p => exact map_answer _ _ w ((record_mono o p).2 ho).symm
  case setBistatic a b c d => exact map_answer _ _ w ((setBistatic_res ho a b c d).trans (record_selectBi o a b c d).2.symm)
  case setGeometry kw => exact map_answer _ _ w (record_setAngles ho kw).2.symm
  case updateParams kw =>
    have h := congrArg Prod.fst (updateParams_eq ho kw)
    exact map_answer (RT1.updateParams _ kw) _ w h
  case setParamDef p d => rfl
  case setIntQ => rfl
  case setSig0 => rfl
  case setDB => rfl
  case setI0 => rfl
  case evalCalc kw =>
    refine map_answer _ _ w ((calcOp_noInt hw ho (hq kw rfl) kw).trans ?_)
    rw [← record_update]
    have h1 := calcAll_core w.backend (o := Fresh.update o kw) (o' := (Fresh.update o kw).core) rfl (hq kw rfl)
    rw [h1]
    have h2 : ∀ o : Obj, o.intQ = false → (o.record.acc w.backend).calcBody = (Fresh.acc0 w.backend o.core).calcBody := by
      intro o ho
      show Acc.calcWith (Fresh.acc0 w.backend o.core) _ = Acc.calcWith (Fresh.acc0 w.backend o.core) _
      have hA : (Fresh.acc0 w.backend o.core).intQ = .ok false := congrArg Except.ok ho
      unfold Acc.calcWith
      rw [hA]
      rfl
    show (Fresh.acc0 w.backend (Fresh.update o kw).core).calcTry = ((Fresh.update o kw).record.acc w.backend).calcTry
    unfold Acc.calcTry
    rw [h2 (Fresh.update o kw) (hq kw rfl)]
    rfl
  case surface kw =>
    refine map_answer _ _ w ((surface_eq hw ho kw).1.trans ?_)
    rw [← record_update]; rfl
  case volume kw =>
    refine map_answer _ _ w ((volume_eq hw ho kw).1.trans ?_)
    rw [← record_update]; rfl
  case interaction kw => exact absurd rfl (hi kw)
  case jacobian ks f => exact map_answer _ _ w (jacobian_own hw ho hj f)
  case getParam p => exact map_answer _ _ w (evalParam_eq hw ho p)
  case pickle => exact absurd trivial hc
  case setV => rfl
  case setSRF => rfl
  case overwriteArg => rfl
  case clearCaches => rfl
  case surfaceVolume =>
    refine map_answer _ _ w ((surfaceVolume_eq hw ho).1.trans ?_)
    show (addM (Fresh.acc0 w.backend o).surface (Fresh.acc0 w.backend o).volume >>= _) =
      ((Fresh.acc0 w.backend o).surface >>= fun s => (Fresh.acc0 w.backend o).volume >>= fun v => Arr.add s v >>= _)
    unfold addM
    cases (Fresh.acc0 w.backend o).surface with
    | error e => rfl
    | ok s =>
      cases (Fresh.acc0 w.backend o).volume with
      | error e => rfl
      | ok v =>
        show (liftPy (Arr.add s v) >>= _) = (Arr.add s v >>= _)
        rw [Refines.liftPy_py]; rfl
  case checkParams names => exact map_answer _ _ w (checkParams_eq hw ho names).1

/-! ### programs -/

theorem Sound.cons {b : Backend} {rs : Records} {op : Op} {l : List Op} (h : Sound rs.length (op :: l)) :
    (∀ id, op.on = some id → id < rs.length) ∧ Sound (Records.act b rs op).2.length l := by
  cases op
  case new =>
    refine ⟨fun id h => ?_, ?_⟩
    · simp [Op.on] at h
    · have h' : Sound (rs.length + 1) l := h
      simpa [Records.act] using h'
  case pickle i =>
    obtain ⟨h1, h2⟩ := h
    refine ⟨fun id h => by cases h; exact h1, ?_⟩
    have : rs[i]? = some rs[i] := List.getElem?_eq_getElem h1
    simp only [Records.act, this]
    simpa using h2
  all_goals
    obtain ⟨h1, h2⟩ := h
    refine ⟨h1, ?_⟩
    have hi := h1 _ rfl
    have hg := List.getElem?_eq_getElem hi
    simp only [Records.act, Op.on, hg]
    simpa using h2

theorem Mirrors.run {l : List Op} : ∀ {rs : Records} {w : World}, Mirrors rs w → ∀ {op : Op}, Sound rs.length (l ++ [op]) →
    Mirrors (Records.run w.backend rs l) (RT1.run w l) ∧ ∀ id, op.on = some id → id < (Records.run w.backend rs l).length := by
  induction l with
  | nil => intro rs w h op hs; exact ⟨h, (Sound.cons (b := w.backend) hs).1⟩
  | cons x l ih =>
    intro rs w h op hs
    obtain ⟨h1, h2⟩ := Sound.cons (b := w.backend) (l := l ++ [op]) hs
    have := ih (h.step h1) h2
    rw [step_backend] at this
    exact this

/-- **C82**: whatever program has been run, the settings of all objects are those of the records. -/
theorem C82_settings {b : Backend} {ops : List Op} (hs : Sound 0 ops) (i : ℕ) :
    ((run (initWorld b) ops).objs i).map Obj.record = (Records.run b [] ops)[i]? := by
  have h : Sound 0 ([] ++ ops) := hs
  have key : ∀ (l : List Op) (rs : Records) (w : World), Mirrors rs w → Sound rs.length l →
      Mirrors (Records.run w.backend rs l) (run w l) := by
    intro l
    induction l with
    | nil => intro rs w h _; exact h
    | cons x l ih =>
      intro rs w h hs
      obtain ⟨h1, h2⟩ := Sound.cons (b := w.backend) hs
      have := ih _ _ (h.step h1) h2
      rw [step_backend] at this
      exact this
  exact (key ops [] (initWorld b) (Mirrors.init b) hs).get i

/-- Answers of one call after a program. -/
theorem Mirrors.answer {rs : Records} {w : World} (h : Mirrors rs w) {full : Bool} (hw : Inv full w) {op : Op}
    (hs : ∀ id, op.on = some id → id < rs.length) (hd : op.Determined rs) :
    (answer op w).1 = (Records.act w.backend rs op).1 := by
  by_cases hc : op.creates
  · cases op <;> try exact hc.elim
    case new V SRF q s d f fe i =>
      show ((newObj V SRF q s d f fe i >>= fun n => pure (Answer.obj n)) w).1 = .ok (.obj rs.length)
      rw [map_state, ← h.len]
      rfl
    case pickle i =>
      obtain ⟨o, ho, hr⟩ := h.find (hs i rfl)
      show ((pickle i >>= fun n => pure (Answer.obj n)) w).1 = _
      rw [map_state, pickle_eq, ho]
      simp only [Records.act, hr, ← h.len]
      rfl
  · obtain ⟨id, ht⟩ : ∃ id, op.target = some id := by
      cases op <;> first | exact ⟨_, rfl⟩ | exact absurd trivial hc
    have hid := hs id (by rw [Op.on_target]; exact ht)
    obtain ⟨o, ho, hr⟩ := h.find hid
    rw [Records.act_eq hc ht hr]
    refine answer_determined hw ho ht hc ?_ ?_ ?_
    · rintro kw rfl; exact hd
    · rintro kw rfl; exact hd _ hr
    · cases op <;> first | exact hd | trivial

/-- **C82**: after any program, with or without interaction term, every call other than `interaction`, `calc` of an
object with interaction term and derivatives with respect to symbols of the user returns exactly what the records
return: the same array, the same exception, the same object number. -/
theorem C82_answers {b : Backend} {ops : List Op} {op : Op} (hk : ∀ x ∈ ops, x.Keeps) (hs : Sound 0 (ops ++ [op]))
    (hd : op.Determined (Records.run b [] ops)) :
    (answer op (run (initWorld b) ops)).1 = (Records.act b (Records.run b [] ops) op).1 := by
  obtain ⟨h1, h2⟩ := (Mirrors.init b).run hs
  have := h1.answer (ReachableK.inv ⟨b, ops, hk, rfl⟩) h2 hd
  rw [run_backend] at this
  exact this

/-! ### whole programs without interaction term -/

theorem Record.act_intQ {b : Backend} {r : Record} (h : r.intQ = false) {op : Op} (hn : op.NoInt) :
    (r.act b op).2.intQ = false := by
  have hf : ∀ (l : List (AngN × Option PyArg)) (r : Record), r.intQ = false → (r.fixAll l).2.intQ = false := by
    intro l
    induction l with
    | nil => exact fun r h => h
    | cons p l ih =>
      intro r h
      obtain ⟨n, p⟩ := p
      cases p with
      | none => exact ih r h
      | some a =>
        cases a with
        | other => exact h
        | number x => exact ih _ h
  have ha : ∀ (l : List (String × Option Arr)) (r : Record), r.intQ = false → (r.assign l).2.intQ = false := by
    intro l
    induction l with
    | nil => exact fun r h => h
    | cons p l ih =>
      intro r h
      obtain ⟨k, v⟩ := p
      unfold Record.assign
      split
      · exact ih r h
      · split_ifs
        · exact h
        · exact ih _ h
      · exact h
  cases op <;> try exact h
  case setMonostatic p =>
    cases p with
    | none => exact h
    | some a => cases a <;> exact h
  case setBistatic t u p q =>
    have := hf [(.t0, t), (.tex, u), (.p0, p), (.pex, q)] { r with mono := false, fixed := [] } h
    show (r.selectBi t u p q).2.intQ = false
    unfold Record.selectBi
    split <;> rename_i e <;> rw [e] at this <;> exact this
  case setGeometry kw =>
    show (r.setAngles kw).2.intQ = false
    unfold Record.setAngles
    split_ifs
    · exact h
    · exact h
    · exact ha kw r h
  case setIntQ q => exact hn

theorem Records.act_noInt {b : Backend} {rs : Records} (h : ∀ r ∈ rs, r.intQ = false) {op : Op} (hn : op.NoInt)
    (hs : ∀ id, op.on = some id → id < rs.length) : ∀ r ∈ (Records.act b rs op).2, r.intQ = false := by
  by_cases hc : op.creates
  · cases op <;> try exact hc.elim
    case new V SRF q s d f fe i =>
      intro r hr
      simp only [Records.act, List.mem_append, List.mem_singleton] at hr
      rcases hr with hr | rfl
      · exact h r hr
      · exact hn
    case pickle i =>
      have hg := List.getElem?_eq_getElem (hs i rfl)
      have h0 := h _ (List.getElem_mem (hs i rfl))
      intro r hr
      simp only [Records.act, hg, List.mem_append, List.mem_singleton] at hr
      rcases hr with hr | rfl
      · rcases List.mem_or_eq_of_mem_set hr with hr | rfl
        · exact h r hr
        · exact h0
      · exact h0
  · obtain ⟨id, ht⟩ : ∃ id, op.target = some id := by
      cases op <;> first | exact ⟨_, rfl⟩ | exact absurd trivial hc
    have hid := hs id (by rw [Op.on_target]; exact ht)
    have hg := List.getElem?_eq_getElem hid
    rw [Records.act_eq hc ht hg]
    intro r hr
    rcases List.mem_or_eq_of_mem_set hr with hr | rfl
    · exact h r hr
    · exact Record.act_intQ (h _ (List.getElem_mem hid)) hn

/-- **C82**: a program that never switches the interaction term on is indistinguishable from the same program on
plain records: the list of everything its calls return (arrays, exceptions, object numbers) is the same. -/
theorem C82_trace {b : Backend} {ops : List Op} (hk : ∀ x ∈ ops, x.Keeps) (hn : ∀ x ∈ ops, x.NoInt)
    (hj : ∀ x ∈ ops, x.OwnJac) (hs : Sound 0 ops) : trace (initWorld b) ops = Records.trace b [] ops := by
  have key : ∀ (l : List Op) (rs : Records) (w : World), Mirrors rs w → ReachableK w → Sound rs.length l →
      (∀ r ∈ rs, r.intQ = false) → (∀ x ∈ l, x.Keeps) → (∀ x ∈ l, x.NoInt) → (∀ x ∈ l, x.OwnJac) →
      trace w l = Records.trace w.backend rs l := by
    intro l
    induction l with
    | nil => intros; rfl
    | cons op l ih =>
      intro rs w hm hw hs hq hk hn hj
      obtain ⟨h1, h2⟩ := Sound.cons (b := w.backend) hs
      have hk' : op.Keeps := hk op (by simp)
      have hn' : op.NoInt := hn op (by simp)
      have hj' : op.OwnJac := hj op (by simp)
      have hd : op.Determined rs := by
        cases op <;> first | trivial | exact hn'.elim | exact hj' | skip
        exact fun r hr => hq r (List.mem_of_getElem? hr)
      unfold trace Records.trace
      rw [hm.answer hw.inv h1 hd, answer_state]
      congr 1
      have := ih _ _ (hm.step h1) (hw.step hk') h2 (Records.act_noInt hq hn' h1) (fun x h => hk x (by simp [h]))
        (fun x h => hn x (by simp [h])) (fun x h => hj x (by simp [h]))
      rw [step_backend] at this
      exact this
  exact key ops [] (initWorld b) (Mirrors.init b) ⟨b, [], by simp, rfl⟩ hs (by simp) hk hn hj

/-! ### with interaction term -/

theorem record_interaction {b : Backend} {o : Obj} (h : ObjOK b o) : SLe (Fresh.interaction b o) (o.record.interaction b) := by
  intro z hz
  obtain ⟨x, hx, -⟩ := ok_bind hz
  have hl := interaction_lam h hx
  have ha : Fresh.acc0 b o = o.record.acc b := by
    have h1 : Fresh.acc0 b o = { Fresh.acc0 b o.core with fnevals := Fresh.fnevals b o } := rfl
    rw [h1, hl]
    rfl
  show ((o.record.acc b).interaction >>= fun x => (o.record.acc b).convert x) = .ok z
  rw [← ha]
  exact hz

theorem record_total {b : Backend} {o : Obj} (h : ObjOK b o) : SLe (Fresh.calcAll b o) (o.record.total b) := by
  intro z hz
  have hb := calcTry_ok hz
  have e : (Fresh.acc0 b o).calcBody = (Fresh.acc0 b o.core).calcWith (Fresh.acc0 b o).interaction := rfl
  have e' : (o.record.acc b).calcBody = (Fresh.acc0 b o.core).calcWith (o.record.acc b).interaction := rfl
  have key : (o.record.acc b).calcBody = .ok z := by
    rw [e] at hb
    rw [e']
    cases hi : (Fresh.acc0 b o).interaction with
    | error er => rw [hi] at hb; exact calcWith_error hb _
    | ok x =>
      have hl := interaction_lam h hi
      have ha : Fresh.acc0 b o = o.record.acc b := by
        have h1 : Fresh.acc0 b o = { Fresh.acc0 b o.core with fnevals := Fresh.fnevals b o } := rfl
        rw [h1, hl]
        rfl
      rw [← ha]
      exact hb
  show (o.record.acc b).calcTry = .ok z
  unfold Acc.calcTry
  rw [key]
  rfl

theorem SLe.map {α β : Type} {x y : Py α} (h : SLe x y) (f : α → β) : SLe (x.map f) (y.map f) := by
  intro z hz
  cases hx : x with
  | error e => rw [hx] at hz; cases hz
  | ok a => rw [h a hx]; rw [hx] at hz; exact hz

/-- **C82** with interaction term, and with derivatives with respect to symbols of the user (sympy): a call that
returns something returns what the records return.  The objects may raise an exception where the records answer
(`C12_counterexample`, `C14_counterexample`, `C81_counterexample`). -/
theorem C82_answers_partial {b : Backend} {ops : List Op} {op : Op} (hk : ∀ x ∈ ops, x.Plain) (hs : Sound 0 (ops ++ [op]))
    (hj : b = .sympy ∨ op.OwnJac) {a : Answer} (ha : (answer op (run (initWorld b) ops)).1 = .ok a) :
    (Records.act b (Records.run b [] ops) op).1 = .ok a := by
  obtain ⟨h1, h2⟩ := (Mirrors.init b).run hs
  have hw : Reachable (run (initWorld b) ops) := ⟨b, ops, hk, rfl⟩
  have hbk : (run (initWorld b) ops).backend = b := run_backend _ _
  by_cases hd : op.Determined (Records.run b [] ops)
  · have := h1.answer hw.inv h2 hd
    rw [hbk] at this
    exact this.symm.trans ha
  · have hc : ¬ op.creates := by cases op <;> first | exact fun h => h.elim | exact absurd trivial hd
    obtain ⟨id, ht⟩ : ∃ id, op.target = some id := by
      cases op <;> first | exact ⟨_, rfl⟩ | exact absurd trivial hc
    obtain ⟨o, ho, hr⟩ := h1.find (h2 id (by rw [Op.on_target]; exact ht))
    have hr' : (Records.run b [] ops)[id]? = some o.record := hr
    rw [Records.act_eq hc ht hr']
    have hok : ∀ kw, ObjOK b (Fresh.update o kw) := fun kw => by
      rw [← hbk]
      exact (hw.inv.updated ho kw).obj rfl id _ (World.updated_objs _ id o kw)
    cases op <;> simp only [Op.target, Option.some.injEq, reduceCtorEq] at ht <;> subst ht <;> try exact absurd trivial hd
    case evalCalc kw =>
      refine (record_update o kw ▸ record_total (hok kw)).map _ a ?_
      rw [← ha]
      exact (map_answer _ _ _ (by rw [(calcOp_eq hw.inv ho kw).1, hbk])).symm
    case interaction kw =>
      refine (record_update o kw ▸ record_interaction (hok kw)).map _ a ?_
      rw [← ha]
      exact (map_answer _ _ _ (by rw [(interaction_eq hw.inv ho kw).1, hbk])).symm
    case jacobian ks f =>
      rcases hj with hb | hj
      · subst hb
        rename_i id
        have hl := jacobianList_fresh hw hbk ho ks
        rw [jacList_record] at hl
        have hl' : SLe (jacobian id ks f (run (initWorld .sympy) ops)).1 (o.record.jacobian .sympy ks f) := by
          rw [jacobian_fmt hw ho]
          exact SLe.bind hl fun l => SLe.refl _
        refine hl'.map _ a ?_
        rw [← ha]
        exact (map_answer (jacobian id ks f) Answer.jac _ rfl).symm
      · exact absurd hj hd

/-! ### examples -/

theorem Records.run_append (b : Backend) (rs : Records) (l m : List Op) :
    Records.run b rs (l ++ m) = Records.run b (Records.run b rs l) m := by
  unfold Records.run
  rw [List.foldl_append]

theorem Sound.built (V SRF : Scatter) (q s d : Bool) (I : Arr) {ops : List Op}
    (h : ∀ op ∈ ops, op.Sets 0) (m : List Op) (hm : Sound 1 m) : Sound 0 (.new V SRF q s d none none I :: ops ++ m) := by
  show Sound 1 (ops ++ m)
  induction ops with
  | nil => exact hm
  | cons x l ih =>
    have := ih fun op ho => h op (by simp [ho])
    have hx := h x (by simp)
    cases x <;> first
      | exact hx.elim
      | (refine ⟨fun id e => ?_, this⟩
         have e' : _ = 0 := hx
         simp only [Op.on, Option.some.injEq] at e
         omega)

theorem scalarObj_extend (V SRF : Scatter) (q s d : Bool) (x : Site) (l m : List (String × ℝ)) :
    (scalarObj V SRF q s d x true (fun _ => false) (scalarKw x l)).record.update (m.map fun p => (p.1, Arr.lit p.2)) =
      (scalarObj V SRF q s d x true (fun _ => false) (scalarKw x (l ++ m))).record := by
  have hk : "bsf" ∈ (scalarObj V SRF q s d x true (fun _ => false) (scalarKw x l)).params.keys := by
    rw [scalar_keys]; simp
  rw [← record_update]
  have e1 : (Fresh.update (scalarObj V SRF q s d x true (fun _ => false) (scalarKw x l))
      (m.map fun p => (p.1, Arr.lit p.2))).params =
      (scalarObj V SRF q s d x true (fun _ => false) (scalarKw x (l ++ m))).params := by
    rw [update_params hk, scalar_params, scalar_params]
    simp [scalarKw, Dict.update, List.map_append, List.foldl_append]
  unfold Obj.record
  rw [e1]
  rfl

theorem run_interaction (w : World) (ops : List Op) (id : ℕ) (kw : Dict) :
    run w (ops ++ [.interaction id kw]) = (interaction id kw (run w ops)).2 := by
  rw [run_snoc]
  exact congrArg Prod.snd (map_state (interaction id kw) (fun _ => ()) (run w ops))

/-- The program that builds the example object with further parameters `l`. -/
def extendOps (l : List (String × ℝ)) : List Op :=
  .new isoV isoS true false false none none (Arr.lit (witSite 1 1 0 Real.pi).I0) ::
    scalarOps (witSite 1 1 0 Real.pi) true (fun _ => false) (scalarKw (witSite 1 1 0 Real.pi) l)

/-- An object that has evaluated its interaction term and is then asked for it with a further parameter raises an
exception (`C12_counterexample`); the records answer. -/
theorem C82_counterexample (b : Backend) : ∃ ops op, (∀ x ∈ ops, x.Plain) ∧ Sound 0 (ops ++ [op]) ∧
    (∃ e, (answer op (run (initWorld b) ops)).1 = .error e) ∧
    ∃ a, (Records.act b (Records.run b [] ops) op).1 = .ok a := by
  obtain ⟨-, -, -, e, he⟩ := extend_demo b 0
  change (interaction 0 [("x", Arr.lit 0)] (interaction 0 [] (run (initWorld b) (extendOps []))).2).1 = .error e at he
  have hpl : ∀ l, ∀ op ∈ extendOps l, op.Plain := by
    intro l op hop
    simp only [extendOps, scalarOps, if_true, List.mem_cons, List.not_mem_nil, or_false] at hop
    rcases hop with rfl | rfl | rfl | rfl <;> trivial
  have hsd : ∀ l m, Sound 1 m → Sound 0 (extendOps l ++ m) := fun l m hm => Sound.built _ _ _ _ _ _ (scalarOps_sets (witSite 1 1 0 Real.pi) true (fun _ => false) (scalarKw (witSite 1 1 0 Real.pi) l)) m hm
  have hrec : ∀ l, (Records.run b [] (extendOps l))[0]? =
      some (scalarObj isoV isoS true false false (witSite 1 1 0 Real.pi) true (fun _ => false) (scalarKw (witSite 1 1 0 Real.pi) l)).record := by
    intro l
    rw [← C82_settings (b := b) (ops := extendOps l) (by simpa using hsd l [] trivial)]
    exact congrArg (Option.map Obj.record) (scalarW_obj b isoV isoS true false false (witSite 1 1 0 Real.pi) true (fun _ => false) (scalarKw (witSite 1 1 0 Real.pi) l))
  refine ⟨extendOps [] ++ [.interaction 0 []], .interaction 0 [("x", Arr.lit 0)], ?_, ?_, ⟨e, ?_⟩, ?_⟩
  · intro op hop
    rcases List.mem_append.1 hop with hop | hop
    · exact hpl _ _ hop
    · rw [List.mem_singleton.1 hop]; trivial
  · rw [List.append_assoc]
    refine hsd _ _ ⟨?_, ?_, trivial⟩ <;> (rintro id ⟨⟩; exact Nat.zero_lt_one)
  · rw [run_interaction]
    generalize (interaction 0 [] (run (initWorld b) (extendOps []))).2 = w1 at he ⊢
    exact map_answer (interaction 0 [("x", Arr.lit 0)]) Answer.arr w1 he
  · have h0 := witSite_reports 1 1 0 Real.pi
    obtain ⟨arr, w', hi, -, -⟩ := scalar_interaction_call b (V := isoV) (SRF := isoS) false false
      (x := witSite 1 1 0 Real.pi) (mono := true) (l := [("x", 0)]) (fun _ => ⟨rfl, by simp [witSite]⟩) ⟨h0.1, h0.2, h0.3, h0.4, by simp [witSite]⟩
      (fun n hn => List.mem_append_left _ (isoV_plain n hn))
      (fun n hn => List.mem_append_left _ (isoS_plain n hn)) iso_fnCoefs ⟨0, isoV_ncoefs⟩ ⟨0, isoS_ncoefs⟩
    change interaction 0 [] (run (initWorld b) (extendOps [("x", 0)])) = _ at hi
    have h1 : (answer (.interaction 0 []) (run (initWorld b) (extendOps [("x", 0)]))).1 = .ok (.arr arr) := by
      generalize run (initWorld b) (extendOps [("x", 0)]) = w2 at hi ⊢
      exact map_answer (interaction 0 []) Answer.arr w2 (congrArg Prod.fst hi)
    have h2 := C82_answers_partial (b := b) (ops := extendOps [("x", 0)]) (op := .interaction 0 []) (a := .arr arr) (hpl _)
      (hsd _ _ ⟨by rintro id ⟨⟩; exact Nat.zero_lt_one, trivial⟩) (.inr trivial) h1
    refine ⟨.arr arr, ?_⟩
    rw [← h2, Records.run_append]
    have h3 := hrec []
    have h4 := hrec [("x", 0)]
    have h5 : Records.run b (Records.run b [] (extendOps [])) [.interaction 0 []] =
        (Records.act b (Records.run b [] (extendOps [])) (.interaction 0 [])).2 := rfl
    have hl := (List.getElem?_eq_some_iff.1 h3).1
    rw [h5, Records.act_eq (by exact id) rfl h3, Records.act_eq (by exact id) rfl h4,
      Records.act_eq (by exact id) rfl (List.getElem?_set_self hl)]
    show ((((_ : Record).update []).update _).interaction b).map _ = (((_ : Record).update []).interaction b).map _
    have e1 := scalarObj_extend isoV isoS true false false (witSite 1 1 0 Real.pi) [] []
    have e2 := scalarObj_extend isoV isoS true false false (witSite 1 1 0 Real.pi) [] [("x", 0)]
    have e3 := scalarObj_extend isoV isoS true false false (witSite 1 1 0 Real.pi) [("x", 0)] []
    simp only [List.map_nil, List.map_cons, List.nil_append, List.append_nil] at e1 e2 e3
    rw [e1, e2, e3]

/-- Two objects without interaction term; the second call of `surface` raises an exception. -/
def traceOps : List Op :=
  (.new isoV isoS false false false none none (Arr.lit (witSite 1 1 0 Real.pi).I0) ::
    scalarOps (witSite 1 1 0 Real.pi) true (fun _ => false) (scalarKw (witSite 1 1 0 Real.pi) [])) ++
  [.surface 0 [], .new isoV isoS false false true none none (Arr.lit 1), .surface 1 [], .pickle 0, .volume 2 [("tau", Arr.lit 2)],
    .setV 0 isoV, .jacobian 0 ["omega"] "list", .evalCalc 0 []]

example (b : Backend) : trace (initWorld b) traceOps = Records.trace b [] traceOps ∧ traceOps.length = 12 := by
  refine ⟨C82_trace ?_ ?_ ?_ ?_, rfl⟩
  · intro x hx
    simp only [traceOps, scalarOps, if_true, List.cons_append, List.nil_append, List.mem_cons, List.not_mem_nil, or_false] at hx
    rcases hx with rfl | rfl | rfl | rfl | rfl | rfl | rfl | rfl | rfl | rfl | rfl | rfl <;> trivial
  · intro x hx
    simp only [traceOps, scalarOps, if_true, List.cons_append, List.nil_append, List.mem_cons, List.not_mem_nil, or_false] at hx
    rcases hx with rfl | rfl | rfl | rfl | rfl | rfl | rfl | rfl | rfl | rfl | rfl | rfl <;> first | trivial | rfl
  · intro x hx
    simp only [traceOps, scalarOps, if_true, List.cons_append, List.nil_append, List.mem_cons, List.not_mem_nil, or_false] at hx
    rcases hx with rfl | rfl | rfl | rfl | rfl | rfl | rfl | rfl | rfl | rfl | rfl | rfl <;> first | trivial | (simp [Op.OwnJac])
  · refine Sound.built _ _ _ _ _ _ (scalarOps_sets _ _ _ _) _ ?_
    simp [Sound, Op.on]

/-- The first evaluation of this program returns an array. -/
example (b : Backend) : ∃ a, (Records.act b (Records.run b [] (traceOps.take 4)) (.surface 0 [])).1 = .ok (.arr a) := by
  obtain ⟨⟨arr, w', h, -⟩, -⟩ := scalar_site_call b (V := isoV) (SRF := isoS) false false false
    (x := witSite 1 1 0 Real.pi) (mono := true) (fun _ => false) (l := []) (fun _ => ⟨rfl, by simp [witSite]⟩)
    (witSite_reports ..) (fun n hn => List.mem_append_left _ (isoV_plain n hn))
    (fun n hn => List.mem_append_left _ (isoS_plain n hn))
  refine ⟨arr, ?_⟩
  rw [← C82_answers]
  · change surface 0 [] (run (initWorld b) (traceOps.take 4)) = _ at h
    generalize run (initWorld b) (traceOps.take 4) = w at h ⊢
    exact map_answer (surface 0 []) Answer.arr w (congrArg Prod.fst h)
  · intro x hx
    have hx : x ∈ (Op.new isoV isoS false false false none none (Arr.lit (witSite 1 1 0 Real.pi).I0) ::
      scalarOps (witSite 1 1 0 Real.pi) true (fun _ => false) (scalarKw (witSite 1 1 0 Real.pi) [])) := hx
    simp only [scalarOps, if_true, List.mem_cons, List.not_mem_nil, or_false] at hx
    rcases hx with rfl | rfl | rfl | rfl <;> trivial
  · refine Sound.built _ _ _ _ _ _ (scalarOps_sets (witSite 1 1 0 Real.pi) true (fun _ => false) (scalarKw (witSite 1 1 0 Real.pi) [])) [.surface 0 []] ?_
    simp [Sound, Op.on]
  · trivial

end

end RT1
