import Verif.Props.Peek
import Verif.Spec.Record

/-! The objects of the package mirrored by plain records. -/

namespace RT1

noncomputable section
open Classical

/-- The settings of an object. -/
def Obj.record (o : Obj) : Record where
  V := o.V
  SRF := o.SRF
  intQ := o.intQ
  sig0 := o.sig0
  dB := o.dB
  I0 := o.I0
  pdef := o.pdef
  params := o.params
  fixed := o.fixed
  mono := o.mono
  ang := o.ang
  geom := o.geom
  fnInput := o.fnInput
  fnevalsInput := o.fnevalsInput
  analyze := o.analyze

theorem Obj.record_core {o o' : Obj} (h : o.core = o'.core) : o.record = o'.record := by
  show o.core.record = o'.core.record
  rw [h]

/-! ### changes -/

theorem update_list (d : PDef) (pd kw : Dict) :
    (match d with
      | .str (.sym "bsf") => if "bsf" ∈ pd.keys ∨ "bsf" ∈ kw.keys then kw else kw ++ [("bsf", Arr.lit 0)]
      | _ => kw) =
    kw ++ (match d with
      | .str (.sym "bsf") => if "bsf" ∈ pd.keys ∨ "bsf" ∈ kw.keys then [] else [("bsf", Arr.lit 0)]
      | _ => []) := by
  split
  · by_cases hm : "bsf" ∈ pd.keys ∨ "bsf" ∈ kw.keys
    · rw [if_pos hm, if_pos hm]; simp
    · rw [if_neg hm, if_neg hm]
  · simp

theorem record_update (o : Obj) (kw : Dict) : (Fresh.update o kw).record = o.record.update kw :=
  congrArg (fun l : Dict => ({ o.record with params := Dict.update o.params (l.map fun p => (p.1, p.2.atleast1d)) } : Record))
    (update_list (o.pdef .bsf) o.params kw)

theorem record_fixAll (l : List (AngN × Option PyArg)) : ∀ o : Obj,
    (o.record.fixAll l).2 = (Obj.fixLoop l o).record ∧
    (o.record.fixAll l).1 = if ∀ p ∈ l, PyArg.ok p.2 = true then .ok () else .error .assertionError := by
  induction l with
  | nil => intro o; exact ⟨rfl, by simp [Record.fixAll]⟩
  | cons p l ih =>
    intro o
    obtain ⟨n, p⟩ := p
    cases p with
    | none =>
      unfold Record.fixAll Obj.fixLoop
      refine ⟨(ih o).1, (ih o).2.trans ?_⟩
      simp [PyArg.ok]
    | some a =>
      cases a with
      | other =>
        unfold Record.fixAll Obj.fixLoop
        exact ⟨rfl, by simp [PyArg.ok]⟩
      | number x =>
        unfold Record.fixAll Obj.fixLoop
        refine ⟨(ih (o.fix n x)).1, (ih (o.fix n x)).2.trans ?_⟩
        simp [PyArg.ok]

theorem record_selectBi (o : Obj) (a b c d : Option PyArg) :
    (o.record.selectBi a b c d).2 = (o.afterBi a b c d).record ∧
    (o.record.selectBi a b c d).1 =
      if PyArg.ok a ∧ PyArg.ok b ∧ PyArg.ok c ∧ PyArg.ok d then .ok () else .error .assertionError := by
  obtain ⟨h1, h2⟩ := record_fixAll [(.t0, a), (.tex, b), (.p0, c), (.pex, d)] (o.reset false)
  have hs : ∀ s (p : Option PyArg), Record.inCoefs s p = angS s p := fun _ _ => rfl
  unfold Record.selectBi Obj.afterBi
  rw [show ({ o.record with mono := false, fixed := [] } : Record) = (o.reset false).record from rfl]
  have hp : (∀ p ∈ [(AngN.t0, a), (AngN.tex, b), (AngN.p0, c), (AngN.pex, d)], PyArg.ok p.2 = true) ↔
      (PyArg.ok a ∧ PyArg.ok b ∧ PyArg.ok c ∧ PyArg.ok d) := by simp
  by_cases hk : PyArg.ok a ∧ PyArg.ok b ∧ PyArg.ok c ∧ PyArg.ok d
  · rw [if_pos (hp.2 hk)] at h2
    rw [if_pos hk, if_pos hk]
    rcases hx : (o.reset false).record.fixAll [(.t0, a), (.tex, b), (.p0, c), (.pex, d)] with ⟨r, r'⟩
    rw [hx] at h1 h2
    simp only at h1 h2
    subst h2
    simp only [h1]
    exact ⟨rfl, trivial⟩
  · rw [if_neg (fun h => hk (hp.1 h))] at h2
    rw [if_neg hk, if_neg hk]
    rcases hx : (o.reset false).record.fixAll [(.t0, a), (.tex, b), (.p0, c), (.pex, d)] with ⟨r, r'⟩
    rw [hx] at h1 h2
    simp only at h1 h2
    subst h2
    simp only [h1]
    exact ⟨trivial, trivial⟩

theorem setBistatic_res {w : World} {id : ℕ} {o : Obj} (ho : w.objs id = some o) (a b c d : Option PyArg) :
    (setBistatic id a b c d w).1 =
      if PyArg.ok a ∧ PyArg.ok b ∧ PyArg.ok c ∧ PyArg.ok d then .ok () else .error .assertionError := by
  obtain ⟨h1, h2⟩ := resetGeom_obj ho false
  have hx : resetGeom id false w = (.ok (), (resetGeom id false w).2) := by rw [← h1]
  unfold setBistatic
  rw [bind_ok hx]
  obtain ⟨w1, e1, o1⟩ := bistaticAngle_obj h2 .t0 "theta_0" a
  by_cases ha : PyArg.ok a = true
  · rw [if_pos ha] at e1
    rw [bind_ok e1]
    obtain ⟨w2, e2, o2⟩ := bistaticAngle_obj o1 .tex "theta_ex" b
    by_cases hb : PyArg.ok b = true
    · rw [if_pos hb] at e2
      rw [bind_ok e2]
      obtain ⟨w3, e3, o3⟩ := bistaticAngle_obj o2 .p0 "phi_0" c
      by_cases hc : PyArg.ok c = true
      · rw [if_pos hc] at e3
        rw [bind_ok e3]
        obtain ⟨w4, e4, o4⟩ := bistaticAngle_obj o3 .pex "phi_ex" d
        by_cases hd : PyArg.ok d = true
        · rw [if_pos hd] at e4
          rw [bind_ok e4, if_pos ⟨ha, hb, hc, hd⟩]
          rfl
        · rw [if_neg hd] at e4
          rw [bind_error e4, if_neg (fun h => hd h.2.2.2)]
      · rw [if_neg hc] at e3
        rw [bind_error e3, if_neg (fun h => hc h.2.2.1)]
    · rw [if_neg hb] at e2
      rw [bind_error e2, if_neg (fun h => hb h.2.1)]
  · rw [if_neg ha] at e1
    rw [bind_error e1, if_neg (fun h => ha h.1)]

theorem record_assign {id : ℕ} (l : List (String × Option Arr)) : ∀ {w : World} {o : Obj}, w.objs id = some o →
    (o.record.assign l).2 = (Obj.angLoop l o).record ∧ (o.record.assign l).1 = (setAngles id l w).1 := by
  induction l with
  | nil => intro w o _; exact ⟨rfl, rfl⟩
  | cons p l ih =>
    intro w o ho
    obtain ⟨k, v⟩ := p
    unfold Record.assign Obj.angLoop RT1.setAngles
    cases AngN.ofName k with
    | none => exact ih ho
    | some n =>
      simp only
      rw [bind_ok (getObj_some ho)]
      by_cases hn : n ∈ o.fixed
      · have hn' : n ∈ o.record.fixed := hn
        cases v with
        | none => simp only [hn, if_true]; exact ⟨trivial, rfl⟩
        | some a => simp only [hn, hn', if_true]; exact ⟨trivial, rfl⟩
      · have hn' : n ∉ o.record.fixed := hn
        cases v with
        | none => simp only [hn, if_false]; exact ⟨trivial, rfl⟩
        | some a =>
          simp only [hn, hn', if_false]
          exact ih (modObj_get (f := fun o => { o with ang := Function.update o.ang n (some a.atleast1d) }) ho)

theorem ofName_none (s : String) : AngN.ofName s = none ↔ s ∉ ["t_0", "t_ex", "p_0", "p_ex"] := by
  unfold AngN.ofName
  split <;> simp_all

theorem record_setAngles {w : World} {id : ℕ} {o : Obj} (ho : w.objs id = some o) (kw : List (String × Option Arr)) :
    (o.record.setAngles kw).2 = (o.afterGeom kw).record ∧ (o.record.setAngles kw).1 = (setGeometry id kw w).1 := by
  unfold Record.setAngles Obj.afterGeom setGeometry
  have h0 : (∃ p ∈ kw, p.1 ∉ ["t_0", "t_ex", "p_0", "p_ex"]) ↔ ∃ p ∈ kw, AngN.ofName p.1 = none := by
    simp only [ofName_none]
  by_cases h : ∃ p ∈ kw, AngN.ofName p.1 = none
  · rw [if_pos (h0.2 h), if_pos h, if_pos h]; exact ⟨rfl, rfl⟩
  · rw [if_neg (fun x => h (h0.1 x)), if_neg h, if_neg h, bind_ok (getObj_some ho)]
    by_cases h2 : (∃ p ∈ kw, p.1 = "t_ex" ∨ p.1 = "p_ex") ∧ o.mono = true
    · rw [if_pos (And.symm h2 : o.record.mono = true ∧ _), if_pos h2, if_pos h2]; exact ⟨rfl, rfl⟩
    · rw [if_neg (fun x => h2 (And.symm x) : ¬ (o.record.mono = true ∧ _)), if_neg h2, if_neg h2,
        bind_ok (show clearGeom w = (.ok (), _) from rfl)]
      exact record_assign kw ho

theorem record_mono (o : Obj) (p : Option PyArg) :
    (o.record.selectMono p).2 = (o.afterMono p).record ∧
    ∀ {w : World} {id : ℕ}, w.objs id = some o → (o.record.selectMono p).1 = (setMonostatic id p w).1 := by
  cases p with
  | none => exact ⟨rfl, fun _ => rfl⟩
  | some a =>
    cases a with
    | other => exact ⟨rfl, fun _ => rfl⟩
    | number x => exact ⟨rfl, fun _ => rfl⟩

theorem act_after (b : Backend) {w : World} {id : ℕ} {o : Obj} (ho : w.objs id = some o) {op : Op} (hc : ¬ op.creates) :
    (o.record.act b op).2 = (o.after op).record := by
  cases op
  case new => exact absurd trivial hc
  case pickle => exact absurd trivial hc
  case setMonostatic p => exact (record_mono o p).1
  case setBistatic t u p q => exact (record_selectBi o t u p q).1
  case setGeometry kw => exact (record_setAngles ho kw).1
  case updateParams kw => exact (record_update o kw).symm
  case evalCalc kw => exact (record_update o kw).symm
  case surface kw => exact (record_update o kw).symm
  case volume kw => exact (record_update o kw).symm
  case interaction kw => exact (record_update o kw).symm
  all_goals rfl

/-! ### the list of records -/

/-- The records are the settings of the objects. -/
structure Mirrors (rs : Records) (w : World) : Prop where
  ok : NextOK w
  len : w.next = rs.length
  get : ∀ i, (w.objs i).map Obj.record = rs[i]?

theorem Mirrors.init (b : Backend) : Mirrors [] (initWorld b) := ⟨initWorld_next b, rfl, fun _ => by simp [initWorld]⟩

theorem Mirrors.find {rs : Records} {w : World} (h : Mirrors rs w) {id : ℕ} (hid : id < rs.length) :
    ∃ o, w.objs id = some o ∧ rs[id]? = some o.record := by
  have h1 := h.get id
  cases ho : w.objs id with
  | none => rw [ho] at h1; simp at h1; omega
  | some o => rw [ho] at h1; exact ⟨o, rfl, h1.symm⟩

theorem Op.on_target (op : Op) : op.on = op.target := by cases op <;> rfl

/-- The answer of one call, on the record. -/
theorem Records.act_eq {b : Backend} {rs : Records} {op : Op} (hc : ¬ op.creates) {id : ℕ} (ht : op.target = some id)
    {r : Record} (hr : rs[id]? = some r) : Records.act b rs op = ((r.act b op).1, rs.set id (r.act b op).2) := by
  have hon : op.on = some id := by rw [Op.on_target]; exact ht
  cases op <;> first | exact absurd trivial hc | skip
  all_goals
    simp only [Op.on, Option.some.injEq] at hon
    subst hon
    simp only [Records.act, Op.on, hr]

theorem Mirrors.step {rs : Records} {w : World} (h : Mirrors rs w) {op : Op}
    (hs : ∀ id, op.on = some id → id < rs.length) : Mirrors (Records.act w.backend rs op).2 (step op w).2 := by
  obtain ⟨hok, -, hother⟩ := step_other h.ok op
  by_cases hc : op.creates
  · cases op <;> try exact hc.elim
    case new V SRF q s d f fe i =>
      have e : (RT1.step (.new V SRF q s d f fe i) w).2 =
        (setMonostatic w.next none (w.addObj (initObj V SRF q s d f fe i))).2 := rfl
      have hfr := FrameP.setMonostatic (id := w.next) none _
        (FrameP.refl (w.addObj (initObj V SRF q s d f fe i)) w.next)
      have hself : (w.addObj (initObj V SRF q s d f fe i)).objs w.next = some (initObj V SRF q s d f fe i) :=
        Function.update_self ..
      have hobj := setMonostatic_obj hself none
      rw [← e] at hfr hobj
      refine ⟨hok, ?_, fun j => ?_⟩
      · rw [hfr.next]
        show w.next + 1 = (rs ++ [_]).length
        simp [h.len]
      · show _ = (rs ++ [_])[j]?
        by_cases hj : j = w.next
        · subst hj
          rw [hobj, h.len, List.getElem?_append_right le_rfl]
          simp
          rfl
        · rw [hfr.objs j hj]
          show Option.map _ (Function.update w.objs w.next _ j) = _
          rw [Function.update_of_ne hj, h.get j]
          rcases Nat.lt_or_gt_of_ne hj with hlt | hgt
          · rw [List.getElem?_append_left (by rw [← h.len]; exact hlt)]
          · rw [List.getElem?_eq_none (by rw [← h.len]; omega), List.getElem?_eq_none (by simp; rw [← h.len]; omega)]
    case pickle i =>
      obtain ⟨o, ho, hr⟩ := h.find (hs i rfl)
      have e : (RT1.step (.pickle i) w).2 = (pickle i w).2 := bind_pure_state _ _
      have hlt := lt_next h.ok ho
      have e' : (pickle i w).2 = ((modObj i fun o => { o with analyze := false }) w).2.addObj { o with analyze := false } := by
        rw [pickle_eq, ho]
      rw [e, e'] at hok hother ⊢
      have ha : (Records.act w.backend rs (.pickle i)).2 =
          rs.set i { o.record with analyze := false } ++ [{ o.record with analyze := false }] := by
        simp only [Records.act, hr]
      rw [ha]
      refine ⟨hok, ?_, fun j => ?_⟩
      · show w.next + 1 = _
        simp [h.len]
      · show Option.map _ (Function.update (Function.update w.objs i _) w.next _ j) = _
        by_cases hj : j = w.next
        · subst hj
          rw [Function.update_self, h.len, List.getElem?_append_right (by simp)]
          simp
          rfl
        · rw [Function.update_of_ne hj]
          by_cases hji : j = i
          · subst hji
            rw [Function.update_self, ho, List.getElem?_append_left (by simp; rw [← h.len]; exact hlt),
              List.getElem?_set_self (by rw [← h.len]; exact hlt)]
            rfl
          · rw [Function.update_of_ne hji, h.get j]
            rcases Nat.lt_or_gt_of_ne hj with hl | hg
            · rw [List.getElem?_append_left (by simp; rw [← h.len]; exact hl), List.getElem?_set_ne (Ne.symm hji)]
            · rw [List.getElem?_eq_none (by rw [← h.len]; omega), List.getElem?_eq_none (by simp; rw [← h.len]; omega)]
  · obtain ⟨id, ht⟩ : ∃ id, op.target = some id := by
      cases op <;> first | exact ⟨_, rfl⟩ | exact absurd trivial hc
    have hid := hs id (by rw [Op.on_target]; exact ht)
    obtain ⟨o, ho, hr⟩ := h.find hid
    have hfr := frame_step ht hc w w (FrameP.refl w id)
    rw [Records.act_eq hc ht hr]
    refine ⟨hok, ?_, fun j => ?_⟩
    · rw [hfr.next]; simp [h.len]
    · by_cases hj : j = id
      · subst hj
        obtain ⟨o', ho', hcore⟩ := step_core h.ok ho ht
        rw [ho', List.getElem?_set_self hid, act_after _ ho hc]
        exact congrArg some (Obj.record_core hcore)
      · rw [hfr.objs j hj, h.get j, List.getElem?_set_ne (Ne.symm hj)]

/-! ### answers -/

theorem map_state {α β : Type} (x : M α) (f : α → β) (w : World) :
    (x >>= fun a => pure (f a)) w = ((x w).1.map f, (x w).2) := by
  cases hx : x w with
  | mk r w' =>
    cases r with
    | error e => rw [bind_error hx]; rfl
    | ok a => rw [bind_ok hx]; rfl

theorem map_states {α β γ : Type} (x : M α) (f : α → β) (g : α → γ) (w : World) :
    ((x >>= fun a => pure (f a)) w).2 = ((x >>= fun a => pure (g a)) w).2 := by
  rw [map_state, map_state]

theorem answer_state (op : Op) (w : World) : (answer op w).2 = (step op w).2 := by
  cases op
  case new V SRF q s d f fe i => exact map_states (newObj V SRF q s d f fe i) _ _ w
  case evalCalc id kw => exact map_states (calcOp id kw) _ _ w
  case surface id kw => exact map_states (surface id kw) _ _ w
  case volume id kw => exact map_states (volume id kw) _ _ w
  case interaction id kw => exact map_states (interaction id kw) _ _ w
  case jacobian id ks f => exact map_states (jacobian id ks f) _ _ w
  case getParam id p => exact map_states (Self.evalParam id p) _ _ w
  case pickle id => exact map_states (pickle id) _ _ w
  case surfaceVolume id => exact map_states (surfaceVolume id) _ _ w
  case checkParams id names => exact map_states (checkParams id names) _ _ w
  all_goals exact congrArg Prod.snd (map_state _ _ w)

/-- Derivatives with respect to omega, tau, NormBRDF and bsf need no compiled derivatives. -/
theorem AccRef.jacOwn {I : World → Prop} {A : Acc M} {B : Acc Py} (h : AccRef I A B) (norm : Arr) {key : String}
    (hk : key ∈ ownNames) : Refines I (A.jacEntry norm key) (B.jacEntry norm key) := by
  simp only [ownNames, List.mem_cons, List.not_mem_nil, or_false] at hk
  rcases hk with rfl | rfl | rfl | rfl
  · exact Refines.mulM (Refines.addM (Refines.pure _) h.dvolumeDomega) (Refines.pure _)
  · exact Refines.mulM (Refines.addM h.dsurfaceDtau h.dvolumeDtau) (Refines.pure _)
  · exact Refines.mulM (Refines.addM h.dsurfaceDNormBRDF (Refines.pure _)) (Refines.pure _)
  · exact Refines.mulM (Refines.addM h.dsurfaceDbsf h.dvolumeDbsf) (Refines.pure _)

theorem AccRef.jacOwnLoop {I : World → Prop} {A : Acc M} {B : Acc Py} (h : AccRef I A B) (norm : Arr) (ks : List String)
    (hk : ∀ k ∈ ks, k ∈ ownNames) : Refines I (A.jacLoop norm ks) (B.jacLoop norm ks) := by
  induction ks with
  | nil => exact Refines.pure _
  | cons k ks ih =>
    exact Refines.bind (h.jacOwn norm (hk k (by simp))) fun x _ =>
      Refines.bind (ih fun k h => hk k (by simp [h])) fun l _ => Refines.pure _

end

end RT1
