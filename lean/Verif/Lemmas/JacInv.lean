import Verif.Lemmas.Steps

/-! The memo tables of compiled phase function derivatives belong to the current objects. -/

namespace RT1

noncomputable section
open Classical

/-- Every memoised derivative belongs to the phase function of its object. -/
structure InvD (w : World) : Prop where
  dVol : TabOK w.caches.dVol fun k f =>
    Holds w k.1 fun o => DLamOK w.backend o.params (o.V.phase.diff k.2) f
  dSrf : TabOK w.caches.dSrf fun k f =>
    Holds w k.1 fun o => DLamOK w.backend o.params (o.SRF.phase.diff k.2) f

theorem DLamOK.grow {b : Backend} {pd pd' : Dict} {e : Expr} {f : Lam} (h : DLamOK b pd e f)
    (hk : pd.keys <+: pd'.keys) : DLamOK b pd' e f := by
  obtain ⟨ks, h1, h2⟩ := h
  exact ⟨ks, h1.trans hk, h2⟩

theorem InvD.modObj {id : ℕ} {f : Obj → Obj}
    (h : ∀ o, (f o).V = o.V ∧ (f o).SRF = o.SRF ∧ o.params.keys <+: (f o).params.keys) :
    Safe InvD (RT1.modObj id f) := by
  intro w hw
  constructor
  · refine hw.dVol.mono fun k l => Holds.modObj fun _ o _ hq => ?_
    have hq' : DLamOK w.backend o.params (o.V.phase.diff k.2) l := hq
    show DLamOK w.backend (f o).params ((f o).V.phase.diff k.2) l
    rw [(h o).1]
    exact hq'.grow (h o).2.2
  · refine hw.dSrf.mono fun k l => Holds.modObj fun _ o _ hq => ?_
    have hq' : DLamOK w.backend o.params (o.SRF.phase.diff k.2) l := hq
    show DLamOK w.backend (f o).params ((f o).SRF.phase.diff k.2) l
    rw [(h o).2.1]
    exact hq'.grow (h o).2.2

/-- Memo tables other than the derivatives do not matter. -/
theorem InvD.caches {w : World} (h : InvD w) {c : Caches} (h1 : c.dVol = w.caches.dVol)
    (h2 : c.dSrf = w.caches.dSrf) : InvD { w with caches := c } := by
  constructor
  · show TabOK c.dVol _
    rw [h1]; exact h.dVol
  · show TabOK c.dSrf _
    rw [h2]; exact h.dSrf

theorem InvD.fill (id : ℕ) : FillStable InvD id :=
  ⟨fun _ => InvD.modObj fun _ => ⟨rfl, rfl, List.prefix_rfl⟩,
   fun _ => InvD.modObj fun _ => ⟨rfl, rfl, List.prefix_rfl⟩⟩

theorem InvD.safe_dVol (id : ℕ) (key : String) : Safe InvD (Self.dVolLam id key) := by
  intro w hw
  unfold Self.dVolLam RT1.memo
  cases hfind : LRU.find w.caches.dVol (id, key) with
  | some f => exact ⟨hw.dVol.put (hw.dVol _ _ hfind), hw.dSrf⟩
  | none =>
    dsimp only
    cases ho : w.objs id with
    | none =>
      rw [bind_error (getObj_none ho)]
      exact hw
    | some o =>
      rw [bind_ok (getObj_some ho), bind_ok (show getW w = (.ok w, w) from rfl)]
      cases hc : Lam.compile w.backend
        (["theta_0", "theta_ex", "phi_0", "phi_ex"] ++ o.params.keys) (o.V.phase.diff key) with
      | error e => exact hw
      | ok f => exact ⟨hw.dVol.put ⟨o, ho, _, List.prefix_rfl, hc⟩, hw.dSrf⟩

theorem InvD.safe_dSrf (id : ℕ) (key : String) : Safe InvD (Self.dSrfLam id key) := by
  intro w hw
  unfold Self.dSrfLam RT1.memo
  cases hfind : LRU.find w.caches.dSrf (id, key) with
  | some f => exact ⟨hw.dVol, hw.dSrf.put (hw.dSrf _ _ hfind)⟩
  | none =>
    dsimp only
    cases ho : w.objs id with
    | none =>
      rw [bind_error (getObj_none ho)]
      exact hw
    | some o =>
      rw [bind_ok (getObj_some ho), bind_ok (show getW w = (.ok w, w) from rfl)]
      cases hc : Lam.compile w.backend
        (["theta_0", "theta_ex", "phi_0", "phi_ex"] ++ o.params.keys) (o.SRF.phase.diff key) with
      | error e => exact hw
      | ok f => exact ⟨hw.dVol, hw.dSrf.put ⟨o, ho, _, List.prefix_rfl, hc⟩⟩

theorem InvD.stable (id : ℕ) : MemoStable InvD id where
  mu0 := Safe.memo (Safe.bind Safe.t0 fun _ => Safe.pure _) fun w v hw => hw.caches rfl rfl
  muEx := Safe.memo (Safe.bind Safe.tex fun _ => Safe.pure _) fun w v hw => hw.caches rfl rfl
  mu0x := Safe.memo (Safe.bind Safe.nmax fun _ => Safe.bind
    (Safe.memo (Safe.bind Safe.t0 fun _ => Safe.pure _) fun w v hw => hw.caches rfl rfl)
    fun _ => Safe.lift _) fun w v hw => hw.caches rfl rfl
  muExx := Safe.memo (Safe.bind Safe.nmax fun _ => Safe.bind
    (Safe.memo (Safe.bind Safe.tex fun _ => Safe.pure _) fun w v hw => hw.caches rfl rfl)
    fun _ => Safe.lift _) fun w v hw => hw.caches rfl rfl
  psym := fun _ => Safe.memo (Safe.bind (Safe.getObj id) fun _ => Safe.pure _)
    fun w v hw => hw.caches rfl rfl
  pfun := by
    intro p
    have hs : Safe InvD (Self.paramSymbs id p) :=
      Safe.memo (Safe.bind (Safe.getObj id) fun _ => Safe.pure _) fun w v hw => hw.caches rfl rfl
    refine Safe.memo (Safe.bind (Safe.getObj id) fun o => ?_) fun w v hw => hw.caches rfl rfl
    cases o.pdef p with
    | val a => exact Safe.pure _
    | str e =>
      exact Safe.bind hs fun _ => Safe.bind Safe.getW fun _ =>
        Safe.bind (Safe.lift _) fun _ => Safe.pure _
    | basic e =>
      exact Safe.bind hs fun _ => Safe.bind Safe.getW fun _ =>
        Safe.bind (Safe.lift _) fun _ => Safe.pure _
  fnevals := Safe.fnevals (InvD.fill id)
  dVol := InvD.safe_dVol id
  dSrf := InvD.safe_dSrf id

theorem InvD.clearGeom : Safe InvD RT1.clearGeom := fun _ h => h.caches rfl rfl
theorem InvD.clearParam : Safe InvD RT1.clearParam := fun _ h => h.caches rfl rfl

theorem InvD.updateParams {id : ℕ} (kw : Dict) : Safe InvD (RT1.updateParams id kw) := by
  refine Safe.bind (Safe.getObj id) fun _ => InvD.modObj fun o => ⟨rfl, rfl, ?_⟩
  exact Dict.keys_update_prefix o.params _

theorem InvD.free {id : ℕ} {f : Obj → Obj}
    (h : ∀ o, (f o).V = o.V ∧ (f o).SRF = o.SRF ∧ (f o).params = o.params) :
    Safe InvD (RT1.modObj id f) :=
  InvD.modObj fun o => ⟨(h o).1, (h o).2.1, by rw [(h o).2.2]⟩

theorem InvD.resetGeom {id : ℕ} (b : Bool) : Safe InvD (RT1.resetGeom id b) :=
  Safe.bind (InvD.free fun _ => ⟨rfl, rfl, rfl⟩) fun _ => Safe.bind InvD.clearGeom fun _ =>
    InvD.free fun _ => ⟨rfl, rfl, rfl⟩

theorem InvD.setMonostatic {id : ℕ} (p : Option PyArg) : Safe InvD (RT1.setMonostatic id p) := by
  refine Safe.bind (resetGeom _) fun _ => Safe.bind ?_ fun _ => InvD.free fun _ => ⟨rfl, rfl, rfl⟩
  cases p with
  | none => exact Safe.pure _
  | some a =>
    cases a with
    | other => exact Safe.throw _
    | number r => exact Safe.bind (InvD.free fun _ => ⟨rfl, rfl, rfl⟩) fun _ => Safe.pure _

theorem InvD.bistaticAngle {id : ℕ} (n : AngN) (s : String) (p : Option PyArg) :
    Safe InvD (RT1.bistaticAngle id n s p) := by
  cases p with
  | none => exact Safe.pure _
  | some a =>
    cases a with
    | other => exact Safe.throw _
    | number r => exact Safe.bind (InvD.free fun _ => ⟨rfl, rfl, rfl⟩) fun _ => Safe.pure _

theorem InvD.setBistatic {id : ℕ} (a b c d : Option PyArg) :
    Safe InvD (RT1.setBistatic id a b c d) :=
  Safe.bind (resetGeom _) fun _ => Safe.bind (bistaticAngle _ _ _) fun _ =>
    Safe.bind (bistaticAngle _ _ _) fun _ => Safe.bind (bistaticAngle _ _ _) fun _ =>
    Safe.bind (bistaticAngle _ _ _) fun _ => InvD.free fun _ => ⟨rfl, rfl, rfl⟩

theorem InvD.addObj {w : World} (hw : InvD w) (hn : NextOK w) (o : Obj) : InvD (w.addObj o) := by
  have hh : ∀ j (Q : Obj → Prop), Holds w j Q → Holds (w.addObj o) j Q := by
    rintro j Q ⟨oj, hoj, hq⟩
    refine ⟨oj, ?_, hq⟩
    have hne : j ≠ w.next := by
      rintro rfl
      rw [hn _ le_rfl] at hoj
      cases hoj
    show Function.update w.objs w.next _ j = _
    rw [Function.update_of_ne hne]; exact hoj
  exact ⟨hw.dVol.mono fun k f => hh _ _, hw.dSrf.mono fun k f => hh _ _⟩

theorem InvD.step {op : Op} (h1 : op.Plain) {w : World} (hn : NextOK w) (hw : InvD w) :
    InvD (RT1.step op w).2 := by
  cases op
  case new V SRF q s d f fe i =>
    have : (RT1.step (.new V SRF q s d f fe i) w).2 =
      (RT1.setMonostatic w.next none (w.addObj (initObj V SRF q s d f fe i))).2 := rfl
    rw [this]
    exact InvD.setMonostatic none _ (hw.addObj hn _)
  case setMonostatic id p => exact InvD.setMonostatic p w hw
  case setBistatic id a b c d => exact InvD.setBistatic a b c d w hw
  case setGeometry id l =>
    exact Safe.setGeometry clearGeom (fun _ _ => InvD.free fun _ => ⟨rfl, rfl, rfl⟩) l w hw
  case updateParams id kw => exact InvD.updateParams kw w hw
  case setParamDef id p d =>
    refine (?_ : Safe InvD (RT1.step (.setParamDef id p d))) w hw
    exact Safe.bind clearParam (fun _ => InvD.free fun _ => ⟨rfl, rfl, rfl⟩)
  case setIntQ id b =>
    refine (?_ : Safe InvD (RT1.step (.setIntQ id b))) w hw
    exact InvD.free fun _ => ⟨rfl, rfl, rfl⟩
  case setSig0 id b =>
    refine (?_ : Safe InvD (RT1.step (.setSig0 id b))) w hw
    exact InvD.free fun _ => ⟨rfl, rfl, rfl⟩
  case setDB id b =>
    refine (?_ : Safe InvD (RT1.step (.setDB id b))) w hw
    exact InvD.free fun _ => ⟨rfl, rfl, rfl⟩
  case setI0 id b =>
    refine (?_ : Safe InvD (RT1.step (.setI0 id b))) w hw
    exact InvD.free fun _ => ⟨rfl, rfl, rfl⟩
  case evalCalc id kw =>
    exact Safe.bind (Safe.calcOp (InvD.stable id) (updateParams kw)) (fun _ => Safe.pure _) w hw
  case surface id kw =>
    exact Safe.bind (Safe.surfaceOp (InvD.stable id) (updateParams kw)) (fun _ => Safe.pure _) w hw
  case volume id kw =>
    exact Safe.bind (Safe.volumeOp (InvD.stable id) (updateParams kw)) (fun _ => Safe.pure _) w hw
  case interaction id kw =>
    exact Safe.bind (Safe.interactionOp (InvD.stable id) (updateParams kw)) (fun _ => Safe.pure _) w hw
  case jacobian id ks f =>
    exact Safe.bind (Safe.jacobianOp (InvD.stable id)) (fun _ => Safe.pure _) w hw
  case getParam id p =>
    exact Safe.bind (Safe.evalParam (InvD.stable id) p) (fun _ => Safe.pure _) w hw
  case pickle id =>
    have hm : InvD ((RT1.modObj id fun o => { o with analyze := false }) w).2 := by
      refine (?_ : Safe InvD (RT1.modObj id fun o => { o with analyze := false })) w hw
      exact InvD.free fun _ => ⟨rfl, rfl, rfl⟩
    have hn' : NextOK ((RT1.modObj id fun o => { o with analyze := false }) w).2 := by
      intro j hj
      show Function.update w.objs id _ j = none
      have h0 := hn j hj
      by_cases hji : j = id
      · subst hji; simp [h0]
      · simp [Function.update_of_ne hji, h0]
    have : (RT1.step (.pickle id) w).2 = (pickle id w).2 := by
      show ((pickle id >>= fun _ => pure ()) w).2 = _
      cases hx : pickle id w with
      | mk r w' =>
        cases r with
        | error e => rw [bind_error hx]
        | ok a => rw [bind_ok hx]; rfl
    rw [this, pickle_eq]
    cases ho : w.objs id with
    | none => exact hm
    | some o => exact hm.addObj hn' _
  case setV id V => exact h1.elim
  case setSRF id V => exact h1.elim
  case overwriteArg id n a => exact h1.elim
  case clearCaches id => exact ⟨TabOK.nil _, TabOK.nil _⟩
  case surfaceVolume id =>
    exact Safe.bind (Safe.surfaceVolumeOp (InvD.stable id)) (fun _ => Safe.pure _) w hw
  case checkParams id names =>
    exact Safe.bind (Safe.checkParamsOp (InvD.stable id)) (fun _ => Safe.pure _) w hw

theorem Reachable.invD {w : World} (h : Reachable w) : InvD w := by
  obtain ⟨b, ops, hp, rfl⟩ := h
  refine (run_induction (P := fun w => Inv true w ∧ InvD w) (fun op hop => ?_)
    ⟨Inv.init true b, TabOK.nil _, TabOK.nil _⟩).2
  rintro w ⟨h1, h2⟩
  refine ⟨Inv.step (fun _ => hp op hop) ?_ w h1, InvD.step (hp op hop) h1.next h2⟩
  rintro id n a rfl
  exact hp _ hop

end

end RT1
