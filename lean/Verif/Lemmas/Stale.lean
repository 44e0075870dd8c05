import Verif.Lemmas.Hist

/-! Histories in which the caller may also overwrite angle arrays in place: the parameter
tables stay right; evaluations with stale cosines. -/

namespace RT1

noncomputable section
open Classical

/-- The part of the invariant that all calls preserve. -/
structure InvP (w : World) : Prop where
  next : NextOK w
  psym : TabOK w.caches.psym fun k a => Holds w k.1 fun o => Fresh.symbs o k.2 = a
  pfun : TabOK w.caches.pfun fun k a => Holds w k.1 fun o => Fresh.pfun w.backend o k.2 = .ok a

theorem Inv.toP {full : Bool} {w : World} (h : Inv full w) : InvP w := ⟨h.next, h.psym, h.pfun⟩

theorem Inv.of_cleared {w : World} (h : InvP w) (hg : GeoNil w) : Inv false w where
  next := h.next
  psym := h.psym
  pfun := h.pfun
  mu0 := by rw [hg.1]; exact TabOK.nil _
  muEx := by rw [hg.2.1]; exact TabOK.nil _
  mu0x := fun h => by cases h
  muExx := fun h => by cases h
  obj := fun h => by cases h

/-- `w'` is `w` up to the parameter tables, and these are right. -/
structure Same (w w' : World) : Prop where
  objs : w'.objs = w.objs
  next : w'.next = w.next
  backend : w'.backend = w.backend
  mu0 : w'.caches.mu0 = w.caches.mu0
  muEx : w'.caches.muEx = w.caches.muEx
  mu0x : w'.caches.mu0x = w.caches.mu0x
  muExx : w'.caches.muExx = w.caches.muExx
  inv : InvP w'

theorem Same.trans {w w' w'' : World} (h : Same w w') (h' : Same w' w'') : Same w w'' :=
  ⟨h'.objs.trans h.objs, h'.next.trans h.next, h'.backend.trans h.backend, h'.mu0.trans h.mu0,
    h'.muEx.trans h.muEx, h'.mu0x.trans h.mu0x, h'.muExx.trans h.muExx, h'.inv⟩

theorem Same.refl {w : World} (h : InvP w) : Same w w := ⟨rfl, rfl, rfl, rfl, rfl, rfl, rfl, h⟩

theorem paramSymbs_exact {w : World} (h : InvP w) {id : ℕ} {o : Obj} (ho : w.objs id = some o)
    (p : PName) : ∃ w', Self.paramSymbs id p w = (.ok (Fresh.symbs o p), w') ∧ Same w w' := by
  unfold Self.paramSymbs memo
  cases hf : LRU.find w.caches.psym (id, p) with
  | some v =>
    obtain ⟨o', ho', hv⟩ := h.psym _ _ hf
    simp only at ho' hv
    rw [ho] at ho'
    cases ho'
    subst hv
    exact ⟨_, rfl, rfl, rfl, rfl, rfl, rfl, rfl, rfl, h.next, h.psym.put ⟨o, ho, rfl⟩, h.pfun⟩
  | none =>
    simp only
    rw [bind_ok (getObj_some ho)]
    refine ⟨_, rfl, rfl, rfl, rfl, rfl, rfl, rfl, rfl, h.next, h.psym.put ⟨o, ho, rfl⟩, h.pfun⟩

theorem paramFuncs_exact {w : World} (h : InvP w) {id : ℕ} {o : Obj} (ho : w.objs id = some o)
    (p : PName) : ∃ w', Self.paramFuncs id p w = (Fresh.pfun w.backend o p, w') ∧ Same w w' := by
  unfold Self.paramFuncs memo
  cases hf : LRU.find w.caches.pfun (id, p) with
  | some v =>
    obtain ⟨o', ho', hv⟩ := h.pfun _ _ hf
    simp only at ho' hv
    rw [ho] at ho'
    cases ho'
    rw [hv]
    exact ⟨_, rfl, rfl, rfl, rfl, rfl, rfl, rfl, rfl, h.next, h.psym, h.pfun.put ⟨o, ho, hv⟩⟩
  | none =>
    simp only
    rw [bind_ok (getObj_some ho)]
    have key : ∀ e : Expr, ∃ w', ((do
        let vs ← Self.paramSymbs id p
        let w ← getW
        let f ← liftPy (Lam.compile w.backend vs e)
        pure (some f) : M (Option Lam)) w) =
        ((do let f ← Lam.compile w.backend (Fresh.symbs o p) e; .ok (some f) : Py (Option Lam)), w')
        ∧ Same w w' := by
      intro e
      obtain ⟨w1, e1, s1⟩ := paramSymbs_exact h ho p
      refine ⟨w1, ?_, s1⟩
      rw [bind_ok e1, bind_ok (show getW w1 = (.ok w1, w1) from rfl), s1.backend]
      cases Lam.compile w.backend (Fresh.symbs o p) e <;> rfl
    have fin : ∀ (v : Option Lam) (w1 : World), Fresh.pfun w.backend o p = .ok v → Same w w1 →
        Same w { w1 with caches := { w1.caches with
              pfun := LRU.put w1.caches.pfun (id, p) v } } := by
      intro v w1 hx s1
      refine ⟨s1.objs, s1.next, s1.backend, s1.mu0, s1.muEx, s1.mu0x, s1.muExx,
        s1.inv.next, s1.inv.psym, s1.inv.pfun.put ⟨o, ?_, ?_⟩⟩
      · show w1.objs id = some o
        rw [s1.objs]; exact ho
      · show Fresh.pfun w1.backend o p = _
        rw [s1.backend]; exact hx
    cases hp : o.pdef p with
    | val a =>
      have hx : Fresh.pfun w.backend o p = .ok none := by unfold Fresh.pfun; rw [hp]
      rw [hx]
      exact ⟨_, rfl, fin none w hx (Same.refl h)⟩
    | str e =>
      obtain ⟨w1, e1, s1⟩ := key e
      have hx : Fresh.pfun w.backend o p = (do
        let f ← Lam.compile w.backend (Fresh.symbs o p) e; .ok (some f)) := by
        unfold Fresh.pfun; rw [hp]
      simp only
      rw [e1]
      rw [← hx]
      cases hv : Fresh.pfun w.backend o p with
      | error e => exact ⟨w1, rfl, s1⟩
      | ok v => exact ⟨_, rfl, fin v w1 hv s1⟩
    | basic e =>
      obtain ⟨w1, e1, s1⟩ := key e
      have hx : Fresh.pfun w.backend o p = (do
        let f ← Lam.compile w.backend (Fresh.symbs o p) e; .ok (some f)) := by
        unfold Fresh.pfun; rw [hp]
      simp only
      rw [e1]
      rw [← hx]
      cases hv : Fresh.pfun w.backend o p with
      | error e => exact ⟨w1, rfl, s1⟩
      | ok v => exact ⟨_, rfl, fin v w1 hv s1⟩

theorem Same.inv_of {w w' : World} (h : Same w w') : InvP w' := h.inv

theorem InvP.symbs_none {w : World} (h : InvP w) {id : ℕ} (ho : w.objs id = none) (p : PName) :
    Self.paramSymbs id p w = (.error .attributeError, w) := by
  unfold Self.paramSymbs memo
  cases hf : LRU.find w.caches.psym (id, p) with
  | some v =>
    obtain ⟨o, ho', -⟩ := h.psym _ _ hf
    simp only at ho'
    rw [ho] at ho'; cases ho'
  | none =>
    simp only
    rw [getObj_bind_none ho]

theorem InvP.funcs_none {w : World} (h : InvP w) {id : ℕ} (ho : w.objs id = none) (p : PName) :
    Self.paramFuncs id p w = (.error .attributeError, w) := by
  unfold Self.paramFuncs memo
  cases hf : LRU.find w.caches.pfun (id, p) with
  | some v =>
    obtain ⟨o, ho', -⟩ := h.pfun _ _ hf
    simp only at ho'
    rw [ho] at ho'; cases ho'
  | none =>
    simp only
    rw [getObj_bind_none ho]

/-- Modifying attributes other than the definitions. -/
theorem InvP.modObj {id : ℕ} {f : Obj → Obj} (h : ∀ o, (f o).pdef = o.pdef) :
    Safe InvP (RT1.modObj id f) := by
  intro w hw
  have hs : ∀ o p, Fresh.symbs (f o) p = Fresh.symbs o p := fun o p => by
    simp only [Fresh.symbs, h]
  refine ⟨?_, ?_, ?_⟩
  · intro j hj
    show Function.update w.objs id ((w.objs id).map f) j = none
    by_cases hji : j = id
    · subst hji
      rw [Function.update_self, hw.next j hj]; rfl
    · rw [Function.update_of_ne hji]; exact hw.next j hj
  · exact hw.psym.mono fun k a => Holds.modObj fun _ o _ hq => by rw [hs]; exact hq
  · exact hw.pfun.mono fun k a => Holds.modObj fun _ o _ hq => by
      show Fresh.pfun w.backend (f o) k.2 = _
      have hq' : Fresh.pfun w.backend o k.2 = .ok a := hq
      rw [← hq']
      unfold Fresh.pfun
      rw [h, hs]

theorem InvP.stable (id : ℕ) : MemoStable InvP id where
  mu0 := Safe.memo (Safe.bind Safe.t0 fun _ => Safe.pure _) fun w v hw => ⟨hw.next, hw.psym, hw.pfun⟩
  muEx := Safe.memo (Safe.bind Safe.tex fun _ => Safe.pure _) fun w v hw => ⟨hw.next, hw.psym, hw.pfun⟩
  mu0x := Safe.memo (Safe.bind Safe.nmax fun _ => Safe.bind
    (Safe.memo (Safe.bind Safe.t0 fun _ => Safe.pure _) fun w v hw => ⟨hw.next, hw.psym, hw.pfun⟩)
    fun _ => Safe.lift _) fun w v hw => ⟨hw.next, hw.psym, hw.pfun⟩
  muExx := Safe.memo (Safe.bind Safe.nmax fun _ => Safe.bind
    (Safe.memo (Safe.bind Safe.tex fun _ => Safe.pure _) fun w v hw => ⟨hw.next, hw.psym, hw.pfun⟩)
    fun _ => Safe.lift _) fun w v hw => ⟨hw.next, hw.psym, hw.pfun⟩
  psym := by
    intro p w hw
    cases ho : w.objs id with
    | none => rw [hw.symbs_none ho]; exact hw
    | some o =>
      obtain ⟨w', e, s⟩ := paramSymbs_exact hw ho p
      rw [e]; exact s.inv
  pfun := by
    intro p w hw
    cases ho : w.objs id with
    | none => rw [hw.funcs_none ho]; exact hw
    | some o =>
      obtain ⟨w', e, s⟩ := paramFuncs_exact hw ho p
      rw [e]; exact s.inv
  fnevals := Safe.fnevals ⟨fun _ => InvP.modObj fun _ => rfl, fun _ => InvP.modObj fun _ => rfl⟩
  dVol := fun _ => Safe.memo (Safe.bind (Safe.getObj id) fun _ => Safe.bind Safe.getW fun _ =>
    Safe.lift _) fun w v hw => ⟨hw.next, hw.psym, hw.pfun⟩
  dSrf := fun _ => Safe.memo (Safe.bind (Safe.getObj id) fun _ => Safe.bind Safe.getW fun _ =>
    Safe.lift _) fun w v hw => ⟨hw.next, hw.psym, hw.pfun⟩

theorem InvP.clearGeom : Safe InvP RT1.clearGeom := fun _ hw => ⟨hw.next, hw.psym, hw.pfun⟩

theorem InvP.resetGeom {id : ℕ} (m : Bool) : Safe InvP (RT1.resetGeom id m) :=
  Safe.bind (InvP.modObj fun _ => rfl) fun _ => Safe.bind InvP.clearGeom fun _ =>
    InvP.modObj fun _ => rfl

theorem InvP.addObj {w : World} (hw : InvP w) (o : Obj) : InvP (w.addObj o) := by
  have hh : ∀ j (Q : Obj → Prop), Holds w j Q → Holds (w.addObj o) j Q := by
    rintro j Q ⟨oj, hj, hq⟩
    refine ⟨oj, ?_, hq⟩
    show Function.update w.objs w.next (some o) j = some oj
    rw [Function.update_of_ne]
    · exact hj
    · rintro rfl
      rw [hw.next _ le_rfl] at hj; cases hj
  refine ⟨?_, hw.psym.mono fun k a => hh k.1 _, hw.pfun.mono fun k a => hh k.1 _⟩
  intro j hj
  have hj' : w.next + 1 ≤ j := hj
  show Function.update w.objs w.next (some o) j = none
  rw [Function.update_of_ne (by omega)]
  exact hw.next j (by omega)

theorem InvP.setMonostatic {id : ℕ} (p : Option PyArg) : Safe InvP (RT1.setMonostatic id p) := by
  unfold RT1.setMonostatic
  refine Safe.bind (InvP.resetGeom true) fun _ => Safe.bind ?_ fun _ => InvP.modObj fun _ => rfl
  cases p with
  | none => exact Safe.pure _
  | some a =>
    cases a with
    | other => exact Safe.throw _
    | number r => exact Safe.bind (InvP.modObj fun _ => rfl) fun _ => Safe.pure _

theorem InvP.bistaticAngle {id : ℕ} (n : AngN) (s : String) (p : Option PyArg) :
    Safe InvP (RT1.bistaticAngle id n s p) := by
  cases p with
  | none => exact Safe.pure _
  | some a =>
    cases a with
    | other => exact Safe.throw _
    | number r => exact Safe.bind (InvP.modObj fun _ => rfl) fun _ => Safe.pure _

/-- All calls preserve the parameter tables. -/
theorem InvP.step (op : Op) : Safe InvP (RT1.step op) := by
  have hu : ∀ id kw, Safe InvP (RT1.updateParams id kw) := fun id kw =>
    Safe.bind (Safe.getObj id) fun o => InvP.modObj fun _ => rfl
  cases op
  case new V SRF q s d f fe i =>
    intro w hw
    have : (RT1.step (.new V SRF q s d f fe i) w).2 =
      (RT1.setMonostatic w.next none (w.addObj (initObj V SRF q s d f fe i))).2 := rfl
    rw [this]
    exact InvP.setMonostatic none _ (hw.addObj _)
  case setMonostatic id p => exact InvP.setMonostatic p
  case setBistatic id a b c d =>
    exact Safe.bind (InvP.resetGeom false) fun _ => Safe.bind (InvP.bistaticAngle _ _ _) fun _ =>
      Safe.bind (InvP.bistaticAngle _ _ _) fun _ => Safe.bind (InvP.bistaticAngle _ _ _) fun _ =>
      Safe.bind (InvP.bistaticAngle _ _ _) fun _ => InvP.modObj fun _ => rfl
  case setGeometry id l =>
    exact Safe.setGeometry InvP.clearGeom (fun _ _ => InvP.modObj fun _ => rfl) l
  case updateParams id kw => exact hu id kw
  case setParamDef id p d =>
    intro w hw
    refine ⟨?_, TabOK.nil _, TabOK.nil _⟩
    intro j hj
    show Function.update w.objs id ((w.objs id).map _) j = none
    by_cases hji : j = id
    · subst hji
      rw [Function.update_self, hw.next j hj]; rfl
    · rw [Function.update_of_ne hji]; exact hw.next j hj
  case setIntQ id b => exact InvP.modObj fun _ => rfl
  case setSig0 id b => exact InvP.modObj fun _ => rfl
  case setDB id b => exact InvP.modObj fun _ => rfl
  case setI0 id b => exact InvP.modObj fun _ => rfl
  case evalCalc id kw =>
    exact Safe.bind (Safe.calcOp (InvP.stable id) (hu id kw)) fun _ => Safe.pure _
  case surface id kw =>
    exact Safe.bind (Safe.surfaceOp (InvP.stable id) (hu id kw)) fun _ => Safe.pure _
  case volume id kw =>
    exact Safe.bind (Safe.volumeOp (InvP.stable id) (hu id kw)) fun _ => Safe.pure _
  case interaction id kw =>
    exact Safe.bind (Safe.interactionOp (InvP.stable id) (hu id kw)) fun _ => Safe.pure _
  case jacobian id ks f => exact Safe.bind (Safe.jacobianOp (InvP.stable id)) fun _ => Safe.pure _
  case getParam id p => exact Safe.bind (Safe.evalParam (InvP.stable id) p) fun _ => Safe.pure _
  case pickle id =>
    intro w hw
    have hm := InvP.modObj (id := id) (f := fun o => { o with analyze := false }) (fun _ => rfl) w hw
    have : (RT1.step (.pickle id) w).2 = (pickle id w).2 := by
      show ((pickle id >>= fun _ => pure ()) w).2 = _
      cases hx : pickle id w with
      | mk r w' =>
        cases r with
        | error e => rw [bind_error hx]
        | ok a => rw [bind_ok hx]; rfl
    rw [this, pickle_eq]
    cases ho : w.objs id with
    | none => exact hm
    | some o => exact hm.addObj _
  case setV id V => exact InvP.modObj fun _ => rfl
  case setSRF id V => exact InvP.modObj fun _ => rfl
  case overwriteArg id n a => exact InvP.modObj fun _ => rfl
  case clearCaches id => exact fun w hw => ⟨hw.next, TabOK.nil _, TabOK.nil _⟩
  case surfaceVolume id =>
    exact Safe.bind (Safe.surfaceVolumeOp (InvP.stable id)) fun _ => Safe.pure _
  case checkParams id names =>
    exact Safe.bind (Safe.checkParamsOp (InvP.stable id)) fun _ => Safe.pure _

theorem ReachableAny.invP {w : World} (h : ReachableAny w) : InvP w := by
  obtain ⟨b, ops, rfl⟩ := h
  exact run_induction (P := InvP) (fun op _ => InvP.step op) (Inv.init false b).toP

/-- If `x` returns, the result state satisfies `Q`. -/
def Ensures (Q : World → Prop) {α : Type} (x : M α) : Prop := ∀ w a, (x w).1 = .ok a → Q (x w).2

namespace Ensures
variable {Q : World → Prop} {α β : Type}

theorem bind_left {x : M α} {f : α → M β} (h : Ensures Q x) (hf : ∀ a, Safe Q (f a)) :
    Ensures Q (x >>= f) := by
  intro w b hb
  cases hx : x w with
  | mk r w1 =>
    cases r with
    | error e => rw [bind_error hx] at hb; cases hb
    | ok a =>
      have h1 := h w a (by rw [hx])
      rw [hx] at h1
      rw [bind_ok hx]
      exact hf a w1 h1

theorem bind_right {x : M α} {f : α → M β} (hf : ∀ a, Ensures Q (f a)) : Ensures Q (x >>= f) := by
  intro w b hb
  cases hx : x w with
  | mk r w1 =>
    cases r with
    | error e => rw [bind_error hx] at hb; cases hb
    | ok a =>
      rw [bind_ok hx] at hb ⊢
      exact hf a w1 b hb

end Ensures

/-- The cosines of the object are stored. -/
def Stored (id : ℕ) (w : World) : Prop :=
  (LRU.find w.caches.mu0 id).isSome ∧ (LRU.find w.caches.muEx id).isSome

theorem memo_stores {κ ν : Type} {tab : Caches → LRU κ ν} {setTab : Caches → LRU κ ν → Caches}
    {k : κ} {x : M ν} (h : ∀ c t, tab (setTab c t) = t) :
    Ensures (fun w => (LRU.find (tab w.caches) k).isSome) (memo tab setTab k x) := by
  intro w a hw
  unfold memo at hw ⊢
  cases hf : LRU.find (tab w.caches) k with
  | some v => simp only [h, LRU.find_put_self, Option.isSome_some]
  | none =>
    rw [hf] at hw
    simp only at hw ⊢
    cases hx : x w with
    | mk r w1 =>
      rw [hx] at hw
      cases r with
      | error e => cases hw
      | ok v => simp only [h, LRU.find_put_self, Option.isSome_some]

theorem stored_mu0_stable (id : ℕ) :
    MemoStable (fun w => (LRU.find w.caches.mu0 id).isSome) id := by
  have hm : Safe (fun w : World => (LRU.find w.caches.mu0 id).isSome) (Self.mu0 id) :=
    Safe.memo (Safe.bind Safe.t0 fun _ => Safe.pure _) fun w v _ => by
      show (LRU.find (LRU.put w.caches.mu0 id v) id).isSome
      rw [LRU.find_put_self]; rfl
  have hs : ∀ p, Safe (fun w : World => (LRU.find w.caches.mu0 id).isSome) (Self.paramSymbs id p) :=
    fun p => Safe.memo (Safe.bind (Safe.getObj id) fun _ => Safe.pure _) fun w v hw => hw
  refine ⟨hm, ?_, ?_, ?_, hs, ?_, ?_, ?_, ?_⟩
  · exact Safe.memo (Safe.bind Safe.tex fun _ => Safe.pure _) fun w v hw => hw
  · exact Safe.memo (Safe.bind Safe.nmax fun _ => Safe.bind hm fun _ => Safe.lift _) fun w v hw => hw
  · exact Safe.memo (Safe.bind Safe.nmax fun _ => Safe.bind
      (Safe.memo (Safe.bind Safe.tex fun _ => Safe.pure _) fun w v hw => hw) fun _ => Safe.lift _)
      fun w v hw => hw
  · intro p
    refine Safe.memo (Safe.bind (Safe.getObj id) fun o => ?_) fun w v hw => hw
    cases o.pdef p with
    | val a => exact Safe.pure _
    | str e => exact Safe.bind (hs p) fun _ => Safe.bind Safe.getW fun _ =>
        Safe.bind (Safe.lift _) fun _ => Safe.pure _
    | basic e => exact Safe.bind (hs p) fun _ => Safe.bind Safe.getW fun _ =>
        Safe.bind (Safe.lift _) fun _ => Safe.pure _
  · exact Safe.fnevals ⟨fun _ w hw => hw, fun _ w hw => hw⟩
  · exact fun _ => Safe.memo (Safe.bind (Safe.getObj id) fun _ => Safe.bind Safe.getW fun _ =>
      Safe.lift _) fun w v hw => hw
  · exact fun _ => Safe.memo (Safe.bind (Safe.getObj id) fun _ => Safe.bind Safe.getW fun _ =>
      Safe.lift _) fun w v hw => hw

theorem stored_muEx_stable (id : ℕ) :
    MemoStable (fun w => (LRU.find w.caches.muEx id).isSome) id := by
  have hm : Safe (fun w : World => (LRU.find w.caches.muEx id).isSome) (Self.muEx id) :=
    Safe.memo (Safe.bind Safe.tex fun _ => Safe.pure _) fun w v _ => by
      show (LRU.find (LRU.put w.caches.muEx id v) id).isSome
      rw [LRU.find_put_self]; rfl
  have hs : ∀ p, Safe (fun w : World => (LRU.find w.caches.muEx id).isSome) (Self.paramSymbs id p) :=
    fun p => Safe.memo (Safe.bind (Safe.getObj id) fun _ => Safe.pure _) fun w v hw => hw
  refine ⟨?_, hm, ?_, ?_, hs, ?_, ?_, ?_, ?_⟩
  · exact Safe.memo (Safe.bind Safe.t0 fun _ => Safe.pure _) fun w v hw => hw
  · exact Safe.memo (Safe.bind Safe.nmax fun _ => Safe.bind
      (Safe.memo (Safe.bind Safe.t0 fun _ => Safe.pure _) fun w v hw => hw) fun _ => Safe.lift _)
      fun w v hw => hw
  · exact Safe.memo (Safe.bind Safe.nmax fun _ => Safe.bind hm fun _ => Safe.lift _) fun w v hw => hw
  · intro p
    refine Safe.memo (Safe.bind (Safe.getObj id) fun o => ?_) fun w v hw => hw
    cases o.pdef p with
    | val a => exact Safe.pure _
    | str e => exact Safe.bind (hs p) fun _ => Safe.bind Safe.getW fun _ =>
        Safe.bind (Safe.lift _) fun _ => Safe.pure _
    | basic e => exact Safe.bind (hs p) fun _ => Safe.bind Safe.getW fun _ =>
        Safe.bind (Safe.lift _) fun _ => Safe.pure _
  · exact Safe.fnevals ⟨fun _ w hw => hw, fun _ w hw => hw⟩
  · exact fun _ => Safe.memo (Safe.bind (Safe.getObj id) fun _ => Safe.bind Safe.getW fun _ =>
      Safe.lift _) fun w v hw => hw
  · exact fun _ => Safe.memo (Safe.bind (Safe.getObj id) fun _ => Safe.bind Safe.getW fun _ =>
      Safe.lift _) fun w v hw => hw

/-- A successful `surface` call leaves both cosines stored. -/
theorem surface_stores (id : ℕ) (kw : Dict) : Ensures (Stored id) (surface id kw) := by
  have h1 : Ensures (fun w => (LRU.find w.caches.mu0 id).isSome) (surface id kw) := by
    unfold RT1.surface
    refine Ensures.bind_right fun _ => Ensures.bind_right fun w0 => ?_
    have ha := (stored_mu0_stable id).acc w0.backend
    refine Ensures.bind_left ?_ fun x => ha.convert x
    unfold Acc.surface
    refine Ensures.bind_left ?_ fun x => ?_
    · refine Ensures.bind_left ?_ fun _ => Safe.bind ha.srfCalc fun _ => Safe.lift _
      refine Ensures.bind_right fun _ => Ensures.bind_left (memo_stores fun _ _ => rfl) fun _ =>
        Safe.lift _
    · refine Safe.bind (Safe.mulM ha.atten (Safe.pure _)) fun y => ?_
      exact Safe.mulM (ha.par _) (Safe.addM (Safe.mulM (Safe.subM (Safe.litM _) (ha.par _))
        (Safe.pure _)) (Safe.mulM (ha.par _) (Safe.pure _)))
  have h2 : Ensures (fun w => (LRU.find w.caches.muEx id).isSome) (surface id kw) := by
    unfold RT1.surface
    refine Ensures.bind_right fun _ => Ensures.bind_right fun w0 => ?_
    have ha := (stored_muEx_stable id).acc w0.backend
    refine Ensures.bind_left ?_ fun x => ha.convert x
    unfold Acc.surface
    refine Ensures.bind_right fun x => ?_
    refine Ensures.bind_left ?_ fun y => ?_
    · refine Ensures.bind_left ?_ fun _ => Safe.bind (Safe.pure _) fun _ => Safe.lift _
      unfold Acc.atten expM mapM'
      refine Ensures.bind_left ?_ fun _ => Safe.pure _
      refine Ensures.bind_right fun _ => ?_
      refine Ensures.bind_left ?_ fun _ => Safe.lift _
      exact Ensures.bind_right fun _ => Ensures.bind_left (memo_stores fun _ _ => rfl) fun _ =>
        Safe.lift _
    · exact Safe.mulM (ha.par _) (Safe.addM (Safe.mulM (Safe.subM (Safe.litM _) (ha.par _))
        (Safe.pure _)) (Safe.mulM (ha.par _) (Safe.pure _)))
  exact fun w a ha => ⟨h1 w a ha, h2 w a ha⟩

/-! ### evaluations with given cosines -/

/-- `a` is what reading the entry `id` of a memo table returns, `f` being computed if there
is no entry. -/
def Reads (t : LRU ℕ Arr) (id : ℕ) (a f : Py Arr) : Prop :=
  (∀ v, LRU.find t id = some v → a = .ok v) ∧ (LRU.find t id = none → a = f)

theorem Reads.put {t : LRU ℕ Arr} {id : ℕ} {a f : Py Arr} {v : Arr} (h : a = .ok v) :
    Reads (LRU.put t id v) id a f := by
  refine ⟨fun u hu => ?_, fun hn => ?_⟩
  · rw [LRU.find_put_self] at hu; cases hu; exact h
  · rw [LRU.find_put_self] at hn; cases hn

/-- Values of the four tables as an evaluation on the object will read them. -/
structure Cos where
  a0 : Py Arr
  aE : Py Arr
  x0 : Py Arr
  xE : Py Arr

/-- The powers computed from a cosine. -/
def powersOf (o : Obj) (a : Py Arr) : Py Arr := do
  let n ← Fresh.nmax o
  let mu ← a
  Acc.muPowers n mu

/-- During an evaluation on `id` the cosines and their powers are `c`, stored or not. -/
structure Frozen (b : Backend) (id : ℕ) (o : Obj) (c : Cos) (w : World) : Prop where
  backend : w.backend = b
  obj : w.objs id = some o
  mu0 : Reads w.caches.mu0 id c.a0 (Fresh.mu0 o)
  muEx : Reads w.caches.muEx id c.aE (Fresh.muEx o)
  mu0x : Reads w.caches.mu0x id c.x0 (powersOf o c.a0)
  muExx : Reads w.caches.muExx id c.xE (powersOf o c.aE)
  inv : InvP w

/-- The accessors with given cosines. -/
def Fresh.accWith (b : Backend) (o : Obj) (c : Cos) : Acc Py :=
  { Fresh.acc0 b o with mu0 := c.a0, muEx := c.aE, mu0x := c.x0, muExx := c.xE }

section
variable {b : Backend} {id : ℕ} {o : Obj} {c : Cos}

local notation "F" => Frozen b id o c

theorem Frozen.same {w w' : World} (h : F w) (s : Same w w') : F w' :=
  ⟨s.backend.trans h.backend, by rw [s.objs]; exact h.obj, by rw [s.mu0]; exact h.mu0,
    by rw [s.muEx]; exact h.muEx, by rw [s.mu0x]; exact h.mu0x, by rw [s.muExx]; exact h.muExx, s.inv⟩

theorem Frozen.getObj_bind {α : Type} {f : Obj → M α} {y : Py α} (h : Refines F (f o) y) :
    Refines F (getObj id >>= f) y := by
  intro w hw
  rw [bind_ok (getObj_some hw.obj)]
  exact h w hw

/-- Reading a memo table. -/
theorem Frozen.memo {tab : Caches → LRU ℕ Arr} {setTab : Caches → LRU ℕ Arr → Caches} {x : M Arr}
    {a f : Py Arr} (hr : ∀ w, F w → Reads (tab w.caches) id a f)
    (hx : Refines F x f) (hput : ∀ w v, F w → a = .ok v →
      F { w with caches := setTab w.caches (LRU.put (tab w.caches) id v) }) :
    Refines F (RT1.memo tab setTab id x) a := by
  intro w hw
  unfold RT1.memo
  cases hf : LRU.find (tab w.caches) id with
  | some v =>
    have ha := (hr w hw).1 v hf
    exact ⟨ha.symm, hput w v hw ha⟩
  | none =>
    have ha := (hr w hw).2 hf
    obtain ⟨h1, h2⟩ := hx w hw
    cases hxw : x w with
    | mk r w' =>
      rw [hxw] at h1 h2
      have h1' : r = f := h1
      cases r with
      | error e => exact ⟨by rw [ha, ← h1'], h2⟩
      | ok v => exact ⟨by rw [ha, ← h1'], hput w' v h2 (by rw [ha, ← h1'])⟩

theorem Frozen.symbs (p : PName) : Refines F (Self.paramSymbs id p) (.ok (Fresh.symbs o p)) := by
  intro w hw
  obtain ⟨w', e, s⟩ := paramSymbs_exact hw.inv hw.obj p
  rw [e]
  exact ⟨rfl, hw.same s⟩

theorem Frozen.funcs (p : PName) : Refines F (Self.paramFuncs id p) (Fresh.pfun b o p) := by
  intro w hw
  obtain ⟨w', e, s⟩ := paramFuncs_exact hw.inv hw.obj p
  rw [e, hw.backend]
  exact ⟨rfl, hw.same s⟩

theorem Frozen.par (p : PName) : Refines F (Self.evalParam id p) (Fresh.par b o p) := by
  unfold Self.evalParam Fresh.par
  refine Refines.bind (Frozen.funcs p) fun f _ => ?_
  cases f with
  | some f =>
    have h2 : Refines F (getObj id >>= fun o => getW >>= fun w =>
        tryCatch (liftPy (do
          let kw ← Self.pick o.params (Fresh.symbs o p)
          f.call w.backend [] kw))
        fun e =>
          let missing := (Fresh.symbs o p).filter fun k => decide (k ∉ o.params.keys)
          if missing ≠ [] then throw (.typeError missing) else throw e)
        (tryCatch (do
          let kw ← Self.pick o.params (Fresh.symbs o p)
          f.call b [] kw)
        fun e =>
          let missing := (Fresh.symbs o p).filter fun k => decide (k ∉ o.params.keys)
          if missing ≠ [] then throw (.typeError missing) else throw e) := by
      refine Frozen.getObj_bind ?_
      intro w hw
      rw [bind_ok (show getW w = (.ok w, w) from rfl), hw.backend]
      refine Refines.tryCatch (I := F) (Refines.lift _) (fun e => ?_) w hw
      exact Refines.ite (fun _ => Refines.throw _) fun _ => Refines.throw _
    have := Refines.bind (I := F) (g := fun ks => tryCatch (do
          let kw ← Self.pick o.params (Fresh.symbs o p)
          f.call b [] kw)
        fun e =>
          let missing := (Fresh.symbs o p).filter fun k => decide (k ∉ o.params.keys)
          if missing ≠ [] then throw (.typeError missing) else throw e)
        (f := fun ks => getObj id >>= fun o => getW >>= fun w =>
        tryCatch (liftPy (do
          let kw ← Self.pick o.params ks
          f.call w.backend [] kw))
        fun e =>
          let missing := ks.filter fun k => decide (k ∉ o.params.keys)
          if missing ≠ [] then throw (.typeError missing) else throw e)
        (Frozen.symbs p) (fun ks hk => by
          cases hk
          refine Frozen.getObj_bind ?_
          intro w hw
          rw [bind_ok (show getW w = (.ok w, w) from rfl), hw.backend]
          refine Refines.tryCatch (I := F) (Refines.lift _) (fun e => ?_) w hw
          exact Refines.ite (fun _ => Refines.throw _) fun _ => Refines.throw _)
    exact this
  | none =>
    refine Frozen.getObj_bind ?_
    cases o.pdef p with
    | val a => exact Refines.pure_ok _
    | str e => exact Refines.throw' _
    | basic e => exact Refines.throw' _

theorem Frozen.t0 : Refines F (Self.t0 id) (Fresh.ang o .t0) := by
  unfold Self.t0
  refine Frozen.getObj_bind ?_
  unfold Fresh.ang
  cases o.ang .t0 with
  | none => exact Refines.throw' _
  | some a => exact Refines.pure_ok _

theorem Frozen.p0 : Refines F (Self.p0 id) (Fresh.ang o .p0) := by
  unfold Self.p0
  refine Frozen.getObj_bind ?_
  unfold Fresh.ang
  cases o.ang .p0 with
  | none => exact Refines.throw' _
  | some a => exact Refines.pure_ok _

theorem Frozen.tex : Refines F (Self.tex id) (Fresh.tex o) := by
  unfold Self.tex
  refine Frozen.getObj_bind ?_
  unfold Fresh.tex
  refine Refines.ite (fun _ => Frozen.t0) fun _ => ?_
  unfold Fresh.ang
  cases o.ang .tex with
  | none => exact Refines.throw' _
  | some a => exact Refines.pure_ok _

theorem Frozen.pex : Refines F (Self.pex id) (Fresh.pex o) := by
  unfold Self.pex
  refine Frozen.getObj_bind ?_
  unfold Fresh.pex
  refine Refines.ite (fun _ => Refines.bind Frozen.p0 fun a _ => Refines.lift _) fun _ => ?_
  unfold Fresh.ang
  cases o.ang .pex with
  | none => exact Refines.throw' _
  | some a => exact Refines.pure_ok _

theorem Frozen.mu0' : Refines F (Self.mu0 id) c.a0 :=
  Frozen.memo (fun _ h => h.mu0)
    (Refines.bind Frozen.t0 fun a _ => Refines.pure_ok (Arr.cos a))
    fun w v hw ha => ⟨hw.backend, hw.obj, Reads.put ha, hw.muEx, hw.mu0x, hw.muExx,
      hw.inv.next, hw.inv.psym, hw.inv.pfun⟩

theorem Frozen.muEx' : Refines F (Self.muEx id) c.aE :=
  Frozen.memo (fun _ h => h.muEx)
    (Refines.bind Frozen.tex fun a _ => Refines.pure_ok (Arr.cos a))
    fun w v hw ha => ⟨hw.backend, hw.obj, hw.mu0, Reads.put ha, hw.mu0x, hw.muExx,
      hw.inv.next, hw.inv.psym, hw.inv.pfun⟩

theorem Frozen.nmax : Refines F (Self.nmax id) (Fresh.nmax o) := by
  unfold Self.nmax Fresh.nmax
  refine Frozen.getObj_bind ?_
  exact Refines.bind (Refines.lift _) fun a _ => Refines.bind (Refines.lift _) fun b _ =>
    Refines.pure_ok _

theorem Frozen.mu0x' : Refines F (Self.mu0x id) c.x0 :=
  Frozen.memo (fun _ h => h.mu0x)
    (Refines.bind Frozen.nmax fun n _ => Refines.bind Frozen.mu0' fun mu _ => Refines.lift _)
    fun w v hw ha => ⟨hw.backend, hw.obj, hw.mu0, hw.muEx, Reads.put ha, hw.muExx,
      hw.inv.next, hw.inv.psym, hw.inv.pfun⟩

theorem Frozen.muExx' : Refines F (Self.muExx id) c.xE :=
  Frozen.memo (fun _ h => h.muExx)
    (Refines.bind Frozen.nmax fun n _ => Refines.bind Frozen.muEx' fun mu _ => Refines.lift _)
    fun w v hw ha => ⟨hw.backend, hw.obj, hw.mu0, hw.muEx, hw.mu0x, Reads.put ha,
      hw.inv.next, hw.inv.psym, hw.inv.pfun⟩

theorem Frozen.acc : AccRef F (Self.acc b id) (Fresh.accWith b o c) where
  backend := fun _ => Refines.pure _
  V := Frozen.getObj_bind (Refines.pure_ok _)
  SRF := Frozen.getObj_bind (Refines.pure_ok _)
  intQ := Frozen.getObj_bind (Refines.pure_ok _)
  sig0 := Frozen.getObj_bind (Refines.pure_ok _)
  dB := Frozen.getObj_bind (Refines.pure_ok _)
  I0 := Frozen.getObj_bind (Refines.pure_ok _)
  t0 := Frozen.t0
  tex := Frozen.tex
  p0 := Frozen.p0
  pex := Frozen.pex
  mu0 := Frozen.mu0'
  muEx := Frozen.muEx'
  par := Frozen.par
  symbs := Frozen.symbs
  pdef := fun p => Frozen.getObj_bind (Refines.pure_ok _)
  params := Frozen.getObj_bind (Refines.pure_ok _)

/-- Evaluating the coefficients does not compile anything new. -/
def Obj.Compiled (o : Obj) : Prop := o.fnevals_.isSome ∨ o.fnevalsInput.isSome ∨ o.intQ = false

/-- The interaction with coefficients that are already compiled. -/
theorem Frozen.accInt (hl : o.Compiled) : AccRefInt F (Self.acc b id) (Fresh.accWith b o c) where
  mu0x := Frozen.mu0x'
  muExx := Frozen.muExx'
  fnevals := by
    show Refines F (Self.fnevals id) (Fresh.fnevals b o)
    unfold Self.fnevals Fresh.fnevals
    refine Frozen.getObj_bind ?_
    unfold Obj.Compiled at hl
    cases h1 : o.fnevals_ with
    | some l => exact Refines.pure_ok _
    | none =>
      cases h2 : o.fnevalsInput with
      | some l => exact Refines.pure_ok _
      | none =>
        rw [h1, h2] at hl
        have hq : o.intQ = false := by simpa using hl
        simp only [hq]
        exact Refines.pure_ok _

/-- In every state an evaluation reads some values. -/
theorem Frozen.exists {w : World} (h : InvP w) (ho : w.objs id = some o) :
    ∃ c, Frozen w.backend id o c w := by
  have hx : ∀ (t : LRU ℕ Arr) (f : Py Arr), ∃ a, Reads t id a f := by
    intro t f
    cases hf : LRU.find t id with
    | none => exact ⟨f, fun v hv => by rw [hf] at hv; (cases hv), fun _ => rfl⟩
    | some v => exact ⟨.ok v, fun u hu => by rw [hf] at hu; cases hu; rfl,
        fun hn => by rw [hf] at hn; cases hn⟩
  obtain ⟨a0, h0⟩ := hx w.caches.mu0 (Fresh.mu0 o)
  obtain ⟨aE, hE⟩ := hx w.caches.muEx (Fresh.muEx o)
  obtain ⟨x0, hx0⟩ := hx w.caches.mu0x (powersOf o a0)
  obtain ⟨xE, hxE⟩ := hx w.caches.muExx (powersOf o aE)
  exact ⟨⟨a0, aE, x0, xE⟩, rfl, ho, h0, hE, hx0, hxE, h⟩

end

/-! ### compiled coefficients -/

/-- The object exists and its coefficients are compiled. -/
def Ready (id : ℕ) (w : World) : Prop := ∀ o, w.objs id = some o → o.Compiled

theorem Ready.modObj {id : ℕ} {f : Obj → Obj} (h : ∀ o, o.Compiled → (f o).Compiled) :
    Safe (Ready id) (modObj id f) := by
  intro w hw o ho
  have ho' : Function.update w.objs id ((w.objs id).map f) id = some o := ho
  rw [Function.update_self] at ho'
  cases hx : w.objs id with
  | none => rw [hx] at ho'; cases ho'
  | some x => rw [hx] at ho'; cases ho'; exact h x (hw x hx)

theorem Ready.stable (id : ℕ) : MemoStable (Ready id) id :=
  MemoStable.of_objs ⟨fun f => Ready.modObj fun o h => h, fun f => Ready.modObj fun o h => Or.inl rfl⟩
    fun w t h => h

theorem fnevals_ready (id : ℕ) : Ensures (Ready id) (Self.fnevals id) := by
  intro w a hw
  unfold Self.fnevals at hw ⊢
  cases ho : w.objs id with
  | none => rw [getObj_bind_none ho] at hw; cases hw
  | some o =>
    rw [bind_ok (getObj_some ho)] at hw ⊢
    have hsame : o.Compiled → Ready id w := by
      intro hc o' ho'
      rw [ho] at ho'; cases ho'; exact hc
    cases h1 : o.fnevals_ with
    | some l => exact hsame (Or.inl (by rw [h1]; rfl))
    | none =>
      rw [h1] at hw
      cases h2 : o.fnevalsInput with
      | some l => exact hsame (Or.inr (Or.inl (by rw [h2]; rfl)))
      | none =>
        rw [h2] at hw
        by_cases hq : o.intQ = true
        · simp only [hq, if_true] at hw ⊢
          refine (show Ensures (Ready id) _ from ?_) w a hw
          refine Ensures.bind_right fun f => ?_
          cases f with
          | none => intro w a h; cases h
          | some f =>
            refine Ensures.bind_right fun w1 => ?_
            split_ifs
            · intro w a h; cases h
            · refine Ensures.bind_left ?_ fun _ => Safe.pure _
              intro w a _ o' ho'
              have ho2 : Function.update w.objs id ((w.objs id).map _) id = some o' := ho'
              rw [Function.update_self] at ho2
              cases hx : w.objs id with
              | none => rw [hx] at ho2; cases ho2
              | some x => rw [hx] at ho2; cases ho2; exact Or.inl rfl
        · simp only [if_neg hq]
          exact hsame (Or.inr (Or.inr (by simpa using hq)))

/-- A successful `interaction` call leaves the coefficients compiled. -/
theorem interaction_ready (id : ℕ) (kw : Dict) : Ensures (Ready id) (interaction id kw) := by
  unfold RT1.interaction
  refine Ensures.bind_right fun _ => Ensures.bind_right fun w0 => ?_
  have ha := (Ready.stable id).acc w0.backend
  refine Ensures.bind_left ?_ fun x => ha.convert x
  unfold Acc.interaction
  refine Ensures.bind_left ?_ fun F1 => ?_
  · unfold Acc.fint1 Acc.fint
    refine Ensures.bind_right fun _ => Ensures.bind_right fun _ => Ensures.bind_right fun _ => ?_
    refine Ensures.bind_left (fnevals_ready id) fun f => ?_
    have hn := ha.nmax
    have hm := ha.mu0x
    have h0 := ha.mu0
    have ht := ha.par .tau
    generalize (Self.acc w0.backend id).nmax = N at *
    generalize (Self.acc w0.backend id).mu0x = X at *
    generalize (Self.acc w0.backend id).mu0 = Y at *
    generalize (Self.acc w0.backend id).par .tau = T at *
    cases f with
    | none => exact Safe.bind (Safe.throw _) fun _ => by repeat' safe_step
    | some f => exact Safe.bind (ha.fnCall f _) fun _ => by repeat' safe_step
  · refine Safe.bind ha.fint2 fun F2 => Safe.bind ?_ fun x => ?_
    · exact Safe.mulM (Safe.mulM (Safe.mulM ha.I0 ha.mu0) (ha.par _)) (Safe.addM
        (Safe.mulM (Safe.expM (Safe.divM (Safe.negM (ha.par _)) ha.muEx)) (Safe.pure _))
        (Safe.mulM (Safe.expM (Safe.divM (Safe.negM (ha.par _)) ha.mu0)) (Safe.pure _)))
    · exact Safe.mulM (Safe.mulM (ha.par _) (Safe.subM (Safe.litM _) (ha.par _))) (Safe.pure _)

end

end RT1
