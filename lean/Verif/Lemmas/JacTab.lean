import Verif.Lemmas.JacMemo
import Verif.Lemmas.JacObs

/-! Which memoised derivatives a call of `jacobian()` reads and leaves behind. -/

namespace RT1

noncomputable section
open Classical

/-- What `jacobian` makes of the computed list. -/
def jacFmt (pd : Dict) (keys : List String) (format : String) (l : List Arr) :
    Py (List Arr ⊕ List (List XR)) :=
  if format = "list" then .ok (.inl l)
  else if format = "scipy_least_squares" then do
    let cols ← Jac.columns pd (keys.zip l)
    .ok (.inr cols)
  else .error (.typeError [])

theorem jacobian_fmt {w : World} (hw : Reachable w) {id : ℕ} {o : Obj} (ho : w.objs id = some o)
    (keys : List String) (format : String) :
    (jacobian id keys format w).1 =
      ((jacobianList id keys w).1 >>= fun l => jacFmt o.params keys format l) := by
  obtain ⟨-, h⟩ := jacobianList_spec hw ho keys
  unfold jacobian jacFmt
  cases hx : jacobianList id keys w with
  | mk r w1 =>
    rw [hx] at h
    cases r with
    | error e => rw [bind_error hx]; rfl
    | ok l =>
      rw [bind_ok hx]
      obtain ⟨o', ho', hf⟩ := h.1.obj
      show _ = (if format = "list" then _ else _)
      split_ifs
      · rfl
      · rw [bind_ok (getObj_some ho'), hf.params]
        cases hc : Jac.columns o.params (keys.zip l) with
        | error e => rfl
        | ok c => rfl
      · rfl

/-- `jacobian([key])` in terms of what the tables hold for `key`. -/
theorem jacobian1_look {w : World} (hw : Reachable w) {id : ℕ} {o : Obj} (ho : w.objs id = some o)
    (key : String) : (jacobianList id [key] w).1 = (do
      let norm ← (Fresh.acc0 w.backend o).jacNorm
      let x ← (Fresh.acc w.backend o (fun _ => lookV w.backend id o key w.caches.dVol)
        (fun _ => lookS w.backend id o key w.caches.dSrf)).jacEntry norm key
      pure [x]) := by
  set dv := lookV w.backend id o key w.caches.dVol with hdv
  set ds := lookS w.backend id o key w.caches.dSrf with hds
  have hd : During true w id o (fun tv ts => lookV w.backend id o key tv = dv ∧
    lookS w.backend id o key ts = ds) w := During.init hw.inv ho ⟨rfl, rfl⟩
  have hA := accRef (full := true) (w0 := w) (id := id) (o := o)
    (S := fun tv ts => lookV w.backend id o key tv = dv ∧ lookS w.backend id o key ts = ds)
    (fun _ => dv) (fun _ => ds)
  unfold jacobianList
  rw [bind_ok (show getW w = (.ok w, w) from rfl)]
  unfold Acc.jacList
  obtain ⟨h1, h2⟩ := hA.jacNorm w hd
  have h1' : ((Self.acc w.backend id).jacNorm w).1 = (Fresh.acc0 w.backend o).jacNorm := h1
  cases hx : (Self.acc w.backend id).jacNorm w with
  | mk r w1 =>
    rw [hx] at h1' h2
    rw [← h1']
    cases r with
    | error e => rw [bind_error hx]; rfl
    | ok norm =>
      rw [bind_ok hx]
      obtain ⟨h3, -⟩ := hA.jacEntry norm key Refines.dVolLam Refines.dSrfLam w1 h2
      unfold Acc.jacLoop
      cases hy : (Self.acc w.backend id).jacEntry norm key w1 with
      | mk r2 w2 =>
        rw [hy] at h3
        have h3' : r2 = (Fresh.acc w.backend o (fun _ => dv) (fun _ => ds)).jacEntry norm key := h3
        cases r2 with
        | error e => rw [bind_error hy]; rw [okb, ← h3']; rfl
        | ok x => rw [bind_ok hy]; rw [okb, ← h3']; rfl

/-! ### other objects only remove entries -/

/-- The tables of derivatives hold nothing about `id` that `w0` does not hold. -/
def SubTab (w0 : World) (id : ℕ) (w : World) : Prop :=
  (∀ k f, LRU.find w.caches.dVol (id, k) = some f → LRU.find w0.caches.dVol (id, k) = some f) ∧
  (∀ k f, LRU.find w.caches.dSrf (id, k) = some f → LRU.find w0.caches.dSrf (id, k) = some f)

theorem SubTab.refl (w : World) (id : ℕ) : SubTab w id w := ⟨fun _ _ h => h, fun _ _ h => h⟩

theorem SubTab.same {w0 w w' : World} {id : ℕ} (h : SubTab w0 id w)
    (h1 : w'.caches.dVol = w.caches.dVol) (h2 : w'.caches.dSrf = w.caches.dSrf) :
    SubTab w0 id w' := by
  unfold SubTab
  rw [h1, h2]
  exact h

theorem SubTab.modObj {w0 : World} {id j : ℕ} (f : Obj → Obj) :
    Safe (SubTab w0 id) (RT1.modObj j f) := fun _ h => h.same rfl rfl

theorem SubTab.stable (w0 : World) {id j : ℕ} (hj : j ≠ id) : MemoStable (SubTab w0 id) j where
  mu0 := Safe.memo (Safe.bind Safe.t0 fun _ => Safe.pure _) fun w v hw => hw.same rfl rfl
  muEx := Safe.memo (Safe.bind Safe.tex fun _ => Safe.pure _) fun w v hw => hw.same rfl rfl
  mu0x := Safe.memo (Safe.bind Safe.nmax fun _ => Safe.bind
    (Safe.memo (Safe.bind Safe.t0 fun _ => Safe.pure _) fun w v hw => hw.same rfl rfl)
    fun _ => Safe.lift _) fun w v hw => hw.same rfl rfl
  muExx := Safe.memo (Safe.bind Safe.nmax fun _ => Safe.bind
    (Safe.memo (Safe.bind Safe.tex fun _ => Safe.pure _) fun w v hw => hw.same rfl rfl)
    fun _ => Safe.lift _) fun w v hw => hw.same rfl rfl
  psym := fun _ => Safe.memo (Safe.bind (Safe.getObj j) fun _ => Safe.pure _)
    fun w v hw => hw.same rfl rfl
  pfun := by
    intro p
    have hs : Safe (SubTab w0 id) (Self.paramSymbs j p) :=
      Safe.memo (Safe.bind (Safe.getObj j) fun _ => Safe.pure _) fun w v hw => hw.same rfl rfl
    refine Safe.memo (Safe.bind (Safe.getObj j) fun o => ?_) fun w v hw => hw.same rfl rfl
    cases o.pdef p with
    | val a => exact Safe.pure _
    | str e =>
      exact Safe.bind hs fun _ => Safe.bind Safe.getW fun _ =>
        Safe.bind (Safe.lift _) fun _ => Safe.pure _
    | basic e =>
      exact Safe.bind hs fun _ => Safe.bind Safe.getW fun _ =>
        Safe.bind (Safe.lift _) fun _ => Safe.pure _
  fnevals := Safe.fnevals ⟨fun _ => SubTab.modObj _, fun _ => SubTab.modObj _⟩
  dVol := fun k => Safe.memo (Safe.bind (Safe.getObj j) fun _ => Safe.bind Safe.getW fun _ =>
    Safe.lift _) fun w v hw => ⟨fun k' f h => hw.1 k' f (LRU.find_put_of_ne
      (by intro e; exact hj (Prod.ext_iff.mp e).1.symm) h), hw.2⟩
  dSrf := fun k => Safe.memo (Safe.bind (Safe.getObj j) fun _ => Safe.bind Safe.getW fun _ =>
    Safe.lift _) fun w v hw => ⟨hw.1, fun k' f h => hw.2 k' f (LRU.find_put_of_ne
      (by intro e; exact hj (Prod.ext_iff.mp e).1.symm) h)⟩

theorem SubTab.clearGeom {w0 : World} {id : ℕ} : Safe (SubTab w0 id) RT1.clearGeom :=
  fun _ h => h.same rfl rfl
theorem SubTab.clearParam {w0 : World} {id : ℕ} : Safe (SubTab w0 id) RT1.clearParam :=
  fun _ h => h.same rfl rfl

theorem SubTab.resetGeom {w0 : World} {id j : ℕ} (b : Bool) :
    Safe (SubTab w0 id) (RT1.resetGeom j b) :=
  Safe.bind (SubTab.modObj _) fun _ => Safe.bind SubTab.clearGeom fun _ => SubTab.modObj _

theorem SubTab.setMonostatic {w0 : World} {id j : ℕ} (p : Option PyArg) :
    Safe (SubTab w0 id) (RT1.setMonostatic j p) := by
  refine Safe.bind (SubTab.resetGeom _) fun _ => Safe.bind ?_ fun _ => SubTab.modObj _
  cases p with
  | none => exact Safe.pure _
  | some a =>
    cases a with
    | other => exact Safe.throw _
    | number r => exact Safe.bind (SubTab.modObj _) fun _ => Safe.pure _

theorem SubTab.bistaticAngle {w0 : World} {id j : ℕ} (n : AngN) (s : String) (p : Option PyArg) :
    Safe (SubTab w0 id) (RT1.bistaticAngle j n s p) := by
  cases p with
  | none => exact Safe.pure _
  | some a =>
    cases a with
    | other => exact Safe.throw _
    | number r => exact Safe.bind (SubTab.modObj _) fun _ => Safe.pure _

theorem SubTab.step {w0 : World} {id : ℕ} {op : Op} (ht : op.target ≠ some id) :
    Safe (SubTab w0 id) (RT1.step op) := by
  have hu : ∀ j kw, Safe (SubTab w0 id) (RT1.updateParams j kw) := fun j kw =>
    Safe.bind (Safe.getObj j) fun o => SubTab.modObj _
  cases op <;> simp only [Op.target, ne_eq, Option.some.injEq] at ht
  case new V SRF q s d f fe i =>
    intro w hw
    have : (RT1.step (.new V SRF q s d f fe i) w).2 =
      (RT1.setMonostatic w.next none (w.addObj (initObj V SRF q s d f fe i))).2 := rfl
    rw [this]
    exact SubTab.setMonostatic none _ (hw.same rfl rfl)
  case setMonostatic j p => exact SubTab.setMonostatic p
  case setBistatic j a b c d =>
    exact Safe.bind (SubTab.resetGeom false) fun _ => Safe.bind (SubTab.bistaticAngle _ _ _) fun _ =>
      Safe.bind (SubTab.bistaticAngle _ _ _) fun _ => Safe.bind (SubTab.bistaticAngle _ _ _) fun _ =>
      Safe.bind (SubTab.bistaticAngle _ _ _) fun _ => SubTab.modObj _
  case setGeometry j l => exact Safe.setGeometry SubTab.clearGeom (fun _ _ => SubTab.modObj _) l
  case updateParams j kw => exact hu j kw
  case setParamDef j p d => exact Safe.bind SubTab.clearParam fun _ => SubTab.modObj _
  case setIntQ j b => exact SubTab.modObj _
  case setSig0 j b => exact SubTab.modObj _
  case setDB j b => exact SubTab.modObj _
  case setI0 j b => exact SubTab.modObj _
  case evalCalc j kw =>
    exact Safe.bind (Safe.calcOp (SubTab.stable w0 ht) (hu j kw)) fun _ => Safe.pure _
  case surface j kw =>
    exact Safe.bind (Safe.surfaceOp (SubTab.stable w0 ht) (hu j kw)) fun _ => Safe.pure _
  case volume j kw =>
    exact Safe.bind (Safe.volumeOp (SubTab.stable w0 ht) (hu j kw)) fun _ => Safe.pure _
  case interaction j kw =>
    exact Safe.bind (Safe.interactionOp (SubTab.stable w0 ht) (hu j kw)) fun _ => Safe.pure _
  case jacobian j ks f =>
    exact Safe.bind (Safe.jacobianOp (SubTab.stable w0 ht)) fun _ => Safe.pure _
  case getParam j p =>
    exact Safe.bind (Safe.evalParam (SubTab.stable w0 ht) p) fun _ => Safe.pure _
  case pickle j =>
    intro w hw
    have : (RT1.step (.pickle j) w).2 = (pickle j w).2 := by
      show ((pickle j >>= fun _ => pure ()) w).2 = _
      cases hx : pickle j w with
      | mk r w' =>
        cases r with
        | error e => rw [bind_error hx]
        | ok a => rw [bind_ok hx]; rfl
    rw [this, pickle_eq]
    cases ho : w.objs j with
    | none => exact hw.same rfl rfl
    | some o => exact hw.same rfl rfl
  case setV j V => exact SubTab.modObj _
  case setSRF j V => exact SubTab.modObj _
  case overwriteArg j n a => exact SubTab.modObj _
  case clearCaches j =>
    intro w hw
    refine ⟨?_, ?_⟩
    · intro k f h
      exact absurd (show (none : Option Lam) = some f from h) (by simp)
    · intro k f h
      exact absurd (show (none : Option Lam) = some f from h) (by simp)
  case surfaceVolume j =>
    exact Safe.bind (Safe.surfaceVolumeOp (SubTab.stable w0 ht)) fun _ => Safe.pure _
  case checkParams j names =>
    exact Safe.bind (Safe.checkParamsOp (SubTab.stable w0 ht)) fun _ => Safe.pure _

theorem SubTab.run {w : World} {id : ℕ} {ops : List Op} (h : ∀ op ∈ ops, op.target ≠ some id) :
    SubTab w id (RT1.run w ops) :=
  run_induction (P := SubTab w id) (fun op hop => SubTab.step (h op hop)) (SubTab.refl w id)

theorem SubTab.lookV {w w' : World} {id : ℕ} (h : SubTab w id w') (b : Backend) (o : Obj)
    (key : String) : RT1.lookV b id o key w'.caches.dVol = RT1.lookV b id o key w.caches.dVol ∨
      RT1.lookV b id o key w'.caches.dVol = Fresh.dVol b o key := by
  unfold RT1.lookV
  cases hf : LRU.find w'.caches.dVol (id, key) with
  | none => exact Or.inr rfl
  | some f => rw [h.1 _ _ hf]; exact Or.inl rfl

theorem SubTab.lookS {w w' : World} {id : ℕ} (h : SubTab w id w') (b : Backend) (o : Obj)
    (key : String) : RT1.lookS b id o key w'.caches.dSrf = RT1.lookS b id o key w.caches.dSrf ∨
      RT1.lookS b id o key w'.caches.dSrf = Fresh.dSrf b o key := by
  unfold RT1.lookS
  cases hf : LRU.find w'.caches.dSrf (id, key) with
  | none => exact Or.inr rfl
  | some f => rw [h.2 _ _ hf]; exact Or.inl rfl

/-- A successful `jacobian([key])` is not affected by calls on other objects. -/
theorem jacobian1_stable {w : World} (hw : Reachable w) (hb : w.backend = .sympy) {id : ℕ} {o : Obj}
    (ho : w.objs id = some o) {ops : List Op} (hk : ∀ op ∈ ops, op.Plain)
    (h : ∀ op ∈ ops, op.target ≠ some id) (key : String) :
    SLe (jacobianList id [key] w).1 (jacobianList id [key] (run w ops)).1 := by
  have ho' := run_get hw.keeps.any.next ho h
  have hb' : (run w ops).backend = .sympy := by rw [run_backend]; exact hb
  have hsub := SubTab.run (w := w) h
  have hn := (ReachableAny.bsfOK hw.keeps.any ho).2
  rw [jacobian1_look hw ho, jacobian1_look (hw.run hk) ho', hb, hb']
  have hi := hw.invD
  refine SLe.bind (SLe.refl _) fun norm => SLe.bind ?_ fun _ => SLe.refl _
  refine SLe.jacEntry hn ?_ ?_ (hsub.lookV .sympy o key) (hsub.lookS .sympy o key) norm
  · intro f hf
    have := hi.lookV (w0 := w) rfl ho (Filled.refl _ _) (key := key) (f := f) (by rw [hb]; exact hf)
    rwa [hb] at this
  · intro f hf
    have := hi.lookS (w0 := w) rfl ho (Filled.refl _ _) (key := key) (f := f) (by rw [hb]; exact hf)
    rwa [hb] at this

end

end RT1
