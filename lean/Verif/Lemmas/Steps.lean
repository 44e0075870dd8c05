import Verif.Lemmas.Safe

/-! Every call preserves the invariant of the memo tables and does not touch other objects. -/

namespace RT1

noncomputable section
open Classical

/-! ### frames -/

/-- Only the object `id` (and memo tables) differ from `w0`. -/
structure FrameP (w0 : World) (id : ℕ) (w : World) : Prop where
  backend : w.backend = w0.backend
  next : w.next = w0.next
  objs : ∀ j, j ≠ id → w.objs j = w0.objs j
  ex : (w.objs id).isSome = (w0.objs id).isSome

theorem FrameP.refl (w : World) (id : ℕ) : FrameP w id w := ⟨rfl, rfl, fun _ _ => rfl, rfl⟩

theorem FrameP.safe_modObj {w0 : World} {id : ℕ} (f : Obj → Obj) :
    Safe (FrameP w0 id) (modObj id f) := by
  intro w hw
  refine ⟨hw.backend, hw.next, fun j hj => ?_, ?_⟩
  · show Function.update w.objs id _ j = _
    rw [Function.update_of_ne hj]
    exact hw.objs j hj
  · show (Function.update w.objs id _ id).isSome = _
    rw [Function.update_self, Option.isSome_map]
    exact hw.ex

theorem FrameP.safe_caches {w0 : World} {id : ℕ} (w : World) (c : Caches) (h : FrameP w0 id w) :
    FrameP w0 id { w with caches := c } := ⟨h.backend, h.next, h.objs, h.ex⟩

theorem FrameP.stable (w0 : World) (id : ℕ) : MemoStable (FrameP w0 id) id :=
  MemoStable.of_objs ⟨fun _ => safe_modObj _, fun _ => safe_modObj _⟩ fun w c h => safe_caches w c h

theorem FrameP.clearGeom {w0 : World} {id : ℕ} : Safe (FrameP w0 id) clearGeom :=
  fun w h => safe_caches w _ h

theorem FrameP.clearParam {w0 : World} {id : ℕ} : Safe (FrameP w0 id) clearParam :=
  fun w h => safe_caches w _ h

theorem FrameP.clearAll {w0 : World} {id : ℕ} : Safe (FrameP w0 id) clearAll :=
  fun w h => safe_caches w _ h

theorem FrameP.updateParams {w0 : World} {id : ℕ} (kw : Dict) :
    Safe (FrameP w0 id) (updateParams id kw) :=
  Safe.bind (Safe.getObj id) fun _ => safe_modObj _

theorem FrameP.resetGeom {w0 : World} {id : ℕ} (b : Bool) : Safe (FrameP w0 id) (resetGeom id b) :=
  Safe.bind (safe_modObj _) fun _ => Safe.bind clearGeom fun _ => safe_modObj _

theorem FrameP.setMonostatic {w0 : World} {id : ℕ} (p : Option PyArg) :
    Safe (FrameP w0 id) (setMonostatic id p) := by
  refine Safe.bind (resetGeom _) fun _ => Safe.bind ?_ fun _ => safe_modObj _
  cases p with
  | none => exact Safe.pure _
  | some a =>
    cases a with
    | other => exact Safe.throw _
    | number r => exact Safe.bind (safe_modObj _) fun _ => Safe.pure _

theorem FrameP.bistaticAngle {w0 : World} {id : ℕ} (n : AngN) (s : String) (p : Option PyArg) :
    Safe (FrameP w0 id) (bistaticAngle id n s p) := by
  cases p with
  | none => exact Safe.pure _
  | some a =>
    cases a with
    | other => exact Safe.throw _
    | number r => exact Safe.bind (safe_modObj _) fun _ => Safe.pure _

theorem FrameP.setBistatic {w0 : World} {id : ℕ} (a b c d : Option PyArg) :
    Safe (FrameP w0 id) (setBistatic id a b c d) :=
  Safe.bind (resetGeom _) fun _ => Safe.bind (bistaticAngle _ _ _) fun _ =>
    Safe.bind (bistaticAngle _ _ _) fun _ => Safe.bind (bistaticAngle _ _ _) fun _ =>
    Safe.bind (bistaticAngle _ _ _) fun _ => safe_modObj _

theorem Safe.setAngles {P : World → Prop} {id : ℕ}
    (h : ∀ n a, Safe P (modObj id fun o =>
      { o with ang := Function.update o.ang n (some (Arr.atleast1d a)) }))
    (l : List (String × Option Arr)) : Safe P (setAngles id l) := by
  induction l with
  | nil => exact Safe.pure _
  | cons p l ih =>
    obtain ⟨k, v⟩ := p
    unfold RT1.setAngles
    cases AngN.ofName k with
    | none => exact ih
    | some n =>
      refine Safe.bind (Safe.getObj id) fun o => ?_
      by_cases hn : n ∈ o.fixed
      · simp only [hn, if_true]
        exact Safe.throw (α := Unit) _ |>.bind fun _ => ih
      · simp only [hn, if_false]
        cases v with
        | none => exact Safe.throw (α := Unit) _ |>.bind fun _ => ih
        | some a => exact (h n a).bind fun _ => ih

theorem Safe.setGeometry {P : World → Prop} {id : ℕ} (hc : Safe P clearGeom)
    (h : ∀ n a, Safe P (modObj id fun o =>
      { o with ang := Function.update o.ang n (some (Arr.atleast1d a)) }))
    (l : List (String × Option Arr)) : Safe P (setGeometry id l) := by
  unfold RT1.setGeometry
  exact Safe.ite (fun _ => Safe.throw _) fun _ => Safe.bind (Safe.getObj id) fun o =>
    Safe.ite (fun _ => Safe.throw _) fun _ => Safe.bind hc fun _ => Safe.setAngles h l

theorem FrameP.setGeometry {w0 : World} {id : ℕ} (l : List (String × Option Arr)) :
    Safe (FrameP w0 id) (setGeometry id l) :=
  Safe.setGeometry clearGeom (fun _ _ => safe_modObj _) l

/-- Evaluation calls preserve what updating parameters and memoising preserve. -/
theorem Safe.calcOp {P : World → Prop} {id : ℕ} {kw : Dict} (h : MemoStable P id)
    (hu : Safe P (updateParams id kw)) : Safe P (calcOp id kw) :=
  Safe.bind hu fun _ => Safe.bind Safe.getW fun _ => (h.acc _).calcTry
theorem Safe.surfaceOp {P : World → Prop} {id : ℕ} {kw : Dict} (h : MemoStable P id)
    (hu : Safe P (updateParams id kw)) : Safe P (RT1.surface id kw) :=
  Safe.bind hu fun _ => Safe.bind Safe.getW fun _ =>
    Safe.bind (h.acc _).surface fun _ => (h.acc _).convert _
theorem Safe.volumeOp {P : World → Prop} {id : ℕ} {kw : Dict} (h : MemoStable P id)
    (hu : Safe P (updateParams id kw)) : Safe P (RT1.volume id kw) :=
  Safe.bind hu fun _ => Safe.bind Safe.getW fun _ =>
    Safe.bind (h.acc _).volume fun _ => (h.acc _).convert _
theorem Safe.interactionOp {P : World → Prop} {id : ℕ} {kw : Dict} (h : MemoStable P id)
    (hu : Safe P (updateParams id kw)) : Safe P (RT1.interaction id kw) :=
  Safe.bind hu fun _ => Safe.bind Safe.getW fun _ =>
    Safe.bind (h.acc _).interaction fun _ => (h.acc _).convert _
theorem Safe.jacobianOp {P : World → Prop} {id : ℕ} {ks : List String} {f : String}
    (h : MemoStable P id) : Safe P (RT1.jacobian id ks f) := by
  unfold RT1.jacobian RT1.jacobianList
  refine Safe.bind (Safe.bind Safe.getW fun _ => (h.acc _).jacList _) fun _ => ?_
  refine Safe.ite (fun _ => Safe.pure _) fun _ => Safe.ite (fun _ => ?_) fun _ => Safe.throw _
  exact Safe.bind (Safe.getObj id) fun _ => Safe.bind (Safe.lift _) fun _ => Safe.pure _

theorem Safe.surfaceVolumeOp {P : World → Prop} {id : ℕ} (h : MemoStable P id) :
    Safe P (RT1.surfaceVolume id) := by
  unfold RT1.surfaceVolume
  exact Safe.bind (Safe.getObj id) fun _ => Safe.bind Safe.getW fun _ =>
    Safe.bind (Safe.addM (h.acc _).surface (h.acc _).volume) fun _ => (h.acc _).convert _
theorem Safe.checkParamsOp {P : World → Prop} {id : ℕ} {names : List String}
    (h : MemoStable P id) : Safe P (RT1.checkParams id names) := by
  unfold RT1.checkParams
  refine Safe.bind (Safe.getObj id) fun _ => Safe.bind Safe.getW fun w => ?_
  refine Safe.bind ((h.acc w.backend).symbs _) fun _ => ?_
  refine Safe.bind ((h.acc w.backend).symbs _) fun _ => ?_
  refine Safe.bind ((h.acc w.backend).symbs _) fun _ => ?_
  refine Safe.bind ((h.acc w.backend).symbs _) fun _ => ?_
  refine Safe.bind (h.acc w.backend).V fun _ => Safe.bind (h.acc w.backend).SRF fun _ =>
    Safe.bind (h.acc w.backend).params fun _ => ?_
  exact Safe.ite (fun _ => Safe.throw _) fun _ => Safe.pure _

/-- The object a call is made on (`none` for the constructor). -/
def Op.target : Op → Option ℕ
  | .new _ _ _ _ _ _ _ _ => none
  | .setMonostatic id _ => some id
  | .setBistatic id _ _ _ _ => some id
  | .setGeometry id _ => some id
  | .updateParams id _ => some id
  | .setParamDef id _ _ => some id
  | .setIntQ id _ => some id
  | .setSig0 id _ => some id
  | .setDB id _ => some id
  | .setI0 id _ => some id
  | .evalCalc id _ => some id
  | .surface id _ => some id
  | .volume id _ => some id
  | .interaction id _ => some id
  | .jacobian id _ _ => some id
  | .getParam id _ => some id
  | .pickle id => some id
  | .setV id _ => some id
  | .setSRF id _ => some id
  | .overwriteArg id _ _ => some id
  | .clearCaches id => some id
  | .surfaceVolume id => some id
  | .checkParams id _ => some id

/-- Calls that create an object. -/
def Op.creates : Op → Prop
  | .new _ _ _ _ _ _ _ _ => True
  | .pickle _ => True
  | _ => False

/-- Calls that do not create an object only touch their own object. -/
theorem frame_step {op : Op} {id : ℕ} (ht : op.target = some id) (hc : ¬ op.creates) (w0 : World) :
    Safe (FrameP w0 id) (step op) := by
  have hs := FrameP.stable w0 id
  cases op <;> simp only [Op.target, Option.some.injEq, reduceCtorEq] at ht <;> subst ht
  case setMonostatic p => exact FrameP.setMonostatic p
  case setBistatic a b c d => exact FrameP.setBistatic a b c d
  case setGeometry l => exact FrameP.setGeometry l
  case updateParams kw => exact FrameP.updateParams kw
  case setParamDef p d =>
    exact Safe.bind FrameP.clearParam fun _ => FrameP.safe_modObj _
  case setIntQ b => exact FrameP.safe_modObj _
  case setSig0 b => exact FrameP.safe_modObj _
  case setDB b => exact FrameP.safe_modObj _
  case setI0 b => exact FrameP.safe_modObj _
  case evalCalc kw => exact Safe.bind (Safe.calcOp hs (FrameP.updateParams kw)) fun _ => Safe.pure _
  case surface kw => exact Safe.bind (Safe.surfaceOp hs (FrameP.updateParams kw)) fun _ => Safe.pure _
  case volume kw => exact Safe.bind (Safe.volumeOp hs (FrameP.updateParams kw)) fun _ => Safe.pure _
  case interaction kw =>
    exact Safe.bind (Safe.interactionOp hs (FrameP.updateParams kw)) fun _ => Safe.pure _
  case jacobian ks f => exact Safe.bind (Safe.jacobianOp hs) fun _ => Safe.pure _
  case getParam p => exact Safe.bind (Safe.evalParam hs p) fun _ => Safe.pure _
  case pickle => exact absurd trivial hc
  case setV V => exact FrameP.safe_modObj _
  case setSRF V => exact FrameP.safe_modObj _
  case overwriteArg n a => exact FrameP.safe_modObj _
  case clearCaches => exact FrameP.clearAll
  case surfaceVolume => exact Safe.bind (Safe.surfaceVolumeOp hs) fun _ => Safe.pure _
  case checkParams names => exact Safe.bind (Safe.checkParamsOp hs) fun _ => Safe.pure _

/-! ### constructor and pickling -/

/-- Numbers of objects that do not exist yet. -/
def NextOK (w : World) : Prop := ∀ id, w.next ≤ id → w.objs id = none

/-- A freshly constructed object (before `set_monostatic` at the end of `__init__`). -/
def initObj (V SRF : Scatter) (q s d : Bool) (fnI : Option (List P)) (fneI : Option FnLam)
    (I0 : Arr) : Obj :=
  { V := V, SRF := SRF, intQ := q, sig0 := s, dB := d, I0 := I0
    pdef := defaultDefs, params := [("bsf", Arr.lit 0)], fixed := [], mono := true
    ang := fun _ => none
    geom := ⟨.sym "theta_0", .sym "theta_0", .sym "phi_0", .sym "phi_0"⟩
    fn_ := none, fnevals_ := none, fnInput := fnI, fnevalsInput := fneI, analyze := true }

/-- Add an object. -/
def World.addObj (w : World) (o : Obj) : World :=
  { w with objs := Function.update w.objs w.next (some o), next := w.next + 1 }

theorem newObj_eq (V SRF : Scatter) (q s d : Bool) (fnI : Option (List P)) (fneI : Option FnLam)
    (I0 : Arr) (w : World) :
    newObj V SRF q s d fnI fneI I0 w =
      (.ok w.next, (setMonostatic w.next none (w.addObj (initObj V SRF q s d fnI fneI I0))).2) := by
  rfl

theorem setMonostatic_none_ok (id : ℕ) (w : World) : (setMonostatic id none w).1 = .ok () := rfl

theorem pickle_eq (id : ℕ) (w : World) :
    pickle id w = match w.objs id with
      | some o =>
        (.ok w.next, ((modObj id fun o => { o with analyze := false }) w).2.addObj
          { o with analyze := false })
      | none => (.error .attributeError, ((modObj id fun o => { o with analyze := false }) w).2) := by
  unfold pickle
  rw [bind_ok (show modObj id (fun o => { o with analyze := false }) w = (.ok (), _) from rfl)]
  cases h : w.objs id with
  | none =>
    rw [bind_error (getObj_none (by simp [h]))]
    rfl
  | some o =>
    rw [bind_ok (getObj_some (o := { o with analyze := false }) (by simp [h]))]
    rfl

/-! ### preservation of the invariant -/

theorem Holds.modObj {w : World} {id j : ℕ} {f : Obj → Obj} {Q : Obj → Prop}
    (hQ : j = id → ∀ o, w.objs id = some o → Q o → Q (f o)) (h : Holds w j Q) :
    Holds ((modObj id f) w).2 j Q := by
  obtain ⟨o, ho, hq⟩ := h
  by_cases hj : j = id
  · subst hj
    exact ⟨f o, by show Function.update w.objs j _ j = _; simp [ho], hQ rfl o ho hq⟩
  · exact ⟨o, by show Function.update w.objs id _ j = _; simp [Function.update_of_ne hj, ho], hq⟩

/-- The geometry tables are empty. -/
def GeoNil (w : World) : Prop :=
  w.caches.mu0 = [] ∧ w.caches.muEx = [] ∧ w.caches.mu0x = [] ∧ w.caches.muExx = []

/-- The parameter tables are empty. -/
def ParNil (w : World) : Prop := w.caches.pfun = [] ∧ w.caches.psym = []

/-- Modifying attributes preserves the invariant if the tables that depend on them are empty. -/
theorem Inv.modObj {full : Bool} {w : World} {id : ℕ} {f : Obj → Obj} (hw : Inv full w)
    (hg : GeoNil w ∨ ∀ o, w.objs id = some o → Fresh.mu0 (f o) = Fresh.mu0 o ∧
      Fresh.muEx (f o) = Fresh.muEx o ∧ (full = true → Fresh.nmax (f o) = Fresh.nmax o))
    (hp : ParNil w ∨ ∀ o, w.objs id = some o → (f o).pdef = o.pdef)
    (hd : full = true → ∀ o, w.objs id = some o → ObjOK w.backend o →
      o.params.keys <+: (f o).params.keys ∧ (f o).V = o.V ∧ (f o).SRF = o.SRF ∧
        ObjOK w.backend (f o)) :
    Inv full ((RT1.modObj id f) w).2 where
  next := by
    intro j hj
    show Function.update w.objs id _ j = none
    have h0 := hw.next j hj
    by_cases hji : j = id
    · subst hji; simp [h0]
    · simp [Function.update_of_ne hji, h0]
  mu0 := by
    rcases hg with hg | hg
    · show TabOK w.caches.mu0 _
      rw [hg.1]; exact TabOK.nil _
    · exact hw.mu0.mono fun j a => Holds.modObj fun _ o ho h => by rw [(hg o ho).1]; exact h
  muEx := by
    rcases hg with hg | hg
    · show TabOK w.caches.muEx _
      rw [hg.2.1]; exact TabOK.nil _
    · exact hw.muEx.mono fun j a => Holds.modObj fun _ o ho h => by rw [(hg o ho).2.1]; exact h
  psym := by
    rcases hp with hp | hp
    · show TabOK w.caches.psym _
      rw [hp.2]; exact TabOK.nil _
    · exact hw.psym.mono fun j a => Holds.modObj fun _ o ho h => by
        simp only [Fresh.symbs, hp o ho]; exact h
  pfun := by
    rcases hp with hp | hp
    · show TabOK w.caches.pfun _
      rw [hp.1]; exact TabOK.nil _
    · exact hw.pfun.mono fun j a => Holds.modObj fun _ o ho h => by
        have h' : Fresh.pfun w.backend o j.2 = .ok a := h
        show Fresh.pfun w.backend (f o) j.2 = .ok a
        simp only [Fresh.pfun, Fresh.symbs, hp o ho] at h' ⊢
        exact h'
  mu0x := by
    intro hfull
    rcases hg with hg | hg
    · show TabOK w.caches.mu0x _
      rw [hg.2.2.1]; exact TabOK.nil _
    · exact (hw.mu0x hfull).mono fun j a => Holds.modObj fun _ o ho h => by
        simp only [Fresh.mu0x, (hg o ho).1, (hg o ho).2.2 hfull]; exact h
  muExx := by
    intro hfull
    rcases hg with hg | hg
    · show TabOK w.caches.muExx _
      rw [hg.2.2.2]; exact TabOK.nil _
    · exact (hw.muExx hfull).mono fun j a => Holds.modObj fun _ o ho h => by
        simp only [Fresh.muExx, (hg o ho).2.1, (hg o ho).2.2 hfull]; exact h
  obj := by
    intro hfull j oj hoj
    have hoj' : Function.update w.objs id ((w.objs id).map f) j = some oj := hoj
    by_cases hj : j = id
    · subst hj
      rw [Function.update_self] at hoj'
      cases ho : w.objs j with
      | none => rw [ho] at hoj'; cases hoj'
      | some o =>
        rw [ho] at hoj'
        cases hoj'
        exact (hd hfull o ho (hw.obj hfull j o ho)).2.2.2
    · rw [Function.update_of_ne hj] at hoj'
      exact hw.obj hfull j oj hoj'

theorem Inv.clearGeom {full : Bool} {w : World} (hw : Inv full w) :
    Inv full (RT1.clearGeom w).2 ∧ GeoNil (RT1.clearGeom w).2 :=
  ⟨{ hw with
      mu0 := TabOK.nil _, muEx := TabOK.nil _, mu0x := fun _ => TabOK.nil _
      muExx := fun _ => TabOK.nil _ }, rfl, rfl, rfl, rfl⟩

theorem Inv.clearParam {full : Bool} {w : World} (hw : Inv full w) :
    Inv full (RT1.clearParam w).2 ∧ ParNil (RT1.clearParam w).2 :=
  ⟨{ hw with pfun := TabOK.nil _, psym := TabOK.nil _ }, rfl, rfl⟩

/-- Changing attributes that no table depends on. -/
theorem Inv.modObj_free {full : Bool} {w : World} {id : ℕ} {f : Obj → Obj} (hw : Inv full w)
    (h : ∀ o, (f o).ang = o.ang ∧ (f o).mono = o.mono ∧ (f o).V = o.V ∧ (f o).SRF = o.SRF ∧
      (f o).pdef = o.pdef ∧ (f o).params = o.params ∧ (f o).geom = o.geom ∧ (f o).fn_ = o.fn_ ∧
      (f o).fnevals_ = o.fnevals_ ∧ (f o).fnInput = o.fnInput ∧
      (f o).fnevalsInput = o.fnevalsInput) :
    Inv full ((RT1.modObj id f) w).2 := by
  refine hw.modObj (Or.inr fun o _ => ?_) (Or.inr fun o _ => (h o).2.2.2.2.1) ?_
  · obtain ⟨h1, h2, h3, h4, -⟩ := h o
    simp only [Fresh.mu0, Fresh.muEx, Fresh.nmax, Fresh.ang, Fresh.tex, h1, h2, h3, h4]
    exact ⟨trivial, trivial, fun _ => trivial⟩
  · intro hfull o ho hok
    obtain ⟨h1, h2, h3, h4, h5, h6, h7, h8, h9, h10, h11⟩ := h o
    refine ⟨by rw [h6], h3, h4, ?_, ?_⟩
    · rw [h8, h3, h4, h7, h10]; exact hok.fn
    · rw [h9, h3, h4, h7, h10, h11, h6]; exact hok.fnevals

theorem Dict.keys_set_prefix (d : Dict) (k : String) (v : Arr) : d.keys <+: (d.set k v).keys := by
  induction d with
  | nil => simp [Dict.keys]
  | cons p d ih =>
    obtain ⟨k', v'⟩ := p
    unfold Dict.set
    by_cases h : k' = k
    · simp [h, Dict.keys]
    · simp only [h, if_false]
      exact (List.prefix_cons_inj k').mpr ih

theorem Dict.keys_update_prefix (d kw : Dict) : d.keys <+: (d.update kw).keys := by
  induction kw generalizing d with
  | nil => exact List.prefix_rfl
  | cons p kw ih => exact (Dict.keys_set_prefix d p.1 p.2).trans (ih _)

theorem ObjOK.params {b : Backend} {o o' : Obj} (h : ObjOK b o)
    (hk : o.params.keys <+: o'.params.keys) (h3 : o'.V = o.V) (h4 : o'.SRF = o.SRF)
    (h7 : o'.geom = o.geom) (h8 : o'.fn_ = o.fn_) (h9 : o'.fnevals_ = o.fnevals_)
    (h10 : o'.fnInput = o.fnInput) (h11 : o'.fnevalsInput = o.fnevalsInput) : ObjOK b o' := by
  refine ⟨?_, ?_⟩
  · rw [h8, h3, h4, h7, h10]; exact h.fn
  · intro l hl
    rw [h9] at hl
    rw [h3, h4, h7, h10, h11]
    obtain ⟨hi, ks, f, hks, hl', hs, hc⟩ := h.fnevals l hl
    exact ⟨hi, ks, f, hks.trans hk, hl', hs, hc⟩

theorem Inv.updateParams {full : Bool} {id : ℕ} (kw : Dict) :
    Safe (Inv full) (RT1.updateParams id kw) := by
  refine Safe.bind (Safe.getObj id) fun o' => ?_
  intro w hw
  refine hw.modObj (Or.inr fun o _ => ⟨rfl, rfl, fun _ => rfl⟩) (Or.inr fun o _ => rfl) ?_
  intro hfull o ho hok
  have hk := Dict.keys_update_prefix o.params
  exact ⟨hk _, rfl, rfl, hok.params (hk _) rfl rfl rfl rfl rfl rfl rfl⟩

/-- After `resetGeom`: geometry tables empty, no coefficients. -/
def InvReset (full : Bool) (id : ℕ) (w : World) : Prop :=
  Inv full w ∧ GeoNil w ∧ ∀ o, w.objs id = some o → o.fn_ = none ∧ o.fnevals_ = none

theorem ObjOK.of_none {b : Backend} {o : Obj} (h : o.fn_ = none) (h' : o.fnevals_ = none) :
    ObjOK b o := by
  constructor
  · intro f hf; rw [h] at hf; cases hf
  · intro f hf; rw [h'] at hf; cases hf

theorem InvReset.of_resetGeom {full : Bool} {id : ℕ} {w : World} {b : Bool} (hw : Inv full w) :
    InvReset full id (RT1.resetGeom id b w).2 := by
  -- the memo tables are cleared, so the order of the two attribute changes does not matter
  have h1 := (Inv.clearGeom hw)
  have h2 : Inv full ((RT1.modObj id fun o => { o with mono := b }) (RT1.clearGeom w).2).2 :=
    h1.1.modObj (Or.inl h1.2) (Or.inr fun _ _ => rfl)
      fun _ o _ hok => ⟨List.prefix_rfl, rfl, rfl, hok.params List.prefix_rfl rfl rfl rfl rfl rfl rfl rfl⟩
  have h3 : Inv full ((RT1.modObj id fun o => { o with fixed := [], fn_ := none, fnevals_ := none })
      ((RT1.modObj id fun o => { o with mono := b }) (RT1.clearGeom w).2).2).2 :=
    h2.modObj (Or.inl h1.2) (Or.inr fun _ _ => rfl)
      fun _ o _ hok => ⟨List.prefix_rfl, rfl, rfl, ObjOK.of_none rfl rfl⟩
  refine ⟨h3, h1.2, ?_⟩
  intro o ho
  have ho' : Function.update (Function.update w.objs id _) id
    (Option.map _ (Function.update w.objs id _ id)) id = some o := ho
  rw [Function.update_self, Function.update_self] at ho'
  cases hx : w.objs id with
  | none => rw [hx] at ho'; cases ho'
  | some x => rw [hx] at ho'; cases ho'; exact ⟨rfl, rfl⟩

theorem InvReset.modObj {full : Bool} {id : ℕ} {f : Obj → Obj}
    (h : ∀ o, (f o).V = o.V ∧ (f o).SRF = o.SRF ∧
      (f o).pdef = o.pdef ∧ (f o).params = o.params ∧ (f o).fn_ = o.fn_ ∧
      (f o).fnevals_ = o.fnevals_) : Safe (InvReset full id) (RT1.modObj id f) := by
  rintro w ⟨hw, hg, hn⟩
  refine ⟨hw.modObj (Or.inl hg) (Or.inr fun o _ => (h o).2.2.1) ?_, hg, ?_⟩
  · intro hfull o ho hok
    obtain ⟨h1, h2, h3, h4, h5, h6⟩ := h o
    exact ⟨by rw [h4], h1, h2, ObjOK.of_none (by rw [h5]; exact (hn o ho).1)
      (by rw [h6]; exact (hn o ho).2)⟩
  · intro o ho
    have ho' : Function.update w.objs id ((w.objs id).map f) id = some o := ho
    rw [Function.update_self] at ho'
    cases hx : w.objs id with
    | none => rw [hx] at ho'; cases ho'
    | some x =>
      rw [hx] at ho'; cases ho'
      obtain ⟨h1, h2, h3, h4, h5, h6⟩ := h x
      rw [h5, h6]
      exact hn x hx

theorem InvReset.bistaticAngle {full : Bool} {id : ℕ} (n : AngN) (s : String) (p : Option PyArg) :
    Safe (InvReset full id) (RT1.bistaticAngle id n s p) := by
  cases p with
  | none => exact Safe.pure _
  | some a =>
    cases a with
    | other => exact Safe.throw _
    | number r =>
      exact Safe.bind (InvReset.modObj fun o => ⟨rfl, rfl, rfl, rfl, rfl, rfl⟩) fun _ => Safe.pure _

theorem Safe.bind_of {P Q : World → Prop} {α β : Type} {x : M α} {f : α → M β}
    (h : ∀ w, P w → Q (x w).2) (hf : ∀ a, Safe Q (f a)) : ∀ w, P w → Q ((x >>= f) w).2 := by
  intro w hw
  have h1 := h w hw
  cases hx : x w with
  | mk r w' =>
    rw [hx] at h1
    cases r with
    | error e => rw [bind_error hx]; exact h1
    | ok a => rw [bind_ok hx]; exact hf a w' h1

theorem Inv.setBistatic {full : Bool} {id : ℕ} (a b c d : Option PyArg) :
    ∀ w, Inv full w → InvReset full id (RT1.setBistatic id a b c d w).2 := by
  unfold RT1.setBistatic
  refine Safe.bind_of (fun _ h => InvReset.of_resetGeom h) fun _ => ?_
  refine Safe.bind (InvReset.bistaticAngle _ _ _) fun _ => ?_
  refine Safe.bind (InvReset.bistaticAngle _ _ _) fun _ => ?_
  refine Safe.bind (InvReset.bistaticAngle _ _ _) fun _ => ?_
  refine Safe.bind (InvReset.bistaticAngle _ _ _) fun _ => ?_
  exact InvReset.modObj fun o => ⟨rfl, rfl, rfl, rfl, rfl, rfl⟩

theorem Inv.setMonostatic {full : Bool} {id : ℕ} (p : Option PyArg) :
    ∀ w, Inv full w → InvReset full id (RT1.setMonostatic id p w).2 := by
  unfold RT1.setMonostatic
  refine Safe.bind_of (fun _ h => InvReset.of_resetGeom h) fun _ => ?_
  refine Safe.bind ?_ fun _ => InvReset.modObj fun o => ⟨rfl, rfl, rfl, rfl, rfl, rfl⟩
  cases p with
  | none => exact Safe.pure _
  | some a =>
    cases a with
    | other => exact Safe.throw _
    | number r =>
      exact Safe.bind (InvReset.modObj fun o => ⟨rfl, rfl, rfl, rfl, rfl, rfl⟩) fun _ => Safe.pure _

theorem Inv.setGeometry {full : Bool} {id : ℕ} (l : List (String × Option Arr)) :
    Safe (Inv full) (RT1.setGeometry id l) := by
  unfold RT1.setGeometry
  refine Safe.ite (fun _ => Safe.throw _) fun _ => Safe.bind (Safe.getObj id) fun o =>
    Safe.ite (fun _ => Safe.throw _) fun _ => ?_
  intro w hw
  refine (Safe.bind_of (Q := fun w => Inv full w ∧ GeoNil w) (fun w (h : Inv full w) =>
    h.clearGeom) (fun _ => Safe.setAngles (fun n a => ?_) l) w hw).1
  rintro w' ⟨h1, h2⟩
  exact ⟨h1.modObj (Or.inl h2) (Or.inr fun _ _ => rfl) fun _ o _ hok =>
    ⟨List.prefix_rfl, rfl, rfl, hok.params List.prefix_rfl rfl rfl rfl rfl rfl rfl rfl⟩, h2⟩

theorem Inv.addObj {full : Bool} {w : World} (hw : Inv full w) {o : Obj}
    (ho : full = true → ObjOK w.backend o) : Inv full (w.addObj o) := by
  have hlt : ∀ j oj, w.objs j = some oj → j ≠ w.next := by
    rintro j oj hj rfl
    rw [hw.next _ le_rfl] at hj
    cases hj
  have hh : ∀ j (Q : Obj → Prop), Holds w j Q → Holds (w.addObj o) j Q := by
    rintro j Q ⟨oj, hoj, hq⟩
    exact ⟨oj, by
      show Function.update w.objs w.next _ j = _
      rw [Function.update_of_ne (hlt j oj hoj)]; exact hoj, hq⟩
  exact
    { next := by
        intro j hj
        have hj' : w.next + 1 ≤ j := hj
        show Function.update w.objs w.next _ j = none
        rw [Function.update_of_ne (by omega)]
        exact hw.next j (by omega)
      mu0 := hw.mu0.mono fun j a => hh j _
      muEx := hw.muEx.mono fun j a => hh j _
      psym := hw.psym.mono fun j a => hh j.1 _
      pfun := hw.pfun.mono fun j a => hh j.1 _
      mu0x := fun h => (hw.mu0x h).mono fun j a => hh j _
      muExx := fun h => (hw.muExx h).mono fun j a => hh j _
      obj := by
        intro hfull j oj hoj
        have hoj' : Function.update w.objs w.next (some o) j = some oj := hoj
        by_cases hj : j = w.next
        · subst hj
          rw [Function.update_self] at hoj'
          cases hoj'
          exact ho hfull
        · rw [Function.update_of_ne hj] at hoj'
          exact hw.obj hfull j oj hoj' }

/-! evaluation -/

theorem During.init {full : Bool} {w : World} {id : ℕ} {o : Obj}
    {S : LRU (ℕ × String) Lam → LRU (ℕ × String) Lam → Prop} (hw : Inv full w)
    (ho : w.objs id = some o) (hS : S w.caches.dVol w.caches.dSrf) : During full w id o S w :=
  ⟨rfl, hw, rfl, fun _ _ => rfl, ⟨o, ho, Filled.refl _ _⟩, hS⟩

theorem During.putX {full : Bool} {w0 : World} {id : ℕ} {o : Obj}
    {w : World} (h : During full w0 id o (fun _ _ => True) w) {c : Caches} (hi : Inv full { w with caches := c }) :
    During full w0 id o (fun _ _ => True) { w with caches := c } :=
  ⟨h.backend, hi, h.next, h.frame, h.obj, trivial⟩

/-- Evaluations preserve the weak invariant (also when stale tables are read). -/
theorem During.stable_false (w0 : World) (id : ℕ) (o : Obj) :
    MemoStable (During false w0 id o fun _ _ => True) id where
  mu0 := Refines.mu0.safe
  muEx := Refines.muEx.safe
  mu0x := Safe.memo (Safe.bind Safe.nmax fun _ => Safe.bind Refines.mu0.safe fun _ => Safe.lift _)
    fun w v hw => hw.putX { hw.inv with mu0x := fun h => by cases h }
  muExx := Safe.memo (Safe.bind Safe.nmax fun _ => Safe.bind Refines.muEx.safe fun _ => Safe.lift _)
    fun w v hw => hw.putX { hw.inv with muExx := fun h => by cases h }
  psym := fun p => (Refines.paramSymbs p).safe
  pfun := fun p => (Refines.paramFuncs p).safe
  fnevals := Refines.fnevals.safe
  dVol := fun _ => Safe.memo (Safe.bind (Safe.getObj id) fun _ => Safe.bind Safe.getW fun _ =>
    Safe.lift _) fun w v hw => hw.putX { hw.inv with }
  dSrf := fun _ => Safe.memo (Safe.bind (Safe.getObj id) fun _ => Safe.bind Safe.getW fun _ =>
    Safe.lift _) fun w v hw => hw.putX { hw.inv with }

/-- Evaluations preserve the full invariant. -/
theorem During.stable_true (w0 : World) (id : ℕ) (o : Obj) :
    MemoStable (During true w0 id o fun _ _ => True) id where
  mu0 := Refines.mu0.safe
  muEx := Refines.muEx.safe
  mu0x := (Refines.mu0x rfl).safe
  muExx := (Refines.muExx rfl).safe
  psym := fun p => (Refines.paramSymbs p).safe
  pfun := fun p => (Refines.paramFuncs p).safe
  fnevals := Refines.fnevals.safe
  dVol := fun _ => Safe.memo (Safe.bind (Safe.getObj id) fun _ => Safe.bind Safe.getW fun _ =>
    Safe.lift _) fun w v hw => hw.putX { hw.inv with }
  dSrf := fun _ => Safe.memo (Safe.bind (Safe.getObj id) fun _ => Safe.bind Safe.getW fun _ =>
    Safe.lift _) fun w v hw => hw.putX { hw.inv with }

theorem During.stable (full : Bool) (w0 : World) (id : ℕ) (o : Obj) :
    MemoStable (During full w0 id o fun _ _ => True) id := by
  cases full
  · exact During.stable_false w0 id o
  · exact During.stable_true w0 id o

theorem getObj_bind_none {α : Type} {w : World} {id : ℕ} (h : w.objs id = none)
    (f : Obj → M α) : (getObj id >>= f) w = (.error .attributeError, w) :=
  bind_error (getObj_none h)

theorem updateParams_none {w : World} {id : ℕ} (h : w.objs id = none) (kw : Dict) :
    updateParams id kw w = (.error .attributeError, w) := getObj_bind_none h _

/-- An evaluation preceded by a parameter update preserves the invariant. -/
theorem Inv.evalOp {full : Bool} {α : Type} {id : ℕ} {kw : Dict} {f : Unit → M α}
    (hf : ∀ P, MemoStable P id → Safe P (f ())) :
    Safe (Inv full) (RT1.updateParams id kw >>= f) := by
  intro w hw
  cases ho : w.objs id with
  | none => rw [bind_error (updateParams_none ho kw)]; exact hw
  | some o =>
    have h1 := Inv.updateParams (id := id) kw w hw
    have hfr := FrameP.updateParams kw w (FrameP.refl w id)
    cases hx : RT1.updateParams id kw w with
    | mk r w' =>
      rw [hx] at h1 hfr
      cases r with
      | error e => rw [bind_error hx]; exact h1
      | ok a =>
        rw [bind_ok hx]
        have hex := hfr.ex
        rw [ho] at hex
        obtain ⟨o', ho'⟩ := Option.isSome_iff_exists.mp hex
        exact (hf _ (During.stable full w' id o') w' (During.init h1 ho' trivial)).inv

theorem Inv.step {full : Bool} {op : Op} (h1 : full = true → op.Plain)
    (h2 : ∀ id n a, op ≠ .overwriteArg id n a) : Safe (Inv full) (RT1.step op) := by
  cases op
  case new V SRF q s d f fe i =>
    intro w hw
    have : (RT1.step (.new V SRF q s d f fe i) w).2 =
      (RT1.setMonostatic w.next none (w.addObj (initObj V SRF q s d f fe i))).2 := rfl
    rw [this]
    exact (Inv.setMonostatic none _ (hw.addObj fun _ => ObjOK.of_none rfl rfl)).1
  case setMonostatic id p => exact fun w hw => (Inv.setMonostatic p w hw).1
  case setBistatic id a b c d => exact fun w hw => (Inv.setBistatic a b c d w hw).1
  case setGeometry id l => exact Inv.setGeometry l
  case updateParams id kw => exact Inv.updateParams kw
  case setParamDef id p d =>
    intro w hw
    have h := hw.clearParam
    exact h.1.modObj (Or.inr fun o _ => ⟨rfl, rfl, fun _ => rfl⟩) (Or.inl h.2) fun _ o _ hok =>
      ⟨List.prefix_rfl, rfl, rfl, hok.params List.prefix_rfl rfl rfl rfl rfl rfl rfl rfl⟩
  case setIntQ id b =>
    exact fun w hw => hw.modObj_free fun o => ⟨rfl, rfl, rfl, rfl, rfl, rfl, rfl, rfl, rfl, rfl, rfl⟩
  case setSig0 id b =>
    exact fun w hw => hw.modObj_free fun o => ⟨rfl, rfl, rfl, rfl, rfl, rfl, rfl, rfl, rfl, rfl, rfl⟩
  case setDB id b =>
    exact fun w hw => hw.modObj_free fun o => ⟨rfl, rfl, rfl, rfl, rfl, rfl, rfl, rfl, rfl, rfl, rfl⟩
  case setI0 id b =>
    exact fun w hw => hw.modObj_free fun o => ⟨rfl, rfl, rfl, rfl, rfl, rfl, rfl, rfl, rfl, rfl, rfl⟩
  case evalCalc id kw =>
    exact Safe.bind (Inv.evalOp fun P hP => Safe.bind Safe.getW fun _ => (hP.acc _).calcTry)
      fun _ => Safe.pure _
  case surface id kw =>
    exact Safe.bind (Inv.evalOp fun P hP => Safe.bind Safe.getW fun _ =>
      Safe.bind (hP.acc _).surface fun _ => (hP.acc _).convert _) fun _ => Safe.pure _
  case volume id kw =>
    exact Safe.bind (Inv.evalOp fun P hP => Safe.bind Safe.getW fun _ =>
      Safe.bind (hP.acc _).volume fun _ => (hP.acc _).convert _) fun _ => Safe.pure _
  case interaction id kw =>
    exact Safe.bind (Inv.evalOp fun P hP => Safe.bind Safe.getW fun _ =>
      Safe.bind (hP.acc _).interaction fun _ => (hP.acc _).convert _) fun _ => Safe.pure _
  case jacobian id ks f =>
    refine Safe.bind ?_ fun _ => Safe.pure _
    intro w hw
    cases ho : w.objs id with
    | none =>
      have : RT1.jacobian id ks f w = (.error .attributeError, w) := by
        unfold RT1.jacobian
        refine bind_error ?_
        unfold RT1.jacobianList
        rw [bind_ok (show getW w = (.ok w, w) from rfl)]
        refine bind_error ?_
        unfold Acc.jacNorm
        refine bind_error ?_
        exact getObj_bind_none ho _
      rw [this]; exact hw
    | some o =>
      exact (Safe.jacobianOp (During.stable full w id o) w (During.init hw ho trivial)).inv
  case getParam id p =>
    refine Safe.bind ?_ fun _ => Safe.pure _
    intro w hw
    cases ho : w.objs id with
    | none =>
      have : Self.evalParam id p w = (.error .attributeError, w) := by
        unfold Self.evalParam
        refine bind_error ?_
        unfold Self.paramFuncs memo
        cases hc : LRU.find w.caches.pfun (id, p) with
        | some v =>
          obtain ⟨o, ho', -⟩ := hw.pfun _ _ hc
          simp only at ho'
          rw [ho] at ho'; cases ho'
        | none =>
          simp only
          rw [getObj_bind_none ho]
      rw [this]; exact hw
    | some o =>
      exact (Safe.evalParam (During.stable full w id o) p w (During.init hw ho trivial)).inv
  case pickle id =>
    intro w hw
    have hm : Inv full ((RT1.modObj id fun o => { o with analyze := false }) w).2 :=
      hw.modObj_free fun o => ⟨rfl, rfl, rfl, rfl, rfl, rfl, rfl, rfl, rfl, rfl, rfl⟩
    have : (RT1.step (.pickle id) w).2 = (pickle id w).2 := by
      show ((pickle id >>= fun _ => pure ()) w).2 = _
      cases hx : pickle id w with
      | mk r w' =>
        cases r with
        | error e => rw [bind_error hx]
        | ok a => rw [bind_ok hx]; rfl
    rw [this, pickle_eq]
    cases ho : w.objs id with
    | none => exact hm
    | some o =>
      refine hm.addObj fun hfull => ?_
      refine hm.obj hfull id _ ?_
      show Function.update w.objs id _ id = _
      rw [Function.update_self, ho]
      rfl
  case setV id V =>
    intro w hw
    have hf : full = false := by
      cases full
      · rfl
      · exact (h1 rfl).elim
    subst hf
    exact hw.modObj (Or.inr fun o _ => ⟨rfl, rfl, fun h => by cases h⟩) (Or.inr fun o _ => rfl)
      fun h => by cases h
  case setSRF id V =>
    intro w hw
    have hf : full = false := by
      cases full
      · rfl
      · exact (h1 rfl).elim
    subst hf
    exact hw.modObj (Or.inr fun o _ => ⟨rfl, rfl, fun h => by cases h⟩) (Or.inr fun o _ => rfl)
      fun h => by cases h
  case overwriteArg id n a => exact absurd rfl (h2 id n a)
  case clearCaches id =>
    exact fun w hw =>
      { next := hw.next, mu0 := TabOK.nil _, muEx := TabOK.nil _, psym := TabOK.nil _
        pfun := TabOK.nil _, mu0x := fun _ => TabOK.nil _, muExx := fun _ => TabOK.nil _
        obj := hw.obj }
  case surfaceVolume id =>
    refine Safe.bind ?_ fun _ => Safe.pure _
    intro w hw
    cases ho : w.objs id with
    | none =>
      have : RT1.surfaceVolume id w = (.error .attributeError, w) := getObj_bind_none ho _
      rw [this]; exact hw
    | some o =>
      exact (Safe.surfaceVolumeOp (During.stable full w id o) w (During.init hw ho trivial)).inv
  case checkParams id names =>
    refine Safe.bind ?_ fun _ => Safe.pure _
    intro w hw
    cases ho : w.objs id with
    | none =>
      have : RT1.checkParams id names w = (.error .attributeError, w) := getObj_bind_none ho _
      rw [this]; exact hw
    | some o =>
      exact (Safe.checkParamsOp (During.stable full w id o) w (During.init hw ho trivial)).inv

theorem Inv.init (full : Bool) (b : Backend) : Inv full (initWorld b) where
  next := fun _ _ => rfl
  mu0 := TabOK.nil _
  muEx := TabOK.nil _
  psym := TabOK.nil _
  pfun := TabOK.nil _
  mu0x := fun _ => TabOK.nil _
  muExx := fun _ => TabOK.nil _
  obj := fun _ id o h => by cases h

theorem run_cons (w : World) (op : Op) (ops : List Op) :
    run w (op :: ops) = run (step op w).2 ops := rfl

/-- A condition preserved by each call of a history holds after the history. -/
theorem run_induction {P : World → Prop} {ops : List Op} (h : ∀ op ∈ ops, Safe P (step op))
    {w : World} (hw : P w) : P (run w ops) := by
  induction ops generalizing w with
  | nil => exact hw
  | cons op ops ih =>
    rw [run_cons]
    exact ih (fun op' h' => h op' (List.mem_cons_of_mem _ h')) (h op (List.mem_cons_self ..) w hw)

theorem Reachable.inv {w : World} (h : Reachable w) : Inv true w := by
  obtain ⟨b, ops, hp, rfl⟩ := h
  refine run_induction (fun op hop => ?_) (Inv.init true b)
  refine Inv.step (fun _ => hp op hop) ?_
  rintro id n a rfl
  exact hp _ hop

end

end RT1
