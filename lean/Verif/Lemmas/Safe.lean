import Verif.Lemmas.Inv

/-! Conditions that every evaluation preserves, whatever values it computes. -/

namespace RT1

noncomputable section
open Classical

/-- `x` preserves `P` (also when it raises). -/
def Safe (P : World → Prop) {α : Type} (x : M α) : Prop := ∀ w, P w → P (x w).2

namespace Safe
variable {P : World → Prop} {α β : Type}

theorem bind {x : M α} {f : α → M β} (h : Safe P x) (hf : ∀ a, Safe P (f a)) :
    Safe P (x >>= f) := by
  intro w hw
  have h1 := h w hw
  cases hx : x w with
  | mk r w' =>
    rw [hx] at h1
    cases r with
    | error e => rw [bind_error hx]; exact h1
    | ok a => rw [bind_ok hx]; exact hf a w' h1

theorem pure (a : α) : Safe P (Pure.pure a) := fun _ hw => hw
theorem throw (e : PyErr) : Safe P (MonadExcept.throw e : M α) := fun _ hw => hw
theorem lift (x : Py α) : Safe P (liftPy x : M α) := by
  cases x with
  | ok a => exact fun _ hw => hw
  | error e => exact fun _ hw => hw
theorem tryCatch {x : M α} {f : PyErr → M α} (h : Safe P x) (hf : ∀ e, Safe P (f e)) :
    Safe P (MonadExcept.tryCatch x f) := by
  intro w hw
  have h1 := h w hw
  show P ((match x w with
      | (.ok a, w') => (.ok a, w')
      | (.error e, w') => f e w') : Py α × World).2
  cases hx : x w with
  | mk r w' =>
    rw [hx] at h1
    cases r with
    | error e => exact hf e w' h1
    | ok a => exact h1
theorem ite {c : Prop} [Decidable c] {x x' : M α} (h : c → Safe P x) (h' : ¬ c → Safe P x') :
    Safe P (if c then x else x') := by
  by_cases hc : c
  · simp only [hc, if_true]; exact h hc
  · simp only [hc, if_false]; exact h' hc
theorem getObj (id : ℕ) : Safe P (getObj id) := by
  intro w hw
  cases h : w.objs id with
  | none => rw [getObj_none h]; exact hw
  | some o => rw [getObj_some h]; exact hw
theorem getW : Safe P getW := fun _ hw => hw

theorem memo {κ ν : Type} {tab : Caches → LRU κ ν} {setTab : Caches → LRU κ ν → Caches}
    {k : κ} {x : M ν} (hx : Safe P x)
    (hput : ∀ w v, P w → P { w with caches := setTab w.caches (LRU.put (tab w.caches) k v) }) :
    Safe P (RT1.memo tab setTab k x) := by
  intro w hw
  unfold RT1.memo
  cases hfind : LRU.find (tab w.caches) k with
  | some v => exact hput w v hw
  | none =>
    have h1 := hx w hw
    cases hxw : x w with
    | mk r w' =>
      rw [hxw] at h1
      cases r with
      | error e => simpa [hxw] using h1
      | ok v => simpa [hxw] using hput w' v h1

section ops
variable {x x' : M Arr}
theorem mulM (h : Safe P x) (h' : Safe P x') : Safe P (RT1.mulM x x') :=
  bind h fun _ => bind h' fun _ => lift _
theorem divM (h : Safe P x) (h' : Safe P x') : Safe P (RT1.divM x x') :=
  bind h fun _ => bind h' fun _ => lift _
theorem addM (h : Safe P x) (h' : Safe P x') : Safe P (RT1.addM x x') :=
  bind h fun _ => bind h' fun _ => lift _
theorem subM (h : Safe P x) (h' : Safe P x') : Safe P (RT1.subM x x') :=
  bind h fun _ => bind h' fun _ => lift _
theorem mapM' (f : XR → XR) (h : Safe P x) : Safe P (RT1.mapM' f x) := bind h fun _ => pure _
theorem negM (h : Safe P x) : Safe P (RT1.negM x) := mapM' _ h
theorem expM (h : Safe P x) : Safe P (RT1.expM x) := mapM' _ h
theorem litM (r : ℝ) : Safe P (RT1.litM r) := pure _
end ops

end Safe

theorem Refines.safe {P : World → Prop} {α : Type} {x : M α} {y : Py α} (h : Refines P x y) :
    Safe P x := fun w hw => (h w hw).2

/-- All accessors preserve `P`. -/
structure AccSafe (P : World → Prop) (A : Acc M) : Prop where
  backend : ∀ c, Safe P (A.backend c)
  V : Safe P A.V
  SRF : Safe P A.SRF
  intQ : Safe P A.intQ
  sig0 : Safe P A.sig0
  dB : Safe P A.dB
  I0 : Safe P A.I0
  t0 : Safe P A.t0
  tex : Safe P A.tex
  p0 : Safe P A.p0
  pex : Safe P A.pex
  mu0 : Safe P A.mu0
  muEx : Safe P A.muEx
  mu0x : Safe P A.mu0x
  muExx : Safe P A.muExx
  par : ∀ p, Safe P (A.par p)
  symbs : ∀ p, Safe P (A.symbs p)
  pdef : ∀ p, Safe P (A.pdef p)
  params : Safe P A.params
  fnevals : Safe P A.fnevals
  dVolLam : ∀ k, Safe P (A.dVolLam k)
  dSrfLam : ∀ k, Safe P (A.dSrfLam k)

namespace AccSafe
variable {P : World → Prop} {A : Acc M} (h : AccSafe P A)
include h

macro "safe_step" : tactic => `(tactic| first
  | assumption
  | exact Safe.litM _
  | exact Safe.lift _
  | exact Safe.pure _
  | exact Safe.throw _
  | exact AccSafe.backend ‹_› _ | exact AccSafe.V ‹_› | exact AccSafe.SRF ‹_› | exact AccSafe.intQ ‹_› | exact AccSafe.sig0 ‹_›
  | exact AccSafe.dB ‹_› | exact AccSafe.I0 ‹_› | exact AccSafe.t0 ‹_› | exact AccSafe.tex ‹_›
  | exact AccSafe.p0 ‹_› | exact AccSafe.pex ‹_› | exact AccSafe.mu0 ‹_› | exact AccSafe.muEx ‹_›
  | exact AccSafe.par ‹_› _ | exact AccSafe.symbs ‹_› _ | exact AccSafe.pdef ‹_› _
  | exact AccSafe.params ‹_› | exact AccSafe.fnevals ‹_› | exact AccSafe.dVolLam ‹_› _
  | exact AccSafe.dSrfLam ‹_› _
  | apply Safe.mulM | apply Safe.divM | apply Safe.addM | apply Safe.subM
  | apply Safe.negM | apply Safe.expM | apply Safe.mapM'
  | (apply Safe.bind; rotate_left; intro _; rotate_right)
  | (apply Safe.ite <;> intro _))

theorem srfCalc : Safe P A.srfCalc := by unfold Acc.srfCalc; repeat' safe_step
theorem vCalc : Safe P A.vCalc := by unfold Acc.vCalc; repeat' safe_step
theorem atten : Safe P A.atten := by unfold Acc.atten; repeat' safe_step
theorem surface : Safe P A.surface := by
  have h1 := h.srfCalc
  have h2 := h.atten
  unfold Acc.surface; repeat' safe_step
theorem volume : Safe P A.volume := by
  have h1 := h.vCalc
  have h2 := h.atten
  unfold Acc.volume; repeat' safe_step
theorem nmax : Safe P A.nmax := by unfold Acc.nmax; repeat' safe_step
theorem convert (v : Arr) : Safe P (A.convert v) := by unfold Acc.convert; repeat' safe_step
theorem finish (q : Bool) (a b c : Arr) : Safe P (A.finish q a b c) := by
  have h1 := h.convert
  unfold Acc.finish; repeat' (first | exact h1 _ | safe_step)
theorem fixNan (a : Arr) : Safe P (A.fixNan a) := by unfold Acc.fixNan; repeat' safe_step
theorem missingNames : Safe P A.missingNames := by unfold Acc.missingNames; repeat' safe_step

theorem fnCall (f : FnLam) (args : List Arr) : Safe P (A.fnCall f args) := by
  unfold Acc.fnCall; repeat' safe_step

theorem fint {g : M (List Arr)} (hg : Safe P g) {mx m0 : M Arr} (h1 : Safe P mx)
    (h2 : Safe P m0) : Safe P (A.fint g mx m0) := by
  have hn := h.nmax
  have hc := h.fnCall
  unfold Acc.fint
  refine Safe.bind hg fun a => Safe.bind h.params fun pd =>
    Safe.bind (Safe.lift _) fun args => Safe.bind h.fnevals fun f => ?_
  cases f with
  | none =>
    dsimp only
    intro w hw
    exact hw
  | some f =>
    dsimp only
    repeat' (first | exact hc _ _ | safe_step)

theorem fint1 : Safe P A.fint1 := by
  unfold Acc.fint1
  refine h.fint ?_ h.mu0x h.mu0
  repeat' safe_step
theorem fint2 : Safe P A.fint2 := by
  unfold Acc.fint2
  refine h.fint ?_ h.muExx h.muEx
  repeat' safe_step
theorem interaction : Safe P A.interaction := by
  have h1 := h.fint1
  have h2 := h.fint2
  unfold Acc.interaction; repeat' safe_step
theorem calcBody : Safe P A.calcBody := by
  have h1 := h.surface
  have h2 := h.volume
  have h3 := h.interaction
  have h4 := h.finish
  have h5 := h.fixNan
  unfold Acc.calcBody; repeat' (first | exact h4 _ _ _ _ | exact h5 _ | safe_step)
theorem calcTry : Safe P A.calcTry := by
  have h1 := h.calcBody
  have h2 := h.missingNames
  unfold Acc.calcTry
  refine Safe.tryCatch h1 fun e => ?_
  cases e <;> dsimp only <;> repeat' safe_step
theorem dvolumeDtau : Safe P A.dvolumeDtau := by
  have h1 := h.vCalc
  unfold Acc.dvolumeDtau; repeat' safe_step
theorem dvolumeDomega : Safe P A.dvolumeDomega := by
  have h1 := h.vCalc
  have h2 := h.atten
  unfold Acc.dvolumeDomega; repeat' safe_step
theorem dvolumeDbsf : Safe P A.dvolumeDbsf := by
  have h1 := h.vCalc
  have h2 := h.atten
  unfold Acc.dvolumeDbsf; repeat' safe_step
theorem dsurfaceDtau : Safe P A.dsurfaceDtau := by
  have h1 := h.srfCalc
  unfold Acc.dsurfaceDtau; repeat' safe_step
theorem dsurfaceDNormBRDF : Safe P A.dsurfaceDNormBRDF := by
  have h1 := h.srfCalc
  have h2 := h.atten
  unfold Acc.dsurfaceDNormBRDF; repeat' safe_step
theorem dsurfaceDbsf : Safe P A.dsurfaceDbsf := by
  have h1 := h.srfCalc
  have h2 := h.atten
  unfold Acc.dsurfaceDbsf; repeat' safe_step
theorem dparam (p : PName) (key : String) : Safe P (A.dparam p key) := by
  unfold Acc.dparam; repeat' safe_step
theorem dVolumeDummy (key : String) : Safe P (A.dVolumeDummy key) := by
  have h1 := h.dvolumeDtau
  have h2 := h.dvolumeDomega
  have h3 := h.dvolumeDbsf
  have h4 := h.atten
  have h5 := h.dparam
  unfold Acc.dVolumeDummy; repeat' (first | exact h5 _ _ | safe_step)
theorem dSurfaceDummy (key : String) : Safe P (A.dSurfaceDummy key) := by
  have h1 := h.dsurfaceDNormBRDF
  have h3 := h.dsurfaceDbsf
  have h4 := h.atten
  have h5 := h.dparam
  unfold Acc.dSurfaceDummy; repeat' (first | exact h5 _ _ | safe_step)
theorem jacNorm : Safe P A.jacNorm := by
  have h1 := h.surface
  have h2 := h.volume
  unfold Acc.jacNorm; repeat' safe_step
theorem jacEntry (norm : Arr) (key : String) : Safe P (A.jacEntry norm key) := by
  have h1 := h.dvolumeDtau
  have h2 := h.dvolumeDomega
  have h3 := h.dvolumeDbsf
  have h4 := h.dsurfaceDtau
  have h5 := h.dsurfaceDNormBRDF
  have h6 := h.dsurfaceDbsf
  have h7 := h.dVolumeDummy key
  have h8 := h.dSurfaceDummy key
  unfold Acc.jacEntry Acc.dsurfaceDomega Acc.dvolumeDNormBRDF; repeat' safe_step
theorem jacLoop (norm : Arr) (keys : List String) : Safe P (A.jacLoop norm keys) := by
  induction keys with
  | nil => exact Safe.pure _
  | cons k ks ih =>
    exact Safe.bind (h.jacEntry norm k) fun _ => Safe.bind ih fun _ => Safe.pure _
theorem jacList (keys : List String) : Safe P (A.jacList keys) :=
  Safe.bind h.jacNorm fun _ => h.jacLoop _ _

end AccSafe

/-- The conditions under which all accessors of `id` preserve `P`: changes of memo tables
and filling in coefficients do. -/
structure MemoStable (P : World → Prop) (id : ℕ) : Prop where
  mu0 : Safe P (Self.mu0 id)
  muEx : Safe P (Self.muEx id)
  mu0x : Safe P (Self.mu0x id)
  muExx : Safe P (Self.muExx id)
  psym : ∀ p, Safe P (Self.paramSymbs id p)
  pfun : ∀ p, Safe P (Self.paramFuncs id p)
  fnevals : Safe P (Self.fnevals id)
  dVol : ∀ k, Safe P (Self.dVolLam id k)
  dSrf : ∀ k, Safe P (Self.dSrfLam id k)

section
variable {P : World → Prop} {id : ℕ}

theorem Safe.t0 : Safe P (Self.t0 id) := by
  unfold Self.t0
  refine Safe.bind (Safe.getObj id) fun o => ?_
  cases o.ang .t0 with
  | none => exact Safe.throw _
  | some a => exact Safe.pure _
theorem Safe.p0 : Safe P (Self.p0 id) := by
  unfold Self.p0
  refine Safe.bind (Safe.getObj id) fun o => ?_
  cases o.ang .p0 with
  | none => exact Safe.throw _
  | some a => exact Safe.pure _
theorem Safe.tex : Safe P (Self.tex id) := by
  unfold Self.tex
  refine Safe.bind (Safe.getObj id) fun o => Safe.ite (fun _ => Safe.t0) fun _ => ?_
  cases o.ang .tex with
  | none => exact Safe.throw _
  | some a => exact Safe.pure _
theorem Safe.pex : Safe P (Self.pex id) := by
  unfold Self.pex
  refine Safe.bind (Safe.getObj id) fun o =>
    Safe.ite (fun _ => Safe.bind Safe.p0 fun _ => Safe.lift _) fun _ => ?_
  cases o.ang .pex with
  | none => exact Safe.throw _
  | some a => exact Safe.pure _

theorem Safe.evalParam (h : MemoStable P id) (p : PName) : Safe P (Self.evalParam id p) := by
  unfold Self.evalParam
  refine Safe.bind (h.pfun p) fun f => ?_
  cases f with
  | some f =>
    refine Safe.bind (h.psym p) fun _ => Safe.bind (Safe.getObj id) fun o => Safe.bind Safe.getW
      fun w => Safe.tryCatch (Safe.lift _) fun e => ?_
    exact Safe.ite (fun _ => Safe.throw _) fun _ => Safe.throw _
  | none =>
    refine Safe.bind (Safe.getObj id) fun o => ?_
    cases o.pdef p with
    | val a => exact Safe.pure _
    | str e => exact Safe.throw _
    | basic e => exact Safe.throw _

theorem MemoStable.acc (h : MemoStable P id) (b : Backend) : AccSafe P (Self.acc b id) where
  backend := fun _ => Safe.pure _
  V := Safe.bind (Safe.getObj id) fun _ => Safe.pure _
  SRF := Safe.bind (Safe.getObj id) fun _ => Safe.pure _
  intQ := Safe.bind (Safe.getObj id) fun _ => Safe.pure _
  sig0 := Safe.bind (Safe.getObj id) fun _ => Safe.pure _
  dB := Safe.bind (Safe.getObj id) fun _ => Safe.pure _
  I0 := Safe.bind (Safe.getObj id) fun _ => Safe.pure _
  t0 := Safe.t0
  tex := Safe.tex
  p0 := Safe.p0
  pex := Safe.pex
  mu0 := h.mu0
  muEx := h.muEx
  mu0x := h.mu0x
  muExx := h.muExx
  par := Safe.evalParam h
  symbs := h.psym
  pdef := fun _ => Safe.bind (Safe.getObj id) fun _ => Safe.pure _
  params := Safe.bind (Safe.getObj id) fun _ => Safe.pure _
  fnevals := h.fnevals
  dVolLam := h.dVol
  dSrfLam := h.dSrf

theorem Safe.nmax : Safe P (Self.nmax id) :=
  Safe.bind (Safe.getObj id) fun _ => Safe.bind (Safe.lift _) fun _ =>
    Safe.bind (Safe.lift _) fun _ => Safe.pure _

/-- Filling in the coefficient attributes of `id` preserves `P`. -/
structure FillStable (P : World → Prop) (id : ℕ) : Prop where
  fn : ∀ f, Safe P (modObj id fun o => { o with fn_ := some f })
  fnevals : ∀ f, Safe P (modObj id fun o => { o with fnevals_ := some f })

theorem Safe.fn (h : FillStable P id) : Safe P (Self.fn id) := by
  unfold Self.fn
  refine Safe.bind (Safe.getObj id) fun o => ?_
  cases o.fn_ with
  | some f => exact Safe.pure _
  | none =>
    cases o.fnInput with
    | some f => exact Safe.pure _
    | none =>
      refine Safe.ite (fun _ => Safe.bind (Safe.lift _) fun f =>
        Safe.bind (h.fn f) fun _ => Safe.pure _) fun _ => Safe.pure _

theorem Safe.fnevals (h : FillStable P id) : Safe P (Self.fnevals id) := by
  unfold Self.fnevals
  refine Safe.bind (Safe.getObj id) fun o => ?_
  cases o.fnevals_ with
  | some f => exact Safe.pure _
  | none =>
    cases o.fnevalsInput with
    | some f => exact Safe.pure _
    | none =>
      refine Safe.ite (fun _ => Safe.bind (Safe.fn h) fun f => ?_) fun _ => Safe.pure _
      cases f with
      | none => exact Safe.throw _
      | some f =>
        exact Safe.bind Safe.getW fun w => Safe.ite (fun _ => Safe.throw _) fun _ =>
          Safe.bind (h.fnevals _) fun _ => Safe.pure _

/-- Conditions that do not look at the memo tables are stable. -/
theorem MemoStable.of_objs (h : FillStable P id)
    (hc : ∀ w c, P w → P { w with caches := c }) : MemoStable P id where
  mu0 := Safe.memo (Safe.bind Safe.t0 fun _ => Safe.pure _) fun w v hw => hc w _ hw
  muEx := Safe.memo (Safe.bind Safe.tex fun _ => Safe.pure _) fun w v hw => hc w _ hw
  mu0x := Safe.memo (Safe.bind Safe.nmax fun _ => Safe.bind
    (Safe.memo (Safe.bind Safe.t0 fun _ => Safe.pure _) fun w v hw => hc w _ hw)
    fun _ => Safe.lift _) fun w v hw => hc w _ hw
  muExx := Safe.memo (Safe.bind Safe.nmax fun _ => Safe.bind
    (Safe.memo (Safe.bind Safe.tex fun _ => Safe.pure _) fun w v hw => hc w _ hw)
    fun _ => Safe.lift _) fun w v hw => hc w _ hw
  psym := fun _ => Safe.memo (Safe.bind (Safe.getObj id) fun _ => Safe.pure _) fun w v hw => hc w _ hw
  pfun := by
    intro p
    have hs : Safe P (Self.paramSymbs id p) :=
      Safe.memo (Safe.bind (Safe.getObj id) fun _ => Safe.pure _) fun w v hw => hc w _ hw
    refine Safe.memo (Safe.bind (Safe.getObj id) fun o => ?_) fun w v hw => hc w _ hw
    cases o.pdef p with
    | val a => exact Safe.pure _
    | str e =>
      exact Safe.bind hs fun _ => Safe.bind Safe.getW fun _ =>
        Safe.bind (Safe.lift _) fun _ => Safe.pure _
    | basic e =>
      exact Safe.bind hs fun _ => Safe.bind Safe.getW fun _ =>
        Safe.bind (Safe.lift _) fun _ => Safe.pure _
  fnevals := Safe.fnevals h
  dVol := fun _ => Safe.memo (Safe.bind (Safe.getObj id) fun _ => Safe.bind Safe.getW fun _ =>
    Safe.lift _) fun w v hw => hc w _ hw
  dSrf := fun _ => Safe.memo (Safe.bind (Safe.getObj id) fun _ => Safe.bind Safe.getW fun _ =>
    Safe.lift _) fun w v hw => hc w _ hw

end

end

end RT1
