import Verif.Lemmas.Backend
import Verif.Model.Switch

/-! Conditions on the state that every evaluation of a program that switches backends preserves. -/

namespace RT1

noncomputable section
open Classical

theorem SM.bind_ok {T α β : Type} {x : SM T α} {f : α → SM T β} {s s' : World × T} {a : α}
    (h : x s = (.ok a, s')) : (x >>= f) s = f a s' := by
  show (match x s with
    | (.ok a, s') => f a s'
    | (.error e, s') => (.error e, s')) = _
  rw [h]

theorem SM.bind_error {T α β : Type} {x : SM T α} {f : α → SM T β} {s s' : World × T} {e : PyErr}
    (h : x s = (.error e, s')) : (x >>= f) s = (.error e, s') := by
  show (match x s with
    | (.ok a, s') => f a s'
    | (.error e, s') => (.error e, s')) = _
  rw [h]

/-- `x` preserves `P` (also when it raises). -/
def SSafe {T : Type} (P : World → Prop) {α : Type} (x : SM T α) : Prop := ∀ s, P s.1 → P (x s).2.1

namespace SSafe
variable {T : Type} {P : World → Prop} {α β : Type}

theorem bind {x : SM T α} {f : α → SM T β} (h : SSafe P x) (hf : ∀ a, SSafe P (f a)) :
    SSafe P (x >>= f) := by
  intro w hw
  have h1 := h w hw
  cases hx : x w with
  | mk r w' =>
    rw [hx] at h1
    cases r with
    | error e => rw [SM.bind_error hx]; exact h1
    | ok a => rw [SM.bind_ok hx]; exact hf a w' h1

theorem pure (a : α) : SSafe P (Pure.pure a : SM T α) := fun _ hw => hw
theorem throw (e : PyErr) : SSafe P (MonadExcept.throw e : SM T α) := fun _ hw => hw
theorem lift (x : Py α) : SSafe P (liftPy x : SM T α) := by
  cases x with
  | ok a => exact fun _ hw => hw
  | error e => exact fun _ hw => hw
theorem tryCatch {x : SM T α} {f : PyErr → SM T α} (h : SSafe P x) (hf : ∀ e, SSafe P (f e)) :
    SSafe P (MonadExcept.tryCatch x f) := by
  intro w hw
  have h1 := h w hw
  show P ((match x w with
      | (.ok a, w') => (.ok a, w')
      | (.error e, w') => f e w') : Py α × (World × T)).2.1
  cases hx : x w with
  | mk r w' =>
    rw [hx] at h1
    cases r with
    | error e => exact hf e w' h1
    | ok a => exact h1
theorem ite {c : Prop} [Decidable c] {x x' : SM T α} (h : c → SSafe P x) (h' : ¬ c → SSafe P x') :
    SSafe P (if c then x else x') := by
  by_cases hc : c
  · simp only [hc, if_true]; exact h hc
  · simp only [hc, if_false]; exact h' hc

section ops
variable {x x' : SM T Arr}
theorem mulM (h : SSafe P x) (h' : SSafe P x') : SSafe P (RT1.mulM x x') :=
  bind h fun _ => bind h' fun _ => lift _
theorem divM (h : SSafe P x) (h' : SSafe P x') : SSafe P (RT1.divM x x') :=
  bind h fun _ => bind h' fun _ => lift _
theorem addM (h : SSafe P x) (h' : SSafe P x') : SSafe P (RT1.addM x x') :=
  bind h fun _ => bind h' fun _ => lift _
theorem subM (h : SSafe P x) (h' : SSafe P x') : SSafe P (RT1.subM x x') :=
  bind h fun _ => bind h' fun _ => lift _
theorem mapM' (f : XR → XR) (h : SSafe P x) : SSafe P (RT1.mapM' f x) := bind h fun _ => pure _
theorem negM (h : SSafe P x) : SSafe P (RT1.negM x) := mapM' _ h
theorem expM (h : SSafe P x) : SSafe P (RT1.expM x) := mapM' _ h
theorem litM (r : ℝ) : SSafe P (RT1.litM r : SM T Arr) := pure _
end ops

end SSafe

/-- All accessors preserve `P`. -/
structure AccSSafe {T : Type} (P : World → Prop) (A : Acc (SM T)) : Prop where
  backend : ∀ c, SSafe P (A.backend c)
  V : SSafe P A.V
  SRF : SSafe P A.SRF
  intQ : SSafe P A.intQ
  sig0 : SSafe P A.sig0
  dB : SSafe P A.dB
  I0 : SSafe P A.I0
  t0 : SSafe P A.t0
  tex : SSafe P A.tex
  p0 : SSafe P A.p0
  pex : SSafe P A.pex
  mu0 : SSafe P A.mu0
  muEx : SSafe P A.muEx
  mu0x : SSafe P A.mu0x
  muExx : SSafe P A.muExx
  par : ∀ p, SSafe P (A.par p)
  symbs : ∀ p, SSafe P (A.symbs p)
  pdef : ∀ p, SSafe P (A.pdef p)
  params : SSafe P A.params
  fnevals : SSafe P A.fnevals
  dVolLam : ∀ k, SSafe P (A.dVolLam k)
  dSrfLam : ∀ k, SSafe P (A.dSrfLam k)

namespace AccSSafe
variable {T : Type} {P : World → Prop} {A : Acc (SM T)} (h : AccSSafe P A)
include h

macro "ssafe_step" : tactic => `(tactic| first
  | with_reducible assumption
  | with_reducible exact SSafe.litM _
  | with_reducible exact SSafe.lift _
  | with_reducible exact SSafe.pure _
  | with_reducible exact SSafe.throw _
  | with_reducible exact AccSSafe.backend ‹_› _ | with_reducible exact AccSSafe.V ‹_› | with_reducible exact AccSSafe.SRF ‹_› | with_reducible exact AccSSafe.intQ ‹_› | with_reducible exact AccSSafe.sig0 ‹_›
  | with_reducible exact AccSSafe.dB ‹_› | with_reducible exact AccSSafe.I0 ‹_› | with_reducible exact AccSSafe.t0 ‹_› | with_reducible exact AccSSafe.tex ‹_›
  | with_reducible exact AccSSafe.p0 ‹_› | with_reducible exact AccSSafe.pex ‹_› | with_reducible exact AccSSafe.mu0 ‹_› | with_reducible exact AccSSafe.muEx ‹_›
  | with_reducible exact AccSSafe.par ‹_› _ | with_reducible exact AccSSafe.symbs ‹_› _ | with_reducible exact AccSSafe.pdef ‹_› _
  | with_reducible exact AccSSafe.params ‹_› | with_reducible exact AccSSafe.fnevals ‹_› | with_reducible exact AccSSafe.dVolLam ‹_› _
  | with_reducible exact AccSSafe.dSrfLam ‹_› _
  | with_reducible apply SSafe.mulM | with_reducible apply SSafe.divM | with_reducible apply SSafe.addM | with_reducible apply SSafe.subM
  | with_reducible apply SSafe.negM | with_reducible apply SSafe.expM | with_reducible apply SSafe.mapM'
  | (with_reducible apply SSafe.bind; rotate_left; intro _; rotate_right)
  | (with_reducible apply SSafe.ite <;> intro _))

theorem srfCalc : SSafe P A.srfCalc := by unfold Acc.srfCalc; repeat' ssafe_step
theorem vCalc : SSafe P A.vCalc := by unfold Acc.vCalc; repeat' ssafe_step
theorem atten : SSafe P A.atten := by unfold Acc.atten; repeat' ssafe_step
theorem surface : SSafe P A.surface := by
  have h1 := h.srfCalc
  have h2 := h.atten
  unfold Acc.surface; repeat' ssafe_step
theorem volume : SSafe P A.volume := by
  have h1 := h.vCalc
  have h2 := h.atten
  unfold Acc.volume; repeat' ssafe_step
theorem nmax : SSafe P A.nmax := by unfold Acc.nmax; repeat' ssafe_step
theorem convert (v : Arr) : SSafe P (A.convert v) := by unfold Acc.convert; repeat' ssafe_step
theorem finish (q : Bool) (a b c : Arr) : SSafe P (A.finish q a b c) := by
  have h1 := h.convert
  unfold Acc.finish; repeat' (first | exact h1 _ | ssafe_step)
theorem fixNan (a : Arr) : SSafe P (A.fixNan a) := by unfold Acc.fixNan; repeat' ssafe_step
theorem missingNames : SSafe P A.missingNames := by unfold Acc.missingNames; repeat' ssafe_step

theorem fnCall (f : FnLam) (args : List Arr) : SSafe P (A.fnCall f args) := by
  unfold Acc.fnCall; repeat' ssafe_step

theorem fint {g : SM T (List Arr)} (hg : SSafe P g) {mx m0 : SM T Arr} (h1 : SSafe P mx)
    (h2 : SSafe P m0) : SSafe P (A.fint g mx m0) := by
  have hn := h.nmax
  have hc := h.fnCall
  unfold Acc.fint
  refine SSafe.bind hg fun a => SSafe.bind h.params fun pd =>
    SSafe.bind (SSafe.lift _) fun args => SSafe.bind h.fnevals fun f => ?_
  cases f with
  | none =>
    dsimp only
    intro w hw
    exact hw
  | some f =>
    dsimp only
    repeat' (first | exact hc _ _ | ssafe_step)

theorem fint1 : SSafe P A.fint1 := by
  unfold Acc.fint1
  refine h.fint ?_ h.mu0x h.mu0
  repeat' ssafe_step
theorem fint2 : SSafe P A.fint2 := by
  unfold Acc.fint2
  refine h.fint ?_ h.muExx h.muEx
  repeat' ssafe_step
theorem interaction : SSafe P A.interaction := by
  have h1 := h.fint1
  have h2 := h.fint2
  unfold Acc.interaction; repeat' ssafe_step
theorem calcBody : SSafe P A.calcBody := by
  have h1 := h.surface
  have h2 := h.volume
  have h3 := h.interaction
  have h4 := h.finish
  have h5 := h.fixNan
  unfold Acc.calcBody; repeat' (first | exact h4 _ _ _ _ | exact h5 _ | ssafe_step)
theorem calcTry : SSafe P A.calcTry := by
  have h1 := h.calcBody
  have h2 := h.missingNames
  unfold Acc.calcTry
  refine SSafe.tryCatch h1 fun e => ?_
  cases e <;> dsimp only <;> repeat' ssafe_step
theorem dvolumeDtau : SSafe P A.dvolumeDtau := by
  have h1 := h.vCalc
  unfold Acc.dvolumeDtau; repeat' ssafe_step
theorem dvolumeDomega : SSafe P A.dvolumeDomega := by
  have h1 := h.vCalc
  have h2 := h.atten
  unfold Acc.dvolumeDomega; repeat' ssafe_step
theorem dvolumeDbsf : SSafe P A.dvolumeDbsf := by
  have h1 := h.vCalc
  have h2 := h.atten
  unfold Acc.dvolumeDbsf; repeat' ssafe_step
theorem dsurfaceDtau : SSafe P A.dsurfaceDtau := by
  have h1 := h.srfCalc
  unfold Acc.dsurfaceDtau; repeat' ssafe_step
theorem dsurfaceDNormBRDF : SSafe P A.dsurfaceDNormBRDF := by
  have h1 := h.srfCalc
  have h2 := h.atten
  unfold Acc.dsurfaceDNormBRDF; repeat' ssafe_step
theorem dsurfaceDbsf : SSafe P A.dsurfaceDbsf := by
  have h1 := h.srfCalc
  have h2 := h.atten
  unfold Acc.dsurfaceDbsf; repeat' ssafe_step
theorem dparam (p : PName) (key : String) : SSafe P (A.dparam p key) := by
  unfold Acc.dparam; repeat' ssafe_step
theorem dVolumeDummy (key : String) : SSafe P (A.dVolumeDummy key) := by
  have h1 := h.dvolumeDtau
  have h2 := h.dvolumeDomega
  have h3 := h.dvolumeDbsf
  have h4 := h.atten
  have h5 := h.dparam
  unfold Acc.dVolumeDummy; repeat' (first | exact h5 _ _ | ssafe_step)
theorem dSurfaceDummy (key : String) : SSafe P (A.dSurfaceDummy key) := by
  have h1 := h.dsurfaceDNormBRDF
  have h3 := h.dsurfaceDbsf
  have h4 := h.atten
  have h5 := h.dparam
  unfold Acc.dSurfaceDummy; repeat' (first | exact h5 _ _ | ssafe_step)
theorem jacNorm : SSafe P A.jacNorm := by
  have h1 := h.surface
  have h2 := h.volume
  unfold Acc.jacNorm; repeat' ssafe_step
theorem jacEntry (norm : Arr) (key : String) : SSafe P (A.jacEntry norm key) := by
  have h1 := h.dvolumeDtau
  have h2 := h.dvolumeDomega
  have h3 := h.dvolumeDbsf
  have h4 := h.dsurfaceDtau
  have h5 := h.dsurfaceDNormBRDF
  have h6 := h.dsurfaceDbsf
  have h7 := h.dVolumeDummy key
  have h8 := h.dSurfaceDummy key
  unfold Acc.jacEntry Acc.dsurfaceDomega Acc.dvolumeDNormBRDF; repeat' ssafe_step
theorem jacLoop (norm : Arr) (keys : List String) : SSafe P (A.jacLoop norm keys) := by
  induction keys with
  | nil => exact SSafe.pure _
  | cons k ks ih =>
    exact SSafe.bind (h.jacEntry norm k) fun _ => SSafe.bind ih fun _ => SSafe.pure _
theorem jacList (keys : List String) : SSafe P (A.jacList keys) :=
  SSafe.bind h.jacNorm fun _ => h.jacLoop _ _

end AccSSafe

/-! ### steps of the model state -/

section
variable {T : Type} {P : World → Prop} {α : Type}

theorem SSafe.plain {x : M α} (h : Safe P x) : SSafe P (Switch.plain x : SM T α) :=
  fun s hs => h s.1 hs

theorem SSafe.fetch {x : M α} {Q : Policy T} {id : ℕ} {c : Callee} (h : Safe P x)
    (hb : ∀ w b, P w → P { w with backend := b }) : SSafe P (Switch.fetch Q id c x) :=
  fun s hs => hb _ s.1.backend (h _ (hb s.1 _ hs))

/-- A condition that does not depend on the backend and that the accessors of `id` preserve. -/
theorem MemoStable.sacc {id : ℕ} (h : MemoStable P id) (hb : ∀ w b, P w → P { w with backend := b })
    (Q : Policy T) : AccSSafe P (Switch.acc Q id) where
  backend := fun _ _ hs => hs
  V := SSafe.plain (Safe.bind (Safe.getObj id) fun _ => Safe.pure _)
  SRF := SSafe.plain (Safe.bind (Safe.getObj id) fun _ => Safe.pure _)
  intQ := SSafe.plain (Safe.bind (Safe.getObj id) fun _ => Safe.pure _)
  sig0 := SSafe.plain (Safe.bind (Safe.getObj id) fun _ => Safe.pure _)
  dB := SSafe.plain (Safe.bind (Safe.getObj id) fun _ => Safe.pure _)
  I0 := SSafe.plain (Safe.bind (Safe.getObj id) fun _ => Safe.pure _)
  t0 := SSafe.plain Safe.t0
  tex := SSafe.plain Safe.tex
  p0 := SSafe.plain Safe.p0
  pex := SSafe.plain Safe.pex
  mu0 := SSafe.plain h.mu0
  muEx := SSafe.plain h.muEx
  mu0x := SSafe.plain h.mu0x
  muExx := SSafe.plain h.muExx
  par := fun p => SSafe.fetch (Safe.evalParam h p) hb
  symbs := fun p => SSafe.plain (h.psym p)
  pdef := fun _ => SSafe.plain (Safe.bind (Safe.getObj id) fun _ => Safe.pure _)
  params := SSafe.plain (Safe.bind (Safe.getObj id) fun _ => Safe.pure _)
  fnevals := SSafe.fetch h.fnevals hb
  dVolLam := fun k => SSafe.fetch (h.dVol k) hb
  dSrfLam := fun k => SSafe.fetch (h.dSrf k) hb

end

end

end RT1
