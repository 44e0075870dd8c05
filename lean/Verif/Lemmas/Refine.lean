import Verif.Spec.Fresh

/-! The memoised evaluation methods refine the memo-free ones. -/

namespace RT1

noncomputable section
open Classical

/-- From a state satisfying `I`, `x` returns exactly what `y` says and leaves `I` true. -/
def Refines (I : World → Prop) {α : Type} (x : M α) (y : Py α) : Prop :=
  ∀ w, I w → (x w).1 = y ∧ I (x w).2

namespace Refines
variable {I : World → Prop} {α β : Type}

theorem bind {x : M α} {y : Py α} {f : α → M β} {g : α → Py β}
    (h : Refines I x y) (hf : ∀ a, y = .ok a → Refines I (f a) (g a)) :
    Refines I (x >>= f) (y >>= g) := by
  intro w hw
  obtain ⟨h1, h2⟩ := h w hw
  show ((match x w with
    | (.ok a, w') => f a w'
    | (.error e, w') => (.error e, w')) : Py β × World).1 = _ ∧ _
  cases hx : x w with
  | mk r w' =>
    rw [hx] at h1 h2
    simp only at h1 h2
    have hb : (x >>= f) w = (match x w with
      | (.ok a, w') => f a w'
      | (.error e, w') => (.error e, w')) := rfl
    rw [hb, hx]
    cases r with
    | error e => subst h1; exact ⟨rfl, h2⟩
    | ok a =>
      subst h1
      exact hf a rfl w' h2

theorem pure (a : α) : Refines I (Pure.pure a) (Pure.pure a) := fun _ hw => ⟨rfl, hw⟩
theorem pure_ok (a : α) : Refines I (Pure.pure a) (.ok a) := fun _ hw => ⟨rfl, hw⟩
theorem throw (e : PyErr) : Refines I (MonadExcept.throw e : M α) (MonadExcept.throw e : Py α) :=
  fun _ hw => ⟨rfl, hw⟩
theorem throw' (e : PyErr) : Refines I (MonadExcept.throw e : M α) (.error e) :=
  fun _ hw => ⟨rfl, hw⟩

theorem lift (x : Py α) : Refines I (liftPy x : M α) x := by
  cases x with
  | ok a => exact fun _ hw => ⟨rfl, hw⟩
  | error e => exact fun _ hw => ⟨rfl, hw⟩

theorem liftPy_py (x : Py α) : (liftPy x : Py α) = x := by cases x <;> rfl

theorem lift' (x : Py α) : Refines I (liftPy x : M α) (liftPy x : Py α) := by
  rw [liftPy_py]; exact lift x

theorem tryCatch {x : M α} {y : Py α} {f : PyErr → M α} {g : PyErr → Py α}
    (h : Refines I x y) (hf : ∀ e, Refines I (f e) (g e)) :
    Refines I (MonadExcept.tryCatch x f) (MonadExcept.tryCatch y g) := by
  intro w hw
  obtain ⟨h1, h2⟩ := h w hw
  have hb : (MonadExcept.tryCatch x f : M α) w = (match x w with
      | (.ok a, w') => (.ok a, w')
      | (.error e, w') => f e w') := rfl
  rw [hb]
  cases hx : x w with
  | mk r w' =>
    rw [hx] at h1 h2
    simp only at h1 h2
    cases r with
    | error e => subst h1; exact hf e w' h2
    | ok a => subst h1; exact ⟨rfl, h2⟩

theorem ite {c : Prop} [Decidable c] {x x' : M α} {y y' : Py α}
    (h : c → Refines I x y) (h' : ¬ c → Refines I x' y') :
    Refines I (if c then x else x') (if c then y else y') := by
  by_cases hc : c
  · simp only [hc, if_true]; exact h hc
  · simp only [hc, if_false]; exact h' hc

section ops
variable {x x' : M Arr} {y y' : Py Arr}
theorem mulM (h : Refines I x y) (h' : Refines I x' y') : Refines I (RT1.mulM x x') (RT1.mulM y y') :=
  bind h fun _ _ => bind h' fun _ _ => lift' _
theorem divM (h : Refines I x y) (h' : Refines I x' y') : Refines I (RT1.divM x x') (RT1.divM y y') :=
  bind h fun _ _ => bind h' fun _ _ => lift' _
theorem addM (h : Refines I x y) (h' : Refines I x' y') : Refines I (RT1.addM x x') (RT1.addM y y') :=
  bind h fun _ _ => bind h' fun _ _ => lift' _
theorem subM (h : Refines I x y) (h' : Refines I x' y') : Refines I (RT1.subM x x') (RT1.subM y y') :=
  bind h fun _ _ => bind h' fun _ _ => lift' _
theorem mapM' (f : XR → XR) (h : Refines I x y) : Refines I (RT1.mapM' f x) (RT1.mapM' f y) :=
  bind h fun _ _ => pure _
theorem negM (h : Refines I x y) : Refines I (RT1.negM x) (RT1.negM y) := mapM' _ h
theorem expM (h : Refines I x y) : Refines I (RT1.expM x) (RT1.expM y) := mapM' _ h
theorem litM (r : ℝ) : Refines I (RT1.litM r) (RT1.litM r) := pure _
end ops

end Refines

/-- Accessors used by surface and volume agree. -/
structure AccRef (I : World → Prop) (A : Acc M) (B : Acc Py) : Prop where
  backend : ∀ c, Refines I (A.backend c) (B.backend c)
  V : Refines I A.V B.V
  SRF : Refines I A.SRF B.SRF
  intQ : Refines I A.intQ B.intQ
  sig0 : Refines I A.sig0 B.sig0
  dB : Refines I A.dB B.dB
  I0 : Refines I A.I0 B.I0
  t0 : Refines I A.t0 B.t0
  tex : Refines I A.tex B.tex
  p0 : Refines I A.p0 B.p0
  pex : Refines I A.pex B.pex
  mu0 : Refines I A.mu0 B.mu0
  muEx : Refines I A.muEx B.muEx
  par : ∀ p, Refines I (A.par p) (B.par p)
  symbs : ∀ p, Refines I (A.symbs p) (B.symbs p)
  pdef : ∀ p, Refines I (A.pdef p) (B.pdef p)
  params : Refines I A.params B.params

/-- Accessors used by the interaction term agree. -/
structure AccRefInt (I : World → Prop) (A : Acc M) (B : Acc Py) : Prop where
  mu0x : Refines I A.mu0x B.mu0x
  muExx : Refines I A.muExx B.muExx
  fnevals : Refines I A.fnevals B.fnevals

namespace AccRef
variable {I : World → Prop} {A : Acc M} {B : Acc Py} (h : AccRef I A B)
include h

open Refines in
macro "refine_step" : tactic => `(tactic| first
  | assumption
  | exact Refines.litM _
  | exact Refines.lift' _
  | exact Refines.pure _
  | exact Refines.throw _
  | exact AccRef.backend ‹_› _ | exact AccRef.V ‹_› | exact AccRef.SRF ‹_› | exact AccRef.intQ ‹_› | exact AccRef.sig0 ‹_›
  | exact AccRef.dB ‹_› | exact AccRef.I0 ‹_› | exact AccRef.t0 ‹_› | exact AccRef.tex ‹_›
  | exact AccRef.p0 ‹_› | exact AccRef.pex ‹_› | exact AccRef.mu0 ‹_› | exact AccRef.muEx ‹_›
  | exact AccRef.par ‹_› _ | exact AccRef.symbs ‹_› _ | exact AccRef.pdef ‹_› _
  | exact AccRef.params ‹_›
  | apply Refines.mulM | apply Refines.divM | apply Refines.addM | apply Refines.subM
  | apply Refines.negM | apply Refines.expM | apply Refines.mapM'
  | (apply Refines.bind; rotate_left; intro _ _; rotate_right)
  | (apply Refines.ite <;> intro _))

theorem srfCalc : Refines I A.srfCalc B.srfCalc := by
  unfold Acc.srfCalc; repeat' refine_step
theorem vCalc : Refines I A.vCalc B.vCalc := by
  unfold Acc.vCalc; repeat' refine_step
theorem atten : Refines I A.atten B.atten := by
  unfold Acc.atten; repeat' refine_step
theorem surface : Refines I A.surface B.surface := by
  have h1 := h.srfCalc
  have h2 := h.atten
  unfold Acc.surface; repeat' refine_step
theorem volume : Refines I A.volume B.volume := by
  have h1 := h.vCalc
  have h2 := h.atten
  unfold Acc.volume; repeat' refine_step
theorem nmax : Refines I A.nmax B.nmax := by
  unfold Acc.nmax; repeat' refine_step
theorem convert (v : Arr) : Refines I (A.convert v) (B.convert v) := by
  unfold Acc.convert; repeat' refine_step
theorem finish (q : Bool) (a b c : Arr) : Refines I (A.finish q a b c) (B.finish q a b c) := by
  have h1 := h.convert
  unfold Acc.finish; repeat' (first | exact h1 _ | refine_step)
theorem fixNan (a : Arr) : Refines I (A.fixNan a) (B.fixNan a) := by
  unfold Acc.fixNan; repeat' refine_step
theorem missingNames : Refines I A.missingNames B.missingNames := by
  unfold Acc.missingNames; repeat' refine_step

theorem fnCall (f : FnLam) (args : List Arr) : Refines I (A.fnCall f args) (B.fnCall f args) := by
  unfold Acc.fnCall; repeat' refine_step

theorem fint (hi : AccRefInt I A B) {g : M (List Arr)} {g' : Py (List Arr)} (hg : Refines I g g')
    {mx m0 : M Arr} {mx' m0' : Py Arr} (h1 : Refines I mx mx') (h2 : Refines I m0 m0') :
    Refines I (A.fint g mx m0) (B.fint g' mx' m0') := by
  have hn := h.nmax
  have hf := hi.fnevals
  have hc := h.fnCall
  unfold Acc.fint
  refine Refines.bind hg fun a _ => Refines.bind h.params fun pd _ =>
    Refines.bind (Refines.lift' _) fun args _ => Refines.bind hf fun f _ => ?_
  cases f with
  | none =>
    dsimp only
    intro w hw
    exact ⟨rfl, hw⟩
  | some f =>
    dsimp only
    repeat' (first | exact hc _ _ | refine_step)

theorem fint1 (hi : AccRefInt I A B) : Refines I A.fint1 B.fint1 := by
  unfold Acc.fint1
  refine h.fint hi ?_ hi.mu0x h.mu0
  repeat' refine_step

theorem fint2 (hi : AccRefInt I A B) : Refines I A.fint2 B.fint2 := by
  unfold Acc.fint2
  refine h.fint hi ?_ hi.muExx h.muEx
  repeat' refine_step

theorem interaction (hi : AccRefInt I A B) : Refines I A.interaction B.interaction := by
  have h1 := h.fint1 hi
  have h2 := h.fint2 hi
  unfold Acc.interaction; repeat' refine_step

theorem calcBody (hi : AccRefInt I A B) : Refines I A.calcBody B.calcBody := by
  have h1 := h.surface
  have h2 := h.volume
  have h3 := h.interaction hi
  have h4 := h.finish
  have h5 := h.fixNan
  unfold Acc.calcBody; repeat' (first | exact h4 _ _ _ _ | exact h5 _ | refine_step)

theorem calcTry (hi : AccRefInt I A B) : Refines I A.calcTry B.calcTry := by
  have h1 := h.calcBody hi
  have h2 := h.missingNames
  unfold Acc.calcTry
  refine Refines.tryCatch h1 fun e => ?_
  cases e <;> simp only <;> repeat' refine_step

theorem dvolumeDtau : Refines I A.dvolumeDtau B.dvolumeDtau := by
  have h1 := h.vCalc
  unfold Acc.dvolumeDtau; repeat' refine_step
theorem dvolumeDomega : Refines I A.dvolumeDomega B.dvolumeDomega := by
  have h1 := h.vCalc
  have h2 := h.atten
  unfold Acc.dvolumeDomega; repeat' refine_step
theorem dvolumeDbsf : Refines I A.dvolumeDbsf B.dvolumeDbsf := by
  have h1 := h.vCalc
  have h2 := h.atten
  unfold Acc.dvolumeDbsf; repeat' refine_step
theorem dsurfaceDtau : Refines I A.dsurfaceDtau B.dsurfaceDtau := by
  have h1 := h.srfCalc
  unfold Acc.dsurfaceDtau; repeat' refine_step
theorem dsurfaceDNormBRDF : Refines I A.dsurfaceDNormBRDF B.dsurfaceDNormBRDF := by
  have h1 := h.srfCalc
  have h2 := h.atten
  unfold Acc.dsurfaceDNormBRDF; repeat' refine_step
theorem dsurfaceDbsf : Refines I A.dsurfaceDbsf B.dsurfaceDbsf := by
  have h1 := h.srfCalc
  have h2 := h.atten
  unfold Acc.dsurfaceDbsf; repeat' refine_step
theorem dparam (p : PName) (key : String) : Refines I (A.dparam p key) (B.dparam p key) := by
  unfold Acc.dparam; repeat' refine_step

theorem dVolumeDummy (key : String) (hd : Refines I (A.dVolLam key) (B.dVolLam key)) :
    Refines I (A.dVolumeDummy key) (B.dVolumeDummy key) := by
  have h1 := h.dvolumeDtau
  have h2 := h.dvolumeDomega
  have h3 := h.dvolumeDbsf
  have h4 := h.atten
  have h5 := h.dparam
  unfold Acc.dVolumeDummy; repeat' (first | exact h5 _ _ | refine_step)

theorem dSurfaceDummy (key : String) (hd : Refines I (A.dSrfLam key) (B.dSrfLam key)) :
    Refines I (A.dSurfaceDummy key) (B.dSurfaceDummy key) := by
  have h1 := h.dsurfaceDNormBRDF
  have h3 := h.dsurfaceDbsf
  have h4 := h.atten
  have h5 := h.dparam
  unfold Acc.dSurfaceDummy; repeat' (first | exact h5 _ _ | refine_step)

theorem jacNorm : Refines I A.jacNorm B.jacNorm := by
  have h1 := h.surface
  have h2 := h.volume
  unfold Acc.jacNorm; repeat' refine_step

theorem jacEntry (norm : Arr) (key : String) (hd : Refines I (A.dVolLam key) (B.dVolLam key))
    (hs : Refines I (A.dSrfLam key) (B.dSrfLam key)) :
    Refines I (A.jacEntry norm key) (B.jacEntry norm key) := by
  have h1 := h.dvolumeDtau
  have h2 := h.dvolumeDomega
  have h3 := h.dvolumeDbsf
  have h4 := h.dsurfaceDtau
  have h5 := h.dsurfaceDNormBRDF
  have h6 := h.dsurfaceDbsf
  have h7 := h.dVolumeDummy key hd
  have h8 := h.dSurfaceDummy key hs
  unfold Acc.jacEntry Acc.dsurfaceDomega Acc.dvolumeDNormBRDF; repeat' refine_step

end AccRef

end

end RT1
