import Verif.Lemmas.AnalyzeX

/-!
# Which calls change an object

Everything the evaluation methods read, except the compiled coefficients of the interaction term, leaves all objects as
they are.
-/

namespace RT1

noncomputable section
open Classical

namespace ObjsKept

theorem world : ObjsKept getW := fun _ => rfl

theorem memo {κ ν : Type} (tab : Caches → LRU κ ν) (setTab : Caches → LRU κ ν → Caches) (k : κ) {x : M ν}
    (h : ObjsKept x) : ObjsKept (RT1.memo tab setTab k x) := by
  intro w
  unfold RT1.memo
  have hx := h w
  split
  · rfl
  · split <;> rename_i e <;> rw [e] at hx <;> exact hx

theorem catch' {α : Type} {x : M α} {f : PyErr → M α} (h : ObjsKept x) (hf : ∀ e, ObjsKept (f e)) :
    ObjsKept (tryCatch x f) := by
  intro w
  have hx := h w
  show (match x w with
    | (.ok a, w') => (.ok a, w')
    | (.error e, w') => f e w' : Py α × World).2.objs = _
  rcases hr : x w with ⟨r, w1⟩
  rw [hr] at hx
  cases r with
  | error e => exact (hf e w1).trans hx
  | ok a => exact hx

theorem mul {x y : M Arr} (hx : ObjsKept x) (hy : ObjsKept y) : ObjsKept (mulM x y) :=
  bind hx fun _ => bind hy fun _ => lift _

theorem div {x y : M Arr} (hx : ObjsKept x) (hy : ObjsKept y) : ObjsKept (divM x y) :=
  bind hx fun _ => bind hy fun _ => lift _

theorem add {x y : M Arr} (hx : ObjsKept x) (hy : ObjsKept y) : ObjsKept (addM x y) :=
  bind hx fun _ => bind hy fun _ => lift _

theorem sub {x y : M Arr} (hx : ObjsKept x) (hy : ObjsKept y) : ObjsKept (subM x y) :=
  bind hx fun _ => bind hy fun _ => lift _

theorem map {x : M Arr} (f : XR → XR) (hx : ObjsKept x) : ObjsKept (mapM' f x) :=
  bind hx fun _ => pure _

theorem lit (r : ℝ) : ObjsKept (litM r : M Arr) := pure _

end ObjsKept

/-- Accessors that leave the objects as they are; nothing is said about the compiled coefficients. -/
structure AccKept (A : Acc M) : Prop where
  backend : ∀ c, ObjsKept (A.backend c)
  V : ObjsKept A.V
  SRF : ObjsKept A.SRF
  intQ : ObjsKept A.intQ
  sig0 : ObjsKept A.sig0
  dB : ObjsKept A.dB
  I0 : ObjsKept A.I0
  t0 : ObjsKept A.t0
  tex : ObjsKept A.tex
  p0 : ObjsKept A.p0
  pex : ObjsKept A.pex
  mu0 : ObjsKept A.mu0
  muEx : ObjsKept A.muEx
  mu0x : ObjsKept A.mu0x
  muExx : ObjsKept A.muExx
  par : ∀ p, ObjsKept (A.par p)
  symbs : ∀ p, ObjsKept (A.symbs p)
  pdef : ∀ p, ObjsKept (A.pdef p)
  params : ObjsKept A.params
  dVolLam : ∀ k, ObjsKept (A.dVolLam k)
  dSrfLam : ∀ k, ObjsKept (A.dSrfLam k)

theorem ObjsKept.t0 (id : ℕ) : ObjsKept (Self.t0 id) := by
  unfold Self.t0
  refine bind (obj id) fun o => ?_
  split
  · exact pure _
  · exact throw _

theorem ObjsKept.p0 (id : ℕ) : ObjsKept (Self.p0 id) := by
  unfold Self.p0
  refine bind (obj id) fun o => ?_
  split
  · exact pure _
  · exact throw _

theorem ObjsKept.tex (id : ℕ) : ObjsKept (Self.tex id) := by
  unfold Self.tex
  refine bind (obj id) fun o => ?_
  split
  · exact t0 id
  · split
    · exact pure _
    · exact throw _

theorem ObjsKept.pex (id : ℕ) : ObjsKept (Self.pex id) := by
  unfold Self.pex
  refine bind (obj id) fun o => ?_
  split
  · exact bind (p0 id) fun _ => lift _
  · split
    · exact pure _
    · exact throw _

theorem ObjsKept.nmax (id : ℕ) : ObjsKept (Self.nmax id) := by
  unfold Self.nmax
  exact bind (obj id) fun o => bind (lift _) fun _ => bind (lift _) fun _ => pure _

theorem ObjsKept.mu0 (id : ℕ) : ObjsKept (Self.mu0 id) := memo _ _ _ (bind (t0 id) fun _ => pure _)
theorem ObjsKept.muEx (id : ℕ) : ObjsKept (Self.muEx id) := memo _ _ _ (bind (tex id) fun _ => pure _)
theorem ObjsKept.mu0x (id : ℕ) : ObjsKept (Self.mu0x id) :=
  memo _ _ _ (bind (nmax id) fun _ => bind (mu0 id) fun _ => lift _)
theorem ObjsKept.muExx (id : ℕ) : ObjsKept (Self.muExx id) :=
  memo _ _ _ (bind (nmax id) fun _ => bind (muEx id) fun _ => lift _)

theorem ObjsKept.paramFuncs (id : ℕ) (p : PName) : ObjsKept (Self.paramFuncs id p) := by
  unfold Self.paramFuncs
  refine memo _ _ _ (bind (obj id) fun o => ?_)
  split
  · exact pure _
  · exact bind (symbs id p) fun _ => bind world fun _ => bind (lift _) fun _ => pure _
  · exact bind (symbs id p) fun _ => bind world fun _ => bind (lift _) fun _ => pure _

theorem ObjsKept.evalParam (id : ℕ) (p : PName) : ObjsKept (Self.evalParam id p) := by
  unfold Self.evalParam
  refine bind (paramFuncs id p) fun f => ?_
  split
  · refine bind (symbs id p) fun _ => bind (obj id) fun _ => bind world fun _ => catch' (lift _) fun e => ?_
    simp only
    split_ifs <;> exact throw _
  · refine bind (obj id) fun _ => ?_
    split
    · exact pure _
    · exact throw _

theorem accKept (b : Backend) (id : ℕ) : AccKept (Self.acc b id) where
  backend := fun _ => .pure _
  V := .bind (.obj id) fun _ => .pure _
  SRF := .bind (.obj id) fun _ => .pure _
  intQ := .bind (.obj id) fun _ => .pure _
  sig0 := .bind (.obj id) fun _ => .pure _
  dB := .bind (.obj id) fun _ => .pure _
  I0 := .bind (.obj id) fun _ => .pure _
  t0 := .t0 id
  tex := .tex id
  p0 := .p0 id
  pex := .pex id
  mu0 := .mu0 id
  muEx := .muEx id
  mu0x := .mu0x id
  muExx := .muExx id
  par := .evalParam id
  symbs := .symbs id
  pdef := fun _ => .bind (.obj id) fun _ => .pure _
  params := .bind (.obj id) fun _ => .pure _
  dVolLam := fun _ => .memo _ _ _ (.bind (.obj id) fun _ => .bind .world fun _ => .lift _)
  dSrfLam := fun _ => .memo _ _ _ (.bind (.obj id) fun _ => .bind .world fun _ => .lift _)

namespace AccKept
variable {A : Acc M} (h : AccKept A)
include h

theorem srfCalc : ObjsKept A.srfCalc :=
  .bind h.SRF fun _ => .bind h.t0 fun _ => .bind h.tex fun _ => .bind h.p0 fun _ => .bind h.pex fun _ =>
    .bind h.params fun _ => .bind (h.backend _) fun _ => .lift _

theorem vCalc : ObjsKept A.vCalc :=
  .bind h.V fun _ => .bind h.t0 fun _ => .bind h.tex fun _ => .bind h.p0 fun _ => .bind h.pex fun _ =>
    .bind h.params fun _ => .bind (h.backend _) fun _ => .lift _

theorem atten : ObjsKept A.atten :=
  .map _ (.sub (.map _ (.div (h.par _) h.mu0)) (.div (h.par _) h.muEx))

theorem surface : ObjsKept A.surface :=
  .bind (.mul (.mul h.I0 h.mu0) h.srfCalc) fun _ => .bind (.mul h.atten (.pure _)) fun _ =>
    .mul (h.par _) (.add (.mul (.sub (.lit _) (h.par _)) (.pure _)) (.mul (h.par _) (.pure _)))

theorem volume : ObjsKept A.volume :=
  .bind (.mul (.mul (.div (.mul (.mul h.I0 (h.par _)) h.mu0) (.add h.mu0 h.muEx)) (.sub (.lit _) h.atten)) h.vCalc) fun _ =>
    .mul (.sub (.lit _) (h.par _)) (.pure _)

theorem nmax : ObjsKept A.nmax :=
  .bind h.V fun _ => .bind (.lift _) fun _ => .bind h.SRF fun _ => .bind (.lift _) fun _ => .pure _

theorem convert (v : Arr) : ObjsKept (A.convert v) := by
  unfold Acc.convert
  refine .bind h.sig0 fun s => .bind h.dB fun d => ?_
  have ht : ∀ x : Arr, ObjsKept (do
      let ret ← liftPy (v.mul x)
      if d = true then mulM (litM 10) (pure (Arr.map XR.log10 ret)) else pure ret : M Arr) := by
    intro x
    refine .bind (.lift _) fun _ => ?_
    split
    · exact .mul (.lit _) (.pure _)
    · exact .pure _
  dsimp only
  split
  · exact .bind (.div (.mul (.lit _) h.mu0) h.I0) ht
  · exact .bind (.lit _) ht

theorem finish (q : Bool) (a b c : Arr) : ObjsKept (A.finish q a b c) := by
  unfold Acc.finish
  split
  · exact .bind (.add (.add (.pure _) (.pure _)) (.pure _)) fun _ => .bind (.lift _) fun _ => h.convert _
  · exact .bind (.add (.pure _) (.pure _)) fun _ => .bind (.lift _) fun _ => h.convert _

theorem fixNan (I : Arr) : ObjsKept (A.fixNan I) := by
  unfold Acc.fixNan
  split
  · exact .bind (h.par _) fun _ => .bind (.lift _) fun _ => .pure _
  · exact .pure _

theorem missingNames : ObjsKept A.missingNames :=
  .bind (h.symbs _) fun _ => .bind (h.symbs _) fun _ => .bind (h.symbs _) fun _ => .bind (h.symbs _) fun _ =>
    .bind h.V fun _ => .bind h.SRF fun _ => .bind h.params fun _ => .pure _

theorem dvolumeDtau : ObjsKept A.dvolumeDtau :=
  .bind (.mul (.mul (.mul (.mul h.I0 (h.par _)) (.div h.mu0 (.add h.mu0 h.muEx)))
    (.mul (.add (.div (.lit _) h.mu0) (.div (.lit _) (.map _ h.muEx)))
      (.map _ (.sub (.div (.map _ (h.par _)) h.mu0) (.div (h.par _) h.muEx))))) h.vCalc) fun _ =>
    .mul (.sub (.lit _) (h.par _)) (.pure _)

theorem dvolumeDomega : ObjsKept A.dvolumeDomega :=
  .bind (.mul (.mul (.div (.mul h.I0 h.mu0) (.add h.mu0 h.muEx)) (.sub (.lit _) h.atten)) h.vCalc) fun _ =>
    .mul (.sub (.lit _) (h.par _)) (.pure _)

theorem dvolumeDbsf : ObjsKept A.dvolumeDbsf :=
  .bind (.mul (.mul (.div (.mul (.mul h.I0 (h.par _)) h.mu0) (.add h.mu0 h.muEx)) (.sub (.lit _) h.atten)) h.vCalc) fun _ =>
    .pure _

theorem dsurfaceDtau : ObjsKept A.dsurfaceDtau :=
  .bind (.mul (.mul (.mul (.mul h.I0 (.sub (.div (.lit _) h.mu0) (.div (.lit _) h.muEx)))
    (.map _ (.sub (.div (.map _ (h.par _)) h.mu0) (.div (h.par _) h.muEx)))) h.mu0) h.srfCalc) fun _ =>
    .mul (.mul (h.par _) (.sub (.lit _) (h.par _))) (.pure _)

theorem dsurfaceDNormBRDF : ObjsKept A.dsurfaceDNormBRDF :=
  .bind (.mul (.mul h.I0 h.mu0) h.srfCalc) fun _ => .bind (.mul h.atten (.pure _)) fun _ =>
    .add (.mul (.sub (.lit _) (h.par _)) (.pure _)) (.mul (h.par _) (.pure _))

theorem dsurfaceDbsf : ObjsKept A.dsurfaceDbsf :=
  .bind (.mul (.mul h.I0 h.mu0) h.srfCalc) fun _ =>
    .bind (.mul (.mul h.atten (.pure _)) (.bind h.t0 fun _ => .pure _)) fun _ =>
    .mul (h.par _) (.sub (.pure _) (.pure _))

theorem dparam (p : PName) (k : String) : ObjsKept (A.dparam p k) := by
  unfold Acc.dparam
  exact .bind (h.pdef _) fun _ => .bind h.params fun _ => .bind (h.backend _) fun _ => .bind (.lift _) fun _ =>
    .bind h.t0 fun _ => .bind h.tex fun _ => .bind h.p0 fun _ => .bind h.pex fun _ => .bind h.params fun _ => .lift _

theorem dVolumeDummy (k : String) : ObjsKept (A.dVolumeDummy k) := by
  unfold Acc.dVolumeDummy
  refine .bind (h.symbs _) fun _ => ?_
  split
  · exact .bind (h.dparam _ _) fun _ => .mul h.dvolumeDtau (.pure _)
  refine .bind (h.symbs _) fun _ => ?_
  split
  · exact .bind (h.dparam _ _) fun _ => .mul h.dvolumeDomega (.pure _)
  refine .bind (h.symbs _) fun _ => ?_
  split
  · exact .bind (h.dparam _ _) fun _ => .mul h.dvolumeDbsf (.pure _)
  refine .bind (.mul (.mul (.div (.mul (.mul h.I0 (h.par _)) h.mu0) (.add h.mu0 h.muEx)) (.sub (.lit _) h.atten)) ?_) fun _ =>
    .mul (.sub (.lit _) (h.par _)) (.pure _)
  exact .bind (h.dVolLam _) fun _ => .bind h.t0 fun _ => .bind h.tex fun _ => .bind h.p0 fun _ => .bind h.pex fun _ =>
    .bind h.params fun _ => .bind (h.backend _) fun _ => .lift _

theorem dSurfaceDummy (k : String) : ObjsKept (A.dSurfaceDummy k) := by
  unfold Acc.dSurfaceDummy
  refine .bind (h.symbs _) fun _ => ?_
  split
  · exact .bind (h.dparam _ _) fun _ => .mul h.dsurfaceDNormBRDF (.pure _)
  refine .bind (h.symbs _) fun _ => ?_
  split
  · exact .bind (h.dparam _ _) fun _ => .mul h.dsurfaceDbsf (.pure _)
  refine .bind (.mul (.mul h.I0 h.mu0) ?_) fun _ => .bind (.mul h.atten (.pure _)) fun _ =>
    .mul (h.par _) (.add (.mul (.sub (.lit _) (h.par _)) (.pure _)) (.mul (h.par _) (.pure _)))
  exact .bind (h.dSrfLam _) fun _ => .bind h.t0 fun _ => .bind h.tex fun _ => .bind h.p0 fun _ => .bind h.pex fun _ =>
    .bind h.params fun _ => .bind (h.backend _) fun _ => .lift _

theorem jacNorm : ObjsKept A.jacNorm := by
  unfold Acc.jacNorm
  refine .bind h.sig0 fun _ => .bind h.dB fun _ => ?_
  split_ifs
  · exact .mul (.lit _) h.mu0
  · exact .div (.lit _) (.mul (.lit _) (.add h.surface h.volume))
  · exact .lit _

theorem jacEntry (n : Arr) (k : String) : ObjsKept (A.jacEntry n k) := by
  unfold Acc.jacEntry
  split_ifs
  · exact .mul (.add (.lit _) h.dvolumeDomega) (.pure _)
  · exact .mul (.add h.dsurfaceDtau h.dvolumeDtau) (.pure _)
  · exact .mul (.add h.dsurfaceDNormBRDF (.lit _)) (.pure _)
  · exact .mul (.add h.dsurfaceDbsf h.dvolumeDbsf) (.pure _)
  · refine .bind h.params fun _ => ?_
    split_ifs
    · exact .mul (.add (h.dSurfaceDummy _) (h.dVolumeDummy _)) (.pure _)
    · exact .throw _

theorem jacLoop (n : Arr) (ks : List String) : ObjsKept (A.jacLoop n ks) := by
  induction ks with
  | nil => exact .pure _
  | cons k ks ih => exact .bind (h.jacEntry n k) fun _ => .bind ih fun _ => .pure _

theorem jacList (ks : List String) : ObjsKept (A.jacList ks) := .bind h.jacNorm fun _ => h.jacLoop _ ks

end AccKept

end

end RT1
