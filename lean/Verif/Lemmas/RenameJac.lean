import Verif.Lemmas.RenameObj

/-! The derivatives of objects with other names for their parameters. -/

namespace RT1

noncomputable section
open Classical

section
variable {σ : String → String}

theorem Expr.diff_rename (h : Function.Injective σ) (k : String) (e : Expr) :
    (e.rename σ).diff (σ k) = (e.diff k).rename σ := by
  induction e with
  | sym s =>
    show (if σ s = σ k then Expr.num 1 else .num 0) = Expr.rename σ (if s = k then .num 1 else .num 0)
    by_cases hs : s = k
    · rw [if_pos hs, if_pos (congrArg σ hs)]; rfl
    · rw [if_neg hs, if_neg (mt (fun e => h e) hs)]; rfl
  | num r => rfl
  | sign a _ => rfl
  | _ => simp_all [Expr.rename, Expr.diff]

/-- Keys of `jacobian` that denote tau, omega, NormBRDF and bsf. -/
def ownKeys : List String := ["omega", "tau", "NormBRDF", "bsf"]

variable {o o' : Obj}

theorem angles_keys (h : Renaming σ) (d : Dict) : ["theta_0", "theta_ex", "phi_0", "phi_ex"] ++ (d.rename σ).keys =
    (["theta_0", "theta_ex", "phi_0", "phi_ex"] ++ d.keys).map σ := by
  rw [List.map_append, Dict.keys_rename]
  simp only [List.map_cons, List.map_nil, h.angles "theta_0" (by simp), h.angles "theta_ex" (by simp),
    h.angles "phi_0" (by simp), h.angles "phi_ex" (by simp)]

theorem compiled_call (h : Renaming σ) (b : Backend) (e : Expr) (d : Dict) (a1 a2 a3 a4 : Arr) :
    (do
      let f ← Lam.compile b (["theta_0", "theta_ex", "phi_0", "phi_ex"] ++ (d.rename σ).keys) (e.rename σ)
      f.call b [a1, a2, a3, a4] (d.rename σ) : Py Arr) = Py.rename σ (do
      let f ← Lam.compile b (["theta_0", "theta_ex", "phi_0", "phi_ex"] ++ d.keys) e
      f.call b [a1, a2, a3, a4] d) := by
  rw [ren_bind, ren_compile, angles_keys h, compile_rename h.inj]
  cases Lam.compile b (["theta_0", "theta_ex", "phi_0", "phi_ex"] ++ d.keys) e with
  | error e => rfl
  | ok f => 
    show Lam.call b ⟨f.vars.map σ, f.body.rename σ⟩ _ (d.rename σ) = Py.rename σ (f.call b _ d)
    rw [call_rename h.inj, ren_call]

theorem liftPy_eq {α : Type} (x : Py α) : (liftPy x : Py α) = x := by cases x <;> rfl

theorem dparam_form (b : Backend) (o : Obj) (p : PName) (k : String) :
    (Fresh.acc0 b o).dparam p k = (do
      let f ← Lam.compile b (["theta_0", "theta_ex", "phi_0", "phi_ex"] ++ o.params.keys)
        (match o.pdef p with | .str e => e.diff k | _ => .num 1)
      let a ← Fresh.ang o .t0
      let c ← Fresh.tex o
      let d ← Fresh.ang o .p0
      let e ← Fresh.pex o
      f.call b [a, c, d, e] o.params) := by
  unfold Acc.dparam
  simp only [liftPy_eq]
  rfl

/-- The call of a compiled derivative with the angles of the object. -/
def callAt (b : Backend) (o : Obj) (e : Expr) : Py Arr := do
  let f ← Lam.compile b (["theta_0", "theta_ex", "phi_0", "phi_ex"] ++ o.params.keys) e
  let a ← Fresh.ang o .t0
  let c ← Fresh.tex o
  let d ← Fresh.ang o .p0
  let g ← Fresh.pex o
  f.call b [a, c, d, g] o.params

theorem RenamedSettings.callAt (hs : RenamedSettings σ o o') (h : Renaming σ) (b : Backend) (e : Expr) :
    callAt b o' (e.rename σ) = Py.rename σ (RT1.callAt b o e) := by
  unfold RT1.callAt
  simp only [hs.ang', hs.tex, hs.pex, hs.params, ren_bind, ren_compile, ren_ang, ren_tex, ren_pex, ren_call, angles_keys h,
    compile_rename h.inj]
  cases Lam.compile b (["theta_0", "theta_ex", "phi_0", "phi_ex"] ++ o.params.keys) e with
  | error e => rfl
  | ok f =>
    show (do
      let a ← Fresh.ang o .t0
      let c ← Fresh.tex o
      let d ← Fresh.ang o .p0
      let g ← Fresh.pex o
      Lam.call b ⟨f.vars.map σ, f.body.rename σ⟩ [a, c, d, g] (o.params.rename σ) : Py Arr) = _
    simp only [call_rename h.inj]
    rfl

theorem RenamedSettings.dparam (hs : RenamedSettings σ o o') (h : Renaming σ) (b : Backend) (p : PName) (k : String) :
    (Fresh.acc0 b o').dparam p (σ k) = Py.rename σ ((Fresh.acc0 b o).dparam p k) := by
  rw [dparam_form, dparam_form]
  have he : (match o'.pdef p with | .str e => e.diff (σ k) | _ => .num 1) =
      (match o.pdef p with | .str e => e.diff k | _ => .num 1 : Expr).rename σ := by
    rw [hs.pdef p]
    cases o.pdef p with
    | str e => exact Expr.diff_rename h.inj k e
    | basic e => rfl
    | val a => rfl
  rw [he]
  exact hs.callAt h b _

theorem RenamedSettings.dummyV (hs : RenamedSettings σ o o') (h : Renaming σ) (b : Backend) (k : String) :
    (Fresh.acc0 b o').dVolumeDummy (σ k) = Py.rename σ ((Fresh.acc0 b o).dVolumeDummy k) := by
  have ha := hs.acc h b
  have hc : ∀ o : Obj, ∀ k, (do
            let f ← (Fresh.acc0 b o).dVolLam k
            let a ← (Fresh.acc0 b o).t0
            let b' ← (Fresh.acc0 b o).tex
            let c ← (Fresh.acc0 b o).p0
            let d ← (Fresh.acc0 b o).pex
            let pd ← (Fresh.acc0 b o).params
            let k ← (Fresh.acc0 b o).backend (.dVol k)
            liftPy (f.call k [a, b', c, d] pd)) = RT1.callAt b o (o.V.phase.diff k) := by
    intro o k
    simp only [liftPy_eq]
    rfl
  have hsy : ∀ p, (Fresh.acc0 b o').symbs p = .ok ((Fresh.symbs o p).map σ) := fun p => congrArg Except.ok (hs.symbs h.inj p)
  have hsy' : ∀ p, (Fresh.acc0 b o).symbs p = .ok (Fresh.symbs o p) := fun p => rfl
  have hv : RT1.callAt b o' (o'.V.phase.diff (σ k)) = Py.rename σ (RT1.callAt b o (o.V.phase.diff k)) := by
    rw [hs.V, Scatter.phase_rename h, Expr.diff_rename h.inj]
    exact hs.callAt h b _
  have d1 : (Fresh.acc0 b o').dvolumeDtau = Py.rename σ (Fresh.acc0 b o).dvolumeDtau := by
    unfold Acc.dvolumeDtau
    simp only [ren_bind, ren_mulM, ren_addM, ren_subM, ren_divM, ren_litM, ren_pure, ren_expM, ren_negM, ren_mapM', ha.par,
      ha.mu0, ha.muEx, ha.I0, ha.vol]
  have d2 : (Fresh.acc0 b o').dvolumeDomega = Py.rename σ (Fresh.acc0 b o).dvolumeDomega := by
    unfold Acc.dvolumeDomega
    simp only [ren_bind, ren_mulM, ren_addM, ren_subM, ren_divM, ren_litM, ren_pure, ha.par, ha.mu0, ha.muEx, ha.I0, ha.vol,
      ha.atten]
  have d3 : (Fresh.acc0 b o').dvolumeDbsf = Py.rename σ (Fresh.acc0 b o).dvolumeDbsf := by
    unfold Acc.dvolumeDbsf
    simp only [ren_bind, ren_mulM, ren_addM, ren_subM, ren_divM, ren_litM, ren_pure, ha.par, ha.mu0, ha.muEx, ha.I0, ha.vol,
      ha.atten]
  unfold Acc.dVolumeDummy
  simp only [hc, hv, hsy, hsy', okb, List.mem_map_of_injective h.inj, hs.dparam h, d1, d2, d3, ren_bind, ren_mulM, ren_addM,
    ren_subM, ren_divM, ren_litM, ren_pure, ha.par, ha.mu0, ha.muEx, ha.I0, ha.atten, apply_ite (Py.rename σ)]

theorem RenamedSettings.dummyS (hs : RenamedSettings σ o o') (h : Renaming σ) (b : Backend) (k : String) :
    (Fresh.acc0 b o').dSurfaceDummy (σ k) = Py.rename σ ((Fresh.acc0 b o).dSurfaceDummy k) := by
  have ha := hs.acc h b
  have hc : ∀ o : Obj, ∀ k, (do
            let f ← (Fresh.acc0 b o).dSrfLam k
            let a ← (Fresh.acc0 b o).t0
            let b' ← (Fresh.acc0 b o).tex
            let c ← (Fresh.acc0 b o).p0
            let d ← (Fresh.acc0 b o).pex
            let pd ← (Fresh.acc0 b o).params
            let k ← (Fresh.acc0 b o).backend (.dSrf k)
            liftPy (f.call k [a, b', c, d] pd)) = RT1.callAt b o (o.SRF.phase.diff k) := by
    intro o k
    simp only [liftPy_eq]
    rfl
  have hsy : ∀ p, (Fresh.acc0 b o').symbs p = .ok ((Fresh.symbs o p).map σ) := fun p => congrArg Except.ok (hs.symbs h.inj p)
  have hsy' : ∀ p, (Fresh.acc0 b o).symbs p = .ok (Fresh.symbs o p) := fun p => rfl
  have hv : RT1.callAt b o' (o'.SRF.phase.diff (σ k)) = Py.rename σ (RT1.callAt b o (o.SRF.phase.diff k)) := by
    rw [hs.SRF, Scatter.phase_rename h, Expr.diff_rename h.inj]
    exact hs.callAt h b _
  have ht : (Fresh.acc0 b o').t0 = Py.rename σ (Fresh.acc0 b o).t0 := by
    show Fresh.ang o' .t0 = Py.rename σ (Fresh.ang o .t0); rw [ren_ang, hs.ang']
  have d1 : (Fresh.acc0 b o').dsurfaceDNormBRDF = Py.rename σ (Fresh.acc0 b o).dsurfaceDNormBRDF := by
    unfold Acc.dsurfaceDNormBRDF
    simp only [ren_bind, ren_mulM, ren_addM, ren_subM, ren_litM, ren_pure, ha.par, ha.mu0, ha.I0, ha.srf, ha.atten]
  have d2 : (Fresh.acc0 b o').dsurfaceDbsf = Py.rename σ (Fresh.acc0 b o).dsurfaceDbsf := by
    unfold Acc.dsurfaceDbsf
    simp only [ren_bind, ren_mulM, ren_addM, ren_subM, ren_litM, ren_pure, ha.par, ha.mu0, ha.I0, ha.srf, ha.atten, ht]
  unfold Acc.dSurfaceDummy
  simp only [hc, hv, hsy, hsy', okb, List.mem_map_of_injective h.inj, hs.dparam h, d1, d2, ren_bind, ren_mulM, ren_addM,
    ren_subM, ren_litM, ren_pure, ha.par, ha.mu0, ha.I0, ha.atten, apply_ite (Py.rename σ)]

theorem RenamedSettings.jacEntry (hs : RenamedSettings σ o o') (h : Renaming σ) (hk : ∀ k ∈ ownKeys, σ k = k) (b : Backend)
    (n : Arr) (k : String) : (Fresh.acc0 b o').jacEntry n (σ k) = Py.rename σ ((Fresh.acc0 b o).jacEntry n k) := by
  have ha := hs.acc h b
  have ht : (Fresh.acc0 b o').t0 = Py.rename σ (Fresh.acc0 b o).t0 := by
    show Fresh.ang o' .t0 = Py.rename σ (Fresh.ang o .t0); rw [ren_ang, hs.ang']
  have hi : ∀ q ∈ ownKeys, (σ k = q ↔ k = q) := by
    intro q hq
    constructor
    · intro e; rw [← hk q hq] at e; exact h.inj e
    · rintro rfl; exact hk _ hq
  have hm : (σ k ∈ (o.params.rename σ).keys) ↔ k ∈ o.params.keys := by
    rw [Dict.keys_rename]; exact List.mem_map_of_injective h.inj
  have hp' : (Fresh.acc0 b o').params = .ok (o.params.rename σ) := congrArg Except.ok hs.params
  have hp : (Fresh.acc0 b o).params = .ok o.params := rfl
  unfold Acc.jacEntry
  simp only [hi "omega" (by simp [ownKeys]), hi "tau" (by simp [ownKeys]), hi "NormBRDF" (by simp [ownKeys]),
    hi "bsf" (by simp [ownKeys]), hp, hp', okb, hm, hs.dummyV h, hs.dummyS h]
  unfold Acc.dsurfaceDomega Acc.dvolumeDomega Acc.dsurfaceDtau Acc.dvolumeDtau Acc.dsurfaceDNormBRDF Acc.dvolumeDNormBRDF
    Acc.dsurfaceDbsf Acc.dvolumeDbsf
  simp only [apply_ite (Py.rename σ), ren_bind, ren_mulM, ren_addM, ren_subM, ren_divM, ren_litM, ren_pure, ren_expM, ren_negM,
    ren_mapM', ha.par, ha.mu0, ha.muEx, ha.I0, ha.vol, ha.srf, ha.atten, ht]
  rfl

theorem RenamedSettings.jacList (hs : RenamedSettings σ o o') (h : Renaming σ) (hk : ∀ k ∈ ownKeys, σ k = k) (b : Backend)
    (ks : List String) : (Fresh.acc0 b o').jacList (ks.map σ) = Py.rename σ ((Fresh.acc0 b o).jacList ks) := by
  have ha := hs.acc h b
  have hn : (Fresh.acc0 b o').jacNorm = Py.rename σ (Fresh.acc0 b o).jacNorm := by
    unfold Acc.jacNorm
    simp only [apply_ite (Py.rename σ), ren_bind, ren_mulM, ren_addM, ren_divM, ren_litM, ha.sig0, ha.dB, ha.mu0, ha.surface,
      ha.volume]
  have hl : ∀ n, (Fresh.acc0 b o').jacLoop n (ks.map σ) = Py.rename σ ((Fresh.acc0 b o).jacLoop n ks) := by
    intro n
    induction ks with
    | nil => rfl
    | cons k ks ih =>
      rw [List.map_cons]
      unfold Acc.jacLoop
      simp only [hs.jacEntry h hk, ih, ren_bind, ren_pure]
  unfold Acc.jacList
  rw [ren_bind, hn]
  simp only [hl]

end

end

end RT1
