import Verif.Lemmas.JacVal
import Verif.Lemmas.Demo
import Verif.Lemmas.FnL

/-! When `jacobian()` returns arrays. -/

namespace RT1

noncomputable section
open Classical

theorem Expr.diff_free {key : String} {e : Expr} {n : String} (h : n ∈ (e.diff key).free) :
    n ∈ e.free := by
  induction e with
  | num r => simp [Expr.diff, Expr.free] at h
  | sym s =>
    simp only [Expr.diff] at h
    split_ifs at h <;> simp [Expr.free] at h
  | add a b iha ihb =>
    simp only [Expr.diff, Expr.free, List.mem_append] at h ⊢
    exact h.imp iha ihb
  | mul a b iha ihb =>
    simp only [Expr.diff, Expr.free, List.mem_append] at h ⊢
    rcases h with (h | h) | (h | h)
    · exact Or.inl (iha h)
    · exact Or.inr h
    · exact Or.inl h
    · exact Or.inr (ihb h)
  | pow a r iha =>
    simp only [Expr.diff, Expr.free, List.nil_append, List.mem_append] at h ⊢
    exact h.elim id iha
  | sin a iha =>
    simp only [Expr.diff, Expr.free, List.mem_append] at h ⊢
    exact h.elim id iha
  | cos a iha =>
    simp only [Expr.diff, Expr.free, List.nil_append, List.mem_append] at h ⊢
    exact h.elim id iha
  | sign a iha => simp [Expr.diff, Expr.free] at h
  | exp a iha =>
    simp only [Expr.diff, Expr.free, List.mem_append] at h ⊢
    exact h.elim id iha

namespace Complete
variable {o : Obj} {S : List ℕ} (h : Complete o S) (b : Backend) (dv ds : String → Py Lam)
include h

local notation "A" => Fresh.acc b o dv ds

theorem s_dvolumeDtau : Succ (A).dvolumeDtau S := by
  unfold Acc.dvolumeDtau
  refine Succ.bind (Succ.mulM (Succ.mulM (Succ.mulM (Succ.mulM (h.s_I0 b dv ds) (h.s_par b .omega))
    (Succ.divM h.s_mu0 (Succ.addM h.s_mu0 h.s_muEx))) (Succ.mulM (Succ.addM (Succ.divM (Succ.lit 1)
    h.s_mu0) (Succ.divM (Succ.lit 1) (Succ.mapM' h.s_muEx))) (Succ.expM (Succ.subM (Succ.divM
    (Succ.negM (h.s_par b .tau)) h.s_mu0) (Succ.divM (h.s_par b .tau) h.s_muEx)))))
    (h.s_vol b dv ds)) fun a ha => ?_
  exact Succ.mulM (Succ.subM (Succ.lit 1) (h.s_par b .bsf)) (Succ.pure ha)

theorem s_dvolumeDomega : Succ (A).dvolumeDomega S := by
  unfold Acc.dvolumeDomega
  refine Succ.bind (Succ.mulM (Succ.mulM (Succ.divM (Succ.mulM (h.s_I0 b dv ds) h.s_mu0)
    (Succ.addM h.s_mu0 h.s_muEx)) (Succ.subM (Succ.lit 1) (h.s_atten b dv ds))) (h.s_vol b dv ds))
    fun a ha => ?_
  exact Succ.mulM (Succ.subM (Succ.lit 1) (h.s_par b .bsf)) (Succ.pure ha)

theorem s_dvolumeDbsf : Succ (A).dvolumeDbsf S := by
  unfold Acc.dvolumeDbsf
  refine Succ.bind (Succ.mulM (Succ.mulM (Succ.divM (Succ.mulM (Succ.mulM (h.s_I0 b dv ds)
    (h.s_par b .omega)) h.s_mu0) (Succ.addM h.s_mu0 h.s_muEx)) (Succ.subM (Succ.lit 1)
    (h.s_atten b dv ds))) (h.s_vol b dv ds)) fun a ha => ?_
  exact Succ.pure ha

theorem s_dsurfaceDtau : Succ (A).dsurfaceDtau S := by
  unfold Acc.dsurfaceDtau
  refine Succ.bind (Succ.mulM (Succ.mulM (Succ.mulM (Succ.mulM (h.s_I0 b dv ds) (Succ.subM (Succ.divM
    (Succ.lit (-1)) h.s_mu0) (Succ.divM (Succ.lit 1) h.s_muEx))) (Succ.expM (Succ.subM (Succ.divM
    (Succ.negM (h.s_par b .tau)) h.s_mu0) (Succ.divM (h.s_par b .tau) h.s_muEx)))) h.s_mu0)
    (h.s_srf b dv ds)) fun a ha => ?_
  exact Succ.mulM (Succ.mulM (h.s_par b .NormBRDF) (Succ.subM (Succ.lit 1) (h.s_par b .bsf)))
    (Succ.pure ha)

theorem s_dsurfaceDNormBRDF : Succ (A).dsurfaceDNormBRDF S := by
  unfold Acc.dsurfaceDNormBRDF
  refine Succ.bind (Succ.mulM (Succ.mulM (h.s_I0 b dv ds) h.s_mu0) (h.s_srf b dv ds)) fun a1 h1 => ?_
  refine Succ.bind (Succ.mulM (h.s_atten b dv ds) (Succ.pure h1)) fun a2 h2 => ?_
  exact Succ.addM (Succ.mulM (Succ.subM (Succ.lit 1) (h.s_par b .bsf)) (Succ.pure h2))
    (Succ.mulM (h.s_par b .bsf) (Succ.pure h1))

theorem s_dsurfaceDbsf : Succ (A).dsurfaceDbsf S := by
  unfold Acc.dsurfaceDbsf
  refine Succ.bind (Succ.mulM (Succ.mulM (h.s_I0 b dv ds) h.s_mu0) (h.s_srf b dv ds)) fun a1 h1 => ?_
  refine Succ.bind (Succ.mulM (Succ.mulM (h.s_atten b dv ds) (Succ.pure h1))
    (Succ.bind h.s_t0 fun t ht => Succ.pure ht)) fun a2 h2 => ?_
  exact Succ.mulM (h.s_par b .NormBRDF) (Succ.subM (Succ.pure h1) (Succ.pure h2))

theorem s_jacNorm : Succ (A).jacNorm S := by
  show Succ (if o.sig0 = true ∧ o.dB = false then litM (4 * Real.pi) *. (A).mu0
  else if o.dB = true then
    litM 10 /. (litM (Real.log 10) *. ((A).surface +. (A).volume))
  else litM 1) S
  split_ifs
  · exact Succ.mulM (Succ.lit _) h.s_mu0
  · exact Succ.divM (Succ.lit _) (Succ.mulM (Succ.lit _)
      (Succ.addM (h.s_surface b dv ds) (h.s_volume b dv ds)))
  · exact Succ.lit _

/-- Calling a compiled derivative; a sympy function needs all current names. -/
theorem s_callAngles {g : Py Lam} {e : Expr} {ks : List String}
    (hg : g = .ok ⟨["theta_0", "theta_ex", "phi_0", "phi_ex"] ++ ks, e⟩)
    (hk : ∀ k ∈ ks, k ∈ o.params.keys) (hs : b = .sympy → ks = o.params.keys)
    (hfree : ∀ n ∈ e.free, n ∈ ["theta_0", "theta_ex", "phi_0", "phi_ex"] ++ ks) :
    Succ (do
      let f ← g
      let a ← (A).t0
      let b' ← (A).tex
      let c ← (A).p0
      let d ← (A).pex
      let pd ← (A).params
      liftPy (f.call b [a, b', c, d] pd)) S := by
  obtain ⟨a1, e1, f1⟩ := h.s_t0
  obtain ⟨a2, e2, f2⟩ := h.s_tex
  obtain ⟨a3, e3, f3⟩ := h.s_p0
  obtain ⟨a4, e4, f4⟩ := h.s_pex
  show Succ ((do
    let f ← g
    let a ← Fresh.ang o .t0
    let b' ← Fresh.tex o
    let c ← Fresh.ang o .p0
    let d ← Fresh.pex o
    liftPy (f.call b [a, b', c, d] o.params)) : Py Arr) S
  rw [hg, e1, e2, e3, e4]
  refine Succ.lift (Lam.call_succ' (Lam.compile_of_free hfree) hfree (by simp) ?_ h.params ?_ ?_)
  · intro a ha
    simp only [List.mem_cons, List.not_mem_nil, or_false] at ha
    rcases ha with rfl | rfl | rfl | rfl <;> assumption
  · intro hb k hk'; rw [hs hb]; simpa using hk'
  · intro k hk'; exact hk k (by simpa using hk')

theorem s_dparam {p : PName} {key : String} (hp : key ∈ Fresh.symbs o p) :
    Succ ((A).dparam p key) S := by
  obtain ⟨e, he, -⟩ := Fresh.symbs_str hp
  have hfree : ∀ n ∈ (e.diff key).free,
      n ∈ ["theta_0", "theta_ex", "phi_0", "phi_ex"] ++ o.params.keys := by
    intro n hn
    have hd := h.defs p
    rw [he] at hd
    exact List.mem_append_right _ (hd n (Expr.diff_free hn))
  have := h.s_callAngles b dv ds (e := e.diff key) (ks := o.params.keys)
    (g := Lam.compile b (["theta_0", "theta_ex", "phi_0", "phi_ex"] ++ o.params.keys) (e.diff key))
    (Lam.compile_of_free hfree) (fun _ h => h) (fun _ => rfl) hfree
  have e2 : (A).dparam p key = (do
      let f ← Lam.compile b (["theta_0", "theta_ex", "phi_0", "phi_ex"] ++ o.params.keys) (e.diff key)
      let a ← (A).t0
      let b' ← (A).tex
      let c ← (A).p0
      let d ← (A).pex
      let pd ← (A).params
      liftPy (f.call b [a, b', c, d] pd)) := by
    unfold Acc.dparam
    have e1 : (A).pdef p = .ok (.str e) := by
      show (Except.ok (o.pdef p) : Py PDef) = _
      rw [he]
    have e3 : (A).params = .ok o.params := rfl
    have e4 : (A).backend .dpar = .ok b := rfl
    rw [e1, okb, e3, okb, e4, okb, Refines.liftPy_py]
  rw [e2]
  exact this

variable {dv ds}

/-- `key` is a name for which the memoised derivatives can be called. -/
theorem s_dummy (hd : DOK b o dv ds) (key : String)
    (hnV : b = .sympy → ∀ f, dv key = .ok f → f.vars = ["theta_0", "theta_ex", "phi_0", "phi_ex"] ++ o.params.keys)
    (hnS : b = .sympy → ∀ f, ds key = .ok f → f.vars = ["theta_0", "theta_ex", "phi_0", "phi_ex"] ++ o.params.keys) :
    Succ ((A).dVolumeDummy key) S ∧ Succ ((A).dSurfaceDummy key) S := by
  have gen : ∀ (g : Py Lam) (s : Scatter),
      (∀ n ∈ s.phase.free, n ∈ ["theta_0", "theta_ex", "phi_0", "phi_ex"] ++ o.params.keys) →
      (∀ f, g = .ok f → DLamOK b o.params (s.phase.diff key) f) →
      (∀ e f, g = .error e → Lam.compile b (["theta_0", "theta_ex", "phi_0", "phi_ex"] ++ o.params.keys)
        (s.phase.diff key) ≠ .ok f) →
      (b = .sympy → ∀ f, g = .ok f → f.vars = ["theta_0", "theta_ex", "phi_0", "phi_ex"] ++ o.params.keys) →
      Succ (do
      let f ← g
      let a ← (A).t0
      let b' ← (A).tex
      let c ← (A).p0
      let d ← (A).pex
      let pd ← (A).params
      liftPy (f.call b [a, b', c, d] pd)) S := by
    intro g s hfree hok herr hn
    have hfree' : ∀ n ∈ (s.phase.diff key).free,
      n ∈ ["theta_0", "theta_ex", "phi_0", "phi_ex"] ++ o.params.keys := fun n hn =>
        hfree n (Expr.diff_free hn)
    cases hg : g with
    | error e => exact absurd (Lam.compile_of_free hfree') (herr e _ hg)
    | ok f =>
      obtain ⟨ks, hk, hc⟩ := hok f hg
      have hf := Lam.compile_ok hc
      subst hf
      have hks : b = .sympy → ks = o.params.keys := by
        intro hb
        have := hn hb _ hg
        simpa using this
      refine h.s_callAngles b dv ds rfl (fun k hk' => hk.subset hk') hks ?_
      cases b with
      | sympy => rw [hks rfl]; exact hfree'
      | symengine =>
        simp only [Lam.compile] at hc
        split_ifs at hc with hc'
        exact hc'
  constructor
  · unfold Acc.dVolumeDummy
    simp only [Fresh.acc_symbs, okb]
    split_ifs with c1 c2 c3
    · exact Succ.bind (h.s_dparam b dv ds c1) fun a ha =>
        Succ.mulM (h.s_dvolumeDtau b dv ds) (Succ.pure ha)
    · exact Succ.bind (h.s_dparam b dv ds c2) fun a ha =>
        Succ.mulM (h.s_dvolumeDomega b dv ds) (Succ.pure ha)
    · exact Succ.bind (h.s_dparam b dv ds c3) fun a ha =>
        Succ.mulM (h.s_dvolumeDbsf b dv ds) (Succ.pure ha)
    · refine Succ.bind (Succ.mulM (Succ.mulM (Succ.divM (Succ.mulM (Succ.mulM (h.s_I0 b dv ds)
        (h.s_par b .omega)) h.s_mu0) (Succ.addM h.s_mu0 h.s_muEx)) (Succ.subM (Succ.lit 1)
        (h.s_atten b dv ds))) (gen (dv key) o.V h.V (hd.dVol key) (fun e f => hd.eVol key e f) hnV))
        fun a ha => ?_
      exact Succ.mulM (Succ.subM (Succ.lit 1) (h.s_par b .bsf)) (Succ.pure ha)
  · unfold Acc.dSurfaceDummy
    simp only [Fresh.acc_symbs, okb]
    split_ifs with c1 c2
    · exact Succ.bind (h.s_dparam b dv ds c1) fun a ha =>
        Succ.mulM (h.s_dsurfaceDNormBRDF b dv ds) (Succ.pure ha)
    · exact Succ.bind (h.s_dparam b dv ds c2) fun a ha =>
        Succ.mulM (h.s_dsurfaceDbsf b dv ds) (Succ.pure ha)
    · refine Succ.bind (Succ.mulM (Succ.mulM (h.s_I0 b dv ds) h.s_mu0)
        (gen (ds key) o.SRF h.SRF (hd.dSrf key) (fun e f => hd.eSrf key e f) hnS)) fun a1 h1 => ?_
      refine Succ.bind (Succ.mulM (h.s_atten b dv ds) (Succ.pure h1)) fun a2 h2 => ?_
      exact Succ.mulM (h.s_par b .NormBRDF) (Succ.addM (Succ.mulM (Succ.subM (Succ.lit 1)
        (h.s_par b .bsf)) (Succ.pure h2)) (Succ.mulM (h.s_par b .bsf) (Succ.pure h1)))

/-- One entry. -/
theorem s_jacEntry (hd : DOK b o dv ds) {norm : Arr} (hn : Arr.Fits norm.shape S) {key : String}
    (hk : builtin key ∨ b = .symengine ∧ key ∈ o.params.keys) :
    Succ ((A).jacEntry norm key) S := by
  unfold Acc.jacEntry
  split_ifs with c1 c2 c3 c4
  · exact Succ.mulM (Succ.addM (Succ.lit 0) (h.s_dvolumeDomega b dv ds)) (Succ.pure hn)
  · exact Succ.mulM (Succ.addM (h.s_dsurfaceDtau b dv ds) (h.s_dvolumeDtau b dv ds)) (Succ.pure hn)
  · exact Succ.mulM (Succ.addM (h.s_dsurfaceDNormBRDF b dv ds) (Succ.lit 0)) (Succ.pure hn)
  · exact Succ.mulM (Succ.addM (h.s_dsurfaceDbsf b dv ds) (h.s_dvolumeDbsf b dv ds)) (Succ.pure hn)
  · rcases hk with hk | ⟨hb, hk⟩
    · rcases hk with hk | hk | hk | hk <;> contradiction
    · have e3 : (A).params = .ok o.params := rfl
      rw [e3, okb, if_pos hk]
      subst hb
      obtain ⟨h1, h2⟩ := h.s_dummy .symengine hd key (fun hb => by cases hb) (fun hb => by cases hb)
      exact Succ.mulM (Succ.addM h2 h1) (Succ.pure hn)

end Complete

/-- `jacobian()` succeeds for a complete object. -/
theorem jacobianList_succ {w : World} (hw : Reachable w) {id : ℕ} {o : Obj}
    (ho : w.objs id = some o) {S : List ℕ} (hc : Complete o S) {keys : List String}
    (hk : ∀ k ∈ keys, builtin k ∨ w.backend = .symengine ∧ k ∈ o.params.keys) :
    ∃ l w', jacobianList id keys w = (.ok l, w') := by
  obtain ⟨h1, -⟩ := jacobianList_spec hw ho keys
  obtain ⟨norm, hn, hfn⟩ := hc.s_jacNorm w.backend (Fresh.dVol w.backend o) (Fresh.dSrf w.backend o)
  have hn' : (Fresh.acc0 w.backend o).jacNorm = .ok norm := hn
  rw [hn'] at h1
  have h1' : JacSpec w.backend o norm keys (jacobianList id keys w).1 := h1
  cases hx : jacobianList id keys w with
  | mk r w' =>
    rw [hx] at h1'
    cases r with
    | ok l => exact ⟨l, w', rfl⟩
    | error e =>
      exfalso
      have : ∀ ks r, JacSpec w.backend o norm ks r → (∀ k ∈ ks, k ∈ keys) → r ≠ .error e := by
        intro ks r hs
        induction hs with
        | nil => intro _ h; cases h
        | @err k ks e' dv ds hd h =>
          intro hks _
          obtain ⟨a, ha, -⟩ := hc.s_jacEntry w.backend hd hfn (hk k (hks k (List.mem_cons_self ..)))
          rw [ha] at h; cases h
        | rest hd h hr ih => intro hks h'; exact ih (fun k hk => hks k (List.mem_cons_of_mem _ hk)) h'
        | cons hd h hr ih => intro _ h'; cases h'
      exact this _ _ h1' (fun _ h => h) rfl

end

end RT1
