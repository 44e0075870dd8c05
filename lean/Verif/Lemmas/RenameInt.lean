import Verif.Lemmas.RenameObj
import Verif.Lemmas.IntVal
import Verif.Lemmas.OrderAcc
import Mathlib.Algebra.MvPolynomial.Eval

/-! The interaction term of objects with other names for their parameters. -/

namespace RT1

noncomputable section
open Classical MvPolynomial

/-- Symbolic coefficients with other names. -/
def renK (σ : String → String) : K →ₐ[ℝ] K where
  toFun f := fun ρ => f fun s => ρ (σ s)
  map_one' := rfl
  map_mul' _ _ := rfl
  map_zero' := rfl
  map_add' _ _ := rfl
  commutes' _ := rfl

/-- Expanded symbolic expressions with other names. -/
def renP (σ : String → String) : P →ₐ[ℝ] P := mapAlgHom (renK σ)

section
variable {σ : String → String}

theorem exists_env (h : Function.Injective σ) (ρ : String → ℝ) : ∃ ρ' : String → ℝ, (fun s => ρ' (σ s)) = ρ :=
  ⟨Function.extend σ ρ 0, funext fun s => h.extend_apply ρ 0 s⟩

theorem renK_injective (h : Function.Injective σ) : Function.Injective (renK σ) := by
  intro f g e
  funext ρ
  obtain ⟨ρ', rfl⟩ := exists_env h ρ
  exact congrFun e ρ'

theorem renP_apply (p : P) : renP σ p = MvPolynomial.map (renK σ : K →+* K) p := rfl

theorem renP_C (k : K) : renP σ (C k) = C (renK σ k) := by rw [renP_apply, map_C]; rfl
theorem renP_X (x : Atom) : renP σ (X x) = X x := by rw [renP_apply, map_X]
theorem renP_num (r : ℝ) : renP σ (numP r) = numP r := by unfold numP; rw [renP_C]; rfl

theorem renP_support (h : Function.Injective σ) (p : P) : (renP σ p).support = p.support := by
  rw [renP_apply]; exact support_map_of_injective p (renK_injective h)

theorem renP_coeff (p : P) (m : Atom →₀ ℕ) : coeff m (renP σ p) = renK σ (coeff m p) := by
  rw [renP_apply, coeff_map]; rfl

theorem renP_vars (h : Function.Injective σ) (p : P) : (renP σ p).vars = p.vars := by
  rw [renP_apply]; exact vars_map_of_injective p (renK_injective h)

theorem renP_replPow (x : Atom) {d : ℕ → Option P} (hd : ∀ i v, d i = some v → renP σ v = v) (k : ℕ) :
    renP σ (replPow x d k) = replPow x d k := by
  unfold replPow
  split_ifs
  · exact map_one _
  · cases h1 : d k with
    | some v => exact hd k v h1
    | none =>
      cases h2 : d 1 with
      | some v => simp only [map_pow]; rw [hd 1 v h2]
      | none => simp only [map_pow, renP_X]

theorem renP_xreplace (h : Function.Injective σ) (x : Atom) {d : ℕ → Option P}
    (hd : ∀ i v, d i = some v → renP σ v = v) (p : P) : renP σ (xreplace x d p) = xreplace x d (renP σ p) := by
  unfold xreplace
  rw [map_sum, renP_support h]
  refine Finset.sum_congr rfl fun m _ => ?_
  rw [map_mul, renP_replPow x hd, renP_coeff]
  congr 1
  rw [renP_apply, map_monomial]; rfl

theorem renP_repl1 (nS nV i : ℕ) (v : P) (h : repl1 nS nV i = some v) : renP σ v = v := by
  unfold repl1 at h
  split_ifs at h <;> cases h
  · exact map_zero _
  · simp only [map_pow, map_sub, map_one, renP_X]
theorem renP_repl3 (nS nV i : ℕ) (v : P) (h : repl3 nS nV i = some v) : renP σ v = v := by
  unfold repl3 at h
  split_ifs at h; cases h
  exact renP_num _
theorem renP_replSinT (nS nV i : ℕ) (v : P) (h : replSinT nS nV i = some v) : renP σ v = v := by
  unfold replSinT at h
  split_ifs at h; cases h
  simp only [map_pow, map_sub, map_one, renP_X]
theorem renP_repl0 (i : ℕ) (v : P) (h : repl0 i = some v) : renP σ v = v := by
  unfold repl0 at h
  split_ifs at h; cases h
  exact map_zero _
theorem renP_replF1 (N i : ℕ) (v : P) (h : replF1 N i = some v) : renP σ v = v := by
  unfold replF1 at h
  split_ifs at h <;> cases h
  · exact map_one _
  · exact map_zero _
theorem renP_replFn (n i : ℕ) (v : P) (h : replFn n i = some v) : renP σ v = v := by
  unfold replFn at h
  split_ifs at h; cases h
  exact map_one _

theorem renP_integratePhi (h : Function.Injective σ) (nS nV : ℕ) (p : P) :
    renP σ (integratePhi nS nV p) = integratePhi nS nV (renP σ p) := by
  unfold integratePhi
  rw [renP_xreplace h _ (renP_repl3 nS nV), renP_xreplace h _ (renP_repl1 nS nV)]

theorem renP_extract (h : Function.Injective σ) (nS nV : ℕ) (p : P) :
    (extractCoefficients nS nV p).map (renP σ) = extractCoefficients nS nV (renP σ p) := by
  unfold extractCoefficients
  simp only [List.map_append, List.map_cons, List.map_nil, List.map_map, map_sub, renP_xreplace h _ renP_repl0,
    renP_xreplace h _ (renP_replF1 _)]
  refine congrArg (_ ++ ·) (List.map_congr_left fun j _ => ?_)
  simp only [Function.comp_apply, map_sub, renP_xreplace h _ renP_repl0, renP_xreplace h _ (renP_replFn _)]

theorem renP_emb (e : Expr) : embP (e.rename σ) = renP σ (embP e) := by
  unfold embP
  rw [renP_C]
  refine congrArg C (funext fun ρ => ?_)
  exact Expr.evalR_rename ..

theorem renP_trig {e : AngS} (he : ∀ s, e = .sym s → σ s = s) : e.trig.map (renP σ) = e.trig := by
  have hv : ∀ ρ : String → ℝ, e.val (fun s => ρ (σ s)) = e.val ρ := by
    intro ρ
    cases e with
    | num r => rfl
    | sym s => show ρ (σ s) = ρ s; rw [he s rfl]
  unfold AngS.trig Scatter.Trig.map
  rw [renP_C, renP_C]
  have h1 : renK σ (fun ρ => Real.cos (e.val ρ)) = fun ρ => Real.cos (e.val ρ) := by
    funext ρ; show Real.cos (e.val fun s => ρ (σ s)) = _; rw [hv]
  have h2 : renK σ (fun ρ => Real.sin (e.val ρ)) = fun ρ => Real.sin (e.val ρ) := by
    funext ρ; show Real.sin (e.val fun s => ρ (σ s)) = _; rw [hv]
  rw [h1, h2]

theorem renP_piSub {t : Scatter.Trig P} (h : t.map (renP σ) = t) : t.piSub.map (renP σ) = t.piSub := by
  have h1 := congrArg Scatter.Trig.c h
  have h2 := congrArg Scatter.Trig.s h
  unfold Scatter.Trig.map at h1 h2 ⊢
  unfold Scatter.Trig.piSub
  simp only [map_neg] at *
  rw [h1, h2]
theorem renP_addPi {t : Scatter.Trig P} (h : t.map (renP σ) = t) : t.addPi.map (renP σ) = t.addPi := by
  have h1 := congrArg Scatter.Trig.c h
  have h2 := congrArg Scatter.Trig.s h
  unfold Scatter.Trig.map at h1 h2 ⊢
  unfold Scatter.Trig.addPi
  simp only [map_neg] at *
  rw [h1, h2]
theorem renP_thetaS : thetaS.map (renP σ) = thetaS := by
  unfold thetaS Scatter.Trig.map; rw [renP_X, renP_X]
theorem renP_phiS : phiS.map (renP σ) = phiS := by
  unfold phiS Scatter.Trig.map; rw [renP_X, renP_X]

theorem legExpansion_renP (h : Renaming σ) {t0 tex p0 pex : Scatter.Trig P} (h1 : t0.map (renP σ) = t0)
    (h2 : tex.map (renP σ) = tex) (h3 : p0.map (renP σ) = p0) (h4 : pex.map (renP σ) = pex) (o : Scatter) :
    (o.rename σ).legExpansion embP t0 tex p0 pex = (o.legExpansion embP t0 tex p0 pex).map (renP σ) := by
  rw [Scatter.legExpansion_rename _ h.inj, ← Scatter.legExpansion_map, h1, h2, h3, h4]
  simp only [renP_emb]

theorem Renaming.geom (h : Renaming σ) {g : Geom4} (hg : g.Named) : ∀ e ∈ [g.t0, g.tex, g.p0, g.pex], e.trig.map (renP σ) = e.trig := by
  intro e he
  refine renP_trig fun s hs => h.angles s ?_
  have := hg e he s hs
  simp only [List.mem_cons, List.not_mem_nil, or_false] at this ⊢
  tauto

theorem fnCoefs_rename (h : Renaming σ) {g : Geom4} (hg : g.Named) (V SRF : Scatter) :
    fnCoefs (V.rename σ) (SRF.rename σ) g = (fnCoefs V SRF g).map fun l => l.map (renP σ) := by
  have hG := h.geom hg
  unfold fnCoefs interactionExpansion fPoly
  rw [legExpansion_renP h renP_thetaS (hG _ (by simp)) renP_phiS (renP_addPi (hG _ (by simp))),
    legExpansion_renP h (renP_piSub (hG _ (by simp))) renP_thetaS (hG _ (by simp)) renP_phiS,
    Scatter.ncoefs_rename, Scatter.ncoefs_rename]
  cases SRF.legExpansion embP thetaS g.tex.trig phiS g.pex.trig.addPi with
  | error e => rfl
  | ok s =>
    cases V.legExpansion embP g.t0.trig.piSub thetaS g.p0.trig phiS with
    | error e => rfl
    | ok v =>
      cases SRF.ncoefs with
      | error e => rfl
      | ok nS =>
        cases V.ncoefs with
        | error e => rfl
        | ok nV =>
          show Except.ok _ = Except.ok _
          refine congrArg Except.ok ?_
          beta_reduce
          rw [renP_extract h.inj, renP_xreplace h.inj _ (renP_replSinT nS nV), renP_integratePhi h.inj, map_mul, map_mul,
            renP_num]

theorem isConstFn_ren (h : Function.Injective σ) (p : P) : isConstFn (renP σ p) ↔ isConstFn p := by
  unfold isConstFn
  constructor
  · intro H ρ ρ'
    obtain ⟨a, rfl⟩ := exists_env h ρ
    obtain ⟨b, rfl⟩ := exists_env h ρ'
    have := H a b
    rwa [renP_coeff] at this
  · intro H ρ ρ'
    rw [renP_coeff]
    exact H _ _

/-- Compiled coefficients with other names. -/
def FnLam.rename (σ : String → String) (f : FnLam) : FnLam := ⟨f.vars.map σ, f.free.map σ, f.fns.map (renP σ)⟩

theorem zip_rename (vs : List String) (args : List Arr) : (vs.map σ).zip args = Dict.rename σ (vs.zip args) := by
  induction vs generalizing args with
  | nil => rfl
  | cons v vs ih =>
    cases args with
    | nil => rfl
    | cons a args => exact congrArg ((σ v, a) :: ·) (ih args)

theorem free_iff (h : Function.Injective σ) (l vs : List String) :
    (∃ s ∈ l.map σ, s ∉ vs.map σ) ↔ ∃ s ∈ l, s ∉ vs := by
  constructor
  · rintro ⟨s, hs, hn⟩
    obtain ⟨s', hs', rfl⟩ := List.mem_map.1 hs
    exact ⟨s', hs', fun hm => hn (List.mem_map_of_mem hm)⟩
  · rintro ⟨s, hs, hn⟩
    exact ⟨σ s, List.mem_map_of_mem hs, fun hm => hn ((List.mem_map_of_injective h).1 hm)⟩

theorem FnLam.call_rename (h : Function.Injective σ) (b : Backend) (f : FnLam) (args : List Arr) :
    (f.rename σ).call b args = f.call b args := by
  have hv : (∃ p ∈ f.fns.map (renP σ), p.vars ≠ ∅) ↔ ∃ p ∈ f.fns, p.vars ≠ ∅ := by
    constructor
    · rintro ⟨p, hp, hn⟩
      obtain ⟨q, hq, rfl⟩ := List.mem_map.1 hp
      exact ⟨q, hq, by rwa [renP_vars h] at hn⟩
    · rintro ⟨p, hp, hn⟩
      exact ⟨renP σ p, List.mem_map_of_mem hp, by rwa [renP_vars h]⟩
  have hfv : ∀ (p : P) (idx : List ℕ), fnVal (f.vars.map σ) (renP σ p) (Lam.envAt ((f.vars.map σ).zip args) idx) =
      fnVal f.vars p (Lam.envAt (f.vars.zip args) idx) := by
    intro p idx
    have he : ∀ s, Lam.envAt ((f.vars.map σ).zip args) idx (σ s) = Lam.envAt (f.vars.zip args) idx s := by
      intro s
      rw [zip_rename, Lam.envAt_rename h]
    unfold fnVal
    have hc : (∀ s ∈ f.vars.map σ, (Lam.envAt ((f.vars.map σ).zip args) idx s).isFin = true) ↔
        ∀ s ∈ f.vars, (Lam.envAt (f.vars.zip args) idx s).isFin = true := by
      simp only [List.forall_mem_map, he]
    rw [renP_coeff]
    by_cases hf : ∀ s ∈ f.vars, (Lam.envAt (f.vars.zip args) idx s).isFin = true
    · rw [if_pos hf, if_pos (hc.2 hf)]
      refine congrArg XR.fin ?_
      show coeff 0 p (fun s => (Lam.envAt ((f.vars.map σ).zip args) idx (σ s)).toReal) = _
      simp only [he]
    · rw [if_neg hf, if_neg (mt hc.1 hf)]
  unfold FnLam.call FnLam.rename
  simp only [List.length_map, free_iff h, hv, List.map_map, Function.comp_def, isConstFn_ren h, hfv, renP_coeff]
  rfl

/-! ### evaluation of the interaction term -/

theorem ren_broadcast (l : List Arr) : Py.rename σ (Arr.broadcastArrays l) = Arr.broadcastArrays l := by
  unfold Arr.broadcastArrays; split <;> rfl
theorem ren_sum0 (a : Arr) : Py.rename σ (Arr.sum0 a) = Arr.sum0 a := by
  unfold Arr.sum0
  split <;> first | rfl | (split <;> rfl)
theorem ren_mapM {α β : Type} {f : α → Py β} (h : ∀ a, Py.rename σ (f a) = f a) (l : List α) :
    Py.rename σ (l.mapM f) = l.mapM f := by
  induction l with
  | nil => rfl
  | cons a l ih =>
    rw [List.mapM_cons, ren_bind, h]
    simp only [ren_bind, ih, ren_pure]
theorem ren_expTauMu (mu tau : Arr) : Py.rename σ (Acc.expTauMu mu tau) = Acc.expTauMu mu tau := by
  unfold Acc.expTauMu Arr.div
  rw [ren_bind, ren_map2]; rfl
theorem ren_hlp1 (mu tau : Arr) : Py.rename σ (Acc.hlp1 mu tau) = Acc.hlp1 mu tau := by
  unfold Acc.hlp1 Arr.div Arr.mul Arr.add Arr.sub
  simp only [ren_bind, ren_map2, ren_expTauMu]
theorem ren_innerfunc (mu tau : Arr) (k : ℕ) : Py.rename σ (Acc.innerfunc mu tau k) = Acc.innerfunc mu tau k := by
  unfold Acc.innerfunc Arr.div Arr.mul Arr.sub
  simp only [ren_bind, ren_map2, ren_expTauMu]
theorem ren_innerSum (mu tau : Arr) (k : ℕ) : Py.rename σ (Acc.innerSum mu tau k) = Acc.innerSum mu tau k := by
  induction k with
  | zero => unfold Acc.innerSum Arr.add; simp only [ren_bind, ren_map2, ren_innerfunc]
  | succ k ih => unfold Acc.innerSum Arr.add; simp only [ren_bind, ren_map2, ren_innerfunc, ih]
theorem ren_S2mu (n : ℕ) (mu tau : Arr) : Py.rename σ (Acc.S2mu n mu tau) = Acc.S2mu n mu tau := by
  unfold Acc.S2mu Arr.add
  simp only [ren_bind, ren_map2, ren_hlp1, ren_stack, ren_mapM (ren_innerSum mu tau)]
theorem ren_muPowers (n : ℕ) (mu : Arr) : Py.rename σ (Acc.muPowers n mu) = Acc.muPowers n mu := ren_stack _

mutual
theorem ren_ncoefs : ∀ o : Scatter, Py.rename σ o.ncoefs = o.ncoefs
  | .prim k a nc => by cases k <;> cases nc <;> rfl
  | .lin ws os a => by
    show Py.rename σ (do let l ← Scatter.ncoefsL os; _) = (do let l ← Scatter.ncoefsL os; _)
    rw [ren_bind, ren_ncoefsL os]
    refine congrArg (Scatter.ncoefsL os >>= ·) (funext fun l => ?_)
    by_cases hl : l = []
    · rw [if_pos hl]; rfl
    · rw [if_neg hl]; rfl
theorem ren_ncoefsL : ∀ os : List Scatter, Py.rename σ (Scatter.ncoefsL os) = Scatter.ncoefsL os
  | [] => rfl
  | o :: os => by
    rw [Scatter.ncoefsL, ren_bind, ren_ncoefs o]
    simp only [ren_bind, ren_ncoefsL os]
    rfl
end

theorem ren_fnLam_call (b : Backend) (f : FnLam) (args : List Arr) : Py.rename σ (f.call b args) = f.call b args := by
  unfold FnLam.call
  split_ifs
  · cases b <;> rfl
  · rfl
  · rfl
  · cases Arr.bshapes (args.map Arr.shape) <;> rfl

/-- Accessors whose outcomes differ in the names only, with coefficients. -/
structure AccRenInt (σ : String → String) (A A' : Acc Py) : Prop extends AccRen σ A A' where
  backend : A'.backend .fn = Py.rename σ (A.backend .fn)
  t0 : A'.t0 = Py.rename σ A.t0
  tex : A'.tex = Py.rename σ A.tex
  p0 : A'.p0 = Py.rename σ A.p0
  pex : A'.pex = Py.rename σ A.pex
  mu0x : A'.mu0x = Py.rename σ A.mu0x
  muExx : A'.muExx = Py.rename σ A.muExx
  nmax : A'.nmax = Py.rename σ A.nmax
  params : A'.params = (Py.rename σ A.params).map (Dict.rename σ)
  fnevals : A'.fnevals = (Py.rename σ A.fnevals).map (Option.map (FnLam.rename σ))

theorem snd_rename (d : Dict) : (d.rename σ).map Prod.snd = d.map Prod.snd := by
  unfold Dict.rename; rw [List.map_map]; rfl

theorem AccRenInt.outs {A A' : Acc Py} (h : AccRenInt σ A A') (hi : Function.Injective σ) (a : List Arr) :
    fnOuts A' a = Py.rename σ (fnOuts A a) := by
  unfold fnOuts
  rw [h.params, h.fnevals]
  cases A.params with
  | error e => rfl
  | ok pd =>
    show (do
      let args ← Arr.broadcastArrays (a ++ (Dict.rename σ pd).map Prod.snd)
      _ : Py (List Arr)) = Py.rename σ (do
      let args ← Arr.broadcastArrays (a ++ pd.map Prod.snd)
      _)
    rw [snd_rename, ren_bind, ren_broadcast]
    refine congrArg (Arr.broadcastArrays (a ++ pd.map Prod.snd) >>= ·) (funext fun args => ?_)
    cases A.fnevals with
    | error e => rfl
    | ok f =>
      cases f with
      | none => rfl
      | some f =>
        show A'.fnCall (f.rename σ) args = Py.rename σ (A.fnCall f args)
        unfold Acc.fnCall
        rw [ren_bind, h.backend]
        simp only [ren_liftPy, ren_fnLam_call, FnLam.call_rename hi]

theorem AccRenInt.fint {A A' : Acc Py} (h : AccRenInt σ A A') (hi : Function.Injective σ) {ang ang' : Py (List Arr)}
    {mux mux' mu mu' : Py Arr} (h1 : ang' = Py.rename σ ang) (h2 : mux' = Py.rename σ mux) (h3 : mu' = Py.rename σ mu) :
    A'.fint ang' mux' mu' = Py.rename σ (A.fint ang mux mu) := by
  rw [fint_outs, fint_outs]
  simp only [ren_bind, h1, h2, h3, h.outs hi, h.par, h.nmax, ren_liftPy, ren_broadcast, ren_S2mu, ren_mul, ren_stack,
    ren_sum0]

theorem AccRenInt.interaction {A A' : Acc Py} (h : AccRenInt σ A A') (hi : Function.Injective σ) :
    A'.interaction = Py.rename σ A.interaction := by
  have f1 : A'.fint1 = Py.rename σ A.fint1 := by
    unfold Acc.fint1
    exact h.fint hi (by simp only [ren_bind, h.t0, h.p0, h.tex, h.pex, ren_pure]) h.mu0x h.mu0
  have f2 : A'.fint2 = Py.rename σ A.fint2 := by
    unfold Acc.fint2
    exact h.fint hi (by simp only [ren_bind, h.t0, h.p0, h.tex, h.pex, ren_pure]) h.muExx h.muEx
  unfold Acc.interaction
  simp only [ren_bind, f1, f2, ren_mulM, ren_addM, ren_subM, ren_divM, ren_litM, ren_pure, ren_expM, ren_negM, h.par, h.mu0,
    h.muEx, h.I0]

theorem ren_nanIffZero (x y : Arr) : Py.rename σ (Arr.nanIffZero x y) = Arr.nanIffZero x y := by
  unfold Arr.nanIffZero
  split <;> rfl

theorem AccRenInt.calcTry {A A' : Acc Py} (h : AccRenInt σ A A') (hi : Function.Injective σ) :
    A'.calcTry = Py.rename σ A.calcTry := by
  refine h.toAccRen.calcTry_of ?_
  have hf : ∀ x, A'.fixNan x = Py.rename σ (A.fixNan x) := by
    intro x
    unfold Acc.fixNan
    simp only [ren_bind, apply_ite (Py.rename σ), h.par, ren_liftPy, ren_nanIffZero, ren_pure]
  unfold Acc.calcBody
  simp only [ren_bind, apply_ite (Py.rename σ), h.par, h.surface, h.volume, h.finish, h.intQ, h.interaction hi, hf]

/-! ### objects -/

variable {o o' : Obj}

theorem RenamedSettings.accInt (hs : RenamedSettings σ o o') (h : Renaming σ) (b : Backend) {f f' : Py (Option FnLam)}
    (hf : f' = (Py.rename σ f).map (Option.map (FnLam.rename σ))) :
    AccRenInt σ { Fresh.acc0 b o with fnevals := f } { Fresh.acc0 b o' with fnevals := f' } where
  toAccRen := by
    obtain ⟨h1, h2, h3, h4, h5, h6, h7, h8, h9, h10⟩ := hs.acc h b
    exact ⟨h1, h2, h3, h4, h5, h6, h7, h8, h9, h10⟩
  backend := rfl
  t0 := by show Fresh.ang o' .t0 = Py.rename σ (Fresh.ang o .t0); rw [ren_ang, hs.ang']
  tex := by show Fresh.tex o' = Py.rename σ (Fresh.tex o); rw [ren_tex, hs.tex]
  p0 := by show Fresh.ang o' .p0 = Py.rename σ (Fresh.ang o .p0); rw [ren_ang, hs.ang']
  pex := by show Fresh.pex o' = Py.rename σ (Fresh.pex o); rw [ren_pex, hs.pex]
  mu0x := by
    show Fresh.mu0x o' = Py.rename σ (Fresh.mu0x o)
    unfold Fresh.mu0x Fresh.nmax Fresh.mu0
    simp only [hs.V, hs.SRF, Scatter.ncoefs_rename, hs.ang', ren_bind, ren_ncoefs, ren_ang, ren_muPowers]
    rfl
  muExx := by
    show Fresh.muExx o' = Py.rename σ (Fresh.muExx o)
    unfold Fresh.muExx Fresh.nmax Fresh.muEx
    simp only [hs.V, hs.SRF, Scatter.ncoefs_rename, hs.tex, ren_bind, ren_ncoefs, ren_tex, ren_muPowers]
    rfl
  nmax := by
    show (do
      let nV ← (liftPy o'.V.ncoefs : Py ℕ)
      let nS ← (liftPy o'.SRF.ncoefs : Py ℕ)
      pure (nV + nS - 1)) = Py.rename σ (do
      let nV ← (liftPy o.V.ncoefs : Py ℕ)
      let nS ← (liftPy o.SRF.ncoefs : Py ℕ)
      pure (nV + nS - 1))
    simp only [hs.V, hs.SRF, Scatter.ncoefs_rename, ren_bind, ren_liftPy, ren_ncoefs, ren_pure]
  params := congrArg Except.ok hs.params
  fnevals := hf

theorem ren_groupNcoefs (l : List (Expr × Scatter)) : Py.rename σ (Scatter.groupNcoefs l) = Scatter.groupNcoefs l := by
  unfold Scatter.groupNcoefs
  rw [ren_bind, ren_ncoefsL]
  refine congrArg (Scatter.ncoefsL _ >>= ·) (funext fun l => ?_)
  by_cases hl : l = []
  · rw [if_pos hl]; rfl
  · rw [if_neg hl]; rfl

theorem ren_groupCoefs (l : List (Expr × Scatter)) :
    Py.rename σ (Scatter.groupCoefs embP l) = Scatter.groupCoefs embP l := by
  induction l with
  | nil => rfl
  | cons p l ih =>
    obtain ⟨w, o⟩ := p
    unfold Scatter.groupCoefs
    cases o with
    | lin ws os a => rfl
    | prim k a nc =>
      unfold Scatter.legCoef
      rw [okb, ren_bind, ih]
      rfl

theorem ren_groups (t0 tex p0 pex : Scatter.Trig P) (l : List (A3 × List (Expr × Scatter))) :
    Py.rename σ (Scatter.groupsExpansion embP t0 tex p0 pex l) = Scatter.groupsExpansion embP t0 tex p0 pex l := by
  induction l with
  | nil => rfl
  | cons p l ih =>
    obtain ⟨a, l'⟩ := p
    unfold Scatter.groupsExpansion
    simp only [ren_bind, ren_groupNcoefs, ren_groupCoefs, ih]
    rfl

theorem ren_legExpansion (t0 tex p0 pex : Scatter.Trig P) (o : Scatter) :
    Py.rename σ (o.legExpansion embP t0 tex p0 pex) = o.legExpansion embP t0 tex p0 pex := by
  cases o with
  | lin ws os a => exact ren_groups ..
  | prim k a nc =>
    unfold Scatter.legExpansion
    rw [ren_bind, ren_ncoefs]
    refine congrArg (_ >>= ·) (funext fun n => ?_)
    by_cases hn : 0 < n
    · rw [if_pos hn]; rfl
    · rw [if_neg hn]; rfl

theorem ren_fnCoefs (V SRF : Scatter) (g : Geom4) : Py.rename σ (fnCoefs V SRF g) = fnCoefs V SRF g := by
  unfold fnCoefs interactionExpansion fPoly
  simp only [ren_bind, ren_legExpansion, ren_ncoefs]
  rfl

theorem RenamedSettings.compile (hs : RenamedSettings σ o o') (h : Renaming σ) (b : Backend) (f : List P) :
    Fresh.fnCompile b o' (f.map (renP σ)) = (Py.rename σ (Fresh.fnCompile b o f)).map (FnLam.rename σ) := by
  have hl : (⟨Self.fnVars o'.params, o'.V.phase.free ++ o'.SRF.phase.free, f.map (renP σ)⟩ : FnLam) =
      FnLam.rename σ ⟨Self.fnVars o.params, o.V.phase.free ++ o.SRF.phase.free, f⟩ := by
    unfold FnLam.rename Self.fnVars
    rw [hs.params, hs.V, hs.SRF, Scatter.phase_rename h, Scatter.phase_rename h, Expr.free_rename, Expr.free_rename,
      Dict.keys_rename]
    simp only [List.map_append, List.map_cons, List.map_nil, h.angles "theta_0" (by simp), h.angles "theta_ex" (by simp),
      h.angles "phi_0" (by simp), h.angles "phi_ex" (by simp)]
  have key : ∀ l : FnLam, (if b = .symengine ∧ ∃ s ∈ (l.rename σ).free, s ∉ (l.rename σ).vars then
        Except.error PyErr.runtimeError else Except.ok (l.rename σ) : Py FnLam) =
      (Py.rename σ (if b = .symengine ∧ ∃ s ∈ l.free, s ∉ l.vars then .error .runtimeError else .ok l)).map (FnLam.rename σ) := by
    intro l
    have hi : (b = .symengine ∧ ∃ s ∈ (l.rename σ).free, s ∉ (l.rename σ).vars) ↔ b = .symengine ∧ ∃ s ∈ l.free, s ∉ l.vars :=
      and_congr_right fun _ => free_iff h.inj _ _
    by_cases hc : b = .symengine ∧ ∃ s ∈ l.free, s ∉ l.vars
    · rw [if_pos hc, if_pos (hi.2 hc)]; rfl
    · rw [if_neg hc, if_neg (mt hi.1 hc)]; rfl
  have k := key ⟨Self.fnVars o.params, o.V.phase.free ++ o.SRF.phase.free, f⟩
  rw [← hl] at k
  exact k

/-- The coefficients computed for the settings, compiled. -/
def Fresh.newLam (b : Backend) (o : Obj) : Py (Option FnLam) := do
  let f ← fnCoefs o.V o.SRF o.geom
  let l ← Fresh.fnCompile b o f
  .ok (some l)

theorem RenamedSettings.newLam (hs : RenamedSettings σ o o') (h : Renaming σ) (hg : o'.geom = o.geom) (hN : o.geom.Named)
    (b : Backend) : Fresh.newLam b o' = (Py.rename σ (Fresh.newLam b o)).map (Option.map (FnLam.rename σ)) := by
  unfold Fresh.newLam
  rw [hs.V, hs.SRF, hg, fnCoefs_rename h hN, ren_bind, ren_fnCoefs]
  cases fnCoefs o.V o.SRF o.geom with
  | error e => rfl
  | ok f =>
    show (Fresh.fnCompile b o' (f.map (renP σ)) >>= fun l => .ok (some l)) =
      (Py.rename σ (Fresh.fnCompile b o f >>= fun l => .ok (some l))).map (Option.map (FnLam.rename σ))
    rw [hs.compile h, ren_bind]
    cases Fresh.fnCompile b o f <;> rfl

end

end

end RT1
