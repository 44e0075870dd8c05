import Verif.Lemmas.RenameL
import Verif.Spec.RenameObj
import Verif.Spec.Fresh
import Verif.Lemmas.OrderAcc

/-! Evaluation of objects with other names for their parameters. -/

namespace RT1

noncomputable section
open Classical

section
variable {σ : String → String}

theorem ren_bind {α β : Type} (x : Py α) (f : α → Py β) :
    Py.rename σ (x >>= f) = Py.rename σ x >>= fun a => Py.rename σ (f a) := by
  cases x <;> rfl

theorem ren_map2 (f : XR → XR → XR) (x y : Arr) : Py.rename σ (Arr.map2 f x y) = Arr.map2 f x y := by
  unfold Arr.map2; split <;> rfl

theorem ren_mulM (x y : Py Arr) : Py.rename σ (mulM x y) = mulM (Py.rename σ x) (Py.rename σ y) := by
  cases x with
  | error e => rfl
  | ok a => cases y with
    | error e => rfl
    | ok b =>
      have := ren_map2 (σ := σ) (· * ·) a b
      show Py.rename σ (liftPy (Arr.mul a b)) = liftPy (Arr.mul a b)
      unfold Arr.mul
      cases h : Arr.map2 (· * ·) a b with
      | ok v => rfl
      | error e => rw [h] at this; exact this
theorem ren_divM (x y : Py Arr) : Py.rename σ (divM x y) = divM (Py.rename σ x) (Py.rename σ y) := by
  cases x with
  | error e => rfl
  | ok a => cases y with
    | error e => rfl
    | ok b =>
      have := ren_map2 (σ := σ) (· / ·) a b
      show Py.rename σ (liftPy (Arr.div a b)) = liftPy (Arr.div a b)
      unfold Arr.div
      cases h : Arr.map2 (· / ·) a b with
      | ok v => rfl
      | error e => rw [h] at this; exact this
theorem ren_addM (x y : Py Arr) : Py.rename σ (addM x y) = addM (Py.rename σ x) (Py.rename σ y) := by
  cases x with
  | error e => rfl
  | ok a => cases y with
    | error e => rfl
    | ok b =>
      have := ren_map2 (σ := σ) (· + ·) a b
      show Py.rename σ (liftPy (Arr.add a b)) = liftPy (Arr.add a b)
      unfold Arr.add
      cases h : Arr.map2 (· + ·) a b with
      | ok v => rfl
      | error e => rw [h] at this; exact this
theorem ren_subM (x y : Py Arr) : Py.rename σ (subM x y) = subM (Py.rename σ x) (Py.rename σ y) := by
  cases x with
  | error e => rfl
  | ok a => cases y with
    | error e => rfl
    | ok b =>
      have := ren_map2 (σ := σ) (· - ·) a b
      show Py.rename σ (liftPy (Arr.sub a b)) = liftPy (Arr.sub a b)
      unfold Arr.sub
      cases h : Arr.map2 (· - ·) a b with
      | ok v => rfl
      | error e => rw [h] at this; exact this
theorem ren_mapM' (f : XR → XR) (x : Py Arr) : Py.rename σ (mapM' f x) = mapM' f (Py.rename σ x) := by
  cases x <;> rfl
theorem ren_negM (x : Py Arr) : Py.rename σ (negM x) = negM (Py.rename σ x) := ren_mapM' _ x
theorem ren_expM (x : Py Arr) : Py.rename σ (expM x) = expM (Py.rename σ x) := ren_mapM' _ x
theorem ren_litM (r : ℝ) : Py.rename σ (litM r : Py Arr) = litM r := rfl
theorem ren_pure {α : Type} (a : α) : Py.rename σ (pure a : Py α) = pure a := rfl
theorem ren_liftPy {α : Type} (x : Py α) : Py.rename σ (liftPy x : Py α) = liftPy (Py.rename σ x) := by
  cases x <;> rfl
theorem ren_mul (x y : Arr) : Py.rename σ (Arr.mul x y) = Arr.mul x y := ren_map2 _ x y
theorem ren_stack (l : List Arr) : Py.rename σ (Arr.stack l) = Arr.stack l := by
  unfold Arr.stack
  split
  · rfl
  · split_ifs <;> rfl

/-! ### compiled functions -/

theorem compile_rename (h : Function.Injective σ) (b : Backend) (vars : List String) (e : Expr) :
    Lam.compile b (vars.map σ) (e.rename σ) = (Lam.compile b vars e).map fun f => ⟨f.vars.map σ, f.body.rename σ⟩ := by
  cases b with
  | sympy => rfl
  | symengine =>
    have h1 : (∀ s ∈ (e.rename σ).free, s ∈ vars.map σ) ↔ ∀ s ∈ e.free, s ∈ vars := by
      rw [Expr.free_rename]
      constructor
      · intro H s hs
        exact (List.mem_map_of_injective h).1 (H _ (List.mem_map_of_mem hs))
      · intro H s hs
        obtain ⟨s', hs', rfl⟩ := List.mem_map.1 hs
        exact List.mem_map_of_mem (H _ hs')
    unfold Lam.compile
    by_cases hf : ∀ s ∈ e.free, s ∈ vars
    · simp only [if_pos hf, if_pos (h1.2 hf)]; rfl
    · simp only [if_neg hf, if_neg (mt h1.1 hf)]; rfl

theorem call_rename (h : Function.Injective σ) (b : Backend) (f : Lam) (pos : List Arr) (d : Dict) :
    Lam.call b ⟨f.vars.map σ, f.body.rename σ⟩ pos (d.rename σ) = Lam.call b f pos d := by
  unfold Lam.call
  simp only [Lam.bindArgs_rename h]
  cases Lam.bindArgs b f.vars pos d with
  | error e => rfl
  | ok d' => exact Lam.evalBound_rename h b f.body d'

theorem ren_call (b : Backend) (f : Lam) (pos : List Arr) (d : Dict) :
    Py.rename σ (Lam.call b f pos d) = Lam.call b f pos d := by
  have hb : Py.rename σ (Lam.bindArgs b f.vars pos d) = Lam.bindArgs b f.vars pos d := by
    unfold Lam.bindArgs
    cases b with
    | sympy =>
      simp only
      split_ifs
      · rfl
      · rfl
      · cases (f.vars.drop pos.length).mapM fun k => Dict.get? d k <;> rfl
    | symengine =>
      simp only
      cases (f.vars.drop pos.length).mapM fun k => Dict.get? d k with
      | none => rfl
      | some v => simp only; split_ifs <;> rfl
  have he : ∀ l, Py.rename σ (Lam.evalBound b f.body l) = Lam.evalBound b f.body l := by
    intro l
    unfold Lam.evalBound
    cases b with
    | sympy =>
      simp only
      split_ifs
      · cases Arr.bshapes ((l.filter fun p => decide (p.1 ∈ f.body.free)).map fun p => p.2.shape) <;> rfl
      · rfl
    | symengine =>
      simp only
      cases Arr.bshapes (l.map fun p => p.2.shape) <;> rfl
  unfold Lam.call
  rw [ren_bind, hb]
  simp only [he]

theorem ren_compile (b : Backend) (vars : List String) (e : Expr) :
    Py.rename σ (Lam.compile b vars e) = Lam.compile b vars e := by
  unfold Lam.compile
  cases b with
  | sympy => rfl
  | symengine => simp only; split_ifs <;> rfl

theorem ren_calcVal (b : Backend) (o : Scatter) (t0 tex p0 pex : Arr) (pd : Dict) :
    Py.rename σ (o.calcVal b t0 tex p0 pex pd) = o.calcVal b t0 tex p0 pex pd := by
  unfold Scatter.calcVal
  rw [ren_bind, ren_compile]
  simp only [ren_call]

/-! ### tau, omega, NormBRDF, bsf -/

theorem pick_rename (h : Function.Injective σ) (d : Dict) (ks : List String) :
    Self.pick (d.rename σ) (ks.map σ) = (Self.pick d ks).map (Dict.rename σ) := by
  have key : (ks.map σ).mapM (fun k => (Dict.get? (d.rename σ) k).map fun v => (k, v)) =
      (ks.mapM fun k => (Dict.get? d k).map fun v => (k, v)).map (Dict.rename σ) := by
    induction ks with
    | nil => rfl
    | cons k ks ih =>
      rw [List.map_cons, List.mapM_cons, List.mapM_cons, Dict.get?_rename h, ih]
      cases Dict.get? d k with
      | none => rfl
      | some v => cases ks.mapM fun k => (Dict.get? d k).map fun v => (k, v) <;> rfl
  unfold Self.pick
  rw [key]
  cases ks.mapM fun k => (Dict.get? d k).map fun v => (k, v) <;> rfl

theorem ren_pick (d : Dict) (ks : List String) : Py.rename σ (Self.pick d ks) = Self.pick d ks := by
  unfold Self.pick
  split <;> rfl

theorem missing_rename (h : Function.Injective σ) (d : Dict) (ks : List String) :
    ((ks.map σ).filter fun k => decide (k ∉ (d.rename σ).keys)) = (ks.filter fun k => decide (k ∉ d.keys)).map σ := by
  rw [List.filter_map]
  congr 1
  refine List.filter_congr fun k _ => ?_
  rw [Function.comp_apply, decide_eq_decide, Dict.keys_rename, List.mem_map_of_injective h]

variable {o o' : Obj}

theorem RenamedSettings.symbs (hs : RenamedSettings σ o o') (h : Function.Injective σ) (p : PName) :
    Fresh.symbs o' p = (Fresh.symbs o p).map σ := by
  unfold Fresh.symbs
  rw [hs.pdef p]
  cases o.pdef p with
  | val a => rfl
  | basic e => rfl
  | str e =>
    show (e.rename σ).free.dedup = (e.free.dedup).map σ
    rw [Expr.free_rename, List.dedup_map_of_injective h]

theorem RenamedSettings.par (hs : RenamedSettings σ o o') (h : Function.Injective σ) (b : Backend) (p : PName) :
    Fresh.par b o' p = Py.rename σ (Fresh.par b o p) := by
  have fun_case : ∀ f : Lam,
      (tryCatch (do
          let kw ← Self.pick o'.params (Fresh.symbs o' p)
          Lam.call b ⟨f.vars.map σ, f.body.rename σ⟩ [] kw)
        fun e =>
          let missing := (Fresh.symbs o' p).filter fun k => decide (k ∉ o'.params.keys)
          if missing ≠ [] then throw (.typeError missing) else throw e : Py Arr) =
      Py.rename σ (tryCatch (do
          let kw ← Self.pick o.params (Fresh.symbs o p)
          f.call b [] kw)
        fun e =>
          let missing := (Fresh.symbs o p).filter fun k => decide (k ∉ o.params.keys)
          if missing ≠ [] then throw (.typeError missing) else throw e) := by
    intro f
    have hx : (do
          let kw ← Self.pick o'.params (Fresh.symbs o' p)
          Lam.call b ⟨f.vars.map σ, f.body.rename σ⟩ [] kw : Py Arr) = (do
          let kw ← Self.pick o.params (Fresh.symbs o p)
          f.call b [] kw) := by
      rw [hs.params, hs.symbs h, pick_rename h]
      cases Self.pick o.params (Fresh.symbs o p) with
      | error e => rfl
      | ok kw => exact call_rename h b f [] kw
    have hr : Py.rename σ (do
          let kw ← Self.pick o.params (Fresh.symbs o p)
          f.call b [] kw) = (do
          let kw ← Self.pick o.params (Fresh.symbs o p)
          f.call b [] kw) := by
      rw [ren_bind, ren_pick]
      simp only [ren_call]
    rw [hx, hs.params, hs.symbs h]
    simp only [missing_rename h]
    cases hc : (do
          let kw ← Self.pick o.params (Fresh.symbs o p)
          f.call b [] kw : Py Arr) with
    | ok a => rfl
    | error e =>
      rw [hc] at hr
      have he : e.rename σ = e := Except.error.inj hr
      show (if List.map σ _ ≠ [] then Except.error _ else Except.error e) =
        Py.rename σ (if _ ≠ [] then Except.error _ else Except.error e)
      by_cases hm : ((Fresh.symbs o p).filter fun k => decide (k ∉ o.params.keys)) = []
      · rw [if_neg (by simpa using hm), if_neg (by simpa using hm)]
        show Except.error e = Except.error (e.rename σ)
        rw [he]
      · rw [if_pos (by simpa using hm), if_pos hm]
        rfl
  unfold Fresh.par Fresh.pfun
  rw [hs.pdef p]
  cases hp : o.pdef p with
  | val a => rfl
  | str e =>
    simp only [PDef.rename, hs.symbs h p, compile_rename h]
    rw [← hs.symbs h p]
    cases hc : Lam.compile b (Fresh.symbs o p) e with
    | error er =>
      have := ren_compile (σ := σ) b (Fresh.symbs o p) e
      rw [hc] at this
      show Except.error er = Except.error (er.rename σ)
      rw [show er.rename σ = er from Except.error.inj this]
    | ok f => exact fun_case f
  | basic e =>
    simp only [PDef.rename, hs.symbs h p, compile_rename h]
    rw [← hs.symbs h p]
    cases hc : Lam.compile b (Fresh.symbs o p) e with
    | error er =>
      have := ren_compile (σ := σ) b (Fresh.symbs o p) e
      rw [hc] at this
      show Except.error er = Except.error (er.rename σ)
      rw [show er.rename σ = er from Except.error.inj this]
    | ok f => exact fun_case f

/-! ### accessors -/

/-- Accessors whose outcomes differ in the names only. -/
structure AccRen (σ : String → String) (A A' : Acc Py) : Prop where
  intQ : A'.intQ = Py.rename σ A.intQ
  sig0 : A'.sig0 = Py.rename σ A.sig0
  dB : A'.dB = Py.rename σ A.dB
  I0 : A'.I0 = Py.rename σ A.I0
  mu0 : A'.mu0 = Py.rename σ A.mu0
  muEx : A'.muEx = Py.rename σ A.muEx
  par : ∀ p, A'.par p = Py.rename σ (A.par p)
  srf : A'.srfCalc = Py.rename σ A.srfCalc
  vol : A'.vCalc = Py.rename σ A.vCalc
  missing : A'.missingNames = (Py.rename σ A.missingNames).map fun l => l.map σ

namespace AccRen
variable {A A' : Acc Py} (h : AccRen σ A A')
include h

theorem atten : A'.atten = Py.rename σ A.atten := by
  unfold Acc.atten
  rw [ren_expM, ren_subM, ren_negM, ren_divM, ren_divM, h.par, h.mu0, h.muEx]

theorem surface : A'.surface = Py.rename σ A.surface := by
  unfold Acc.surface
  simp only [ren_bind, ren_mulM, ren_addM, ren_subM, ren_litM, ren_pure, h.par, h.mu0, h.I0, h.srf, h.atten]

theorem volume : A'.volume = Py.rename σ A.volume := by
  unfold Acc.volume
  simp only [ren_bind, ren_mulM, ren_addM, ren_subM, ren_divM, ren_litM, ren_pure, h.par, h.mu0, h.muEx, h.I0, h.vol,
    h.atten]

theorem convert (x : Arr) : A'.convert x = Py.rename σ (A.convert x) := by
  unfold Acc.convert
  simp only [ren_bind, apply_ite (Py.rename σ), ren_mulM, ren_divM, ren_litM, ren_pure, ren_liftPy, ren_mul, h.mu0,
    h.I0, h.sig0, h.dB]

theorem finish (q : Bool) (x y z : Arr) : A'.finish q x y z = Py.rename σ (A.finish q x y z) := by
  unfold Acc.finish
  simp only [ren_bind, apply_ite (Py.rename σ), ren_addM, ren_pure, ren_liftPy, ren_stack, h.convert]

theorem calcBody (hq : A.intQ = .ok false) : A'.calcBody = Py.rename σ A.calcBody := by
  have hq' : A'.intQ = .ok false := by rw [h.intQ, hq]; rfl
  unfold Acc.calcBody
  simp only [hq, hq', okb, Bool.false_eq_true, if_false, ren_bind, apply_ite (Py.rename σ), h.par, h.surface, h.volume,
    h.finish]

theorem calcTry_of (hb : A'.calcBody = Py.rename σ A.calcBody) : A'.calcTry = Py.rename σ A.calcTry := by
  unfold Acc.calcTry
  rw [hb]
  cases hb : A.calcBody with
  | ok a => rfl
  | error e =>
    cases e with
    | typeError ns =>
      show (do
        let names ← A'.missingNames
        if names ≠ [] then throw (.typeError names) else throw (.typeError (ns.map σ)) : Py Arr) = Py.rename σ (do
        let names ← A.missingNames
        if names ≠ [] then throw (.typeError names) else throw (.typeError ns))
      rw [h.missing]
      cases A.missingNames with
      | error e => rfl
      | ok l =>
        show (if l.map σ ≠ [] then Except.error (PyErr.typeError (l.map σ)) else Except.error (.typeError (ns.map σ))) =
          Py.rename σ (if l ≠ [] then Except.error (PyErr.typeError l) else Except.error (.typeError ns))
        by_cases hl : l = []
        · rw [if_neg (by simpa using hl), if_neg (by simpa using hl)]; rfl
        · rw [if_pos (by simpa using hl), if_pos hl]; rfl
    | _ => rfl

theorem calcTry (hq : A.intQ = .ok false) : A'.calcTry = Py.rename σ A.calcTry := h.calcTry_of (h.calcBody hq)

end AccRen

theorem ren_ang (o : Obj) (n : AngN) : Py.rename σ (Fresh.ang o n) = Fresh.ang o n := by
  unfold Fresh.ang; split <;> rfl
theorem ren_tex (o : Obj) : Py.rename σ (Fresh.tex o) = Fresh.tex o := by
  unfold Fresh.tex; split_ifs <;> exact ren_ang _ _
theorem ren_pex (o : Obj) : Py.rename σ (Fresh.pex o) = Fresh.pex o := by
  unfold Fresh.pex
  split_ifs
  · rw [ren_bind, ren_ang]
    simp only [Arr.add, ren_map2]
  · exact ren_ang _ _

theorem RenamedSettings.ang' (hs : RenamedSettings σ o o') (n : AngN) : Fresh.ang o' n = Fresh.ang o n := by
  unfold Fresh.ang; rw [hs.ang]
theorem RenamedSettings.tex (hs : RenamedSettings σ o o') : Fresh.tex o' = Fresh.tex o := by
  unfold Fresh.tex; rw [hs.mono, hs.ang', hs.ang']
theorem RenamedSettings.pex (hs : RenamedSettings σ o o') : Fresh.pex o' = Fresh.pex o := by
  unfold Fresh.pex; rw [hs.mono, hs.ang', hs.ang']

theorem Renaming.angle_iff (h : Renaming σ) (k : String) :
    σ k ∈ ["phi_0", "phi_ex", "theta_0", "theta_ex"] ↔ k ∈ ["phi_0", "phi_ex", "theta_0", "theta_ex"] := by
  have hl : (["phi_0", "phi_ex", "theta_0", "theta_ex"] : List String) = List.map σ ["phi_0", "phi_ex", "theta_0", "theta_ex"] := by
    simp only [List.map_cons, List.map_nil, h.angles "theta_0" (by simp), h.angles "theta_ex" (by simp),
      h.angles "phi_0" (by simp), h.angles "phi_ex" (by simp)]
  constructor
  · intro hk
    rw [hl] at hk
    exact (List.mem_map_of_injective h.inj).1 hk
  · intro hk
    rw [hl]
    exact List.mem_map_of_mem hk

theorem RenamedSettings.acc (hs : RenamedSettings σ o o') (h : Renaming σ) (b : Backend) :
    AccRen σ (Fresh.acc0 b o) (Fresh.acc0 b o') where
  intQ := congrArg Except.ok hs.intQ
  sig0 := congrArg Except.ok hs.sig0
  dB := congrArg Except.ok hs.dB
  I0 := congrArg Except.ok hs.I0
  mu0 := by
    show (Fresh.ang o' .t0 >>= _) = Py.rename σ (Fresh.ang o .t0 >>= _)
    rw [ren_bind, ren_ang, hs.ang']; rfl
  muEx := by
    show (Fresh.tex o' >>= _) = Py.rename σ (Fresh.tex o >>= _)
    rw [ren_bind, ren_tex, hs.tex]; rfl
  par := fun p => hs.par h.inj b p
  srf := by
    show (do
      let a ← Fresh.ang o' .t0
      let b' ← Fresh.tex o'
      let c ← Fresh.ang o' .p0
      let d ← Fresh.pex o'
      liftPy (o'.SRF.calcVal b a b' c d o'.params) : Py Arr) = Py.rename σ (do
      let a ← Fresh.ang o .t0
      let b' ← Fresh.tex o
      let c ← Fresh.ang o .p0
      let d ← Fresh.pex o
      liftPy (o.SRF.calcVal b a b' c d o.params))
    simp only [ren_bind, ren_ang, ren_tex, ren_pex, ren_liftPy, ren_calcVal, hs.ang', hs.tex, hs.pex, hs.SRF, hs.params,
      Scatter.calcVal_rename h]
  vol := by
    show (do
      let a ← Fresh.ang o' .t0
      let b' ← Fresh.tex o'
      let c ← Fresh.ang o' .p0
      let d ← Fresh.pex o'
      liftPy (o'.V.calcVal b a b' c d o'.params) : Py Arr) = Py.rename σ (do
      let a ← Fresh.ang o .t0
      let b' ← Fresh.tex o
      let c ← Fresh.ang o .p0
      let d ← Fresh.pex o
      liftPy (o.V.calcVal b a b' c d o.params))
    simp only [ren_bind, ren_ang, ren_tex, ren_pex, ren_liftPy, ren_calcVal, hs.ang', hs.tex, hs.pex, hs.V, hs.params,
      Scatter.calcVal_rename h]
  missing := by
    show Except.ok (List.filter _ (Fresh.symbs o' .tau ++ Fresh.symbs o' .omega ++ Fresh.symbs o' .NormBRDF ++
        Fresh.symbs o' .bsf ++ o'.V.phase.free ++ o'.SRF.phase.free)) =
      Except.ok (List.map σ (List.filter _ (Fresh.symbs o .tau ++ Fresh.symbs o .omega ++ Fresh.symbs o .NormBRDF ++
        Fresh.symbs o .bsf ++ o.V.phase.free ++ o.SRF.phase.free)))
    refine congrArg Except.ok ?_
    simp only [hs.symbs h.inj, hs.V, hs.SRF, Scatter.phase_rename h, Expr.free_rename, ← List.map_append, hs.params]
    rw [List.filter_map]
    congr 1
    refine List.filter_congr fun k _ => ?_
    rw [Function.comp_apply, decide_eq_decide, Dict.keys_rename, List.mem_map_of_injective h.inj, h.angle_iff]

/-! ### updates -/

theorem Dict.rename_set (h : Function.Injective σ) (d : Dict) (k : String) (a : Arr) :
    Dict.rename σ (Dict.set d k a) = Dict.set (d.rename σ) (σ k) a := by
  induction d with
  | nil => rfl
  | cons p d ih =>
    obtain ⟨k', v⟩ := p
    show Dict.rename σ (if k' = k then (k', a) :: d else (k', v) :: Dict.set d k a) =
      if σ k' = σ k then (σ k', a) :: Dict.rename σ d else (σ k', v) :: Dict.set (Dict.rename σ d) (σ k) a
    by_cases hk : k' = k
    · rw [if_pos hk, if_pos (congrArg σ hk)]; rfl
    · rw [if_neg hk, if_neg (mt (fun e => h e) hk), ← ih]; rfl

theorem Dict.rename_update (h : Function.Injective σ) (d kw : Dict) :
    Dict.rename σ (Dict.update d kw) = Dict.update (d.rename σ) (kw.rename σ) := by
  unfold Dict.update
  induction kw generalizing d with
  | nil => rfl
  | cons p kw ih =>
    show Dict.rename σ (List.foldl _ (Dict.set d p.1 p.2) kw) =
      List.foldl _ (Dict.set (Dict.rename σ d) (σ p.1) p.2) (Dict.rename σ kw)
    rw [ih, Dict.rename_set h]

theorem RenamedSettings.update (hs : RenamedSettings σ o o') (h : Renaming σ) (hb : σ "bsf" = "bsf") (kw : Dict) :
    RenamedSettings σ (Fresh.update o kw) (Fresh.update o' (kw.rename σ)) := by
  refine ⟨hs.V, hs.SRF, hs.intQ, hs.sig0, hs.dB, hs.I0, hs.pdef, ?_, hs.mono, hs.ang⟩
  have hk : ∀ d : Dict, "bsf" ∈ (d.rename σ).keys ↔ "bsf" ∈ d.keys := by
    intro d
    rw [Dict.keys_rename]
    have := List.mem_map_of_injective h.inj (a := "bsf") (l := d.keys)
    rwa [hb] at this
  have ha : ∀ d : Dict, ((d.rename σ).map fun p => (p.1, p.2.atleast1d)) = Dict.rename σ (d.map fun p => (p.1, p.2.atleast1d)) := by
    intro d
    unfold Dict.rename
    rw [List.map_map, List.map_map]
    rfl
  have hu : ∀ d : Dict, Dict.update o'.params ((d.rename σ).map fun p => (p.1, p.2.atleast1d)) =
      Dict.rename σ (Dict.update o.params (d.map fun p => (p.1, p.2.atleast1d))) := by
    intro d
    rw [ha, hs.params, Dict.rename_update h.inj]
  by_cases hc : o.pdef .bsf = .str (.sym "bsf")
  · have hc' : o'.pdef .bsf = .str (.sym "bsf") := by
      rw [hs.pdef, hc]; simp [PDef.rename, Expr.rename, hb]
    unfold Fresh.update
    simp only [hc, hc', hs.params, hk]
    rw [← hs.params]
    by_cases hm : "bsf" ∈ o.params.keys ∨ "bsf" ∈ kw.keys
    · simp only [if_pos hm]; exact hu kw
    · simp only [if_neg hm]
      have : kw.rename σ ++ [("bsf", Arr.lit 0)] = Dict.rename σ (kw ++ [("bsf", Arr.lit 0)]) := by
        unfold Dict.rename
        rw [List.map_append]
        simp [hb]
      rw [this]
      exact hu _
  · have hc' : o'.pdef .bsf ≠ .str (.sym "bsf") := by
      rw [hs.pdef]
      intro he
      cases hp : o.pdef .bsf with
      | val a => rw [hp] at he; cases he
      | basic e => rw [hp] at he; cases he
      | str e =>
        rw [hp] at he
        have he' : e.rename σ = (Expr.sym "bsf").rename σ := by
          rw [show (Expr.sym "bsf").rename σ = .sym "bsf" from by simp [Expr.rename, hb]]
          injection he
        exact hc (by rw [hp, Expr.rename_injective h.inj _ _ he'])
    have key : ∀ (p : PDef) (kw kw' : Dict), p ≠ .str (.sym "bsf") →
        (match p with | .str (.sym "bsf") => kw' | _ => kw) = kw := by
      intro p kw kw' hp
      split
      · exact absurd rfl hp
      · rfl
    unfold Fresh.update
    simp only [key _ _ _ hc, key _ _ _ hc']
    exact hu kw

end

end

end RT1
