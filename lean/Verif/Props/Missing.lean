import Verif.Lemmas.MissL
import Verif.Props.Contrib

/-!
# C15: missing parameters are reported exactly

`calc` reports the names that have no value if the value of tau, omega, NormBRDF or bsf is
needed (`C15_tau_partial`, `C15_definitions_partial`).  A name that is missing in V or SRF only
is not reported: the call of the scattering function raises NameError (sympy) or RuntimeError
(symengine), which `calc` does not handle (`C15_srf_negation`, `C15_volume_negation`).
`surface` has no handler at all, it names the parameters of the first definition that cannot be
evaluated (`C15_surface_counterexample`).
-/

namespace RT1

noncomputable section
open Classical

/-- A TypeError that names exactly the strings with the property `P`. -/
def Reported (r : Py Arr) (P : String → Prop) : Prop :=
  ∃ ns, r = .error (.typeError ns) ∧ ∀ n, n ∈ ns ↔ P n

section transfer
variable {b : Backend} {o o' : Obj} (hf : Filled b o o')
include hf

theorem Filled.missing (n : String) : o'.Missing n ↔ o.Missing n := by
  unfold Obj.Missing Obj.UsedInDef; rw [hf.pdef, hf.V, hf.SRF, hf.params]
theorem Filled.lacks (p : PName) : o'.Lacks p ↔ o.Lacks p := by
  unfold Obj.Lacks; rw [hf.pdef, hf.params]
theorem Filled.lacksIn (s : Scatter) : o'.LacksIn s ↔ o.LacksIn s := by
  unfold Obj.LacksIn; rw [hf.params]
theorem Filled.bare {S : List ℕ} (h : Unfilled o' S) : Unfilled o S := by
  have hc := hf.core
  have hang : o'.ang = o.ang := by have := congrArg Obj.ang hc; exact this
  have hm : o'.mono = o.mono := by have := congrArg Obj.mono hc; exact this
  have hI : o'.I0 = o.I0 := by have := congrArg Obj.I0 hc; exact this
  obtain ⟨h1, h2, h3, h4, h5, h6, h7⟩ := h
  rw [hang] at h1 h2 h3 h4
  rw [hm] at h3 h4
  rw [hI] at h5
  rw [hf.params] at h6
  rw [hf.pdef] at h7
  exact ⟨h1, h2, h3, h4, h5, h6, h7⟩

end transfer

/-! ### the body of calc -/

theorem body_tau {b : Backend} {o : Obj} (h : o.Lacks .tau) :
    ∃ ns, (Fresh.acc0 b o).calcBody = .error (.typeError ns) := by
  obtain ⟨ns, hn⟩ := Unfilled.par_lacks b h
  refine ⟨ns, ?_⟩
  unfold Acc.calcBody
  rw [show (Fresh.acc0 b o).par .tau = .error (.typeError ns) from hn]
  rfl

theorem body_defs {b : Backend} {o : Obj} {S : List ℕ} (h : Unfilled o S) (hV : ¬ o.LacksIn o.V)
    (hS : ¬ o.LacksIn o.SRF) {p : PName} (hp : o.Lacks p)
    (hw : p = .omega → ∀ a, Fresh.par b o .tau = .ok a → a.shape = [] → (a.get []).isPos = true) :
    ∃ ns, (Fresh.acc0 b o).calcBody = .error (.typeError ns) := by
  by_cases ht : o.Lacks .tau
  · exact body_tau ht
  obtain ⟨a, ha, -⟩ := h.par_ok b ht
  have ha' : (Fresh.acc0 b o).par .tau = .ok a := ha
  have hs := h.t_surface b (Fresh.dVol b o) (Fresh.dSrf b o) hS
  have hv := h.t_volume b (Fresh.dVol b o) (Fresh.dSrf b o) hV
  unfold Acc.calcBody
  rw [ha']
  rcases hs with ⟨z, hz, -⟩ | ⟨ns, hn⟩
  · have hz' : (Fresh.acc0 b o).surface = .ok z := hz
    obtain ⟨r1, r2⟩ := surface_ok_reads hz
    have hpo : p = .omega := by
      cases p with
      | tau => exact absurd hp ht
      | omega => rfl
      | NormBRDF => exact absurd hp r1
      | bsf => exact absurd hp r2
    rcases hv with ⟨v, hv, -⟩ | ⟨ns, hn⟩
    · subst hpo
      exact absurd hp (volume_ok_reads hv)
    · have hn' : (Fresh.acc0 b o).volume = .error (.typeError ns) := hn
      refine ⟨ns, ?_⟩
      rw [hz', hn']
      by_cases hsh : a.shape = []
      · have hpos := hw hpo a ha hsh
        show (if a.shape = [] then _ else _ : Py Arr) = _
        rw [if_pos hsh]
        show (if (a.get []).isPos = true then _ else _ : Py Arr) = _
        rw [if_pos hpos]
        rfl
      · show (if a.shape = [] then _ else _ : Py Arr) = _
        rw [if_neg hsh]
        rfl
  · have hn' : (Fresh.acc0 b o).surface = .error (.typeError ns) := hn
    refine ⟨ns, ?_⟩
    rw [hn']
    show (if a.shape = [] then _ else _ : Py Arr) = _
    split_ifs <;> rfl

theorem body_srf {b : Backend} {o : Obj} {S : List ℕ} (h : Unfilled o S) (hS : o.LacksIn o.SRF)
    (ht : ¬ o.Lacks .tau) : (Fresh.acc0 b o).calcBody = .error (nameErr b) := by
  obtain ⟨a, ha, -⟩ := h.par_ok b ht
  have ha' : (Fresh.acc0 b o).par .tau = .ok a := ha
  have hn' : (Fresh.acc0 b o).surface = .error (nameErr b) := h.surface_error b hS _ _
  unfold Acc.calcBody
  rw [ha', hn']
  show (if a.shape = [] then _ else _ : Py Arr) = _
  split_ifs <;> rfl

theorem Unfilled.surface_ok {o : Obj} {S : List ℕ} (h : Unfilled o S) (b : Backend) (hS : ¬ o.LacksIn o.SRF)
    (hp : ∀ p, ¬ o.Lacks p) (dv ds : String → Py Lam) : Succ (Fresh.acc b o dv ds).surface S := by
  have hat : Succ (Fresh.acc b o dv ds).atten S :=
    Succ.expM (Succ.subM (Succ.negM (Succ.divM (h.par_ok b (hp _)) h.s_mu0))
      (Succ.divM (h.par_ok b (hp _)) h.s_muEx))
  unfold Acc.surface
  refine Succ.bind (Succ.mulM (Succ.mulM (h.s_I0 b dv ds) h.s_mu0) (h.s_scatter b hS dv ds))
    fun a1 h1 => ?_
  refine Succ.bind (Succ.mulM hat (Succ.pure h1)) fun a2 h2 => ?_
  exact Succ.mulM (h.par_ok b (hp _)) (Succ.addM (Succ.mulM (Succ.subM (Succ.lit 1) (h.par_ok b (hp _)))
    (Succ.pure h2)) (Succ.mulM (h.par_ok b (hp _)) (Succ.pure h1)))

theorem body_volume {b : Backend} {o : Obj} {S : List ℕ} (h : Unfilled o S) (hV : o.LacksIn o.V)
    (hS : ¬ o.LacksIn o.SRF) (hp : ∀ p, ¬ o.Lacks p)
    (hw : ∀ a, Fresh.par b o .tau = .ok a → a.shape = [] → (a.get []).isPos = true) :
    (Fresh.acc0 b o).calcBody = .error (nameErr b) := by
  obtain ⟨a, ha, -⟩ := h.par_ok b (hp .tau)
  have ha' : (Fresh.acc0 b o).par .tau = .ok a := ha
  obtain ⟨z, hz, -⟩ := h.surface_ok b hS hp (Fresh.dVol b o) (Fresh.dSrf b o)
  have hz' : (Fresh.acc0 b o).surface = .ok z := hz
  have hn' : (Fresh.acc0 b o).volume = .error (nameErr b) := h.volume_error b hV (hp _) (hp _) _ _
  unfold Acc.calcBody
  rw [ha', hz', hn']
  by_cases hsh : a.shape = []
  · have hpos := hw a ha hsh
    show (if a.shape = [] then _ else _ : Py Arr) = _
    rw [if_pos hsh]
    show (if (a.get []).isPos = true then _ else _ : Py Arr) = _
    rw [if_pos hpos]
    rfl
  · show (if a.shape = [] then _ else _ : Py Arr) = _
    rw [if_neg hsh]
    rfl

/-- The object after a call has the attributes that the call has used. -/
theorem calc_reads {w : World} (hw : Reachable w) {id : ℕ} {o o' : Obj} (ho : w.objs id = some o) (kw : Dict)
    (ho' : (calcOp id kw w).2.objs id = some o') :
    (calcOp id kw w).1 = Fresh.calcAll w.backend (Fresh.update o kw) ∧
      Filled w.backend (Fresh.update o kw) o' ∧
      ∀ p, (Self.evalParam id p (calcOp id kw w).2).1 = Fresh.par w.backend (Fresh.update o kw) p := by
  obtain ⟨h1, h2⟩ := calcOp_eq hw.inv ho kw
  obtain ⟨o2, ho2, hf⟩ := h2.obj
  rw [ho2] at ho'
  cases ho'
  refine ⟨h1, hf, fun p => ?_⟩
  rw [evalParam_eq h2.inv ho2, h2.backend, hf.f_par]
  rfl

/-! ### the property -/

/-- **C15** (partial, see `C15_srf_negation`).  If the definition of tau uses a name that has no
value, `calc` raises a TypeError that names exactly the missing parameters of tau, omega,
NormBRDF, bsf, V and SRF.  Nothing is assumed about angles or shapes. -/
theorem C15_tau_partial {w : World} (hw : Reachable w) {id : ℕ} {o o' : Obj} (ho : w.objs id = some o)
    (kw : Dict) (ho' : (calcOp id kw w).2.objs id = some o') (hl : o'.Lacks .tau) :
    Reported (calcOp id kw w).1 o'.Missing := by
  obtain ⟨h1, hf, -⟩ := calc_reads hw ho kw ho'
  rw [hf.lacks] at hl
  obtain ⟨ns, hb⟩ := body_tau (b := w.backend) hl
  obtain ⟨ns', hn, hiff⟩ := calcAll_typeError hb hl.missing
  exact ⟨ns', h1.trans hn, fun n => (hiff n).trans (hf.missing n).symm⟩

/-- **C15** (partial, see `C15_srf_negation`).  If any of the definitions of tau, omega, NormBRDF
and bsf uses a name that has no value, `calc` raises a TypeError that names exactly the missing
parameters.  V and SRF lack nothing, the angles are set and all shapes fit.  omega is not needed
if tau is a number `≤ 0`. -/
theorem C15_definitions_partial {w : World} (hw : Reachable w) {id : ℕ} {o o' : Obj} (ho : w.objs id = some o)
    (kw : Dict) (ho' : (calcOp id kw w).2.objs id = some o') {S : List ℕ} (hb : Unfilled o' S)
    (hV : ¬ o'.LacksIn o'.V) (hS : ¬ o'.LacksIn o'.SRF) {p : PName} (hl : o'.Lacks p)
    (hpos : p = .omega → ∀ a, (Self.evalParam id .tau (calcOp id kw w).2).1 = .ok a → a.shape = [] →
      (a.get []).isPos = true) :
    Reported (calcOp id kw w).1 o'.Missing := by
  obtain ⟨h1, hf, hpar⟩ := calc_reads hw ho kw ho'
  rw [hf.lacks] at hl
  rw [hf.V, hf.lacksIn] at hV
  rw [hf.SRF, hf.lacksIn] at hS
  rw [hpar] at hpos
  obtain ⟨ns, hb⟩ := body_defs (hf.bare hb) hV hS hl hpos
  obtain ⟨ns', hn, hiff⟩ := calcAll_typeError hb hl.missing
  exact ⟨ns', h1.trans hn, fun n => (hiff n).trans (hf.missing n).symm⟩

/-- **C15** is false for names of SRF.  If SRF uses a name that has no value and tau can be
evaluated, `calc` raises NameError (sympy) or RuntimeError (symengine). -/
theorem C15_srf_negation {w : World} (hw : Reachable w) {id : ℕ} {o o' : Obj} (ho : w.objs id = some o)
    (kw : Dict) (ho' : (calcOp id kw w).2.objs id = some o') {S : List ℕ} (hb : Unfilled o' S)
    (hS : o'.LacksIn o'.SRF) (ht : ¬ o'.Lacks .tau) :
    (calcOp id kw w).1 = .error (match w.backend with
      | .sympy => .nameError
      | .symengine => .runtimeError) := by
  obtain ⟨h1, hf, hpar⟩ := calc_reads hw ho kw ho'
  rw [hf.lacks] at ht
  rw [hf.SRF, hf.lacksIn] at hS
  rw [h1, calcAll_error (body_srf (hf.bare hb) hS ht)]
  · cases w.backend <;> rfl
  · intro ns; cases w.backend <;> simp [nameErr]

/-- **C15** is false for names of V.  If only V uses a name that has no value, `calc` raises
NameError (sympy) or RuntimeError (symengine), unless tau is a number `≤ 0`. -/
theorem C15_volume_negation {w : World} (hw : Reachable w) {id : ℕ} {o o' : Obj} (ho : w.objs id = some o)
    (kw : Dict) (ho' : (calcOp id kw w).2.objs id = some o') {S : List ℕ} (hb : Unfilled o' S)
    (hV : o'.LacksIn o'.V) (hS : ¬ o'.LacksIn o'.SRF) (hd : ∀ p, ¬ o'.Lacks p)
    (hpos : ∀ a, (Self.evalParam id .tau (calcOp id kw w).2).1 = .ok a → a.shape = [] →
      (a.get []).isPos = true) :
    (calcOp id kw w).1 = .error (match w.backend with
      | .sympy => .nameError
      | .symengine => .runtimeError) := by
  obtain ⟨h1, hf, hpar⟩ := calc_reads hw ho kw ho'
  simp only [hf.lacks] at hd
  rw [hf.V, hf.lacksIn] at hV
  rw [hf.SRF, hf.lacksIn] at hS
  rw [hpar] at hpos
  rw [h1, calcAll_error (body_volume (hf.bare hb) hV hS hd hpos)]
  · cases w.backend <;> rfl
  · intro ns; cases w.backend <;> simp [nameErr]

theorem surface_tau {b : Backend} {o : Obj} {S : List ℕ} (h : Unfilled o S) (hS : ¬ o.LacksIn o.SRF) {e : Expr}
    (he : o.pdef .tau = .str e) (hl : ∃ n ∈ e.free, n ∉ o.params.keys) :
    Fresh.surface b o =
      .error (.typeError (e.free.dedup.filter fun k => decide (k ∉ o.params.keys))) := by
  have hp : (Fresh.acc0 b o).par .tau = .error _ := par_str_missing (b := b) he hl
  obtain ⟨a, ha, -⟩ := Succ.mulM (Succ.mulM (h.s_I0 b (Fresh.dVol b o) (Fresh.dSrf b o)) h.s_mu0)
    (h.s_scatter b hS (Fresh.dVol b o) (Fresh.dSrf b o))
  have ha' : mulM (mulM (Fresh.acc0 b o).I0 (Fresh.acc0 b o).mu0) (Fresh.acc0 b o).srfCalc = .ok a := ha
  have hat : (Fresh.acc0 b o).atten =
      .error (.typeError (e.free.dedup.filter fun k => decide (k ∉ o.params.keys))) := by
    unfold Acc.atten
    rw [hp]
    rfl
  unfold Fresh.surface Acc.surface
  rw [ha', hat]
  rfl

/-- **C15** is false for `surface`.  If the definition of tau uses a name that has no value, the
TypeError names the missing parameters of tau; those of other definitions are not named. -/
theorem C15_surface_negation {w : World} (hw : Reachable w) {id : ℕ} {o o' : Obj} (ho : w.objs id = some o)
    (kw : Dict) (ho' : (surface id kw w).2.objs id = some o') {S : List ℕ} (hb : Unfilled o' S)
    (hS : ¬ o'.LacksIn o'.SRF) {e : Expr} (he : o'.pdef .tau = .str e) (hl : o'.Lacks .tau) :
    Reported (surface id kw w).1 fun n => n ∈ e.free ∧ n ∉ o'.params.keys := by
  obtain ⟨h1, h2⟩ := surface_eq hw.inv ho kw
  obtain ⟨o2, ho2, hf⟩ := h2.obj
  rw [ho2] at ho'
  cases ho'
  rw [hf.lacks] at hl
  rw [hf.SRF, hf.lacksIn] at hS
  rw [hf.pdef] at he
  obtain ⟨e', he', n, hn, -, hk⟩ := hl
  rw [he] at he'
  cases he'
  refine ⟨_, h1.trans (surface_tau (hf.bare hb) hS he ⟨n, hn, hk⟩), fun m => ?_⟩
  rw [hf.params]
  simp

/-! ### examples -/

/-- The example object with values for `tau` only. -/
theorem miss_bare (V SRF : Scatter) (q s d : Bool) (I t p τ : ℝ) :
    Unfilled (demoObj V SRF q s d (Arr.lit I) (Arr.lit t) (Arr.lit p) [("tau", Arr.lit τ)]) [1] where
  t0 := ⟨arr1 t, by simp [demoObj, arr1], by simp [arr1, Arr.atleast1d, Arr.lit, Arr.num, Arr.Fits]⟩
  p0 := ⟨arr1 p, by simp [demoObj, arr1], by simp [arr1, Arr.atleast1d, Arr.lit, Arr.num, Arr.Fits]⟩
  tex := Or.inl rfl
  pex := Or.inl rfl
  I0 := by simp [demoObj, Arr.lit, Arr.num]
  params := by
    intro k a hk
    simp only [demoObj, Dict.update, List.foldl, List.map, Dict.set, Dict.get?, List.find?_cons] at hk
    have h1 : Arr.Fits (arr1 τ).shape [1] := by simp [arr1, Arr.atleast1d, Arr.lit, Arr.num, Arr.Fits]
    have h2 : Arr.Fits (Arr.lit 0).shape [1] := by simp [Arr.lit, Arr.num, Arr.Fits]
    by_cases hk1 : "bsf" = k
    · subst hk1; simp at hk; subst hk; exact h2
    · by_cases hk2 : "tau" = k
      · subst hk2; simp at hk; subst hk; exact h1
      · simp [hk1, hk2] at hk
  defs := by
    intro p'
    cases p' <;> simp [demoObj, defaultDefs, Expr.free]

theorem miss_update (V SRF : Scatter) (q s d : Bool) (I t p : Arr) (τ : ℝ) :
    Fresh.update (demoObj V SRF q s d I t p [("tau", Arr.lit τ)]) [] =
      demoObj V SRF q s d I t p [("tau", Arr.lit τ)] := by
  unfold Fresh.update
  simp [demoObj, defaultDefs, Dict.update, Dict.set, Dict.keys]

theorem miss_missing {V SRF : Scatter} (hV : V.Plain) (hS : SRF.Plain) (q s d : Bool) (I t p : Arr) (τ : ℝ)
    (n : String) : (demoObj V SRF q s d I t p [("tau", Arr.lit τ)]).Missing n ↔ n = "omega" ∨ n = "NormBRDF" := by
  constructor
  · rintro ⟨⟨pn, e, he, hn⟩ | hn | hn, h1, h2⟩
    · cases pn <;> simp [demoObj, defaultDefs] at he <;> subst he <;> simp [Expr.free] at hn <;>
        subst hn <;> simp_all [demoObj, Dict.update, Dict.set, Dict.keys]
    · exact absurd (hV n hn) h1
    · exact absurd (hS n hn) h1
  · rintro (rfl | rfl)
    · exact ⟨Or.inl ⟨.omega, .sym "omega", rfl, by simp [Expr.free]⟩, by simp,
        by simp [demoObj, Dict.update, Dict.set, Dict.keys]⟩
    · exact ⟨Or.inl ⟨.NormBRDF, .sym "NormBRDF", rfl, by simp [Expr.free]⟩, by simp,
        by simp [demoObj, Dict.update, Dict.set, Dict.keys]⟩

/-- After `R.calc()` the object still has its angles and parameters. -/
theorem demo_after (b : Backend) {V SRF : Scatter} {q s d : Bool} {I t p : Arr} {kw : Dict}
    (hu : Fresh.update (demoObj V SRF q s d I t p kw) [] = demoObj V SRF q s d I t p kw) :
    ∃ o', (calcOp 0 [] (demoW b V SRF q s d I t p kw)).2.objs 0 = some o' ∧
      Filled b (demoObj V SRF q s d I t p kw) o' ∧
      ∀ pn, (Self.evalParam 0 pn (calcOp 0 [] (demoW b V SRF q s d I t p kw)).2).1 =
        Fresh.par b (demoObj V SRF q s d I t p kw) pn := by
  have ho := demo_objs b V SRF q s d I t p kw
  have hr := demo_reachable b V SRF q s d I t p kw
  have hb := demo_backend b V SRF q s d I t p kw
  generalize demoW b V SRF q s d I t p kw = w at *
  generalize demoObj V SRF q s d I t p kw = o at *
  obtain ⟨h1, h2⟩ := calcOp_eq hr.inv ho []
  obtain ⟨o2, ho2, hf⟩ := h2.obj
  obtain ⟨-, hf', hp⟩ := calc_reads hr ho [] ho2
  rw [hu, hb] at hf'
  rw [hu, hb] at hp
  exact ⟨o2, ho2, hf', hp⟩

theorem Filled.symm {b : Backend} {o o' : Obj} (h : Filled b o o') : Filled b o' o :=
  ⟨h.core.symm, h.fn.symm, h.fnevals.symm⟩

/-- `R = RT1(V, SRF); R.set_geometry(t_0=1, p_0=0); R.update_params(tau=1); R.calc()`: omega and
NormBRDF have no value, and both are reported although NormBRDF is read first. -/
example : ∃ w id o o' S, Reachable w ∧ w.objs id = some o ∧ (calcOp id [] w).2.objs id = some o' ∧ Unfilled o' S ∧
    ¬ o'.LacksIn o'.V ∧ ¬ o'.LacksIn o'.SRF ∧ o'.Lacks .NormBRDF ∧
    Reported (calcOp id [] w).1 (fun n => n = "omega" ∨ n = "NormBRDF") := by
  obtain ⟨o', ho', hf, hp⟩ := demo_after .sympy (miss_update exV exS true false false (Arr.lit 1) (Arr.lit 1)
    (Arr.lit 0) 1)
  have ho := demo_objs .sympy exV exS true false false (Arr.lit 1) (Arr.lit 1) (Arr.lit 0) [("tau", Arr.lit 1)]
  have hr := demo_reachable .sympy exV exS true false false (Arr.lit 1) (Arr.lit 1) (Arr.lit 0) [("tau", Arr.lit 1)]
  have hbare := miss_bare exV exS true false false 1 1 0 1
  have hmiss := miss_missing exV_plain exS_plain true false false (Arr.lit 1) (Arr.lit 1) (Arr.lit 0) 1
  have hV : ¬ (demoObj exV exS true false false (Arr.lit 1) (Arr.lit 1) (Arr.lit 0) [("tau", Arr.lit 1)]).LacksIn exV :=
    fun ⟨n, hn, h1, _⟩ => h1 (exV_plain n hn)
  have hS : ¬ (demoObj exV exS true false false (Arr.lit 1) (Arr.lit 1) (Arr.lit 0) [("tau", Arr.lit 1)]).LacksIn exS :=
    fun ⟨n, hn, h1, _⟩ => h1 (exS_plain n hn)
  have hl : (demoObj exV exS true false false (Arr.lit 1) (Arr.lit 1) (Arr.lit 0) [("tau", Arr.lit 1)]).Lacks
      .NormBRDF :=
    ⟨.sym "NormBRDF", rfl, "NormBRDF", by simp [Expr.free], by simp,
      by simp [demoObj, Dict.update, Dict.set, Dict.keys]⟩
  have hb' := hf.symm.bare hbare
  have hV' : ¬ o'.LacksIn o'.V := by rw [hf.V, hf.lacksIn]; exact hV
  have hS' : ¬ o'.LacksIn o'.SRF := by rw [hf.SRF, hf.lacksIn]; exact hS
  have hl' : o'.Lacks .NormBRDF := by rw [hf.lacks]; exact hl
  refine ⟨_, 0, _, o', [1], hr, ho, ho', hb', hV', hS', hl', ?_⟩
  obtain ⟨ns, h1, h2⟩ := C15_definitions_partial hr ho [] ho' hb' hV' hS' hl' (by intro h; cases h)
  exact ⟨ns, h1, fun n => ((h2 n).trans (hf.missing n)).trans (hmiss n)⟩

/-- An object without parameters. -/
theorem none_bare (V SRF : Scatter) (q s d : Bool) (I t p : ℝ) :
    Unfilled (demoObj V SRF q s d (Arr.lit I) (Arr.lit t) (Arr.lit p) []) [1] where
  t0 := ⟨arr1 t, by simp [demoObj, arr1], by simp [arr1, Arr.atleast1d, Arr.lit, Arr.num, Arr.Fits]⟩
  p0 := ⟨arr1 p, by simp [demoObj, arr1], by simp [arr1, Arr.atleast1d, Arr.lit, Arr.num, Arr.Fits]⟩
  tex := Or.inl rfl
  pex := Or.inl rfl
  I0 := by simp [demoObj, Arr.lit, Arr.num]
  params := by
    intro k a hk
    simp only [demoObj, Dict.update, List.foldl, List.map, Dict.get?, List.find?_cons] at hk
    have h2 : Arr.Fits (Arr.lit 0).shape [1] := by simp [Arr.lit, Arr.num, Arr.Fits]
    by_cases hk1 : "bsf" = k
    · subst hk1; simp at hk; subst hk; exact h2
    · simp [hk1] at hk
  defs := by
    intro p'
    cases p' <;> simp [demoObj, defaultDefs, Expr.free]

theorem none_update (V SRF : Scatter) (q s d : Bool) (I t p : Arr) :
    Fresh.update (demoObj V SRF q s d I t p []) [] = demoObj V SRF q s d I t p [] := by
  unfold Fresh.update
  simp [demoObj, defaultDefs, Dict.update, Dict.keys]

theorem none_lacks (V SRF : Scatter) (q s d : Bool) (I t p : Arr) :
    (demoObj V SRF q s d I t p []).Lacks .tau ∧ (demoObj V SRF q s d I t p []).Lacks .NormBRDF :=
  ⟨⟨.sym "tau", rfl, "tau", by simp [Expr.free], by simp, by simp [demoObj, Dict.update, Dict.keys]⟩,
    ⟨.sym "NormBRDF", rfl, "NormBRDF", by simp [Expr.free], by simp, by simp [demoObj, Dict.update, Dict.keys]⟩⟩

/-- The hypotheses of `C15_tau_partial` are met by an object without parameters. -/
example : ∃ w id o o', Reachable w ∧ w.objs id = some o ∧ (calcOp id [] w).2.objs id = some o' ∧
    o'.Lacks .tau ∧ Reported (calcOp id [] w).1 o'.Missing ∧ o'.Missing "NormBRDF" := by
  obtain ⟨o', ho', hf, hp⟩ := demo_after .sympy (none_update exV exS true false false (Arr.lit 1) (Arr.lit 1)
    (Arr.lit 0))
  have ho := demo_objs .sympy exV exS true false false (Arr.lit 1) (Arr.lit 1) (Arr.lit 0) []
  have hr := demo_reachable .sympy exV exS true false false (Arr.lit 1) (Arr.lit 1) (Arr.lit 0) []
  obtain ⟨hl, e, he, n, hn, h1, h2⟩ := none_lacks exV exS true false false (Arr.lit 1) (Arr.lit 1) (Arr.lit 0)
  have hl' : o'.Lacks .tau := (hf.lacks _).mpr hl
  refine ⟨_, 0, _, o', hr, ho, ho', hl', C15_tau_partial hr ho [] ho' hl', (hf.missing _).mpr ?_⟩
  exact ⟨Or.inl ⟨.NormBRDF, .sym "NormBRDF", rfl, by simp [Expr.free]⟩, by simp,
    by simp [demoObj, Dict.update, Dict.keys]⟩

/-- **C15** is false for `surface()`: tau and NormBRDF have no value, both are needed, only tau is
named. -/
theorem C15_surface_counterexample : ∃ w id o o', Reachable w ∧ w.objs id = some o ∧
    (surface id [] w).2.objs id = some o' ∧ o'.Lacks .tau ∧ o'.Lacks .NormBRDF ∧
    Reported (surface id [] w).1 (fun n => n = "tau") := by
  have ho := demo_objs .sympy exV exS true false false (Arr.lit 1) (Arr.lit 1) (Arr.lit 0) []
  have hr := demo_reachable .sympy exV exS true false false (Arr.lit 1) (Arr.lit 1) (Arr.lit 0) []
  have hb := demo_backend .sympy exV exS true false false (Arr.lit 1) (Arr.lit 1) (Arr.lit 0) []
  have hbare := none_bare exV exS true false false 1 1 0
  obtain ⟨hl1, hl2⟩ := none_lacks exV exS true false false (Arr.lit 1) (Arr.lit 1) (Arr.lit 0)
  have hu := none_update exV exS true false false (Arr.lit 1) (Arr.lit 1) (Arr.lit 0)
  have hS : ¬ (demoObj exV exS true false false (Arr.lit 1) (Arr.lit 1) (Arr.lit 0) []).LacksIn
      (demoObj exV exS true false false (Arr.lit 1) (Arr.lit 1) (Arr.lit 0) []).SRF :=
    fun ⟨n, hn, h1, _⟩ => h1 (exS_plain n hn)
  have hd : (demoObj exV exS true false false (Arr.lit 1) (Arr.lit 1) (Arr.lit 0) []).pdef .tau =
    .str (.sym "tau") := rfl
  have hk : "tau" ∉ (demoObj exV exS true false false (Arr.lit 1) (Arr.lit 1) (Arr.lit 0) []).params.keys := by
    simp [demoObj, Dict.update, Dict.keys]
  generalize demoW .sympy exV exS true false false (Arr.lit 1) (Arr.lit 1) (Arr.lit 0) [] = w at *
  generalize demoObj exV exS true false false (Arr.lit 1) (Arr.lit 1) (Arr.lit 0) [] = o at *
  obtain ⟨-, h2⟩ := surface_eq hr.inv ho []
  obtain ⟨o', ho', hf⟩ := h2.obj
  rw [hu] at hf
  have hl1' : o'.Lacks .tau := (hf.lacks _).mpr hl1
  refine ⟨w, 0, o, o', hr, ho, ho', hl1', (hf.lacks _).mpr hl2, ?_⟩
  obtain ⟨ns, e1, e2⟩ := C15_surface_negation hr ho [] ho' (hf.symm.bare hbare)
    (by rw [hf.SRF, hf.lacksIn]; exact hS) (e := .sym "tau") (by rw [hf.pdef]; exact hd) hl1'
  refine ⟨ns, e1, fun n => (e2 n).trans ?_⟩
  rw [hf.params]
  constructor
  · rintro ⟨h, -⟩; simpa [Expr.free] using h
  · rintro rfl; exact ⟨by simp [Expr.free], hk⟩

/-- A Henyey-Greenstein phase function with the asymmetry parameter `t`. -/
def missV : Scatter := .prim (.volHG (.sym "t")) volA none

/-- **C15** is false as stated.  The volume phase function needs a value for `t`, all other
parameters have values; `calc` raises NameError with sympy, not a TypeError that names `t`. -/
theorem C15_counterexample : ∃ w id o o', Reachable w ∧ w.objs id = some o ∧
    (calcOp id [] w).2.objs id = some o' ∧ (∀ n, o'.Missing n ↔ n = "t") ∧
    (calcOp id [] w).1 = .error .nameError := by
  obtain ⟨o', ho', hf, hp⟩ := demo_after .sympy (demo_update missV exS true false false (Arr.lit 1) (Arr.lit 1)
    (Arr.lit 0) 1 (1/2) 1 0)
  have ho := demo_objs .sympy missV exS true false false (Arr.lit 1) (Arr.lit 1) (Arr.lit 0) (demoKw 1 (1/2) 1 0)
  have hr := demo_reachable .sympy missV exS true false false (Arr.lit 1) (Arr.lit 1) (Arr.lit 0) (demoKw 1 (1/2) 1 0)
  have hbk := demo_backend .sympy missV exS true false false (Arr.lit 1) (Arr.lit 1) (Arr.lit 0) (demoKw 1 (1/2) 1 0)
  have hpar := demo_params missV exS true false false (Arr.lit 1) (Arr.lit 1) (Arr.lit 0) 1 (1/2) 1 0
  have hk : ∀ n, n ∈ (demoObj missV exS true false false (Arr.lit 1) (Arr.lit 1) (Arr.lit 0)
      (demoKw 1 (1/2) 1 0)).params.keys ↔ n = "bsf" ∨ n = "tau" ∨ n = "omega" ∨ n = "NormBRDF" := by
    intro n; rw [hpar]; simp [Dict.keys]
  have hfree : ∀ n, n ∈ missV.phase.free → n = "t" ∨ n ∈ ["theta_0", "theta_ex", "phi_0", "phi_ex"] := by
    intro n hn
    simp [missV, Scatter.phase, Scatter.primPhase, Scatter.hgExpr, Scatter.angleExpr, volA, Expr.free] at hn ⊢
    tauto
  have ht : "t" ∈ missV.phase.free := by
    simp [missV, Scatter.phase, Scatter.primPhase, Scatter.hgExpr, Expr.free]
  have hbare : Unfilled (demoObj missV exS true false false (Arr.lit 1) (Arr.lit 1) (Arr.lit 0)
      (demoKw 1 (1/2) 1 0)) [1] := by
    have hc := demo_complete exV_plain exS_plain true false false 1 1 0 1 (1/2) 1 0
    refine ⟨hc.t0, hc.p0, hc.tex, hc.pex, hc.I0, hc.params, fun p' => ?_⟩
    cases p' <;> simp [demoObj, defaultDefs, Expr.free]
  generalize hobj : demoObj missV exS true false false (Arr.lit 1) (Arr.lit 1) (Arr.lit 0)
      (demoKw 1 (1/2) 1 0) = o at *
  have hd : o.pdef = defaultDefs := by rw [← hobj]; rfl
  have hV : o.V = missV := by rw [← hobj]; rfl
  have hS : o.SRF = exS := by rw [← hobj]; rfl
  have hlacks : ∀ p, ¬ o.Lacks p := by
    rintro p ⟨e, he, n, hn, h1, h2⟩
    rw [hk] at h2
    rw [hd] at he
    cases p <;> simp [defaultDefs] at he <;> subst he <;> simp [Expr.free] at hn <;> subst hn <;> simp at h2
  have hmiss : ∀ n, o.Missing n ↔ n = "t" := by
    intro n
    constructor
    · rintro ⟨⟨pn, e, he, hn⟩ | hn | hn, h1, h2⟩
      · exact absurd ⟨e, he, n, hn, h1, h2⟩ (hlacks pn)
      · rw [hV] at hn
        rcases hfree n hn with h | h
        · exact h
        · exact absurd h h1
      · rw [hS] at hn
        exact absurd (exS_plain n hn) h1
    · rintro rfl
      refine ⟨Or.inr (Or.inl (by rw [hV]; exact ht)), by simp, ?_⟩
      rw [hk]; simp
  refine ⟨_, 0, o, o', hr, ho, ho', fun n => (hf.missing n).trans (hmiss n), ?_⟩
  have h := C15_volume_negation hr ho [] ho' (hf.symm.bare hbare) ?_ ?_ ?_ ?_
  · rw [h, hbk]
  · rw [hf.V, hf.lacksIn, hV]
    refine ⟨"t", ht, by simp, ?_⟩
    rw [hk]; simp
  · rw [hf.SRF, hf.lacksIn, hS]
    exact fun ⟨n, hn, h1, _⟩ => h1 (exS_plain n hn)
  · intro p; rw [hf.lacks]; exact hlacks p
  · intro a ha hsh
    rw [hp] at ha
    have hv := PW.parStr (b := .sympy) (o := o) (p := .tau) (e := .sym "tau") (by rw [hd]; rfl) [] a ha
    have h1 : (arr1 1).at' [] = XR.fin 1 := by unfold arr1; rw [Arr.at'_atleast1d]; rfl
    rw [hpar] at hv
    have hv' : a.at' [] = XR.fin 1 := by
      rw [hv]; simp [Expr.evalX, Dict.valAt, Dict.get?, h1]
    have ha0 : a.at' [] = a.get [] := by
      unfold Arr.at'; rw [hsh]; rfl
    rw [← ha0, hv']
    simp [XR.isPos]

/-- A surface function with the parameter `t`. -/
def missS : Scatter := .prim (.srfHG (.sym "t")) srfA none

/-- The hypotheses of `C15_srf_negation` are met: `t` of SRF has no value, with symengine. -/
example : ∃ w id o o' S, Reachable w ∧ w.objs id = some o ∧ (calcOp id [] w).2.objs id = some o' ∧ Unfilled o' S ∧
    o'.LacksIn o'.SRF ∧ ¬ o'.Lacks .tau ∧ (calcOp id [] w).1 = .error .runtimeError := by
  obtain ⟨o', ho', hf, hp⟩ := demo_after .symengine (miss_update exV missS true false false (Arr.lit 1) (Arr.lit 1)
    (Arr.lit 0) 1)
  have ho := demo_objs .symengine exV missS true false false (Arr.lit 1) (Arr.lit 1) (Arr.lit 0) [("tau", Arr.lit 1)]
  have hr := demo_reachable .symengine exV missS true false false (Arr.lit 1) (Arr.lit 1) (Arr.lit 0) [("tau", Arr.lit 1)]
  have hbk := demo_backend .symengine exV missS true false false (Arr.lit 1) (Arr.lit 1) (Arr.lit 0) [("tau", Arr.lit 1)]
  have hbare := hf.symm.bare (miss_bare exV missS true false false 1 1 0 1)
  have hS : (demoObj exV missS true false false (Arr.lit 1) (Arr.lit 1) (Arr.lit 0) [("tau", Arr.lit 1)]).LacksIn missS :=
    ⟨"t", by simp [missS, Scatter.phase, Scatter.primPhase, Scatter.hgExpr, Expr.free], by simp,
      by simp [demoObj, Dict.update, Dict.set, Dict.keys]⟩
  have ht : ¬ (demoObj exV missS true false false (Arr.lit 1) (Arr.lit 1) (Arr.lit 0) [("tau", Arr.lit 1)]).Lacks .tau := by
    rintro ⟨e, he, n, hn, h1, h2⟩
    simp [demoObj, defaultDefs] at he
    subst he
    simp [Expr.free] at hn
    subst hn
    simp [demoObj, Dict.update, Dict.set, Dict.keys] at h2
  have hS' : o'.LacksIn o'.SRF := by rw [hf.SRF, hf.lacksIn]; exact hS
  have ht' : ¬ o'.Lacks .tau := by rw [hf.lacks]; exact ht
  refine ⟨_, 0, _, o', [1], hr, ho, ho', hbare, hS', ht', ?_⟩
  rw [C15_srf_negation hr ho [] ho' hbare hS' ht', hbk]

end

end RT1
