import Verif.Lemmas.Shape
import Verif.Lemmas.ParL
import Verif.Lemmas.FnL

/-! Evaluation of objects whose parameters are not all defined. -/

namespace RT1

noncomputable section
open Classical

local notation "angles" => ["theta_0", "theta_ex", "phi_0", "phi_ex"]

/-- A complete object with the same angles. -/
def Obj.filledIn (o : Obj) : Obj :=
  { o with
    pdef := fun _ => .val (Arr.lit 0)
    V := .prim .volIsotropic volA none
    SRF := .prim .srfIsotropic srfA none }

theorem Unfilled.complete {o : Obj} {S : List ℕ} (h : Unfilled o S) : Complete o.filledIn S where
  t0 := h.t0
  p0 := h.p0
  tex := h.tex
  pex := h.pex
  I0 := h.I0
  params := h.params
  defs := fun p => by simp [Obj.filledIn, Arr.lit, Arr.num]
  V := fun n hn => by cases hn
  SRF := fun n hn => by cases hn

/-- Success, or a TypeError. -/
def SuccT (x : Py Arr) (S : List ℕ) : Prop := Succ x S ∨ ∃ ns, x = .error (.typeError ns)

namespace SuccT
variable {x y : Py Arr} {S : List ℕ}

theorem of (h : Succ x S) : SuccT x S := Or.inl h
theorem pure {a : Arr} (h : Arr.Fits a.shape S) : SuccT (Pure.pure a) S := Or.inl (Succ.pure h)

theorem bind {f : Arr → Py Arr} (hx : SuccT x S) (h : ∀ a, Arr.Fits a.shape S → SuccT (f a) S) :
    SuccT (x >>= f) S := by
  rcases hx with ⟨a, rfl, ha⟩ | ⟨ns, rfl⟩
  · exact h a ha
  · exact Or.inr ⟨ns, rfl⟩

theorem mulM (hx : SuccT x S) (hy : SuccT y S) : SuccT (RT1.mulM x y) S :=
  bind hx fun _ ha => bind hy fun _ hb => of (Succ.lift (Succ.map2 ha hb))
theorem divM (hx : SuccT x S) (hy : SuccT y S) : SuccT (RT1.divM x y) S :=
  bind hx fun _ ha => bind hy fun _ hb => of (Succ.lift (Succ.map2 ha hb))
theorem addM (hx : SuccT x S) (hy : SuccT y S) : SuccT (RT1.addM x y) S :=
  bind hx fun _ ha => bind hy fun _ hb => of (Succ.lift (Succ.map2 ha hb))
theorem subM (hx : SuccT x S) (hy : SuccT y S) : SuccT (RT1.subM x y) S :=
  bind hx fun _ ha => bind hy fun _ hb => of (Succ.lift (Succ.map2 ha hb))
theorem mapM' {f : XR → XR} (hx : SuccT x S) : SuccT (RT1.mapM' f x) S :=
  bind hx fun _ ha => pure ha
theorem negM (hx : SuccT x S) : SuccT (RT1.negM x) S := mapM' hx
theorem expM (hx : SuccT x S) : SuccT (RT1.expM x) S := mapM' hx

end SuccT

theorem Complete.par_of {o : Obj} {S : List ℕ} (b : Backend)
    (hparams : ∀ k a, o.params.get? k = some a → Arr.Fits a.shape S) {p : PName}
    (hd : match o.pdef p with
      | .val a => Arr.Fits a.shape S
      | .str e => ∀ s ∈ e.free, s ∈ o.params.keys
      | .basic e => e.free = []) : Succ (Fresh.par b o p) S := by
  cases hp : o.pdef p with
  | val a => rw [hp] at hd; rw [par_val hp]; exact Succ.of_ok hd
  | str e =>
    rw [hp] at hd
    refine par_str_ok hp fun k hk => ?_
    obtain ⟨a, ha⟩ := Dict.get?_of_mem (hd k hk)
    exact ⟨a, ha, hparams k a ha⟩
  | basic e =>
    rw [hp] at hd
    have hd' : e.free = [] := hd
    have hfree : ∀ s ∈ e.free, s ∈ ([] : List String) := by rw [hd']; simp
    unfold Fresh.par Fresh.pfun Fresh.symbs
    rw [hp]
    simp only
    rw [Lam.compile_of_free hfree]
    have hs : Succ (Lam.call b ⟨[], e⟩ [] []) S := by
      refine Lam.call_succ (vars := []) (Lam.compile_of_free hfree) hfree (by simp) (by simp) ?_ ?_ ?_
      · intro k a hk; simp [Dict.get?] at hk
      · intro k hk; simp [Dict.keys] at hk
      · intro k hk; simp at hk
    obtain ⟨z, hz, hf⟩ := hs
    refine ⟨z, ?_, hf⟩
    show tryCatch (Lam.call b ⟨[], e⟩ [] []) _ = _
    rw [hz]
    rfl

namespace Unfilled
variable {o : Obj} {S : List ℕ} (h : Unfilled o S)
include h

theorem s_t0 : Succ (Fresh.ang o .t0) S := h.complete.s_t0
theorem s_mu0 : Succ (Fresh.mu0 o) S := h.complete.s_mu0
theorem s_muEx : Succ (Fresh.muEx o) S := h.complete.s_muEx
theorem s_I0 (b : Backend) (dv ds : String → Py Lam) : Succ (Fresh.acc b o dv ds).I0 S := Succ.of_ok h.I0

/-- A parameter that lacks nothing can be evaluated, any other raises TypeError. -/
theorem par_ok (b : Backend) {p : PName} (hp : ¬ o.Lacks p) : Succ (Fresh.par b o p) S := by
  refine Complete.par_of b h.params ?_
  have hd := h.defs p
  cases he : o.pdef p with
  | val a => rw [he] at hd; exact hd
  | basic e => rw [he] at hd; exact hd
  | str e =>
    rw [he] at hd
    intro n hn
    by_contra hc
    exact hp ⟨e, he, n, hn, hd n hn, hc⟩

omit h in
theorem par_lacks (b : Backend) {p : PName} (hp : o.Lacks p) :
    ∃ ns, Fresh.par b o p = .error (.typeError ns) := by
  obtain ⟨e, he, n, hn, -, hk⟩ := hp
  exact ⟨_, par_str_missing he ⟨n, hn, hk⟩⟩

theorem t_par (b : Backend) (p : PName) : SuccT (Fresh.par b o p) S := by
  by_cases hp : o.Lacks p
  · exact Or.inr (par_lacks b hp)
  · exact Or.inl (h.par_ok b hp)

theorem s_scatter (b : Backend) {s : Scatter} (hs : ¬ o.LacksIn s) (dv ds : String → Py Lam) :
    Succ (do
      let a ← (Fresh.acc b o dv ds).t0
      let b' ← (Fresh.acc b o dv ds).tex
      let c ← (Fresh.acc b o dv ds).p0
      let d ← (Fresh.acc b o dv ds).pex
      let pd ← (Fresh.acc b o dv ds).params
      liftPy (s.calcVal b a b' c d pd)) S := by
  obtain ⟨a1, e1, f1⟩ := h.complete.s_t0
  obtain ⟨a2, e2, f2⟩ := h.complete.s_tex
  obtain ⟨a3, e3, f3⟩ := h.complete.s_p0
  obtain ⟨a4, e4, f4⟩ := h.complete.s_pex
  have hfree : ∀ n ∈ s.phase.free, n ∈ angles ++ o.params.keys := by
    intro n hn
    by_contra hc
    rw [List.mem_append, not_or] at hc
    exact hs ⟨n, hn, hc.1, hc.2⟩
  show Succ ((do
    let a ← Fresh.ang o.filledIn .t0
    let b' ← Fresh.tex o.filledIn
    let c ← Fresh.ang o.filledIn .p0
    let d ← Fresh.pex o.filledIn
    liftPy (s.calcVal b a b' c d o.params)) : Py Arr) S
  rw [e1, e2, e3, e4]
  exact Succ.lift (h.complete.s_calcVal b hfree f1 f2 f3 f4)

theorem t_atten (b : Backend) (dv ds : String → Py Lam) : SuccT (Fresh.acc b o dv ds).atten S :=
  SuccT.expM (SuccT.subM (SuccT.negM (SuccT.divM (h.t_par b .tau) (.of h.s_mu0)))
    (SuccT.divM (h.t_par b .tau) (.of h.s_muEx)))

theorem t_surface (b : Backend) (dv ds : String → Py Lam) (hs : ¬ o.LacksIn o.SRF) :
    SuccT (Fresh.acc b o dv ds).surface S := by
  unfold Acc.surface
  refine SuccT.bind (.of (Succ.mulM (Succ.mulM (h.s_I0 b dv ds) h.s_mu0) (h.s_scatter b hs dv ds)))
    fun a1 h1 => ?_
  refine SuccT.bind (SuccT.mulM (h.t_atten b dv ds) (.pure h1)) fun a2 h2 => ?_
  exact SuccT.mulM (h.t_par b _) (SuccT.addM (SuccT.mulM (SuccT.subM (.of (Succ.lit 1)) (h.t_par b _)) (.pure h2))
    (SuccT.mulM (h.t_par b _) (.pure h1)))

theorem t_volume (b : Backend) (dv ds : String → Py Lam) (hs : ¬ o.LacksIn o.V) :
    SuccT (Fresh.acc b o dv ds).volume S := by
  unfold Acc.volume
  refine SuccT.bind (SuccT.mulM (SuccT.mulM (SuccT.divM (SuccT.mulM (SuccT.mulM (.of (h.s_I0 b dv ds))
    (h.t_par b .omega)) (.of h.s_mu0)) (SuccT.addM (.of h.s_mu0) (.of h.s_muEx))) (SuccT.subM (.of (Succ.lit 1))
    (h.t_atten b dv ds))) (.of (h.s_scatter b hs dv ds))) fun a1 h1 => ?_
  exact SuccT.mulM (SuccT.subM (.of (Succ.lit 1)) (h.t_par b _)) (.pure h1)

end Unfilled

/-! ### what a successful evaluation has read -/

theorem mulM_ok {x y : Py Arr} {z : Arr} (h : mulM x y = .ok z) : (∃ a, x = .ok a) ∧ ∃ b, y = .ok b := by
  obtain ⟨a, ha, h⟩ := ok_bind h
  obtain ⟨b, hb, h⟩ := ok_bind h
  exact ⟨⟨a, ha⟩, b, hb⟩
theorem divM_ok {x y : Py Arr} {z : Arr} (h : divM x y = .ok z) : (∃ a, x = .ok a) ∧ ∃ b, y = .ok b := by
  obtain ⟨a, ha, h⟩ := ok_bind h
  obtain ⟨b, hb, h⟩ := ok_bind h
  exact ⟨⟨a, ha⟩, b, hb⟩
theorem addM_ok {x y : Py Arr} {z : Arr} (h : addM x y = .ok z) : (∃ a, x = .ok a) ∧ ∃ b, y = .ok b := by
  obtain ⟨a, ha, h⟩ := ok_bind h
  obtain ⟨b, hb, h⟩ := ok_bind h
  exact ⟨⟨a, ha⟩, b, hb⟩
theorem subM_ok {x y : Py Arr} {z : Arr} (h : subM x y = .ok z) : (∃ a, x = .ok a) ∧ ∃ b, y = .ok b := by
  obtain ⟨a, ha, h⟩ := ok_bind h
  obtain ⟨b, hb, h⟩ := ok_bind h
  exact ⟨⟨a, ha⟩, b, hb⟩

theorem not_lacks_of_ok {b : Backend} {o : Obj} {p : PName} {a : Arr} (h : Fresh.par b o p = .ok a) :
    ¬ o.Lacks p := by
  intro hp
  obtain ⟨ns, hn⟩ := Unfilled.par_lacks b hp
  rw [hn] at h
  cases h

theorem surface_ok_reads {b : Backend} {o : Obj} {dv ds : String → Py Lam} {z : Arr}
    (h : (Fresh.acc b o dv ds).surface = .ok z) : ¬ o.Lacks .NormBRDF ∧ ¬ o.Lacks .bsf := by
  unfold Acc.surface at h
  obtain ⟨a, -, h⟩ := ok_bind h
  obtain ⟨a2, -, h⟩ := ok_bind h
  obtain ⟨⟨n, hn⟩, v, hv⟩ := mulM_ok h
  obtain ⟨-, v2, hv2⟩ := addM_ok hv
  obtain ⟨⟨β, hβ⟩, -⟩ := mulM_ok hv2
  exact ⟨not_lacks_of_ok hn, not_lacks_of_ok hβ⟩

theorem volume_ok_reads {b : Backend} {o : Obj} {dv ds : String → Py Lam} {z : Arr}
    (h : (Fresh.acc b o dv ds).volume = .ok z) : ¬ o.Lacks .omega := by
  unfold Acc.volume at h
  obtain ⟨a, ha, h⟩ := ok_bind h
  obtain ⟨⟨x, hx⟩, -⟩ := mulM_ok ha
  obtain ⟨⟨x2, hx2⟩, -⟩ := mulM_ok hx
  obtain ⟨⟨x3, hx3⟩, -⟩ := divM_ok hx2
  obtain ⟨⟨x4, hx4⟩, -⟩ := mulM_ok hx3
  obtain ⟨-, x5, hx5⟩ := mulM_ok hx4
  exact not_lacks_of_ok hx5

/-! ### the exception handler -/

theorem mem_missing {b : Backend} {o : Obj} {dv ds : String → Py Lam} :
    ∃ ns, (Fresh.acc b o dv ds).missingNames = .ok ns ∧ ∀ n, n ∈ ns ↔ o.Missing n := by
  refine ⟨_, rfl, fun n => ?_⟩
  show n ∈ ((Fresh.symbs o .tau ++ Fresh.symbs o .omega ++ Fresh.symbs o .NormBRDF ++ Fresh.symbs o .bsf ++
    o.V.phase.free ++ o.SRF.phase.free).filter fun k =>
      decide (k ∉ ["phi_0", "phi_ex", "theta_0", "theta_ex"] ∧ k ∉ o.params.keys)) ↔ _
  have hsym : ∀ p, n ∈ Fresh.symbs o p ↔ ∃ e, o.pdef p = .str e ∧ n ∈ e.free := by
    intro p
    unfold Fresh.symbs
    cases o.pdef p with
    | val a => simp
    | str e => simp
    | basic e => simp
  have hang : n ∉ ["phi_0", "phi_ex", "theta_0", "theta_ex"] ↔ n ∉ angles := by
    simp only [List.mem_cons, List.not_mem_nil, or_false]
    tauto
  rw [List.mem_filter, decide_eq_true_eq, hang]
  simp only [List.mem_append, hsym]
  unfold Obj.Missing Obj.UsedInDef
  refine and_congr_left fun _ => ?_
  rw [or_assoc]
  refine or_congr_left ?_
  constructor
  · rintro (((h | h) | h) | h)
    · exact ⟨_, h⟩
    · exact ⟨_, h⟩
    · exact ⟨_, h⟩
    · exact ⟨_, h⟩
  · rintro ⟨p, h⟩
    cases p
    · exact Or.inl (Or.inl (Or.inl h))
    · exact Or.inl (Or.inl (Or.inr h))
    · exact Or.inl (Or.inr h)
    · exact Or.inr h

/-- A TypeError of the body is replaced by one that names the missing parameters. -/
theorem calcAll_typeError {b : Backend} {o : Obj} {ns : List String}
    (h : (Fresh.acc0 b o).calcBody = .error (.typeError ns)) (hm : ∃ n, o.Missing n) :
    ∃ ns', Fresh.calcAll b o = .error (.typeError ns') ∧ ∀ n, n ∈ ns' ↔ o.Missing n := by
  obtain ⟨names, h1, h2⟩ := mem_missing (b := b) (o := o) (dv := Fresh.dVol b o) (ds := Fresh.dSrf b o)
  refine ⟨names, ?_, h2⟩
  unfold Fresh.calcAll Acc.calcTry
  rw [h]
  show ((Fresh.acc0 b o).missingNames >>= fun names => if names ≠ [] then throw (.typeError names) else _) = _
  rw [show (Fresh.acc0 b o).missingNames = .ok names from h1]
  show (if names ≠ [] then _ else _) = _
  have hne : names ≠ [] := by
    obtain ⟨n, hn⟩ := hm
    intro h0
    have := (h2 n).mpr hn
    rw [h0] at this; cases this
  rw [if_pos hne]
  rfl

theorem calcAll_error {b : Backend} {o : Obj} {e : PyErr} (h : (Fresh.acc0 b o).calcBody = .error e)
    (he : ∀ ns, e ≠ .typeError ns) : Fresh.calcAll b o = .error e := by
  unfold Fresh.calcAll Acc.calcTry
  rw [h]
  cases e with
  | typeError ns => exact absurd rfl (he ns)
  | _ => rfl

theorem Obj.Lacks.missing {o : Obj} {p : PName} (h : o.Lacks p) : ∃ n, o.Missing n := by
  obtain ⟨e, he, n, hn, h1, h2⟩ := h
  exact ⟨n, Or.inl ⟨p, e, he, hn⟩, h1, h2⟩

/-! ### scattering functions -/

/-- The exception that the backends raise for an unknown name in a scattering function. -/
def nameErr : Backend → PyErr
  | .sympy => .nameError
  | .symengine => .runtimeError

theorem Unfilled.scatter_error {o : Obj} {S : List ℕ} (h : Unfilled o S) (b : Backend) {s : Scatter} (hs : o.LacksIn s)
    (dv ds : String → Py Lam) : (do
      let a ← (Fresh.acc b o dv ds).t0
      let b' ← (Fresh.acc b o dv ds).tex
      let c ← (Fresh.acc b o dv ds).p0
      let d ← (Fresh.acc b o dv ds).pex
      let pd ← (Fresh.acc b o dv ds).params
      liftPy (s.calcVal b a b' c d pd) : Py Arr) = .error (nameErr b) := by
  obtain ⟨a1, e1, f1⟩ := h.complete.s_t0
  obtain ⟨a2, e2, f2⟩ := h.complete.s_tex
  obtain ⟨a3, e3, f3⟩ := h.complete.s_p0
  obtain ⟨a4, e4, f4⟩ := h.complete.s_pex
  obtain ⟨n, hn, hang, hk⟩ := hs
  have hnot : n ∉ angles ++ o.params.keys := by
    rw [List.mem_append, not_or]; exact ⟨hang, hk⟩
  show ((do
    let a ← Fresh.ang o.filledIn .t0
    let b' ← Fresh.tex o.filledIn
    let c ← Fresh.ang o.filledIn .p0
    let d ← Fresh.pex o.filledIn
    liftPy (s.calcVal b a b' c d o.params)) : Py Arr) = _
  rw [e1, e2, e3, e4]
  have key : s.calcVal b a1 a2 a3 a4 o.params = .error (nameErr b) := by
    unfold Scatter.calcVal
    cases b with
    | symengine =>
      simp only [Lam.compile]
      rw [if_neg fun hc => hnot (hc n hn)]
      rfl
    | sympy =>
      have hd : Succ (Lam.call .sympy ⟨angles ++ o.params.keys, .num 0⟩ [a1, a2, a3, a4] o.params) S := by
        refine Lam.call_succ (vars := angles ++ o.params.keys) (e := .num 0) rfl (by simp [Expr.free]) (by simp)
          ?_ h.params ?_ ?_
        · intro a ha
          simp only [List.mem_cons, List.not_mem_nil, or_false] at ha
          rcases ha with rfl | rfl | rfl | rfl <;> assumption
        · intro k hk; simpa using hk
        · intro k hk; simpa using hk
      obtain ⟨z, hz, -⟩ := hd
      obtain ⟨bnd, hb, -⟩ := ok_bind hz
      show Lam.call .sympy ⟨angles ++ o.params.keys, s.phase⟩ [a1, a2, a3, a4] o.params = _
      unfold Lam.call
      have hb' : Lam.bindArgs .sympy (angles ++ o.params.keys) [a1, a2, a3, a4] o.params = .ok bnd := hb
      show (Lam.bindArgs .sympy (angles ++ o.params.keys) [a1, a2, a3, a4] o.params >>= fun bnd =>
        Lam.evalBound .sympy s.phase bnd) = _
      rw [hb']
      show Lam.evalBound .sympy s.phase bnd = _
      obtain ⟨vals, -, rfl⟩ := Lam.bindArgs_ok hb'
      simp only [Lam.evalBound]
      rw [if_neg]
      · rfl
      · intro hc
        have := hc n hn
        rw [List.mem_map] at this
        obtain ⟨⟨k, v⟩, hp, hkn⟩ := this
        have hkn : k = n := hkn
        subst hkn
        exact hnot (List.of_mem_zip hp).1
  rw [show (do
    let a ← (Except.ok a1 : Py Arr)
    let b' ← (Except.ok a2 : Py Arr)
    let c ← (Except.ok a3 : Py Arr)
    let d ← (Except.ok a4 : Py Arr)
    liftPy (s.calcVal b a b' c d o.params) : Py Arr) = liftPy (s.calcVal b a1 a2 a3 a4 o.params) from rfl, key]
  rfl

/-- An unknown name in the BRDF: `_surface` raises the error of the backend. -/
theorem Unfilled.surface_error {o : Obj} {S : List ℕ} (h : Unfilled o S) (b : Backend) (hs : o.LacksIn o.SRF)
    (dv ds : String → Py Lam) : (Fresh.acc b o dv ds).surface = .error (nameErr b) := by
  unfold Acc.surface
  have hsrf : (Fresh.acc b o dv ds).srfCalc = .error (nameErr b) := h.scatter_error b hs dv ds
  obtain ⟨a, ha, -⟩ := Succ.mulM (h.s_I0 b dv ds) h.s_mu0
  have ha' : mulM (Fresh.acc b o dv ds).I0 (Fresh.acc b o dv ds).mu0 = .ok a := ha
  have e : mulM (mulM (Fresh.acc b o dv ds).I0 (Fresh.acc b o dv ds).mu0) (Fresh.acc b o dv ds).srfCalc =
      .error (nameErr b) := by
    rw [ha', hsrf]; rfl
  rw [e]
  rfl

/-- An unknown name in the volume phase function. -/
theorem Unfilled.volume_error {o : Obj} {S : List ℕ} (h : Unfilled o S) (b : Backend) (hs : o.LacksIn o.V)
    (ht : ¬ o.Lacks .tau) (hw : ¬ o.Lacks .omega)
    (dv ds : String → Py Lam) : (Fresh.acc b o dv ds).volume = .error (nameErr b) := by
  unfold Acc.volume
  have hv : (Fresh.acc b o dv ds).vCalc = .error (nameErr b) := h.scatter_error b hs dv ds
  have hatt : Succ (Fresh.acc b o dv ds).atten S :=
    Succ.expM (Succ.subM (Succ.negM (Succ.divM (h.par_ok b ht) h.s_mu0)) (Succ.divM (h.par_ok b ht) h.s_muEx))
  obtain ⟨a, ha, -⟩ := Succ.mulM (Succ.divM (Succ.mulM (Succ.mulM (h.s_I0 b dv ds)
    (h.par_ok b hw)) h.s_mu0) (Succ.addM h.s_mu0 h.s_muEx)) (Succ.subM (Succ.lit 1) hatt)
  have ha' : mulM (divM (mulM (mulM (Fresh.acc b o dv ds).I0 ((Fresh.acc b o dv ds).par .omega))
    (Fresh.acc b o dv ds).mu0) (addM (Fresh.acc b o dv ds).mu0 (Fresh.acc b o dv ds).muEx))
    (subM (litM 1) (Fresh.acc b o dv ds).atten) = .ok a := ha
  rw [ha', hv]
  rfl

end

end RT1
