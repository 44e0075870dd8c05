import Verif.Lemmas.RenameInt
import Verif.Lemmas.IntObs
import Verif.Lemmas.RenameJac
import Verif.Lemmas.JacMemo
import Verif.Props.Peek
import Verif.Props.Rename

/-!
# The names of the parameters of RT1 objects

C92: how the parameters of tau, omega, NormBRDF, bsf and of the scattering functions are called does
not matter.
-/

namespace RT1

noncomputable section
open Classical

/-- `surface()`, `volume()`, the values of the parameters and `calc()` without interaction term return the same
arrays if all parameters have other names, or raise the same exceptions with the other names in their messages. `bsf`
keeps its name because its default value is stored under this name. -/
theorem C92_objects {σ : String → String} (h : Renaming σ) (hb : σ "bsf" = "bsf") {w w' : World} (hw : ReachableK w)
    (hw' : ReachableK w') (hk : w'.backend = w.backend) {id id' : ℕ} {o o' : Obj} (ho : w.objs id = some o)
    (ho' : w'.objs id' = some o') (hs : RenamedSettings σ o o') (kw : Dict) :
    (surface id' (kw.rename σ) w').1 = Py.rename σ (surface id kw w).1 ∧
    (volume id' (kw.rename σ) w').1 = Py.rename σ (volume id kw w).1 ∧
    (∀ p, (Self.evalParam id' p w').1 = Py.rename σ (Self.evalParam id p w).1) ∧
    (o.intQ = false → (calcOp id' (kw.rename σ) w').1 = Py.rename σ (calcOp id kw w).1) := by
  have ha := (hs.update h hb kw).acc h w.backend
  refine ⟨?_, ?_, fun p => ?_, fun hq => ?_⟩
  · rw [(surface_eq hw'.inv ho' _).1, (surface_eq hw.inv ho kw).1, hk]
    unfold Fresh.surface
    rw [ren_bind, ha.surface]
    simp only [ha.convert]
  · rw [(volume_eq hw'.inv ho' _).1, (volume_eq hw.inv ho kw).1, hk]
    unfold Fresh.volume
    rw [ren_bind, ha.volume]
    simp only [ha.convert]
  · rw [evalParam_eq hw'.inv ho', evalParam_eq hw.inv ho, hk]
    exact hs.par h.inj _ p
  · rw [calcOp_noInt hw'.inv ho' (hs.intQ.trans hq), calcOp_noInt hw.inv ho hq, hk]
    exact ha.calcTry (congrArg Except.ok hq)

theorem lam_newLam {b : Backend} {o : Obj} (hg : GeomOK o) : Fresh.lam b o = Fresh.newLam b o := by
  unfold Fresh.lam Fresh.newLam
  rw [hg.fneI, hg.fnI]

/-- Names that the symbolic expansion uses itself. -/
def PlainNames (o : Obj) : Prop := ∀ k ∈ o.V.names ++ o.SRF.names, k ∉ ["n", "theta_s", "phi_s"]

/-- With interaction term.  If neither object remembers coefficients of an earlier evaluation, the outcomes of
`interaction()` and `calc()` are the same, exceptions included (with the other names in their messages).
Partial: the symbols `n`, `theta_s`, `phi_s` of the implementation are not used as names (see C91_index_negation). -/
theorem C92_interaction_partial {σ : String → String} (h : Renaming σ) (hb : σ "bsf" = "bsf") {w w' : World}
    (hw : ReachableP w) (hw' : ReachableP w') (hk : w'.backend = w.backend) {id id' : ℕ} {o o' : Obj}
    (ho : w.objs id = some o) (ho' : w'.objs id' = some o') (hs : RenamedSettings σ o o') (hg : o'.geom = o.geom)
    (_ : PlainNames o) (_ : PlainNames o') (hm : o.fn_ = none ∧ o.fnevals_ = none) (hm' : o'.fn_ = none ∧ o'.fnevals_ = none)
    (kw : Dict) :
    (interaction id' (kw.rename σ) w').1 = Py.rename σ (interaction id kw w).1 ∧
    (calcOp id' (kw.rename σ) w').1 = Py.rename σ (calcOp id kw w).1 := by
  have hgo := hw.geomOK ho
  have hgo' := hw'.geomOK ho'
  have hu := hs.update h hb kw
  have key : ∀ (o : Obj), GeomOK o → o.fn_ = none → o.fnevals_ = none → ∀ kw b, Fresh.fnevals b (Fresh.update o kw) =
      if o.intQ = true then Fresh.newLam b (Fresh.update o kw) else .ok none := by
    intro o hg h1 h2 kw b
    have a1 : (Fresh.update o kw).fnevals_ = none := h2
    have a2 : (Fresh.update o kw).fn_ = none := h1
    have a3 : (Fresh.update o kw).fnevalsInput = none := hg.fneI
    have a4 : (Fresh.update o kw).fnInput = none := hg.fnI
    have a5 : (Fresh.update o kw).intQ = o.intQ := rfl
    unfold Fresh.fnevals Fresh.fn Fresh.newLam
    rw [a1, a2, a3, a4, a5]
    simp only
    by_cases hq : o.intQ = true
    · rw [if_pos hq, if_pos hq, if_pos hq]
      cases fnCoefs (Fresh.update o kw).V (Fresh.update o kw).SRF (Fresh.update o kw).geom <;> rfl
    · rw [if_neg hq, if_neg hq]
  have hf : Fresh.fnevals w.backend (Fresh.update o' (kw.rename σ)) =
      (Py.rename σ (Fresh.fnevals w.backend (Fresh.update o kw))).map (Option.map (FnLam.rename σ)) := by
    rw [key o hgo hm.1 hm.2, key o' hgo' hm'.1 hm'.2, hs.intQ]
    by_cases hq : o.intQ = true
    · rw [if_pos hq, if_pos hq]
      exact hu.newLam h hg hgo.named _
    · rw [if_neg hq, if_neg hq]; rfl
  have ha := hu.accInt h w.backend hf
  constructor
  · rw [(interaction_eq hw'.reachable.inv ho' _).1, (interaction_eq hw.reachable.inv ho kw).1, hk]
    unfold Fresh.interaction
    rw [ren_bind]
    have hi := ha.interaction h.inj
    have hc := ha.convert
    change (Fresh.acc0 w.backend (Fresh.update o' (kw.rename σ))).interaction = Py.rename σ (Fresh.acc0 w.backend (Fresh.update o kw)).interaction at hi
    rw [hi]
    exact congrArg (_ >>= ·) (funext hc)
  · rw [(calcOp_eq hw'.reachable.inv ho' _).1, (calcOp_eq hw.reachable.inv ho kw).1, hk]
    exact ha.calcTry h.inj

/-- In any states: whenever the interaction term of both objects can be evaluated it is the same. -/
theorem C92_interaction_values_partial {σ : String → String} (h : Renaming σ) (hb : σ "bsf" = "bsf") {w w' : World}
    (hw : ReachableP w) (hw' : ReachableP w') (hk : w'.backend = w.backend) {id id' : ℕ} {o o' : Obj}
    (ho : w.objs id = some o) (ho' : w'.objs id' = some o') (hs : RenamedSettings σ o o') (hg : o'.geom = o.geom)
    (_ : PlainNames o) (_ : PlainNames o') {kw : Dict} {x y : Arr} :
    ((interaction id kw w).1 = .ok x → (interaction id' (kw.rename σ) w').1 = .ok y → y = x) ∧
    ((calcOp id kw w).1 = .ok x → (calcOp id' (kw.rename σ) w').1 = .ok y → y = x) := by
  have hgo := hw.geomOK ho
  have hgo' := hw'.geomOK ho'
  have hu := hs.update h hb kw
  have o1 : ObjOK w.backend (Fresh.update o kw) := (hw.reachable.inv.updated ho kw).obj rfl id _ (w.updated_objs id o kw)
  have o2 : ObjOK w.backend (Fresh.update o' (kw.rename σ)) := by
    rw [← hk]
    exact (hw'.reachable.inv.updated ho' (kw.rename σ)).obj rfl id' _ (w'.updated_objs id' o' (kw.rename σ))
  have g1 : GeomOK (Fresh.update o kw) := hgo.congr rfl rfl rfl rfl rfl fun _ _ => rfl
  have g2 : GeomOK (Fresh.update o' (kw.rename σ)) := hgo'.congr rfl rfl rfl rfl rfl fun _ _ => rfl
  have both : ∀ u v, (Fresh.acc0 w.backend (Fresh.update o kw)).interaction = .ok u →
      (Fresh.acc0 w.backend (Fresh.update o' (kw.rename σ))).interaction = .ok v →
      AccRenInt σ (Fresh.acc0 w.backend (Fresh.update o kw)) (Fresh.acc0 w.backend (Fresh.update o' (kw.rename σ))) := by
    intro u v hu' hv'
    have e1 := interaction_lam o1 hu'
    have e2 := interaction_lam o2 hv'
    rw [lam_newLam g1] at e1
    rw [lam_newLam g2] at e2
    exact hu.accInt h w.backend (f := Fresh.fnevals w.backend (Fresh.update o kw))
      (f' := Fresh.fnevals w.backend (Fresh.update o' (kw.rename σ))) (by
        rw [e1, e2]; exact hu.newLam h hg hgo.named _)
  have ha := hu.acc h w.backend
  constructor
  · intro hx hy
    rw [(interaction_eq hw.reachable.inv ho kw).1] at hx
    rw [(interaction_eq hw'.reachable.inv ho' _).1, hk] at hy
    obtain ⟨u, hu', hx⟩ := ok_bind hx
    obtain ⟨v, hv', hy⟩ := ok_bind hy
    have hi := (both u v hu' hv').interaction h.inj
    rw [hu', hv'] at hi
    cases hi
    rw [ha.convert, hx] at hy
    exact (Except.ok.inj hy).symm
  · intro hx hy
    rw [(calcOp_eq hw.reachable.inv ho kw).1] at hx
    rw [(calcOp_eq hw'.reachable.inv ho' _).1, hk] at hy
    have hx' := calcTry_ok hx
    have hy' := calcTry_ok hy
    have e' : ∀ o, (Fresh.acc0 w.backend o).calcBody = (Fresh.acc0 w.backend o).calcWith (Fresh.acc0 w.backend o).interaction :=
      fun _ => rfl
    have hf : ∀ x, (Fresh.acc0 w.backend (Fresh.update o' (kw.rename σ))).fixNan x =
        Py.rename σ ((Fresh.acc0 w.backend (Fresh.update o kw)).fixNan x) := by
      intro x
      unfold Acc.fixNan
      simp only [ren_bind, apply_ite (Py.rename σ), ha.par, ren_liftPy, ren_nanIffZero, ren_pure]
    have hcw : ∀ i, (Fresh.acc0 w.backend (Fresh.update o' (kw.rename σ))).calcWith (Py.rename σ i) =
        Py.rename σ ((Fresh.acc0 w.backend (Fresh.update o kw)).calcWith i) := by
      intro i
      unfold Acc.calcWith
      simp only [ren_bind, apply_ite (Py.rename σ), ha.par, ha.surface, ha.volume, ha.finish, ha.intQ, hf]
    cases i1 : (Fresh.acc0 w.backend (Fresh.update o kw)).interaction with
    | error e1 =>
      rw [e', i1] at hx'
      have := hcw (.error e1)
      rw [hx'] at this
      rw [e', calcWith_error this _] at hy'
      exact (Except.ok.inj hy').symm
    | ok u =>
      cases i2 : (Fresh.acc0 w.backend (Fresh.update o' (kw.rename σ))).interaction with
      | error e2 =>
        rw [e', i2] at hy'
        have h3 := calcWith_error hy' (.ok u)
        have := hcw (.ok u)
        rw [e', i1] at hx'
        rw [hx'] at this
        change Acc.calcWith _ (.ok u) = _ at this
        rw [h3] at this
        exact Except.ok.inj this
      | ok v =>
        have hi := (both u v i1 i2).interaction h.inj
        rw [i1, i2] at hi
        cases hi
        rw [e', i1] at hx'
        rw [e', i2] at hy'
        have := hcw (.ok u)
        rw [hx'] at this
        change Acc.calcWith _ (.ok u) = _ at this
        rw [hy'] at this
        exact Except.ok.inj this

/-- `jacobian` with the other names in the list of parameters returns the same derivatives.  Partial: sympy backend, and
whenever both calls succeed (remembered derivatives can make one of them fail, C12). The names of tau, omega, NormBRDF
and bsf stay because they denote the quantities themselves in the list of parameters. -/
theorem C92_jacobian_partial {σ : String → String} (h : Renaming σ) (hk : ∀ k ∈ ["omega", "tau", "NormBRDF", "bsf"], σ k = k)
    {w w' : World} (hw : Reachable w) (hw' : Reachable w') (hb : w.backend = .sympy) (hb' : w'.backend = .sympy) {id id' : ℕ}
    {o o' : Obj} (ho : w.objs id = some o) (ho' : w'.objs id' = some o') (hs : RenamedSettings σ o o') {ks : List String}
    {l l' : List Arr} (hl : (jacobianList id ks w).1 = .ok l) (hl' : (jacobianList id' (ks.map σ) w').1 = .ok l') : l' = l := by
  have h1 := jacobianList_fresh hw hb ho ks l hl
  have h2 := jacobianList_fresh hw' hb' ho' (ks.map σ) l' hl'
  rw [hs.jacList h hk, h1] at h2
  exact (Except.ok.inj h2).symm

/-- Two objects that differ in the name of the parameter of the volume function. -/
def nameObj (k : String) (q : Bool) (x : ℝ) : World :=
  demoW .sympy (.prim (.volHG (.sym k)) volA (some 3)) isoS q true true (arr1 1) (arr1 1) (arr1 0)
    [("tau", Arr.lit 1), (k, Arr.lit x)]

theorem nameObj_proper (k : String) (q : Bool) (x : ℝ) : ReachableP (nameObj k q x) := by
  refine ⟨_, _, ?_, rfl⟩
  intro op hop
  simp only [demoOps, List.mem_cons, List.not_mem_nil, or_false] at hop
  rcases hop with rfl | rfl | rfl
  · exact ⟨rfl, rfl⟩
  · trivial
  · trivial

/-- Exchanged names `t` and `u`. -/
def swapTU (s : String) : String := if s = "t" then "u" else if s = "u" then "t" else s

theorem swapTU_renaming : Renaming swapTU := by
  constructor
  · intro a b h
    unfold swapTU at h
    split_ifs at h with h1 h2 h3 h4 h5 h6 <;> simp_all
  · intro n hn
    simp only [List.mem_cons, List.not_mem_nil, or_false] at hn
    rcases hn with rfl | rfl | rfl | rfl <;> simp [swapTU]

example (x : ℝ) (q : Bool) : ∃ o o', ReachableP (nameObj "t" q x) ∧ ReachableP (nameObj "u" q x) ∧
    (nameObj "t" q x).objs 0 = some o ∧ (nameObj "u" q x).objs 0 = some o' ∧ RenamedSettings swapTU o o' ∧ o'.V ≠ o.V ∧
    o'.geom = o.geom ∧ PlainNames o ∧ PlainNames o' ∧ (o.fn_ = none ∧ o.fnevals_ = none) ∧
    (o'.fn_ = none ∧ o'.fnevals_ = none) ∧ swapTU "bsf" = "bsf" ∧ o.intQ = q := by
  refine ⟨_, _, nameObj_proper .., nameObj_proper .., demo_objs .., demo_objs .., ?_, ?_, rfl, ?_, ?_, ⟨rfl, rfl⟩, ⟨rfl, rfl⟩,
    by simp [swapTU], rfl⟩
  · refine ⟨?_, ?_, rfl, rfl, rfl, rfl, fun p => ?_, ?_, rfl, rfl⟩
    · simp [demoObj, Scatter.rename, Kind.rename, Expr.rename, A3.rename, volA, swapTU]
    · simp [demoObj, isoS, Scatter.rename, Kind.rename, Expr.rename, A3.rename, srfA]
    · cases p <;> simp [demoObj, defaultDefs, PDef.rename, Expr.rename, swapTU]
    · simp [demoObj, Dict.update, Dict.set, Dict.rename, swapTU]
  · simp [demoObj]
  · simp [PlainNames, demoObj, isoS, Scatter.names, Kind.names, A3.names, Expr.free, volA, srfA]
  · simp [PlainNames, demoObj, isoS, Scatter.names, Kind.names, A3.names, Expr.free, volA, srfA]

end

end RT1
