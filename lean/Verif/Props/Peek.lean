import Verif.Props.Extend
import Verif.Props.JacStale
import Verif.Props.Switch
import Verif.Lemmas.AnalyzeU
import Verif.Spec.Peek

/-!
# C81: evaluations have no hidden effect
-/

namespace RT1

noncomputable section
open Classical

/-! ### results depend on the settings only -/

/-- Attributes of the settings. -/
def Obj.settings (o : Obj) : Obj := { o.core with analyze := true }

theorem SameSettings.settings {o o' : Obj} (h : SameSettings o o') : o.settings = o'.settings := by
  obtain ⟨h1, h2, h3, h4, h5, h6, h7, h8, h9, h10, h11, h12, h13, h14⟩ := h
  cases o
  cases o'
  simp only at h1 h2 h3 h4 h5 h6 h7 h8 h9 h10 h11 h12 h13 h14
  subst h1 h2 h3 h4 h5 h6 h7 h8 h9 h10 h11 h12 h13 h14
  rfl

theorem SameSettings.of_core {o o' : Obj} (h : o.core = o'.core) : SameSettings o o' where
  V := by have := congrArg Obj.V h; exact this
  SRF := by have := congrArg Obj.SRF h; exact this
  intQ := by have := congrArg Obj.intQ h; exact this
  sig0 := by have := congrArg Obj.sig0 h; exact this
  dB := by have := congrArg Obj.dB h; exact this
  I0 := by have := congrArg Obj.I0 h; exact this
  pdef := by have := congrArg Obj.pdef h; exact this
  params := by have := congrArg Obj.params h; exact this
  fixed := by have := congrArg Obj.fixed h; exact this
  mono := by have := congrArg Obj.mono h; exact this
  ang := by have := congrArg Obj.ang h; exact this
  geom := by have := congrArg Obj.geom h; exact this
  fnInput := by have := congrArg Obj.fnInput h; exact this
  fnevalsInput := by have := congrArg Obj.fnevalsInput h; exact this

theorem SameSettings.update {o o' : Obj} (h : SameSettings o o') (kw : Dict) :
    SameSettings (Fresh.update o kw) (Fresh.update o' kw) := by
  refine { h with params := ?_ }
  unfold Fresh.update
  simp only
  rw [h.pdef, h.params]

theorem SameSettings.fresh {o o' : Obj} (h : SameSettings o o') (b : Backend) :
    Fresh.surface b o = Fresh.surface b o' ∧ Fresh.volume b o = Fresh.volume b o' ∧ ∀ p, Fresh.par b o p = Fresh.par b o' p := by
  have e := h.settings
  refine ⟨?_, ?_, fun p => ?_⟩
  · show Fresh.surface b o.settings = Fresh.surface b o'.settings
    rw [e]
  · show Fresh.volume b o.settings = Fresh.volume b o'.settings
    rw [e]
  · show Fresh.par b o.settings p = Fresh.par b o'.settings p
    rw [e]

theorem SameSettings.calc {o o' : Obj} (h : SameSettings o o') (hq : o.intQ = false) (b : Backend) :
    Fresh.calcAll b o = Fresh.calcAll b o' := by
  have hq' : o'.intQ = false := by rw [← h.intQ]; exact hq
  have h1 : Fresh.calcAll b o = Fresh.calcAll b o.core := calcAll_core b rfl hq
  have h2 : Fresh.calcAll b o' = Fresh.calcAll b o'.core := calcAll_core b rfl hq'
  have h3 : Fresh.calcAll b o.core = Fresh.calcAll b o.settings := rfl
  have h4 : Fresh.calcAll b o'.core = Fresh.calcAll b o'.settings := rfl
  rw [h1, h2, h3, h4, h.settings]

/-- The coefficients that belong to the settings. -/
def Fresh.lam (b : Backend) (o : Obj) : Py (Option FnLam) :=
  match o.fnevalsInput with
  | some f => .ok (some f)
  | none => do
    let f ← (match o.fnInput with
      | some f => .ok f
      | none => fnCoefs o.V o.SRF o.geom)
    let l ← Fresh.fnCompile b o f
    .ok (some l)

theorem fnevals_lam {b : Backend} {o : Obj} (h : ObjOK b o) {f : FnLam} (hf : Fresh.fnevals b o = .ok (some f))
    (hl : o.fnevalsInput = none → f.vars.length = 4 + o.params.length) : Fresh.fnevals b o = Fresh.lam b o := by
  cases hm : o.fnevals_ with
  | some l =>
    have e : Fresh.fnevals b o = .ok (some l) := by unfold Fresh.fnevals; rw [hm]
    rw [e] at hf
    have hfl : f = l := by cases hf; rfl
    rw [hfl] at hl
    clear hf hfl f
    obtain ⟨hi, ks, f, hks, hlv, hfn, hs⟩ := h.fnevals l hm
    have hn : ks = o.params.keys := by
      refine hks.eq_of_length ?_
      have h1 := hl hi
      rw [hlv] at h1
      simp at h1
      simp [Dict.keys]
      omega
    have hc : Fresh.fnCompile b o f = .ok l := by
      have : (⟨Self.fnVars o.params, o.V.phase.free ++ o.SRF.phase.free, f⟩ : FnLam) = l := by
        rw [hlv, hn]; rfl
      rw [← this] at hs ⊢
      exact if_neg hs
    rw [e]
    unfold Fresh.lam
    rw [hi]
    rcases hfn with h1 | ⟨h1, h2⟩
    · rw [h1]
      show _ = (Fresh.fnCompile b o f >>= fun l => .ok (some l))
      rw [hc]; rfl
    · rw [h1]
      show _ = (fnCoefs o.V o.SRF o.geom >>= fun f => Fresh.fnCompile b o f >>= fun l => .ok (some l))
      rw [h2]
      show _ = (Fresh.fnCompile b o f >>= fun l => .ok (some l))
      rw [hc]; rfl
  | none =>
    unfold Fresh.fnevals Fresh.lam at *
    rw [hm] at hf ⊢
    cases hi : o.fnevalsInput with
    | some l => rfl
    | none =>
      rw [hi] at hf
      simp only at hf ⊢
      by_cases hq : o.intQ = true
      · rw [if_pos hq] at hf ⊢
        cases hfn : o.fn_ with
        | some g =>
          obtain ⟨a, c⟩ := h.fn g hfn
          have e : Fresh.fn o = .ok (some g) := by unfold Fresh.fn; rw [hfn]
          rw [e, a]
          show (Fresh.fnCompile b o g >>= fun l => .ok (some l)) = (fnCoefs o.V o.SRF o.geom >>= fun f => Fresh.fnCompile b o f >>= fun l => .ok (some l))
          rw [c]; rfl
        | none =>
          cases hI : o.fnInput with
          | some g =>
            have e : Fresh.fn o = .ok (some g) := by unfold Fresh.fn; rw [hfn, hI]
            rw [e]; rfl
          | none =>
            have e : Fresh.fn o = (fnCoefs o.V o.SRF o.geom >>= fun f => .ok (some f)) := by unfold Fresh.fn; rw [hfn, hI]; simp only; rw [if_pos hq]
            rw [e]
            cases hx : fnCoefs o.V o.SRF o.geom with
            | error e => rfl
            | ok g => rfl
      · rw [if_neg hq] at hf
        cases hf

/-- After a successful evaluation of the interaction term the coefficients in use are those of the settings. -/
theorem interaction_lam {b : Backend} {o : Obj} (h : ObjOK b o) {x : Arr} (hx : (Fresh.acc0 b o).interaction = .ok x) :
    Fresh.fnevals b o = Fresh.lam b o := by
  have h1 : ∃ y, (Fresh.acc0 b o).fint1 = .ok y := by
    unfold Acc.interaction at hx
    cases hy : (Fresh.acc0 b o).fint1 with
    | ok y => exact ⟨y, rfl⟩
    | error e => rw [hy] at hx; cases hx
  obtain ⟨y, hy⟩ := h1
  have hfe : ∃ f, Fresh.fnevals b o = .ok (some f) := by
    unfold Acc.fint1 Acc.fint at hy
    obtain ⟨a, -, hy⟩ := ok_bind hy
    obtain ⟨pd, -, hy⟩ := ok_bind hy
    obtain ⟨args, -, hy⟩ := ok_bind hy
    obtain ⟨f, hf, hy⟩ := ok_bind hy
    cases f with
    | some f => exact ⟨f, hf⟩
    | none => obtain ⟨_, h, -⟩ := ok_bind hy; cases h
  obtain ⟨f, hf⟩ := hfe
  refine fnevals_lam h hf fun hi => ?_
  by_contra hl
  unfold Acc.fint1 at hy
  have := fint_arity (A := Fresh.acc0 b o) (ang := do
    let a ← (Fresh.acc0 b o).t0
    let b' ← (Fresh.acc0 b o).p0
    let c ← (Fresh.acc0 b o).tex
    let d ← (Fresh.acc0 b o).pex
    pure [a, b', c, d]) (mux := (Fresh.acc0 b o).mu0x) (mu := (Fresh.acc0 b o).mu0) hf rfl (fun l hl => by
      obtain ⟨x1, -, hl⟩ := ok_bind hl
      obtain ⟨x2, -, hl⟩ := ok_bind hl
      obtain ⟨x3, -, hl⟩ := ok_bind hl
      obtain ⟨x4, -, hl⟩ := ok_bind hl
      cases hl
      rfl) hl
  obtain ⟨e, he⟩ := this
  rw [he] at hy
  cases hy

theorem SameSettings.acc {o o' : Obj} (h : SameSettings o o') {b : Backend} (he : Fresh.fnevals b o = Fresh.fnevals b o') :
    Fresh.acc0 b o = Fresh.acc0 b o' := by
  have h1 : ∀ o, Fresh.acc0 b o = { Fresh.acc0 b o.settings with fnevals := Fresh.fnevals b o } := fun _ => rfl
  rw [h1 o, h1 o', h.settings, he]

theorem SameSettings.lam {o o' : Obj} (h : SameSettings o o') (b : Backend) : Fresh.lam b o = Fresh.lam b o' := by
  have h1 : ∀ o, Fresh.lam b o = Fresh.lam b o.settings := fun _ => rfl
  rw [h1 o, h1 o', h.settings]

theorem SameSettings.interaction {o o' : Obj} (h : SameSettings o o') {b : Backend} (h1 : ObjOK b o) (h2 : ObjOK b o') {x y : Arr}
    (hx : (Fresh.acc0 b o).interaction = .ok x) (hy : (Fresh.acc0 b o').interaction = .ok y) : Fresh.acc0 b o = Fresh.acc0 b o' :=
  h.acc (by rw [interaction_lam h1 hx, interaction_lam h2 hy, h.lam])

/-- The body of `calc` with a given outcome of the interaction term. -/
def Acc.calcWith (A : Acc Py) (i : Py Arr) : Py Arr := do
  let tau ← A.par .tau
  if tau.shape = [] then do
    let Isurf ← A.surface
    let tau' ← A.par .tau
    if (tau'.get []).isPos = true then do
      let Ivol ← A.volume
      let q ← A.intQ
      if q = true then do
        let Iint ← i
        A.finish q Isurf Ivol Iint
      else A.finish q Isurf Ivol (Arr.lit 0)
    else do
      let q ← A.intQ
      A.finish q Isurf (Arr.zerosLike Isurf) (Arr.zerosLike Isurf)
  else do
    let Isurf ← A.surface
    let Ivol ← A.volume
    let q ← A.intQ
    if q = true then do
      let I ← i
      let Iint ← A.fixNan I
      A.finish q Isurf Ivol Iint
    else A.finish q Isurf Ivol (Arr.lit 0)

theorem calcWith_error {A : Acc Py} {e : PyErr} {z : Arr} (h : A.calcWith (.error e) = .ok z) (i : Py Arr) : A.calcWith i = .ok z := by
  unfold Acc.calcWith at *
  obtain ⟨tau, h1, h⟩ := ok_bind h
  rw [h1, okb]
  split_ifs at h ⊢ with hs
  · obtain ⟨su, h2, h⟩ := ok_bind h
    rw [h2, okb]
    obtain ⟨tau', h3, h⟩ := ok_bind h
    rw [okb]
    cases h1.symm.trans h3
    split_ifs at h ⊢ with hp
    · obtain ⟨vo, h4, h⟩ := ok_bind h
      rw [h4, okb]
      obtain ⟨q, h5, h⟩ := ok_bind h
      rw [h5, okb]
      split_ifs at h ⊢ with hq
      · cases h
      · exact h
    · exact h
  · obtain ⟨su, h2, h⟩ := ok_bind h
    rw [h2, okb]
    obtain ⟨vo, h4, h⟩ := ok_bind h
    rw [h4, okb]
    obtain ⟨q, h5, h⟩ := ok_bind h
    rw [h5, okb]
    split_ifs at h ⊢ with hq
    · cases h
    · exact h

theorem calcTry_ok {A : Acc Py} {z : Arr} (h : A.calcTry = .ok z) : A.calcBody = .ok z := by
  unfold Acc.calcTry at h
  cases hb : A.calcBody with
  | ok a => rw [hb] at h; exact h
  | error e =>
    rw [hb] at h
    cases e <;> first | (cases h; done) | skip
    rename_i ns
    obtain ⟨names, -, h⟩ := ok_bind (x := A.missingNames) h
    split_ifs at h <;> cases h

theorem SameSettings.calc_ok {o o' : Obj} (h : SameSettings o o') {b : Backend} (h1 : ObjOK b o) (h2 : ObjOK b o') {x y : Arr}
    (hx : Fresh.calcAll b o = .ok x) (hy : Fresh.calcAll b o' = .ok y) : x = y := by
  have e : ∀ o i, (Fresh.acc0 b o).calcWith i = (Fresh.acc0 b o.settings).calcWith i := fun _ _ => rfl
  have e' : ∀ o, (Fresh.acc0 b o).calcBody = (Fresh.acc0 b o.settings).calcWith (Fresh.acc0 b o).interaction := fun _ => rfl
  have hx' := calcTry_ok hx
  have hy' := calcTry_ok hy
  cases i1 : (Fresh.acc0 b o).interaction with
  | error e1 =>
    rw [e', i1, h.settings] at hx'
    rw [e', calcWith_error hx' _] at hy'
    exact Except.ok.inj hy'
  | ok u =>
    cases i2 : (Fresh.acc0 b o').interaction with
    | error e2 =>
      rw [e', i2, ← h.settings] at hy'
      rw [e', calcWith_error hy' _] at hx'
      exact (Except.ok.inj hx').symm
    | ok v =>
      have := h.interaction h1 h2 i1 i2
      rw [this, hy'] at hx'
      exact (Except.ok.inj hx').symm

/-- **C81**: results of surface and volume and the values of the parameters are determined by the settings of
the object: two objects with the same settings, in any two reachable states, return the same (arrays or
exceptions), whatever has been evaluated before. -/
theorem C81_settings {w w' : World} (hw : ReachableK w) (hw' : ReachableK w') (hb : w.backend = w'.backend) {id id' : ℕ}
    {o o' : Obj} (ho : w.objs id = some o) (ho' : w'.objs id' = some o') (h : SameSettings o o') (kw : Dict) :
    (surface id kw w).1 = (surface id' kw w').1 ∧ (volume id kw w).1 = (volume id' kw w').1 ∧
    (∀ p, (Self.evalParam id p w).1 = (Self.evalParam id' p w').1) ∧
    (o.intQ = false → (calcOp id kw w).1 = (calcOp id' kw w').1) := by
  obtain ⟨h1, h2, h3⟩ := (h.update kw).fresh w.backend
  obtain ⟨-, -, h3⟩ := h.fresh w.backend
  refine ⟨?_, ?_, fun p => ?_, fun hq => ?_⟩
  · rw [(surface_eq hw.inv ho kw).1, (surface_eq hw'.inv ho' kw).1, h1, hb]
  · rw [(volume_eq hw.inv ho kw).1, (volume_eq hw'.inv ho' kw).1, h2, hb]
  · rw [evalParam_eq hw.inv ho, evalParam_eq hw'.inv ho', h3, hb]
  · rw [calcOp_noInt hw.inv ho hq kw, calcOp_noInt hw'.inv ho' (h.intQ ▸ hq) kw, (h.update kw).calc hq, hb]

/-- With interaction term: whenever both evaluations succeed they return the same. -/
theorem C81_settings_partial {w w' : World} (hw : Reachable w) (hw' : Reachable w') (hb : w.backend = w'.backend) {id id' : ℕ}
    {o o' : Obj} (ho : w.objs id = some o) (ho' : w'.objs id' = some o') (h : SameSettings o o') {kw : Dict} {x y : Arr} :
    ((interaction id kw w).1 = .ok x → (interaction id' kw w').1 = .ok y → x = y) ∧
    ((calcOp id kw w).1 = .ok x → (calcOp id' kw w').1 = .ok y → x = y) := by
  have o1 : ObjOK w.backend (Fresh.update o kw) := (hw.inv.updated ho kw).obj rfl id _ (w.updated_objs id o kw)
  have o2 : ObjOK w.backend (Fresh.update o' kw) := by
    rw [hb]; exact (hw'.inv.updated ho' kw).obj rfl id' _ (w'.updated_objs id' o' kw)
  constructor
  · intro hx hy
    rw [(interaction_eq hw.inv ho kw).1] at hx
    rw [(interaction_eq hw'.inv ho' kw).1, ← hb] at hy
    obtain ⟨u, hu, hx⟩ := ok_bind hx
    obtain ⟨v, hv, hy⟩ := ok_bind hy
    have e := (h.update kw).interaction o1 o2 hu hv
    rw [e] at hu hx
    rw [hu] at hv
    cases hv
    rw [hx] at hy
    exact Except.ok.inj hy
  · intro hx hy
    rw [(calcOp_eq hw.inv ho kw).1] at hx
    rw [(calcOp_eq hw'.inv ho' kw).1, ← hb] at hy
    exact (h.update kw).calc_ok o1 o2 hx hy

/-! ### inserted evaluations -/

theorem Twin.refl {w : World} (h : NextOK w) : Twin w w := ⟨rfl, h, h, fun _ => rfl⟩

theorem Op.Looks.after {op : Op} (h : op.Looks) {o : Obj} (hb : "bsf" ∈ o.params.keys) : o.after op = o := by
  cases op <;> simp only [Op.Looks] at h
  case evalCalc => subst h; exact update_nil fun _ => hb
  case surface => subst h; exact update_nil fun _ => hb
  case volume => subst h; exact update_nil fun _ => hb
  case interaction => subst h; exact update_nil fun _ => hb
  all_goals rfl

theorem Twin.trans {w w' w'' : World} (h : Twin w w') (h' : Twin w' w'') : Twin w w'' :=
  ⟨h.next.trans h'.next, h.ok, h'.ok', fun id => (h.core id).trans (h'.core id)⟩

theorem Op.Looks.twin {w : World} {op : Op} (h : op.Looks) (hw : ReachableAny w) (hn : NextOK w) : Twin w (step op w).2 := by
  have hc : ¬ op.creates := by cases op <;> simp [Op.Looks, Op.creates] at *
  by_cases ht : ∃ id, op.target = some id
  · obtain ⟨id, ht⟩ := ht
    have f := frame_step ht hc w w (FrameP.refl w id)
    refine ⟨f.next.symm, hn, (step_other hn op).1, fun j => ?_⟩
    by_cases he : j = id
    · subst he
      cases ho : w.objs j with
      | none =>
        have e := f.ex
        rw [ho] at e
        rw [show (step op w).2.objs j = none from Option.not_isSome_iff_eq_none.1 (by rw [e]; simp)]
      | some o =>
        obtain ⟨x, hx, hxc⟩ := step_core hn ho ht
        rw [hx]
        show some o.core = some x.core
        rw [hxc, h.after (hw.bsfOK ho).1]
    · rw [f.objs j he]
  · cases op <;> simp [Op.target, Op.Looks] at *

theorem Inserted.twin {w : World} (hw : ReachableAny w) (hn : NextOK w) {ops ops' : List Op} (h : Inserted ops ops') :
    Twin (run w ops) (run w ops') := by
  induction h with
  | start => exact Twin.refl hn
  | call op h ih => rw [run_snoc, run_snoc]; exact ih.step op
  | look op h hl ih =>
    rw [run_snoc]
    exact ih.trans (hl.twin (hw.run _) ih.ok')

theorem Op.Looks.plain {op : Op} (h : op.Looks) : op.Plain := by
  cases op <;> simp only [Op.Looks] at h <;> trivial

theorem Op.Looks.keeps {op : Op} (h : op.Looks) : op.Keeps := by
  cases op <;> simp only [Op.Looks] at h <;> trivial

theorem Inserted.mem {ops ops' : List Op} (h : Inserted ops ops') {op : Op} (ho : op ∈ ops') :
    op ∈ ops ∨ op.Looks := by
  induction h with
  | start => cases ho
  | call op' h ih =>
    rcases List.mem_append.1 ho with h1 | h1
    · exact (ih h1).imp_left fun h => List.mem_append_left _ h
    · exact Or.inl (List.mem_append_right _ h1)
  | look op' h hl ih =>
    rcases List.mem_append.1 ho with h1 | h1
    · exact ih h1
    · rw [List.mem_singleton.1 h1]; exact Or.inr hl

theorem Inserted.sides {w : World} (hw : ReachableAny w) (hn : NextOK w) {ops ops' : List Op} (h : Inserted ops ops') (id : ℕ) :
    ((run w ops).objs id = none ∧ (run w ops').objs id = none) ∨
    ∃ o o', (run w ops).objs id = some o ∧ (run w ops').objs id = some o' ∧ SameSettings o o' := by
  have ht := h.twin hw hn
  cases ho : (run w ops).objs id with
  | none => exact Or.inl ⟨rfl, ht.get_none ho⟩
  | some o =>
    obtain ⟨o', ho', hc⟩ := ht.get ho
    exact Or.inr ⟨o, o', rfl, ho', SameSettings.of_core hc⟩

/-- **C81** (inserted evaluations). Insert anywhere into a program evaluations without arguments, getters,
jacobian calls and clearing of the memo tables, on any objects. Afterwards every object has the same settings, and every
further call of surface, volume and the getters, and of calc on an object with int_Q=False, returns or raises the same. -/
theorem C81_inserted {w : World} (hw : ReachableK w) {ops ops' : List Op} (hk : ∀ op ∈ ops, op.Keeps) (h : Inserted ops ops')
    (id : ℕ) (kw : Dict) :
    (∀ o, (run w ops).objs id = some o → ∃ o', (run w ops').objs id = some o' ∧ SameSettings o o') ∧
    (surface id kw (run w ops)).1 = (surface id kw (run w ops')).1 ∧
    (volume id kw (run w ops)).1 = (volume id kw (run w ops')).1 ∧
    (∀ p, (Self.evalParam id p (run w ops)).1 = (Self.evalParam id p (run w ops')).1) ∧
    ((∀ o, (run w ops).objs id = some o → o.intQ = false) → (calcOp id kw (run w ops)).1 = (calcOp id kw (run w ops')).1) := by
  have r1 := hw.run hk
  have r2 : ReachableK (run w ops') := hw.run fun op ho => by
    rcases h.mem ho with h1 | h1
    · exact hk op h1
    · exact h1.keeps
  have hb : (run w ops).backend = (run w ops').backend := by rw [run_backend, run_backend]
  rcases h.sides hw.any hw.inv.next id with ⟨n1, n2⟩ | ⟨o, o', h1, h2, hs⟩
  · refine ⟨fun o ho => ?_, ?_, ?_, fun p => ?_, fun _ => ?_⟩
    · rw [n1] at ho; cases ho
    · rw [surface_none n1, surface_none n2]
    · rw [volume_none n1, volume_none n2]
    · rw [evalParam_none r1.inv n1, evalParam_none r2.inv n2]
    · rw [calcOp_none n1, calcOp_none n2]
  · obtain ⟨a, b, c, d⟩ := C81_settings r1 r2 hb h1 h2 hs kw
    refine ⟨fun u hu => ?_, a, b, c, fun hq => d (hq o h1)⟩
    rw [h1] at hu; cases hu
    exact ⟨o', h2, hs⟩

/-- **C81** (partial) with interaction term: after inserted evaluations a further call of interaction, or of calc with int_Q=True,
returns the same whenever both succeed. Missing: one of the two may raise, see `C81_counterexample`, `C12_counterexample`. -/
theorem C81_inserted_partial {w : World} (hw : Reachable w) {ops ops' : List Op} (hk : ∀ op ∈ ops, op.Plain) (h : Inserted ops ops')
    (id : ℕ) (kw : Dict) {x y : Arr} :
    ((interaction id kw (run w ops)).1 = .ok x → (interaction id kw (run w ops')).1 = .ok y → x = y) ∧
    ((calcOp id kw (run w ops)).1 = .ok x → (calcOp id kw (run w ops')).1 = .ok y → x = y) := by
  have r1 := hw.run hk
  have r2 : Reachable (run w ops') := hw.run fun op ho => by
    rcases h.mem ho with h1 | h1
    · exact hk op h1
    · exact h1.plain
  have hb : (run w ops).backend = (run w ops').backend := by rw [run_backend, run_backend]
  rcases h.sides hw.keeps.any hw.inv.next id with ⟨n1, n2⟩ | ⟨o, o', h1, h2, hs⟩
  · constructor
    · intro hx; rw [interaction_none n1] at hx; cases hx
    · intro hx; rw [calcOp_none n1] at hx; cases hx
  · exact C81_settings_partial r1 r2 hb h1 h2 hs

/-! ### evaluating again -/

/-- A call that looks at objects fills the stored coefficients at most. -/
theorem looks_filled {w : World} {op : Op} (h : op.Looks) (ha : ReachableAny w) (hw : Inv true w) {id : ℕ} {o : Obj} (ho : w.objs id = some o) :
    ∃ o', (step op w).2.objs id = some o' ∧ Filled w.backend o o' := by
  have hc : ¬ op.creates := by cases op <;> simp [Op.Looks, Op.creates] at *
  have key : ∀ (j : ℕ) {α : Type} {x : M α}, (∀ P, MemoStable P j → Safe P x) → ∀ {u : Obj}, w.objs j = some u →
      ∃ o', (x w).2.objs j = some o' ∧ Filled w.backend u o' := fun j α x hx u hu =>
    (hx _ (During.stable true w j u) w (During.init hw hu trivial)).obj
  have ev : ∀ (j : ℕ) {α : Type} {x : M α}, (∀ P, MemoStable P j → Safe P (RT1.updateParams j []) → Safe P x) → ∀ {u : Obj},
      w.objs j = some u → ∃ o', (x w).2.objs j = some o' ∧ Filled w.backend u o' := fun j α x hx u hu => by
    refine (hx _ (During.stable true w j u) (fun w1 h1 => ?_) w (During.init hw hu trivial)).obj
    obtain ⟨u1, hu1, f1⟩ := h1.obj
    rw [updateParams_eq hu1 []]
    have e : ({ w1 with objs := Function.update w1.objs j (some (Fresh.update u1 [])) } : World) = w1 := by
      rw [update_nil (fun _ => by rw [f1.params]; exact (ha.bsfOK hu).1)]
      have : Function.update w1.objs j (some u1) = w1.objs := by rw [← hu1]; simp
      rw [this]
    rw [e]
    exact h1
  by_cases ht : op.target = some id
  · cases op <;> simp only [Op.Looks] at h <;> simp only [Op.target, Option.some.injEq] at ht <;> subst ht
    case evalCalc =>
      subst h
      rw [show (step (.evalCalc _ []) w).2 = (calcOp _ [] w).2 from bind_pure_state _ _]
      exact ev _ (fun P hP hu => Safe.calcOp hP hu) ho
    case surface =>
      subst h
      rw [show (step (.surface _ []) w).2 = (surface _ [] w).2 from bind_pure_state _ _]
      exact ev _ (fun P hP hu => Safe.surfaceOp hP hu) ho
    case volume =>
      subst h
      rw [show (step (.volume _ []) w).2 = (volume _ [] w).2 from bind_pure_state _ _]
      exact ev _ (fun P hP hu => Safe.volumeOp hP hu) ho
    case interaction =>
      subst h
      rw [show (step (.interaction _ []) w).2 = (interaction _ [] w).2 from bind_pure_state _ _]
      exact ev _ (fun P hP hu => Safe.interactionOp hP hu) ho
    case jacobian ks f =>
      rw [show (step (.jacobian _ ks f) w).2 = (jacobian _ ks f w).2 from bind_pure_state _ _]
      exact key _ (fun P hP => Safe.jacobianOp hP) ho
    case getParam p =>
      rw [show (step (.getParam _ p) w).2 = (Self.evalParam _ p w).2 from bind_pure_state _ _]
      exact key _ (fun P hP => Safe.evalParam hP p) ho
    case clearCaches => exact ⟨o, ho, Filled.refl _ _⟩
    case surfaceVolume =>
      rw [show (step (.surfaceVolume _) w).2 = (surfaceVolume _ w).2 from bind_pure_state _ _]
      exact key _ (fun P hP => Safe.surfaceVolumeOp hP) ho
    case checkParams ns =>
      rw [show (step (.checkParams _ ns) w).2 = (checkParams _ ns w).2 from bind_pure_state _ _]
      exact key _ (fun P hP => Safe.checkParamsOp hP) ho
  · obtain ⟨j, hj⟩ : ∃ j, op.target = some j := by
      cases op <;> simp [Op.target, Op.Looks] at *
    have f := frame_step hj hc w w (FrameP.refl w j)
    exact ⟨o, by rw [f.objs id (by rintro rfl; exact ht hj)]; exact ho, Filled.refl _ _⟩

/-- Names that already have a value. -/
theorem Filled.updateKnown {b : Backend} {o o' : Obj} (h : Filled b o o') {kw : Dict}
    (hb : "bsf" ∈ o.params.keys) (hk : ∀ k ∈ kw.keys, k ∈ o.params.keys) :
    Filled b (Fresh.update o kw) (Fresh.update o' kw) := by
  have e : ∀ x : Obj, Fresh.update x kw = { x with params := (Fresh.update x kw).params } := fun _ => rfl
  have e1 : (Fresh.update o' kw).params = (Fresh.update o kw).params := by
    unfold Fresh.update
    simp only
    rw [h.pdef, h.params]
  rw [e o, e o', e1]
  refine h.withParams ?_
  have hm : Dict.keys (kw.map fun p => (p.1, p.2.atleast1d)) = kw.keys := Dict.keys_map_snd _ Arr.atleast1d
  have hu : (Fresh.update o kw).params = o.params.update (kw.map fun p => (p.1, p.2.atleast1d)) := by
    unfold Fresh.update
    simp only
    split
    · rename_i he
      rw [if_pos (Or.inl hb)]
    · rfl
  rw [hu]
  exact Dict.keys_update (by rw [hm]; exact hk)

/-- The same object, possibly with more coefficients stored. -/
theorem looks_list {w : World} (ha : ReachableAny w) (hw : Inv true w) {ops : List Op} (h : Inserted [] ops) {id : ℕ} {o : Obj} (ho : w.objs id = some o) :
    Inv true (run w ops) ∧ ∃ o', (run w ops).objs id = some o' ∧ Filled w.backend o o' := by
  generalize h0 : ([] : List Op) = ops0 at h
  induction h with
  | start => exact ⟨hw, o, ho, Filled.refl _ _⟩
  | call op h ih => simp at h0
  | look op h hl ih =>
    subst h0
    obtain ⟨i1, o1, h1, f1⟩ := ih rfl
    rw [run_snoc]
    refine ⟨Inv.step (fun _ => hl.plain) (by intro _ _ _ he; subst he; exact hl) _ i1, ?_⟩
    obtain ⟨o2, h2, f2⟩ := looks_filled hl (ha.run _) i1 h1
    rw [run_backend] at f2
    exact ⟨o2, h2, f1.trans f2⟩

/-- **C81** (evaluating again). After any number of evaluations without arguments, getters, jacobian calls and clearings of the memo tables,
on any objects, each evaluation - also of the interaction term - returns or raises what it would have returned or raised before
them, if it is given values for names the object knows already (or no values at all). -/
theorem C81_again {w : World} (hw : Reachable w) {ops : List Op} (h : Inserted [] ops) {id : ℕ} {o : Obj} (ho : w.objs id = some o)
    {kw : Dict} (hk : ∀ k ∈ kw.keys, k ∈ o.params.keys) :
    (surface id kw (run w ops)).1 = (surface id kw w).1 ∧ (volume id kw (run w ops)).1 = (volume id kw w).1 ∧
    (interaction id kw (run w ops)).1 = (interaction id kw w).1 ∧ (calcOp id kw (run w ops)).1 = (calcOp id kw w).1 := by
  obtain ⟨i1, o1, h1, f1⟩ := looks_list hw.keeps.any hw.inv h ho
  have hf := f1.updateKnown (hw.keeps.any.bsfOK ho).1 hk
  have e := hf.acc0
  refine ⟨?_, ?_, ?_, ?_⟩
  · rw [(surface_eq i1 h1 kw).1, (surface_eq hw.inv ho kw).1, run_backend]
    show (Fresh.acc0 _ _).surface.bind _ = (Fresh.acc0 _ _).surface.bind _
    rw [e]
  · rw [(volume_eq i1 h1 kw).1, (volume_eq hw.inv ho kw).1, run_backend]
    show (Fresh.acc0 _ _).volume.bind _ = (Fresh.acc0 _ _).volume.bind _
    rw [e]
  · rw [(interaction_eq i1 h1 kw).1, (interaction_eq hw.inv ho kw).1, run_backend]
    show (Fresh.acc0 _ _).interaction.bind _ = (Fresh.acc0 _ _).interaction.bind _
    rw [e]
  · rw [(calcOp_eq i1 h1 kw).1, (calcOp_eq hw.inv ho kw).1, run_backend]
    show (Fresh.acc0 _ _).calcTry = (Fresh.acc0 _ _).calcTry
    rw [e]

/-! ### derivatives with respect to omega, tau, NormBRDF and bsf -/

/-- Names that jacobian treats in its own branches. -/
def ownNames : List String := ["omega", "tau", "NormBRDF", "bsf"]

theorem jacEntry_own {b : Backend} {o : Obj} (dv ds : String → Py Lam) {norm : Arr} {k : String} (hk : k ∈ ownNames) :
    (Fresh.acc b o dv ds).jacEntry norm k = (Fresh.acc0 b o).jacEntry norm k := by
  simp only [ownNames, List.mem_cons, List.not_mem_nil, or_false] at hk
  rcases hk with rfl | rfl | rfl | rfl <;> rfl

theorem JacSpec.own {b : Backend} {o : Obj} {norm : Arr} {ks : List String} {r : Py (List Arr)} (h : JacSpec b o norm ks r)
    (hk : ∀ k ∈ ks, k ∈ ownNames) : r = (Fresh.acc0 b o).jacLoop norm ks := by
  induction h with
  | nil => rfl
  | err hd h =>
    rw [jacEntry_own _ _ (hk _ (by simp))] at h
    unfold Acc.jacLoop
    rw [h]; rfl
  | rest hd h hr ih =>
    rw [jacEntry_own _ _ (hk _ (by simp))] at h
    unfold Acc.jacLoop
    rw [h, okb, ← ih fun k h => hk k (by simp [h])]; rfl
  | cons hd h hr ih =>
    rw [jacEntry_own _ _ (hk _ (by simp))] at h
    unfold Acc.jacLoop
    rw [h, okb, ← ih fun k h => hk k (by simp [h])]; rfl

theorem jacobianList_own {w : World} (hw : Reachable w) {id : ℕ} {o : Obj} (ho : w.objs id = some o) {ks : List String}
    (hk : ∀ k ∈ ks, k ∈ ownNames) : (jacobianList id ks w).1 = (Fresh.acc0 w.backend o).jacList ks := by
  obtain ⟨h, -⟩ := jacobianList_spec hw ho ks
  unfold Acc.jacList
  cases hx : (Fresh.acc0 w.backend o).jacNorm with
  | error e => rw [hx] at h; exact h
  | ok norm => rw [hx] at h; exact h.own hk

theorem jacList_settings {b : Backend} {o o' : Obj} (h : SameSettings o o') (ks : List String) :
    (Fresh.acc0 b o).jacList ks = (Fresh.acc0 b o').jacList ks := by
  have en : ∀ o, (Fresh.acc0 b o).jacNorm = (Fresh.acc0 b o.settings).jacNorm := fun _ => rfl
  have ee : ∀ o norm k, (Fresh.acc0 b o).jacEntry norm k = (Fresh.acc0 b o.settings).jacEntry norm k := fun _ _ _ => rfl
  unfold Acc.jacList
  rw [en o, en o', h.settings]
  congr 1
  funext norm
  induction ks with
  | nil => rfl
  | cons k ks ih =>
    unfold Acc.jacLoop
    rw [ih, ee o, ee o', h.settings]

/-- **C81** for derivatives: with respect to omega, tau, NormBRDF and bsf `jacobian` depends on the settings only, in every format. -/
theorem C81_jacobian {w w' : World} (hw : Reachable w) (hw' : Reachable w') (hb : w.backend = w'.backend) {id id' : ℕ}
    {o o' : Obj} (ho : w.objs id = some o) (ho' : w'.objs id' = some o') (h : SameSettings o o') {ks : List String}
    (hk : ∀ k ∈ ks, k ∈ ownNames) (format : String) :
    (jacobian id ks format w).1 = (jacobian id' ks format w').1 := by
  rw [jacobian_fmt hw ho, jacobian_fmt hw' ho', jacobianList_own hw ho hk, jacobianList_own hw' ho' hk, h.params, ← hb]
  rw [jacList_settings h]

/-- Inserted evaluations do not change derivatives with respect to omega, tau, NormBRDF and bsf. -/
theorem C81_inserted_jacobian {w : World} (hw : Reachable w) {ops ops' : List Op} (hk : ∀ op ∈ ops, op.Plain) (h : Inserted ops ops')
    {id : ℕ} {o : Obj} (ho : (run w ops).objs id = some o) {ks : List String} (hn : ∀ k ∈ ks, k ∈ ownNames) (format : String) :
    (jacobian id ks format (run w ops)).1 = (jacobian id ks format (run w ops')).1 := by
  have r2 : Reachable (run w ops') := hw.run fun op ho => by
    rcases h.mem ho with h1 | h1
    · exact hk op h1
    · exact h1.plain
  rcases h.sides hw.keeps.any hw.inv.next id with ⟨n1, n2⟩ | ⟨u, o', h1, h2, hs⟩
  · rw [n1] at ho; cases ho
  · exact C81_jacobian (hw.run hk) r2 (by rw [run_backend, run_backend]) h1 h2 hs hn format

/-- With respect to other names (sympy installed alone): whenever both calls succeed the derivatives are the same. -/
theorem C81_jacobian_partial {w w' : World} (hw : Reachable w) (hw' : Reachable w') (hb : w.backend = .sympy) (hb' : w'.backend = .sympy)
    {id id' : ℕ} {o o' : Obj} (ho : w.objs id = some o) (ho' : w'.objs id' = some o') (h : SameSettings o o') {ks : List String} {l l' : List Arr}
    (hl : (jacobianList id ks w).1 = .ok l) (hl' : (jacobianList id' ks w').1 = .ok l') : l = l' := by
  have h1 := jacobianList_fresh hw hb ho ks
  have h2 := jacobianList_fresh hw' hb' ho' ks
  have h1 := h1 l hl
  have h2 := h2 l' hl'
  rw [jacList_settings h, h2] at h1
  exact (Except.ok.inj h1).symm

/-! ### where the full statement fails -/

/-- A state with an object with isotropic functions, ready to be evaluated. -/
theorem peek_demo (b : Backend) : ∃ w o arr, Reachable w ∧ w.backend = b ∧ w.objs 0 = some o ∧ o.intQ = true ∧ o.fnevalsInput = none ∧
    o.fnevals_ = none ∧ Fresh.update o [] = o ∧ (interaction 0 [] w).1 = .ok arr ∧ "tau" ∈ o.params.keys := by
  obtain ⟨arr, w1, he, -, -⟩ := scalar_interaction_call b (V := isoV) (SRF := isoS) false false
    (x := witSite 1 1 0 Real.pi) (mono := true) (l := []) (fun _ => ⟨rfl, by simp [witSite]⟩) (witSite_reports ..)
    (fun n hn => List.mem_append_left _ (isoV_plain n hn))
    (fun n hn => List.mem_append_left _ (isoS_plain n hn)) iso_fnCoefs ⟨0, isoV_ncoefs⟩ ⟨0, isoS_ncoefs⟩
  have hwP := scalarW_reachableP b isoV isoS true false false (witSite 1 1 0 Real.pi) true (fun _ => false)
    (scalarKw (witSite 1 1 0 Real.pi) [])
  have ho := scalarW_obj b isoV isoS true false false (witSite 1 1 0 Real.pi) true (fun _ => false)
    (scalarKw (witSite 1 1 0 Real.pi) [])
  refine ⟨_, _, arr, hwP.reachable, scalarW_backend .., ho, ?_, (hwP.geomOK ho).fneI, (scalar_geom ..).fnevals_, scalar_update .., by rw [he], ?_⟩
  · exact congrArg Cfg.intQ (scalar_cfg isoV isoS true false false (witSite 1 1 0 Real.pi) true (fun _ => false)
      (scalarKw (witSite 1 1 0 Real.pi) []))
  · rw [scalar_keys]; simp

/-- **C81** fails for the interaction term: `R.interaction(); R.int_Q = False; R.interaction()` succeeds,
`R.int_Q = False; R.interaction()` raises. -/
theorem C81_counterexample (b : Backend) : ∃ w ops ops', Reachable w ∧ w.backend = b ∧ (∀ op ∈ ops, op.Plain) ∧ Inserted ops ops' ∧
    ops = [.setIntQ 0 false] ∧ ops' = [.interaction 0 [], .setIntQ 0 false] ∧
    (∃ e, (interaction 0 [] (run w ops)).1 = .error e) ∧ ∃ x, (interaction 0 [] (run w ops')).1 = .ok x := by
  obtain ⟨w, o, arr, hw, hb, ho, hq, hfi, hfe, hu, hx, -⟩ := peek_demo b
  have hB := fun h => by have := bsf_known o [] h; rw [hu] at this; exact this
  have hin : Inserted [.setIntQ 0 false] [.interaction 0 [], .setIntQ 0 false] :=
    Inserted.call (.setIntQ 0 false) (ops := []) (ops' := [.interaction 0 []])
      (Inserted.look (.interaction 0 []) (ops' := []) Inserted.start rfl)
  refine ⟨w, _, _, hw, hb, ?_, hin, rfl, rfl, ?_, ?_⟩
  · intro op h
    rw [List.mem_singleton.1 h]; trivial
  · have hr : Reachable (run w [.setIntQ 0 false]) := hw.step (op := .setIntQ 0 false) trivial
    have h1 : (run w [.setIntQ 0 false]).objs 0 = some { o with intQ := false } := modObj_get ho _
    have hu' : Fresh.update { o with intQ := false } [] = { o with intQ := false } := update_nil hB
    rw [(interaction_eq hr.inv h1 []).1, hu']
    generalize (run w [.setIntQ 0 false]).backend = b'
    cases hi : (Fresh.acc0 b' { o with intQ := false }).interaction with
    | error e => exact ⟨e, by unfold Fresh.interaction; rw [hi]; rfl⟩
    | ok x =>
      exfalso
      have hn : (Fresh.acc0 b' { o with intQ := false }).fnevals = .ok none := by
        show Fresh.fnevals b' { o with intQ := false } = _
        unfold Fresh.fnevals
        simp only [hfe, hfi]
        rfl
      unfold Acc.interaction at hi
      cases hy : (Fresh.acc0 b' { o with intQ := false }).fint1 with
      | error e => rw [hy] at hi; cases hi
      | ok y =>
        unfold Acc.fint1 Acc.fint at hy
        obtain ⟨a, -, hy⟩ := ok_bind hy
        obtain ⟨pd, -, hy⟩ := ok_bind hy
        obtain ⟨args, -, hy⟩ := ok_bind hy
        obtain ⟨f, hf, hy⟩ := ok_bind hy
        rw [hn] at hf
        cases hf
        obtain ⟨_, h, -⟩ := ok_bind hy
        cases h
  · cases he : interaction 0 [] w with
    | mk r w1 =>
      rw [he] at hx
      simp only at hx
      subst hx
      obtain ⟨u, o1, hco⟩ := interaction_callOK hw he
      have : u = o := by have := hco.before; rw [ho] at this; cases this; rfl
      subst this
      have hf := hco.filled
      rw [hu] at hf
      have hr : o1.Compiled := by
        have h1 := interaction_ready 0 [] w arr (by rw [he])
        rw [he] at h1
        exact h1 o1 hco.after
      obtain ⟨l, hl⟩ : ∃ l, o1.fnevals_ = some l := by
        rcases hr with h1 | h1 | h1
        · exact Option.isSome_iff_exists.1 h1
        · rw [hf.fnevalsInput, hfi] at h1; cases h1
        · rw [hf.intQ, hq] at h1; cases h1
      have hs : (step (.interaction 0 []) w).2 = w1 := by
        rw [show (step (.interaction 0 []) w).2 = (interaction 0 [] w).2 from bind_pure_state _ _, he]
      have hrun : run w [.interaction 0 [], .setIntQ 0 false] = (step (.setIntQ 0 false) w1).2 := by
        rw [← hs]; rfl
      have hw1 : Reachable w1 := by rw [← hs]; exact hw.step (op := .interaction 0 []) trivial
      rw [hrun]
      have h1 : (step (.setIntQ 0 false) w1).2.objs 0 = some { o1 with intQ := false } := modObj_get hco.after _
      have hu' : Fresh.update { o1 with intQ := false } [] = { o1 with intQ := false } :=
        update_nil (o := { o1 with intQ := false }) (by
          show o1.pdef .bsf = _ → "bsf" ∈ o1.params.keys
          rw [hf.pdef, hf.params]; exact hB)
      have hr2 : Reachable (step (.setIntQ 0 false) w1).2 := hw1.step (op := .setIntQ 0 false) trivial
      have hb2 : (step (.setIntQ 0 false) w1).2.backend = w.backend := by
        rw [show (step (.setIntQ 0 false) w1).2 = run w [.interaction 0 [], .setIntQ 0 false] from hrun.symm, run_backend]
      rw [(interaction_eq hr2.inv h1 []).1, hu', hb2]
      have hval : Except.ok arr = Fresh.interaction w.backend u := by
        have := (interaction_eq hw.inv ho []).1
        rw [he, hu] at this
        exact this
      have e1 : Fresh.fnevals w.backend { o1 with intQ := false } = Fresh.fnevals w.backend o1 := by
        unfold Fresh.fnevals
        simp only [hl]
      have e2 : Fresh.acc0 w.backend { o1 with intQ := false } =
          { Fresh.acc0 w.backend o1 with intQ := .ok false, fnevals := Fresh.fnevals w.backend { o1 with intQ := false } } := rfl
      refine ⟨arr, ?_⟩
      rw [hval]
      unfold Fresh.interaction
      rw [e2, e1, ← hf.acc0]
      rfl

/-! ### the hypotheses are met -/

example (b : Backend) : ∃ w ops ops', ReachableK w ∧ w.backend = b ∧ (∀ op ∈ ops, op.Keeps) ∧ Inserted ops ops' ∧
    ops = [.setIntQ 0 false] ∧ ops' = [.interaction 0 [], .setIntQ 0 false] ∧ ∃ o, (run w ops).objs 0 = some o ∧ o.intQ = false := by
  obtain ⟨w, o, arr, hw, hb, ho, -, -, -, hu, -, -⟩ := peek_demo b
  refine ⟨w, _, _, hw.keeps, hb, ?_, Inserted.call (.setIntQ 0 false) (ops := []) (ops' := [.interaction 0 []])
      (Inserted.look (.interaction 0 []) (ops' := []) Inserted.start rfl), rfl, rfl, _, modObj_get ho _, rfl⟩
  intro op h
  rw [List.mem_singleton.1 h]; trivial

/-- Evaluate the interaction term twice, then give another value of tau. -/
example (b : Backend) : ∃ w o x, Reachable w ∧ w.backend = b ∧ w.objs 0 = some o ∧
    Inserted [] [.interaction 0 [], .jacobian 0 ["tau"] "list", .clearCaches 0] ∧ (interaction 0 [] w).1 = .ok x ∧
    ∀ k ∈ Dict.keys [("tau", Arr.lit 2)], k ∈ o.params.keys := by
  obtain ⟨w, o, arr, hw, hb, ho, -, -, -, hu, hx, ht⟩ := peek_demo b
  refine ⟨w, o, arr, hw, hb, ho, ?_, hx, ?_⟩
  · exact Inserted.look (.clearCaches 0) (ops' := [.interaction 0 [], .jacobian 0 ["tau"] "list"])
      (Inserted.look (.jacobian 0 ["tau"] "list") (ops' := [.interaction 0 []])
        (Inserted.look (.interaction 0 []) (ops' := []) Inserted.start rfl) trivial) trivial
  · intro k hk
    simp [Dict.keys] at hk
    rw [hk]; exact ht

/-- Objects with the same settings that are not equal: one of them has been evaluated. -/
example (b : Backend) : ∃ w w' o o', Reachable w ∧ Reachable w' ∧ w.backend = b ∧ w'.backend = b ∧ w.objs 0 = some o ∧
    w'.objs 0 = some o' ∧ SameSettings o o' ∧ o ≠ o' ∧ ∀ k ∈ ["tau", "bsf"], k ∈ ownNames := by
  obtain ⟨w, o, arr, hw, hb, ho, hq, hfi, hfe, hu, hx, -⟩ := peek_demo b
  have hin : Inserted [] [.interaction 0 []] := Inserted.look (.interaction 0 []) (ops' := []) Inserted.start rfl
  have hs : run w [.interaction 0 []] = (interaction 0 [] w).2 := bind_pure_state _ _
  rcases hin.sides hw.keeps.any hw.inv.next 0 with ⟨n1, -⟩ | ⟨u, o', h1, h2, hss⟩
  · rw [show (run w []).objs 0 = w.objs 0 from rfl, ho] at n1; cases n1
  · have : u = o := by
      rw [show (run w []).objs 0 = w.objs 0 from rfl, ho] at h1; cases h1; rfl
    subst this
    refine ⟨w, _, u, o', hw, hw.step (op := .interaction 0 []) trivial, hb, (run_backend w [.interaction 0 []]).trans hb, ho, h2, hss, ?_, ?_⟩
    · rintro rfl
      have hr : u.Compiled := by
        have h3 := interaction_ready 0 [] w arr hx
        rw [← hs] at h3
        exact h3 u h2
      rcases hr with h3 | h3 | h3
      · rw [hfe] at h3; cases h3
      · rw [hfi] at h3; cases h3
      · rw [hq] at h3; cases h3
    · intro k hk
      simp only [List.mem_cons, List.not_mem_nil, or_false] at hk
      rcases hk with rfl | rfl <;> simp [ownNames]

end

end RT1
