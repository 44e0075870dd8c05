import Verif.Props.Stale
import Verif.Lemmas.ScalarCall
import Verif.Lemmas.IsoErr
import Verif.Props.Interaction

/-!
# Assigning another scattering function
-/

namespace RT1

noncomputable section
open Classical

/-! ## C14 -/

/-- Every object is replaced by a new one with the same attributes `V`, `SRF`, settings, angles
and parameter values: no memo tables, no stored coefficients. -/
def World.rebuilt (w : World) : World := { w.forget with objs := fun j => (w.objs j).map Obj.core }

theorem rebuilt_objs {w : World} {id : ℕ} {o : Obj} (h : w.objs id = some o) :
    w.rebuilt.objs id = some o.core := by
  show (w.objs id).map Obj.core = _
  rw [h]; rfl

theorem Inv.rebuilt {full : Bool} {w : World} (h : ∀ id, w.next ≤ id → w.objs id = none) :
    Inv full w.rebuilt where
  next := fun id hid => by
    show (w.objs id).map Obj.core = none
    rw [h id hid]; rfl
  mu0 := TabOK.nil _
  muEx := TabOK.nil _
  psym := TabOK.nil _
  pfun := TabOK.nil _
  mu0x := fun _ => TabOK.nil _
  muExx := fun _ => TabOK.nil _
  obj := fun _ id o ho => by
    have ho' : (w.objs id).map Obj.core = some o := ho
    cases hx : w.objs id with
    | none => rw [hx] at ho'; cases ho'
    | some x => rw [hx] at ho'; cases ho'; exact ObjOK.of_none rfl rfl

theorem AccRef.calcBody_noInt {I : World → Prop} {A : Acc M} {B : Acc Py} (h : AccRef I A B)
    (hq : B.intQ = .ok false) : Refines I A.calcBody B.calcBody := by
  have hif : ∀ {x x' : M Arr} {y y' : Py Arr} {q : Bool}, B.intQ = .ok q → Refines I x' y' →
      Refines I (if q = true then x else x') (if q = true then y else y') := by
    intro x x' y y' q hb hx
    rw [hq] at hb; cases hb
    simpa using hx
  unfold Acc.calcBody
  refine Refines.bind (h.par .tau) fun t _ => Refines.ite (fun _ => ?_) fun _ => ?_
  · refine Refines.bind h.surface fun a _ => Refines.bind (h.par .tau) fun t' _ =>
      Refines.ite (fun _ => ?_) fun _ => ?_
    · refine Refines.bind h.volume fun v _ => Refines.bind h.intQ fun q hb => ?_
      exact hif hb (h.finish _ _ _ _)
    · exact Refines.bind h.intQ fun q _ => h.finish _ _ _ _
  · refine Refines.bind h.surface fun a _ => Refines.bind h.volume fun v _ =>
      Refines.bind h.intQ fun q hb => ?_
    exact hif hb (h.finish _ _ _ _)

theorem AccRef.calcTry_noInt {I : World → Prop} {A : Acc M} {B : Acc Py} (h : AccRef I A B)
    (hq : B.intQ = .ok false) : Refines I A.calcTry B.calcTry := by
  unfold Acc.calcTry
  refine Refines.tryCatch (h.calcBody_noInt hq) fun e => ?_
  have h2 := h.missingNames
  cases e <;> simp only <;> try exact Refines.throw _
  exact Refines.bind h2 fun ns _ => Refines.ite (fun _ => Refines.throw _) fun _ => Refines.throw _

theorem calcOp_noInt {full : Bool} {w : World} (hw : Inv full w) {id : ℕ} {o : Obj}
    (ho : w.objs id = some o) (hq : o.intQ = false) (kw : Dict) :
    (calcOp id kw w).1 = Fresh.calcAll w.backend (Fresh.update o kw) := by
  refine (evalOp_eq (f := fun b => (Self.acc b id).calcTry) hw ho kw ?_).1
  have h := accRef (full := full) (w0 := w.updated id o kw) (id := id) (o := Fresh.update o kw)
    (S := fun _ _ => True) (Fresh.dVol w.backend (Fresh.update o kw))
    (Fresh.dSrf w.backend (Fresh.update o kw))
  exact h.calcTry_noInt (congrArg Except.ok hq)

theorem Acc.calcBody_congr {A B : Acc Py} (hq : A.intQ = .ok false) (hq' : B.intQ = .ok false)
    (hs : A.surface = B.surface) (hv : A.volume = B.volume) (ht : A.par .tau = B.par .tau)
    (hf : ∀ q a b c, A.finish q a b c = B.finish q a b c) : A.calcBody = B.calcBody := by
  unfold Acc.calcBody
  rw [hs, hv, ht, hq, hq']
  simp only [hf]
  rfl

/-- **C14** (partial). In any state (after any history that may assign `R.V` and `R.SRF` at any
time, but does not overwrite angle arrays in place) `surface`, `volume` and, without interaction
term, `calc` return what a new object with the current attributes returns.  Missing: the
interaction term, which keeps the old coefficients (see below). -/
theorem C14_partial {w : World} (h : ReachableK w) (id : ℕ) (kw : Dict) :
    (surface id kw w).1 = (surface id kw w.rebuilt).1 ∧
    (volume id kw w).1 = (volume id kw w.rebuilt).1 ∧
    ∀ o, w.objs id = some o → o.intQ = false → (calcOp id kw w).1 = (calcOp id kw w.rebuilt).1 := by
  have hi := h.inv
  have hr : Inv false w.rebuilt := Inv.rebuilt hi.next
  cases ho : w.objs id with
  | none =>
    have ho' : w.rebuilt.objs id = none := by
      show (w.objs id).map Obj.core = none
      rw [ho]; rfl
    refine ⟨?_, ?_, fun o h => by cases h⟩
    · rw [surface_none ho, surface_none ho']
    · rw [volume_none ho, volume_none ho']
  | some o =>
    refine ⟨?_, ?_, fun o' ho' hq => ?_⟩
    · rw [(surface_eq hi ho kw).1, (surface_eq hr (rebuilt_objs ho) kw).1]; rfl
    · rw [(volume_eq hi ho kw).1, (volume_eq hr (rebuilt_objs ho) kw).1]; rfl
    · cases ho'
      rw [calcOp_noInt hi ho hq kw, calcOp_noInt hr (rebuilt_objs ho) hq kw]
      have hb : (Fresh.acc0 w.backend (Fresh.update o kw)).calcBody =
          (Fresh.acc0 w.backend (Fresh.update o.core kw)).calcBody :=
        Acc.calcBody_congr (congrArg Except.ok hq) (congrArg Except.ok hq) rfl rfl rfl fun _ _ _ _ => rfl
      show (Fresh.acc0 w.backend (Fresh.update o kw)).calcTry =
        (Fresh.acc0 w.backend (Fresh.update o.core kw)).calcTry
      unfold Acc.calcTry
      rw [hb]
      rfl

/-- Calls on one object after which its scattering functions may have been replaced. -/
def InvBut (id : ℕ) (w : World) : Prop :=
  Inv false w ∧ ∀ j, j ≠ id → ∀ o, w.objs j = some o → ObjOK w.backend o

theorem InvBut.step {id : ℕ} {op : Op} (ht : op.target = some id) (hc : ¬ op.creates) (hk : op.Keeps) :
    Safe (InvBut id) (RT1.step op) := by
  rintro w ⟨h1, h2⟩
  refine ⟨Inv.step (fun h => by cases h) (by rintro i n a rfl; exact hk) w h1, fun j hj o ho => ?_⟩
  have hf := frame_step ht hc w w (FrameP.refl w id)
  rw [hf.backend]
  rw [hf.objs j hj] at ho
  exact h2 j hj o ho

theorem InvReset.full {id : ℕ} {w : World} (h : InvReset false id w)
    (h2 : ∀ j, j ≠ id → ∀ o, w.objs j = some o → ObjOK w.backend o) : InvReset true id w := by
  refine ⟨⟨h.1.next, h.1.mu0, h.1.muEx, h.1.psym, h.1.pfun, fun _ => ?_, fun _ => ?_, fun _ j o ho => ?_⟩,
    h.2.1, h.2.2⟩
  · rw [h.2.1.2.2.1]; exact TabOK.nil _
  · rw [h.2.1.2.2.2]; exact TabOK.nil _
  · by_cases hj : j = id
    · subst hj
      obtain ⟨a, b⟩ := h.2.2 o ho
      exact ObjOK.of_none a b
    · exact h2 j hj o ho

/-- A mode call on the object. -/
def Op.Mode (id : ℕ) : Op → Prop
  | .setMonostatic i _ => i = id
  | .setBistatic i _ _ _ _ => i = id
  | _ => False

/-- The object has no stored coefficients. -/
def Bare (id : ℕ) (w : World) : Prop := ∀ o, w.objs id = some o → o.fn_ = none ∧ o.fnevals_ = none

theorem fixLoop_bare (l : List (AngN × Option PyArg)) : ∀ o : Obj, o.fn_ = none ∧ o.fnevals_ = none →
    (Obj.fixLoop l o).fn_ = none ∧ (Obj.fixLoop l o).fnevals_ = none := by
  induction l with
  | nil => exact fun o h => h
  | cons p l ih =>
    intro o h
    obtain ⟨n, p⟩ := p
    cases p with
    | none => exact ih o h
    | some a =>
      cases a with
      | other => exact h
      | number r => exact ih _ h

theorem angLoop_bare (l : List (String × Option Arr)) : ∀ o : Obj, o.fn_ = none ∧ o.fnevals_ = none →
    (Obj.angLoop l o).fn_ = none ∧ (Obj.angLoop l o).fnevals_ = none := by
  induction l with
  | nil => exact fun o h => h
  | cons p l ih =>
    intro o h
    obtain ⟨k, v⟩ := p
    unfold Obj.angLoop
    cases AngN.ofName k with
    | none => exact ih o h
    | some n =>
      simp only
      split_ifs
      · exact h
      · cases v with
        | none => exact h
        | some a => exact ih _ h

theorem after_bare {o : Obj} (h : o.fn_ = none ∧ o.fnevals_ = none) {id : ℕ} {op : Op} (hs : op.Sets id) :
    (o.after op).fn_ = none ∧ (o.after op).fnevals_ = none := by
  cases op <;> first | exact hs.elim | exact h | skip
  case setMonostatic p =>
    cases p with
    | none => exact ⟨rfl, rfl⟩
    | some a => cases a <;> exact ⟨rfl, rfl⟩
  case setBistatic a b c d =>
    have := fixLoop_bare [(.t0, a), (.tex, b), (.p0, c), (.pex, d)] (o.reset false) ⟨rfl, rfl⟩
    show (o.afterBi a b c d).fn_ = none ∧ (o.afterBi a b c d).fnevals_ = none
    unfold Obj.afterBi
    simp only
    split_ifs
    · exact this
    · exact this
  case setGeometry kw =>
    show (o.afterGeom kw).fn_ = none ∧ (o.afterGeom kw).fnevals_ = none
    unfold Obj.afterGeom
    split_ifs
    · exact h
    · exact h
    · exact angLoop_bare kw o h

theorem Bare.step {id : ℕ} {op : Op} (hs : op.Sets id) : Safe (Bare id) (RT1.step op) := by
  intro w hw o ho
  cases hx : w.objs id with
  | none =>
    have ht : op.target = some id ∧ ¬ op.creates := by
      cases op <;> first | exact hs.elim | exact ⟨congrArg some hs, fun h => h⟩
    have := (frame_step ht.1 ht.2 w w (FrameP.refl w id)).ex
    rw [ho, hx] at this
    cases this
  | some x =>
    rw [sets_obj hx hs] at ho
    cases ho
    exact after_bare (hw x hx) hs

/-- **C14** (partial), with interaction term.  If, in any state reached without assignments, the
scattering functions of an object are replaced (any calls on that object, assignments included),
and afterwards the geometry mode is set again, then from then on -- after any further settings --
all evaluations return what a new object with the current attributes returns. -/
theorem C14_mode_partial {w : World} (h : Reachable w) {id : ℕ} {ops : List Op}
    (hops : ∀ op ∈ ops, op.target = some id ∧ ¬ op.creates ∧ op.Keeps) {op : Op} (hm : op.Mode id)
    {ops' : List Op} (hops' : ∀ op ∈ ops', op.Sets id ∧ op.Plain) (kw : Dict) :
    let w' := run (step op (run w ops)).2 ops'
    (surface id kw w').1 = (surface id kw w'.rebuilt).1 ∧
    (volume id kw w').1 = (volume id kw w'.rebuilt).1 ∧
    (interaction id kw w').1 = (interaction id kw w'.rebuilt).1 ∧
    (calcOp id kw w').1 = (calcOp id kw w'.rebuilt).1 := by
  intro w'
  have h1 : InvBut id (run w ops) :=
    run_induction (P := InvBut id) (fun op hop => InvBut.step (hops op hop).1 (hops op hop).2.1 (hops op hop).2.2)
      ⟨h.keeps.inv, fun j _ o ho => h.inv.obj rfl j o ho⟩
  have h2 : InvReset true id (step op (run w ops)).2 := by
    cases op <;> first | exact hm.elim | (have hm' := hm; simp only [Op.Mode] at hm'; subst hm')
    case setMonostatic p =>
      have hb := InvBut.step (op := .setMonostatic _ p) rfl (fun h => h) trivial _ h1
      exact InvReset.full (Inv.setMonostatic p _ h1.1) hb.2
    case setBistatic a b c d =>
      have hb := InvBut.step (op := .setBistatic _ a b c d) rfl (fun h => h) trivial _ h1
      exact InvReset.full (Inv.setBistatic a b c d _ h1.1) hb.2
  have hi : Inv true w' :=
    run_induction (P := Inv true) (fun op hop => Inv.step (fun _ => (hops' op hop).2)
      (by rintro i n a rfl; exact (hops' _ hop).2)) h2.1
  have hb : Bare id w' :=
    run_induction (P := Bare id) (fun op hop => Bare.step (hops' op hop).1) h2.2.2
  have hr : Inv true w'.rebuilt := Inv.rebuilt hi.next
  cases ho : w'.objs id with
  | none =>
    have ho' : w'.rebuilt.objs id = none := by
      show (w'.objs id).map Obj.core = none
      rw [ho]; rfl
    rw [surface_none ho, surface_none ho', volume_none ho, volume_none ho', interaction_none ho,
      interaction_none ho', calcOp_none ho, calcOp_none ho']
    exact ⟨rfl, rfl, rfl, rfl⟩
  | some o =>
    have hc : o.core = o := by
      obtain ⟨a, b⟩ := hb o ho
      unfold Obj.core
      rw [← a, ← b]
    have ho' := rebuilt_objs ho
    rw [hc] at ho'
    rw [(surface_eq hi ho kw).1, (surface_eq hr ho' kw).1, (volume_eq hi ho kw).1, (volume_eq hr ho' kw).1,
      (interaction_eq hi ho kw).1, (interaction_eq hr ho' kw).1, (calcOp_eq hi ho kw).1, (calcOp_eq hr ho' kw).1]
    exact ⟨rfl, rfl, rfl, rfl⟩

theorem fnevals_compiled {b : Backend} {o : Obj} (h : o.Compiled) (V' S' : Scatter) :
    Fresh.fnevals b { o with V := V', SRF := S' } = Fresh.fnevals b o := by
  unfold Fresh.fnevals
  unfold Obj.Compiled at h
  simp only
  cases h1 : o.fnevals_ with
  | some l => rfl
  | none =>
    cases h2 : o.fnevalsInput with
    | some l => rfl
    | none =>
      rw [h1, h2] at h
      have hq : o.intQ = false := by simpa using h
      simp [hq]

/-- After a successful `interaction` call, assigning other scattering functions with the same
`ncoefs` does not change what `interaction` returns, whatever the new functions are. -/
theorem C14_interaction_stale {w0 : World} (h : Reachable w0) {id : ℕ} {kw0 : Dict} {z : Arr} {w : World}
    (hz : interaction id kw0 w0 = (.ok z, w)) {o : Obj} (ho : w.objs id = some o) {V' S' : Scatter}
    (hV : V'.ncoefs = o.V.ncoefs) (hS : S'.ncoefs = o.SRF.ncoefs) (kw : Dict) :
    (interaction id kw (run w [.setV id V', .setSRF id S'])).1 = (interaction id kw w).1 := by
  have hi : Inv true w := by
    have hr : Reachable (step (.interaction id kw0) w0).2 := h.step trivial
    have : (step (.interaction id kw0) w0).2 = w := by
      rw [show (step (.interaction id kw0) w0).2 = (interaction id kw0 w0).2 from bind_pure_state _ _, hz]
    rw [← this]; exact hr.inv
  have hrdy : o.Compiled := by
    have := interaction_ready id kw0 w0 z (by rw [hz])
    rw [hz] at this
    exact this o ho
  set w2 := run w [.setV id V', .setSRF id S'] with hw2
  set o2 : Obj := { o with V := V', SRF := S' } with ho2d
  have ho2 : w2.objs id = some o2 := by
    have e1 := modObj_get ho fun o => { o with V := V' }
    exact modObj_get e1 fun o => { o with SRF := S' }
  have hip : InvP w2 := by
    rw [hw2]
    exact run_induction (P := InvP) (fun op _ => InvP.step op) hi.toP
  have hn : ∀ o' : Obj, o'.V = o.V → o'.SRF = o.SRF →
      Fresh.nmax { o' with V := V', SRF := S' } = Fresh.nmax o' := by
    intro o' h1 h2
    unfold Fresh.nmax
    simp only
    rw [hV, hS, h1, h2]
  have hread : ∀ (t : LRU ℕ Arr) (g : Obj → Py Arr), TabOK t (fun id a => Holds w id fun o => g o = .ok a) →
      Reads t id (g o) (g o) := fun t g ht =>
    ⟨fun v hv => by obtain ⟨x, hx, hx'⟩ := ht _ _ hv; rw [ho] at hx; cases hx; exact hx', fun _ => rfl⟩
  have hfr : Frozen w.backend id (Fresh.update o2 kw)
      ⟨Fresh.mu0 o, Fresh.muEx o, Fresh.mu0x o, Fresh.muExx o⟩ (w2.updated id o2 kw) := by
    refine ⟨rfl, World.updated_objs .., ?_, ?_, ?_, ?_, ?_⟩
    · exact hread _ _ hi.mu0
    · exact hread _ _ hi.muEx
    · have : powersOf (Fresh.update o2 kw) (Fresh.mu0 o) = Fresh.mu0x o := by
        show (Fresh.nmax { Fresh.update o kw with V := V', SRF := S' } >>= _) = _
        rw [hn (Fresh.update o kw) rfl rfl]
        rfl
      rw [this]
      exact hread _ _ (hi.mu0x rfl)
    · have : powersOf (Fresh.update o2 kw) (Fresh.muEx o) = Fresh.muExx o := by
        show (Fresh.nmax { Fresh.update o kw with V := V', SRF := S' } >>= _) = _
        rw [hn (Fresh.update o kw) rfl rfl]
        rfl
      rw [this]
      exact hread _ _ (hi.muExx rfl)
    · have := InvP.step (.updateParams id kw) w2 hip
      rw [show (step (.updateParams id kw) w2).2 = (updateParams id kw w2).2 from rfl, updateParams_eq ho2] at this
      exact this
  rw [(interaction_eq hi ho kw).1]
  show ((updateParams id kw >>= fun _ => getW >>= fun w => _) w2).1 = _
  rw [bind_ok (updateParams_eq ho2 kw)]
  show ((do let x ← (Self.acc w.backend id).interaction; (Self.acc w.backend id).convert x)
    (w2.updated id o2 kw)).1 = _
  have hA := Frozen.acc (b := w.backend) (id := id) (o := Fresh.update o2 kw)
    (c := ⟨Fresh.mu0 o, Fresh.muEx o, Fresh.mu0x o, Fresh.muExx o⟩)
  have hI := Frozen.accInt (b := w.backend) (id := id) (o := Fresh.update o2 kw)
    (c := ⟨Fresh.mu0 o, Fresh.muEx o, Fresh.mu0x o, Fresh.muExx o⟩) hrdy
  rw [((Refines.bind (hA.interaction hI) fun x _ => hA.convert x) _ hfr).1]
  set A := Fresh.accWith w.backend (Fresh.update o2 kw) ⟨Fresh.mu0 o, Fresh.muEx o, Fresh.mu0x o, Fresh.muExx o⟩ with hAd
  have e1 : A.nmax = (Fresh.acc0 w.backend (Fresh.update o kw)).nmax := by
    show (do let nV ← liftPy V'.ncoefs; let nS ← liftPy S'.ncoefs; pure (nV + nS - 1) : Py ℕ) = _
    rw [hV, hS]
    rfl
  have e2 : A.fnevals = (Fresh.acc0 w.backend (Fresh.update o kw)).fnevals := by
    exact fnevals_compiled (o := Fresh.update o kw) hrdy V' S'
  show _ = ((Fresh.acc0 w.backend (Fresh.update o kw)).interaction >>=
    fun x => (Fresh.acc0 w.backend (Fresh.update o kw)).convert x)
  unfold Acc.interaction Acc.fint1 Acc.fint2 Acc.fint
  rw [e1, e2]
  rfl

/-- A volume function with the parameter `x`. -/
def hgX : Scatter := .prim (.volHG (.sym "x")) volA (some 1)

theorem fnCall_error {b : Backend} {o : Obj} {f : FnLam} {args : List Arr}
    (h : ∃ e, f.call b args = .error e) : ∃ e, (Fresh.acc0 b o).fnCall f args = .error e := by
  obtain ⟨e, he⟩ := h
  exact ⟨e, (liftPy_py _).trans he⟩

theorem fint_error {A : Acc Py} {ang : Py (List Arr)} {mux mu : Py Arr}
    (h : ∀ f, A.fnevals = .ok (some f) → ∀ args, ∃ e, A.fnCall f args = .error e) :
    ∃ e, A.fint ang mux mu = .error e := by
  unfold Acc.fint
  cases ang with
  | error e => exact ⟨e, rfl⟩
  | ok a =>
    cases hp : A.params with
    | error e => exact ⟨e, rfl⟩
    | ok pd =>
      simp only [okb, liftPy_py]
      cases Arr.broadcastArrays (a ++ pd.map Prod.snd) with
      | error e => exact ⟨e, rfl⟩
      | ok args =>
        cases hf : A.fnevals with
        | error e => exact ⟨e, rfl⟩
        | ok f =>
          cases f with
          | none => exact ⟨_, rfl⟩
          | some f =>
            obtain ⟨e, he⟩ := h f hf args
            simp only [okb]
            rw [he]
            exact ⟨e, rfl⟩

/-- Coefficients of functions with an unknown parameter cannot be evaluated. -/
theorem fnevals_unknown {b : Backend} {o : Obj} {s : String} (hs : s ∈ o.V.phase.free ++ o.SRF.phase.free)
    (hn : s ∉ Self.fnVars o.params) (h1 : o.fnevals_ = none) (h2 : o.fnevalsInput = none) {f : FnLam}
    (hf : Fresh.fnevals b o = .ok (some f)) (args : List Arr) : ∃ e, f.call b args = .error e := by
  unfold Fresh.fnevals at hf
  rw [h1, h2] at hf
  simp only at hf
  by_cases hq : o.intQ = true
  · rw [if_pos hq] at hf
    cases hx : Fresh.fn o with
    | error e => rw [hx] at hf; cases hf
    | ok g =>
      rw [hx] at hf
      cases g with
      | none => cases hf
      | some g =>
        simp only [okb] at hf
        unfold Fresh.fnCompile at hf
        simp only at hf
        split_ifs at hf with hc
        · cases hf
        · cases hf
          unfold FnLam.call
          split_ifs with h3 h4
          · exact ⟨_, rfl⟩
          · exact ⟨_, rfl⟩
          · exact absurd ⟨s, hs, hn⟩ h4
          · exact absurd ⟨s, hs, hn⟩ h4
  · rw [if_neg hq] at hf; cases hf

/-- **C14** is false for the interaction term: an object with isotropic functions whose
interaction term was evaluated gets a Henyey-Greenstein volume function with an unknown parameter
`x` (and its surface function again). `R.interaction()` still returns the value for the isotropic function; a new object raises. -/
theorem C14_counterexample :
    let w := run (scalarW .sympy isoV isoS true false false (witSite 1 1 0 Real.pi) true (fun _ => false)
      (scalarKw (witSite 1 1 0 Real.pi) [])) [.interaction 0 [], .setV 0 hgX, .setSRF 0 isoS]
    ReachableK w ∧ (∃ z, (interaction 0 [] w).1 = .ok z) ∧
    ∃ e, (interaction 0 [] w.rebuilt).1 = .error e := by
  obtain ⟨arr, w1, he, -, -⟩ := scalar_interaction_call .sympy (V := isoV) (SRF := isoS) false false
    (x := witSite 1 1 0 Real.pi) (mono := true) (l := []) (fun _ => ⟨rfl, by simp [witSite]⟩) (witSite_reports ..)
    (fun n hn => List.mem_append_left _ (isoV_plain n hn))
    (fun n hn => List.mem_append_left _ (isoS_plain n hn)) iso_fnCoefs ⟨0, isoV_ncoefs⟩ ⟨0, isoS_ncoefs⟩
  have hwP := scalarW_reachableP .sympy isoV isoS true false false (witSite 1 1 0 Real.pi) true (fun _ => false)
    (scalarKw (witSite 1 1 0 Real.pi) [])
  have hw0 := hwP.reachable
  have ho := scalarW_obj .sympy isoV isoS true false false (witSite 1 1 0 Real.pi) true (fun _ => false)
    (scalarKw (witSite 1 1 0 Real.pi) [])
  have hgo := hwP.geomOK ho
  have hb := scalarW_backend .sympy isoV isoS true false false (witSite 1 1 0 Real.pi) true (fun _ => false)
    (scalarKw (witSite 1 1 0 Real.pi) [])
  have hu := scalar_update isoV isoS true false false (witSite 1 1 0 Real.pi) true (fun _ => false)
    (scalarKw (witSite 1 1 0 Real.pi) [])
  have hk := scalar_keys isoV isoS true false false (witSite 1 1 0 Real.pi) true (fun _ => false) []
  have hc := scalar_cfg isoV isoS true false false (witSite 1 1 0 Real.pi) true (fun _ => false)
    (scalarKw (witSite 1 1 0 Real.pi) [])
  generalize scalarW .sympy isoV isoS true false false (witSite 1 1 0 Real.pi) true (fun _ => false)
    (scalarKw (witSite 1 1 0 Real.pi) []) = w0 at *
  generalize scalarObj isoV isoS true false false (witSite 1 1 0 Real.pi) true (fun _ => false)
    (scalarKw (witSite 1 1 0 Real.pi) []) = o at *
  intro w
  have hE := interaction_eq hw0.inv ho []
  rw [hu, hb, he] at hE
  obtain ⟨hE1, hE2⟩ := hE
  have hE1 : Except.ok arr = Fresh.interaction .sympy o := hE1
  obtain ⟨o1, ho1, hf1⟩ := hE2.obj
  have hb1 : w1.backend = .sympy := hE2.backend.trans hb
  have hcore : o1 = { o with fn_ := o1.fn_, fnevals_ := o1.fnevals_ } := by
    have := hf1.core
    cases o1
    simpa [Obj.core] using this
  have hw : w = run w1 [.setV 0 hgX, .setSRF 0 isoS] := by
    show run w0 (.interaction 0 [] :: _) = _
    rw [run_cons, show (step (.interaction 0 []) w0).2 = (interaction 0 [] w0).2 from bind_pure_state _ _, he]
  have hV : o.V = isoV := congrArg Cfg.V hc
  have hS : o.SRF = isoS := congrArg Cfg.SRF hc
  have hu1 : Fresh.update o1 [] = o1 := by
    rw [hcore]
    show { Fresh.update o [] with fn_ := o1.fn_, fnevals_ := o1.fnevals_ } = _
    rw [hu]
  refine ⟨?_, ⟨arr, ?_⟩, ?_⟩
  · have := ((hw0.step (op := .interaction 0 []) trivial).keeps.step (op := .setV 0 hgX) trivial).step
      (op := .setSRF 0 isoS) trivial
    exact this
  · rw [hw, C14_interaction_stale hw0 he ho1 (V' := hgX) (S' := isoS)
      (by rw [hf1.V, hV, isoV_ncoefs]; simp [hgX, Scatter.ncoefs]) (by rw [hf1.SRF, hS]) []]
    rw [(interaction_eq hE2.inv ho1 []).1, hu1, hb1, hE1]
    show ((Fresh.acc0 .sympy o1).interaction >>= fun x => (Fresh.acc0 .sympy o1).convert x) =
      ((Fresh.acc0 .sympy o).interaction >>= fun x => (Fresh.acc0 .sympy o).convert x)
    have e : (Fresh.acc0 .sympy o1).fnevals = (Fresh.acc0 .sympy o).fnevals := by
      have := hf1.fnevals
      rw [show (w0.updated 0 o []).backend = .sympy from hb] at this
      exact this
    unfold Acc.interaction Acc.fint1 Acc.fint2 Acc.fint
    rw [e, hcore]
    rfl
  · have hwo : w.objs 0 = some { o1 with V := hgX, SRF := isoS } := by
      rw [hw]
      exact modObj_get (modObj_get ho1 fun o => { o with V := hgX }) fun o => { o with SRF := isoS }
    have hin : Inv true w.rebuilt := by
      refine Inv.rebuilt ?_
      rw [hw]
      exact (run_induction (P := InvP) (fun op _ => InvP.step op) hE2.inv.toP).next
    rw [(interaction_eq hin (rebuilt_objs hwo) []).1,
      show w.rebuilt.backend = .sympy by rw [hw]; exact hb1]
    have hue : Fresh.update (Obj.core { o1 with V := hgX, SRF := isoS }) [] =
        Obj.core { o with V := hgX, SRF := isoS } := by
      rw [hcore]
      show { Obj.core (Fresh.update o []) with V := hgX, SRF := isoS } = _
      rw [hu]
      rfl
    rw [hue]
    obtain ⟨e, he⟩ := fint_error (A := Fresh.acc0 .sympy (Obj.core { o with V := hgX, SRF := isoS }))
      (ang := do
        let a ← (Fresh.acc0 .sympy (Obj.core { o with V := hgX, SRF := isoS })).t0
        let b ← (Fresh.acc0 .sympy (Obj.core { o with V := hgX, SRF := isoS })).p0
        let c ← (Fresh.acc0 .sympy (Obj.core { o with V := hgX, SRF := isoS })).tex
        let d ← (Fresh.acc0 .sympy (Obj.core { o with V := hgX, SRF := isoS })).pex
        pure [a, b, c, d])
      (mux := (Fresh.acc0 .sympy (Obj.core { o with V := hgX, SRF := isoS })).mu0x)
      (mu := (Fresh.acc0 .sympy (Obj.core { o with V := hgX, SRF := isoS })).mu0)
      (fun f hf args => fnCall_error <| fnevals_unknown (b := .sympy) (s := "x") (o := Obj.core { o with V := hgX, SRF := isoS })
        (List.mem_append_left _ (by
          show "x" ∈ hgX.phase.free
          simp [hgX, Scatter.phase, Scatter.primPhase, Scatter.hgExpr, Expr.free]))
        (by
          show "x" ∉ ["theta_0", "phi_0", "theta_ex", "phi_ex"] ++ o.params.keys
          rw [List.mem_append, hk]
          simp) rfl hgo.fneI hf args)
    refine ⟨e, ?_⟩
    show ((Fresh.acc0 .sympy (Obj.core { o with V := hgX, SRF := isoS })).interaction >>= fun x => _) = _
    unfold Acc.interaction Acc.fint1
    rw [he]
    rfl

/-- An instance of `C14_mode_partial`: the object of the counterexample, with a mode call after
the assignment. -/
example {w : World} (h : Reachable w) (kw : Dict) :
    (interaction 0 kw (step (.setMonostatic 0 none) (run w [.interaction 0 [], .setV 0 hgX])).2).1 =
    (interaction 0 kw (step (.setMonostatic 0 none) (run w [.interaction 0 [], .setV 0 hgX])).2.rebuilt).1 :=
  (C14_mode_partial (ops := [.interaction 0 [], .setV 0 hgX]) (op := .setMonostatic 0 none) (ops' := []) h
    (by
      intro op hop
      rcases List.mem_cons.1 hop with rfl | hop
      · exact ⟨rfl, fun h => h, trivial⟩
      · rcases List.mem_singleton.1 hop with rfl
        exact ⟨rfl, fun h => h, trivial⟩) rfl (by simp) kw).2.2.1

end

end RT1
