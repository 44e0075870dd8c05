import Verif.Lemmas.Switch

/-! Histories of programs that switch backends, and the backend that a compiled phase function runs
with. -/

namespace RT1

noncomputable section
open Classical

/-! ### one call -/

/-- A call on `id` only changes this object, to the same attributes as in a program without
switching. -/
theorem Twin.of_call {w w' v : World} {id : ℕ} {op : Op} (h : Twin w w') (ht : op.target = some id)
    (hc : ¬ op.creates) (hn : v.next = w.next) (hf : ∀ j, j ≠ id → v.objs j = w.objs j)
    (hnone : w.objs id = none → v.objs id = none)
    (hsome : ∀ o, w.objs id = some o → HasCore id (o.after op) v) : Twin v (RT1.step op w').2 := by
  have f2 := frame_step ht hc w' w' (FrameP.refl w' id)
  refine ⟨by rw [hn, f2.next, h.next], fun j hj => ?_, (step_other h.ok' op).1, fun j => ?_⟩
  · by_cases he : j = id
    · subst he
      exact hnone (h.ok j (by rw [← hn]; exact hj))
    · rw [hf j he]
      exact h.ok j (by rw [← hn]; exact hj)
  · by_cases he : j = id
    · subst he
      cases ho : w.objs j with
      | none =>
        have e2 := f2.ex
        rw [h.get_none ho] at e2
        have g2 : (RT1.step op w').2.objs j = none := Option.not_isSome_iff_eq_none.1 (by rw [e2]; simp)
        rw [hnone ho, g2]
      | some o =>
        obtain ⟨o', ho', hco⟩ := h.get ho
        obtain ⟨x, hx, hxc⟩ := hsome o ho
        obtain ⟨x', hx', hxc'⟩ := step_core h.ok' ho' ht
        rw [hx, hx']
        show some x.core = some x'.core
        rw [hxc, hxc', after_core hco op]
    · rw [hf j he, f2.objs j he]
      exact h.core j

section
variable {T : Type}

/-- An evaluation preserves whatever the accessors of `id` preserve. -/
def EvalSafe (id : ℕ) {α : Type} (x : SM T α) : Prop :=
  ∀ Q : World → Prop, MemoStable Q id → (∀ w b, Q w → Q { w with backend := b }) → SSafe Q x

theorem EvalSafe.si {id : ℕ} {α : Type} {x : SM T α} (h : EvalSafe id x) {s : World × T} {o : Obj}
    (hI : InvC s.1) (ho : s.1.objs id = some o) : SI s.1 id o (x s).2.1 :=
  h (SI s.1 id o) SI.stable (fun _ b hw => hw.backend b) s ⟨hI, rfl, fun _ _ => rfl, o, ho, rfl⟩

theorem SM.bind_pure_state {α : Type} (x : SM T α) (s : World × T) :
    ((x >>= fun _ => pure ()) s).2 = (x s).2 := by
  cases hx : x s with
  | mk r s' =>
    cases r with
    | error e => rw [SM.bind_error hx]
    | ok a => rw [SM.bind_ok hx]; rfl

theorem InvC.updated {w : World} {id : ℕ} {o : Obj} (h : InvC w) (ho : w.objs id = some o) (kw : Dict) :
    InvC { w with objs := Function.update w.objs id (some (Fresh.update o kw)) } := by
  refine ⟨?_, fun j oj hj => ?_⟩
  · have := Inv.updateParams (id := id) kw w h.inv
    rw [updateParams_eq ho] at this
    exact this
  · have hj' : Function.update w.objs id (some (Fresh.update o kw)) j = some oj := hj
    by_cases he : j = id
    · subst he
      rw [Function.update_self] at hj'
      cases hj'
      exact h.closed j o ho
    · rw [Function.update_of_ne he] at hj'
      exact h.closed j oj hj'

/-- An evaluation with parameters. -/
theorem Twin.evalKw {s : World × T} {w' : World} {id : ℕ} {op : Op} {kw : Dict} {α : Type} {x : SM T α}
    (h : Twin s.1 w') (hI : InvC s.1) (ht : op.target = some id) (hc : ¬ op.creates)
    (ha : ∀ o : Obj, o.after op = Fresh.update o kw) (hx : EvalSafe id x) :
    Twin ((Switch.plain (updateParams id kw) >>= fun _ => x) s).2.1 (RT1.step op w').2 ∧
      Inv false ((Switch.plain (updateParams id kw) >>= fun _ => x) s).2.1 := by
  cases ho : s.1.objs id with
  | none =>
    have e : (Switch.plain (updateParams id kw) : SM T Unit) s = (.error .attributeError, s) := by
      show ((updateParams id kw s.1).1, ((updateParams id kw s.1).2, s.2)) = _
      rw [updateParams_none ho]
    rw [SM.bind_error e]
    refine ⟨h.of_call ht hc rfl (fun _ _ => rfl) (fun h => h) fun o h => ?_, hI.inv⟩
    rw [ho] at h; cases h
  | some o =>
    have e : (Switch.plain (updateParams id kw) : SM T Unit) s =
        (.ok (), ({ s.1 with objs := Function.update s.1.objs id (some (Fresh.update o kw)) }, s.2)) := by
      show ((updateParams id kw s.1).1, ((updateParams id kw s.1).2, s.2)) = _
      rw [updateParams_eq ho]
    rw [SM.bind_ok e]
    have hsi := hx.si (s := ({ s.1 with objs := Function.update s.1.objs id (some (Fresh.update o kw)) }, s.2))
      (o := Fresh.update o kw) (hI.updated ho kw) (Function.update_self ..)
    refine ⟨h.of_call ht hc hsi.next (fun j hj => ?_) (fun hn => ?_) (fun o1 h1 => ?_), hsi.invC.inv⟩
    · rw [hsi.frame j hj]
      exact Function.update_of_ne hj ..
    · rw [ho] at hn; cases hn
    · rw [ho] at h1
      cases h1
      rw [ha]
      exact hsi.obj

/-- An evaluation without parameters. -/
theorem Twin.evalNo {s : World × T} {w' : World} {id : ℕ} {op : Op} {α : Type} {x : SM T α}
    (h : Twin s.1 w') (hI : InvC s.1) (ht : op.target = some id) (hc : ¬ op.creates)
    (ha : ∀ o : Obj, o.after op = o) (hx : EvalSafe id x)
    (hn : s.1.objs id = none → (x s).2.1 = s.1) :
    Twin (x s).2.1 (RT1.step op w').2 ∧ Inv false (x s).2.1 := by
  cases ho : s.1.objs id with
  | none =>
    rw [hn ho]
    refine ⟨h.of_call ht hc rfl (fun _ _ => rfl) (fun h => h) fun o h => ?_, hI.inv⟩
    rw [ho] at h; cases h
  | some o =>
    have hsi := hx.si hI ho
    refine ⟨h.of_call ht hc hsi.next hsi.frame (fun hn => ?_) (fun o1 h1 => ?_), hsi.invC.inv⟩
    · rw [ho] at hn; cases hn
    · rw [ho] at h1
      cases h1
      rw [ha]
      exact hsi.obj

theorem plain_getObj_none {s : World × T} {id : ℕ} (h : s.1.objs id = none) {α : Type} (f : Obj → M α) :
    (Switch.plain (getObj id >>= f) : SM T α) s = (.error .attributeError, s) := by
  show (((getObj id >>= f) s.1).1, (((getObj id >>= f) s.1).2, s.2)) = _
  rw [getObj_bind_none h]

variable (P : Policy T)

theorem evalParam_none {w : World} {id : ℕ} {p : PName} (hI : Inv false w) (ho : w.objs id = none) :
    Self.evalParam id p w = (.error .attributeError, w) := by
  unfold Self.evalParam
  refine bind_error ?_
  unfold Self.paramFuncs memo
  cases hc : LRU.find w.caches.pfun (id, p) with
  | some v =>
    obtain ⟨o, ho', -⟩ := hI.pfun _ _ hc
    simp only at ho'
    rw [ho] at ho'; cases ho'
  | none =>
    simp only
    rw [getObj_bind_none ho]

/-- A call of a switching program changes the objects like the same call without switching. -/
theorem Twin.switch {s : World × T} {w' : World} (h : Twin s.1 w') (hI : InvC s.1) {op : Op} (hk : op.Keeps) :
    Twin (Switch.step P (.op op) s).2.1 (RT1.step op w').2 ∧ Inv false (Switch.step P (.op op) s).2.1 := by
  have other : ∀ {op : Op}, op.Keeps → Twin (RT1.step op s.1).2 (RT1.step op w').2 ∧ Inv false (RT1.step op s.1).2 :=
    fun {op} hk => ⟨h.step op, Inv.step (fun h => by cases h) (by rintro id n a rfl; exact hk) s.1 hI.inv⟩
  have acc : ∀ {id : ℕ} {α : Type} {x : SM T α},
      (∀ Q : World → Prop, AccSSafe Q (Switch.acc P id) → SSafe Q x) → EvalSafe id x :=
    fun hx Q hQ hb => hx Q (hQ.sacc hb P)
  cases op
  case evalCalc id kw =>
    have e : (Switch.step P (.op (.evalCalc id kw)) s).2 = (Switch.calcOp P id kw s).2 := SM.bind_pure_state _ _
    rw [e]
    exact h.evalKw hI rfl (fun h => h) (fun _ => rfl) (acc fun Q hQ => hQ.calcTry)
  case surface id kw =>
    have e : (Switch.step P (.op (.surface id kw)) s).2 = (Switch.surface P id kw s).2 := SM.bind_pure_state _ _
    rw [e]
    exact h.evalKw hI rfl (fun h => h) (fun _ => rfl) (acc fun Q hQ => SSafe.bind hQ.surface fun _ => hQ.convert _)
  case volume id kw =>
    have e : (Switch.step P (.op (.volume id kw)) s).2 = (Switch.volume P id kw s).2 := SM.bind_pure_state _ _
    rw [e]
    exact h.evalKw hI rfl (fun h => h) (fun _ => rfl) (acc fun Q hQ => SSafe.bind hQ.volume fun _ => hQ.convert _)
  case interaction id kw =>
    have e : (Switch.step P (.op (.interaction id kw)) s).2 = (Switch.interaction P id kw s).2 :=
      SM.bind_pure_state _ _
    rw [e]
    exact h.evalKw hI rfl (fun h => h) (fun _ => rfl)
      (acc fun Q hQ => SSafe.bind hQ.interaction fun _ => hQ.convert _)
  case jacobian id ks f =>
    have e : (Switch.step P (.op (.jacobian id ks f)) s).2 = (Switch.jacobian P id ks f s).2 :=
      SM.bind_pure_state _ _
    rw [e]
    refine h.evalNo hI rfl (fun h => h) (fun _ => rfl) (acc fun Q hQ => ?_) fun ho => ?_
    · refine SSafe.bind (hQ.jacList ks) fun l => SSafe.ite (fun _ => SSafe.pure _) fun _ =>
        SSafe.ite (fun _ => ?_) fun _ => SSafe.throw _
      exact SSafe.bind (SSafe.plain (Safe.getObj id)) fun _ => SSafe.bind (SSafe.lift _) fun _ => SSafe.pure _
    · have e : Switch.jacobian P id ks f s = (.error .attributeError, s) := by
        unfold Switch.jacobian
        refine SM.bind_error ?_
        unfold Acc.jacList
        refine SM.bind_error ?_
        unfold Acc.jacNorm
        refine SM.bind_error ?_
        exact plain_getObj_none ho _
      rw [e]
  case getParam id p =>
    have e : (Switch.step P (.op (.getParam id p)) s).2 = ((Switch.acc P id).par p s).2 := SM.bind_pure_state _ _
    rw [e]
    refine h.evalNo hI rfl (fun h => h) (fun _ => rfl) (acc fun Q hQ => hQ.par p) fun ho => ?_
    have hb := (hI.backend (P.pick id (.par p) s.1 s.2).1).inv
    show { (Self.evalParam id p { s.1 with backend := (P.pick id (.par p) s.1 s.2).1 }).2 with
      backend := s.1.backend } = s.1
    rw [evalParam_none hb ho]
  case surfaceVolume id =>
    have e : (Switch.step P (.op (.surfaceVolume id)) s).2 = (Switch.surfaceVolume P id s).2 := SM.bind_pure_state _ _
    rw [e]
    refine h.evalNo hI rfl (fun h => h) (fun _ => rfl) (acc fun Q hQ => ?_) fun ho => ?_
    · exact SSafe.bind (SSafe.plain (Safe.getObj id)) fun _ =>
        SSafe.bind (SSafe.addM hQ.surface hQ.volume) fun _ => hQ.convert _
    · have e : Switch.surfaceVolume P id s = (.error .attributeError, s) := by
        unfold Switch.surfaceVolume
        refine SM.bind_error ?_
        show ((getObj id s.1).1, ((getObj id s.1).2, s.2)) = _
        rw [getObj_none ho]
      rw [e]
  all_goals exact other hk

/-! ### histories -/

theorem Obj.Closed.after {o : Obj} (h : o.Closed) {op : Op} (hc : op.ClosedDef) : (o.after op).Closed := by
  have key : ∀ {o' : Obj}, o'.pdef = o.pdef → o'.Closed := fun he p e hp => h p e (by rw [← he]; exact hp)
  cases op <;> try exact h
  case setMonostatic id p => exact key (afterMono_params o p).2
  case setBistatic id a b c d => exact key (afterBi_params o a b c d).2
  case setGeometry id kw => exact key (afterGeom_params o kw).2
  case setParamDef id p d =>
    intro q e hq
    have hq' : Function.update o.pdef p d q = .basic e := hq
    by_cases he : q = p
    · subst he
      rw [Function.update_self] at hq'
      subst hq'
      exact hc
    · rw [Function.update_of_ne he] at hq'
      exact h q e hq'

theorem closed_history {ops : List Op} (hc : ∀ op ∈ ops, op.ClosedDef) (b : Backend) {id : ℕ} {o : Obj}
    (ho : (RT1.run (initWorld b) ops).objs id = some o) : o.Closed := by
  refine allObj_history (Q := Obj.Closed) (fun o o' he h => h.of_core he.symm) (fun op hop o h => h.after (hc op hop))
    (fun V S q s d f fe i _ => ?_) b ho
  refine Obj.Closed.after (op := .setMonostatic 0 none) (fun p e hp => ?_) trivial
  cases p <;> cases hp

theorem Switch.run_snoc (s : World × T) (ops : List SOp) (x : SOp) :
    Switch.run P s (ops ++ [x]) = (Switch.step P x (Switch.run P s ops)).2 := by
  unfold Switch.run
  rw [List.foldl_append]
  rfl

theorem run_snoc (w : World) (ops : List Op) (x : Op) : RT1.run w (ops ++ [x]) = (RT1.step x (RT1.run w ops)).2 := by
  unfold RT1.run
  rw [List.foldl_append]
  rfl

/-- After any history with switches the objects are the same as without. -/
theorem Switch.history (b0 : Backend) (t0 : T) (b : Backend) {ops : List SOp} (hk : ∀ x ∈ ops, x.Fine) :
    Twin (Switch.run P (initWorld b0, t0) ops).1 (RT1.run (initWorld b) (Switch.calls ops)) ∧
      InvC (Switch.run P (initWorld b0, t0) ops).1 := by
  induction ops using List.reverseRecOn with
  | nil =>
    exact ⟨⟨rfl, initWorld_next b0, initWorld_next b, fun _ => rfl⟩, Inv.init false b0, fun id o h => by cases h⟩
  | append_singleton ops x ih =>
    have hk' : ∀ y ∈ ops, y.Fine := fun y hy => hk y (by simp [hy])
    obtain ⟨h1, h2⟩ := ih hk'
    rw [Switch.run_snoc]
    generalize Switch.run P (initWorld b0, t0) ops = s at *
    cases x with
    | setBackend name =>
      have e : Switch.calls (ops ++ [.setBackend name]) = Switch.calls ops := by simp [Switch.calls]
      rw [e]
      show Twin (Switch.setBackend name s).2.1 _ ∧ InvC (Switch.setBackend name s).2.1
      unfold Switch.setBackend
      cases Backend.ofName name with
      | none => exact ⟨h1, h2⟩
      | some k => exact ⟨⟨h1.next, h1.ok, h1.ok', h1.core⟩, h2.backend k⟩
    | op o =>
      have hf : o.Keeps ∧ o.ClosedDef := hk (.op o) (by simp)
      have e : Switch.calls (ops ++ [.op o]) = Switch.calls ops ++ [o] := by simp [Switch.calls]
      obtain ⟨g1, g2⟩ := h1.switch P h2 hf.1
      rw [← RT1.run_snoc, ← e] at g1
      refine ⟨g1, g2, fun id ob ho => ?_⟩
      obtain ⟨o', ho', hco⟩ := g1.get ho
      have hcl : o'.Closed := closed_history (fun op hop => by
        obtain ⟨y, hy, hyo⟩ := List.mem_filterMap.1 hop
        cases y with
        | setBackend n => cases hyo
        | op o1 =>
          cases hyo
          exact (hk _ hy).2) b ho'
      exact hcl.of_core hco

end

/-! ### the backend of a phase function under the policy of the code -/

/-- `x` succeeds with the same result as `y`, in every state with `Q`. -/
def Exact {T : Type} (Q : World × T → Prop) {α : Type} (x : SM T α) (y : Py α) : Prop :=
  ∀ s, Q s → Q (x s).2 ∧ ∀ a, (x s).1 = .ok a ↔ y = .ok a

namespace Exact
variable {T : Type} {Q : World × T → Prop} {α β : Type}

theorem bind {x : SM T α} {y : Py α} {f : α → SM T β} {g : α → Py β} (h : Exact Q x y)
    (hf : ∀ a, Exact Q (f a) (g a)) : Exact Q (x >>= f) (y >>= g) := by
  intro s hs
  obtain ⟨h1, h2⟩ := h s hs
  cases ha : (x s).1 with
  | error e =>
    have hx : x s = (.error e, (x s).2) := Prod.ext ha rfl
    rw [SM.bind_error hx]
    refine ⟨h1, fun b => ⟨(fun h => by cases h), fun h => ?_⟩⟩
    obtain ⟨a, hy, -⟩ := ok_bind h
    have := (h2 a).2 hy
    rw [ha] at this
    cases this
  | ok a =>
    have hx : x s = (.ok a, (x s).2) := Prod.ext ha rfl
    rw [SM.bind_ok hx, (h2 a).1 ha]
    exact hf a _ h1

theorem pure (a : α) : Exact Q (Pure.pure a) (Pure.pure a) := fun _ hs => ⟨hs, fun _ => Iff.rfl⟩

theorem lift (x : Py α) : Exact Q (liftPy x) (liftPy x) := by
  cases x with
  | ok a => exact fun _ hs => ⟨hs, fun _ => Iff.rfl⟩
  | error e => exact fun _ hs => ⟨hs, fun _ => ⟨(fun h => by cases h), (fun h => by cases h)⟩⟩

theorem ite {c : Prop} [Decidable c] {x x' : SM T α} {y y' : Py α} (h : Exact Q x y) (h' : Exact Q x' y') :
    Exact Q (if c then x else x') (if c then y else y') := by
  by_cases hc : c
  · rw [if_pos hc, if_pos hc]; exact h
  · rw [if_neg hc, if_neg hc]; exact h'

section ops
variable {x x' : SM T Arr} {y y' : Py Arr}
theorem mulM (h : Exact Q x y) (h' : Exact Q x' y') : Exact Q (RT1.mulM x x') (RT1.mulM y y') :=
  bind h fun _ => bind h' fun _ => lift _
theorem divM (h : Exact Q x y) (h' : Exact Q x' y') : Exact Q (RT1.divM x x') (RT1.divM y y') :=
  bind h fun _ => bind h' fun _ => lift _
theorem addM (h : Exact Q x y) (h' : Exact Q x' y') : Exact Q (RT1.addM x x') (RT1.addM y y') :=
  bind h fun _ => bind h' fun _ => lift _
theorem subM (h : Exact Q x y) (h' : Exact Q x' y') : Exact Q (RT1.subM x x') (RT1.subM y y') :=
  bind h fun _ => bind h' fun _ => lift _
theorem mapM' (f : XR → XR) (h : Exact Q x y) : Exact Q (RT1.mapM' f x) (RT1.mapM' f y) := bind h fun _ => pure _
theorem negM (h : Exact Q x y) : Exact Q (RT1.negM x) (RT1.negM y) := mapM' _ h
theorem expM (h : Exact Q x y) : Exact Q (RT1.expM x) (RT1.expM y) := mapM' _ h
theorem litM (r : ℝ) : Exact (T := T) Q (RT1.litM r) (RT1.litM r) := pure _
end ops

end Exact

/-- The states during an evaluation with the policy of the code: the phase function `f` runs with
the backend `k`. -/
structure SQ (w0 : World) (id : ℕ) (o : Obj) (f : Scatter) (k : Backend) (s : World × Tags) : Prop where
  si : SI w0 id o s.1
  back : Switch.backendOf s f o.params.keys = k

section
variable {w0 : World} {id : ℕ} {o : Obj} {f : Scatter} {k : Backend}

local notation "A" => Switch.acc realPolicy id
local notation "F" => Fresh.acc0 k o
local notation "Q" => SQ w0 id o f k

/-- Steps of the state do not change the backend. -/
def KeepsBackend {α : Type} (x : M α) : Prop := ∀ w, (x w).2.backend = w.backend

theorem Exact.plain {α : Type} {x : M α} {y : Py α} (hb : KeepsBackend x)
    (h : ∀ up, Sim (T := Tags) up (SI w0 id o) Eq (Switch.plain x) y) : Exact Q (Switch.plain x) y := by
  intro s hs
  obtain ⟨h1, h2, -⟩ := h true s hs.si
  obtain ⟨-, -, h3⟩ := h false s hs.si
  refine ⟨⟨h1, ?_⟩, fun a => ⟨fun ha => ?_, fun ha => ?_⟩⟩
  · have : (Switch.plain x s).2.1.backend = s.1.backend := hb s.1
    rw [← hs.back]
    unfold Switch.backendOf
    rw [this]
    rfl
  · obtain ⟨b, hb, rfl⟩ := h3 rfl a ha
    exact hb
  · obtain ⟨b, hb, rfl⟩ := h2 rfl a ha
    exact hb

theorem KeepsBackend.of_frame {α : Type} {x : M α} (h : ∀ w0, Safe (FrameP w0 id) x) : KeepsBackend x :=
  fun w => (h w w (FrameP.refl w id)).backend

theorem KeepsBackend.attr {α : Type} (g : Obj → α) : KeepsBackend (do let o ← getObj id; Pure.pure (g o)) :=
  KeepsBackend.of_frame (id := id) fun _ => Safe.bind (Safe.getObj id) fun _ => Safe.pure _

theorem Exact.t0 : Exact Q (A).t0 (F).t0 :=
  Exact.plain (KeepsBackend.of_frame (id := id) fun _ => Safe.t0) fun _ => Sim.t0 realPolicy
theorem Exact.tex : Exact Q (A).tex (F).tex :=
  Exact.plain (KeepsBackend.of_frame (id := id) fun _ => Safe.tex) fun _ => Sim.tex realPolicy
theorem Exact.p0 : Exact Q (A).p0 (F).p0 :=
  Exact.plain (KeepsBackend.of_frame (id := id) fun _ => Safe.p0) fun _ => Sim.p0 realPolicy
theorem Exact.pex : Exact Q (A).pex (F).pex :=
  Exact.plain (KeepsBackend.of_frame (id := id) fun _ => Safe.pex) fun _ => Sim.pex realPolicy
theorem Exact.mu0 : Exact Q (A).mu0 (F).mu0 :=
  Exact.plain (KeepsBackend.of_frame (id := id) fun w => (FrameP.stable w id).mu0) fun _ => Sim.mu0 realPolicy
theorem Exact.muEx : Exact Q (A).muEx (F).muEx :=
  Exact.plain (KeepsBackend.of_frame (id := id) fun w => (FrameP.stable w id).muEx) fun _ => Sim.muEx realPolicy
theorem Exact.V : Exact Q (A).V (F).V := Exact.plain (KeepsBackend.attr Obj.V) fun _ => Sim.V realPolicy
theorem Exact.SRF : Exact Q (A).SRF (F).SRF := Exact.plain (KeepsBackend.attr Obj.SRF) fun _ => Sim.SRF realPolicy
theorem Exact.sig0 : Exact Q (A).sig0 (F).sig0 := Exact.plain (KeepsBackend.attr Obj.sig0) fun _ => Sim.sig0 realPolicy
theorem Exact.dB : Exact Q (A).dB (F).dB := Exact.plain (KeepsBackend.attr Obj.dB) fun _ => Sim.dB realPolicy
theorem Exact.I0 : Exact Q (A).I0 (F).I0 := Exact.plain (KeepsBackend.attr Obj.I0) fun _ => Sim.I0 realPolicy
theorem Exact.params : Exact Q (A).params (F).params :=
  Exact.plain (KeepsBackend.attr Obj.params) fun _ => Sim.params realPolicy

theorem pick_par_scatter (id : ℕ) (p : PName) (w : World) (t : Tags) :
    (realPolicy.pick id (.par p) w t).2.scatter = t.scatter := by
  show (match w.objs id with
    | none => (w.backend, t)
    | some o => _ : Backend × Tags).2.scatter = _
  cases w.objs id <;> rfl

theorem Exact.par (p : PName) : Exact Q ((A).par p) ((F).par p) := by
  intro s hs
  obtain ⟨h1, h2, -⟩ := Sim.par (up := true) realPolicy p s hs.si
  obtain ⟨-, -, h3⟩ := Sim.par (up := false) realPolicy p s hs.si
  refine ⟨⟨h1, ?_⟩, fun a => ⟨fun ha => ?_, fun ha => ?_⟩⟩
  · rw [← hs.back]
    unfold Switch.backendOf
    have e1 : ((A).par p s).2.1.backend = s.1.backend := rfl
    have e2 : ((A).par p s).2.2.scatter = s.2.scatter := pick_par_scatter id p s.1 s.2
    rw [e1, e2]
  · obtain ⟨b, hb, rfl⟩ := h3 rfl a ha
    exact par_backend hb
  · obtain ⟨b, hb, rfl⟩ := h2 rfl a (par_backend ha)
    exact hb

theorem scat_fst (cur : Backend) (g : Scatter) (ns : List String) (t : LRU (Scatter × List String) Backend) :
    (Tags.scat cur g ns t).1 = (LRU.find t (g, ns)).getD cur := by
  unfold Tags.scat
  cases LRU.find t (g, ns) with
  | some b => rfl
  | none =>
    simp only
    cases Lam.compile cur (["theta_0", "theta_ex", "phi_0", "phi_ex"] ++ ns) g.phase <;> rfl

theorem scat_snd (cur : Backend) (g : Scatter) (ns : List String) (t : LRU (Scatter × List String) Backend) :
    (LRU.find (Tags.scat cur g ns t).2 (g, ns)).getD cur = (LRU.find t (g, ns)).getD cur := by
  unfold Tags.scat
  cases hf : LRU.find t (g, ns) with
  | some b => simp only; rw [LRU.find_put_self]
  | none =>
    simp only
    cases Lam.compile cur (["theta_0", "theta_ex", "phi_0", "phi_ex"] ++ ns) g.phase with
    | ok l => simp only; rw [LRU.find_put_self]; rfl
    | error e => simp only; rw [hf]

theorem Exact.backendSRF (hf : f = o.SRF) : Exact Q ((A).backend .SRF) ((F).backend .SRF) := by
  intro s hs
  obtain ⟨o', ho, hc⟩ := hs.si.obj
  obtain ⟨-, c2, -, c4, -⟩ := core_fields hc
  have e : (A).backend .SRF s = (.ok (Tags.scat s.1.backend o'.SRF o'.params.keys s.2.scatter).1,
      (s.1, { s.2 with scatter := (Tags.scat s.1.backend o'.SRF o'.params.keys s.2.scatter).2 })) := by
    show ((Except.ok (realPolicy.pick id .SRF s.1 s.2).1, (s.1, (realPolicy.pick id .SRF s.1 s.2).2)) : Py Backend × (World × Tags)) = _
    have : realPolicy.pick id .SRF s.1 s.2 = ((Tags.scat s.1.backend o'.SRF o'.params.keys s.2.scatter).1,
        { s.2 with scatter := (Tags.scat s.1.backend o'.SRF o'.params.keys s.2.scatter).2 }) := by
      show (match s.1.objs id with
        | none => (s.1.backend, s.2)
        | some o => _ : Backend × Tags) = _
      rw [ho]
    rw [this]
  have hb := hs.back
  unfold Switch.backendOf at hb
  rw [e, c2, c4, ← hf, scat_fst, hb]
  refine ⟨⟨hs.si, ?_⟩, fun a => Iff.rfl⟩
  unfold Switch.backendOf
  rw [← hb]
  exact scat_snd _ _ _ _

theorem Exact.backendV (hf : f = o.V) : Exact Q ((A).backend .V) ((F).backend .V) := by
  intro s hs
  obtain ⟨o', ho, hc⟩ := hs.si.obj
  obtain ⟨c1, -, -, c4, -⟩ := core_fields hc
  have e : (A).backend .V s = (.ok (Tags.scat s.1.backend o'.V o'.params.keys s.2.scatter).1,
      (s.1, { s.2 with scatter := (Tags.scat s.1.backend o'.V o'.params.keys s.2.scatter).2 })) := by
    show ((Except.ok (realPolicy.pick id .V s.1 s.2).1, (s.1, (realPolicy.pick id .V s.1 s.2).2)) : Py Backend × (World × Tags)) = _
    have : realPolicy.pick id .V s.1 s.2 = ((Tags.scat s.1.backend o'.V o'.params.keys s.2.scatter).1,
        { s.2 with scatter := (Tags.scat s.1.backend o'.V o'.params.keys s.2.scatter).2 }) := by
      show (match s.1.objs id with
        | none => (s.1.backend, s.2)
        | some o => _ : Backend × Tags) = _
      rw [ho]
    rw [this]
  have hb := hs.back
  unfold Switch.backendOf at hb
  rw [e, c1, c4, ← hf, scat_fst, hb]
  refine ⟨⟨hs.si, ?_⟩, fun a => Iff.rfl⟩
  unfold Switch.backendOf
  rw [← hb]
  exact scat_snd _ _ _ _

theorem Exact.srfCalc (hf : f = o.SRF) : Exact Q (A).srfCalc (F).srfCalc :=
  Exact.bind Exact.SRF fun _ => Exact.bind Exact.t0 fun _ => Exact.bind Exact.tex fun _ => Exact.bind Exact.p0 fun _ =>
    Exact.bind Exact.pex fun _ => Exact.bind Exact.params fun _ => Exact.bind (Exact.backendSRF hf) fun _ =>
      Exact.lift _

theorem Exact.vCalc (hf : f = o.V) : Exact Q (A).vCalc (F).vCalc :=
  Exact.bind Exact.V fun _ => Exact.bind Exact.t0 fun _ => Exact.bind Exact.tex fun _ => Exact.bind Exact.p0 fun _ =>
    Exact.bind Exact.pex fun _ => Exact.bind Exact.params fun _ => Exact.bind (Exact.backendV hf) fun _ =>
      Exact.lift _

theorem Exact.atten : Exact Q (A).atten (F).atten :=
  Exact.expM (Exact.subM (Exact.negM (Exact.divM (Exact.par _) Exact.mu0)) (Exact.divM (Exact.par _) Exact.muEx))

theorem Exact.surface (hf : f = o.SRF) : Exact Q (A).surface (F).surface :=
  Exact.bind (Exact.mulM (Exact.mulM Exact.I0 Exact.mu0) (Exact.srfCalc hf)) fun _ =>
    Exact.bind (Exact.mulM Exact.atten (Exact.pure _)) fun _ =>
      Exact.mulM (Exact.par _) (Exact.addM (Exact.mulM (Exact.subM (Exact.litM 1) (Exact.par _)) (Exact.pure _))
        (Exact.mulM (Exact.par _) (Exact.pure _)))

theorem Exact.volume (hf : f = o.V) : Exact Q (A).volume (F).volume :=
  Exact.bind (Exact.mulM (Exact.mulM (Exact.divM (Exact.mulM (Exact.mulM Exact.I0 (Exact.par _)) Exact.mu0)
    (Exact.addM Exact.mu0 Exact.muEx)) (Exact.subM (Exact.litM 1) Exact.atten)) (Exact.vCalc hf)) fun _ =>
      Exact.mulM (Exact.subM (Exact.litM 1) (Exact.par _)) (Exact.pure _)

theorem Exact.convert (a : Arr) : Exact Q ((A).convert a) ((F).convert a) := by
  refine Exact.bind Exact.sig0 fun s => Exact.bind Exact.dB fun db => ?_
  have e2 : ∀ {x : SM Tags Arr} {y : Py Arr}, Exact Q x y → Exact Q (x >>= fun signorm => do
      let ret ← liftPy (Arr.mul a signorm)
      if db = true then RT1.litM 10 *. Pure.pure (Arr.map XR.log10 ret) else Pure.pure ret) (y >>= fun signorm => do
      let ret ← liftPy (Arr.mul a signorm)
      if db = true then RT1.litM 10 *. Pure.pure (Arr.map XR.log10 ret) else Pure.pure ret) := fun hx =>
    Exact.bind hx fun _ => Exact.bind (Exact.lift _) fun _ =>
      Exact.ite (Exact.mulM (Exact.litM _) (Exact.pure _)) (Exact.pure _)
  cases s
  · exact e2 (Exact.litM 1)
  · exact e2 (Exact.divM (Exact.mulM (Exact.litM _) Exact.mu0) Exact.I0)

end

end

end RT1
