import Verif.Lemmas.SwitchInt

/-! Evaluations with interaction term under the policy of the code: which backend the compiled coefficients run with. -/

namespace RT1

noncomputable section
open Classical

/-- What the formulas read, if the phase functions and the coefficients are compiled with different backends. -/
def Fresh.mix (kV kS k : Backend) (o : Obj) : Acc Py := (Fresh.acc0 k o).withBackends kV kS k

/-- One if the table has no entry for `a`. -/
def lacks (t : LRU (Scatter × List String) Backend) (a : Scatter × List String) : ℕ :=
  if LRU.find t a = none then 1 else 0

/-- There is room for entries of both phase functions. -/
def Room (t : LRU (Scatter × List String) Backend) (a b : Scatter × List String) : Prop :=
  t.length + lacks t a + lacks t b ≤ 128

/-- The states during an evaluation with the policy of the code: the coefficients are compiled, or will be, with
backend `k`; with `u` the phase functions run with `kV` and `kS`, and this does not change during the evaluation. -/
structure SF (w0 : World) (id : ℕ) (o : Obj) (kV kS k : Backend) (u : Bool) (s : World × Tags) : Prop where
  sk : SK w0 id o s.1
  fn : ∃ o', s.1.objs id = some o' ∧ Fresh.fnevals k o' = Fresh.fnevals k o ∧
    (o'.fnevals_.isSome = true → s.2.fn id = k) ∧ (o'.fnevals_.isSome = false → s.1.backend = k)
  all : u = true → Switch.backendOf s o.V o.params.keys = kV ∧ Switch.backendOf s o.SRF o.params.keys = kS ∧
    ((kV = s.1.backend ∧ kS = s.1.backend) ∨ Room s.2.scatter (o.V, o.params.keys) (o.SRF, o.params.keys))

section
variable {w0 : World} {id : ℕ} {o : Obj} {kV kS k : Backend} {u : Bool}

local notation "A" => Switch.acc realPolicy id
local notation "F" => Fresh.mix kV kS k o
local notation "Q" => SF w0 id o kV kS k u

/-- A change of the state that keeps objects, backend, and tags of coefficients and phase functions. -/
theorem SF.keep {s s' : World × Tags} (h : SF w0 id o kV kS k u s) (hk : SK w0 id o s'.1) (h1 : s'.1.objs = s.1.objs)
    (h2 : s'.1.backend = s.1.backend) (h3 : s'.2.fn = s.2.fn) (h4 : s'.2.scatter = s.2.scatter) : SF w0 id o kV kS k u s' := by
  refine ⟨hk, ?_, fun hu => ?_⟩
  · rw [h1, h2, h3]; exact h.fn
  · have := h.all hu
    unfold Switch.backendOf at this ⊢
    rw [h2, h4]; exact this

theorem SFx.plain {α : Type} {x : M α} {y : Py α} (hk : ObjsKept x) (hb : KeepsBackend x) (hs : Safe (SK w0 id o) x)
    (h : ∀ w, SK w0 id o w → (x w).1 = y) : Exact Q (Switch.plain x) y := by
  intro s hs'
  have e : (Switch.plain x s).1 = y := h s.1 hs'.sk
  exact ⟨hs'.keep (hs s.1 hs'.sk) (hk s.1) (hb s.1) rfl rfl, fun a => by rw [e]⟩

/-- Accessors that do not depend on the backend. -/
theorem SFx.obl {α : Type} {x : M α} {y : Py α} (hx : Obl x) (hk : ObjsKept x) (hs : Safe (SK w0 id o) x)
    (h : ∀ w o', w.backend = .sympy → o'.core = o.core → Refines (During true w id o' fun _ _ => True) x y) :
    Exact Q (Switch.plain x) y := by
  refine SFx.plain hk (fun w => ?_) hs fun w hw => ?_
  · have := hx w w.backend
    have e : w.on w.backend = w := rfl
    rw [e] at this
    have := congrArg (fun r => r.2.backend) this
    exact this
  · obtain ⟨o', ho, hc⟩ := hw.si.obj
    have := (h (w.on .sympy) o' rfl hc (w.on .sympy) (During.init hw.k.full ho trivial)).1
    rw [hx w .sympy] at this
    exact this

theorem SFx.attr {α : Type} (g : Obj → α) (hg : ∀ o' : Obj, o'.core = o.core → g o' = g o) :
    Exact Q (Switch.plain (do let o ← getObj id; Pure.pure (g o))) (.ok (g o)) := by
  refine SFx.plain (.bind (.obj id) fun _ => .pure _) (KeepsBackend.attr g)
    (Safe.bind (Safe.getObj id) fun _ => Safe.pure _) fun w hw => ?_
  obtain ⟨o', ho, hc⟩ := hw.si.obj
  rw [bind_ok (getObj_some ho), hg o' hc]
  rfl

theorem SFx.V : Exact Q (A).V (F).V := SFx.attr Obj.V fun _ h => (core_fields h).1
theorem SFx.SRF : Exact Q (A).SRF (F).SRF := SFx.attr Obj.SRF fun _ h => (core_fields h).2.1
theorem SFx.intQ : Exact Q (A).intQ (F).intQ :=
  SFx.attr Obj.intQ fun o' h => by have e : o'.core.intQ = o.core.intQ := congrArg Obj.intQ h; exact e
theorem SFx.sig0 : Exact Q (A).sig0 (F).sig0 :=
  SFx.attr Obj.sig0 fun o' h => by have e : o'.core.sig0 = o.core.sig0 := congrArg Obj.sig0 h; exact e
theorem SFx.dB : Exact Q (A).dB (F).dB :=
  SFx.attr Obj.dB fun o' h => by have e : o'.core.dB = o.core.dB := congrArg Obj.dB h; exact e
theorem SFx.I0 : Exact Q (A).I0 (F).I0 :=
  SFx.attr Obj.I0 fun o' h => by have e : o'.core.I0 = o.core.I0 := congrArg Obj.I0 h; exact e
theorem SFx.params : Exact Q (A).params (F).params := SFx.attr Obj.params fun _ h => (core_fields h).2.2.2.1
theorem SFx.pdef (p : PName) : Exact Q ((A).pdef p) ((F).pdef p) :=
  SFx.attr (fun o => o.pdef p) fun o' h => by
    have e : o'.core.pdef = o.core.pdef := congrArg Obj.pdef h
    exact congrFun e p


theorem core_same {α : Type} (g : Obj → α) (hg : ∀ o, g o.core = g o) {o o' : Obj} (h : o'.core = o.core) : g o' = g o := by
  rw [← hg o', ← hg o, h]

theorem SFx.t0 : Exact Q (A).t0 (F).t0 :=
  SFx.obl (Obl.t0 id) (.t0 id) Safe.t0 fun w o' _ hc => by
    rw [show (F).t0 = Fresh.ang o' .t0 from (core_same (fun o => Fresh.ang o .t0) (fun _ => rfl) hc).symm]
    exact Refines.t0
theorem SFx.p0 : Exact Q (A).p0 (F).p0 :=
  SFx.obl (Obl.p0 id) (.p0 id) Safe.p0 fun w o' _ hc => by
    rw [show (F).p0 = Fresh.ang o' .p0 from (core_same (fun o => Fresh.ang o .p0) (fun _ => rfl) hc).symm]
    exact Refines.p0
theorem SFx.tex : Exact Q (A).tex (F).tex :=
  SFx.obl (Obl.tex id) (.tex id) Safe.tex fun w o' _ hc => by
    rw [show (F).tex = Fresh.tex o' from (core_same Fresh.tex (fun _ => rfl) hc).symm]
    exact Refines.tex
theorem SFx.pex : Exact Q (A).pex (F).pex :=
  SFx.obl (Obl.pex id) (.pex id) Safe.pex fun w o' _ hc => by
    rw [show (F).pex = Fresh.pex o' from (core_same Fresh.pex (fun _ => rfl) hc).symm]
    exact Refines.pex
theorem SFx.mu0 : Exact Q (A).mu0 (F).mu0 :=
  SFx.obl (Obl.mu0 id) (.mu0 id) SK.stable.mu0 fun w o' _ hc => by
    rw [show (F).mu0 = Fresh.mu0 o' from (core_same Fresh.mu0 (fun _ => rfl) hc).symm]
    exact Refines.mu0
theorem SFx.muEx : Exact Q (A).muEx (F).muEx :=
  SFx.obl (Obl.muEx id) (.muEx id) SK.stable.muEx fun w o' _ hc => by
    rw [show (F).muEx = Fresh.muEx o' from (core_same Fresh.muEx (fun _ => rfl) hc).symm]
    exact Refines.muEx
theorem SFx.mu0x : Exact Q (A).mu0x (F).mu0x :=
  SFx.obl (Obl.mu0x id) (.mu0x id) SK.stable.mu0x fun w o' _ hc => by
    rw [show (F).mu0x = Fresh.mu0x o' from (core_same Fresh.mu0x (fun _ => rfl) hc).symm]
    exact Refines.mu0x rfl
theorem SFx.muExx : Exact Q (A).muExx (F).muExx :=
  SFx.obl (Obl.muExx id) (.muExx id) SK.stable.muExx fun w o' _ hc => by
    rw [show (F).muExx = Fresh.muExx o' from (core_same Fresh.muExx (fun _ => rfl) hc).symm]
    exact Refines.muExx rfl

theorem pick_par_fn (id : ℕ) (p : PName) (w : World) (t : Tags) :
    (realPolicy.pick id (.par p) w t).2.fn = t.fn := by
  show (match w.objs id with
    | none => (w.backend, t)
    | some o => _ : Backend × Tags).2.fn = _
  cases w.objs id <;> rfl

theorem SFx.par (p : PName) : Exact Q ((A).par p) ((F).par p) := by
  intro s hs
  obtain ⟨-, h2, -⟩ := Sim.par (up := true) realPolicy p s hs.sk.si
  obtain ⟨-, -, h3⟩ := Sim.par (up := false) realPolicy p s hs.sk.si
  refine ⟨hs.keep ?_ ?_ rfl (pick_par_fn id p s.1 s.2) (pick_par_scatter id p s.1 s.2), fun a => ⟨fun ha => ?_, fun ha => ?_⟩⟩
  · exact (Safe.evalParam SK.stable p _ (hs.sk.on _)).on _
  · exact ObjsKept.evalParam id p _
  · obtain ⟨b, hb, rfl⟩ := h3 rfl a ha
    exact par_backend hb
  · obtain ⟨b, hb, rfl⟩ := h2 rfl a (par_backend ha)
    exact hb

/-- After the coefficients have been asked for they are the same as before. -/
theorem fnevals_stays {w : World} {id : ℕ} {o : Obj} (ho : w.objs id = some o) :
    ∃ o', (Self.fnevals id w).2.objs id = some o' ∧ Fresh.fnevals w.backend o' = Fresh.fnevals w.backend o ∧
      (o.fnevals_.isSome = true → o'.fnevals_.isSome = true) := by
  have hfn : ∃ o1, (Self.fn id w).2.objs id = some o1 ∧ Fresh.fn o1 = Fresh.fn o ∧ o1.core = o.core ∧
      o1.fnevals_ = o.fnevals_ := by
    unfold Self.fn
    rw [bind_ok (getObj_some ho)]
    cases hf : o.fn_ with
    | some f => exact ⟨o, ho, rfl, rfl, rfl⟩
    | none =>
      cases hi : o.fnInput with
      | some f => exact ⟨o, ho, rfl, rfl, rfl⟩
      | none =>
        by_cases hq : o.intQ = true
        · simp only [hq, if_true]
          cases hc : fnCoefs o.V o.SRF o.geom with
          | error e => exact ⟨o, ho, rfl, rfl, rfl⟩
          | ok f =>
            refine ⟨{ o with fn_ := some f }, modObj_get ho _, ?_, rfl, rfl⟩
            unfold Fresh.fn
            rw [hf, hi]
            simp only [hq, if_true, hc]
            rfl
        · simp only [hq]
          exact ⟨o, ho, rfl, rfl, rfl⟩
  obtain ⟨o1, ho1, e1, c1, l1⟩ := hfn
  have same : ∀ b, Fresh.fnevals b o1 = Fresh.fnevals b o := by
    intro b
    unfold Fresh.fnevals
    have i1 : o1.fnevalsInput = o.fnevalsInput := core_same Obj.fnevalsInput (fun _ => rfl) c1
    have i2 : o1.intQ = o.intQ := core_same Obj.intQ (fun _ => rfl) c1
    have i3 : Fresh.fnCompile b o1 = Fresh.fnCompile b o := core_same (Fresh.fnCompile b) (fun _ => rfl) c1
    rw [l1, i1, i2, e1, i3]
  obtain ⟨hr, o2, ho2, -, hl2⟩ := fnevals_result ho
  have hcases : (Self.fnevals id w).2.objs id = some o ∨ (Self.fnevals id w).2.objs id = some o1 ∨
      o2.fnevals_.isSome = true := by
    cases hf : o.fnevals_ with
    | some f =>
      refine .inl ?_
      unfold Self.fnevals
      rw [bind_ok (getObj_some ho), hf]
      exact ho
    | none =>
      cases hi : o.fnevalsInput with
      | some f =>
        refine .inl ?_
        unfold Self.fnevals
        rw [bind_ok (getObj_some ho), hf, hi]
        exact ho
      | none =>
        by_cases hq : o.intQ = true
        · cases hx : Fresh.fnevals w.backend o with
          | ok l =>
            cases l with
            | some l =>
              refine .inr (.inr ?_)
              rw [hl2]
              unfold Obj.lamAfter
              rw [if_pos ⟨hf, hi, hq⟩, hx]
              rfl
            | none =>
              exfalso
              unfold Fresh.fnevals at hx
              rw [hf, hi] at hx
              simp only [hq, if_true] at hx
              obtain ⟨f, -, h⟩ := ok_bind hx
              cases f with
              | none => cases h
              | some f =>
                obtain ⟨l, -, h⟩ := ok_bind h
                cases h
          | error e =>
            refine .inr (.inl ?_)
            rw [hx] at hr
            unfold Self.fnevals at hr ⊢
            rw [bind_ok (getObj_some ho), hf, hi] at hr ⊢
            simp only [hq, if_true] at hr ⊢
            cases hy : Self.fn id w with
            | mk r w' =>
              have ho1' : w'.objs id = some o1 := by rw [hy] at ho1; exact ho1
              cases r with
              | error e' => rw [bind_error hy]; exact ho1'
              | ok f =>
                rw [bind_ok hy] at hr ⊢
                cases f with
                | none => exact ho1'
                | some f =>
                  simp only at hr ⊢
                  rw [bind_ok (show getW w' = (.ok w', w') from rfl)] at hr ⊢
                  by_cases hs : w'.backend = .symengine ∧ ∃ s ∈ o.V.phase.free ++ o.SRF.phase.free, s ∉ Self.fnVars o.params
                  · simp only [if_pos hs]
                    exact ho1'
                  · simp only [if_neg hs] at hr
                    cases hr
        · refine .inl ?_
          unfold Self.fnevals
          rw [bind_ok (getObj_some ho), hf, hi]
          simp only [hq]
          exact ho
  rcases hcases with h | h | h
  · exact ⟨o, h, rfl, fun h => h⟩
  · exact ⟨o1, h, same _, fun h => by rw [l1]; exact h⟩
  · refine ⟨o2, ho2, ?_, fun _ => h⟩
    cases hz : o2.fnevals_ with
    | none => rw [hz] at h; cases h
    | some l =>
      have e : Fresh.fnevals w.backend o2 = .ok (some l) := by unfold Fresh.fnevals; rw [hz]
      rw [e]
      rw [hl2] at hz
      unfold Obj.lamAfter at hz
      split at hz
      · cases hx : Fresh.fnevals w.backend o with
        | error er => rw [hx] at hz; cases hz
        | ok l' => rw [hx] at hz; cases hz; rfl
      · unfold Fresh.fnevals
        rw [hz]

theorem pick_fn {w : World} {id : ℕ} {o : Obj} (ho : w.objs id = some o) (t : Tags) :
    realPolicy.pick id .fn w t = ((Tags.look w.backend o.fnevals_.isSome t.fn id).1,
      { t with fn := (Tags.look w.backend o.fnevals_.isSome t.fn id).2 }) := by
  show (match w.objs id with
    | none => (w.backend, t)
    | some o => _ : Backend × Tags) = _
  rw [ho]

/-- Looking up the backend of the coefficients. -/
theorem SF.look {s : World × Tags} (h : SF w0 id o kV kS k u s) {o' : Obj} (ho : s.1.objs id = some o') :
    (realPolicy.pick id .fn s.1 s.2).1 = k ∧ (realPolicy.pick id .fn s.1 s.2).2.fn id = k ∧
      (realPolicy.pick id .fn s.1 s.2).2.scatter = s.2.scatter := by
  obtain ⟨o2, ho2, -, h1, h2⟩ := h.fn
  rw [ho] at ho2
  cases ho2
  rw [pick_fn ho]
  cases hs : o'.fnevals_.isSome with
  | true =>
    have := h1 hs
    exact ⟨this, this, rfl⟩
  | false =>
    have := h2 hs
    refine ⟨this, ?_, rfl⟩
    unfold Tags.look
    simp only [Bool.false_eq_true, if_false, Function.update_self]
    exact this

theorem SFx.backendFn : Exact Q ((A).backend .fn) ((F).backend .fn) := by
  intro s hs
  obtain ⟨o', ho, e1, h1, h2⟩ := hs.fn
  obtain ⟨p1, p2, p3⟩ := hs.look ho
  have e : (A).backend .fn s = (.ok k, (s.1, (realPolicy.pick id .fn s.1 s.2).2)) := by
    show ((Except.ok (realPolicy.pick id .fn s.1 s.2).1, (s.1, (realPolicy.pick id .fn s.1 s.2).2)) : Py Backend × (World × Tags)) = _
    rw [p1]
  rw [e]
  refine ⟨⟨hs.sk, ⟨o', ho, e1, fun _ => p2, h2⟩, fun hu => ?_⟩, fun a => Iff.rfl⟩
  have := hs.all hu
  unfold Switch.backendOf at this ⊢
  rw [p3]; exact this

theorem SFx.fnevals : Exact Q (A).fnevals (F).fnevals := by
  intro s hs
  obtain ⟨o', ho, e1, h1, h2⟩ := hs.fn
  obtain ⟨p1, p2, p3⟩ := hs.look ho
  have e : (A).fnevals s = ((Self.fnevals id (s.1.on k)).1,
      ((Self.fnevals id (s.1.on k)).2.on s.1.backend, (realPolicy.pick id .fn s.1 s.2).2)) := by
    show ((Self.fnevals id (s.1.on (realPolicy.pick id .fn s.1 s.2).1)).1,
      ((Self.fnevals id (s.1.on (realPolicy.pick id .fn s.1 s.2).1)).2.on s.1.backend, (realPolicy.pick id .fn s.1 s.2).2)) = _
    rw [p1]
  have ho' : (s.1.on k).objs id = some o' := ho
  obtain ⟨hr, -⟩ := fnevals_result ho'
  obtain ⟨o2, ho2, e2, h3⟩ := fnevals_stays ho'
  rw [e]
  refine ⟨⟨(SK.fnevals _ (hs.sk.on k)).on _, ⟨o2, ho2, e2.trans e1, fun _ => p2, fun hn => ?_⟩, fun hu => ?_⟩, fun a => ?_⟩
  · refine h2 ?_
    cases hx : o'.fnevals_.isSome with
    | false => rfl
    | true => rw [h3 hx] at hn; cases hn
  · have := hs.all hu
    unfold Switch.backendOf at this ⊢
    show _ ∧ _ ∧ ((kV = s.1.backend ∧ kS = s.1.backend) ∨ _)
    rw [p3]; exact this
  · show (Self.fnevals id (s.1.on k)).1 = .ok a ↔ Fresh.fnevals k o = .ok a
    rw [hr, show (s.1.on k).backend = k from rfl, e1]

/-! ### interaction -/

theorem SFx.nmax : Exact Q (A).nmax (F).nmax :=
  Exact.bind SFx.V fun _ => Exact.bind (Exact.lift _) fun _ => Exact.bind SFx.SRF fun _ =>
    Exact.bind (Exact.lift _) fun _ => Exact.pure _

theorem SFx.fint {g : SM Tags (List Arr)} {g' : Py (List Arr)} (hg : Exact Q g g') {x y : SM Tags Arr} {x' y' : Py Arr}
    (hx : Exact Q x x') (hy : Exact Q y y') : Exact Q ((A).fint g x y) ((F).fint g' x' y') := by
  unfold Acc.fint
  refine Exact.bind hg fun _ => Exact.bind SFx.params fun _ => Exact.bind (Exact.lift _) fun args =>
    Exact.bind SFx.fnevals fun f => ?_
  cases f with
  | none => exact fun s hs => ⟨hs, fun a => ⟨(fun h => by cases h), (fun h => by cases h)⟩⟩
  | some f =>
    exact Exact.bind (Exact.bind SFx.backendFn fun _ => Exact.lift _) fun _ => Exact.bind (Exact.lift _) fun _ =>
      Exact.bind hx fun _ => Exact.bind hy fun _ => Exact.bind (SFx.par _) fun _ => Exact.bind SFx.nmax fun _ =>
        Exact.bind (Exact.lift _) fun _ => Exact.bind (Exact.lift _) fun _ => Exact.bind (Exact.lift _) fun _ =>
          Exact.bind (Exact.lift _) fun _ => Exact.lift _

theorem SFx.interaction : Exact Q (A).interaction (F).interaction := by
  have ang1 : Exact Q (do
      let a ← (A).t0
      let b ← (A).p0
      let c ← (A).tex
      let d ← (A).pex
      Pure.pure [a, b, c, d]) (do
      let a ← (F).t0
      let b ← (F).p0
      let c ← (F).tex
      let d ← (F).pex
      Pure.pure [a, b, c, d]) :=
    Exact.bind SFx.t0 fun _ => Exact.bind SFx.p0 fun _ => Exact.bind SFx.tex fun _ => Exact.bind SFx.pex fun _ => Exact.pure _
  have ang2 : Exact Q (do
      let a ← (A).tex
      let b ← (A).pex
      let c ← (A).t0
      let d ← (A).p0
      Pure.pure [a, b, c, d]) (do
      let a ← (F).tex
      let b ← (F).pex
      let c ← (F).t0
      let d ← (F).p0
      Pure.pure [a, b, c, d]) :=
    Exact.bind SFx.tex fun _ => Exact.bind SFx.pex fun _ => Exact.bind SFx.t0 fun _ => Exact.bind SFx.p0 fun _ => Exact.pure _
  refine Exact.bind (SFx.fint ang1 SFx.mu0x SFx.mu0) fun F1 => Exact.bind (SFx.fint ang2 SFx.muExx SFx.muEx) fun F2 => ?_
  refine Exact.bind (Exact.mulM (Exact.mulM (Exact.mulM SFx.I0 SFx.mu0) (SFx.par _)) (Exact.addM
    (Exact.mulM (Exact.expM (Exact.divM (Exact.negM (SFx.par _)) SFx.muEx)) (Exact.pure _))
    (Exact.mulM (Exact.expM (Exact.divM (Exact.negM (SFx.par _)) SFx.mu0)) (Exact.pure _)))) fun _ => ?_
  exact Exact.mulM (Exact.mulM (SFx.par _) (Exact.subM (Exact.litM _) (SFx.par _))) (Exact.pure _)

theorem SFx.convert (a : Arr) : Exact Q ((A).convert a) ((F).convert a) := by
  refine Exact.bind SFx.sig0 fun s => Exact.bind SFx.dB fun db => ?_
  have e2 : ∀ {x : SM Tags Arr} {y : Py Arr}, Exact Q x y → Exact Q (x >>= fun signorm => do
      let ret ← liftPy (Arr.mul a signorm)
      if db = true then RT1.litM 10 *. Pure.pure (Arr.map XR.log10 ret) else Pure.pure ret) (y >>= fun signorm => do
      let ret ← liftPy (Arr.mul a signorm)
      if db = true then RT1.litM 10 *. Pure.pure (Arr.map XR.log10 ret) else Pure.pure ret) := fun hx =>
    Exact.bind hx fun _ => Exact.bind (Exact.lift _) fun _ =>
      Exact.ite (Exact.mulM (Exact.litM _) (Exact.pure _)) (Exact.pure _)
  cases s
  · exact e2 (Exact.litM 1)
  · exact e2 (Exact.divM (Exact.mulM (Exact.litM _) SFx.mu0) SFx.I0)

/-! ### calc -/

theorem LRU.find_put_room {κ ν : Type} {c : LRU κ ν} {k k' : κ} {v : ν} (hk : k' ≠ k)
    (h : (c.filter fun p => decide (p.1 ≠ k)).length + 1 ≤ 128) : LRU.find (LRU.put c k v) k' = LRU.find c k' := by
  unfold LRU.put
  rw [List.take_of_length_le (by simpa using h), LRU.find_cons, if_neg (fun h' => hk h'.symm), LRU.find_filter hk]

theorem LRU.filter_found {κ ν : Type} {c : LRU κ ν} {k : κ} {v : ν} (h : LRU.find c k = some v) :
    (c.filter fun p => decide (p.1 ≠ k)).length + 1 ≤ c.length := by
  induction c with
  | nil => cases h
  | cons p c ih =>
    rw [LRU.find_cons] at h
    by_cases hp : p.1 = k
    · rw [List.filter_cons_of_neg (by simp [hp])]
      have := List.length_filter_le (fun p => decide (p.1 ≠ k)) c
      simp only [List.length_cons]
      omega
    · rw [if_neg hp] at h
      rw [List.filter_cons_of_pos (by simp [hp])]
      have := ih h
      simp only [List.length_cons]
      omega

theorem LRU.put_length {κ ν : Type} (c : LRU κ ν) (k : κ) (v : ν) :
    (LRU.put c k v).length ≤ (c.filter fun p => decide (p.1 ≠ k)).length + 1 := by
  unfold LRU.put
  rw [List.length_take, List.length_cons]
  exact Nat.min_le_right _ _

theorem LRU.put_room {κ ν : Type} (t : LRU κ ν) (a : κ) (k : ν) (n : ℕ) (hn : LRU.find t a = none → n = 1)
    (h : t.length + n ≤ 128) :
    (LRU.put t a k).length ≤ t.length + n ∧ ∀ b, b ≠ a → LRU.find (LRU.put t a k) b = LRU.find t b := by
  have hl : (t.filter fun p => decide (p.1 ≠ a)).length + 1 ≤ t.length + n := by
    cases hf : LRU.find t a with
    | none =>
      have := List.length_filter_le (fun p => decide (p.1 ≠ a)) t
      rw [hn hf]
      omega
    | some x =>
      have := LRU.filter_found hf
      omega
  exact ⟨(LRU.put_length t a k).trans hl, fun b hb => LRU.find_put_room hb (hl.trans h)⟩

/-- Entering `a` keeps the room for `a` and `b`, and the entry of `b`. -/
theorem Room.put {t : LRU (Scatter × List String) Backend} {a b : Scatter × List String} (h : Room t a b) (k : Backend) :
    Room (LRU.put t a k) a b ∧ (b ≠ a → LRU.find (LRU.put t a k) b = LRU.find t b) := by
  unfold Room at h ⊢
  obtain ⟨h1, hb⟩ := LRU.put_room t a k (lacks t a) (fun hf => by unfold lacks; rw [if_pos hf]) (by omega)
  have hb := hb b
  refine ⟨?_, hb⟩
  have h2 : lacks (LRU.put t a k) a = 0 := by
    unfold lacks
    rw [LRU.find_put_self, if_neg (by simp)]
  have h3 : lacks (LRU.put t a k) b ≤ lacks t b := by
    by_cases hne : b = a
    · rw [hne, h2]; exact Nat.zero_le _
    · unfold lacks
      rw [hb hne]
  omega

theorem Room.symm {t : LRU (Scatter × List String) Backend} {a b : Scatter × List String} (h : Room t a b) : Room t b a := by
  unfold Room at h ⊢
  omega

/-- Looking up a phase function does not change the backends of the two. -/
theorem scat_keeps {cur kg kf : Backend} {g f : Scatter} {ns : List String} {t : LRU (Scatter × List String) Backend}
    (hg : (LRU.find t (g, ns)).getD cur = kg) (hf : (LRU.find t (f, ns)).getD cur = kf)
    (h : (kg = cur ∧ kf = cur) ∨ Room t (g, ns) (f, ns)) :
    (LRU.find (Tags.scat cur g ns t).2 (f, ns)).getD cur = kf ∧
      ((kg = cur ∧ kf = cur) ∨ Room (Tags.scat cur g ns t).2 (g, ns) (f, ns)) := by
  have put : ∀ b, b = kg → (LRU.find (LRU.put t (g, ns) b) (f, ns)).getD cur = kf ∧
      ((kg = cur ∧ kf = cur) ∨ Room (LRU.put t (g, ns) b) (g, ns) (f, ns)) := by
    rintro b rfl
    by_cases he : (f, ns) = (g, ns)
    · rw [he, LRU.find_put_self]
      rw [he, hg] at hf
      refine ⟨hf, h.imp (fun h => h) fun h => ?_⟩
      rw [← he]
      rw [← he] at h
      exact (h.put b).1
    · rcases h with ⟨h1, h2⟩ | h
      · refine ⟨?_, .inl ⟨h1, h2⟩⟩
        cases hx : LRU.find (LRU.put t (g, ns) b) (f, ns) with
        | none => exact h2.symm
        | some x =>
          have := LRU.find_put_of_ne he hx
          rw [this] at hf
          exact hf
      · rw [(h.put b).2 he]
        exact ⟨hf, .inr (h.put b).1⟩
  unfold Tags.scat
  cases hx : LRU.find t (g, ns) with
  | some b =>
    rw [hx] at hg
    exact put b hg
  | none =>
    rw [hx] at hg
    simp only
    cases Lam.compile cur (["theta_0", "theta_ex", "phi_0", "phi_ex"] ++ ns) g.phase with
    | ok l => exact put cur hg
    | error e => exact ⟨hf, h⟩

local notation "Q1" => SF w0 id o kV kS k true

theorem SFx.backendSRF : Exact Q1 ((A).backend .SRF) ((F).backend .SRF) := by
  intro s hs
  obtain ⟨o', ho, hc⟩ := hs.sk.si.obj
  obtain ⟨-, c2, -, c4, -⟩ := core_fields hc
  obtain ⟨h1, h2, h3⟩ := hs.all rfl
  unfold Switch.backendOf at h1 h2
  have e : (A).backend .SRF s = (.ok (Tags.scat s.1.backend o'.SRF o'.params.keys s.2.scatter).1,
      (s.1, { s.2 with scatter := (Tags.scat s.1.backend o'.SRF o'.params.keys s.2.scatter).2 })) := by
    show ((Except.ok (realPolicy.pick id .SRF s.1 s.2).1, (s.1, (realPolicy.pick id .SRF s.1 s.2).2)) : Py Backend × (World × Tags)) = _
    have : realPolicy.pick id .SRF s.1 s.2 = ((Tags.scat s.1.backend o'.SRF o'.params.keys s.2.scatter).1,
        { s.2 with scatter := (Tags.scat s.1.backend o'.SRF o'.params.keys s.2.scatter).2 }) := by
      show (match s.1.objs id with
        | none => (s.1.backend, s.2)
        | some o => _ : Backend × Tags) = _
      rw [ho]
    rw [this]
  rw [e, c2, c4, scat_fst, h2]
  have g := scat_keeps h2 h1 (h3.imp (fun h => ⟨h.2, h.1⟩) Room.symm)
  refine ⟨⟨hs.sk, hs.fn, fun _ => ⟨g.1, ?_, g.2.imp (fun h => ⟨h.2, h.1⟩) Room.symm⟩⟩, fun a => Iff.rfl⟩
  unfold Switch.backendOf
  rw [← h2]
  exact scat_snd _ _ _ _

theorem SFx.backendV : Exact Q1 ((A).backend .V) ((F).backend .V) := by
  intro s hs
  obtain ⟨o', ho, hc⟩ := hs.sk.si.obj
  obtain ⟨c1, -, -, c4, -⟩ := core_fields hc
  obtain ⟨h1, h2, h3⟩ := hs.all rfl
  unfold Switch.backendOf at h1 h2
  have e : (A).backend .V s = (.ok (Tags.scat s.1.backend o'.V o'.params.keys s.2.scatter).1,
      (s.1, { s.2 with scatter := (Tags.scat s.1.backend o'.V o'.params.keys s.2.scatter).2 })) := by
    show ((Except.ok (realPolicy.pick id .V s.1 s.2).1, (s.1, (realPolicy.pick id .V s.1 s.2).2)) : Py Backend × (World × Tags)) = _
    have : realPolicy.pick id .V s.1 s.2 = ((Tags.scat s.1.backend o'.V o'.params.keys s.2.scatter).1,
        { s.2 with scatter := (Tags.scat s.1.backend o'.V o'.params.keys s.2.scatter).2 }) := by
      show (match s.1.objs id with
        | none => (s.1.backend, s.2)
        | some o => _ : Backend × Tags) = _
      rw [ho]
    rw [this]
  rw [e, c1, c4, scat_fst, h1]
  have g := scat_keeps h1 h2 h3
  refine ⟨⟨hs.sk, hs.fn, fun _ => ⟨?_, g.1, g.2⟩⟩, fun a => Iff.rfl⟩
  unfold Switch.backendOf
  rw [← h1]
  exact scat_snd _ _ _ _

theorem SFx.srfCalc : Exact Q1 (A).srfCalc (F).srfCalc :=
  Exact.bind SFx.SRF fun _ => Exact.bind SFx.t0 fun _ => Exact.bind SFx.tex fun _ => Exact.bind SFx.p0 fun _ =>
    Exact.bind SFx.pex fun _ => Exact.bind SFx.params fun _ => Exact.bind SFx.backendSRF fun _ => Exact.lift _

theorem SFx.vCalc : Exact Q1 (A).vCalc (F).vCalc :=
  Exact.bind SFx.V fun _ => Exact.bind SFx.t0 fun _ => Exact.bind SFx.tex fun _ => Exact.bind SFx.p0 fun _ =>
    Exact.bind SFx.pex fun _ => Exact.bind SFx.params fun _ => Exact.bind SFx.backendV fun _ => Exact.lift _

theorem SFx.atten : Exact Q (A).atten (F).atten :=
  Exact.expM (Exact.subM (Exact.negM (Exact.divM (SFx.par _) SFx.mu0)) (Exact.divM (SFx.par _) SFx.muEx))

theorem SFx.surface : Exact Q1 (A).surface (F).surface :=
  Exact.bind (Exact.mulM (Exact.mulM SFx.I0 SFx.mu0) SFx.srfCalc) fun _ =>
    Exact.bind (Exact.mulM SFx.atten (Exact.pure _)) fun _ =>
      Exact.mulM (SFx.par _) (Exact.addM (Exact.mulM (Exact.subM (Exact.litM 1) (SFx.par _)) (Exact.pure _))
        (Exact.mulM (SFx.par _) (Exact.pure _)))

theorem SFx.volume : Exact Q1 (A).volume (F).volume :=
  Exact.bind (Exact.mulM (Exact.mulM (Exact.divM (Exact.mulM (Exact.mulM SFx.I0 (SFx.par _)) SFx.mu0)
    (Exact.addM SFx.mu0 SFx.muEx)) (Exact.subM (Exact.litM 1) SFx.atten)) SFx.vCalc) fun _ =>
      Exact.mulM (Exact.subM (Exact.litM 1) (SFx.par _)) (Exact.pure _)

theorem SFx.finish (q : Bool) (a b c : Arr) : Exact Q ((A).finish q a b c) ((F).finish q a b c) :=
  Exact.ite (Exact.bind (Exact.addM (Exact.addM (Exact.pure _) (Exact.pure _)) (Exact.pure _)) fun _ =>
      Exact.bind (Exact.lift _) fun _ => SFx.convert _)
    (Exact.bind (Exact.addM (Exact.pure _) (Exact.pure _)) fun _ => Exact.bind (Exact.lift _) fun _ => SFx.convert _)

theorem SFx.fixNan (a : Arr) : Exact Q ((A).fixNan a) ((F).fixNan a) :=
  Exact.ite (Exact.bind (SFx.par _) fun _ => Exact.bind (Exact.lift _) fun _ => Exact.pure _) (Exact.pure _)

theorem SFx.calcBody : Exact Q1 (A).calcBody (F).calcBody := by
  refine Exact.bind (SFx.par _) fun tau => Exact.ite ?_ ?_
  · refine Exact.bind SFx.surface fun _ => Exact.bind (SFx.par _) fun _ => Exact.ite ?_ ?_
    · exact Exact.bind SFx.volume fun _ => Exact.bind SFx.intQ fun _ =>
        Exact.ite (Exact.bind SFx.interaction fun _ => SFx.finish _ _ _ _) (SFx.finish _ _ _ _)
    · exact Exact.bind SFx.intQ fun _ => SFx.finish _ _ _ _
  · exact Exact.bind SFx.surface fun _ => Exact.bind SFx.volume fun _ => Exact.bind SFx.intQ fun _ =>
      Exact.ite (Exact.bind SFx.interaction fun _ => Exact.bind (SFx.fixNan _) fun _ => SFx.finish _ _ _ _)
        (SFx.finish _ _ _ _)

theorem SM.catch_ok {T α : Type} {x : SM T α} {f : PyErr → SM T α} {s s' : World × T} {a : α} (h : x s = (.ok a, s')) :
    (tryCatch x f : SM T α) s = (.ok a, s') := by
  show (match x s with
    | (.ok a, s') => (.ok a, s')
    | (.error e, s') => f e s' : Py α × (World × T)) = _
  rw [h]

theorem SM.catch_error {T α : Type} {x : SM T α} {f : PyErr → SM T α} {s s' : World × T} {e : PyErr}
    (h : x s = (.error e, s')) : (tryCatch x f : SM T α) s = f e s' := by
  show (match x s with
    | (.ok a, s') => (.ok a, s')
    | (.error e, s') => f e s' : Py α × (World × T)) = _
  rw [h]

/-- Only arrays returned by the body of the `try` block are returned. -/
theorem SFx.calcTry {s : World × Tags} (hs : SF w0 id o kV kS k true s) (a : Arr) :
    ((A).calcTry s).1 = .ok a ↔ (F).calcTry = .ok a := by
  obtain ⟨-, h⟩ := SFx.calcBody s hs
  have e1 : ((A).calcTry s).1 = .ok a ↔ ((A).calcBody s).1 = .ok a := by
    unfold Acc.calcTry
    cases hx : (A).calcBody s with
    | mk r s' =>
      cases r with
      | ok b => rw [SM.catch_ok hx]
      | error e =>
        rw [SM.catch_error hx]
        refine ⟨fun hy => ?_, fun hy => by cases hy⟩
        exfalso
        cases e <;> try (cases hy)
        rename_i ns
        simp only at hy
        cases hm : (A).missingNames s' with
        | mk r' s'' =>
          cases r' with
          | error e => rw [SM.bind_error hm] at hy; cases hy
          | ok l =>
            rw [SM.bind_ok hm] at hy
            by_cases hl : l ≠ []
            · rw [if_pos hl] at hy; cases hy
            · rw [if_neg hl] at hy; cases hy
  rw [e1, h a]
  refine ⟨fun hx => by unfold Acc.calcTry; rw [hx]; rfl, fun hx => ?_⟩
  unfold Acc.calcTry at hx
  cases hb : (F).calcBody with
  | ok z => rw [hb] at hx; exact hx
  | error e =>
    exfalso
    rw [hb] at hx
    cases e <;> try (cases hx)
    rename_i ns
    have hx' : ((F).missingNames >>= fun names =>
        if names ≠ [] then (throw (PyErr.typeError names) : Py Arr) else throw (PyErr.typeError ns)) = .ok a := hx
    obtain ⟨l, -, hx'⟩ := ok_bind hx'
    by_cases hl : l ≠ []
    · rw [if_pos hl] at hx'; cases hx'
    · rw [if_neg hl] at hx'; cases hx'

end

end

end RT1
