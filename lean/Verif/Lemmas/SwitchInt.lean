import Verif.Lemmas.SwitchHist
import Verif.Lemmas.Remembered

/-! The interaction term in programs that switch backends. -/

namespace RT1

noncomputable section
open Classical

/-! ### steps that do not look at the backend -/

/-- The same world with another backend. -/
def World.on (w : World) (b : Backend) : World := { w with backend := b }

/-- The step does the same whatever the backend is, and does not change it. -/
def Obl {α : Type} (x : M α) : Prop := ∀ w b, x (w.on b) = ((x w).1, (x w).2.on b)

namespace Obl
variable {α β : Type}

theorem bind {x : M α} {f : α → M β} (h : Obl x) (hf : ∀ a, Obl (f a)) : Obl (x >>= f) := by
  intro w b
  have e := h w b
  cases hx : x w with
  | mk r w' =>
    rw [hx] at e
    cases r with
    | error er => rw [bind_error hx, bind_error e]
    | ok a => rw [bind_ok hx, bind_ok e]; exact hf a w' b

theorem pure (a : α) : Obl (Pure.pure a : M α) := fun _ _ => rfl
theorem throw (e : PyErr) : Obl (MonadExceptOf.throw e : M α) := fun _ _ => rfl
theorem lift (x : Py α) : Obl (liftPy x) := by
  intro w b
  cases x <;> rfl
theorem getObj (id : ℕ) : Obl (RT1.getObj id) := by
  intro w b
  cases ho : w.objs id with
  | none => rw [getObj_none ho, getObj_none (w := w.on b) ho]
  | some o => rw [getObj_some ho, getObj_some (w := w.on b) ho]
theorem modObj (id : ℕ) (f : Obj → Obj) : Obl (RT1.modObj id f) := fun _ _ => rfl
theorem ite {c : Prop} [Decidable c] {x y : M α} (h : Obl x) (h' : Obl y) : Obl (if c then x else y) := by
  by_cases hc : c
  · rw [if_pos hc]; exact h
  · rw [if_neg hc]; exact h'

theorem memo {κ ν : Type} {tab : Caches → LRU κ ν} {setTab : Caches → LRU κ ν → Caches} {k : κ} {x : M ν}
    (h : Obl x) : Obl (RT1.memo tab setTab k x) := by
  intro w b
  have e := h w b
  show (match LRU.find (tab w.caches) k with
    | some v => _
    | none => _ : Py ν × World) = _
  unfold RT1.memo
  cases hf : LRU.find (tab w.caches) k with
  | some v => rfl
  | none =>
    simp only
    rw [e]
    cases hx : x w with
    | mk r w' => cases r <;> rfl

theorem clearGeom : Obl RT1.clearGeom := fun _ _ => rfl
theorem clearParam : Obl RT1.clearParam := fun _ _ => rfl
theorem clearAll : Obl RT1.clearAll := fun _ _ => rfl

theorem resetGeom (id : ℕ) (m : Bool) : Obl (RT1.resetGeom id m) :=
  bind (modObj _ _) fun _ => bind clearGeom fun _ => modObj _ _

theorem setMonostatic (id : ℕ) (p : Option PyArg) : Obl (RT1.setMonostatic id p) := by
  refine bind (resetGeom _ _) fun _ => bind ?_ fun _ => modObj _ _
  cases p with
  | none => exact pure _
  | some a =>
    cases a with
    | other => exact throw _
    | number r => exact bind (modObj _ _) fun _ => pure _

theorem bistaticAngle (id : ℕ) (n : AngN) (s : String) (p : Option PyArg) : Obl (RT1.bistaticAngle id n s p) := by
  cases p with
  | none => exact pure _
  | some a =>
    cases a with
    | other => exact throw _
    | number r => exact bind (modObj _ _) fun _ => pure _

theorem setBistatic (id : ℕ) (a b c d : Option PyArg) : Obl (RT1.setBistatic id a b c d) :=
  bind (resetGeom _ _) fun _ => bind (bistaticAngle _ _ _ _) fun _ => bind (bistaticAngle _ _ _ _) fun _ =>
    bind (bistaticAngle _ _ _ _) fun _ => bind (bistaticAngle _ _ _ _) fun _ => modObj _ _

theorem setAngles (id : ℕ) (l : List (String × Option Arr)) : Obl (RT1.setAngles id l) := by
  induction l with
  | nil => exact pure _
  | cons p l ih =>
    obtain ⟨k, v⟩ := p
    unfold RT1.setAngles
    cases hk : AngN.ofName k with
    | none => exact ih
    | some n =>
      refine bind (getObj id) fun o => ite (bind (throw _) fun _ => ih) ?_
      cases v with
      | none => exact bind (throw _) fun _ => ih
      | some a => exact bind (modObj _ _) fun _ => ih

theorem setGeometry (id : ℕ) (kw : List (String × Option Arr)) : Obl (RT1.setGeometry id kw) := by
  unfold RT1.setGeometry
  exact ite (throw _) (bind (getObj id) fun o => ite (throw _) (bind clearGeom fun _ => setAngles id kw))

theorem updateParams (id : ℕ) (kw : Dict) : Obl (RT1.updateParams id kw) :=
  bind (getObj id) fun _ => modObj _ _

theorem t0 (id : ℕ) : Obl (Self.t0 id) := by
  refine bind (getObj id) fun o => ?_
  cases o.ang .t0 with
  | none => exact throw _
  | some a => exact pure _
theorem p0 (id : ℕ) : Obl (Self.p0 id) := by
  refine bind (getObj id) fun o => ?_
  cases o.ang .p0 with
  | none => exact throw _
  | some a => exact pure _
theorem tex (id : ℕ) : Obl (Self.tex id) := by
  refine bind (getObj id) fun o => ite (t0 id) ?_
  cases o.ang .tex with
  | none => exact throw _
  | some a => exact pure _
theorem pex (id : ℕ) : Obl (Self.pex id) := by
  refine bind (getObj id) fun o => ite (bind (p0 id) fun _ => lift _) ?_
  cases o.ang .pex with
  | none => exact throw _
  | some a => exact pure _
theorem mu0 (id : ℕ) : Obl (Self.mu0 id) := memo (bind (t0 id) fun _ => pure _)
theorem muEx (id : ℕ) : Obl (Self.muEx id) := memo (bind (tex id) fun _ => pure _)
theorem nmax (id : ℕ) : Obl (Self.nmax id) :=
  bind (getObj id) fun _ => bind (lift _) fun _ => bind (lift _) fun _ => pure _
theorem mu0x (id : ℕ) : Obl (Self.mu0x id) := memo (bind (nmax id) fun _ => bind (mu0 id) fun _ => lift _)
theorem muExx (id : ℕ) : Obl (Self.muExx id) := memo (bind (nmax id) fun _ => bind (muEx id) fun _ => lift _)
theorem paramSymbs (id : ℕ) (p : PName) : Obl (Self.paramSymbs id p) := memo (bind (getObj id) fun _ => pure _)

theorem newObj (V SRF : Scatter) (q s d : Bool) (fI : Option (List P)) (fe : Option FnLam) (i : Arr) :
    Obl (RT1.newObj V SRF q s d fI fe i) := by
  intro w b
  have e := setMonostatic w.next none (w.addObj (initObj V SRF q s d fI fe i)) b
  show (match RT1.setMonostatic w.next none ((w.addObj (initObj V SRF q s d fI fe i)).on b) with
    | (.ok a, w') => (.ok w.next, w')
    | (.error e, w') => (.error e, w') : Py ℕ × World) = _
  rw [e]
  show _ = ((match RT1.setMonostatic w.next none (w.addObj (initObj V SRF q s d fI fe i)) with
    | (.ok a, w') => (.ok w.next, w')
    | (.error e, w') => (.error e, w') : Py ℕ × World).1, (match RT1.setMonostatic w.next none (w.addObj (initObj V SRF q s d fI fe i)) with
    | (.ok a, w') => (.ok w.next, w')
    | (.error e, w') => (.error e, w') : Py ℕ × World).2.on b)
  cases hx : RT1.setMonostatic w.next none (w.addObj (initObj V SRF q s d fI fe i)) with
  | mk r w' => cases r <;> rfl

theorem pickle (id : ℕ) : Obl (RT1.pickle id) := by
  refine bind (modObj _ _) fun _ => bind (getObj id) fun o => ?_
  intro w b
  rfl

theorem checkParams (id : ℕ) (names : List String) : Obl (RT1.checkParams id names) := by
  have attr : ∀ {β : Type} (g : Obj → β), Obl (do let o ← RT1.getObj id; Pure.pure (g o)) := fun g =>
    bind (getObj id) fun _ => pure _
  have key : ∀ k : Backend, Obl (do
      let a ← (Self.acc k id).symbs .tau
      let b ← (Self.acc k id).symbs .omega
      let c ← (Self.acc k id).symbs .NormBRDF
      let d ← (Self.acc k id).symbs .bsf
      let v ← (Self.acc k id).V
      let s ← (Self.acc k id).SRF
      let symbs := (a ++ b ++ c ++ d ++ v.phase.free ++ s.phase.free).filter fun k =>
        decide (k ∉ ["phi_0", "phi_ex", "theta_0", "theta_ex"])
      let ignored := symbs.filter fun k => decide (k ∉ names)
      let pd ← (Self.acc k id).params
      let missing := ignored.filter fun k => decide (k ∉ pd.keys)
      if missing ≠ [] then MonadExceptOf.throw (PyErr.assertMissing missing) else Pure.pure symbs : M (List String)) := by
    intro k
    exact bind (paramSymbs id _) fun _ => bind (paramSymbs id _) fun _ => bind (paramSymbs id _) fun _ =>
      bind (paramSymbs id _) fun _ => bind (attr _) fun _ => bind (attr _) fun _ => bind (attr _) fun _ =>
        ite (throw _) (pure _)
  refine bind (getObj id) fun _ => ?_
  intro w b
  exact key w.backend w b

end Obl

/-- Calls that evaluate nothing. -/
def Op.Silent : Op → Prop
  | .evalCalc _ _ | .surface _ _ | .volume _ _ | .interaction _ _ | .jacobian _ _ _ | .getParam _ _
  | .surfaceVolume _ => False
  | _ => True

theorem Obl.step {op : Op} (h : op.Silent) : Obl (RT1.step op) := by
  cases op <;> try exact h.elim
  case new V S q s d f fe i => exact bind (newObj _ _ _ _ _ _ _ _) fun _ => pure _
  case setMonostatic id p => exact setMonostatic id p
  case setBistatic id a b c d => exact setBistatic id a b c d
  case setGeometry id kw => exact setGeometry id kw
  case updateParams id kw => exact updateParams id kw
  case setParamDef id p d => exact bind clearParam fun _ => modObj _ _
  case pickle id => exact bind (pickle id) fun _ => pure _
  case checkParams id names => exact bind (checkParams id names) fun _ => pure _
  case clearCaches id => exact clearAll
  all_goals exact modObj _ _

theorem Switch.step_silent {T : Type} (P : Policy T) {op : Op} (h : op.Silent) (s : World × T) :
    (Switch.step P (.op op) s).2.1 = (RT1.step op s.1).2 := by
  cases op <;> first | exact h.elim | rfl

/-! ### the full invariant in programs that switch -/

/-- The invariant of a program that switches backends, without assigning `R.V`, `R.SRF`: memo tables and stored
coefficients are those of a program that uses sympy. -/
structure InvK (w : World) : Prop where
  invC : InvC w
  full : Inv true (w.on .sympy)

theorem InvK.on {w : World} (h : InvK w) (b : Backend) : InvK (w.on b) := ⟨h.invC.backend b, h.full⟩

theorem InvC.toK {w : World} (h : InvC w) (h1 : TabOK w.caches.mu0x fun id a => Holds w id fun o => Fresh.mu0x o = .ok a)
    (h2 : TabOK w.caches.muExx fun id a => Holds w id fun o => Fresh.muExx o = .ok a)
    (h3 : ∀ id o, w.objs id = some o → ObjOK .sympy o) : InvK w := by
  refine ⟨h, ?_⟩
  have := (h.backend .sympy).inv
  exact { this with mu0x := fun _ => h1, muExx := fun _ => h2, obj := fun _ => h3 }

/-- The states during an evaluation. -/
structure SK (w0 : World) (id : ℕ) (o : Obj) (w : World) : Prop where
  si : SI w0 id o w
  k : InvK w

theorem SK.on {w0 : World} {id : ℕ} {o : Obj} {w : World} (h : SK w0 id o w) (b : Backend) : SK w0 id o (w.on b) :=
  ⟨h.si.backend b, h.k.on b⟩

section
variable {w0 : World} {id : ℕ} {o : Obj}

theorem SK.of_obl {α : Type} {x : M α} (hx : Obl x) (hs : Safe (SI w0 id o) x)
    (h : ∀ w o', Safe (During true w id o' fun _ _ => True) x) : Safe (SK w0 id o) x := by
  intro w hw
  have h1 := hs w hw.si
  obtain ⟨o', ho, -⟩ := hw.si.obj
  have h2 := (h (w.on .sympy) o' (w.on .sympy) (During.init hw.k.full ho trivial)).inv
  rw [hx w .sympy] at h2
  exact ⟨h1, h1.invC, h2⟩

theorem SK.of_kept {α : Type} {x : M α} (hs : Safe (SI w0 id o) x)
    (h : ∀ w, (x w).2.objs = w.objs ∧ (x w).2.caches.mu0x = w.caches.mu0x ∧ (x w).2.caches.muExx = w.caches.muExx) :
    Safe (SK w0 id o) x := by
  intro w hw
  obtain ⟨e1, e2, e3⟩ := h w
  have h1 := hs w hw.si
  refine ⟨h1, h1.invC.toK ?_ ?_ ?_⟩
  · rw [e2]
    exact (hw.k.full.mu0x rfl).mono fun j a => fun ⟨oj, hj, hq⟩ => ⟨oj, by rw [e1]; exact hj, hq⟩
  · rw [e3]
    exact (hw.k.full.muExx rfl).mono fun j a => fun ⟨oj, hj, hq⟩ => ⟨oj, by rw [e1]; exact hj, hq⟩
  · intro j oj hj
    rw [e1] at hj
    exact hw.k.full.obj rfl j oj hj

/-- Objects and the tables of cosine powers are left alone. -/
def Kept3 (w : World) (v : World) : Prop :=
  v.objs = w.objs ∧ v.caches.mu0x = w.caches.mu0x ∧ v.caches.muExx = w.caches.muExx

theorem kept_psym (w : World) (p : PName) : Safe (Kept3 w) (Self.paramSymbs id p) :=
  Safe.memo (Safe.bind (Safe.getObj id) fun _ => Safe.pure _) fun _ _ h => h

theorem kept_pfun (w : World) (p : PName) : Safe (Kept3 w) (Self.paramFuncs id p) := by
  refine Safe.memo (Safe.bind (Safe.getObj id) fun o => ?_) fun _ _ h => h
  cases o.pdef p with
  | val a => exact Safe.pure _
  | str e =>
    exact Safe.bind (kept_psym w p) fun _ => Safe.bind Safe.getW fun _ => Safe.bind (Safe.lift _) fun _ => Safe.pure _
  | basic e =>
    exact Safe.bind (kept_psym w p) fun _ => Safe.bind Safe.getW fun _ => Safe.bind (Safe.lift _) fun _ => Safe.pure _

theorem kept_dVol (w : World) (k : String) : Safe (Kept3 w) (Self.dVolLam id k) :=
  Safe.memo (Safe.bind (Safe.getObj id) fun _ => Safe.bind Safe.getW fun _ => Safe.lift _) fun _ _ h => h

theorem kept_dSrf (w : World) (k : String) : Safe (Kept3 w) (Self.dSrfLam id k) :=
  Safe.memo (Safe.bind (Safe.getObj id) fun _ => Safe.bind Safe.getW fun _ => Safe.lift _) fun _ _ h => h

/-- Whatever the backend, asking for the coefficients leaves correct coefficients. -/
theorem ObjOK.sympy {b : Backend} {o : Obj} (h : ObjOK b o) : ObjOK .sympy o := by
  refine ⟨h.fn, fun l hl => ?_⟩
  obtain ⟨h1, ks, f, h2, h3, h4, -⟩ := h.fnevals l hl
  exact ⟨h1, ks, f, h2, h3, h4, fun hb => by cases hb.1⟩

theorem Obl.fn (id : ℕ) : Obl (Self.fn id) := by
  refine Obl.bind (Obl.getObj id) fun o => ?_
  cases o.fn_ with
  | some f => exact Obl.pure _
  | none =>
    cases o.fnInput with
    | some f => exact Obl.pure _
    | none => exact Obl.ite (Obl.bind (Obl.lift _) fun _ => Obl.bind (Obl.modObj _ _) fun _ => Obl.pure _) (Obl.pure _)

/-- Compiling the coefficients: the same with sympy, or it fails and only the expressions are kept. -/
theorem fnevals_on (id : ℕ) (w : World) :
    (Self.fnevals id w).2 = (Self.fn id w).2 ∨ (Self.fnevals id w).2 = w ∨
      (Self.fnevals id w).2.on .sympy = (Self.fnevals id (w.on .sympy)).2 := by
  cases ho : w.objs id with
  | none =>
    refine .inr (.inl ?_)
    unfold Self.fnevals
    rw [getObj_bind_none ho]
  | some o =>
    unfold Self.fnevals
    rw [bind_ok (getObj_some ho), bind_ok (getObj_some (w := w.on .sympy) ho)]
    cases hl : o.fnevals_ with
    | some f => exact .inr (.inl rfl)
    | none =>
      cases hi : o.fnevalsInput with
      | some f => exact .inr (.inl rfl)
      | none =>
        by_cases hq : o.intQ = true
        · simp only [hq, if_true]
          have e := Obl.fn id w .sympy
          cases hx : Self.fn id w with
          | mk r w' =>
            rw [hx] at e
            cases r with
            | error er => rw [bind_error hx]; exact .inl rfl
            | ok f =>
              rw [bind_ok hx, bind_ok e]
              cases f with
              | none => exact .inl rfl
              | some f =>
                simp only
                rw [bind_ok (show getW w' = (.ok w', w') from rfl),
                  bind_ok (show getW (w'.on .sympy) = (.ok (w'.on .sympy), w'.on .sympy) from rfl)]
                by_cases hs : w'.backend = .symengine ∧ ∃ s ∈ o.V.phase.free ++ o.SRF.phase.free, s ∉ Self.fnVars o.params
                · simp only [if_pos hs]
                  exact .inl rfl
                · have hs' : ¬ ((w'.on .sympy).backend = .symengine ∧
                      ∃ s ∈ o.V.phase.free ++ o.SRF.phase.free, s ∉ Self.fnVars o.params) := fun h => by cases h.1
                  simp only [if_neg hs, if_neg hs']
                  exact .inr (.inr rfl)
        · simp only [hq]
          exact .inr (.inl rfl)

theorem SK.fnevals : Safe (SK w0 id o) (Self.fnevals id) := by
  intro w hw
  have h1 := SI.stable.fnevals w hw.si
  obtain ⟨o', ho, -⟩ := hw.si.obj
  have hd := During.init (S := fun _ _ => True) hw.k.full ho trivial
  refine ⟨h1, h1.invC, ?_⟩
  rcases fnevals_on id w with h | h | h
  · have h2 := (Refines.fn _ hd).2.inv
    rw [Obl.fn id w .sympy] at h2
    rw [h]
    exact h2
  · rw [h]; exact hw.k.full
  · rw [h]
    exact (Refines.fnevals _ hd).2.inv

theorem SK.stable : MemoStable (SK w0 id o) id where
  mu0 := SK.of_obl (Obl.mu0 id) SI.stable.mu0 fun w o' => (During.stable_true w id o').mu0
  muEx := SK.of_obl (Obl.muEx id) SI.stable.muEx fun w o' => (During.stable_true w id o').muEx
  mu0x := SK.of_obl (Obl.mu0x id) SI.stable.mu0x fun w o' => (During.stable_true w id o').mu0x
  muExx := SK.of_obl (Obl.muExx id) SI.stable.muExx fun w o' => (During.stable_true w id o').muExx
  psym := fun p => SK.of_obl (Obl.paramSymbs id p) (SI.stable.psym p) fun w o' => (During.stable_true w id o').psym p
  pfun := fun p => SK.of_kept (SI.stable.pfun p) fun w => kept_pfun w p w ⟨rfl, rfl, rfl⟩
  fnevals := SK.fnevals
  dVol := fun k => SK.of_kept (SI.stable.dVol k) fun w => kept_dVol w k w ⟨rfl, rfl, rfl⟩
  dSrf := fun k => SK.of_kept (SI.stable.dSrf k) fun w => kept_dSrf w k w ⟨rfl, rfl, rfl⟩

end

/-! ### histories -/

/-- Plain calls with closed definitions, and any calls of `set_lambda_backend`. -/
def SOp.Plain : SOp → Prop
  | .op o => o.Plain ∧ o.ClosedDef
  | .setBackend _ => True

theorem SOp.Plain.fine {x : SOp} (h : x.Plain) : x.Fine := by
  cases x with
  | setBackend n => trivial
  | op o =>
    obtain ⟨h1, h2⟩ := h
    refine ⟨?_, h2⟩
    cases o <;> first | trivial | exact h1.elim

section
variable {T : Type} (P : Policy T)

theorem EvalSafe.sk {id : ℕ} {α : Type} {x : SM T α} (h : EvalSafe id x) {s : World × T} {o : Obj}
    (hI : InvK s.1) (ho : s.1.objs id = some o) : SK s.1 id o (x s).2.1 :=
  h (SK s.1 id o) SK.stable (fun _ b hw => hw.on b) s ⟨⟨hI.invC, rfl, fun _ _ => rfl, o, ho, rfl⟩, hI⟩

theorem InvK.updated {w : World} {id : ℕ} {o : Obj} (h : InvK w) (ho : w.objs id = some o) (kw : Dict) :
    InvK { w with objs := Function.update w.objs id (some (Fresh.update o kw)) } := by
  refine ⟨h.invC.updated ho kw, ?_⟩
  have := Inv.updateParams (id := id) kw (w.on .sympy) h.full
  rw [updateParams_eq (w := w.on .sympy) ho] at this
  exact this

theorem InvK.evalKw {s : World × T} (hI : InvK s.1) {id : ℕ} {α : Type} {x : SM T α} (kw : Dict) (hx : EvalSafe id x) :
    InvK ((Switch.plain (updateParams id kw) >>= fun _ => x) s).2.1 := by
  cases ho : s.1.objs id with
  | none =>
    have e : (Switch.plain (updateParams id kw) : SM T Unit) s = (.error .attributeError, s) := by
      show ((updateParams id kw s.1).1, ((updateParams id kw s.1).2, s.2)) = _
      rw [updateParams_none ho]
    rw [SM.bind_error e]
    exact hI
  | some o =>
    have e : (Switch.plain (updateParams id kw) : SM T Unit) s =
        (.ok (), ({ s.1 with objs := Function.update s.1.objs id (some (Fresh.update o kw)) }, s.2)) := by
      show ((updateParams id kw s.1).1, ((updateParams id kw s.1).2, s.2)) = _
      rw [updateParams_eq ho]
    rw [SM.bind_ok e]
    exact (hx.sk (s := ({ s.1 with objs := Function.update s.1.objs id (some (Fresh.update o kw)) }, s.2))
      (o := Fresh.update o kw) (hI.updated ho kw) (Function.update_self ..)).k

theorem InvK.evalNo {s : World × T} (hI : InvK s.1) {id : ℕ} {α : Type} {x : SM T α} (hx : EvalSafe id x)
    (hn : s.1.objs id = none → (x s).2.1 = s.1) : InvK (x s).2.1 := by
  cases ho : s.1.objs id with
  | none => rw [hn ho]; exact hI
  | some o => exact (hx.sk hI ho).k

theorem InvK.step {s : World × T} (hI : InvK s.1) {op : Op} (hp : op.Plain)
    (hc : InvC (Switch.step P (.op op) s).2.1) : InvK (Switch.step P (.op op) s).2.1 := by
  have acc : ∀ {id : ℕ} {α : Type} {x : SM T α},
      (∀ Q : World → Prop, AccSSafe Q (Switch.acc P id) → SSafe Q x) → EvalSafe id x :=
    fun hx Q hQ hb => hx Q (hQ.sacc hb P)
  have other : op.Silent → InvK (Switch.step P (.op op) s).2.1 := by
    intro hs
    refine ⟨hc, ?_⟩
    rw [Switch.step_silent P hs]
    have h1 : Inv true (RT1.step op (s.1.on .sympy)).2 :=
      Inv.step (fun _ => hp) (by rintro id n a rfl; exact hp) _ hI.full
    rw [Obl.step hs s.1 .sympy] at h1
    exact h1
  cases op
  case evalCalc id kw =>
    have e : (Switch.step P (.op (.evalCalc id kw)) s).2 = (Switch.calcOp P id kw s).2 := SM.bind_pure_state _ _
    rw [e]
    exact hI.evalKw kw (acc fun Q hQ => hQ.calcTry)
  case surface id kw =>
    have e : (Switch.step P (.op (.surface id kw)) s).2 = (Switch.surface P id kw s).2 := SM.bind_pure_state _ _
    rw [e]
    exact hI.evalKw kw (acc fun Q hQ => SSafe.bind hQ.surface fun _ => hQ.convert _)
  case volume id kw =>
    have e : (Switch.step P (.op (.volume id kw)) s).2 = (Switch.volume P id kw s).2 := SM.bind_pure_state _ _
    rw [e]
    exact hI.evalKw kw (acc fun Q hQ => SSafe.bind hQ.volume fun _ => hQ.convert _)
  case interaction id kw =>
    have e : (Switch.step P (.op (.interaction id kw)) s).2 = (Switch.interaction P id kw s).2 :=
      SM.bind_pure_state _ _
    rw [e]
    exact hI.evalKw kw (acc fun Q hQ => SSafe.bind hQ.interaction fun _ => hQ.convert _)
  case jacobian id ks f =>
    have e : (Switch.step P (.op (.jacobian id ks f)) s).2 = (Switch.jacobian P id ks f s).2 :=
      SM.bind_pure_state _ _
    rw [e]
    refine hI.evalNo (id := id) (acc fun Q hQ => ?_) fun ho => ?_
    · refine SSafe.bind (hQ.jacList ks) fun l => SSafe.ite (fun _ => SSafe.pure _) fun _ =>
        SSafe.ite (fun _ => ?_) fun _ => SSafe.throw _
      exact SSafe.bind (SSafe.plain (Safe.getObj id)) fun _ => SSafe.bind (SSafe.lift _) fun _ => SSafe.pure _
    · have e : Switch.jacobian P id ks f s = (.error .attributeError, s) := by
        unfold Switch.jacobian
        refine SM.bind_error ?_
        unfold Acc.jacList
        refine SM.bind_error ?_
        unfold Acc.jacNorm
        refine SM.bind_error ?_
        exact plain_getObj_none ho _
      rw [e]
  case getParam id p =>
    have e : (Switch.step P (.op (.getParam id p)) s).2 = ((Switch.acc P id).par p s).2 := SM.bind_pure_state _ _
    rw [e]
    refine hI.evalNo (acc fun Q hQ => hQ.par p) fun ho => ?_
    have hb := (hI.invC.backend (P.pick id (.par p) s.1 s.2).1).inv
    show { (Self.evalParam id p { s.1 with backend := (P.pick id (.par p) s.1 s.2).1 }).2 with
      backend := s.1.backend } = s.1
    rw [evalParam_none hb ho]
  case surfaceVolume id =>
    have e : (Switch.step P (.op (.surfaceVolume id)) s).2 = (Switch.surfaceVolume P id s).2 := SM.bind_pure_state _ _
    rw [e]
    refine hI.evalNo (id := id) (acc fun Q hQ => ?_) fun ho => ?_
    · exact SSafe.bind (SSafe.plain (Safe.getObj id)) fun _ =>
        SSafe.bind (SSafe.addM hQ.surface hQ.volume) fun _ => hQ.convert _
    · have e : Switch.surfaceVolume P id s = (.error .attributeError, s) := by
        unfold Switch.surfaceVolume
        refine SM.bind_error ?_
        show ((getObj id s.1).1, ((getObj id s.1).2, s.2)) = _
        rw [getObj_none ho]
      rw [e]
  all_goals exact other trivial

theorem InvK.history (b0 : Backend) (t0 : T) {ops : List SOp} (hk : ∀ x ∈ ops, x.Plain) :
    InvK (Switch.run P (initWorld b0, t0) ops).1 := by
  induction ops using List.reverseRecOn with
  | nil =>
    exact ⟨⟨Inv.init false b0, fun id o h => by cases h⟩, Inv.init true .sympy⟩
  | append_singleton ops x ih =>
    have hk' : ∀ y ∈ ops, y.Plain := fun y hy => hk y (by simp [hy])
    have h1 := ih hk'
    have h2 := (Switch.history P b0 t0 .sympy (ops := ops ++ [x]) fun y hy => (hk y hy).fine).2
    rw [Switch.run_snoc] at h2 ⊢
    cases x with
    | setBackend name =>
      generalize Switch.run P (initWorld b0, t0) ops = s at *
      refine ⟨h2, ?_⟩
      show Inv true ((Switch.setBackend name s).2.1.on .sympy)
      unfold Switch.setBackend
      cases Backend.ofName name with
      | none => exact h1.full
      | some k => exact h1.full
    | op o => exact h1.step P (hk (.op o) (by simp)).1 h2

end

end

end RT1
