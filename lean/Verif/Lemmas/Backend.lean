import Verif.Lemmas.CallL
import Verif.Lemmas.Demo

/-! The two lambdify backends: definitions evaluate alike, results agree entry by entry, and the
same history leads to the same attributes. -/

namespace RT1

noncomputable section
open Classical

theorem Expr.call_backend {b b' : Backend} {vars : List String} {e : Expr} (h1 : ∀ s ∈ e.free, s ∈ vars)
    (h2 : ∀ s ∈ vars, s ∈ e.free) {kw : Dict} (hk : ∀ p ∈ kw, p.1 ∈ vars) {a : Arr}
    (h : Lam.call b ⟨vars, e⟩ [] kw = .ok a) : Lam.call b' ⟨vars, e⟩ [] kw = .ok a := by
  obtain ⟨bnd, hb, hz⟩ := ok_bind h
  obtain ⟨vals, hv, rfl⟩ := Lam.bindArgs_ok hb
  have hv' : vars.mapM (fun k => kw.get? k) = some vals := hv
  have hlen : vals.length = vars.length := by
    have := hv'
    clear h hb hz hv
    clear hv' hk h1 h2
    induction vars generalizing vals with
    | nil => simp at this; subst this; rfl
    | cons k ks ih =>
      rw [List.mapM_cons] at this
      cases hg : kw.get? k with
      | none => rw [hg] at this; cases this
      | some v =>
        cases hm : ks.mapM (fun k => kw.get? k) with
        | none => rw [hg, hm] at this; cases this
        | some vs =>
          rw [hg, hm] at this
          cases this
          simp [ih _ hm]
  have hbnd : ∀ c : Backend, Lam.bindArgs c vars [] kw = .ok (vars.zip ([] ++ vals)) := by
    intro c
    have hd : vars.drop ([] : List Arr).length = vars := rfl
    cases c with
    | sympy =>
      unfold Lam.bindArgs
      simp only [hd]
      rw [if_neg (by simp), if_neg, hv']
      rintro ⟨p, hp, hp'⟩
      exact hp' (hk p hp)
    | symengine =>
      unfold Lam.bindArgs
      simp only [hd]
      rw [hv']
      simp
  have hfst : (vars.zip ([] ++ vals)).map Prod.fst = vars := by
    rw [List.map_fst_zip]
    simp [hlen]
  have heq : ∀ c : Backend, Lam.evalBound c e (vars.zip ([] ++ vals)) =
      match Arr.bshapes ((vars.zip ([] ++ vals)).map fun p => p.2.shape) with
      | none => .error .valueError
      | some sh => .ok ⟨sh, fun idx => e.evalX (Lam.envAt (vars.zip ([] ++ vals)) idx)⟩ := by
    intro c
    cases c with
    | symengine => rfl
    | sympy =>
      unfold Lam.evalBound
      simp only
      rw [if_pos (by rw [hfst]; exact h1)]
      have : (vars.zip ([] ++ vals)).filter (fun p => decide (p.1 ∈ e.free)) = vars.zip ([] ++ vals) := by
        rw [List.filter_eq_self]
        intro p hp
        have : p.1 ∈ (vars.zip ([] ++ vals)).map Prod.fst := List.mem_map.2 ⟨p, hp, rfl⟩
        rw [hfst] at this
        simpa using h2 _ this
      rw [this]
      cases Arr.bshapes (List.map (fun p => p.2.shape) (vars.zip ([] ++ vals))) <;> rfl
  have hz : Lam.evalBound b e (vars.zip ([] ++ vals)) = .ok a := hz
  show (Lam.bindArgs b' vars [] kw >>= fun bnd => Lam.evalBound b' e bnd) = _
  rw [hbnd]
  show Lam.evalBound b' e (vars.zip ([] ++ vals)) = _
  rw [heq b', ← heq b, hz]

theorem pick_mem {pd kw : Dict} {ks : List String} (h : Self.pick pd ks = .ok kw) : ∀ p ∈ kw, p.1 ∈ ks := by
  unfold Self.pick at h
  cases hm : ks.mapM (fun k => (pd.get? k).map fun v => (k, v)) with
  | none => rw [hm] at h; cases h
  | some d =>
    rw [hm] at h
    have hd : d = kw := by cases h; rfl
    subst hd
    clear h
    induction ks generalizing d with
    | nil => simp at hm; subst hm; simp
    | cons k ks ih =>
      rw [List.mapM_cons] at hm
      cases hg : pd.get? k with
      | none => rw [hg] at hm; cases hm
      | some v =>
        cases hm' : ks.mapM (fun k => (pd.get? k).map fun v => (k, v)) with
        | none => rw [hg, hm'] at hm; cases hm
        | some d' =>
          rw [hg, hm'] at hm
          cases hm
          intro p hp
          rcases List.mem_cons.1 hp with rfl | hp
          · simp
          · exact List.mem_cons_of_mem _ (ih d' hm' p hp)

/-- A parameter definition has the same value with both backends. -/
theorem par_backend {b b' : Backend} {o : Obj} {p : PName} {a : Arr} (h : Fresh.par b o p = .ok a) :
    Fresh.par b' o p = .ok a := by
  have key : ∀ (vars : List String) (e : Expr), (∀ s ∈ e.free, s ∈ vars) → (∀ s ∈ vars, s ∈ e.free) →
      ∀ (c : Backend), Fresh.pfun c o p = .ok (some ⟨vars, e⟩) → Fresh.symbs o p = vars →
      ∀ c' : Backend, Fresh.pfun c' o p = .ok (some ⟨vars, e⟩) → Fresh.par c o p = .ok a →
        Fresh.par c' o p = .ok a := by
    intro vars e h1 h2 c hc hs c' hc' h
    unfold Fresh.par at h ⊢
    rw [hc, hs] at h
    rw [hc', hs]
    have h : tryCatch (Self.pick o.params vars >>= fun kw => Lam.call c ⟨vars, e⟩ [] kw) (fun e =>
        if vars.filter (fun k => decide (k ∉ o.params.keys)) ≠ [] then
          throw (.typeError (vars.filter (fun k => decide (k ∉ o.params.keys))))
        else throw e) = Except.ok a := h
    show tryCatch (Self.pick o.params vars >>= fun kw => Lam.call c' ⟨vars, e⟩ [] kw) _ = _
    cases hx : Self.pick o.params vars >>= fun kw => Lam.call c ⟨vars, e⟩ [] kw with
    | error er =>
      rw [hx] at h
      have h : (if vars.filter (fun k => decide (k ∉ o.params.keys)) ≠ [] then
          throw (.typeError (vars.filter (fun k => decide (k ∉ o.params.keys))))
        else throw er : Py Arr) = Except.ok a := h
      split_ifs at h
    | ok z =>
      rw [hx] at h
      have h : Except.ok z = (Except.ok a : Py Arr) := h
      have h : z = a := by cases h; rfl
      subst h
      obtain ⟨kw, hkw, hcall⟩ := ok_bind hx
      rw [hkw]
      show tryCatch (Lam.call c' ⟨vars, e⟩ [] kw) _ = _
      rw [Expr.call_backend h1 h2 (pick_mem hkw) hcall]
      rfl
  cases hd : o.pdef p with
  | val v =>
    have e : ∀ c, Fresh.par c o p = .ok v := by
      intro c
      unfold Fresh.par Fresh.pfun
      simp only [hd]
      rfl
    rw [e] at h ⊢
    exact h
  | str e =>
    have hp : ∀ c, Fresh.pfun c o p = .ok (some ⟨e.free.dedup, e⟩) := by
      intro c
      unfold Fresh.pfun Fresh.symbs
      simp only [hd]
      rw [Lam.compile_of_free fun s hs => List.mem_dedup.2 hs]
      rfl
    exact key e.free.dedup e (fun s hs => List.mem_dedup.2 hs) (fun s hs => List.mem_dedup.1 hs) b (hp b)
      (by unfold Fresh.symbs; rw [hd]) b' (hp b') h
  | basic e =>
    have hfree : e.free = [] := by
      by_contra hne
      obtain ⟨s, hs⟩ := List.exists_mem_of_ne_nil _ hne
      unfold Fresh.par at h
      obtain ⟨f, hf, h⟩ := ok_bind h
      unfold Fresh.pfun Fresh.symbs at hf
      simp only [hd] at hf
      obtain ⟨f', hf', hff⟩ := ok_bind hf
      cases hff
      have hf0 := Lam.compile_ok hf'
      subst hf0
      have hsy : Fresh.symbs o p = [] := by unfold Fresh.symbs; rw [hd]
      rw [hsy] at h
      have h : tryCatch (Lam.call b ⟨[], e⟩ [] []) (fun e => (throw e : Py Arr)) = Except.ok a := h
      cases b with
      | sympy =>
        have : Lam.call .sympy ⟨[], e⟩ [] [] = (.error .nameError : Py Arr) := by
          show Lam.evalBound .sympy e [] = _
          unfold Lam.evalBound
          simp only
          rw [if_neg]
          intro hall
          have := hall s hs
          simp at this
        rw [this] at h
        cases h
      | symengine =>
        unfold Lam.compile at hf'
        simp only at hf'
        split_ifs at hf' with hc
        · have := hc s hs
          simp at this
        
    have hp : ∀ c, Fresh.pfun c o p = .ok (some ⟨[], e⟩) := by
      intro c
      unfold Fresh.pfun Fresh.symbs
      simp only [hd]
      rw [Lam.compile_of_free (by rw [hfree]; simp)]
      rfl
    exact key [] e (by rw [hfree]; simp) (by simp) b (hp b) (by unfold Fresh.symbs; rw [hd]) b' (hp b') h

theorem valAt_par_backend (b b' : Backend) (o : Obj) (p : PName) (idx : List ℕ) :
    valAt (Fresh.par b o p) idx = valAt (Fresh.par b' o p) idx := by
  cases h : Fresh.par b o p with
  | ok a => rw [par_backend (b' := b') h]
  | error e =>
    cases h' : Fresh.par b' o p with
    | ok a => rw [par_backend (b' := b) h'] at h; cases h
    | error e' => rfl

theorem xsite_backend (b b' : Backend) (o : Obj) (idx : List ℕ) : XSite.of b o idx = XSite.of b' o idx := by
  unfold XSite.of
  congr 1
  funext p
  exact valAt_par_backend b b' o p idx

theorem fsite_backend {b b' : Backend} {o : Obj} {idx : List ℕ} {x : Site} (h : FSite b o idx x) :
    FSite b' o idx x := by
  have hp : ∀ {p : PName} {v : ℝ}, HasVal (Fresh.par b o p) idx v → HasVal (Fresh.par b' o p) idx v :=
    fun ⟨a, ha, hv⟩ => ⟨a, par_backend ha, hv⟩
  exact ⟨h.t0, h.tex, h.p0, h.pex, hp h.tau, hp h.omega, hp h.NormBRDF, hp h.bsf, h.I0, h.params⟩

/-- Surface contribution: same entries. -/
theorem surface_backend {b b' : Backend} {o : Obj} {z z' : Arr} (h : Fresh.surface b o = .ok z)
    (h' : Fresh.surface b' o = .ok z') (idx : List ℕ) : z.at' idx = z'.at' idx := by
  rw [PW.freshSurface (PW.srfCalc (E := (XSite.of b o idx).env) fun _ _ => rfl) z h,
    PW.freshSurface (PW.srfCalc (E := (XSite.of b o idx).env) fun _ _ => by rw [xsite_backend b' b]) z' h',
    xsite_backend b' b]

/-- Volume contribution: same entries. -/
theorem volume_backend {b b' : Backend} {o : Obj} {z z' : Arr} (h : Fresh.volume b o = .ok z)
    (h' : Fresh.volume b' o = .ok z') (idx : List ℕ) : z.at' idx = z'.at' idx := by
  rw [PW.freshVolume (PW.vCalc (E := (XSite.of b o idx).env) fun _ _ => rfl) z h,
    PW.freshVolume (PW.vCalc (E := (XSite.of b o idx).env) fun _ _ => by rw [xsite_backend b' b]) z' h',
    xsite_backend b' b]

/-! ### the same history with both backends -/

theorem fixLoop_core (l : List (AngN × Option PyArg)) : ∀ {o o' : Obj}, o.core = o'.core →
    (Obj.fixLoop l o).core = (Obj.fixLoop l o').core := by
  induction l with
  | nil => exact fun h => h
  | cons p l ih =>
    intro o o' h
    obtain ⟨n, p⟩ := p
    cases p with
    | none => exact ih h
    | some a =>
      cases a with
      | other => exact h
      | number r =>
        refine ih ?_
        show (o.core.fix n r) = o'.core.fix n r
        rw [h]

theorem angLoop_core (l : List (String × Option Arr)) : ∀ {o o' : Obj}, o.core = o'.core →
    (Obj.angLoop l o).core = (Obj.angLoop l o').core := by
  induction l with
  | nil => exact fun h => h
  | cons p l ih =>
    intro o o' h
    obtain ⟨k, v⟩ := p
    have hf : o.fixed = o'.fixed := (core_fields h).2.2.2.2.1
    unfold Obj.angLoop
    cases AngN.ofName k with
    | none => exact ih h
    | some n =>
      simp only
      by_cases hn : n ∈ o'.fixed
      · rw [if_pos hn, if_pos (by rw [hf]; exact hn)]; exact h
      · rw [if_neg hn, if_neg (by rw [hf]; exact hn)]
        cases v with
        | none => exact h
        | some a =>
          refine ih ?_
          show { o.core with ang := Function.update o.core.ang n (some a.atleast1d) } =
            { o'.core with ang := Function.update o'.core.ang n (some a.atleast1d) }
          rw [h]

theorem after_core {o o' : Obj} (h : o.core = o'.core) (op : Op) : (o.after op).core = (o'.after op).core := by
  have hu : ∀ kw, (Fresh.update o kw).core = (Fresh.update o' kw).core := by
    intro kw
    show Fresh.update o.core kw = Fresh.update o'.core kw
    rw [h]
  cases op
  case new => exact h
  case setMonostatic p =>
    have e : ∀ x : Obj, (x.afterMono p).core = (x.core.afterMono p).core := by
      intro x
      cases p with
      | none => rfl
      | some a => cases a <;> rfl
    show (o.afterMono p).core = (o'.afterMono p).core
    rw [e o, e o', h]
  case setBistatic i a b c d =>
    have h0 : (o.reset false).core = (o'.reset false).core := by
      show (o.core.reset false).core = (o'.core.reset false).core
      rw [h]
    have h1 := fixLoop_core [(.t0, a), (.tex, b), (.p0, c), (.pex, d)] h0
    show (o.afterBi a b c d).core = (o'.afterBi a b c d).core
    unfold Obj.afterBi
    simp only
    generalize Obj.fixLoop [(.t0, a), (.tex, b), (.p0, c), (.pex, d)] (o.reset false) = x at h1
    generalize Obj.fixLoop [(.t0, a), (.tex, b), (.p0, c), (.pex, d)] (o'.reset false) = x' at h1
    split_ifs
    · have := congrArg (fun y : Obj => ({ y with geom := ⟨angS "theta_0" a, angS "theta_ex" b, angS "phi_0" c, angS "phi_ex" d⟩ } : Obj)) h1
      exact this
    · exact h1
  case setGeometry i kw =>
    have hm : o.mono = o'.mono := (core_fields h).2.2.2.2.2.1
    show (o.afterGeom kw).core = (o'.afterGeom kw).core
    unfold Obj.afterGeom
    rw [hm]
    split_ifs
    · exact h
    · exact h
    · exact angLoop_core kw h
  case updateParams i kw => exact hu kw
  case evalCalc i kw => exact hu kw
  case surface i kw => exact hu kw
  case volume i kw => exact hu kw
  case interaction i kw => exact hu kw
  case setParamDef i p d =>
    show { o.core with pdef := Function.update o.core.pdef p d } = { o'.core with pdef := Function.update o'.core.pdef p d }
    rw [h]
  case setIntQ i b => show { o.core with intQ := b } = { o'.core with intQ := b }; rw [h]
  case setSig0 i b => show { o.core with sig0 := b } = { o'.core with sig0 := b }; rw [h]
  case setDB i b => show { o.core with dB := b } = { o'.core with dB := b }; rw [h]
  case setI0 i b => show { o.core with I0 := b } = { o'.core with I0 := b }; rw [h]
  case jacobian => exact h
  case getParam => exact h
  case pickle i => show { o.core with analyze := false } = { o'.core with analyze := false }; rw [h]
  case setV i b => show { o.core with V := b } = { o'.core with V := b }; rw [h]
  case setSRF i b => show { o.core with SRF := b } = { o'.core with SRF := b }; rw [h]
  case overwriteArg i n a =>
    show { o.core with ang := Function.update o.core.ang n ((o.core.ang n).map fun _ => a) } =
      { o'.core with ang := Function.update o'.core.ang n ((o'.core.ang n).map fun _ => a) }
    rw [h]
  case clearCaches => exact h
  case surfaceVolume => exact h
  case checkParams => exact h

/-- Two states with the same objects (memoised results, coefficients and backend aside). -/
structure Twin (w w' : World) : Prop where
  next : w.next = w'.next
  ok : NextOK w
  ok' : NextOK w'
  core : ∀ id, (w.objs id).map Obj.core = (w'.objs id).map Obj.core

theorem Twin.get {w w' : World} (h : Twin w w') {id : ℕ} {o : Obj} (ho : w.objs id = some o) :
    ∃ o', w'.objs id = some o' ∧ o.core = o'.core := by
  have := h.core id
  rw [ho] at this
  cases ho' : w'.objs id with
  | none => rw [ho'] at this; cases this
  | some o' => rw [ho'] at this; exact ⟨o', rfl, by simpa using this⟩

theorem Twin.symm {w w' : World} (h : Twin w w') : Twin w' w :=
  ⟨h.next.symm, h.ok', h.ok, fun id => (h.core id).symm⟩

theorem Twin.get_none {w w' : World} (h : Twin w w') {id : ℕ} (ho : w.objs id = none) : w'.objs id = none := by
  have := h.core id
  rw [ho] at this
  cases ho' : w'.objs id with
  | none => rfl
  | some o' => rw [ho'] at this; cases this

theorem Twin.step {w w' : World} (h : Twin w w') (op : Op) : Twin (RT1.step op w).2 (RT1.step op w').2 := by
  by_cases hc : op.creates
  · refine ⟨?_, (step_other h.ok op).1, (step_other h.ok' op).1, ?_⟩
    · cases op <;> first | exact hc.elim | skip
      case new V S q s d f fe i =>
        have := fun w : World => (FrameP.setMonostatic (id := w.next) none _
          (FrameP.refl (w.addObj (initObj V S q s d f fe i)) w.next)).next
        have e : ∀ w, (RT1.step (.new V S q s d f fe i) w).2 =
          (setMonostatic w.next none (w.addObj (initObj V S q s d f fe i))).2 := fun _ => rfl
        rw [e, e, this, this]
        show w.next + 1 = w'.next + 1
        rw [h.next]
      case pickle i =>
        have e : ∀ w, (RT1.step (.pickle i) w).2 = (RT1.pickle i w).2 := fun w => bind_pure_state _ _
        rw [e, e, pickle_eq, pickle_eq]
        cases ho : w.objs i with
        | none => rw [h.get_none ho]; exact h.next
        | some o =>
          obtain ⟨o', ho', -⟩ := h.get ho
          rw [ho']
          show w.next + 1 = w'.next + 1
          rw [h.next]
    · intro j
      cases op <;> first | exact hc.elim | skip
      case new V S q s d f fe i =>
        have e : ∀ w, (RT1.step (.new V S q s d f fe i) w).2 =
          (setMonostatic w.next none (w.addObj (initObj V S q s d f fe i))).2 := fun _ => rfl
        have hn : ∀ w : World, (w.addObj (initObj V S q s d f fe i)).objs w.next =
            some (initObj V S q s d f fe i) := fun w => Function.update_self ..
        rw [e, e]
        by_cases hj : j = w.next
        · subst hj
          rw [setMonostatic_obj (hn w), h.next, setMonostatic_obj (hn w')]
        · have ho := fun w : World => (FrameP.setMonostatic (id := w.next) none _
            (FrameP.refl (w.addObj (initObj V S q s d f fe i)) w.next)).objs j
          rw [ho w hj, ho w' (by rw [← h.next]; exact hj)]
          show (Function.update w.objs w.next _ j).map Obj.core = (Function.update w'.objs w'.next _ j).map Obj.core
          rw [Function.update_of_ne hj, Function.update_of_ne (by rw [← h.next]; exact hj)]
          exact h.core j
      case pickle i =>
        have e : ∀ w, (RT1.step (.pickle i) w).2 = (RT1.pickle i w).2 := fun w => bind_pure_state _ _
        have hm : ((w.objs i).map fun o => ({ o with analyze := false } : Obj)).map Obj.core =
            ((w'.objs i).map fun o => ({ o with analyze := false } : Obj)).map Obj.core := by
          have := congrArg (Option.map fun o : Obj => ({ o with analyze := false } : Obj)) (h.core i)
          rw [Option.map_map, Option.map_map] at this ⊢
          exact this
        have hmod : ∀ k, ((((modObj i fun o => { o with analyze := false }) w).2.objs k).map Obj.core) =
            ((((modObj i fun o => { o with analyze := false }) w').2.objs k).map Obj.core) := by
          intro k
          show (Function.update w.objs i _ k).map Obj.core = (Function.update w'.objs i _ k).map Obj.core
          by_cases hk : k = i
          · subst hk
            rw [Function.update_self, Function.update_self]
            exact hm
          · rw [Function.update_of_ne hk, Function.update_of_ne hk]
            exact h.core k
        rw [e, e, pickle_eq, pickle_eq]
        cases ho : w.objs i with
        | none => rw [h.get_none ho]; exact hmod j
        | some o =>
          obtain ⟨o', ho', hco⟩ := h.get ho
          rw [ho']
          show Option.map Obj.core (Function.update ((modObj i fun o => { o with analyze := false }) w).2.objs w.next _ j) =
            Option.map Obj.core (Function.update ((modObj i fun o => { o with analyze := false }) w').2.objs w'.next _ j)
          by_cases hj : j = w.next
          · subst hj
            rw [h.next, Function.update_self, Function.update_self]
            rw [ho, ho'] at hm
            exact hm
          · rw [Function.update_of_ne hj, Function.update_of_ne (by rw [← h.next]; exact hj)]
            exact hmod j
  · obtain ⟨id, ht⟩ : ∃ id, op.target = some id := by
      cases op <;> first | exact ⟨_, rfl⟩ | exact (hc trivial).elim
    have f1 := frame_step ht hc w w (FrameP.refl w id)
    have f2 := frame_step ht hc w' w' (FrameP.refl w' id)
    refine ⟨by rw [f1.next, f2.next, h.next], (step_other h.ok op).1, (step_other h.ok' op).1, fun j => ?_⟩
    by_cases hj : j = id
    · subst hj
      cases ho : w.objs j with
      | none =>
        have e1 := f1.ex
        have e2 := f2.ex
        rw [ho] at e1
        rw [h.get_none ho] at e2
        have g1 : (RT1.step op w).2.objs j = none := Option.not_isSome_iff_eq_none.1 (by rw [e1]; simp)
        have g2 : (RT1.step op w').2.objs j = none := Option.not_isSome_iff_eq_none.1 (by rw [e2]; simp)
        rw [g1, g2]
      | some o =>
        obtain ⟨o', ho', hco⟩ := h.get ho
        obtain ⟨x, hx, hxc⟩ := step_core h.ok ho ht
        obtain ⟨x', hx', hxc'⟩ := step_core h.ok' ho' ht
        rw [hx, hx']
        show some x.core = some x'.core
        rw [hxc, hxc', after_core hco op]
    · rw [f1.objs j hj, f2.objs j hj]
      exact h.core j

theorem Twin.run {w w' : World} (h : Twin w w') (ops : List Op) : Twin (RT1.run w ops) (RT1.run w' ops) := by
  induction ops generalizing w w' with
  | nil => exact h
  | cons op ops ih => rw [run_cons, run_cons]; exact ih (h.step op)

theorem Twin.init (b b' : Backend) (ops : List Op) : Twin (RT1.run (initWorld b) ops) (RT1.run (initWorld b') ops) :=
  Twin.run (w := initWorld b) (w' := initWorld b') ⟨rfl, initWorld_next b, initWorld_next b', fun _ => rfl⟩ ops

end

end RT1
