import Verif.Lemmas.Refine

/-! The invariant of the memo tables and the refinement of the memoised accessors. -/

namespace RT1

noncomputable section
open Classical

theorem bind_ok {α β : Type} {x : M α} {f : α → M β} {w w' : World} {a : α}
    (h : x w = (.ok a, w')) : (x >>= f) w = f a w' := by
  show (match x w with
    | (.ok a, w') => f a w'
    | (.error e, w') => (.error e, w')) = _
  rw [h]

theorem bind_error {α β : Type} {x : M α} {f : α → M β} {w w' : World} {e : PyErr}
    (h : x w = (.error e, w')) : (x >>= f) w = (.error e, w') := by
  show (match x w with
    | (.ok a, w') => f a w'
    | (.error e, w') => (.error e, w')) = _
  rw [h]

theorem getObj_some {w : World} {id : ℕ} {o : Obj} (h : w.objs id = some o) :
    getObj id w = (.ok o, w) := by simp [getObj, h]

theorem getObj_none {w : World} {id : ℕ} (h : w.objs id = none) :
    getObj id w = (.error .attributeError, w) := by simp [getObj, h]

/-! ### memo tables -/

namespace LRU
variable {κ ν : Type}

@[simp] theorem find_nil (k : κ) : find ([] : LRU κ ν) k = none := rfl

theorem find_cons (p : κ × ν) (c : LRU κ ν) (k : κ) :
    find (p :: c) k = if p.1 = k then some p.2 else find c k := by
  unfold find
  rw [List.find?_cons]
  by_cases h : p.1 = k <;> simp [h]

theorem find_filter {c : LRU κ ν} {k k' : κ} (h : k' ≠ k) :
    find (c.filter fun p => decide (p.1 ≠ k)) k' = find c k' := by
  induction c with
  | nil => rfl
  | cons p c ih =>
    by_cases hp : p.1 = k
    · have hpk : ¬ p.1 = k' := fun h' => h (h'.symm.trans hp)
      rw [List.filter_cons_of_neg (by simp [hp]), ih, find_cons, if_neg hpk]
    · rw [List.filter_cons_of_pos (by simp [hp]), find_cons, find_cons, ih]

theorem find_take {c : LRU κ ν} {k : κ} {v : ν} {n : ℕ} (h : find (c.take n) k = some v) :
    find c k = some v := by
  induction c generalizing n with
  | nil => simp at h
  | cons p c ih =>
    cases n with
    | zero => simp at h
    | succ n =>
      rw [List.take_succ_cons, find_cons] at h
      rw [find_cons]
      by_cases hp : p.1 = k
      · simpa [hp] using h
      · simp only [hp, if_false] at h ⊢
        exact ih h

theorem find_put_self (c : LRU κ ν) (k : κ) (v : ν) : find (put c k v) k = some v := by
  unfold put
  rw [List.take_succ_cons, find_cons, if_pos rfl]

theorem find_put_of_ne {c : LRU κ ν} {k k' : κ} {v x : ν} (hk : k' ≠ k)
    (h : find (put c k v) k' = some x) : find c k' = some x := by
  have := find_take h
  rw [find_cons, if_neg (fun h' => hk h'.symm), find_filter hk] at this
  exact this

end LRU

/-- Every entry of the table satisfies `Q`. -/
def TabOK {κ ν : Type} (t : LRU κ ν) (Q : κ → ν → Prop) : Prop :=
  ∀ k v, LRU.find t k = some v → Q k v

theorem TabOK.nil {κ ν : Type} (Q : κ → ν → Prop) : TabOK [] Q := fun _ _ h => by simp at h

theorem TabOK.put {κ ν : Type} {t : LRU κ ν} {Q : κ → ν → Prop} (h : TabOK t Q) {k : κ} {v : ν}
    (hv : Q k v) : TabOK (LRU.put t k v) Q := by
  intro k' x hx
  by_cases hk : k' = k
  · subst hk
    rw [LRU.find_put_self] at hx
    cases hx
    exact hv
  · exact h k' x (LRU.find_put_of_ne hk hx)

theorem TabOK.mono {κ ν : Type} {t : LRU κ ν} {Q Q' : κ → ν → Prop} (h : TabOK t Q)
    (hQ : ∀ k v, Q k v → Q' k v) : TabOK t Q' := fun k v hk => hQ k v (h k v hk)

/-! ### the invariant -/

/-- The object `id` exists and satisfies `Q`. -/
def Holds (w : World) (id : ℕ) (Q : Obj → Prop) : Prop := ∃ o, w.objs id = some o ∧ Q o

/-- A compiled derivative belongs to the current phase function; its names are a prefix of
the current parameter names. -/
def DLamOK (b : Backend) (pd : Dict) (e : Expr) (f : Lam) : Prop :=
  ∃ ks, ks <+: pd.keys ∧
    Lam.compile b (["theta_0", "theta_ex", "phi_0", "phi_ex"] ++ ks) e = .ok f

/-- The coefficient attributes of an object belong to its V, SRF and geometry; the names of
the compiled functions are a prefix of the current parameter names. -/
structure ObjOK (b : Backend) (o : Obj) : Prop where
  fn : ∀ f, o.fn_ = some f → o.fnInput = none ∧ fnCoefs o.V o.SRF o.geom = .ok f
  fnevals : ∀ l, o.fnevals_ = some l → o.fnevalsInput = none ∧
    ∃ ks f, ks <+: o.params.keys ∧
      l = ⟨["theta_0", "phi_0", "theta_ex", "phi_ex"] ++ ks,
          o.V.phase.free ++ o.SRF.phase.free, f⟩ ∧
      (o.fnInput = some f ∨ o.fnInput = none ∧ fnCoefs o.V o.SRF o.geom = .ok f) ∧
      ¬ (b = .symengine ∧ ∃ s ∈ l.free, s ∉ l.vars)

/-- The invariant. With `full = false` the tables that depend on V and SRF are not covered. -/
structure Inv (full : Bool) (w : World) : Prop where
  next : ∀ id, w.next ≤ id → w.objs id = none
  mu0 : TabOK w.caches.mu0 fun id a => Holds w id fun o => Fresh.mu0 o = .ok a
  muEx : TabOK w.caches.muEx fun id a => Holds w id fun o => Fresh.muEx o = .ok a
  psym : TabOK w.caches.psym fun k a => Holds w k.1 fun o => Fresh.symbs o k.2 = a
  pfun : TabOK w.caches.pfun fun k a => Holds w k.1 fun o => Fresh.pfun w.backend o k.2 = .ok a
  mu0x : full = true → TabOK w.caches.mu0x fun id a => Holds w id fun o => Fresh.mu0x o = .ok a
  muExx : full = true → TabOK w.caches.muExx fun id a => Holds w id fun o => Fresh.muExx o = .ok a
  obj : full = true → ∀ id o, w.objs id = some o → ObjOK w.backend o

/-! ### one evaluation -/

/-- Attributes that evaluations do not change. -/
def Obj.core (o : Obj) : Obj := { o with fn_ := none, fnevals_ := none }

/-- `o'` is `o`, possibly with coefficients filled in by their own evaluation. -/
structure Filled (b : Backend) (o o' : Obj) : Prop where
  core : o'.core = o.core
  fn : Fresh.fn o' = Fresh.fn o
  fnevals : Fresh.fnevals b o' = Fresh.fnevals b o

theorem Filled.refl (b : Backend) (o : Obj) : Filled b o o := ⟨rfl, rfl, rfl⟩

theorem Filled.trans {b : Backend} {o o' o'' : Obj} (h : Filled b o o') (h' : Filled b o' o'') :
    Filled b o o'' := ⟨h'.core.trans h.core, h'.fn.trans h.fn, h'.fnevals.trans h.fnevals⟩

namespace Filled
variable {b : Backend} {o o' : Obj} (h : Filled b o o')
include h
theorem V : o'.V = o.V := by
  have := congrArg Obj.V h.core; exact this
theorem SRF : o'.SRF = o.SRF := by
  have := congrArg Obj.SRF h.core; exact this
theorem intQ : o'.intQ = o.intQ := by
  have := congrArg Obj.intQ h.core; exact this
theorem sig0 : o'.sig0 = o.sig0 := by
  have := congrArg Obj.sig0 h.core; exact this
theorem dB : o'.dB = o.dB := by
  have := congrArg Obj.dB h.core; exact this
theorem I0 : o'.I0 = o.I0 := by
  have := congrArg Obj.I0 h.core; exact this
theorem pdef : o'.pdef = o.pdef := by
  have := congrArg Obj.pdef h.core; exact this
theorem params : o'.params = o.params := by
  have := congrArg Obj.params h.core; exact this
theorem fixed : o'.fixed = o.fixed := by
  have := congrArg Obj.fixed h.core; exact this
theorem mono : o'.mono = o.mono := by
  have := congrArg Obj.mono h.core; exact this
theorem ang : o'.ang = o.ang := by
  have := congrArg Obj.ang h.core; exact this
theorem geom : o'.geom = o.geom := by
  have := congrArg Obj.geom h.core; exact this
theorem fnInput : o'.fnInput = o.fnInput := by
  have := congrArg Obj.fnInput h.core; exact this
theorem fnevalsInput : o'.fnevalsInput = o.fnevalsInput := by
  have := congrArg Obj.fnevalsInput h.core; exact this
theorem analyze : o'.analyze = o.analyze := by
  have := congrArg Obj.analyze h.core; exact this

theorem f_ang (n : AngN) : Fresh.ang o' n = Fresh.ang o n := by simp [Fresh.ang, h.ang]
theorem f_tex : Fresh.tex o' = Fresh.tex o := by simp [Fresh.tex, h.mono, h.f_ang]
theorem f_pex : Fresh.pex o' = Fresh.pex o := by simp [Fresh.pex, h.mono, h.f_ang]
theorem f_mu0 : Fresh.mu0 o' = Fresh.mu0 o := by simp [Fresh.mu0, h.f_ang]
theorem f_muEx : Fresh.muEx o' = Fresh.muEx o := by simp [Fresh.muEx, h.f_tex]
theorem f_nmax : Fresh.nmax o' = Fresh.nmax o := by simp [Fresh.nmax, h.V, h.SRF]
theorem f_mu0x : Fresh.mu0x o' = Fresh.mu0x o := by simp [Fresh.mu0x, h.f_nmax, h.f_mu0]
theorem f_muExx : Fresh.muExx o' = Fresh.muExx o := by simp [Fresh.muExx, h.f_nmax, h.f_muEx]
theorem f_symbs (p : PName) : Fresh.symbs o' p = Fresh.symbs o p := by simp [Fresh.symbs, h.pdef]
theorem f_pfun (p : PName) : Fresh.pfun b o' p = Fresh.pfun b o p := by
  simp [Fresh.pfun, h.pdef, h.f_symbs]
theorem f_dVol (k : String) : Fresh.dVol b o' k = Fresh.dVol b o k := by
  simp [Fresh.dVol, h.params, h.V]
theorem f_dSrf (k : String) : Fresh.dSrf b o' k = Fresh.dSrf b o k := by
  simp [Fresh.dSrf, h.params, h.SRF]
end Filled

/-- The states during an evaluation on the object `id` that started with attributes `o`;
`S` is a further condition on the derivative tables. -/
structure During (full : Bool) (w0 : World) (id : ℕ) (o : Obj)
    (S : LRU (ℕ × String) Lam → LRU (ℕ × String) Lam → Prop) (w : World) : Prop where
  backend : w.backend = w0.backend
  inv : Inv full w
  next : w.next = w0.next
  frame : ∀ j, j ≠ id → w.objs j = w0.objs j
  obj : ∃ o', w.objs id = some o' ∧ Filled w0.backend o o'
  tab : S w.caches.dVol w.caches.dSrf

section
variable {full : Bool} {w0 : World} {id : ℕ} {o : Obj}
  {S : LRU (ℕ × String) Lam → LRU (ℕ × String) Lam → Prop}

local notation "I" => During full w0 id o S

theorem Refines.getObj_bind {α : Type} {f : Obj → M α} {y : Py α}
    (h : ∀ o', Filled w0.backend o o' → Refines I (f o') y) :
    Refines I (getObj id >>= f) y := by
  intro w hw
  obtain ⟨o', ho', hf⟩ := hw.obj
  have := h o' hf w hw
  rw [bind_ok (getObj_some ho')]; exact this

theorem Refines.getW_bind {α : Type} {f : World → M α} {y : Py α}
    (h : ∀ w', w'.backend = w0.backend → Refines I (f w') y) :
    Refines I (getW >>= f) y := fun w hw => h w hw.backend w hw

theorem Refines.memo {κ ν : Type} {tab : Caches → LRU κ ν} {setTab : Caches → LRU κ ν → Caches}
    {k : κ} {x : M ν} {y : Py ν}
    (hc : ∀ w, I w → ∀ v, LRU.find (tab w.caches) k = some v → y = .ok v)
    (hx : Refines I x y)
    (hput : ∀ w v, I w → y = .ok v →
      I { w with caches := setTab w.caches (LRU.put (tab w.caches) k v) }) :
    Refines I (RT1.memo tab setTab k x) y := by
  intro w hw
  unfold RT1.memo
  cases hfind : LRU.find (tab w.caches) k with
  | some v =>
    have hy := hc w hw v hfind
    exact ⟨hy.symm, hput w v hw hy⟩
  | none =>
    obtain ⟨h1, h2⟩ := hx w hw
    simp only
    cases hxw : x w with
    | mk r w' =>
      rw [hxw] at h1 h2
      cases r with
      | error e => exact ⟨h1, h2⟩
      | ok v => exact ⟨h1, hput w' v h2 h1.symm⟩

theorem Refines.t0 : Refines I (Self.t0 id) (Fresh.ang o .t0) := by
  unfold Self.t0
  refine Refines.getObj_bind fun o' hf => ?_
  rw [hf.ang]
  unfold Fresh.ang
  cases o.ang .t0 with
  | none => exact Refines.throw' _
  | some a => exact Refines.pure_ok _

theorem Refines.p0 : Refines I (Self.p0 id) (Fresh.ang o .p0) := by
  unfold Self.p0
  refine Refines.getObj_bind fun o' hf => ?_
  rw [hf.ang]
  unfold Fresh.ang
  cases o.ang .p0 with
  | none => exact Refines.throw' _
  | some a => exact Refines.pure_ok _

theorem Refines.tex : Refines I (Self.tex id) (Fresh.tex o) := by
  unfold Self.tex
  refine Refines.getObj_bind fun o' hf => ?_
  rw [hf.ang, hf.mono]
  unfold Fresh.tex
  refine Refines.ite (fun _ => Refines.t0) fun _ => ?_
  unfold Fresh.ang
  cases o.ang .tex with
  | none => exact Refines.throw' _
  | some a => exact Refines.pure_ok _

theorem Refines.pex : Refines I (Self.pex id) (Fresh.pex o) := by
  unfold Self.pex
  refine Refines.getObj_bind fun o' hf => ?_
  rw [hf.ang, hf.mono]
  unfold Fresh.pex
  refine Refines.ite (fun _ => Refines.bind Refines.p0 fun a _ => Refines.lift _) fun _ => ?_
  unfold Fresh.ang
  cases o.ang .pex with
  | none => exact Refines.throw' _
  | some a => exact Refines.pure_ok _

theorem During.holds {w : World} (hw : I w) {Q : Obj → Prop} (h : Holds w id Q) :
    ∃ o', Filled w0.backend o o' ∧ Q o' := by
  obtain ⟨o', ho', hf⟩ := hw.obj
  obtain ⟨o'', ho'', hq⟩ := h
  rw [ho'] at ho''
  cases ho''
  exact ⟨o', hf, hq⟩

theorem During.holds_of {w : World} (hw : I w) {Q : Obj → Prop}
    (h : ∀ o', Filled w0.backend o o' → Q o') : Holds w id Q := by
  obtain ⟨o', ho', hf⟩ := hw.obj
  exact ⟨o', ho', h o' hf⟩

theorem Refines.mu0 : Refines I (Self.mu0 id) (Fresh.mu0 o) := by
  unfold Self.mu0
  refine Refines.memo ?_ ?_ ?_
  · intro w hw v hv
    obtain ⟨o', hf, h⟩ := hw.holds (hw.inv.mu0 _ _ hv)
    rw [← hf.f_mu0]; exact h
  · exact Refines.bind Refines.t0 fun a _ => Refines.pure_ok _
  · intro w v hw hv
    exact ⟨hw.backend, { hw.inv with
      mu0 := hw.inv.mu0.put (hw.holds_of fun o' hf => by rw [hf.f_mu0]; exact hv) },
      hw.next, hw.frame, hw.obj, hw.tab⟩

theorem Refines.muEx : Refines I (Self.muEx id) (Fresh.muEx o) := by
  unfold Self.muEx
  refine Refines.memo ?_ ?_ ?_
  · intro w hw v hv
    obtain ⟨o', hf, h⟩ := hw.holds (hw.inv.muEx _ _ hv)
    rw [← hf.f_muEx]; exact h
  · exact Refines.bind Refines.tex fun a _ => Refines.pure_ok _
  · intro w v hw hv
    exact ⟨hw.backend, { hw.inv with
      muEx := hw.inv.muEx.put (hw.holds_of fun o' hf => by rw [hf.f_muEx]; exact hv) },
      hw.next, hw.frame, hw.obj, hw.tab⟩

theorem Refines.nmax : Refines I (Self.nmax id) (Fresh.nmax o) := by
  unfold Self.nmax
  refine Refines.getObj_bind fun o' hf => ?_
  rw [hf.V, hf.SRF]
  exact Refines.bind (Refines.lift _) fun _ _ => Refines.bind (Refines.lift _) fun _ _ =>
    Refines.pure_ok _

theorem Refines.mu0x (hfull : full = true) : Refines I (Self.mu0x id) (Fresh.mu0x o) := by
  unfold Self.mu0x
  refine Refines.memo ?_ ?_ ?_
  · intro w hw v hv
    obtain ⟨o', hf, h⟩ := hw.holds (hw.inv.mu0x hfull _ _ hv)
    rw [← hf.f_mu0x]; exact h
  · exact Refines.bind Refines.nmax fun _ _ => Refines.bind Refines.mu0 fun _ _ => Refines.lift _
  · intro w v hw hv
    exact ⟨hw.backend, { hw.inv with
      mu0x := fun _ => (hw.inv.mu0x hfull).put
        (hw.holds_of fun o' hf => by rw [hf.f_mu0x]; exact hv) },
      hw.next, hw.frame, hw.obj, hw.tab⟩

theorem Refines.muExx (hfull : full = true) : Refines I (Self.muExx id) (Fresh.muExx o) := by
  unfold Self.muExx
  refine Refines.memo ?_ ?_ ?_
  · intro w hw v hv
    obtain ⟨o', hf, h⟩ := hw.holds (hw.inv.muExx hfull _ _ hv)
    rw [← hf.f_muExx]; exact h
  · exact Refines.bind Refines.nmax fun _ _ => Refines.bind Refines.muEx fun _ _ => Refines.lift _
  · intro w v hw hv
    exact ⟨hw.backend, { hw.inv with
      muExx := fun _ => (hw.inv.muExx hfull).put
        (hw.holds_of fun o' hf => by rw [hf.f_muExx]; exact hv) },
      hw.next, hw.frame, hw.obj, hw.tab⟩

theorem Refines.paramSymbs (p : PName) :
    Refines I (Self.paramSymbs id p) (.ok (Fresh.symbs o p)) := by
  unfold Self.paramSymbs
  refine Refines.memo ?_ ?_ ?_
  · intro w hw v hv
    obtain ⟨o', hf, h⟩ := hw.holds (hw.inv.psym _ _ hv)
    rw [← hf.f_symbs, h]
  · refine Refines.getObj_bind fun o' hf => ?_
    rw [hf.pdef]
    exact Refines.pure_ok _
  · intro w v hw hv
    exact ⟨hw.backend, { hw.inv with
      psym := hw.inv.psym.put
        (hw.holds_of fun o' hf => by rw [hf.f_symbs]; exact Except.ok.inj hv) },
      hw.next, hw.frame, hw.obj, hw.tab⟩

theorem Refines.ok_bind {α β : Type} {a : α} {x : M α} {f : α → M β} {y : Py β}
    (h : Refines I x (.ok a)) (hf : Refines I (f a) y) : Refines I (x >>= f) y := by
  have := Refines.bind (g := fun _ => y) h (fun a' ha' => by cases ha'; exact hf)
  exact this

theorem Refines.paramFuncs (p : PName) :
    Refines I (Self.paramFuncs id p) (Fresh.pfun w0.backend o p) := by
  unfold Self.paramFuncs
  refine Refines.memo ?_ ?_ ?_
  · intro w hw v hv
    obtain ⟨o', hf, h⟩ := hw.holds (hw.inv.pfun _ _ hv)
    rw [← hf.f_pfun, ← hw.backend]
    exact h
  · refine Refines.getObj_bind fun o' hf => ?_
    rw [hf.pdef]
    unfold Fresh.pfun
    cases o.pdef p with
    | val a => exact Refines.pure_ok _
    | str e =>
      refine Refines.ok_bind (Refines.paramSymbs p) (Refines.getW_bind fun w' hw' => ?_)
      rw [hw']
      exact Refines.bind (Refines.lift _) fun _ _ => Refines.pure_ok _
    | basic e =>
      refine Refines.ok_bind (Refines.paramSymbs p) (Refines.getW_bind fun w' hw' => ?_)
      rw [hw']
      exact Refines.bind (Refines.lift _) fun _ _ => Refines.pure_ok _
  · intro w v hw hv
    exact ⟨hw.backend, { hw.inv with
      pfun := hw.inv.pfun.put
        (hw.holds_of fun o' hf => by
          show Fresh.pfun w.backend o' p = .ok v
          rw [hw.backend, hf.f_pfun]; exact hv) },
      hw.next, hw.frame, hw.obj, hw.tab⟩

theorem Refines.evalParam (p : PName) :
    Refines I (Self.evalParam id p) (Fresh.par w0.backend o p) := by
  unfold Self.evalParam Fresh.par
  refine Refines.bind (Refines.paramFuncs p) fun f _ => ?_
  cases f with
  | some f =>
    refine Refines.ok_bind (Refines.paramSymbs p) (Refines.getObj_bind fun o' hf =>
      Refines.getW_bind fun w' hw' => ?_)
    rw [hf.params, hw']
    refine Refines.tryCatch (Refines.lift _) fun e => ?_
    exact Refines.ite (fun _ => Refines.throw _) fun _ => Refines.throw _
  | none =>
    refine Refines.getObj_bind fun o' hf => ?_
    rw [hf.pdef]
    cases o.pdef p with
    | val a => exact Refines.pure_ok _
    | str e => exact Refines.throw' _
    | basic e => exact Refines.throw' _

/-- Filling in an attribute keeps the invariant. -/
theorem During.fill {w : World} (hw : I w) {o' o'' : Obj} (ho : w.objs id = some o')
    (hf : Filled w0.backend o' o'') (hok : full = true → ObjOK w0.backend o'') :
    I { w with objs := Function.update w.objs id (some o'') } := by
  obtain ⟨o1, ho1, hf1⟩ := hw.obj
  rw [ho] at ho1
  cases ho1
  have hh : ∀ j (Q : Obj → Prop), (Q o' → Q o'') → Holds w j Q →
      Holds { w with objs := Function.update w.objs id (some o'') } j Q := by
    rintro j Q hQ ⟨oj, hoj, hq⟩
    by_cases hj : j = id
    · subst hj
      rw [ho] at hoj
      cases hoj
      exact ⟨o'', by simp, hQ hq⟩
    · exact ⟨oj, by simp [Function.update_of_ne hj, hoj], hq⟩
  refine ⟨hw.backend, ?_, hw.next, ?_, ⟨o'', by simp, hf1.trans hf⟩, hw.tab⟩
  · exact
      { next := by
          intro j hj
          have hne : j ≠ id := by
            rintro rfl
            rw [hw.inv.next j hj] at ho
            cases ho
          simp [Function.update_of_ne hne, hw.inv.next j hj]
        mu0 := hw.inv.mu0.mono fun j a => hh j _ fun h => by rw [hf.f_mu0]; exact h
        muEx := hw.inv.muEx.mono fun j a => hh j _ fun h => by rw [hf.f_muEx]; exact h
        psym := hw.inv.psym.mono fun j a => hh j.1 _ fun h => by rw [hf.f_symbs]; exact h
        pfun := hw.inv.pfun.mono fun j a => hh j.1 _ fun h => by
          show Fresh.pfun w.backend o'' _ = _
          have h' : Fresh.pfun w.backend o' _ = _ := h
          rw [hw.backend] at h' ⊢
          rw [hf.f_pfun]; exact h'
        mu0x := fun hfull => (hw.inv.mu0x hfull).mono fun j a => hh j _ fun h => by
          rw [hf.f_mu0x]; exact h
        muExx := fun hfull => (hw.inv.muExx hfull).mono fun j a => hh j _ fun h => by
          rw [hf.f_muExx]; exact h
        obj := by
          intro hfull j oj hoj
          by_cases hj : j = id
          · subst hj
            simp only [Function.update_self, Option.some.injEq] at hoj
            subst hoj
            show ObjOK w.backend o''
            rw [hw.backend]
            exact hok hfull
          · simp only [Function.update_of_ne hj] at hoj
            exact hw.inv.obj hfull j oj hoj }
  · intro j hj
    simp [Function.update_of_ne hj, hw.frame j hj]

theorem Refines.fn : Refines I (Self.fn id) (Fresh.fn o) := by
  intro w hw
  obtain ⟨o', ho', hf⟩ := hw.obj
  rw [← hf.fn]
  unfold Self.fn
  rw [bind_ok (getObj_some ho')]
  cases h1 : o'.fn_ with
  | some f => simp only [Fresh.fn, h1]; exact ⟨rfl, hw⟩
  | none =>
    cases h2 : o'.fnInput with
    | some f => simp only [Fresh.fn, h1, h2]; exact ⟨rfl, hw⟩
    | none =>
      by_cases hq : o'.intQ = true
      · have hfresh : Fresh.fn o' = (do let f ← fnCoefs o'.V o'.SRF o'.geom; .ok (some f)) := by
          simp [Fresh.fn, h1, h2, hq]
        rw [hfresh]
        simp only [hq, if_true]
        cases hc : fnCoefs o'.V o'.SRF o'.geom with
        | error e => exact ⟨rfl, hw⟩
        | ok f =>
          refine ⟨rfl, ?_⟩
          show I ({ w with objs := Function.update w.objs id ((w.objs id).map _) } : World)
          rw [ho']
          refine hw.fill ho' ⟨rfl, ?_, ?_⟩ ?_
          · rw [hfresh, hc]; simp [Fresh.fn]; rfl
          · have hx : Fresh.fn { o' with fn_ := some f } = Fresh.fn o' := by
              rw [hfresh, hc]; simp [Fresh.fn]; rfl
            simp only [Fresh.fnevals, hx]
            rfl
          · intro hfull
            have hok := hw.inv.obj hfull id o' ho'
            rw [hw.backend] at hok
            refine ⟨?_, hok.fnevals⟩
            intro f' hf'
            simp only [Option.some.injEq] at hf'
            subst hf'
            exact ⟨h2, hc⟩
      · simp only [Fresh.fn, h1, h2, hq]
        exact ⟨rfl, hw⟩

theorem Fresh.fn_source {b : Backend} {o : Obj} (hok : ObjOK b o) {f : List P}
    (h : Fresh.fn o = .ok (some f)) :
    o.fnInput = some f ∨ o.fnInput = none ∧ fnCoefs o.V o.SRF o.geom = .ok f := by
  unfold Fresh.fn at h
  cases h1 : o.fn_ with
  | some g =>
    simp only [h1, Except.ok.injEq, Option.some.injEq] at h
    subst h
    exact Or.inr (hok.fn _ h1)
  | none =>
    cases h2 : o.fnInput with
    | some g =>
      simp only [h1, h2, Except.ok.injEq, Option.some.injEq] at h
      subst h
      exact Or.inl rfl
    | none =>
      simp only [h1, h2] at h
      by_cases hq : o.intQ = true
      · simp only [hq, if_true] at h
        cases hc : fnCoefs o.V o.SRF o.geom with
        | error e => rw [hc] at h; cases h
        | ok g => rw [hc] at h; cases h; exact Or.inr ⟨rfl, rfl⟩
      · simp [hq] at h

theorem Refines.fnevals : Refines I (Self.fnevals id) (Fresh.fnevals w0.backend o) := by
  intro w hw
  obtain ⟨o', ho', hf⟩ := hw.obj
  rw [← hf.fnevals]
  unfold Self.fnevals
  rw [bind_ok (getObj_some ho')]
  cases h1 : o'.fnevals_ with
  | some f => simp only [Fresh.fnevals, h1]; exact ⟨rfl, hw⟩
  | none =>
    cases h2 : o'.fnevalsInput with
    | some f => simp only [Fresh.fnevals, h1, h2]; exact ⟨rfl, hw⟩
    | none =>
      by_cases hq : o'.intQ = true
      swap
      · simp only [Fresh.fnevals, h1, h2, hq]
        exact ⟨rfl, hw⟩
      simp only [hq, if_true]
      have hfresh : Fresh.fnevals w0.backend o' = (do
          let f ← Fresh.fn o'
          match f with
          | none => .error (.typeError [])
          | some f => do
            let lam ← Fresh.fnCompile w0.backend o' f
            .ok (some lam)) := by
        simp only [Fresh.fnevals, h1, h2, hq, if_true]
        rfl
      rw [hfresh]
      obtain ⟨hr, hw'⟩ := Refines.fn (S := S) (full := full) w hw
      cases hx : Self.fn id w with
      | mk r w' =>
        rw [hx] at hr hw'
        simp only at hr hw'
        rw [← hf.fn] at hr
        cases hfn : Fresh.fn o' with
        | error e =>
          rw [hfn] at hr; subst hr
          rw [bind_error hx]; exact ⟨rfl, hw'⟩
        | ok r =>
          rw [hfn] at hr; subst hr
          rw [bind_ok hx]
          cases r with
          | none => exact ⟨rfl, hw'⟩
          | some f =>
            obtain ⟨o2, ho2, hf2⟩ := hw'.obj
            have hcore : o2.core = o'.core := hf2.core.trans hf.core.symm
            have hp : o2.params = o'.params := by have := congrArg Obj.params hcore; exact this
            have hV : o2.V = o'.V := by have := congrArg Obj.V hcore; exact this
            have hS : o2.SRF = o'.SRF := by have := congrArg Obj.SRF hcore; exact this
            have hq2 : o2.intQ = true := by have := congrArg Obj.intQ hcore; exact this.trans hq
            have hi2 : o2.fnevalsInput = none := by have := congrArg Obj.fnevalsInput hcore; exact this.trans h2
            have hfn2 : Fresh.fn o2 = .ok (some f) := by rw [hf2.fn, ← hf.fn, hfn]
            dsimp only
            rw [bind_ok (show getW w' = (.ok w', w') from rfl)]
            rw [hw'.backend]
            by_cases hcomp : w0.backend = .symengine ∧ ∃ s ∈ o'.V.phase.free ++ o'.SRF.phase.free,
                s ∉ Self.fnVars o'.params
            · rw [if_pos hcomp]
              refine ⟨?_, hw'⟩
              show _ = (do
                let lam ← Fresh.fnCompile w0.backend o' f
                .ok (some lam) : Py (Option FnLam))
              unfold Fresh.fnCompile
              simp only
              rw [if_pos hcomp]
              rfl
            · rw [if_neg hcomp]
              have hcm : Fresh.fnCompile w0.backend o' f =
                  .ok ⟨Self.fnVars o'.params, o'.V.phase.free ++ o'.SRF.phase.free, f⟩ := by
                unfold Fresh.fnCompile
                simp only
                rw [if_neg hcomp]
              constructor
              · show _ = (do
                  let lam ← Fresh.fnCompile w0.backend o' f
                  .ok (some lam) : Py (Option FnLam))
                rw [hcm]
                rfl
              · show I ({ w' with objs := Function.update w'.objs id ((w'.objs id).map _) } : World)
                rw [ho2]
                refine hw'.fill ho2 ⟨rfl, ?_, ?_⟩ ?_
                · rfl
                · rw [hf2.fnevals, ← hf.fnevals, hfresh, hfn]
                  show _ = (do
                    let lam ← Fresh.fnCompile w0.backend o' f
                    .ok (some lam) : Py (Option FnLam))
                  rw [hcm]
                  rfl
                · intro hfull
                  have hok := hw'.inv.obj hfull id o2 ho2
                  rw [hw'.backend] at hok
                  refine ⟨hok.fn, ?_⟩
                  intro l hl
                  simp only [Option.some.injEq] at hl
                  subst hl
                  refine ⟨hi2, o2.params.keys, f, List.prefix_rfl, ?_, ?_, hcomp⟩
                  · rw [hp, hV, hS]; rfl
                  · exact Fresh.fn_source hok hfn2

/-- What `_d_volume_dummy_lambda(key)` returns in the current state. -/
def lookV (b : Backend) (id : ℕ) (o : Obj) (key : String) (t : LRU (ℕ × String) Lam) : Py Lam :=
  match LRU.find t (id, key) with
  | some f => .ok f
  | none => Fresh.dVol b o key

/-- What `_d_surface_dummy_lambda(key)` returns in the current state. -/
def lookS (b : Backend) (id : ℕ) (o : Obj) (key : String) (t : LRU (ℕ × String) Lam) : Py Lam :=
  match LRU.find t (id, key) with
  | some f => .ok f
  | none => Fresh.dSrf b o key

end

section
variable {full : Bool} {w0 : World} {id : ℕ} {o : Obj} {key : String} {dv ds : Py Lam}

theorem DLamOK.of_compile {b : Backend} {o : Obj} {e : Expr} {f : Lam}
    (h : Lam.compile b (["theta_0", "theta_ex", "phi_0", "phi_ex"] ++ o.params.keys) e = .ok f) :
    DLamOK b o.params e f := ⟨_, List.prefix_rfl, h⟩

theorem Refines.dVolLam :
    Refines (During full w0 id o fun tv ts =>
      lookV w0.backend id o key tv = dv ∧ lookS w0.backend id o key ts = ds)
      (Self.dVolLam id key) dv := by
  intro w hw
  obtain ⟨o', ho', hf⟩ := hw.obj
  unfold Self.dVolLam RT1.memo
  have ht := hw.tab.1
  unfold lookV at ht
  cases hfind : LRU.find w.caches.dVol (id, key) with
  | some f =>
    rw [hfind] at ht
    simp only at ht ⊢
    refine ⟨ht, hw.backend, { hw.inv with },
      hw.next, hw.frame, hw.obj, ?_, hw.tab.2⟩
    show lookV _ _ _ _ (LRU.put _ _ _) = _
    unfold lookV
    rw [LRU.find_put_self]
    exact ht
  | none =>
    rw [hfind] at ht
    simp only at ht ⊢
    rw [bind_ok (getObj_some ho'), bind_ok (show getW w = (.ok w, w) from rfl)]
    rw [hw.backend]
    have hd : Lam.compile w0.backend
        (["theta_0", "theta_ex", "phi_0", "phi_ex"] ++ o'.params.keys) (o'.V.phase.diff key) = dv := by
      rw [hf.params, hf.V]; exact ht
    rw [hd]
    cases hdv : dv with
    | error e => exact ⟨rfl, by subst hdv; exact hw⟩
    | ok f =>
      refine ⟨rfl, hw.backend, { hw.inv with },
        hw.next, hw.frame, hw.obj, ?_, hw.tab.2⟩
      · show lookV _ _ _ _ (LRU.put _ _ _) = _
        unfold lookV
        rw [LRU.find_put_self]

theorem Refines.dSrfLam :
    Refines (During full w0 id o fun tv ts =>
      lookV w0.backend id o key tv = dv ∧ lookS w0.backend id o key ts = ds)
      (Self.dSrfLam id key) ds := by
  intro w hw
  obtain ⟨o', ho', hf⟩ := hw.obj
  unfold Self.dSrfLam RT1.memo
  have ht := hw.tab.2
  unfold lookS at ht
  cases hfind : LRU.find w.caches.dSrf (id, key) with
  | some f =>
    rw [hfind] at ht
    simp only at ht ⊢
    refine ⟨ht, hw.backend, { hw.inv with },
      hw.next, hw.frame, hw.obj, hw.tab.1, ?_⟩
    show lookS _ _ _ _ (LRU.put _ _ _) = _
    unfold lookS
    rw [LRU.find_put_self]
    exact ht
  | none =>
    rw [hfind] at ht
    simp only at ht ⊢
    rw [bind_ok (getObj_some ho'), bind_ok (show getW w = (.ok w, w) from rfl)]
    rw [hw.backend]
    have hd : Lam.compile w0.backend
        (["theta_0", "theta_ex", "phi_0", "phi_ex"] ++ o'.params.keys) (o'.SRF.phase.diff key) = ds := by
      rw [hf.params, hf.SRF]; exact ht
    rw [hd]
    cases hds : ds with
    | error e => exact ⟨rfl, by subst hds; exact hw⟩
    | ok f =>
      refine ⟨rfl, hw.backend, { hw.inv with },
        hw.next, hw.frame, hw.obj, hw.tab.1, ?_⟩
      · show lookS _ _ _ _ (LRU.put _ _ _) = _
        unfold lookS
        rw [LRU.find_put_self]

end

section
variable {full : Bool} {w0 : World} {id : ℕ} {o : Obj}
  {S : LRU (ℕ × String) Lam → LRU (ℕ × String) Lam → Prop}

theorem accRef (dv ds : String → Py Lam) :
    AccRef (During full w0 id o S) (Self.acc w0.backend id) (Fresh.acc w0.backend o dv ds) where
  backend := fun _ => Refines.pure _
  V := Refines.getObj_bind fun o' hf => by rw [hf.V]; exact Refines.pure_ok _
  SRF := Refines.getObj_bind fun o' hf => by rw [hf.SRF]; exact Refines.pure_ok _
  intQ := Refines.getObj_bind fun o' hf => by rw [hf.intQ]; exact Refines.pure_ok _
  sig0 := Refines.getObj_bind fun o' hf => by rw [hf.sig0]; exact Refines.pure_ok _
  dB := Refines.getObj_bind fun o' hf => by rw [hf.dB]; exact Refines.pure_ok _
  I0 := Refines.getObj_bind fun o' hf => by rw [hf.I0]; exact Refines.pure_ok _
  t0 := Refines.t0
  tex := Refines.tex
  p0 := Refines.p0
  pex := Refines.pex
  mu0 := Refines.mu0
  muEx := Refines.muEx
  par := Refines.evalParam
  symbs := Refines.paramSymbs
  pdef := fun p => Refines.getObj_bind fun o' hf => by rw [hf.pdef]; exact Refines.pure_ok _
  params := Refines.getObj_bind fun o' hf => by rw [hf.params]; exact Refines.pure_ok _

theorem accRefInt (hfull : full = true) (dv ds : String → Py Lam) :
    AccRefInt (During full w0 id o S) (Self.acc w0.backend id) (Fresh.acc w0.backend o dv ds) where
  mu0x := Refines.mu0x hfull
  muExx := Refines.muExx hfull
  fnevals := Refines.fnevals

end

end

end RT1
