import Verif.Lemmas.JacInv
import Verif.Lemmas.Observe
import Verif.Lemmas.Shape

/-! `jacobian()` with memo tables compared with the memo-free evaluation of its entries. -/

namespace RT1

noncomputable section
open Classical

/-- The compiled derivatives belong to the phase functions of the object. -/
structure DOK (b : Backend) (o : Obj) (dv ds : String → Py Lam) : Prop where
  dVol : ∀ k f, dv k = .ok f → DLamOK b o.params (o.V.phase.diff k) f
  dSrf : ∀ k f, ds k = .ok f → DLamOK b o.params (o.SRF.phase.diff k) f
  eVol : ∀ k e f, dv k = .error e → Fresh.dVol b o k ≠ .ok f
  eSrf : ∀ k e f, ds k = .error e → Fresh.dSrf b o k ≠ .ok f

/-- The names of the compiled derivatives are the current ones. -/
theorem DOK.fresh (b : Backend) (o : Obj) : DOK b o (Fresh.dVol b o) (Fresh.dSrf b o) where
  dVol := fun _ _ h => ⟨_, List.prefix_rfl, h⟩
  dSrf := fun _ _ h => ⟨_, List.prefix_rfl, h⟩
  eVol := fun k e f h => by rw [h]; simp
  eSrf := fun k e f h => by rw [h]; simp

/-- During an evaluation: the tables are consistent. -/
def DuringD (w0 : World) (id : ℕ) (o : Obj) (w : World) : Prop :=
  During true w0 id o (fun _ _ => True) w ∧ InvD w

theorem During.weaken {full : Bool} {w0 : World} {id : ℕ} {o : Obj}
    {S S' : LRU (ℕ × String) Lam → LRU (ℕ × String) Lam → Prop} {w : World}
    (h : During full w0 id o S w) (h' : S' w.caches.dVol w.caches.dSrf) : During full w0 id o S' w :=
  ⟨h.backend, h.inv, h.next, h.frame, h.obj, h'⟩

theorem InvD.lookV {w w0 : World} {id : ℕ} {o o' : Obj} (h : InvD w) (hb : w.backend = w0.backend)
    (ho : w.objs id = some o') (hf : Filled w0.backend o o') {key : String} {f : Lam}
    (hl : RT1.lookV w0.backend id o key w.caches.dVol = .ok f) :
    DLamOK w0.backend o.params (o.V.phase.diff key) f := by
  unfold RT1.lookV at hl
  cases hfind : LRU.find w.caches.dVol (id, key) with
  | none => rw [hfind] at hl; exact ⟨_, List.prefix_rfl, hl⟩
  | some g =>
    rw [hfind] at hl
    have hg : g = f := by cases hl; rfl
    subst hg
    obtain ⟨o2, ho2, hd⟩ := h.dVol _ _ hfind
    have : o2 = o' := by rw [ho] at ho2; cases ho2; rfl
    subst this
    rw [← hf.params, ← hf.V, ← hb]
    exact hd

theorem InvD.lookS {w w0 : World} {id : ℕ} {o o' : Obj} (h : InvD w) (hb : w.backend = w0.backend)
    (ho : w.objs id = some o') (hf : Filled w0.backend o o') {key : String} {f : Lam}
    (hl : RT1.lookS w0.backend id o key w.caches.dSrf = .ok f) :
    DLamOK w0.backend o.params (o.SRF.phase.diff key) f := by
  unfold RT1.lookS at hl
  cases hfind : LRU.find w.caches.dSrf (id, key) with
  | none => rw [hfind] at hl; exact ⟨_, List.prefix_rfl, hl⟩
  | some g =>
    rw [hfind] at hl
    have hg : g = f := by cases hl; rfl
    subst hg
    obtain ⟨o2, ho2, hd⟩ := h.dSrf _ _ hfind
    have : o2 = o' := by rw [ho] at ho2; cases ho2; rfl
    subst this
    rw [← hf.params, ← hf.SRF, ← hb]
    exact hd

/-- One entry: same result as without memo tables, for some admissible derivatives. -/
theorem jacEntry_eq {w0 w : World} {id : ℕ} {o : Obj} (h : DuringD w0 id o w) (norm : Arr)
    (key : String) : (∃ dv ds, DOK w0.backend o dv ds ∧
      ((Self.acc w0.backend id).jacEntry norm key w).1 =
        (Fresh.acc w0.backend o dv ds).jacEntry norm key) ∧
      DuringD w0 id o ((Self.acc w0.backend id).jacEntry norm key w).2 := by
  obtain ⟨hd, hi⟩ := h
  obtain ⟨o', ho', hf⟩ := hd.obj
  set dv := lookV w0.backend id o key w.caches.dVol with hdv
  set ds := lookS w0.backend id o key w.caches.dSrf with hds
  have hA := accRef (full := true) (w0 := w0) (id := id) (o := o)
    (S := fun tv ts => lookV w0.backend id o key tv = dv ∧ lookS w0.backend id o key ts = ds)
    (fun k => if k = key then dv else Fresh.dVol w0.backend o k)
    (fun k => if k = key then ds else Fresh.dSrf w0.backend o k)
  have hR := hA.jacEntry norm key
    (by show Refines _ (Self.dVolLam id key) (if key = key then dv else _)
        rw [if_pos rfl]; exact Refines.dVolLam)
    (by show Refines _ (Self.dSrfLam id key) (if key = key then ds else _)
        rw [if_pos rfl]; exact Refines.dSrfLam)
    w (hd.weaken ⟨rfl, rfl⟩)
  refine ⟨⟨_, _, ⟨?_, ?_, ?_, ?_⟩, hR.1⟩, hR.2.weaken trivial,
    (MemoStable.acc (InvD.stable id) w0.backend).jacEntry norm key w hi⟩
  · intro k f hk
    split_ifs at hk with e
    · subst e
      exact hi.lookV hd.backend ho' hf hk
    · exact ⟨_, List.prefix_rfl, hk⟩
  · intro k f hk
    split_ifs at hk with e
    · subst e
      exact hi.lookS hd.backend ho' hf hk
    · exact ⟨_, List.prefix_rfl, hk⟩
  · intro k e f hk
    split_ifs at hk with he
    · subst he
      rw [hdv] at hk
      unfold lookV at hk
      cases hfind : LRU.find w.caches.dVol (id, k) with
      | some g => rw [hfind] at hk; cases hk
      | none =>
        rw [hfind] at hk
        intro h'
        rw [h'] at hk; cases hk
    · intro h'
      rw [h'] at hk; cases hk
  · intro k e f hk
    split_ifs at hk with he
    · subst he
      rw [hds] at hk
      unfold lookS at hk
      cases hfind : LRU.find w.caches.dSrf (id, k) with
      | some g => rw [hfind] at hk; cases hk
      | none =>
        rw [hfind] at hk
        intro h'
        rw [h'] at hk; cases hk
    · intro h'
      rw [h'] at hk; cases hk

/-- What the loop of `jacobian()` returns. -/
inductive JacSpec (b : Backend) (o : Obj) (norm : Arr) : List String → Py (List Arr) → Prop
  | nil : JacSpec b o norm [] (.ok [])
  | err {k ks e dv ds} (hd : DOK b o dv ds)
      (h : (Fresh.acc b o dv ds).jacEntry norm k = .error e) : JacSpec b o norm (k :: ks) (.error e)
  | rest {k ks x e dv ds} (hd : DOK b o dv ds)
      (h : (Fresh.acc b o dv ds).jacEntry norm k = .ok x) (hr : JacSpec b o norm ks (.error e)) :
      JacSpec b o norm (k :: ks) (.error e)
  | cons {k ks x l dv ds} (hd : DOK b o dv ds)
      (h : (Fresh.acc b o dv ds).jacEntry norm k = .ok x) (hr : JacSpec b o norm ks (.ok l)) :
      JacSpec b o norm (k :: ks) (.ok (x :: l))

theorem jacLoop_spec {w0 : World} {id : ℕ} {o : Obj} (norm : Arr) (keys : List String) :
    ∀ {w : World}, DuringD w0 id o w →
      JacSpec w0.backend o norm keys ((Self.acc w0.backend id).jacLoop norm keys w).1 ∧
      DuringD w0 id o ((Self.acc w0.backend id).jacLoop norm keys w).2 := by
  induction keys with
  | nil => exact fun h => ⟨JacSpec.nil, h⟩
  | cons k ks ih =>
    intro w h
    unfold Acc.jacLoop
    obtain ⟨⟨dv, ds, hdok, he⟩, h'⟩ := jacEntry_eq h norm k
    cases hx : (Self.acc w0.backend id).jacEntry norm k w with
    | mk r w1 =>
      rw [hx] at he h'
      cases r with
      | error e => rw [bind_error hx]; exact ⟨JacSpec.err hdok he.symm, h'⟩
      | ok x =>
        rw [bind_ok hx]
        obtain ⟨h1, h2⟩ := ih h'
        cases hy : (Self.acc w0.backend id).jacLoop norm ks w1 with
        | mk r2 w2 =>
          rw [hy] at h1 h2
          cases r2 with
          | error e => rw [bind_error hy]; exact ⟨JacSpec.rest hdok he.symm h1, h2⟩
          | ok l => rw [bind_ok hy]; exact ⟨JacSpec.cons hdok he.symm h1, h2⟩

/-- `jacobian(keys)` compared with the memo-free evaluation. -/
theorem jacobianList_spec {w : World} (hw : Reachable w) {id : ℕ} {o : Obj}
    (ho : w.objs id = some o) (keys : List String) :
    (match (Fresh.acc0 w.backend o).jacNorm with
      | .error e => (jacobianList id keys w).1 = .error e
      | .ok norm => JacSpec w.backend o norm keys (jacobianList id keys w).1) ∧
    DuringD w id o (jacobianList id keys w).2 := by
  have hd : DuringD w id o w := ⟨During.init hw.inv ho trivial, hw.invD⟩
  unfold jacobianList
  rw [bind_ok (show getW w = (.ok w, w) from rfl)]
  unfold Acc.jacList
  have hR := (accRef (full := true) (w0 := w) (id := id) (o := o) (S := fun _ _ => True)
    (Fresh.dVol w.backend o) (Fresh.dSrf w.backend o)).jacNorm w hd.1
  have hI := (MemoStable.acc (InvD.stable id) w.backend).jacNorm w hd.2
  have hR1 : ((Self.acc w.backend id).jacNorm w).1 = (Fresh.acc0 w.backend o).jacNorm := hR.1
  have hR2 := hR.2
  cases hx : (Self.acc w.backend id).jacNorm w with
  | mk r w1 =>
    rw [hx] at hR1 hR2 hI
    rw [← hR1]
    cases r with
    | error e => rw [bind_error hx]; exact ⟨rfl, hR2, hI⟩
    | ok norm =>
      rw [bind_ok hx]
      exact jacLoop_spec norm keys ⟨hR2, hI⟩

theorem JacSpec.get {b : Backend} {o : Obj} {norm : Arr} {keys : List String} {l : List Arr}
    (h : JacSpec b o norm keys (.ok l)) : keys.length = l.length ∧ ∀ (i : ℕ) (key : String), keys[i]? = some key →
      ∃ z dv ds, l[i]? = some z ∧ DOK b o dv ds ∧ (Fresh.acc b o dv ds).jacEntry norm key = .ok z := by
  generalize hr : (Except.ok l : Py (List Arr)) = r at h
  induction h generalizing l with
  | nil => cases hr; exact ⟨rfl, fun i key h => by simp at h⟩
  | err => cases hr
  | rest => cases hr
  | @cons k ks x l' dv ds hd h hr' ih =>
    cases hr
    obtain ⟨h1, h2⟩ := ih rfl
    refine ⟨by simp [h1], ?_⟩
    intro i key hi
    cases i with
    | zero =>
      have : k = key := by simpa using hi
      subst this
      exact ⟨x, dv, ds, by simp, hd, h⟩
    | succ i =>
      obtain ⟨z, dv', ds', hz, h3⟩ := h2 i key (by simpa using hi)
      exact ⟨z, dv', ds', by simpa using hz, h3⟩

/-! ### pointwise values -/

namespace XSite
variable (x : XSite)

/-- Value of `_dsurface_dtau`. -/
def dSurfTau (f : XR) : XR :=
  x.par .NormBRDF * (XR.fin 1 - x.par .bsf) *
    (x.I0 * (XR.fin (-1) / x.mu0 - XR.fin 1 / x.muEx)
      * XR.exp (-(x.par .tau) / x.mu0 - x.par .tau / x.muEx) * x.mu0 * f)
def dVolTau (p : XR) : XR :=
  (XR.fin 1 - x.par .bsf) *
    (x.I0 * x.par .omega * (x.mu0 / (x.mu0 + x.muEx))
      * ((XR.fin 1 / x.mu0 + XR.fin 1 / (XR.fin 1 / x.muEx))
        * XR.exp (-(x.par .tau) / x.mu0 - x.par .tau / x.muEx)) * p)
def dVolOmega (p : XR) : XR :=
  (XR.fin 1 - x.par .bsf) * ((x.I0 * x.mu0 / (x.mu0 + x.muEx)) * (XR.fin 1 - x.atten) * p)
def dVolBsf (p : XR) : XR :=
  -((x.I0 * x.par .omega * x.mu0 / (x.mu0 + x.muEx)) * (XR.fin 1 - x.atten) * p)
def dSurfNorm (f : XR) : XR :=
  (XR.fin 1 - x.par .bsf) * (x.atten * (x.I0 * x.mu0 * f)) + x.par .bsf * (x.I0 * x.mu0 * f)
def dSurfBsf (f : XR) : XR :=
  x.par .NormBRDF * ((x.I0 * x.mu0 * f) - x.atten * (x.I0 * x.mu0 * f) * XR.fin 1)
def norm (sig0 dB : Bool) (f p : XR) : XR :=
  if sig0 = true ∧ dB = false then XR.fin (4 * Real.pi) * x.mu0
  else if dB = true then
    XR.fin 10 / (XR.fin (Real.log 10) * (x.surface f + x.volume p))
  else XR.fin 1
end XSite


section
variable {b : Backend} {o : Obj} {dv ds : String → Py Lam} {idx : List ℕ}

local notation "A" => Fresh.acc b o dv ds
local notation "x" => XSite.of b o idx

theorem PW.dvolumeDtau {p : XR} (hp : PW (A).vCalc idx p) :
    PW (A).dvolumeDtau idx ((x).dVolTau p) := by
  unfold Acc.dvolumeDtau
  refine PW.bind_pw (PW.mulM (PW.mulM (PW.mulM (PW.mulM PW.I0 (PW.par .omega))
    (PW.divM PW.mu0 (PW.addM PW.mu0 PW.muEx))) (PW.mulM (PW.addM (PW.divM (PW.lit 1) PW.mu0)
    (PW.divM (PW.lit 1) (PW.mapM' PW.muEx))) (PW.expM (PW.subM (PW.divM (PW.negM (PW.par _)) PW.mu0)
    (PW.divM (PW.par _) PW.muEx))))) hp) fun a h => ?_
  exact PW.mulM (PW.subM (PW.lit 1) (PW.par _)) (PW.pure h)

theorem PW.dvolumeDomega {p : XR} (hp : PW (A).vCalc idx p) :
    PW (A).dvolumeDomega idx ((x).dVolOmega p) := by
  unfold Acc.dvolumeDomega
  refine PW.bind_pw (PW.mulM (PW.mulM (PW.divM (PW.mulM PW.I0 PW.mu0) (PW.addM PW.mu0 PW.muEx))
    (PW.subM (PW.lit 1) PW.atten)) hp) fun a h => ?_
  exact PW.mulM (PW.subM (PW.lit 1) (PW.par _)) (PW.pure h)

theorem PW.dvolumeDbsf {p : XR} (hp : PW (A).vCalc idx p) :
    PW (A).dvolumeDbsf idx ((x).dVolBsf p) := by
  unfold Acc.dvolumeDbsf
  refine PW.bind_pw (PW.mulM (PW.mulM (PW.divM (PW.mulM (PW.mulM PW.I0 (PW.par .omega)) PW.mu0)
    (PW.addM PW.mu0 PW.muEx)) (PW.subM (PW.lit 1) PW.atten)) hp) fun a h => ?_
  refine PW.pure ?_
  unfold Arr.neg
  rw [Arr.at'_map, h]
  rfl

theorem PW.dsurfaceDtau {f : XR} (hf : PW (A).srfCalc idx f) :
    PW (A).dsurfaceDtau idx ((x).dSurfTau f) := by
  unfold Acc.dsurfaceDtau
  refine PW.bind_pw (PW.mulM (PW.mulM (PW.mulM (PW.mulM PW.I0 (PW.subM (PW.divM (PW.lit (-1)) PW.mu0)
    (PW.divM (PW.lit 1) PW.muEx))) (PW.expM (PW.subM (PW.divM (PW.negM (PW.par _)) PW.mu0)
    (PW.divM (PW.par _) PW.muEx)))) PW.mu0) hf) fun a h => ?_
  exact PW.mulM (PW.mulM (PW.par _) (PW.subM (PW.lit 1) (PW.par _))) (PW.pure h)

theorem PW.dsurfaceDNormBRDF {f : XR} (hf : PW (A).srfCalc idx f) :
    PW (A).dsurfaceDNormBRDF idx ((x).dSurfNorm f) := by
  unfold Acc.dsurfaceDNormBRDF
  refine PW.bind_pw (PW.mulM (PW.mulM PW.I0 PW.mu0) hf) fun a1 h1 => ?_
  refine PW.bind_pw (PW.mulM PW.atten (PW.pure h1)) fun a2 h2 => ?_
  exact PW.addM (PW.mulM (PW.subM (PW.lit 1) (PW.par _)) (PW.pure h2))
    (PW.mulM (PW.par _) (PW.pure h1))

theorem PW.onesLike : PW (do let t ← (A).t0; Pure.pure (Arr.onesLike t)) idx (XR.fin 1) := by
  refine PW.bind fun t _ => ?_
  exact PW.pure rfl

theorem PW.dsurfaceDbsf {f : XR} (hf : PW (A).srfCalc idx f) :
    PW (A).dsurfaceDbsf idx ((x).dSurfBsf f) := by
  unfold Acc.dsurfaceDbsf
  refine PW.bind_pw (PW.mulM (PW.mulM PW.I0 PW.mu0) hf) fun a1 h1 => ?_
  refine PW.bind_pw (PW.mulM (PW.mulM PW.atten (PW.pure h1)) PW.onesLike) fun a2 h2 => ?_
  exact PW.mulM (PW.par _) (PW.subM (PW.pure h1) (PW.pure h2))

theorem PW.jacNorm {f p : XR} (hf : PW (A).srfCalc idx f) (hp : PW (A).vCalc idx p) :
    PW (A).jacNorm idx ((x).norm o.sig0 o.dB f p) := by
  unfold Acc.jacNorm XSite.norm
  refine PW.bind fun s hs => ?_
  have hs' : o.sig0 = s := by
    have : (Except.ok o.sig0 : Py Bool) = .ok s := hs
    cases this; rfl
  subst hs'
  refine PW.bind fun s hs => ?_
  have hs' : o.dB = s := by
    have : (Except.ok o.dB : Py Bool) = .ok s := hs
    cases this; rfl
  subst hs'
  by_cases h1 : o.sig0 = true ∧ o.dB = false
  · rw [if_pos h1, if_pos h1]
    exact PW.mulM (PW.lit _) PW.mu0
  · rw [if_neg h1, if_neg h1]
    by_cases h2 : o.dB = true
    · rw [if_pos h2, if_pos h2]
      exact PW.divM (PW.lit _) (PW.mulM (PW.lit _) (PW.addM (PW.surface hf) (PW.volume hp)))
    · rw [if_neg h2, if_neg h2]
      exact PW.lit 1

/-! ### derivatives with respect to other parameters -/

theorem Lam.call_names {b : Backend} {vars : List String} {e : Expr} {f : Lam} {pos : List Arr}
    {kw : Dict} {z : Arr} (hc : Lam.compile b vars e = .ok f) (h : f.call b pos kw = .ok z) :
    ∀ n ∈ e.free, n ∈ vars := by
  intro n hn
  have hfe := Lam.compile_ok hc
  cases b with
  | symengine =>
    simp only [Lam.compile] at hc
    split_ifs at hc with hc'
    exact hc' n hn
  | sympy =>
    subst hfe
    unfold Lam.call at h
    cases hb : Lam.bindArgs .sympy vars pos kw with
    | error e => rw [hb] at h; cases h
    | ok bnd =>
      rw [hb] at h
      obtain ⟨vals, -, rfl⟩ := Lam.bindArgs_ok hb
      have h2 : Lam.evalBound .sympy e (vars.zip (pos ++ vals)) = .ok z := h
      simp only [Lam.evalBound] at h2
      split_ifs at h2 with hc
      have := hc n hn
      rw [List.mem_map] at this
      obtain ⟨⟨k, v⟩, hp, rfl⟩ := this
      exact (List.of_mem_zip hp).1

/-- Value of a compiled derivative. -/
theorem DLamOK.value {b : Backend} {pd : Dict} {e : Expr} {f : Lam} (h : DLamOK b pd e f)
    {a1 a2 a3 a4 z : Arr} (hz : f.call b [a1, a2, a3, a4] pd = .ok z) {idx : List ℕ}
    {E : String → XR}
    (hE : ∀ n, n ∈ ["theta_0", "theta_ex", "phi_0", "phi_ex"] ∨ n ∈ pd.keys →
      angEnv (a1.at' idx) (a2.at' idx) (a3.at' idx) (a4.at' idx) (pd.valAt idx) n = E n) :
    z.at' idx = e.evalX E := by
  obtain ⟨ks, hk, hc⟩ := h
  have hn : ∀ n ∈ e.free, n ∈ ["theta_0", "theta_ex", "phi_0", "phi_ex"] ∨ n ∈ ks := fun n hn =>
    List.mem_append.mp (Lam.call_names hc hz n hn)
  rw [Lam.call4_at hc hz idx fun s hs => (hn s hs).imp_right Or.inl]
  refine Expr.evalX_congr fun n hn' => hE n ((hn n hn').imp_right fun h => ?_)
  exact hk.subset h

theorem valAt_ok {y : Py Arr} {a : Arr} (h : y = .ok a) (idx : List ℕ) : RT1.valAt y idx = a.at' idx := by
  rw [h]; rfl

/-- Calling a compiled derivative for the current angles and parameters. -/
theorem PW.callAngles {g : Py Lam} {e : Expr} (hg : ∀ f, g = .ok f → DLamOK b o.params e f)
    {E : String → XR}
    (hE : ∀ n, n ∈ ["theta_0", "theta_ex", "phi_0", "phi_ex"] ∨ n ∈ o.params.keys → (x).env n = E n) :
    PW (do
      let f ← g
      let a ← (A).t0
      let b' ← (A).tex
      let c ← (A).p0
      let d ← (A).pex
      let pd ← (A).params
      liftPy (f.call b [a, b', c, d] pd)) idx (e.evalX E) := by
  refine PW.bind fun f hf => ?_
  refine PW.bind fun a1 h1 => ?_
  refine PW.bind fun a2 h2 => ?_
  refine PW.bind fun a3 h3 => ?_
  refine PW.bind fun a4 h4 => ?_
  refine PW.bind fun pd hpd => ?_
  have hpd' : o.params = pd := by
    have : (Except.ok o.params : Py Dict) = .ok pd := hpd
    cases this; rfl
  subst hpd'
  refine PW.lift fun z hz => ?_
  refine (hg f hf).value hz fun n hn => ?_
  rw [← hE n hn]
  show _ = angEnv (RT1.valAt (Fresh.ang o .t0) idx) (RT1.valAt (Fresh.tex o) idx)
    (RT1.valAt (Fresh.ang o .p0) idx) (RT1.valAt (Fresh.pex o) idx) (o.params.valAt idx) n
  have e1 : RT1.valAt (Fresh.ang o .t0) idx = _ := valAt_ok h1 idx
  have e2 : RT1.valAt (Fresh.tex o) idx = _ := valAt_ok h2 idx
  have e3 : RT1.valAt (Fresh.ang o .p0) idx = _ := valAt_ok h3 idx
  have e4 : RT1.valAt (Fresh.pex o) idx = _ := valAt_ok h4 idx
  rw [e1, e2, e3, e4]

theorem PW.dparam {p : PName} {e : Expr} (hp : o.pdef p = .str e) (key : String) {E : String → XR}
    (hE : ∀ n, n ∈ ["theta_0", "theta_ex", "phi_0", "phi_ex"] ∨ n ∈ o.params.keys → (x).env n = E n) :
    PW ((A).dparam p key) idx ((e.diff key).evalX E) := by
  have := PW.callAngles (b := b) (o := o) (dv := dv) (ds := ds) (idx := idx) (e := e.diff key)
    (g := Lam.compile b (["theta_0", "theta_ex", "phi_0", "phi_ex"] ++ o.params.keys) (e.diff key))
    (fun f hf => ⟨_, List.prefix_rfl, hf⟩) hE
  unfold Acc.dparam
  refine PW.bind fun d hd => ?_
  have hd' : d = .str e := by
    have h' : (Except.ok (o.pdef p) : Py PDef) = .ok d := hd
    rw [hp] at h'
    cases h'; rfl
  subst hd'
  refine PW.bind fun pd hpd => ?_
  have hpd' : o.params = pd := by
    have : (Except.ok o.params : Py Dict) = .ok pd := hpd
    cases this; rfl
  subst hpd'
  refine PW.bind fun k hk => ?_
  cases hk
  rw [Refines.liftPy_py]
  exact this

theorem Fresh.acc_symbs (p : PName) : (A).symbs p = .ok (Fresh.symbs o p) := rfl

theorem PW.ite_symbs {p : PName} {key : String} {y z : Py Arr} {v : XR}
    (h1 : key ∈ Fresh.symbs o p → PW y idx v) (h2 : key ∉ Fresh.symbs o p → PW z idx v) :
    PW (do
      let s ← (A).symbs p
      if key ∈ s then y else z) idx v := by
  refine PW.bind fun s hs => ?_
  have hs' : Fresh.symbs o p = s := by
    have : (Except.ok (Fresh.symbs o p) : Py (List String)) = .ok s := hs
    cases this; rfl
  subst hs'
  by_cases h : key ∈ Fresh.symbs o p
  · rw [if_pos h]; exact h1 h
  · rw [if_neg h]; exact h2 h

/-- Value of `_d_volume_ddummy(key)`, given the values of the inner derivatives. -/
def XSite.dVolKey (y : XSite) (o : Obj) (key : String) (p dtau domega dbsf dp : XR) : XR :=
  if key ∈ Fresh.symbs o .tau then y.dVolTau p * dtau
  else if key ∈ Fresh.symbs o .omega then y.dVolOmega p * domega
  else if key ∈ Fresh.symbs o .bsf then y.dVolBsf p * dbsf
  else y.volume dp

/-- Value of `_d_surface_ddummy(key)`. -/
def XSite.dSurfKey (y : XSite) (o : Obj) (key : String) (f dN dbsf df : XR) : XR :=
  if key ∈ Fresh.symbs o .NormBRDF then y.dSurfNorm f * dN
  else if key ∈ Fresh.symbs o .bsf then y.dSurfBsf f * dbsf
  else y.surface df

/-- The derivative of a definition with respect to `key` (used if the key occurs in it). -/
def Obj.ddef (o : Obj) (p : PName) (key : String) (E : String → XR) : XR :=
  match o.pdef p with
  | .str e => (e.diff key).evalX E
  | _ => XR.nan

theorem Fresh.symbs_str {p : PName} {key : String} (h : key ∈ Fresh.symbs o p) :
    ∃ e, o.pdef p = .str e ∧ key ∈ e.free := by
  unfold Fresh.symbs at h
  cases hp : o.pdef p with
  | str e => rw [hp] at h; exact ⟨e, rfl, List.mem_dedup.mp h⟩
  | val a => rw [hp] at h; cases h
  | basic e => rw [hp] at h; cases h

theorem PW.inner {p : PName} {key : String} (h : key ∈ Fresh.symbs o p) {E : String → XR}
    (hE : ∀ n, n ∈ ["theta_0", "theta_ex", "phi_0", "phi_ex"] ∨ n ∈ o.params.keys → (x).env n = E n) :
    PW ((A).dparam p key) idx (o.ddef p key E) := by
  obtain ⟨e, he, -⟩ := Fresh.symbs_str h
  unfold Obj.ddef
  rw [he]
  exact PW.dparam he key hE

theorem PW.dVolumeDummy (hd : DOK b o dv ds) {p : XR} (hp : PW (A).vCalc idx p) (key : String)
    {E : String → XR}
    (hE : ∀ n, n ∈ ["theta_0", "theta_ex", "phi_0", "phi_ex"] ∨ n ∈ o.params.keys → (x).env n = E n) :
    PW ((A).dVolumeDummy key) idx ((x).dVolKey o key p (o.ddef .tau key E) (o.ddef .omega key E)
      (o.ddef .bsf key E) ((o.V.phase.diff key).evalX E)) := by
  unfold Acc.dVolumeDummy XSite.dVolKey
  refine PW.ite_symbs (fun h => ?_) fun h => ?_
  · rw [if_pos h]
    exact PW.bind_pw (PW.inner h hE) fun a ha => PW.mulM (PW.dvolumeDtau hp) (PW.pure ha)
  rw [if_neg h]
  refine PW.ite_symbs (fun h => ?_) fun h => ?_
  · rw [if_pos h]
    exact PW.bind_pw (PW.inner h hE) fun a ha => PW.mulM (PW.dvolumeDomega hp) (PW.pure ha)
  rw [if_neg h]
  refine PW.ite_symbs (fun h => ?_) fun h => ?_
  · rw [if_pos h]
    exact PW.bind_pw (PW.inner h hE) fun a ha => PW.mulM (PW.dvolumeDbsf hp) (PW.pure ha)
  rw [if_neg h]
  refine PW.bind_pw (PW.mulM (PW.mulM (PW.divM (PW.mulM (PW.mulM PW.I0 (PW.par .omega)) PW.mu0)
    (PW.addM PW.mu0 PW.muEx)) (PW.subM (PW.lit 1) PW.atten))
    (PW.callAngles (g := dv key) (hd.dVol key) hE)) fun a ha => ?_
  exact PW.mulM (PW.subM (PW.lit 1) (PW.par _)) (PW.pure ha)

theorem PW.dSurfaceDummy (hd : DOK b o dv ds) {f : XR} (hf : PW (A).srfCalc idx f) (key : String)
    {E : String → XR}
    (hE : ∀ n, n ∈ ["theta_0", "theta_ex", "phi_0", "phi_ex"] ∨ n ∈ o.params.keys → (x).env n = E n) :
    PW ((A).dSurfaceDummy key) idx ((x).dSurfKey o key f (o.ddef .NormBRDF key E)
      (o.ddef .bsf key E) ((o.SRF.phase.diff key).evalX E)) := by
  unfold Acc.dSurfaceDummy XSite.dSurfKey
  refine PW.ite_symbs (fun h => ?_) fun h => ?_
  · rw [if_pos h]
    exact PW.bind_pw (PW.inner h hE) fun a ha => PW.mulM (PW.dsurfaceDNormBRDF hf) (PW.pure ha)
  rw [if_neg h]
  refine PW.ite_symbs (fun h => ?_) fun h => ?_
  · rw [if_pos h]
    exact PW.bind_pw (PW.inner h hE) fun a ha => PW.mulM (PW.dsurfaceDbsf hf) (PW.pure ha)
  rw [if_neg h]
  refine PW.bind_pw (PW.mulM (PW.mulM PW.I0 PW.mu0)
    (PW.callAngles (g := ds key) (hd.dSrf key) hE)) fun a1 h1 => ?_
  refine PW.bind_pw (PW.mulM PW.atten (PW.pure h1)) fun a2 h2 => ?_
  exact PW.mulM (PW.par _) (PW.addM (PW.mulM (PW.subM (PW.lit 1) (PW.par _)) (PW.pure h2))
    (PW.mulM (PW.par _) (PW.pure h1)))

/-- Names handled by special branches of `jacobian()`. -/
def builtin (key : String) : Prop := key = "omega" ∨ key = "tau" ∨ key = "NormBRDF" ∨ key = "bsf"

/-- Value of one entry before normalisation. -/
def XSite.entry (y : XSite) (o : Obj) (key : String) (f p : XR) (E : String → XR) : XR :=
  if key = "omega" then XR.fin 0 + y.dVolOmega p
  else if key = "tau" then y.dSurfTau f + y.dVolTau p
  else if key = "NormBRDF" then y.dSurfNorm f + XR.fin 0
  else if key = "bsf" then y.dSurfBsf f + y.dVolBsf p
  else y.dSurfKey o key f (o.ddef .NormBRDF key E) (o.ddef .bsf key E)
      ((o.SRF.phase.diff key).evalX E) +
    y.dVolKey o key p (o.ddef .tau key E) (o.ddef .omega key E) (o.ddef .bsf key E)
      ((o.V.phase.diff key).evalX E)

theorem PW.jacEntry (hd : DOK b o dv ds) {f p : XR} (hf : PW (A).srfCalc idx f)
    (hp : PW (A).vCalc idx p) {norm : Arr} {n : XR} (hn : norm.at' idx = n) (key : String)
    {E : String → XR}
    (hE : ∀ n, n ∈ ["theta_0", "theta_ex", "phi_0", "phi_ex"] ∨ n ∈ o.params.keys → (x).env n = E n) :
    PW ((A).jacEntry norm key) idx ((x).entry o key f p E * n) := by
  unfold Acc.jacEntry XSite.entry
  by_cases h1 : key = "omega"
  · rw [if_pos h1, if_pos h1]
    exact PW.mulM (PW.addM (PW.lit 0) (PW.dvolumeDomega hp)) (PW.pure hn)
  rw [if_neg h1, if_neg h1]
  by_cases h2 : key = "tau"
  · rw [if_pos h2, if_pos h2]
    exact PW.mulM (PW.addM (PW.dsurfaceDtau hf) (PW.dvolumeDtau hp)) (PW.pure hn)
  rw [if_neg h2, if_neg h2]
  by_cases h3 : key = "NormBRDF"
  · rw [if_pos h3, if_pos h3]
    exact PW.mulM (PW.addM (PW.dsurfaceDNormBRDF hf) (PW.lit 0)) (PW.pure hn)
  rw [if_neg h3, if_neg h3]
  by_cases h4 : key = "bsf"
  · rw [if_pos h4, if_pos h4]
    exact PW.mulM (PW.addM (PW.dsurfaceDbsf hf) (PW.dvolumeDbsf hp)) (PW.pure hn)
  rw [if_neg h4, if_neg h4]
  refine PW.bind fun pd _ => ?_
  by_cases h5 : key ∈ pd.keys
  · rw [if_pos h5]
    exact PW.mulM (PW.addM (PW.dSurfaceDummy hd hf key hE) (PW.dVolumeDummy hd hp key hE))
      (PW.pure hn)
  · rw [if_neg h5]
    intro z hz
    cases hz

end

end

end RT1
