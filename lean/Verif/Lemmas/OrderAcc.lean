import Verif.Lemmas.Order
import Verif.Lemmas.FnL
import Verif.Lemmas.ArrL

/-! Objects whose parameters are listed in another order evaluate to the same values (C84). -/

namespace RT1

noncomputable section
open Classical

/-- Accessors that give the same values. -/
structure AccSame (A A' : Acc Py) : Prop where
  V : A.V = A'.V
  SRF : A.SRF = A'.SRF
  intQ : A.intQ = A'.intQ
  sig0 : A.sig0 = A'.sig0
  dB : A.dB = A'.dB
  I0 : A.I0 = A'.I0
  t0 : A.t0 = A'.t0
  tex : A.tex = A'.tex
  p0 : A.p0 = A'.p0
  pex : A.pex = A'.pex
  mu0 : A.mu0 = A'.mu0
  muEx : A.muEx = A'.muEx
  par : A.par = A'.par
  symbs : A.symbs = A'.symbs
  srf : A.srfCalc = A'.srfCalc
  vol : A.vCalc = A'.vCalc
  missing : A.missingNames = A'.missingNames

/-- ... also for the interaction term. -/
structure AccSameInt (A A' : Acc Py) : Prop extends AccSame A A' where
  fint1 : A.fint1 = A'.fint1
  fint2 : A.fint2 = A'.fint2

namespace AccSame
variable {A A' : Acc Py} (h : AccSame A A')
include h

theorem atten : A.atten = A'.atten := by
  unfold Acc.atten; rw [h.par, h.mu0, h.muEx]

theorem surface : A.surface = A'.surface := by
  unfold Acc.surface; rw [h.I0, h.mu0, h.srf, h.atten, h.par]

theorem volume : A.volume = A'.volume := by
  unfold Acc.volume; rw [h.I0, h.mu0, h.muEx, h.vol, h.atten, h.par]

theorem convert (x : Arr) : A.convert x = A'.convert x := by
  unfold Acc.convert; rw [h.sig0, h.dB, h.mu0, h.I0]

theorem finish (q : Bool) (x y z : Arr) : A.finish q x y z = A'.finish q x y z := by
  unfold Acc.finish; simp only [h.convert]

theorem fixNan (x : Arr) : A.fixNan x = A'.fixNan x := by
  unfold Acc.fixNan; rw [h.par]

theorem jacNorm : A.jacNorm = A'.jacNorm := by
  unfold Acc.jacNorm; rw [h.sig0, h.dB, h.mu0, h.surface, h.volume]

/-- `calc` if the interaction term is off or the same. -/
theorem calcTry (hi : A.interaction = A'.interaction ∨ A.intQ = .ok false) : A.calcTry = A'.calcTry := by
  have hb : A.calcBody = A'.calcBody := by
    unfold Acc.calcBody
    rcases hi with hi | hi
    · simp only [h.par, h.surface, h.volume, h.intQ, hi, h.finish, h.fixNan]
    · simp only [← h.intQ, hi]
      simp only [h.par, h.surface, h.volume, h.finish, okb]
      rfl
  unfold Acc.calcTry
  rw [hb, h.missing]

/-- The derivatives with respect to tau, omega, NormBRDF, bsf. -/
theorem jacList {ks : List String} (hk : ∀ k ∈ ks, k ∈ ["omega", "tau", "NormBRDF", "bsf"]) :
    A.jacList ks = A'.jacList ks := by
  have he : ∀ n k, k ∈ ["omega", "tau", "NormBRDF", "bsf"] → A.jacEntry n k = A'.jacEntry n k := by
    intro n k hk
    unfold Acc.jacEntry
    have e1 : A.dvolumeDomega = A'.dvolumeDomega := by
      unfold Acc.dvolumeDomega; rw [h.I0, h.mu0, h.muEx, h.atten, h.vol, h.par]
    have e2 : A.dvolumeDtau = A'.dvolumeDtau := by
      unfold Acc.dvolumeDtau; rw [h.I0, h.mu0, h.muEx, h.vol, h.par]
    have e3 : A.dsurfaceDtau = A'.dsurfaceDtau := by
      unfold Acc.dsurfaceDtau; rw [h.I0, h.mu0, h.muEx, h.srf, h.par]
    have e4 : A.dsurfaceDNormBRDF = A'.dsurfaceDNormBRDF := by
      unfold Acc.dsurfaceDNormBRDF; rw [h.I0, h.mu0, h.srf, h.atten, h.par]
    have e5 : A.dsurfaceDbsf = A'.dsurfaceDbsf := by
      unfold Acc.dsurfaceDbsf; rw [h.I0, h.mu0, h.srf, h.atten, h.par, h.t0]
    have e6 : A.dvolumeDbsf = A'.dvolumeDbsf := by
      unfold Acc.dvolumeDbsf; rw [h.I0, h.mu0, h.muEx, h.vol, h.atten, h.par]
    rw [e1, e2, e3, e4, e5, e6]
    by_cases h1 : k = "omega"
    · rw [if_pos h1, if_pos h1]
    rw [if_neg h1, if_neg h1]
    by_cases h2 : k = "tau"
    · rw [if_pos h2, if_pos h2]
    rw [if_neg h2, if_neg h2]
    by_cases h3 : k = "NormBRDF"
    · rw [if_pos h3, if_pos h3]
    rw [if_neg h3, if_neg h3]
    by_cases h4 : k = "bsf"
    · rw [if_pos h4, if_pos h4]
    · simp [h1, h2, h3, h4] at hk
  have hl : ∀ n ks, (∀ k ∈ ks, k ∈ ["omega", "tau", "NormBRDF", "bsf"]) → A.jacLoop n ks = A'.jacLoop n ks := by
    intro n ks
    induction ks with
    | nil => intro _; rfl
    | cons k ks ih =>
      intro hk
      unfold Acc.jacLoop
      rw [he n k (hk k (by simp)), ih fun x hx => hk x (by simp [hx])]
  unfold Acc.jacList
  rw [h.jacNorm]
  simp only [hl _ ks hk]

end AccSame

theorem AccSameInt.interaction {A A' : Acc Py} (h : AccSameInt A A') : A.interaction = A'.interaction := by
  unfold Acc.interaction
  rw [h.fint1, h.fint2, h.I0, h.mu0, h.muEx, h.par]

/-! ### values of records -/

/-- The same settings with the parameters listed in another order. -/
def Record.Same (r r' : Record) : Prop := ∃ d, r' = { r with params := d } ∧ Dict.Same r.params d

theorem pick_same {d d' : Dict} (h : ∀ k, d.get? k = d'.get? k) (ks : List String) : Self.pick d ks = Self.pick d' ks := by
  unfold Self.pick
  simp only [h]

theorem par_same {b : Backend} {r : Record} {d : Dict} (h : Dict.Same r.params d) (p : PName) :
    r.param b p = Record.param b { r with params := d } p := by
  have hm : ∀ l : List String, (l.filter fun k => decide (k ∉ r.params.keys)) = l.filter fun k => decide (k ∉ d.keys) := by
    intro l
    refine List.filter_congr fun k _ => ?_
    rw [decide_eq_decide, h.mem]
  have hsy : Fresh.symbs r.fresh p = Fresh.symbs (Record.fresh { r with params := d }) p := rfl
  have hpf : Fresh.pfun b r.fresh p = Fresh.pfun b (Record.fresh { r with params := d }) p := rfl
  show Fresh.par b r.fresh p = Fresh.par b (Record.fresh { r with params := d }) p
  unfold Fresh.par
  rw [hpf, show r.fresh.params = r.params from rfl, show (Record.fresh { r with params := d }).params = d from rfl, ← hsy]
  simp only [pick_same h.get, hm]
  rfl

theorem Record.Same.acc {b : Backend} {r : Record} {d : Dict} (h : Dict.Same r.params d)
    (f f' : Py (Option FnLam)) :
    AccSame { Fresh.acc0 b r.fresh with fnevals := f } { Fresh.acc0 b (Record.fresh { r with params := d }) with fnevals := f' } where
  V := rfl
  SRF := rfl
  intQ := rfl
  sig0 := rfl
  dB := rfl
  I0 := rfl
  t0 := rfl
  tex := rfl
  p0 := rfl
  pex := rfl
  mu0 := rfl
  muEx := rfl
  par := funext fun p => par_same h p
  symbs := rfl
  srf := by
    show (do
      let a ← Fresh.ang r.fresh .t0
      let b' ← Fresh.tex r.fresh
      let c ← Fresh.ang r.fresh .p0
      let d' ← Fresh.pex r.fresh
      (liftPy (callKeys b r.SRF.phase a b' c d' r.params) : Py Arr)) = (do
      let a ← Fresh.ang r.fresh .t0
      let b' ← Fresh.tex r.fresh
      let c ← Fresh.ang r.fresh .p0
      let d' ← Fresh.pex r.fresh
      (liftPy (callKeys b r.SRF.phase a b' c d' d) : Py Arr))
    simp only [callKeys_same _ _ _ _ h]
  vol := by
    show (do
      let a ← Fresh.ang r.fresh .t0
      let b' ← Fresh.tex r.fresh
      let c ← Fresh.ang r.fresh .p0
      let d' ← Fresh.pex r.fresh
      (liftPy (callKeys b r.V.phase a b' c d' r.params) : Py Arr)) = (do
      let a ← Fresh.ang r.fresh .t0
      let b' ← Fresh.tex r.fresh
      let c ← Fresh.ang r.fresh .p0
      let d' ← Fresh.pex r.fresh
      (liftPy (callKeys b r.V.phase a b' c d' d) : Py Arr))
    simp only [callKeys_same _ _ _ _ h]
  missing := by
    show Except.ok (List.filter (fun k => decide (_ ∧ k ∉ r.params.keys)) _) = Except.ok (List.filter (fun k => decide (_ ∧ k ∉ d.keys)) _)
    refine congrArg Except.ok (List.filter_congr fun k _ => ?_)
    rw [decide_eq_decide, h.mem]

/-! ### the compiled coefficients -/

/-- The values of the coefficients for given angles. -/
def fnOuts (A : Acc Py) (a : List Arr) : Py (List Arr) := do
  let pd ← A.params
  let args ← Arr.broadcastArrays (a ++ pd.map Prod.snd)
  let f ← A.fnevals
  match f with
  | none => .error (.typeError [])
  | some f => A.fnCall f args

theorem fint_outs (A : Acc Py) (ang : Py (List Arr)) (mux mu : Py Arr) :
    A.fint ang mux mu = (do
      let a ← ang
      let outs ← fnOuts A a
      let fn ← (liftPy (Arr.broadcastArrays (outs.map Arr.atleast1d)) : Py (List Arr))
      let mx ← mux
      let mu ← mu
      let tau ← A.par .tau
      let nm ← A.nmax
      let s2 ← (liftPy (Acc.S2mu nm mu tau) : Py Arr)
      let multip ← (liftPy (Arr.mul mx s2) : Py Arr)
      let fnA ← (liftPy (Arr.stack fn) : Py Arr)
      let prod ← (liftPy (Arr.mul fnA multip) : Py Arr)
      (liftPy (Arr.sum0 prod) : Py Arr)) := by
  unfold Acc.fint fnOuts
  cases ang with
  | error e => rfl
  | ok a =>
    cases A.params with
    | error e => rfl
    | ok pd =>
      simp only [okb]
      cases Arr.broadcastArrays (a ++ pd.map Prod.snd) with
      | error e => rfl
      | ok args =>
        cases A.fnevals with
        | error e => rfl
        | ok f =>
          cases f with
          | none => rfl
          | some f => rfl

theorem args_same {a : List Arr} {d d' : Dict} (h : Dict.Same d d') :
    Arr.bshapes ((a ++ d.map Prod.snd).map Arr.shape) = Arr.bshapes ((a ++ d'.map Prod.snd).map Arr.shape) :=
  Arr.bshapes_perm (((h.perm.map _).append_left _).map _)

theorem Dict.Same.map {d d' : Dict} (h : Dict.Same d d') (g : Arr → Arr) :
    Dict.Same (d.map fun p => (p.1, g p.2)) (d'.map fun p => (p.1, g p.2)) := by
  refine Dict.Same.of_perm (h.perm.map _) ?_
  rw [Dict.keys_map_snd d g]
  exact h.left

theorem zip_vars (d : Dict) (g : Arr → Arr) :
    (Dict.keys d).zip ((d.map Prod.snd).map g) = d.map fun p => (p.1, g p.2) := by
  induction d with
  | nil => rfl
  | cons p d ih => exact congrArg ((p.1, g p.2) :: ·) ih

theorem fnCall_same {b : Backend} {d d' : Dict} (h : Dict.Same d d') {ns ns' : List String} (hp : ns <+: d.keys)
    (hp' : ns' <+: d'.keys) (hn : ns.Perm ns') (a1 a2 a3 a4 : Arr) (s : List ℕ) (free : List String) (fs : List P) :
    FnLam.call b ⟨["theta_0", "phi_0", "theta_ex", "phi_ex"] ++ ns, free, fs⟩
        (([a1, a2, a3, a4] ++ d.map Prod.snd).map (Arr.broadcastTo s)) =
      FnLam.call b ⟨["theta_0", "phi_0", "theta_ex", "phi_ex"] ++ ns', free, fs⟩
        (([a1, a2, a3, a4] ++ d'.map Prod.snd).map (Arr.broadcastTo s)) := by
  have hl := hn.length_eq
  have hlk := h.keys.length_eq
  have hmem : ∀ t, t ∈ ["theta_0", "phi_0", "theta_ex", "phi_ex"] ++ ns ↔ t ∈ ["theta_0", "phi_0", "theta_ex", "phi_ex"] ++ ns' := by
    intro t
    rw [List.mem_append, List.mem_append, hn.mem_iff]
  have k1 : d.keys.length = d.length := List.length_map _
  have k2 : d'.keys.length = d'.length := List.length_map _
  have hfree : (∃ t ∈ free, t ∉ ["theta_0", "phi_0", "theta_ex", "phi_ex"] ++ ns) ↔
      ∃ t ∈ free, t ∉ ["theta_0", "phi_0", "theta_ex", "phi_ex"] ++ ns' := by
    refine exists_congr fun t => and_congr_right fun _ => ?_
    rw [hmem]
  have hsh : Arr.bshapes ((([a1, a2, a3, a4] ++ d.map Prod.snd).map (Arr.broadcastTo s)).map Arr.shape) =
      Arr.bshapes ((([a1, a2, a3, a4] ++ d'.map Prod.snd).map (Arr.broadcastTo s)).map Arr.shape) :=
    Arr.bshapes_perm ((((h.perm.map _).append_left _).map _).map _)
  unfold FnLam.call
  by_cases hc : ns.length = d.length
  · have c1 : ns = d.keys := hp.eq_of_length (by omega)
    have c2 : ns' = d'.keys := hp'.eq_of_length (by omega)
    subst c1 c2
    have l1 : ¬ (([a1, a2, a3, a4] ++ d.map Prod.snd).map (Arr.broadcastTo s)).length ≠
        (["theta_0", "phi_0", "theta_ex", "phi_ex"] ++ d.keys).length := by simp [k1]
    have l2 : ¬ (([a1, a2, a3, a4] ++ d'.map Prod.snd).map (Arr.broadcastTo s)).length ≠
        (["theta_0", "phi_0", "theta_ex", "phi_ex"] ++ d'.keys).length := by simp [k2]
    rw [if_neg l1, if_neg l2, hsh]
    simp only [hfree]
    have hz : ∀ d : Dict, (["theta_0", "phi_0", "theta_ex", "phi_ex"] ++ d.keys).zip
        (([a1, a2, a3, a4] ++ d.map Prod.snd).map (Arr.broadcastTo s)) =
        [("theta_0", Arr.broadcastTo s a1), ("phi_0", Arr.broadcastTo s a2), ("theta_ex", Arr.broadcastTo s a3),
          ("phi_ex", Arr.broadcastTo s a4)] ++ d.map fun p => (p.1, Arr.broadcastTo s p.2) := by
      intro d
      exact congrArg ([("theta_0", Arr.broadcastTo s a1), ("phi_0", Arr.broadcastTo s a2), ("theta_ex", Arr.broadcastTo s a3),
          ("phi_ex", Arr.broadcastTo s a4)] ++ ·) (zip_vars d _)
    have hv : ∀ (p : P) (idx : List ℕ), fnVal (["theta_0", "phi_0", "theta_ex", "phi_ex"] ++ d.keys) p
          (Lam.envAt ((["theta_0", "phi_0", "theta_ex", "phi_ex"] ++ d.keys).zip
            (([a1, a2, a3, a4] ++ d.map Prod.snd).map (Arr.broadcastTo s))) idx) =
        fnVal (["theta_0", "phi_0", "theta_ex", "phi_ex"] ++ d'.keys) p
          (Lam.envAt ((["theta_0", "phi_0", "theta_ex", "phi_ex"] ++ d'.keys).zip
            (([a1, a2, a3, a4] ++ d'.map Prod.snd).map (Arr.broadcastTo s))) idx) := by
      intro p idx
      rw [hz, hz, envAt_perm _ (h.map (Arr.broadcastTo s)) idx]
      unfold fnVal
      simp only [hmem]
    simp only [hv]
  · rw [if_pos, if_pos]
    · simp; omega
    · simp; omega

end

end RT1
