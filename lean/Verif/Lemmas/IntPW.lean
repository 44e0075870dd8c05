import Verif.Lemmas.IntArr
import Verif.Lemmas.FnL
import Verif.Lemmas.ExpIntL
import Verif.Lemmas.Observe

/-! Pointwise values of the interaction contribution. -/

namespace RT1

noncomputable section
open Classical

/-! ### values of the S2-functions -/

/-- `hlp1` for numbers. -/
def hlpX (mu tau : XR) : XR :=
  XR.exp (-tau / mu) * XR.log (mu / (XR.fin 1 - mu)) - XR.expi (-tau)
    + XR.exp (-tau / mu) * XR.expi (tau / mu - tau)

/-- `innerfunc(k)` for numbers. -/
def innerX (mu tau : XR) (k : ℕ) : XR :=
  XR.fin 1 / XR.npow mu k * (XR.expn (k + 1) tau - XR.exp (-tau / mu) / XR.fin k)

/-- The sum over `innerfunc` for numbers. -/
def innerSumX (mu tau : XR) : ℕ → XR
  | 0 => XR.fin 0 + innerX mu tau 1
  | n + 1 => innerSumX mu tau n + innerX mu tau (n + 2)

/-- One summand of F_int without its coefficient. -/
def s2X (mu tau : XR) (n : ℕ) : XR := XR.npow mu (n + 1) * (innerSumX mu tau n + hlpX mu tau)

section
variable {mu tau : Arr} {idx : List ℕ}

theorem PW.expTauMu : PW (Acc.expTauMu mu tau) idx (XR.exp (-(tau.at' idx) / mu.at' idx)) := by
  refine PW.bind_pw (PW.map2 rfl rfl) fun a h => PW.of_ok ?_
  show XR.exp (a.at' idx) = _
  rw [h]; rfl

theorem PW.hlp1 : PW (Acc.hlp1 mu tau) idx (hlpX (mu.at' idx) (tau.at' idx)) := by
  refine PW.bind_pw PW.expTauMu fun e he => PW.bind_pw (PW.map2 rfl rfl) fun om hom =>
    PW.bind_pw (PW.map2 rfl hom) fun q hq => PW.bind_pw (PW.map2 he (u := _) (v := XR.log _) ?_) fun x hx =>
    PW.bind_pw (PW.map2 hx rfl) fun y hy => PW.bind_pw (PW.map2 rfl rfl) fun tm htm =>
    PW.bind_pw (PW.map2 htm rfl) fun d hd => PW.bind_pw (PW.map2 he (v := XR.expi _) ?_) fun z hz =>
    PW.map2 hy hz
  · show XR.log (q.at' idx) = _
    rw [hq]; rfl
  · show XR.expi (d.at' idx) = _
    rw [hd]

theorem PW.innerfunc (k : ℕ) :
    PW (Acc.innerfunc mu tau k) idx (innerX (mu.at' idx) (tau.at' idx) k) :=
  PW.bind_pw PW.expTauMu fun _ he => PW.bind_pw (PW.map2 he rfl) fun _ hq =>
    PW.bind_pw (PW.map2 rfl hq) fun _ hd => PW.map2 rfl hd

theorem PW.innerSum (n : ℕ) :
    PW (Acc.innerSum mu tau n) idx (innerSumX (mu.at' idx) (tau.at' idx) n) := by
  induction n with
  | zero => exact PW.bind_pw (PW.innerfunc 1) fun _ h => PW.map2 rfl h
  | succ n ih => exact PW.bind_pw ih fun _ h1 => PW.bind_pw (PW.innerfunc _) fun _ h2 => PW.map2 h1 h2
end

/-- A successful result has this number of axes. -/
def Rk (x : Py Arr) (r : ℕ) : Prop := ∀ z, x = .ok z → z.shape.length = r

theorem Rk.bind {α : Type} {x : Py α} {f : α → Py Arr} {r : ℕ} (h : ∀ a, x = .ok a → Rk (f a) r) :
    Rk (x >>= f) r := by
  intro z hz
  obtain ⟨a, ha, h'⟩ := ok_bind hz
  exact h a ha z h'

theorem Rk.map2 {f : XR → XR → XR} {a b : Arr} {r : ℕ} (h : max a.shape.length b.shape.length = r) :
    Rk (Arr.map2 f a b) r := by
  intro z hz
  rw [Arr.bshape_length (Arr.shape_map2 hz), h]

theorem Rk.ok {a : Arr} {r : ℕ} (h : a.shape.length = r) : Rk (.ok a) r := by
  intro z hz; cases hz; exact h

section
variable {mu tau : Arr} {r : ℕ}

theorem Rk.expTauMu (hm : mu.shape.length = r) (ht : tau.shape.length ≤ r) :
    Rk (Acc.expTauMu mu tau) r := by
  refine Rk.bind fun a ha => Rk.ok ?_
  have : a.shape.length = r :=
    Rk.map2 (a := tau.neg) (show max tau.shape.length mu.shape.length = r by omega) a ha
  exact this

theorem Rk.hlp1 (hm : mu.shape.length = r) (ht : tau.shape.length ≤ r) :
    Rk (Acc.hlp1 mu tau) r := by
  refine Rk.bind fun e he => Rk.bind fun om hom => Rk.bind fun q hq => Rk.bind fun x hx =>
    Rk.bind fun y hy => Rk.bind fun tm htm => Rk.bind fun d hd => Rk.bind fun z hz => ?_
  have h1 := Rk.expTauMu hm ht e he
  have h2 := Rk.map2 rfl om hom
  have h3 := Rk.map2 rfl q hq
  have h4 := Rk.map2 rfl x hx
  have h5 := Rk.map2 rfl y hy
  have h6 := Rk.map2 rfl tm htm
  have h7 := Rk.map2 rfl d hd
  have h8 := Rk.map2 rfl z hz
  simp only [Arr.map, Arr.log, Arr.neg, Arr.lit, Arr.num, List.length_nil] at *
  refine Rk.map2 ?_
  omega

theorem Rk.innerfunc (hm : mu.shape.length = r) (ht : tau.shape.length ≤ r) (k : ℕ) :
    Rk (Acc.innerfunc mu tau k) r := by
  refine Rk.bind fun e he => Rk.bind fun q hq => Rk.bind fun d hd => ?_
  have h1 := Rk.expTauMu hm ht e he
  have h2 := Rk.map2 rfl q hq
  have h3 := Rk.map2 rfl d hd
  simp only [Arr.map, Arr.lit, Arr.num, List.length_nil] at *
  refine Rk.map2 ?_
  simp only
  omega

theorem Rk.innerSum (hm : mu.shape.length = r) (ht : tau.shape.length ≤ r) (n : ℕ) :
    Rk (Acc.innerSum mu tau n) r := by
  cases n with
  | zero =>
    refine Rk.bind fun a ha => Rk.map2 ?_
    have := Rk.innerfunc hm ht _ a ha
    simp only [Arr.lit, Arr.num, List.length_nil]
    omega
  | succ n =>
    refine Rk.bind fun s hs => Rk.bind fun a ha => Rk.map2 ?_
    have := Rk.innerfunc hm ht _ a ha
    have := Rk.innerSum hm ht n s hs
    omega

/-- The S2-functions: shape and values. -/
theorem S2mu_at {N : ℕ} {z : Arr} (hN : 1 ≤ N) (hm : mu.shape.length = r) (ht : tau.shape.length ≤ r)
    (h : Acc.S2mu N mu tau = .ok z) :
    (∃ s, s.length = r ∧ z.shape = s ++ [N]) ∧
    ∀ idx k, idx.length = r → (N = 1 ∨ k < N) →
      z.at' (idx ++ [k]) = innerSumX (mu.at' idx) (tau.at' idx) (if N = 1 then 0 else k)
        + hlpX (mu.at' idx) (tau.at' idx) := by
  obtain ⟨h1, hh, h⟩ := ok_bind h
  obtain ⟨l, hl, h⟩ := ok_bind h
  obtain ⟨S2, hS, h⟩ := ok_bind h
  obtain ⟨hlen, hget⟩ := mapM_range hl
  have hne : l ≠ [] := by
    rintro rfl
    simp at hlen; omega
  have hrk : ∀ y ∈ l, y.shape.length = r := by
    intro y hy
    obtain ⟨k, hk, rfl⟩ := List.getElem_of_mem hy
    obtain ⟨y', h2, h3⟩ := hget k (by omega)
    rw [List.getElem?_eq_getElem hk, Option.some.injEq] at h2
    rw [h2]
    exact Rk.innerSum hm ht k y' h3
  have hh1 := Rk.hlp1 hm ht h1 hh
  obtain ⟨s, hs1, hs2⟩ := Arr.stack_shape hS hne
  have hsl : s.length = r := by
    obtain ⟨y, hy⟩ := List.exists_mem_of_ne_nil l hne
    rw [← hs1 y hy]; exact hrk y hy
  constructor
  · have hb := Arr.shape_map2 h
    rw [hs2] at hb
    -- the trailing axis of the sum is the coefficient axis
    have key : ∀ (s t u : List ℕ) (n : ℕ), s.length = t.length → Arr.bshape (s ++ [n]) t = some u →
        ∃ v, v.length = s.length ∧ u = v ++ [n] := by
      intro s
      induction s with
      | nil =>
        intro t u n hl hb
        cases t with
        | nil => simp only [List.nil_append, Arr.bshape, Option.some.injEq] at hb; exact ⟨[], rfl, hb.symm⟩
        | cons _ _ => simp at hl
      | cons a s ih =>
        intro t u n hl hb
        cases t with
        | nil => simp at hl
        | cons b t =>
          simp only [List.cons_append, Arr.bshape] at hb
          cases hu : Arr.bshape (s ++ [n]) t with
          | none => simp [hu] at hb
          | some w =>
            obtain ⟨v, hv, rfl⟩ := ih t w n (by simpa using hl) hu
            simp only [hu] at hb
            split_ifs at hb <;> (cases hb; exact ⟨_ :: v, by simp [hv], rfl⟩)
    obtain ⟨v, hv, hz⟩ := key s h1.shape z.shape l.length (by omega) hb
    exact ⟨v, hv.trans hsl, by rw [hz, hlen]⟩
  · intro idx k hidx hk
    rw [Arr.at'_map2 h, Arr.at'_append (x := h1) (by omega), PW.hlp1 h1 hh]
    obtain ⟨y, hy, hy2⟩ := hget (if N = 1 then 0 else k) (by split_ifs <;> omega)
    rw [Arr.stack_at hS hrk hidx (y := y) (by rw [hlen]; exact hy), PW.innerSum _ y hy2]

theorem muPowers_at {N : ℕ} {z : Arr} (hN : 1 ≤ N) (hm : mu.shape.length = r)
    (h : Acc.muPowers N mu = .ok z) :
    z.shape = mu.shape ++ [N] ∧
    ∀ idx k, idx.length = r → (N = 1 ∨ k < N) →
      z.at' (idx ++ [k]) = XR.npow (mu.at' idx) ((if N = 1 then 0 else k) + 1) := by
  have hne : (List.range N).map (fun n => Arr.map (XR.npow · (n + 1)) mu) ≠ [] := by
    intro h
    have := congrArg List.length h
    simp at this; omega
  obtain ⟨s, hs1, hs2⟩ := Arr.stack_shape h hne
  have hs : s = mu.shape := by
    obtain ⟨y, hy⟩ := List.exists_mem_of_ne_nil _ hne
    rw [← hs1 y hy]
    obtain ⟨n, -, rfl⟩ := List.mem_map.mp hy
    rfl
  refine ⟨by rw [hs2, hs]; simp, fun idx k hidx hk => ?_⟩
  rw [Arr.stack_at h (r := r) ?_ hidx (y := Arr.map (XR.npow · ((if N = 1 then 0 else k) + 1)) mu) ?_]
  · rfl
  · intro y hy
    obtain ⟨n, -, rfl⟩ := List.mem_map.mp hy
    exact hm
  · simp only [List.length_map, List.length_range, List.getElem?_map]
    have hlt : (if N = 1 then 0 else k) < N := by split_ifs <;> omega
    rw [List.getElem?_range hlt]
    rfl
end

/-! ### the coefficients -/

theorem envAt_dict (pd : Dict) (f : Arr → Arr) (idx : List ℕ) (s : String)
    (hf : ∀ p ∈ pd, (f p.2).at' idx = p.2.at' idx) :
    Lam.envAt (pd.keys.zip ((pd.map Prod.snd).map f)) idx s = pd.valAt idx s := by
  induction pd with
  | nil => rfl
  | cons p pd ih =>
    obtain ⟨k, a⟩ := p
    have h1 : (f a).at' idx = a.at' idx := hf (k, a) (by simp)
    have h2 := ih fun p hp => hf p (List.mem_cons_of_mem _ hp)
    show Lam.envAt ((k, f a) :: _) idx s = _
    rw [Lam.envAt_cons, h1]
    have h3 : Dict.valAt ((k, a) :: pd) idx s = if k = s then a.at' idx else Dict.valAt pd idx s := by
      unfold Dict.valAt Dict.get?
      rw [List.find?_cons]
      by_cases h : k = s <;> simp [h]
    rw [h3]
    by_cases h : k = s
    · simp [h]
    · simp only [h, if_false]; exact h2

/-- The names and values the coefficients are evaluated with. -/
theorem fn_env {pd : Dict} {ks : List String} {a1 a2 a3 a4 : Arr} {args : List Arr}
    (hargs : Arr.broadcastArrays ([a1, a2, a3, a4] ++ pd.map Prod.snd) = .ok args)
    (hks : ks <+: pd.keys)
    (hlen : args.length = (["theta_0", "phi_0", "theta_ex", "phi_ex"] ++ ks).length) :
    ks = pd.keys ∧ ∀ idx s,
      Lam.envAt ((["theta_0", "phi_0", "theta_ex", "phi_ex"] ++ ks).zip args) idx s =
        angEnv (a1.at' idx) (a3.at' idx) (a2.at' idx) (a4.at' idx) (pd.valAt idx) s := by
  obtain ⟨sh, hsh, rfl⟩ := Arr.broadcastArrays_ok hargs
  have hk : ks = pd.keys := by
    refine hks.eq_of_length ?_
    simp [Dict.keys] at hlen ⊢
    omega
  subst hk
  refine ⟨rfl, fun idx s => ?_⟩
  have hb : ∀ a ∈ [a1, a2, a3, a4] ++ pd.map Prod.snd, (Arr.broadcastTo sh a).at' idx = a.at' idx :=
    fun a ha => Arr.broadcastTo_at hsh (List.mem_map_of_mem ha) idx
  have e1 := hb a1 (by simp)
  have e2 := hb a2 (by simp)
  have e3 := hb a3 (by simp)
  have e4 := hb a4 (by simp)
  have e5 := envAt_dict pd (Arr.broadcastTo sh) idx s fun p hp =>
    hb p.2 (List.mem_append_right _ (List.mem_map_of_mem hp))
  simp only [List.cons_append, List.nil_append, List.map_cons, List.zip_cons_cons, Lam.envAt_cons,
    e1, e2, e3, e4, e5, angEnv, @eq_comm _ _ s]
  by_cases h1 : s = "theta_0"
  · simp [h1]
  by_cases h2 : s = "phi_0"
  · simp [h2]
  by_cases h3 : s = "theta_ex"
  · simp [h3]
  simp [h1, h2, h3]

/-- Values of the coefficients. -/
theorem FnLam.call_at {b : Backend} {f : FnLam} {args outs : List Arr} {L : ℕ} {c : ℕ → K}
    (hfns : f.fns = (List.range L).map fun n => MvPolynomial.C (c n))
    (h : f.call b args = .ok outs) :
    args.length = f.vars.length ∧ (∀ s ∈ f.free, s ∈ f.vars) ∧ outs.length = L ∧
    ∃ sh, Arr.bshapes (args.map Arr.shape) = some sh ∧
    ∀ k, k < L → ∃ y, outs[k]? = some y ∧
      (y.shape = sh ∨ y.shape = [] ∧ b = .sympy ∧ ∀ ρ ρ', c k ρ = c k ρ') ∧
      ((b = .symengine ∨ ¬ ∀ ρ ρ', c k ρ = c k ρ') → y.shape = sh) ∧
      ∀ idx, (∀ s ∈ f.vars, (Lam.envAt (f.vars.zip args) idx s).isFin = true) →
        y.at' idx = XR.fin (c k fun s => (Lam.envAt (f.vars.zip args) idx s).toReal) := by
  unfold FnLam.call at h
  split_ifs at h with h1 h2 h3
  cases hs : Arr.bshapes (args.map Arr.shape) with
  | none => simp [hs] at h
  | some sh =>
    simp only [hs, Except.ok.injEq] at h
    refine ⟨not_not.mp h1, ?_, ?_, sh, rfl, ?_⟩
    · push Not at h2; exact h2
    · rw [← h, hfns]; simp
    · intro k hk
      have hco : ∀ n, MvPolynomial.coeff 0 (MvPolynomial.C (c n) : P) = c n := by simp
      have hic : isConstFn (MvPolynomial.C (c k)) ↔ ∀ ρ ρ', c k ρ = c k ρ' := by
        unfold isConstFn; rw [hco]
      have hg : outs[k]? = some (if b = .sympy ∧ isConstFn (MvPolynomial.C (c k)) then
          Arr.num (XR.fin (c k fun _ => 0))
        else ⟨sh, fun idx => fnVal f.vars (MvPolynomial.C (c k)) (Lam.envAt (f.vars.zip args) idx)⟩) := by
        rw [← h, hfns]
        simp only [List.map_map, List.getElem?_map, List.getElem?_range hk, Option.map_some,
          Function.comp_apply, hco]
      refine ⟨_, hg, ?_⟩
      by_cases hc : b = .sympy ∧ isConstFn (MvPolynomial.C (c k))
      · simp only [if_pos hc]
        refine ⟨.inr ⟨rfl, hc.1, hic.mp hc.2⟩, ?_, fun idx _ => ?_⟩
        · rintro (h | h)
          · rw [hc.1] at h; cases h
          · exact absurd (hic.mp hc.2) h
        · rw [Arr.at'_num]
          congr 1
          exact hic.mp hc.2 _ _
      · simp only [if_neg hc]
        refine ⟨.inl trivial, fun _ => trivial, fun idx hfin => ?_⟩
        have henv : ∀ s, Lam.envAt (f.vars.zip args) (Arr.bidx sh idx) s =
            Lam.envAt (f.vars.zip args) idx s := by
          intro s
          refine Lam.envAt_bidx fun p hp => ?_
          refine Arr.bidx_bshapes hs (List.mem_map_of_mem ?_) idx
          exact (List.of_mem_zip (List.mem_of_find?_eq_some hp)).2
        show fnVal f.vars _ (Lam.envAt (f.vars.zip args) (Arr.bidx sh idx)) = _
        rw [show Lam.envAt (f.vars.zip args) (Arr.bidx sh idx) = Lam.envAt (f.vars.zip args) idx from
          funext henv]
        unfold fnVal
        rw [if_pos hfin, hco]

theorem acc_nmax {b : Backend} {o : Obj} {dv ds : String → Py Lam} :
    (Fresh.acc b o dv ds).nmax = Fresh.nmax o := by
  unfold Acc.nmax Fresh.nmax
  show (liftPy o.V.ncoefs : Py ℕ) >>= _ = _
  rw [liftPy_py]
  cases o.V.ncoefs with
  | error e => rfl
  | ok n =>
    show (liftPy o.SRF.ncoefs : Py ℕ) >>= _ = o.SRF.ncoefs >>= _
    rw [liftPy_py]
    cases o.SRF.ncoefs <;> rfl

/-- The numbers of axes for which coefficients and cosines are combined element by element:
the zenith angle has `r` axes, everything else at most that many; coefficients that are plain
numbers have one axis. -/
structure RankOK (b : Backend) (r L : ℕ) (c : ℕ → K) (m tau : Arr) (l : List Arr) : Prop where
  pos : 1 ≤ r
  mu : m.shape.length = r
  tau : tau.shape.length ≤ r
  args : ∀ a ∈ l, a.shape.length ≤ r
  some : ∃ a ∈ l, a.shape.length = r
  const : b = .sympy → (∀ n, n < L → ∀ ρ ρ', c n ρ = c n ρ') → r = 1

/-- The value of F_int at an index. -/
theorem fint_at {b : Backend} {o : Obj} {dv ds : String → Py Lam} {ang : Py (List Arr)}
    {mux mu : Py Arr} {z a1 a2 a3 a4 m tau : Arr} {N L r : ℕ} {lam : FnLam} {ks : List String}
    {c : ℕ → K} (h : (Fresh.acc b o dv ds).fint ang mux mu = .ok z)
    (hang : ang = .ok [a1, a2, a3, a4]) (hmu : mu = .ok m) (hN : Fresh.nmax o = .ok N) (hN1 : 1 ≤ N)
    (hmux : mux = Acc.muPowers N m) (htau : Fresh.par b o .tau = .ok tau)
    (hlam : Fresh.fnevals b o = .ok (some lam))
    (hvars : lam.vars = ["theta_0", "phi_0", "theta_ex", "phi_ex"] ++ ks)
    (hks : ks <+: o.params.keys) (hfns : lam.fns = (List.range L).map fun n => MvPolynomial.C (c n))
    (hL : L = 2 + (N - 2))
    (hr : RankOK b r L c m tau ([a1, a2, a3, a4] ++ o.params.map Prod.snd))
    {idx : List ℕ} (hidx : r ≤ idx.length)
    (hfin : ∀ s ∈ ["theta_0", "phi_0", "theta_ex", "phi_ex"] ++ o.params.keys,
      (angEnv (a1.at' idx) (a3.at' idx) (a2.at' idx) (a4.at' idx) (o.params.valAt idx) s).isFin = true) :
    (∀ s ∈ lam.free, s ∈ ["theta_0", "phi_0", "theta_ex", "phi_ex"] ++ o.params.keys) ∧
    z.at' idx = Arr.sumX ((List.range L).map fun n =>
      XR.fin (c n fun s => (angEnv (a1.at' idx) (a3.at' idx) (a2.at' idx) (a4.at' idx)
        (o.params.valAt idx) s).toReal)
        * s2X (m.at' idx) (tau.at' idx) (if N = 1 then 0 else n)) := by
  subst hang hmu
  obtain ⟨a, ha, h⟩ := ok_bind h
  cases ha
  obtain ⟨pd, hpd, h⟩ := ok_bind h
  cases hpd
  obtain ⟨args, hargs, h⟩ := ok_bind h
  rw [liftPy_py] at hargs
  obtain ⟨f, hf, h⟩ := ok_bind h
  have hf' : Fresh.fnevals b o = .ok f := hf
  rw [hlam] at hf'
  cases hf'
  obtain ⟨outs, houts, h⟩ := ok_bind h
  replace houts : (liftPy (lam.call b args) : Py (List Arr)) = .ok outs := houts
  rw [liftPy_py] at houts
  obtain ⟨fn, hfn, h⟩ := ok_bind h
  rw [liftPy_py] at hfn
  obtain ⟨mx, hmx, h⟩ := ok_bind h
  rw [hmux] at hmx
  obtain ⟨m', hm', h⟩ := ok_bind h
  cases hm'
  obtain ⟨tau', htau', h⟩ := ok_bind h
  have ht' : Fresh.par b o .tau = .ok tau' := htau'
  rw [htau] at ht'
  cases ht'
  obtain ⟨N', hN', h⟩ := ok_bind h
  rw [acc_nmax, hN] at hN'
  cases hN'
  obtain ⟨s2, hs2, h⟩ := ok_bind h
  rw [liftPy_py] at hs2
  obtain ⟨mul, hmul, h⟩ := ok_bind h
  rw [liftPy_py] at hmul
  obtain ⟨fnA, hfnA, h⟩ := ok_bind h
  rw [liftPy_py] at hfnA
  obtain ⟨prod, hprod, h⟩ := ok_bind h
  rw [liftPy_py] at hprod h
  have hsum := h
  clear h
  -- coefficients
  obtain ⟨hlen, hfree, hol, sh, hsh, hval⟩ := FnLam.call_at hfns houts
  rw [hvars] at hlen
  obtain ⟨hkeys, henv⟩ := fn_env hargs hks hlen
  have henv' : ∀ idx s, Lam.envAt (lam.vars.zip args) idx s =
      angEnv (a1.at' idx) (a3.at' idx) (a2.at' idx) (a4.at' idx) (o.params.valAt idx) s := by
    rw [hvars]; exact henv
  refine ⟨fun s hs => by rw [← hkeys, ← hvars]; exact hfree s hs, ?_⟩
  -- shapes
  obtain ⟨sh', hsh', hargs'⟩ := Arr.broadcastArrays_ok hargs
  have hshl : sh.length = r := by
    have h1 : sh'.length = r := Arr.bshapes_length hsh'
      (by intro s hs; obtain ⟨a, ha, rfl⟩ := List.mem_map.mp hs; exact hr.args a ha)
      (by obtain ⟨a, ha, h⟩ := hr.some; exact ⟨_, List.mem_map_of_mem ha, h⟩)
    refine Arr.bshapes_length hsh ?_ ?_
    · intro s hs
      obtain ⟨a, ha, rfl⟩ := List.mem_map.mp hs
      rw [hargs'] at ha
      obtain ⟨a', -, rfl⟩ := List.mem_map.mp ha
      exact h1.le
    · refine ⟨sh', ?_, h1⟩
      rw [hargs']
      exact List.mem_map.mpr ⟨Arr.broadcastTo sh' a1, List.mem_map_of_mem (by simp), rfl⟩
  obtain ⟨F, hF, hfn'⟩ := Arr.broadcastArrays_ok hfn
  have hL2 : 2 ≤ L := by omega
  have hFl : F.length = r := by
    refine Arr.bshapes_length hF ?_ ?_
    · intro s hs
      obtain ⟨y1, hy1, rfl⟩ := List.mem_map.mp hs
      obtain ⟨y, hy, rfl⟩ := List.mem_map.mp hy1
      obtain ⟨k, hkl, rfl⟩ := List.getElem_of_mem hy
      obtain ⟨y', e1, e2, -⟩ := hval k (by omega)
      rw [List.getElem?_eq_getElem hkl, Option.some.injEq] at e1
      rw [e1]
      unfold Arr.atleast1d
      rcases e2 with e2 | e2
      · cases hys : y'.shape with
        | nil => exact hr.pos
        | cons x t => simp only; rw [e2]; exact hshl.le
      · rw [e2.1]; exact hr.pos
    · by_cases hc : b = .sympy ∧ ∀ n, n < L → ∀ ρ ρ', c n ρ = c n ρ'
      · have hr1 := hr.const hc.1 hc.2
        obtain ⟨y', e1, e2, -⟩ := hval 0 (by omega)
        refine ⟨(Arr.atleast1d y').shape,
          List.mem_map_of_mem (List.mem_map_of_mem (List.mem_of_getElem? e1)), ?_⟩
        unfold Arr.atleast1d
        rcases e2 with e2 | e2
        · cases hys : y'.shape with
          | nil => exact hr1.symm
          | cons x t => simp only; rw [e2]; exact hshl
        · rw [e2.1]; exact hr1.symm
      · obtain ⟨k, hk, hkc⟩ : ∃ k, k < L ∧ (b = .symengine ∨ ¬ ∀ ρ ρ', c k ρ = c k ρ') := by
          by_cases hb : b = .sympy
          · have : ¬ ∀ n, n < L → ∀ ρ ρ', c n ρ = c n ρ' := fun h => hc ⟨hb, h⟩
            push Not at this
            obtain ⟨k, hk, ρ, ρ', hne⟩ := this
            exact ⟨k, hk, .inr fun h => hne (h ρ ρ')⟩
          · refine ⟨0, by omega, .inl ?_⟩
            cases b with
            | sympy => exact absurd rfl hb
            | symengine => rfl
        obtain ⟨y', e1, -, e2, -⟩ := hval k hk
        refine ⟨(Arr.atleast1d y').shape,
          List.mem_map_of_mem (List.mem_map_of_mem (List.mem_of_getElem? e1)), ?_⟩
        have e3 := e2 hkc
        unfold Arr.atleast1d
        cases hys : y'.shape with
        | nil => rw [← e3, hys] at hshl; simp only [List.length_nil] at hshl; have := hr.pos; omega
        | cons x t => simp only; rw [e3]; exact hshl
  have hfnlen : fn.length = L := by rw [hfn']; simp [hol]
  have hfnne : fn ≠ [] := by
    rintro rfl
    simp at hfnlen; omega
  have hfnrk : ∀ y ∈ fn, y.shape.length = r := by
    intro y hy
    rw [hfn'] at hy
    obtain ⟨y', -, rfl⟩ := List.mem_map.mp hy
    exact hFl
  have hfnsh : fnA.shape = F ++ [L] := by
    obtain ⟨s, h1, h2⟩ := Arr.stack_shape hfnA hfnne
    rw [h2, hfnlen]
    obtain ⟨y, hy⟩ := List.exists_mem_of_ne_nil _ hfnne
    rw [← h1 y hy]
    rw [hfn'] at hy
    obtain ⟨y', -, rfl⟩ := List.mem_map.mp hy
    rfl
  obtain ⟨⟨S, hSl, hS⟩, hs2v⟩ := S2mu_at hN1 hr.mu hr.tau hs2
  obtain ⟨hmxs, hmxv⟩ := muPowers_at hN1 hr.mu hmx
  have hms := Arr.shape_map2 hmul
  rw [hmxs, hS] at hms
  obtain ⟨M, mm, hM, hms', hmm⟩ := Arr.bshape_append (by rw [hr.mu, hSl]) hms
  have hMl : M.length = r := by rw [Arr.bshape_length hM, hr.mu, hSl, max_self]
  have hmm' : mm = N := by omega
  subst hmm'
  have hps := Arr.shape_map2 hprod
  rw [hfnsh, hms'] at hps
  obtain ⟨U, uu, hU, hps', huu⟩ := Arr.bshape_append (by rw [hFl, hMl]) hps
  have hUl : U.length = r := by rw [Arr.bshape_length hU, hFl, hMl, max_self]
  have huu' : uu = L := by omega
  subst huu'
  -- value
  have hil : (idx.take r).length = r := by simp [hidx]
  obtain ⟨hzs, hzv⟩ := Arr.sum0_at hsum hps' (idx := idx.take r) (by rw [hil, hUl])
  rw [← Arr.at'_take (x := z) (idx := idx) (r := r) (by rw [hzs, hUl]), hzv]
  congr 1
  refine List.map_congr_left fun k hk => ?_
  rw [List.mem_range] at hk
  have hkN : mm = 1 ∨ k < mm := by omega
  rw [Arr.at'_map2 hprod, Arr.at'_map2 hmul, hmxv _ _ hil hkN, hs2v _ _ hil hkN,
    Arr.at'_take (by rw [hr.mu]), Arr.at'_take hr.tau]
  show _ * s2X _ _ _ = _
  congr 1
  obtain ⟨y, e1, -, -, e4⟩ := hval k hk
  have hmem : y.atleast1d.shape ∈ (outs.map Arr.atleast1d).map Arr.shape :=
    List.mem_map_of_mem (List.mem_map_of_mem (List.mem_of_getElem? e1))
  have hget : fn[if fn.length = 1 then 0 else k]? = some (Arr.broadcastTo F y.atleast1d) := by
    rw [if_neg (by omega), hfn', List.getElem?_map, List.getElem?_map, e1]
    rfl
  have hle : ∀ a ∈ [a1, a2, a3, a4] ++ o.params.map Prod.snd, a.at' (idx.take r) = a.at' idx :=
    fun a ha => Arr.at'_take (hr.args a ha)
  have hval' : o.params.valAt (idx.take r) = o.params.valAt idx := by
    funext s
    unfold Dict.valAt
    cases hg : o.params.get? s with
    | none => rfl
    | some a =>
      refine hle a (List.mem_append_right _ ?_)
      unfold Dict.get? at hg
      rw [Option.map_eq_some_iff] at hg
      obtain ⟨p, hp, rfl⟩ := hg
      exact List.mem_map_of_mem (List.mem_of_find?_eq_some hp)
  have henv2 : (fun s => Lam.envAt (lam.vars.zip args) (idx.take r) s) =
      angEnv (a1.at' idx) (a3.at' idx) (a2.at' idx) (a4.at' idx) (o.params.valAt idx) := by
    funext s
    rw [henv', hle a1 (by simp), hle a2 (by simp), hle a3 (by simp), hle a4 (by simp), hval']
  rw [Arr.stack_at hfnA hfnrk hil hget, Arr.broadcastTo_at hF hmem, Arr.at'_atleast1d, e4]
  · congr 1
    congr 1
    funext s
    rw [congrFun henv2 s]
  · intro s hs
    rw [congrFun henv2 s]
    refine hfin s ?_
    rw [← hkeys, ← hvars]; exact hs

end

end RT1
