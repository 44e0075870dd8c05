import Verif.Lemmas.IntMath

/-! The interaction contribution can be evaluated whenever the numbers of axes fit. -/

namespace RT1

noncomputable section
open Classical

namespace Arr

theorem Fits.append_both {s u : List ℕ} {a c : ℕ} (h : Fits s u) (hl : s.length = u.length)
    (hac : a = 1 ∨ a = c) : Fits (s ++ [a]) (u ++ [c]) := by
  induction s generalizing u with
  | nil =>
    cases u with
    | nil => exact ⟨hac, by simp⟩
    | cons _ _ => simp at hl
  | cons x s ih =>
    cases u with
    | nil => simp at hl
    | cons y u => exact ⟨h.1, ih h.2 (by simpa using hl)⟩

theorem Fits.drop_last {s u : List ℕ} {c : ℕ} (h : Fits s (u ++ [c])) (hl : s.length = u.length + 1) :
    Fits s.dropLast u := by
  induction u generalizing s with
  | nil =>
    cases s with
    | nil => simp at hl
    | cons x s => cases s with
      | nil => trivial
      | cons _ _ => simp at hl
  | cons y u ih =>
    cases s with
    | nil => simp at hl
    | cons x s =>
      cases s with
      | nil => simp at hl
      | cons z s =>
        rw [List.dropLast_cons_cons]
        exact ⟨h.1, ih h.2 (by simpa using hl)⟩

theorem map2_fits_left {f : XR → XR → XR} {a b : Arr} {U : List ℕ} (ha : Fits a.shape U)
    (hb : b.shape = U) : ∃ z, map2 f a b = .ok z ∧ z.shape = U := by
  unfold map2
  rw [hb, bshape_eq_of_fits ha]
  exact ⟨_, rfl, rfl⟩

theorem map2_fits_right {f : XR → XR → XR} {a b : Arr} {U : List ℕ} (ha : a.shape = U)
    (hb : Fits b.shape U) : ∃ z, map2 f a b = .ok z ∧ z.shape = U := by
  unfold map2
  rw [ha, bshape_comm, bshape_eq_of_fits hb]
  exact ⟨_, rfl, rfl⟩

theorem stack_same {l : List Arr} {U : List ℕ} (hl : l ≠ []) (h : ∀ y ∈ l, y.shape = U) :
    ∃ z, stack l = .ok z ∧ z.shape = U ++ [l.length] := by
  cases l with
  | nil => exact absurd rfl hl
  | cons x l =>
    unfold stack
    have hx := h x (List.mem_cons_self ..)
    simp only
    rw [if_pos fun y hy => by rw [h y (List.mem_cons_of_mem _ hy), hx]]
    exact ⟨_, rfl, by rw [hx]⟩

end Arr

theorem mapM_succ {α β : Type} {P : β → Prop} {f : α → Py β} {l : List α}
    (h : ∀ a ∈ l, ∃ y, f a = .ok y ∧ P y) : ∃ l', l.mapM f = .ok l' ∧ l'.length = l.length ∧ ∀ y ∈ l', P y := by
  induction l with
  | nil => exact ⟨[], rfl, rfl, by simp⟩
  | cons a l ih =>
    obtain ⟨y, hy, hP⟩ := h a (List.mem_cons_self ..)
    obtain ⟨l', hl', hlen, hl''⟩ := ih fun b hb => h b (List.mem_cons_of_mem _ hb)
    refine ⟨y :: l', by rw [List.mapM_cons, hy, hl']; rfl, by simp [hlen], ?_⟩
    intro z hz
    rcases List.mem_cons.mp hz with rfl | hz
    · exact hP
    · exact hl'' z hz

section
variable {mu tau : Arr} {U : List ℕ}

theorem expTauMu_succ (hU : Arr.bshape mu.shape tau.shape = some U) :
    ∃ z, Acc.expTauMu mu tau = .ok z ∧ z.shape = U := by
  unfold Acc.expTauMu Arr.div Arr.map2
  rw [show Arr.bshape (Arr.neg tau).shape mu.shape = some U by rw [Arr.bshape_comm]; exact hU]
  exact ⟨_, rfl, rfl⟩

theorem hlp1_succ (hU : Arr.bshape mu.shape tau.shape = some U) :
    ∃ z, Acc.hlp1 mu tau = .ok z ∧ z.shape = U := by
  obtain ⟨fm, ft⟩ := Arr.bshape_fits hU
  obtain ⟨e, he, se⟩ := expTauMu_succ hU
  obtain ⟨om, hom, som⟩ := Arr.map2_fits_left (f := (· - ·)) (a := Arr.lit 1) (b := mu) (by simp [Arr.lit, Arr.num]) rfl
  obtain ⟨q, hq, sq⟩ := Arr.map2_fits_right (f := (· / ·)) (a := mu) (b := om) rfl (by rw [som]; exact Arr.Fits.refl _)
  obtain ⟨x, hx, sx⟩ := Arr.map2_fits_right (f := (· * ·)) (a := e) (b := Arr.log q) se
    (by show Arr.Fits q.shape U; rw [sq]; exact fm)
  obtain ⟨y, hy, sy⟩ := Arr.map2_fits_right (f := (· - ·)) (a := x) (b := Arr.map XR.expi (Arr.neg tau)) sx ft
  have htm : ∃ z, Arr.map2 (· / ·) tau mu = .ok z ∧ z.shape = U := by
    unfold Arr.map2
    rw [Arr.bshape_comm, hU]
    exact ⟨_, rfl, rfl⟩
  obtain ⟨tm, htm, stm⟩ := htm
  obtain ⟨d, hd, sd⟩ := Arr.map2_fits_right (f := (· - ·)) (a := tm) (b := tau) stm ft
  obtain ⟨z, hz, sz⟩ := Arr.map2_fits_right (f := (· * ·)) (a := e) (b := Arr.map XR.expi d) se
    (by show Arr.Fits d.shape U; rw [sd]; exact Arr.Fits.refl _)
  obtain ⟨w, hw, sw⟩ := Arr.map2_fits_right (f := (· + ·)) (a := y) (b := z) sy
    (by rw [sz]; exact Arr.Fits.refl _)
  refine ⟨w, ?_, sw⟩
  unfold Acc.hlp1
  have hom : Arr.sub (Arr.lit 1) mu = .ok om := hom
  have hq : Arr.div mu om = .ok q := hq
  have hx : Arr.mul e (Arr.log q) = .ok x := hx
  have hy : Arr.sub x (Arr.map XR.expi (Arr.neg tau)) = .ok y := hy
  have htm : Arr.div tau mu = .ok tm := htm
  have hd : Arr.sub tm tau = .ok d := hd
  have hz : Arr.mul e (Arr.map XR.expi d) = .ok z := hz
  simp only [he, hom, hq, hx, hy, htm, hd, hz, okb]
  exact hw

theorem innerfunc_succ (hU : Arr.bshape mu.shape tau.shape = some U) (k : ℕ) :
    ∃ z, Acc.innerfunc mu tau k = .ok z ∧ z.shape = U := by
  obtain ⟨fm, ft⟩ := Arr.bshape_fits hU
  obtain ⟨e, he, se⟩ := expTauMu_succ hU
  obtain ⟨q, hq, sq⟩ := Arr.map2_fits_right (f := (· / ·)) (a := e) (b := Arr.lit k) se (by simp [Arr.lit, Arr.num])
  obtain ⟨d, hd, sd⟩ := Arr.map2_fits_left (f := (· - ·)) (a := Arr.map (XR.expn (k + 1)) tau) (b := q) ft sq
  obtain ⟨z, hz, sz⟩ := Arr.map2_fits_left (f := (· * ·))
    (a := Arr.map (fun v => XR.fin 1 / XR.npow v k) mu) (b := d) fm sd
  refine ⟨z, ?_, sz⟩
  unfold Acc.innerfunc
  have hq : Arr.div e (Arr.lit k) = .ok q := hq
  have hd : Arr.sub (Arr.map (XR.expn (k + 1)) tau) q = .ok d := hd
  simp only [he, hq, hd, okb]
  exact hz

theorem innerSum_succ (hU : Arr.bshape mu.shape tau.shape = some U) (n : ℕ) :
    ∃ z, Acc.innerSum mu tau n = .ok z ∧ z.shape = U := by
  induction n with
  | zero =>
    obtain ⟨x, hx, sx⟩ := innerfunc_succ hU 1
    obtain ⟨z, hz, sz⟩ := Arr.map2_fits_left (f := (· + ·)) (a := Arr.lit 0) (b := x) (by simp [Arr.lit, Arr.num]) sx
    refine ⟨z, ?_, sz⟩
    unfold Acc.innerSum
    rw [hx]
    exact hz
  | succ n ih =>
    obtain ⟨s, hs, ss⟩ := ih
    obtain ⟨x, hx, sx⟩ := innerfunc_succ hU (n + 2)
    obtain ⟨z, hz, sz⟩ := Arr.map2_fits_left (f := (· + ·)) (a := s) (b := x)
      (by rw [ss]; exact Arr.Fits.refl _) sx
    refine ⟨z, ?_, sz⟩
    unfold Acc.innerSum
    rw [hs, hx]
    exact hz

theorem S2mu_succ (hU : Arr.bshape mu.shape tau.shape = some U) {N : ℕ} (hN : 1 ≤ N) :
    ∃ z, Acc.S2mu N mu tau = .ok z ∧ z.shape = U ++ [N] := by
  obtain ⟨h, hh, sh⟩ := hlp1_succ hU
  obtain ⟨l, hl, hlen, hall⟩ := mapM_succ (P := fun y : Arr => y.shape = U) (f := Acc.innerSum mu tau)
    (l := List.range N) fun n _ => innerSum_succ hU n
  rw [List.length_range] at hlen
  have hne : l ≠ [] := by rintro rfl; simp at hlen; omega
  obtain ⟨S2, hS, sS⟩ := Arr.stack_same hne hall
  obtain ⟨z, hz, sz⟩ := Arr.map2_fits_right (f := (· + ·)) (a := S2) (b := h) sS
    (by rw [sh]; exact Arr.Fits.append _ _)
  refine ⟨z, ?_, by rw [sz, hlen]⟩
  unfold Acc.S2mu
  simp only [hh, hl, hS, okb]
  exact hz

theorem muPowers_succ {N : ℕ} (hN : 1 ≤ N) (mu : Arr) :
    ∃ z, Acc.muPowers N mu = .ok z ∧ z.shape = mu.shape ++ [N] := by
  unfold Acc.muPowers
  have := Arr.stack_same (l := (List.range N).map fun n => Arr.map (XR.npow · (n + 1)) mu) (U := mu.shape)
    (by intro h; have := congrArg List.length h; simp at this; omega)
    (by intro y hy; obtain ⟨n, -, rfl⟩ := List.mem_map.mp hy; rfl)
  simpa using this
end

/-- F_int can be evaluated. -/
theorem fint_succ {b : Backend} {o : Obj} {dv ds : String → Py Lam} {ang : Py (List Arr)}
    {mux mu : Py Arr} {a1 a2 a3 a4 m tau : Arr} {N L r : ℕ} {lam : FnLam} {S : List ℕ}
    {c : ℕ → K} (hang : ang = .ok [a1, a2, a3, a4]) (hmu : mu = .ok m) (hN : Fresh.nmax o = .ok N)
    (hN1 : 1 ≤ N) (hmux : mux = Acc.muPowers N m) (htau : Fresh.par b o .tau = .ok tau)
    (hlam : Fresh.fnevals b o = .ok (some lam))
    (hvars : lam.vars = ["theta_0", "phi_0", "theta_ex", "phi_ex"] ++ o.params.keys)
    (hfree : ∀ s ∈ lam.free, s ∈ lam.vars)
    (hfns : lam.fns = (List.range L).map fun n => MvPolynomial.C (c n))
    (hL : L = 2 + (N - 2))
    (hr : RankOK b r L c m tau ([a1, a2, a3, a4] ++ o.params.map Prod.snd)) (hS : S.length = r)
    (hfit : ∀ a ∈ [a1, a2, a3, a4] ++ o.params.map Prod.snd, Arr.Fits a.shape S)
    (hfm : Arr.Fits m.shape S) (hft : Arr.Fits tau.shape S) :
    ∃ z, (Fresh.acc b o dv ds).fint ang mux mu = .ok z ∧ Arr.Fits z.shape S := by
  subst hang hmu
  -- arguments
  obtain ⟨sh, hsh, fsh⟩ := Arr.bshapes_of_fits (l := ([a1, a2, a3, a4] ++ o.params.map Prod.snd).map Arr.shape)
    (u := S) (by intro s hs; obtain ⟨a, ha, rfl⟩ := List.mem_map.mp hs; exact hfit a ha)
  set args := ([a1, a2, a3, a4] ++ o.params.map Prod.snd).map (Arr.broadcastTo sh) with hargs
  have h1 : Arr.broadcastArrays ([a1, a2, a3, a4] ++ o.params.map Prod.snd) = .ok args := by
    unfold Arr.broadcastArrays
    rw [hsh]
  have hshl : sh.length = r := Arr.bshapes_length hsh
    (by intro s hs; obtain ⟨a, ha, rfl⟩ := List.mem_map.mp hs; exact hr.args a ha)
    (by obtain ⟨a, ha, h⟩ := hr.some; exact ⟨_, List.mem_map_of_mem ha, h⟩)
  have hargsh : ∀ s ∈ args.map Arr.shape, s = sh := by
    intro s hs
    obtain ⟨a, ha, rfl⟩ := List.mem_map.mp hs
    obtain ⟨a', -, rfl⟩ := List.mem_map.mp ha
    rfl
  obtain ⟨sh2, hsh2, fsh2⟩ := Arr.bshapes_of_fits (l := args.map Arr.shape) (u := sh)
    (by intro s hs; rw [hargsh s hs]; exact Arr.Fits.refl _)
  -- coefficients
  have h2 : ∃ outs, lam.call b args = .ok outs := by
    unfold FnLam.call
    rw [if_neg (by rw [hvars]; simp [hargs, Dict.keys]), if_neg, if_neg, hsh2]
    · exact ⟨_, rfl⟩
    · rintro ⟨p, hp, hpv⟩
      rw [hfns] at hp
      obtain ⟨n, -, rfl⟩ := List.mem_map.mp hp
      exact hpv (MvPolynomial.vars_C)
    · rintro ⟨s, hs, hs'⟩
      exact hs' (hfree s hs)
  obtain ⟨outs, houts⟩ := h2
  obtain ⟨-, -, hol, sh3, hsh3, hval⟩ := FnLam.call_at hfns houts
  rw [hsh2] at hsh3
  cases hsh3
  have hsh2l : sh2.length = r := by
    refine Arr.bshapes_length hsh2 (fun s hs => by rw [hargsh s hs, hshl]) ⟨sh, ?_, hshl⟩
    have : (Arr.broadcastTo sh a1).shape ∈ args.map Arr.shape :=
      List.mem_map_of_mem (List.mem_map_of_mem (by simp))
    exact this
  have hoshape : ∀ y ∈ outs, y.shape = sh2 ∨ y.shape = [] := by
    intro y hy
    obtain ⟨k, hkl, rfl⟩ := List.getElem_of_mem hy
    obtain ⟨y', e1, e2, -⟩ := hval k (by omega)
    rw [List.getElem?_eq_getElem hkl, Option.some.injEq] at e1
    rw [e1]
    rcases e2 with e2 | e2
    · exact .inl e2
    · exact .inr e2.1
  have hat : ∀ y ∈ outs, y.atleast1d.shape = sh2 ∨ y.atleast1d.shape = [1] := by
    intro y hy
    unfold Arr.atleast1d
    cases hys : y.shape with
    | nil => exact .inr rfl
    | cons x t =>
      simp only
      rcases hoshape y hy with h | h
      · exact .inl h
      · rw [hys] at h; cases h
  have hsh2ne : Arr.Fits [1] sh2 := by
    cases hs : sh2 with
    | nil => rw [hs] at hsh2l; have := hr.pos; simp at hsh2l; omega
    | cons x t => exact ⟨.inl rfl, by simp⟩
  obtain ⟨F, hF, fF⟩ := Arr.bshapes_of_fits (l := (outs.map Arr.atleast1d).map Arr.shape) (u := sh2)
    (by
      intro s hs
      obtain ⟨y1, hy1, rfl⟩ := List.mem_map.mp hs
      obtain ⟨y, hy, rfl⟩ := List.mem_map.mp hy1
      rcases hat y hy with h | h
      · rw [h]; exact Arr.Fits.refl _
      · rw [h]; exact hsh2ne)
  have hFl : F.length = r := by
    refine Arr.bshapes_length hF ?_ ?_
    · intro s hs
      obtain ⟨y1, hy1, rfl⟩ := List.mem_map.mp hs
      obtain ⟨y, hy, rfl⟩ := List.mem_map.mp hy1
      rcases hat y hy with h | h
      · rw [h, hsh2l]
      · rw [h]; exact hr.pos
    · by_cases hc : b = .sympy ∧ ∀ n, n < L → ∀ ρ ρ', c n ρ = c n ρ'
      · have hr1 := hr.const hc.1 hc.2
        obtain ⟨y', e1, -⟩ := hval 0 (by omega)
        refine ⟨y'.atleast1d.shape,
          List.mem_map_of_mem (List.mem_map_of_mem (List.mem_of_getElem? e1)), ?_⟩
        rcases hat y' (List.mem_of_getElem? e1) with h | h
        · rw [h, hsh2l]
        · rw [h, hr1]; rfl
      · obtain ⟨k, hk, hkc⟩ : ∃ k, k < L ∧ (b = .symengine ∨ ¬ ∀ ρ ρ', c k ρ = c k ρ') := by
          by_cases hb : b = .sympy
          · have : ¬ ∀ n, n < L → ∀ ρ ρ', c n ρ = c n ρ' := fun h => hc ⟨hb, h⟩
            push Not at this
            obtain ⟨k, hk, ρ, ρ', hne⟩ := this
            exact ⟨k, hk, .inr fun h => hne (h ρ ρ')⟩
          · refine ⟨0, by omega, .inl ?_⟩
            cases b with
            | sympy => exact absurd rfl hb
            | symengine => rfl
        obtain ⟨y', e1, -, e2, -⟩ := hval k hk
        refine ⟨y'.atleast1d.shape,
          List.mem_map_of_mem (List.mem_map_of_mem (List.mem_of_getElem? e1)), ?_⟩
        have e3 := e2 hkc
        unfold Arr.atleast1d
        cases hys : y'.shape with
        | nil => rw [← e3, hys] at hsh2l; simp only [List.length_nil] at hsh2l; have := hr.pos; omega
        | cons x t => simp only; rw [e3, hsh2l]
  set fn := (outs.map Arr.atleast1d).map (Arr.broadcastTo F) with hfn
  have h3 : Arr.broadcastArrays (outs.map Arr.atleast1d) = .ok fn := by
    unfold Arr.broadcastArrays
    rw [hF]
  have hfnlen : fn.length = L := by simp [hfn, hol]
  have hfnne : fn ≠ [] := by
    intro h
    rw [h] at hfnlen; simp at hfnlen; omega
  obtain ⟨fnA, h4, sA⟩ := Arr.stack_same hfnne (U := F) (by
    intro y hy
    obtain ⟨y', -, rfl⟩ := List.mem_map.mp hy
    rfl)
  rw [hfnlen] at sA
  -- cosines
  obtain ⟨U, hU, fU⟩ := Arr.bshape_of_fits hfm hft
  have hUl : U.length = r := by rw [Arr.bshape_length hU, hr.mu]; exact max_eq_left hr.tau
  obtain ⟨s2, h5, ss2⟩ := S2mu_succ hU hN1
  obtain ⟨mx, h6, smx⟩ := muPowers_succ hN1 m
  obtain ⟨mul, h7, smul⟩ := Arr.map2_fits_left (f := (· * ·)) (a := mx) (b := s2) (U := U ++ [N])
    (by rw [smx]; exact (Arr.bshape_fits hU).1.append_both (by rw [hr.mu, hUl]) (.inr rfl)) ss2
  have hFS : Arr.Fits F S := (fF.trans fsh2).trans fsh
  have h8 : Succ (Arr.map2 (· * ·) fnA mul) (S ++ [L]) := by
    refine Succ.map2 ?_ ?_
    · rw [sA]; exact hFS.append_both (by rw [hFl, hS]) (.inr rfl)
    · rw [smul]; exact fU.append_both (by rw [hUl, hS]) (by omega)
  obtain ⟨prod, h8, fprod⟩ := h8
  have hpl : prod.shape.length = r + 1 := by
    have := Arr.map2_length h8
    rw [this, sA, smul]
    simp [hFl, hUl]
  have h9 : ∃ z, Arr.sum0 prod = .ok z ∧ z.shape = prod.shape.dropLast := by
    unfold Arr.sum0
    cases hp : prod.shape with
    | nil => rw [hp] at hpl; simp at hpl
    | cons x t => exact ⟨_, rfl, rfl⟩
  obtain ⟨z, h9, sz⟩ := h9
  refine ⟨z, ?_, by rw [sz]; exact fprod.drop_last (by rw [hpl, hS])⟩
  unfold Acc.fint
  show (do
    let args ← liftPy (Arr.broadcastArrays ([a1, a2, a3, a4] ++ o.params.map Prod.snd))
    _ : Py Arr) = _
  rw [h1]
  show (do
    let f ← Fresh.fnevals b o
    _ : Py Arr) = _
  rw [hlam]
  show (do
    let f ← liftPy (lam.call b args)
    _ : Py Arr) = _
  rw [houts]
  show (do
    let f ← liftPy (Arr.broadcastArrays (outs.map Arr.atleast1d))
    _ : Py Arr) = _
  rw [h3]
  show (do
    let f ← mux
    _ : Py Arr) = _
  rw [hmux, h6]
  show (do
    let f ← Fresh.par b o .tau
    _ : Py Arr) = _
  rw [htau]
  show (do
    let f ← (Fresh.acc b o dv ds).nmax
    _ : Py Arr) = _
  rw [acc_nmax, hN]
  show (do
    let f ← liftPy (Acc.S2mu N m tau)
    _ : Py Arr) = _
  rw [h5]
  show (do
    let f ← liftPy (Arr.map2 (· * ·) mx s2)
    _ : Py Arr) = _
  rw [h7]
  show (do
    let f ← liftPy (Arr.stack fn)
    _ : Py Arr) = _
  rw [h4]
  show (do
    let f ← liftPy (Arr.map2 (· * ·) fnA mul)
    _ : Py Arr) = _
  rw [h8]
  show (liftPy (Arr.sum0 prod) : Py Arr) = _
  rw [h9]
  rfl

/-- Everything needed for evaluating the interaction contribution. -/
structure CompleteI (b : Backend) (o : Obj) (S : List ℕ) : Prop where
  base : Complete o S
  aligned : Aligned b o S.length
  intQ : o.intQ = true
  objOK : ObjOK b o
  fnI : o.fnInput = none
  fneI : o.fnevalsInput = none
  fn : ∃ fs, fnCoefs o.V o.SRF o.geom = .ok fs
  V : ∃ n, o.V.ncoefs = .ok (n + 1)
  SRF : ∃ n, o.SRF.ncoefs = .ok (n + 1)
  params : ∀ a ∈ o.params.map Prod.snd, Arr.Fits a.shape S
  vars : ∀ l, o.fnevals_ = some l → l.vars = ["theta_0", "phi_0", "theta_ex", "phi_ex"] ++ o.params.keys

namespace CompleteI
variable {b : Backend} {o : Obj} {S : List ℕ} (h : CompleteI b o S)
include h

theorem free : ∀ s ∈ o.V.phase.free ++ o.SRF.phase.free,
    s ∈ ["theta_0", "phi_0", "theta_ex", "phi_ex"] ++ o.params.keys := by
  have key : ∀ s, s ∈ ["theta_0", "theta_ex", "phi_0", "phi_ex"] ++ o.params.keys →
      s ∈ ["theta_0", "phi_0", "theta_ex", "phi_ex"] ++ o.params.keys := by
    intro s hs
    simp only [List.mem_append, List.mem_cons, List.not_mem_nil, or_false] at hs ⊢
    tauto
  intro s hs
  rcases List.mem_append.mp hs with hs | hs
  · exact key s (h.base.V s hs)
  · exact key s (h.base.SRF s hs)

/-- The compiled coefficients. -/
theorem fnevals : ∃ fs, fnCoefs o.V o.SRF o.geom = .ok fs ∧ Fresh.fnevals b o =
    .ok (some ⟨["theta_0", "phi_0", "theta_ex", "phi_ex"] ++ o.params.keys,
      o.V.phase.free ++ o.SRF.phase.free, fs⟩) := by
  obtain ⟨fs, hfs⟩ := h.fn
  refine ⟨fs, hfs, ?_⟩
  unfold Fresh.fnevals
  cases h3 : o.fnevals_ with
  | some l =>
    obtain ⟨-, ks, f, hks, rfl, hf, -⟩ := h.objOK.fnevals l h3
    have hv := h.vars _ h3
    have hk : ks = o.params.keys := by simpa using hv
    rcases hf with hf | hf
    · rw [h.fnI] at hf; cases hf
    · have := hf.2
      rw [hfs] at this
      cases this
      rw [hk]
  | none =>
    simp only [h.fneI, if_pos h.intQ]
    have hfn : Fresh.fn o = .ok (some fs) := by
      unfold Fresh.fn
      cases h4 : o.fn_ with
      | some f =>
        have := (h.objOK.fn f h4).2
        rw [hfs] at this
        cases this
        rfl
      | none =>
        simp only [h.fnI, if_pos h.intQ]
        rw [hfs]
        rfl
    rw [hfn]
    simp only [okb]
    have hc : Fresh.fnCompile b o fs = .ok ⟨["theta_0", "phi_0", "theta_ex", "phi_ex"] ++ o.params.keys,
        o.V.phase.free ++ o.SRF.phase.free, fs⟩ := by
      unfold Fresh.fnCompile
      simp only
      rw [if_neg]
      · rfl
      · rintro ⟨-, s, hs, hs'⟩
        exact hs' (h.free s hs)
    rw [hc]
    rfl

theorem interaction (dv ds : String → Py Lam) : Succ (Fresh.acc b o dv ds).interaction S := by
  obtain ⟨a1, e1, f1⟩ := h.base.s_t0
  obtain ⟨a3, e3, f3⟩ := h.base.s_tex
  obtain ⟨a2, e2, f2⟩ := h.base.s_p0
  obtain ⟨a4, e4, f4⟩ := h.base.s_pex
  obtain ⟨tau, et, ft⟩ := h.base.s_par b .tau
  obtain ⟨nV, hV⟩ := h.V
  obtain ⟨nS, hS⟩ := h.SRF
  obtain ⟨fs, hfs, hlam⟩ := h.fnevals
  have hal := h.aligned
  obtain ⟨nS', nV', c, hS', hV', hfs', -⟩ := fnCoefs_spec hfs
  rw [hS] at hS'; cases hS'
  rw [hV] at hV'; cases hV'
  have hN : Fresh.nmax o = .ok (nV + 1 + (nS + 1) - 1) := by
    unfold Fresh.nmax
    rw [hS, hV]
    rfl
  have hL : nFn (nS + 1) (nV + 1) = 2 + (nV + 1 + (nS + 1) - 1 - 2) := by unfold nFn; omega
  have l1 : a1.shape.length = S.length := hal.t0 a1 (ang_ok e1)
  have l2 : a2.shape.length ≤ S.length := f2.length
  have l3 : a3.shape.length = S.length := by
    unfold Fresh.tex at e3
    by_cases hm : o.mono = true
    · rw [if_pos hm, e1] at e3; cases e3; exact l1
    · rw [if_neg hm] at e3
      exact hal.tex (by simpa using hm) a3 (ang_ok e3)
  have hpar : ∀ a ∈ o.params.map Prod.snd, Arr.Fits a.shape S := h.params
  have hcst : b = .sympy → (∀ n, n < nFn (nS + 1) (nV + 1) → ∀ ρ ρ', c n ρ = c n ρ') → S.length = 1 := by
    intro hb hcc
    rcases hal.const with hr | hr | ⟨fs', hfs2, p, hp, hpc⟩
    · exact hr
    · rw [hr] at hb; cases hb
    · rw [hfs] at hfs2
      cases hfs2
      rw [hfs'] at hp
      obtain ⟨n, hn, rfl⟩ := List.mem_map.mp hp
      exact absurd (fun ρ ρ' => by
        rw [show MvPolynomial.coeff 0 (MvPolynomial.C (c n) : P) = c n by simp]
        exact hcc n (List.mem_range.mp hn) ρ ρ') hpc
  have hm0 : Fresh.mu0 o = .ok (Arr.cos a1) := by unfold Fresh.mu0; rw [e1]; rfl
  have hme : Fresh.muEx o = .ok (Arr.cos a3) := by unfold Fresh.muEx; rw [e3]; rfl
  have F1 : ∃ z, (Fresh.acc b o dv ds).fint1 = .ok z ∧ Arr.Fits z.shape S := by
    have hfit : ∀ a ∈ [a1, a2, a3, a4] ++ o.params.map Prod.snd, Arr.Fits a.shape S := by
      intro a ha
      rcases List.mem_append.mp ha with ha | ha
      · simp only [List.mem_cons, List.not_mem_nil, or_false] at ha
        rcases ha with rfl | rfl | rfl | rfl <;> assumption
      · exact hpar a ha
    refine fint_succ (a1 := a1) (a2 := a2) (a3 := a3) (a4 := a4) (m := Arr.cos a1) (tau := tau)
      (c := c) ?_ hm0 hN (by omega) ?_ et hlam rfl h.free hfs' hL
      ⟨hal.pos, l1, ft.length, fun a ha => (hfit a ha).length, ⟨a1, by simp, l1⟩, hcst⟩ rfl hfit f1 ft
    · show (do
        let a ← Fresh.ang o .t0
        let b ← Fresh.ang o .p0
        let c ← Fresh.tex o
        let d ← Fresh.pex o
        pure [a, b, c, d] : Py (List Arr)) = _
      rw [e1, e2, e3, e4]; rfl
    · show Fresh.mu0x o = _
      unfold Fresh.mu0x
      rw [hN, hm0]; rfl
  have F2 : ∃ z, (Fresh.acc b o dv ds).fint2 = .ok z ∧ Arr.Fits z.shape S := by
    have hfit : ∀ a ∈ [a3, a4, a1, a2] ++ o.params.map Prod.snd, Arr.Fits a.shape S := by
      intro a ha
      rcases List.mem_append.mp ha with ha | ha
      · simp only [List.mem_cons, List.not_mem_nil, or_false] at ha
        rcases ha with rfl | rfl | rfl | rfl <;> assumption
      · exact hpar a ha
    refine fint_succ (a1 := a3) (a2 := a4) (a3 := a1) (a4 := a2) (m := Arr.cos a3) (tau := tau)
      (c := c) ?_ hme hN (by omega) ?_ et hlam rfl h.free hfs' hL
      ⟨hal.pos, l3, ft.length, fun a ha => (hfit a ha).length, ⟨a3, by simp, l3⟩, hcst⟩ rfl hfit f3 ft
    · show (do
        let a ← Fresh.tex o
        let b ← Fresh.pex o
        let c ← Fresh.ang o .t0
        let d ← Fresh.ang o .p0
        pure [a, b, c, d] : Py (List Arr)) = _
      rw [e1, e2, e3, e4]; rfl
    · show Fresh.muExx o = _
      unfold Fresh.muExx
      rw [hN, hme]; rfl
  obtain ⟨z1, hz1, g1⟩ := F1
  obtain ⟨z2, hz2, g2⟩ := F2
  unfold Acc.interaction
  rw [hz1]
  simp only [okb]
  rw [hz2]
  simp only [okb]
  have hb := h.base
  refine Succ.bind (Succ.mulM (Succ.mulM (Succ.mulM (hb.s_I0 b dv ds) hb.s_mu0) (hb.s_par b .omega))
    (Succ.addM (Succ.mulM (Succ.expM (Succ.divM (Succ.negM (hb.s_par b .tau)) hb.s_muEx)) (Succ.pure g1))
      (Succ.mulM (Succ.expM (Succ.divM (Succ.negM (hb.s_par b .tau)) hb.s_mu0)) (Succ.pure g2)))) fun I hI => ?_
  exact Succ.mulM (Succ.mulM (hb.s_par b _) (Succ.subM (Succ.lit 1) (hb.s_par b _))) (Succ.pure hI)

theorem freshInteraction : Succ (Fresh.interaction b o) S :=
  Succ.bind (h.interaction _ _) fun _ ha => h.base.s_convert b _ _ ha

end CompleteI

end

end RT1
