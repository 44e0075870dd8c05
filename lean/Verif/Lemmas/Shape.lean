import Verif.Lemmas.Observe
import Verif.Spec.Inputs

/-! Shapes: which arrays broadcast into a shape, and when evaluations succeed. -/

namespace RT1

noncomputable section
open Classical

namespace Arr

@[simp] theorem fits_nil (t : List ℕ) : Fits [] t := by cases t <;> trivial

theorem Fits.refl (s : List ℕ) : Fits s s := by
  induction s with
  | nil => trivial
  | cons a s ih => exact ⟨Or.inr rfl, ih⟩

theorem Fits.trans {s t u : List ℕ} (h : Fits s t) (h' : Fits t u) : Fits s u := by
  induction s generalizing t u with
  | nil => simp
  | cons a s ih =>
    cases t with
    | nil => exact h.elim
    | cons b t =>
      cases u with
      | nil => exact h'.elim
      | cons c u =>
        refine ⟨?_, ih h.2 h'.2⟩
        rcases h.1 with rfl | rfl
        · exact Or.inl rfl
        · exact h'.1

theorem Fits.length {s t : List ℕ} (h : Fits s t) : s.length ≤ t.length := by
  induction s generalizing t with
  | nil => simp
  | cons a s ih =>
    cases t with
    | nil => exact h.elim
    | cons b t => simpa using ih h.2

theorem Fits.antisymm {s t : List ℕ} (h : Fits s t) (h' : Fits t s) : s = t := by
  induction s generalizing t with
  | nil =>
    cases t with
    | nil => rfl
    | cons b t => exact h'.elim
  | cons a s ih =>
    cases t with
    | nil => exact h.elim
    | cons b t =>
      rw [ih h.2 h'.2]
      have := h.1
      have := h'.1
      congr 1
      omega

theorem bshape_fits {s t u : List ℕ} (h : bshape s t = some u) : Fits s u ∧ Fits t u := by
  induction s generalizing t u with
  | nil => simp only [bshape, Option.some.injEq] at h; subst h; exact ⟨by simp, Fits.refl _⟩
  | cons a s ih =>
    cases t with
    | nil => simp only [bshape, Option.some.injEq] at h; subst h; exact ⟨Fits.refl _, by simp⟩
    | cons b t =>
      simp only [bshape] at h
      cases hu : bshape s t with
      | none => simp [hu] at h
      | some u' =>
        simp only [hu] at h
        obtain ⟨h1, h2⟩ := ih hu
        split_ifs at h with c1 c2 c3 <;> simp only [Option.some.injEq] at h <;> subst h
        · exact ⟨⟨Or.inr rfl, h1⟩, Or.inr c1.symm, h2⟩
        · exact ⟨⟨Or.inl c2, h1⟩, Or.inr rfl, h2⟩
        · exact ⟨⟨Or.inr rfl, h1⟩, Or.inl c3, h2⟩

theorem bshape_of_fits {s t u : List ℕ} (h : Fits s u) (h' : Fits t u) :
    ∃ v, bshape s t = some v ∧ Fits v u := by
  induction s generalizing t u with
  | nil => exact ⟨t, by simp [bshape], h'⟩
  | cons a s ih =>
    cases t with
    | nil => exact ⟨a :: s, rfl, h⟩
    | cons b t =>
      cases u with
      | nil => exact h.elim
      | cons c u =>
        obtain ⟨v, hv, hf⟩ := ih h.2 h'.2
        simp only [bshape, hv]
        have h1 := h.1
        have h2 := h'.1
        by_cases c1 : a = b
        · simp only [c1, if_true]; exact ⟨_, rfl, h2, hf⟩
        · by_cases c2 : a = 1
          · rw [if_neg c1, if_pos c2]
            exact ⟨_, rfl, h2, hf⟩
          · have c3 : b = 1 := by omega
            rw [if_neg c1, if_neg c2, if_pos c3]
            exact ⟨_, rfl, h1, hf⟩

theorem bshape_eq_of_fits {s u : List ℕ} (h : Fits s u) : bshape s u = some u := by
  obtain ⟨v, hv, hf⟩ := bshape_of_fits h (Fits.refl u)
  rw [hv, Fits.antisymm hf (bshape_fits hv).2]

theorem bshapes_fits {l : List (List ℕ)} {u : List ℕ} (h : bshapes l = some u) {s : List ℕ}
    (hs : s ∈ l) : Fits s u := by
  induction l generalizing u with
  | nil => cases hs
  | cons t l ih =>
    unfold bshapes at h
    cases hl : bshapes l with
    | none => simp [hl] at h
    | some v =>
      simp only [hl] at h
      rcases List.mem_cons.mp hs with rfl | hs
      · exact (bshape_fits h).1
      · exact (ih hl hs).trans (bshape_fits h).2

theorem bshapes_of_fits {l : List (List ℕ)} {u : List ℕ} (h : ∀ s ∈ l, Fits s u) :
    ∃ v, bshapes l = some v ∧ Fits v u := by
  induction l with
  | nil => exact ⟨[], rfl, by simp⟩
  | cons t l ih =>
    obtain ⟨v, hv, hf⟩ := ih fun s hs => h s (List.mem_cons_of_mem _ hs)
    obtain ⟨v', hv', hf'⟩ := bshape_of_fits (h t (List.mem_cons_self ..)) hf
    exact ⟨v', by unfold bshapes; rw [hv]; exact hv', hf'⟩

end Arr

/-- The computation succeeds with a shape that fits into `S`. -/
def Succ (x : Py Arr) (S : List ℕ) : Prop := ∃ a, x = .ok a ∧ Arr.Fits a.shape S

namespace Succ
variable {x y : Py Arr} {S : List ℕ}

theorem of_ok {a : Arr} (h : Arr.Fits a.shape S) : Succ (.ok a) S := ⟨a, rfl, h⟩
theorem pure {a : Arr} (h : Arr.Fits a.shape S) : Succ (Pure.pure a) S := ⟨a, rfl, h⟩
theorem lit (r : ℝ) : Succ (litM r) S := of_ok (by simp [Arr.lit, Arr.num])

theorem bind {f : Arr → Py Arr} (hx : Succ x S) (h : ∀ a, Arr.Fits a.shape S → Succ (f a) S) :
    Succ (x >>= f) S := by
  obtain ⟨a, rfl, ha⟩ := hx
  exact h a ha

theorem map2 {f : XR → XR → XR} {a b : Arr} (ha : Arr.Fits a.shape S) (hb : Arr.Fits b.shape S) :
    Succ (Arr.map2 f a b) S := by
  obtain ⟨v, hv, hf⟩ := Arr.bshape_of_fits ha hb
  unfold Arr.map2
  rw [hv]
  exact of_ok hf

theorem lift {z : Py Arr} (h : Succ z S) : Succ (liftPy z) S := by
  obtain ⟨a, rfl, ha⟩ := h
  exact ⟨a, rfl, ha⟩

theorem mulM (hx : Succ x S) (hy : Succ y S) : Succ (RT1.mulM x y) S :=
  bind hx fun _ ha => bind hy fun _ hb => lift (map2 ha hb)
theorem divM (hx : Succ x S) (hy : Succ y S) : Succ (RT1.divM x y) S :=
  bind hx fun _ ha => bind hy fun _ hb => lift (map2 ha hb)
theorem addM (hx : Succ x S) (hy : Succ y S) : Succ (RT1.addM x y) S :=
  bind hx fun _ ha => bind hy fun _ hb => lift (map2 ha hb)
theorem subM (hx : Succ x S) (hy : Succ y S) : Succ (RT1.subM x y) S :=
  bind hx fun _ ha => bind hy fun _ hb => lift (map2 ha hb)
theorem mapM' {f : XR → XR} (hx : Succ x S) : Succ (RT1.mapM' f x) S :=
  bind hx fun _ ha => pure ha
theorem negM (hx : Succ x S) : Succ (RT1.negM x) S := mapM' hx
theorem expM (hx : Succ x S) : Succ (RT1.expM x) S := mapM' hx

end Succ

/-- All arguments fit: a compiled function can be called. -/
theorem Lam.call_succ' {b : Backend} {vars : List String} {e : Expr} {f : Lam} {pos : List Arr}
    {kw : Dict} {S : List ℕ} (hc : Lam.compile b vars e = .ok f)
    (hfree : ∀ s ∈ e.free, s ∈ vars) (hlen : pos.length ≤ vars.length)
    (hpos : ∀ a ∈ pos, Arr.Fits a.shape S) (hkw : ∀ k a, kw.get? k = some a → Arr.Fits a.shape S)
    (hkeys : b = .sympy → ∀ k ∈ kw.keys, k ∈ vars.drop pos.length)
    (hvars : ∀ k ∈ vars.drop pos.length, k ∈ kw.keys) : Succ (f.call b pos kw) S := by
  rw [Lam.compile_ok hc]
  unfold Lam.call
  have hm : ∀ ks : List String, (∀ k ∈ ks, k ∈ kw.keys) → ∃ vals, ks.mapM (fun k => kw.get? k) = some vals ∧
      vals.length = ks.length ∧ ∀ a ∈ vals, Arr.Fits a.shape S := by
    intro ks
    induction ks with
    | nil => intro _; exact ⟨[], rfl, rfl, by simp⟩
    | cons k ks ih =>
      intro h
      obtain ⟨vals, h1, h2, h3⟩ := ih fun k' hk' => h k' (List.mem_cons_of_mem _ hk')
      obtain ⟨v, hv⟩ := Dict.get?_of_mem (h k (List.mem_cons_self ..))
      refine ⟨v :: vals, ?_, by simp [h2], ?_⟩
      · rw [List.mapM_cons, hv, h1]; rfl
      · intro a ha
        rcases List.mem_cons.mp ha with rfl | ha
        · exact hkw k a hv
        · exact h3 a ha
  obtain ⟨vals, hv, hl, hf⟩ := hm _ hvars
  have hb : Lam.bindArgs b vars pos kw = .ok (vars.zip (pos ++ vals)) := by
    unfold Lam.bindArgs
    cases b with
    | sympy =>
      simp only
      rw [if_neg (by omega), if_neg, hv]
      rintro ⟨p, hp, hp'⟩
      exact hp' (hkeys rfl p.1 (List.mem_map.mpr ⟨p, hp, rfl⟩))
    | symengine =>
      simp only
      rw [hv]
      simp only
      rw [if_neg (by omega)]
  rw [hb]
  show Succ (Lam.evalBound b e (vars.zip (pos ++ vals))) S
  have hall : ∀ p ∈ vars.zip (pos ++ vals), Arr.Fits p.2.shape S := by
    rintro ⟨k, a⟩ hp
    have := (List.of_mem_zip hp).2
    rcases List.mem_append.mp this with h | h
    · exact hpos a h
    · exact hf a h
  have hnames : (vars.zip (pos ++ vals)).map Prod.fst = vars := by
    rw [List.map_fst_zip]
    rw [List.length_append, hl, List.length_drop]
    omega
  cases b with
  | sympy =>
    simp only [Lam.evalBound]
    rw [hnames, if_pos hfree]
    obtain ⟨v, hv, hfit⟩ := Arr.bshapes_of_fits (u := S)
      (l := ((vars.zip (pos ++ vals)).filter fun p => decide (p.1 ∈ e.free)).map fun p => p.2.shape) (by
        intro s hs
        obtain ⟨p, hp, rfl⟩ := List.mem_map.mp hs
        exact hall p (List.mem_filter.mp hp).1)
    rw [hv]
    exact Succ.of_ok hfit
  | symengine =>
    simp only [Lam.evalBound]
    obtain ⟨v, hv, hfit⟩ := Arr.bshapes_of_fits (u := S)
      (l := (vars.zip (pos ++ vals)).map fun p => p.2.shape) (by
        intro s hs
        obtain ⟨p, hp, rfl⟩ := List.mem_map.mp hs
        exact hall p hp)
    rw [hv]
    exact Succ.of_ok hfit

theorem Lam.call_succ {b : Backend} {vars : List String} {e : Expr} {f : Lam} {pos : List Arr}
    {kw : Dict} {S : List ℕ} (hc : Lam.compile b vars e = .ok f)
    (hfree : ∀ s ∈ e.free, s ∈ vars) (hlen : pos.length ≤ vars.length)
    (hpos : ∀ a ∈ pos, Arr.Fits a.shape S) (hkw : ∀ k a, kw.get? k = some a → Arr.Fits a.shape S)
    (hkeys : ∀ k ∈ kw.keys, k ∈ vars.drop pos.length)
    (hvars : ∀ k ∈ vars.drop pos.length, k ∈ kw.keys) : Succ (f.call b pos kw) S :=
  Lam.call_succ' hc hfree hlen hpos hkw (fun _ => hkeys) hvars

theorem Lam.compile_of_free {b : Backend} {vars : List String} {e : Expr}
    (h : ∀ s ∈ e.free, s ∈ vars) : Lam.compile b vars e = .ok ⟨vars, e⟩ := by
  cases b with
  | sympy => rfl
  | symengine => simp only [Lam.compile]; rw [if_pos h]

namespace Complete
variable {o : Obj} {S : List ℕ} (h : Complete o S)
include h

theorem s_t0 : Succ (Fresh.ang o .t0) S := by
  obtain ⟨a, ha, hf⟩ := h.t0
  unfold Fresh.ang; rw [ha]; exact Succ.of_ok hf
theorem s_p0 : Succ (Fresh.ang o .p0) S := by
  obtain ⟨a, ha, hf⟩ := h.p0
  unfold Fresh.ang; rw [ha]; exact Succ.of_ok hf
theorem s_tex : Succ (Fresh.tex o) S := by
  unfold Fresh.tex
  by_cases hm : o.mono = true
  · rw [if_pos hm]; exact h.s_t0
  · rw [if_neg hm]
    obtain ⟨a, ha, hf⟩ := h.tex.resolve_left hm
    unfold Fresh.ang; rw [ha]; exact Succ.of_ok hf
theorem s_pex : Succ (Fresh.pex o) S := by
  unfold Fresh.pex
  by_cases hm : o.mono = true
  · rw [if_pos hm]; exact Succ.bind h.s_p0 fun a ha => Succ.map2 ha (by simp [Arr.lit, Arr.num])
  · rw [if_neg hm]
    obtain ⟨a, ha, hf⟩ := h.pex.resolve_left hm
    unfold Fresh.ang; rw [ha]; exact Succ.of_ok hf
theorem s_mu0 : Succ (Fresh.mu0 o) S := Succ.bind h.s_t0 fun _ ha => Succ.of_ok ha
theorem s_muEx : Succ (Fresh.muEx o) S := Succ.bind h.s_tex fun _ ha => Succ.of_ok ha

omit h in
theorem pick_ok (pd : Dict) {ks : List String} (hks : ∀ k ∈ ks, k ∈ pd.keys) :
    ∃ kw, Self.pick pd ks = .ok kw ∧ kw.keys = ks := by
  unfold Self.pick
  suffices H : ∃ kw : Dict, ks.mapM (fun k => (pd.get? k).map fun v => (k, v)) = some kw ∧ kw.keys = ks by
    obtain ⟨kw, h1, h2⟩ := H
    exact ⟨kw, by rw [h1], h2⟩
  induction ks with
  | nil => exact ⟨[], rfl, rfl⟩
  | cons k ks ih =>
    obtain ⟨kw, h1, h2⟩ := ih fun k' hk' => hks k' (List.mem_cons_of_mem _ hk')
    obtain ⟨v, hv⟩ := Dict.get?_of_mem (hks k (List.mem_cons_self ..))
    refine ⟨(k, v) :: kw, ?_, by simp [Dict.keys] at h2 ⊢; exact h2⟩
    rw [List.mapM_cons, hv, h1]; rfl

theorem s_par (b : Backend) (p : PName) : Succ (Fresh.par b o p) S := by
  have hd := h.defs p
  unfold Fresh.par Fresh.pfun Fresh.symbs
  cases hp : o.pdef p with
  | val a => rw [hp] at hd; exact Succ.of_ok hd
  | str e =>
    rw [hp] at hd
    simp only at hd ⊢
    have hfree : ∀ s ∈ e.free, s ∈ e.free.dedup := fun s hs => by simpa using hs
    rw [Lam.compile_of_free hfree]
    obtain ⟨kw, hkw, hkeys⟩ := pick_ok o.params (ks := e.free.dedup) fun k hk => hd k (by simpa using hk)
    have hs : Succ (Lam.call b ⟨e.free.dedup, e⟩ [] kw) S := by
      refine Lam.call_succ (vars := e.free.dedup) (Lam.compile_of_free hfree) hfree (by simp) (by simp) ?_ ?_ ?_
      · intro k a hk
        have hmem : k ∈ e.free.dedup := by rw [← hkeys]; exact Lam.mem_of_get? hk
        rw [pick_get? hkw hmem] at hk
        exact h.params k a hk
      · intro k hk; rw [hkeys] at hk; simpa using hk
      · intro k hk; rw [hkeys]; simpa using hk
    obtain ⟨z, hz, hf⟩ := hs
    refine ⟨z, ?_, hf⟩
    show tryCatch (Self.pick o.params e.free.dedup >>= fun kw => Lam.call b ⟨e.free.dedup, e⟩ [] kw) _ = _
    rw [hkw]
    show tryCatch (Lam.call b ⟨e.free.dedup, e⟩ [] kw) _ = _
    rw [hz]
    rfl
  | basic e =>
    rw [hp] at hd
    simp only at hd ⊢
    have hfree : ∀ s ∈ e.free, s ∈ ([] : List String) := by rw [hd]; simp
    rw [Lam.compile_of_free hfree]
    have hs : Succ (Lam.call b ⟨[], e⟩ [] []) S := by
      refine Lam.call_succ (vars := []) (Lam.compile_of_free hfree) hfree (by simp) (by simp) ?_ ?_ ?_
      · intro k a hk; simp [Dict.get?] at hk
      · intro k hk; simp [Dict.keys] at hk
      · intro k hk; simp at hk
    obtain ⟨z, hz, hf⟩ := hs
    refine ⟨z, ?_, hf⟩
    show tryCatch (Lam.call b ⟨[], e⟩ [] []) _ = _
    rw [hz]
    rfl

theorem s_calcVal (b : Backend) {s : Scatter}
    (hs : ∀ n ∈ s.phase.free, n ∈ ["theta_0", "theta_ex", "phi_0", "phi_ex"] ++ o.params.keys)
    {a1 a2 a3 a4 : Arr} (h1 : Arr.Fits a1.shape S) (h2 : Arr.Fits a2.shape S)
    (h3 : Arr.Fits a3.shape S) (h4 : Arr.Fits a4.shape S) :
    Succ (s.calcVal b a1 a2 a3 a4 o.params) S := by
  unfold Scatter.calcVal
  rw [Lam.compile_of_free hs]
  refine Lam.call_succ (Lam.compile_of_free hs) hs (by simp) ?_ h.params ?_ ?_
  · intro a ha
    simp only [List.mem_cons, List.not_mem_nil, or_false] at ha
    rcases ha with rfl | rfl | rfl | rfl <;> assumption
  · intro k hk; simpa using hk
  · intro k hk; simpa using hk

theorem s_srf (b : Backend) (dv ds : String → Py Lam) : Succ (Fresh.acc b o dv ds).srfCalc S := by
  obtain ⟨a1, e1, f1⟩ := h.s_t0
  obtain ⟨a2, e2, f2⟩ := h.s_tex
  obtain ⟨a3, e3, f3⟩ := h.s_p0
  obtain ⟨a4, e4, f4⟩ := h.s_pex
  show Succ ((do
    let a ← Fresh.ang o .t0
    let b' ← Fresh.tex o
    let c ← Fresh.ang o .p0
    let d ← Fresh.pex o
    liftPy (o.SRF.calcVal b a b' c d o.params)) : Py Arr) S
  rw [e1, e2, e3, e4]
  exact Succ.lift (h.s_calcVal b h.SRF f1 f2 f3 f4)

theorem s_vol (b : Backend) (dv ds : String → Py Lam) : Succ (Fresh.acc b o dv ds).vCalc S := by
  obtain ⟨a1, e1, f1⟩ := h.s_t0
  obtain ⟨a2, e2, f2⟩ := h.s_tex
  obtain ⟨a3, e3, f3⟩ := h.s_p0
  obtain ⟨a4, e4, f4⟩ := h.s_pex
  show Succ ((do
    let a ← Fresh.ang o .t0
    let b' ← Fresh.tex o
    let c ← Fresh.ang o .p0
    let d ← Fresh.pex o
    liftPy (o.V.calcVal b a b' c d o.params)) : Py Arr) S
  rw [e1, e2, e3, e4]
  exact Succ.lift (h.s_calcVal b h.V f1 f2 f3 f4)

theorem s_atten (b : Backend) (dv ds : String → Py Lam) : Succ (Fresh.acc b o dv ds).atten S :=
  Succ.expM (Succ.subM (Succ.negM (Succ.divM (h.s_par b .tau) h.s_mu0))
    (Succ.divM (h.s_par b .tau) h.s_muEx))

theorem s_I0 (b : Backend) (dv ds : String → Py Lam) : Succ (Fresh.acc b o dv ds).I0 S := Succ.of_ok h.I0

theorem s_surface (b : Backend) (dv ds : String → Py Lam) : Succ (Fresh.acc b o dv ds).surface S := by
  unfold Acc.surface
  refine Succ.bind (Succ.mulM (Succ.mulM (h.s_I0 b dv ds) h.s_mu0) (h.s_srf b dv ds)) fun a1 h1 => ?_
  refine Succ.bind (Succ.mulM (h.s_atten b dv ds) (Succ.pure h1)) fun a2 h2 => ?_
  exact Succ.mulM (h.s_par b _) (Succ.addM (Succ.mulM (Succ.subM (Succ.lit 1) (h.s_par b _)) (Succ.pure h2))
    (Succ.mulM (h.s_par b _) (Succ.pure h1)))

theorem s_volume (b : Backend) (dv ds : String → Py Lam) : Succ (Fresh.acc b o dv ds).volume S := by
  unfold Acc.volume
  refine Succ.bind (Succ.mulM (Succ.mulM (Succ.divM (Succ.mulM (Succ.mulM (h.s_I0 b dv ds)
    (h.s_par b .omega)) h.s_mu0) (Succ.addM h.s_mu0 h.s_muEx)) (Succ.subM (Succ.lit 1)
    (h.s_atten b dv ds))) (h.s_vol b dv ds)) fun a1 h1 => ?_
  exact Succ.mulM (Succ.subM (Succ.lit 1) (h.s_par b _)) (Succ.pure h1)

theorem s_convert (b : Backend) (dv ds : String → Py Lam) {a : Arr} (ha : Arr.Fits a.shape S) :
    Succ ((Fresh.acc b o dv ds).convert a) S := by
  have key : ∀ n : Arr, Arr.Fits n.shape S → Succ (do
      let ret ← liftPy (a.mul n)
      if o.dB = true then RT1.mulM (litM 10) (Pure.pure (Arr.map XR.log10 ret)) else Pure.pure ret) S := by
    intro n hn
    refine Succ.bind (Succ.lift (Succ.map2 ha hn)) fun r hr => ?_
    by_cases h : o.dB = true
    · simp only [h, if_true]
      exact Succ.mulM (Succ.lit 10) (Succ.pure hr)
    · simp only [h]
      exact Succ.pure hr
  show Succ (if o.sig0 = true then RT1.divM (RT1.mulM (litM (4 * Real.pi)) (Fresh.mu0 o)) (.ok o.I0) >>= _
    else litM 1 >>= _) S
  by_cases hs : o.sig0 = true
  · simp only [hs, if_true]
    exact Succ.bind (Succ.divM (Succ.mulM (Succ.lit _) h.s_mu0) (Succ.of_ok h.I0)) key
  · simp only [hs]
    exact Succ.bind (Succ.lit 1) key

theorem freshSurface (b : Backend) : Succ (Fresh.surface b o) S :=
  Succ.bind (h.s_surface b _ _) fun _ ha => h.s_convert b _ _ ha
theorem freshVolume (b : Backend) : Succ (Fresh.volume b o) S :=
  Succ.bind (h.s_volume b _ _) fun _ ha => h.s_convert b _ _ ha

end Complete

end

end RT1
