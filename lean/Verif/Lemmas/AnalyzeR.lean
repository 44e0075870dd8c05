import Verif.Lemmas.AnalyzeW
import Verif.Lemmas.DemoAny

/-! The range overlay of the analyzer. -/

namespace RT1

noncomputable section
open Classical

/-! ### The shape of a parameter -/

theorem mapM_get_mem {kw : Dict} : ∀ {ks : List String} {vals : List Arr},
    ks.mapM (fun k => kw.get? k) = some vals → ∀ v ∈ vals, ∃ k ∈ ks, kw.get? k = some v
  | [], vals, h => by simp at h; subst h; simp
  | k :: ks, vals, h => by
    rw [List.mapM_cons] at h
    cases hk : kw.get? k with
    | none => rw [hk] at h; cases h
    | some x =>
      rw [hk] at h
      cases hm : ks.mapM (fun k => kw.get? k) with
      | none => rw [hm] at h; cases h
      | some vs =>
        rw [hm] at h
        cases h
        intro v hv
        rcases List.mem_cons.mp hv with rfl | hv
        · exact ⟨k, by simp, hk⟩
        · obtain ⟨k', h1, h2⟩ := mapM_get_mem hm v hv
          exact ⟨k', List.mem_cons_of_mem _ h1, h2⟩

theorem mapM_mem {kw : Dict} : ∀ {ks : List String} {vals : List Arr},
    ks.mapM (fun k => kw.get? k) = some vals → ∀ k ∈ ks, ∃ v ∈ vals, kw.get? k = some v
  | [], vals, h => by simp
  | k :: ks, vals, h => by
    rw [List.mapM_cons] at h
    cases hk : kw.get? k with
    | none => rw [hk] at h; cases h
    | some x =>
      rw [hk] at h
      cases hm : ks.mapM (fun k => kw.get? k) with
      | none => rw [hm] at h; cases h
      | some vs =>
        rw [hm] at h
        cases h
        intro k' hk'
        rcases List.mem_cons.mp hk' with rfl | hk'
        · exact ⟨x, by simp, hk⟩
        · obtain ⟨v, h1, h2⟩ := mapM_mem hm k' hk'
          exact ⟨v, List.mem_cons_of_mem _ h1, h2⟩

/-- The shape of a parameter that is defined by a formula: that of the values of its symbols,
broadcast. -/
theorem par_shape {b : Backend} {o : Obj} {p : PName} {e : Expr} (hp : o.pdef p = .str e) {t : Arr}
    (ht : Fresh.par b o p = .ok t) : ∃ vals, e.free.dedup.mapM (fun k => o.params.get? k) = some vals ∧
      Arr.bshapes (vals.map Arr.shape) = some t.shape := by
  unfold Fresh.par Fresh.pfun Fresh.symbs at ht
  rw [hp] at ht
  simp only at ht
  obtain ⟨f, hf, hz⟩ := ok_bind ht
  obtain ⟨l, hl, hf⟩ := ok_bind hf
  cases hf
  have hz' := tryCatch_ok (by
    intro e' h
    split_ifs at h) hz
  obtain ⟨kw, hkw, hcall⟩ := ok_bind hz'
  rw [Lam.compile_ok hl] at hcall
  obtain ⟨bnd, hb, hev⟩ := ok_bind hcall
  obtain ⟨vals, hv, rfl⟩ := Lam.bindArgs_ok hb
  have hv' : e.free.dedup.mapM (fun k => kw.get? k) = some vals := by simpa using hv
  have hlen : ∀ {ks : List String} {vs : List Arr}, ks.mapM (fun k => kw.get? k) = some vs → vs.length = ks.length := by
    intro ks
    induction ks with
    | nil => intro vs h; simp at h; subst h; rfl
    | cons k ks ih =>
      intro vs h
      rw [List.mapM_cons] at h
      cases hk : kw.get? k with
      | none => rw [hk] at h; cases h
      | some x =>
        rw [hk] at h
        cases hm : ks.mapM (fun k => kw.get? k) with
        | none => rw [hm] at h; cases h
        | some vs' => rw [hm] at h; cases h; simp [ih hm]
  have hcongr : ∀ ks : List String, (∀ k ∈ ks, k ∈ e.free.dedup) →
      ks.mapM (fun k => kw.get? k) = ks.mapM (fun k => o.params.get? k) := by
    intro ks
    induction ks with
    | nil => intro _; rfl
    | cons k ks ih =>
      intro h
      rw [List.mapM_cons, List.mapM_cons, pick_get? hkw (h k (by simp)), ih fun k' hk' => h k' (List.mem_cons_of_mem _ hk')]
  refine ⟨vals, by rw [← hcongr _ fun _ h => h]; exact hv', ?_⟩
  rw [List.nil_append] at hev
  have hzip : (e.free.dedup.zip vals).map (fun p => p.2.shape) = vals.map Arr.shape := by
    have : (e.free.dedup.zip vals).map Prod.snd = vals := List.map_snd_zip (by rw [hlen hv'])
    conv_rhs => rw [← this]
    rw [List.map_map]
    rfl
  cases b with
  | sympy =>
    simp only [Lam.evalBound] at hev
    have hfil : (e.free.dedup.zip vals).filter (fun p => decide (p.1 ∈ e.free)) = e.free.dedup.zip vals := by
      rw [List.filter_eq_self]
      intro p hp
      simpa using (List.of_mem_zip hp).1
    rw [hfil, hzip] at hev
    split_ifs at hev
    cases hs : Arr.bshapes (vals.map Arr.shape) with
    | none => rw [hs] at hev; cases hev
    | some sh => rw [hs] at hev; cases hev; rfl
  | symengine =>
    simp only [Lam.evalBound] at hev
    rw [hzip] at hev
    cases hs : Arr.bshapes (vals.map Arr.shape) with
    | none => rw [hs] at hev; cases hev
    | some sh => rw [hs] at hev; cases hev; rfl

theorem par_below {b : Backend} {o : Obj} {p : PName} {e : Expr} (hp : o.pdef p = .str e) {t : Arr}
    (ht : Fresh.par b o p = .ok t) {n : String} (hn : n ∈ e.free) {x : Arr} (hx : o.params.get? n = some x) :
    Arr.Fits x.shape t.shape := by
  obtain ⟨vals, h1, h2⟩ := par_shape hp ht
  obtain ⟨v, hv, hv'⟩ := mapM_mem h1 n (by simpa using hn)
  rw [hx] at hv'
  cases hv'
  exact Arr.bshapes_fits h2 (List.mem_map_of_mem hv)

theorem Fits.nil {s : List ℕ} (h : Arr.Fits s []) : s = [] := by
  cases s with
  | nil => rfl
  | cons a s => have := h.length; simp at this

/-- A parameter is a number exactly if all values of its symbols are. -/
theorem par_scalar {b : Backend} {o : Obj} {p : PName} {e : Expr} (hp : o.pdef p = .str e) {t : Arr}
    (ht : Fresh.par b o p = .ok t) :
    t.shape = [] ↔ ∀ n ∈ e.free, ∀ x, o.params.get? n = some x → x.shape = [] := by
  constructor
  · intro h n hn x hx
    have := par_below hp ht hn hx
    rw [h] at this
    exact Fits.nil this
  · intro h
    obtain ⟨vals, h1, h2⟩ := par_shape hp ht
    obtain ⟨v, hv, hf⟩ := Arr.bshapes_of_fits (l := vals.map Arr.shape) (u := []) (by
      intro s hs
      obtain ⟨x, hx, rfl⟩ := List.mem_map.mp hs
      obtain ⟨k, hk, hkx⟩ := mapM_get_mem h1 x hx
      rw [h k (by simpa using hk) x hkx]
      exact Arr.Fits.refl _)
    rw [h2] at hv
    cases hv
    exact Fits.nil hf

/-! ### Objects that differ in the values of parameters -/

/-- The object with other values of the same parameters. -/
def Obj.withValues (o : Obj) (d : Dict) : Obj := { o with params := d }

/-- The values agree at an index; the same values are numbers. -/
structure AgreeAt (d d' : Dict) (idx : List ℕ) : Prop where
  keys : ∀ n, n ∈ d.keys ↔ n ∈ d'.keys
  vals : d.valAt idx = d'.valAt idx
  scalar : ∀ n x x', d.get? n = some x → d'.get? n = some x' → (x.shape = [] ↔ x'.shape = [])

theorem AgreeAt.par {b : Backend} {o : Obj} {d' : Dict} {idx : List ℕ} (h : AgreeAt o.params d' idx)
    {p : PName} {t t' : Arr} (ht : Fresh.par b o p = .ok t) (ht' : Fresh.par b (o.withValues d') p = .ok t') :
    t.at' idx = t'.at' idx ∧ (t.shape = [] ↔ t'.shape = []) := by
  cases hp : o.pdef p with
  | str e =>
    have hp' : (o.withValues d').pdef p = .str e := hp
    constructor
    · rw [PW.parStr hp idx t ht, PW.parStr hp' idx t' ht', h.vals]; rfl
    · rw [par_scalar hp ht, par_scalar hp' ht']
      constructor
      · intro hh n hn x' hx'
        have hn' : n ∈ o.params.keys := (h.keys n).mpr (Lam.mem_of_get? hx')
        obtain ⟨x, hx⟩ := Dict.get?_of_mem hn'
        exact (h.scalar n x x' hx hx').mp (hh n hn x hx)
      · intro hh n hn x hx
        have hn' : n ∈ d'.keys := (h.keys n).mp (Lam.mem_of_get? hx)
        obtain ⟨x', hx'⟩ := Dict.get?_of_mem hn'
        exact (h.scalar n x x' hx hx').mpr (hh n hn x' hx')
  | val a =>
    have : t' = t := by
      unfold Fresh.par Fresh.pfun at ht ht'
      rw [hp] at ht
      rw [show (o.withValues d').pdef p = .val a from hp] at ht'
      cases ht; cases ht'; rfl
    rw [this]; exact ⟨rfl, Iff.rfl⟩
  | basic e =>
    have : Fresh.par b (o.withValues d') p = Fresh.par b o p := by
      unfold Fresh.par Fresh.pfun Fresh.symbs
      rw [show (o.withValues d').pdef p = .basic e from hp, hp]
      rfl
    rw [this, ht] at ht'
    cases ht'
    exact ⟨rfl, Iff.rfl⟩

theorem Arr.Fits.bidx_bidx : ∀ {s t : List ℕ}, Arr.Fits s t → ∀ {idx : List ℕ},
    Arr.bidx s (Arr.bidx t idx) = Arr.bidx s idx
  | [], _, _, _ => rfl
  | a :: s, [], h, _ => absurd h.length (by simp)
  | a :: s, c :: t, _, [] => rfl
  | a :: s, c :: t, h, i :: idx => by
    have ih := Arr.Fits.bidx_bidx (s := s) (t := t) h.2 (idx := idx)
    show _ :: _ = _ :: _
    rw [ih]
    congr 1
    rcases h.1 with h | h
    · simp [h]
    · subst h; split_ifs <;> rfl

theorem surface_pars {b : Backend} {o : Obj} {dv ds : String → Py Lam} {z : Arr}
    (h : (Fresh.acc b o dv ds).surface = .ok z) :
    (∃ t, Fresh.par b o .NormBRDF = .ok t) ∧ ∃ t, Fresh.par b o .bsf = .ok t := by
  obtain ⟨_, _, h1⟩ := ok_bind h
  obtain ⟨_, _, h2⟩ := ok_bind h1
  obtain ⟨N, h3, h4⟩ := ok_bind h2
  obtain ⟨_, h5, _⟩ := ok_bind h4
  obtain ⟨_, _, h6⟩ := ok_bind h5
  obtain ⟨_, h7, _⟩ := ok_bind h6
  obtain ⟨β, h8, _⟩ := ok_bind h7
  exact ⟨⟨N, h3⟩, β, h8⟩

theorem volume_omega {b : Backend} {o : Obj} {dv ds : String → Py Lam} {z : Arr}
    (h : (Fresh.acc b o dv ds).volume = .ok z) : ∃ t, Fresh.par b o .omega = .ok t := by
  obtain ⟨_, h1, _⟩ := ok_bind h
  obtain ⟨_, h2, _⟩ := ok_bind h1
  obtain ⟨_, h3, _⟩ := ok_bind h2
  obtain ⟨_, h4, _⟩ := ok_bind h3
  obtain ⟨_, h5, _⟩ := ok_bind h4
  obtain ⟨_, _, h6⟩ := ok_bind h5
  obtain ⟨m, h7, _⟩ := ok_bind h6
  exact ⟨m, h7⟩

theorem valAt_okR {x : Py Arr} {a : Arr} (h : x = .ok a) (idx : List ℕ) : valAt x idx = a.at' idx := by
  rw [h]; rfl

/-- Rows of `calc` at an index where the values agree. -/
theorem AgreeAt.rowParts {b : Backend} {o : Obj} {d' : Dict} {idx : List ℕ} (h : AgreeAt o.params d' idx)
    {z z' Is Iv Ii Is' Iv' Ii' : Arr} (P : Parts b o Is Iv Ii z) (P' : Parts b (o.withValues d') Is' Iv' Ii' z')
    {S S' : List ℕ} {n n' : ℕ} (hs : z.shape = S ++ [n]) (hs' : z'.shape = S' ++ [n'])
    (hv : Arr.Valid S idx) (hv' : Arr.Valid S' (Arr.bidx S' idx)) {k : ℕ} (hk : k < nrows o.intQ)
    (hI : o.intQ = true → k = 0 ∨ k = 3 → Ii.get idx = Ii'.get (Arr.bidx S' idx)) :
    z.get (idx ++ [k]) = z'.get (Arr.bidx S' idx ++ [k]) := by
  obtain ⟨r1, r2, -, r3⟩ := P.rows
  obtain ⟨r1', r2', -, r3'⟩ := P'.rows
  have e1 : S = Is.shape := by
    rw [hs] at r1; exact (List.append_inj' r1 rfl).1
  have e1' : S' = Is'.shape := by
    rw [hs'] at r1'; exact (List.append_inj' r1' rfl).1
  subst e1
  rw [r3 k hk idx hv, e1', r3' k hk _ (by rw [← e1']; exact hv')]
  rw [e1'] at hv' hI
  have henv : (XSite.of b o idx).env = (XSite.of b (o.withValues d') idx).env := by
    unfold XSite.env
    show angEnv _ _ _ _ (o.params.valAt idx) = angEnv _ _ _ _ (d'.valAt idx)
    rw [h.vals]
    rfl
  obtain ⟨t, ht, hT⟩ := P.tau
  obtain ⟨t', ht', hT'⟩ := P'.tau
  have hpar : ∀ {p : PName} {a a' : Arr}, Fresh.par b o p = .ok a → Fresh.par b (o.withValues d') p = .ok a' →
      (XSite.of b o idx).par p = (XSite.of b (o.withValues d') idx).par p := by
    intro p a a' h1 h2
    show valAt _ idx = valAt _ idx
    rw [valAt_okR h1, valAt_okR h2, (h.par h1 h2).1]
  obtain ⟨⟨N, hN⟩, β, hβ⟩ := surface_pars P.surf
  obtain ⟨⟨N', hN'⟩, β', hβ'⟩ := surface_pars P'.surf
  have pτ := hpar ht ht'
  have pN := hpar hN hN'
  have pβ := hpar hβ hβ'
  have hat : (XSite.of b o idx).atten = (XSite.of b (o.withValues d') idx).atten := by
    unfold XSite.atten; rw [pτ]; rfl
  have hS : Is.at' idx = Is'.at' idx := by
    rw [PW.surface (PW.srfCalc fun _ _ => rfl) Is P.surf,
      PW.surface (PW.srfCalc (o := o.withValues d') fun _ _ => rfl) Is' P'.surf]
    unfold XSite.surface
    rw [pN, pβ, hat, henv]
    rfl
  have hV : Iv.at' idx = Iv'.at' idx := by
    have hsc := (h.par ht ht').2
    have hval := (h.par ht ht').1
    by_cases hc : t.shape = [] ∧ ¬ (t.get []).isPos = true
    · have hc' : t'.shape = [] ∧ ¬ (t'.get []).isPos = true := by
        refine ⟨hsc.mp hc.1, ?_⟩
        have : ∀ a : Arr, a.shape = [] → a.at' idx = a.get [] := by
          intro a ha; unfold Arr.at'; rw [ha]; rfl
        rw [this t hc.1, this t' (hsc.mp hc.1)] at hval
        rw [← hval]; exact hc.2
      rw [if_pos hc] at hT
      rw [if_pos hc'] at hT'
      rw [hT.1, hT'.1]
      rfl
    · have hc' : ¬ (t'.shape = [] ∧ ¬ (t'.get []).isPos = true) := by
        rintro ⟨h1, h2⟩
        refine hc ⟨hsc.mpr h1, ?_⟩
        have : ∀ a : Arr, a.shape = [] → a.at' idx = a.get [] := by
          intro a ha; unfold Arr.at'; rw [ha]; rfl
        rw [this t (hsc.mpr h1), this t' h1] at hval
        rw [hval]; exact h2
      rw [if_neg hc] at hT
      rw [if_neg hc'] at hT'
      obtain ⟨ω, hω⟩ := volume_omega hT.1
      obtain ⟨ω', hω'⟩ := volume_omega hT'.1
      have pω := hpar hω hω'
      rw [PW.volume (PW.vCalc fun _ _ => rfl) Iv hT.1,
        PW.volume (PW.vCalc (o := o.withValues d') fun _ _ => rfl) Iv' hT'.1]
      unfold XSite.volume
      rw [pω, pβ, hat, henv]
      rfl
  have g1 : Is.get idx = Is'.get (Arr.bidx Is'.shape idx) := by
    rw [← Arr.at'_valid hv, hS]; rfl
  have g2 : Iv.get idx = Iv'.get (Arr.bidx Is'.shape idx) := by
    rw [← Arr.at'_valid (by rw [r2]; exact hv), hV]
    unfold Arr.at'; rw [r2']
  have hrow : rowVal o.intQ (Is.get idx) (Iv.get idx) (Ii.get idx) k =
      rowVal o.intQ (Is'.get (Arr.bidx Is'.shape idx)) (Iv'.get (Arr.bidx Is'.shape idx))
        (Ii'.get (Arr.bidx Is'.shape idx)) k := by
    rw [g1, g2]
    by_cases hq : o.intQ = true
    · have hk : k < 4 := by rw [hq] at hk; exact hk
      interval_cases k
      · rw [hI hq (Or.inl rfl)]
      · rfl
      · rfl
      · rw [hI hq (Or.inr rfl)]
    · have hq : o.intQ = false := by simpa using hq
      rw [hq] at hk ⊢
      have hk : k < 3 := hk
      interval_cases k <;> rfl
  rw [hrow]
  show _ = (XSite.of b (o.withValues d') (Arr.bidx Is'.shape idx)).convert o.sig0 o.dB _
  obtain ⟨m, hm⟩ := surface_mu0_ok P'.surf
  have f1 := Below.surface_mu0 hm _ P'.surf
  have f2 := Below.surface_I0 _ P'.surf
  have a1 : (XSite.of b (o.withValues d') (Arr.bidx Is'.shape idx)).mu0 = (XSite.of b o idx).mu0 := by
    obtain ⟨t0, ht0, hm'⟩ := ok_bind hm
    cases hm'
    show XR.cos (valAt (Fresh.ang o .t0) (Arr.bidx Is'.shape idx)) = XR.cos (valAt (Fresh.ang o .t0) idx)
    have ht0 : Fresh.ang o .t0 = .ok t0 := ht0
    rw [valAt_okR ht0, valAt_okR ht0]
    unfold Arr.at'
    rw [Arr.Fits.bidx_bidx (show Arr.Fits t0.shape Is'.shape from f1)]
  have a2 : (XSite.of b (o.withValues d') (Arr.bidx Is'.shape idx)).I0 = (XSite.of b o idx).I0 := by
    show o.I0.at' _ = o.I0.at' _
    unfold Arr.at'
    rw [Arr.Fits.bidx_bidx (show Arr.Fits o.I0.shape Is'.shape from f2)]
  unfold XSite.convert
  rw [a1, a2]
  rfl

theorem AgreeAt.row {b : Backend} {o : Obj} {d' : Dict} {idx : List ℕ} (h : AgreeAt o.params d' idx)
    {z z' : Arr} (hz : Fresh.calcAll b o = .ok z) (hz' : Fresh.calcAll b (o.withValues d') = .ok z')
    {S S' : List ℕ} {n n' : ℕ} (hs : z.shape = S ++ [n]) (hs' : z'.shape = S' ++ [n'])
    (hv : Arr.Valid S idx) (hv' : Arr.Valid S' (Arr.bidx S' idx)) {k : ℕ} (hk : k < 3)
    (hk0 : k = 0 → o.intQ = false) :
    z.get (idx ++ [k]) = z'.get (Arr.bidx S' idx ++ [k]) := by
  obtain ⟨Is, Iv, Ii, P⟩ := calc_parts hz
  obtain ⟨Is', Iv', Ii', P'⟩ := calc_parts hz'
  refine h.rowParts P P' hs hs' hv hv' (by cases o.intQ <;> simp [nrows] <;> omega) fun hq h => ?_
  rcases h with h | h
  · rw [hk0 h] at hq; cases hq
  · omega

/-! ### The overlay -/

theorem lastValue_slider {l : List (String × Slider)} {n : String} (f g : String × Slider → Arr) {x : Arr}
    (h : lastValue (l.map fun p => (p.1, f p)) n = some x) :
    ∃ p ∈ l, p.1 = n ∧ x = f p ∧ lastValue (l.map fun p => (p.1, g p)) n = some (g p) := by
  induction l generalizing x with
  | nil => cases h
  | cons p l ih =>
    rw [List.map_cons, lastValue_cons] at h ⊢
    cases hl : lastValue (l.map fun p => (p.1, f p)) n with
    | some y =>
      rw [hl] at h
      cases h
      obtain ⟨q, h1, h2, h3, h4⟩ := ih hl
      exact ⟨q, List.mem_cons_of_mem _ h1, h2, h3, by rw [h4]; rfl⟩
    | none =>
      rw [hl] at h
      by_cases hp : p.1 = n
      · have hg : lastValue (l.map fun p => (p.1, g p)) n = none := by
          refine lastValue_none fun hm => ?_
          obtain ⟨v, hv⟩ := lastValue_isSome (kw := l.map fun p => (p.1, f p)) (k := n) (by
            simpa [Dict.keys, List.map_map, Function.comp_def] using hm)
          rw [hl] at hv; cases hv
        simp only [hp, if_true, Option.none_or] at h
        cases h
        exact ⟨p, by simp, hp, rfl, by rw [hg]; simp [hp]⟩
      · simp [hp] at h

theorem Drawn.upd {P : Op → Prop} {id : ℕ} {w' : World} {A' : Analyzer} (h : Drawn P id w' A') :
    ∃ w A o o' res contribs sv, Reachable w ∧ Updated id A A' w w' o o' res contribs sv := by
  cases h with
  | start hw h =>
    obtain ⟨w1, w2, sl, -, -, w3, -, -, r3, -, hu⟩ := analyze_ok hw h
    obtain ⟨o, o', res, contribs, sv, hU⟩ := update_ok r3 hu
    exact ⟨_, _, o, o', res, contribs, sv, r3, hU⟩
  | event e hs h =>
    obtain ⟨o, o', res, contribs, sv, hU⟩ := update_ok hs.reachable h
    exact ⟨_, _, o, o', res, contribs, sv, hs.reachable, hU⟩

/-- The values of the overlay at `[i, j]` are the `j`-th values. -/
theorem agree_overlay {d : Dict} {sl : List (String × Slider)} {k : String} {i j : ℕ} :
    AgreeAt (d.update ((rangeVals sl k).map fun p => (p.1, p.2.atleast1d)))
      ((d.update ((rangeVals sl k).map fun p => (p.1, p.2.atleast1d))).update
        ((overlayValues sl k j).map fun p => (p.1, p.2.atleast1d))) [i, j] := by
  set F : String × Slider → Arr := fun p => (⟨[1, 20], fun i => XR.fin
    (if p.1 = k then linspace p.2.lo p.2.hi 20 (i.getD 1 0) else p.2.val)⟩ : Arr).atleast1d with hF
  set G : String × Slider → Arr := fun p =>
    (Arr.lit (if p.1 = k then p.2.lo + (p.2.hi - p.2.lo) * j / 19 else p.2.val)).atleast1d with hG
  have e1 : (rangeVals sl k).map (fun p => (p.1, p.2.atleast1d)) = sl.map fun p => (p.1, F p) := by
    unfold rangeVals; rw [List.map_map]; rfl
  have e2 : (overlayValues sl k j).map (fun p => (p.1, p.2.atleast1d)) = sl.map fun p => (p.1, G p) := by
    unfold overlayValues; rw [List.map_map]; rfl
  rw [e1, e2]
  have hat : ∀ p, (F p).at' [i, j] = (G p).at' [i, j] := by
    intro p
    show XR.fin _ = XR.fin _
    congr 1
    show (if p.1 = k then linspace p.2.lo p.2.hi 20 j else p.2.val) = _
    unfold linspace
    split_ifs
    · push_cast; ring
    · rfl
  constructor
  · intro n
    rw [Dict.mem_keys_update (d.update _)]
    constructor
    · exact Or.inl
    · rintro (h | h)
      · exact h
      · rw [Dict.mem_keys_update]
        refine Or.inr ?_
        simpa [Dict.keys, List.map_map, Function.comp_def] using h
  · funext n
    unfold Dict.valAt
    rw [Dict.get?_update (d.update _)]
    cases hl : lastValue (sl.map fun p => (p.1, G p)) n with
    | none => rfl
    | some x =>
      obtain ⟨p, -, -, rfl, h4⟩ := lastValue_slider G F hl
      rw [Dict.get?_update, h4]
      exact hat p
  · intro n x x' hx hx'
    rw [Dict.get?_update (d.update _)] at hx'
    cases hl : lastValue (sl.map fun p => (p.1, G p)) n with
    | none =>
      rw [hl] at hx'
      have hx' : (d.update (sl.map fun p => (p.1, F p))).get? n = some x' := hx'
      rw [hx] at hx'; cases hx'; exact Iff.rfl
    | some y =>
      rw [hl] at hx'
      cases hx'
      obtain ⟨p, -, -, rfl, h4⟩ := lastValue_slider G F hl
      rw [Dict.get?_update, h4] at hx
      cases hx
      constructor <;> intro h <;> cases h

end

end RT1
