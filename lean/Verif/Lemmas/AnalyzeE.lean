import Verif.Lemmas.AnalyzeQ

/-! Sequences of events. -/

namespace RT1

noncomputable section
open Classical

theorem update_params' {o : Obj} (hb : "bsf" ∈ o.params.keys) (kw : Dict) :
    (Fresh.update o kw).params = o.params.update (kw.map fun p => (p.1, p.2.atleast1d)) := by
  rw [Fresh.update_eq hb]

theorem keys_atleast (kw : Dict) : Dict.keys (kw.map fun p => (p.1, p.2.atleast1d)) = kw.keys :=
  Dict.keys_map_snd kw Arr.atleast1d

/-- Values of other shapes are replaced. -/
theorem Complete.update_update {o : Obj} {S : List ℕ} (hc : Complete o S) (hb : BsfOK o) {kw kw2 : Dict}
    (hk : kw2.keys = kw.keys) (hkw : ∀ p ∈ kw, Arr.Fits p.2.atleast1d.shape S) :
    Complete (Fresh.update (Fresh.update o kw2) kw) S := by
  have hb2 := hb.update kw2
  have hp : (Fresh.update (Fresh.update o kw2) kw).params =
      (o.params.update (kw2.map fun p => (p.1, p.2.atleast1d))).update (kw.map fun p => (p.1, p.2.atleast1d)) := by
    rw [update_params' hb2.1, update_params' hb.1]
  have hks : ∀ n, n ∈ o.params.keys → n ∈ (Fresh.update (Fresh.update o kw2) kw).params.keys := by
    intro n hn
    rw [hp, Dict.mem_keys_update, Dict.mem_keys_update]
    exact Or.inl (Or.inl hn)
  refine ⟨hc.t0, hc.p0, hc.tex, hc.pex, hc.I0, ?_, ?_, ?_, ?_⟩
  · intro k a hka
    rw [hp, Dict.get?_update] at hka
    cases hl : lastValue (kw.map fun p => (p.1, p.2.atleast1d)) k with
    | some v =>
      rw [hl] at hka
      cases hka
      have := lastValue_mem hl
      obtain ⟨q, hq, he⟩ := List.mem_map.mp this
      cases he
      exact hkw q hq
    | none =>
      rw [hl, Dict.get?_update] at hka
      have hk' : k ∉ Dict.keys (kw.map fun p => (p.1, p.2.atleast1d)) := by
        intro h
        obtain ⟨v, hv⟩ := lastValue_isSome h
        rw [hl] at hv; cases hv
      rw [lastValue_none (by
        rw [keys_atleast, hk, ← keys_atleast]; exact hk')] at hka
      exact hc.params k a hka
  · intro p
    have h := hc.defs p
    show match o.pdef p with
      | .val a => _
      | .str e => _
      | .basic e => _
    cases hpp : o.pdef p with
    | val x => rw [hpp] at h; exact h
    | basic e => rw [hpp] at h; exact h
    | str e => rw [hpp] at h; exact fun s hs => hks s (h s hs)
  · intro s hs
    have := hc.V s hs
    rw [List.mem_append] at this ⊢
    exact this.imp id (hks s)
  · intro s hs
    have := hc.SRF s hs
    rw [List.mem_append] at this ⊢
    exact this.imp id (hks s)

/-- Other values for the same names. -/
theorem Complete.other {o : Obj} {S : List ℕ} (hb : BsfOK o) {kw kw2 : Dict}
    (hc : Complete (Fresh.update o kw2) S)
    (hk : kw2.keys = kw.keys) (hkw : ∀ p ∈ kw, Arr.Fits p.2.atleast1d.shape S) :
    Complete (Fresh.update o kw) S := by
  have hks : ∀ n, n ∈ (Fresh.update o kw2).params.keys → n ∈ (Fresh.update o kw).params.keys := by
    intro n hn
    rw [update_params' hb.1, Dict.mem_keys_update, keys_atleast] at hn ⊢
    rw [← hk]; exact hn
  refine ⟨hc.t0, hc.p0, hc.tex, hc.pex, hc.I0, ?_, ?_, ?_, ?_⟩
  · intro k a hka
    rw [update_params' hb.1, Dict.get?_update] at hka
    cases hl : lastValue (kw.map fun p => (p.1, p.2.atleast1d)) k with
    | some v =>
      rw [hl] at hka
      cases hka
      have := lastValue_mem hl
      obtain ⟨q, hq, he⟩ := List.mem_map.mp this
      cases he
      exact hkw q hq
    | none =>
      rw [hl] at hka
      have hk' : k ∉ Dict.keys (kw.map fun p => (p.1, p.2.atleast1d)) := by
        intro h
        obtain ⟨v, hv⟩ := lastValue_isSome h
        rw [hl] at hv; cases hv
      refine hc.params k a ?_
      rw [update_params' hb.1, Dict.get?_update, lastValue_none (by
        rw [keys_atleast, hk, ← keys_atleast]; exact hk')]
      exact hka
  · intro p
    have h := hc.defs p
    show match o.pdef p with
      | .val a => _
      | .str e => _
      | .basic e => _
    change match o.pdef p with
      | .val a => _
      | .str e => _
      | .basic e => _ at h
    cases hpp : o.pdef p with
    | val x => rw [hpp] at h; exact h
    | basic e => rw [hpp] at h; exact h
    | str e => rw [hpp] at h; exact fun s hs => hks s (h s hs)
  · intro s hs
    have := hc.V s hs
    rw [List.mem_append] at this ⊢
    exact this.imp id (hks s)
  · intro s hs
    have := hc.SRF s hs
    rw [List.mem_append] at this ⊢
    exact this.imp id (hks s)

/-- The object of an analyzer: the evaluation succeeds for all values of the sliders. -/
structure AnaReady (q : Bool) (pd : PName → PDef) (names : List String) (o : Obj) : Prop where
  complete : ∀ sl, sl.map Prod.fst = names → Complete (Fresh.update o (sliderVals sl)) [100, 1]
  t0 : o.ang .t0 = some analyzeT0
  intQ : o.intQ = q
  pdef : o.pdef = pd

theorem sliderVals_fits (sl : List (String × Slider)) : ∀ p ∈ sliderVals sl, Arr.Fits p.2.atleast1d.shape [100, 1] := by
  intro p hp
  obtain ⟨q, hq, rfl⟩ := List.mem_map.mp hp
  exact ⟨Or.inl rfl, trivial⟩

theorem AnaReady.of {q : Bool} {o : Obj} (hb : BsfOK o) {sl : List (String × Slider)} (ht : o.ang .t0 = some analyzeT0)
    (hq : o.intQ = q) (hc : Complete (Fresh.update o (sliderVals sl)) [100, 1]) :
    AnaReady q o.pdef (sl.map Prod.fst) o :=
  ⟨fun sl' hs => hc.other hb (by rw [sliderVals_keys, sliderVals_keys, hs]) (sliderVals_fits sl'), ht, hq, rfl⟩

theorem AnaReady.filled {q : Bool} {b : Backend} {pd : PName → PDef} {names : List String} {o o' : Obj} (h : AnaReady q pd names o) (hb : BsfOK o)
    (hf : Filled b o o') : AnaReady q pd names o' := by
  have hb' := hb.filled hf
  refine ⟨fun sl hs => (h.complete sl hs).congr hf.ang hf.mono hf.I0 ?_ hf.pdef hf.V hf.SRF,
    (congrFun hf.ang .t0).trans h.t0, hf.intQ.trans h.intQ, hf.pdef.trans h.pdef⟩
  rw [update_params' hb'.1, update_params' hb.1, hf.params]

theorem AnaReady.update {q : Bool} {pd : PName → PDef} {names : List String} {o : Obj} (h : AnaReady q pd names o) (hb : BsfOK o)
    {sl : List (String × Slider)} (hs : sl.map Prod.fst = names) :
    AnaReady q pd names (Fresh.update o (sliderVals sl)) :=
  ⟨fun sl' _ => (h.complete sl hs).updated (Arr.Fits.refl _) (hb.update _).1 (sliderVals_fits sl'), h.t0, h.intQ, h.pdef⟩

theorem AnaReady.range {q : Bool} {pd : PName → PDef} {names : List String} {o : Obj} (h : AnaReady q pd names o) (hb : BsfOK o)
    {sl : List (String × Slider)} (hs : sl.map Prod.fst = names) (k : String) :
    AnaReady q pd names (Fresh.update (Fresh.update o (sliderVals sl)) (rangeVals sl k)) :=
  ⟨fun sl' hs' => (h.complete sl hs).update_update (hb.update _) (by
    rw [rangeVals_keys, sliderVals_keys, hs, hs']) (sliderVals_fits sl'), h.t0, h.intQ, h.pdef⟩

theorem AnaReady.updated {q : Bool} {id : ℕ} {A A' : Analyzer} {w w' : World} {o o' : Obj} {res : Arr} {contribs : List Arr}
    {sv : Option Arr} {pd : PName → PDef} (hw : Reachable w) (hU : Updated id A A' w w' o o' res contribs sv)
    (h : AnaReady q pd (A.sliders.map Prod.fst) o) : AnaReady q pd (A'.sliders.map Prod.fst) o' := by
  have hb := hw.keeps.any.bsfOK hU.before
  have hov := hU.over
  rw [hU.sliders]
  cases hr : A.range with
  | none =>
    rw [hr] at hov
    exact (h.update hb rfl).filled (hb.update _) hov.2
  | some k =>
    rw [hr] at hov
    obtain ⟨-, r, -, -, hf⟩ := hov
    exact (h.range hb rfl k).filled ((hb.update _).update _) hf

/-- The update succeeds. -/
theorem AnaReady.succ {pd : PName → PDef} {id : ℕ} {A : Analyzer} {w : World} {o : Obj} (hw : Reachable w)
    (ho : w.objs id = some o) (h : AnaReady false pd (A.sliders.map Prod.fst) o)
    (hsel : ∀ k, A.range = some k → k ∈ A.sliders.map Prod.fst ∧ ∃ p e s, (p = PName.tau ∨ p = .bsf) ∧
      pd p = .str e ∧ s ∈ e.free ∧ s ∈ A.sliders.map Prod.fst) :
    ∃ A' w' o', Analyzer.update id A w = (.ok A', w') ∧ Reachable w' ∧ w'.objs id = some o' ∧
      A'.sliders = A.sliders ∧ A'.range = A.range ∧ AnaReady false pd (A'.sliders.map Prod.fst) o' := by
  have hc := h.complete A.sliders rfl
  have hb := hw.keeps.any.bsfOK ho
  obtain ⟨res, hres, -⟩ := hc.calcAll_three w.backend (a := analyzeT0) h.t0 rfl h.intQ
  obtain ⟨A', w', hA⟩ := update_succ hw ho hres (fun hq => by rw [h.intQ] at hq; cases hq) (fun k hk => by
    obtain ⟨h1, p, e, s, h2, h3, h4, h5⟩ := hsel k hk
    obtain ⟨r, hr, -⟩ := overlay_succ (k := k) w.backend hc (hb.update (sliderVals A.sliders)).1 h.t0 h.intQ h2
      (show o.pdef p = .str e by rw [h.pdef]; exact h3) h4 h5
    exact ⟨h1, r, hr⟩)
  have hr' : Reachable w' := by
    have := (Runs.update (id := id) (A := A) (keys := A.sliders.map Prod.fst) fun _ h => h).reachable
      (fun _ h => h.toAna2.toAna.plain) hw
    rw [hA] at this
    exact this
  obtain ⟨o1, o', res', contribs, sv, hU⟩ := update_ok hw hA
  have := hU.before
  rw [ho] at this
  cases this
  exact ⟨A', w', o', hA, hr', hU.after, hU.sliders, hU.range, h.updated hw hU⟩

/-- Sequences of events succeed. -/
theorem AnaReady.events {pd : PName → PDef} {id : ℕ} {names : List String}
    {evs : List Event} (hevs : ∀ k, Event.select (some k) ∈ evs → k ∈ names ∧
      ∃ p e s, (p = PName.tau ∨ p = .bsf) ∧ pd p = .str e ∧ s ∈ e.free ∧ s ∈ names) :
    ∀ {A : Analyzer} {w : World} {o : Obj}, Reachable w → w.objs id = some o →
      AnaReady false pd (A.sliders.map Prod.fst) o → A.sliders.map Prod.fst = names →
      (∀ k, A.range = some k → k ∈ names ∧
        ∃ p e s, (p = PName.tau ∨ p = .bsf) ∧ pd p = .str e ∧ s ∈ e.free ∧ s ∈ names) →
      ∃ A' w', (evs.foldlM (fun A e => Analyzer.event id A e) A : M Analyzer) w = (.ok A', w') := by
  induction evs with
  | nil => intro A w o _ _ _ _ _; exact ⟨A, w, rfl⟩
  | cons e evs ih =>
    intro A w o hw ho h hn hr
    have hn' : (A.apply e).sliders.map Prod.fst = names := (apply_names A e).trans hn
    have hr' : ∀ k, (A.apply e).range = some k → k ∈ names ∧
        ∃ p e s, (p = PName.tau ∨ p = .bsf) ∧ pd p = .str e ∧ s ∈ e.free ∧ s ∈ names := by
      intro k hk
      cases e with
      | slide key v => exact hr k hk
      | select key =>
        have : key = some k := hk
        subst this
        exact hevs k (List.mem_cons_self ..)
    obtain ⟨A', w', o', h1, h2, h3, h4, h5, h6⟩ := AnaReady.succ (id := id) (A := A.apply e) hw ho
      (by rw [hn']; rw [hn] at h; exact h) (by rw [hn']; exact hr')
    obtain ⟨A2, w2, h7⟩ := ih (fun k hk => hevs k (List.mem_cons_of_mem _ hk)) h2 h3 h6
      (by rw [h4]; exact hn') (by rw [h5]; exact hr')
    refine ⟨A2, w2, ?_⟩
    rw [List.foldlM_cons, bind_ok (show Analyzer.event id A e w = (.ok A', w') from h1)]
    exact h7

theorem forall₂_mem {l1 : List (String × List SliderArg)} {l2 : List (String × Slider)}
    (h : List.Forall₂ (fun p q => q.1 = p.1 ∧ SliderFor p.2 q.2) l1 l2) : ∀ p ∈ l1, p.1 ∈ l2.map Prod.fst := by
  induction h with
  | nil => intro p hp; cases hp
  | cons h1 h2 ih =>
    intro p hp
    rcases List.mem_cons.mp hp with rfl | hp
    · rw [List.map_cons, h1.1]; exact List.mem_cons_self ..
    · exact List.mem_cons_of_mem _ (ih p hp)

end

end RT1
