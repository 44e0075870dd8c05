import Verif.Lemmas.AnalyzeE
import Verif.Lemmas.IntRow

/-! Analyzers of models with interaction term. -/

namespace RT1

noncomputable section
open Classical

/-! ### Shapes -/

theorem Below.interaction_I0 {b : Backend} {o : Obj} {dv ds : String → Py Lam} :
    Below o.I0.shape (Fresh.acc b o dv ds).interaction :=
  bind fun _ _ => bind fun _ _ => bind fun _ h3 => mul_right (pure
    (mul_left (mul_left (mul_left (self (x := (Fresh.acc b o dv ds).I0) rfl))) _ h3))

theorem Below.interaction_bsf {b : Backend} {o : Obj} {dv ds : String → Py Lam} {t : Arr}
    (ht : Fresh.par b o .bsf = .ok t) : Below t.shape (Fresh.acc b o dv ds).interaction :=
  bind fun _ _ => bind fun _ _ => bind fun _ _ => mul_left (mul_right (sub_right (self ht)))

/-- `calc` with interaction term, if no smaller shape holds the angles, the intensity, tau and
bsf. -/
theorem CompleteI.calcAll_common {b : Backend} {o : Obj} {S : List ℕ} (h : CompleteI b o S) {a t β : Arr}
    (ha : o.ang .t0 = some a) (ht : Fresh.par b o .tau = .ok t) (hβ : Fresh.par b o .bsf = .ok β)
    (hS : ∀ T, Arr.Fits a.shape T → Arr.Fits o.I0.shape T → Arr.Fits t.shape T → Arr.Fits β.shape T →
      Arr.Fits S T) : ∃ z, Fresh.calcAll b o = .ok z ∧ z.shape = S ++ [4] := by
  suffices H : ∃ z, (Fresh.acc0 b o).calcBody = .ok z ∧ z.shape = S ++ [4] by
    obtain ⟨z, h1, h2⟩ := H
    exact ⟨z, calcAll_of_body h1, h2⟩
  have hc := h.base
  obtain ⟨Is, s1, s2⟩ := hc.s_surface b (Fresh.dVol b o) (Fresh.dSrf b o)
  obtain ⟨Iv, v1, v2⟩ := hc.s_volume b (Fresh.dVol b o) (Fresh.dSrf b o)
  obtain ⟨I, i1, i2⟩ := h.interaction (Fresh.dVol b o) (Fresh.dSrf b o)
  have hm := ang_mu0 ha
  replace s2 := s2.antisymm (hS _ (Below.surface_mu0 hm _ s1) (Below.surface_I0 _ s1) (Below.surface_tau ht _ s1)
    (Below.surface_bsf hβ _ s1))
  replace v2 := v2.antisymm (hS _ (Below.volume_mu0 hm _ v1) (Below.volume_I0 _ v1) (Below.volume_tau ht _ v1)
    (Below.volume_bsf hβ _ v1))
  have i3 := i2.antisymm (hS _ (Below.interaction_mu0 hm _ i1) (Below.interaction_I0 _ i1)
    (Below.interaction_tau ht _ i1) (Below.interaction_bsf hβ _ i1))
  have s1 : (Fresh.acc0 b o).surface = .ok Is := s1
  have v1 : (Fresh.acc0 b o).volume = .ok Iv := v1
  have i1 : (Fresh.acc0 b o).interaction = .ok I := i1
  obtain ⟨t', t1, t2⟩ := hc.s_par b .tau
  rw [ht] at t1
  cases t1
  have hq := h.intQ
  have q1 : (Fresh.acc0 b o).intQ = .ok true := by rw [← hq]; rfl
  have t1 : (Fresh.acc0 b o).par .tau = .ok t := ht
  have fin := fun Ii (h3 : Ii.shape = S) => hc.finish b true (Is := Is) (Iv := Iv) (Ii := Ii) s2 v2 fun _ => h3
  unfold Acc.calcBody
  by_cases hsc : t.shape = []
  · by_cases hpos : (t.get []).isPos = true
    · obtain ⟨z, z1, z2⟩ := fin I i3
      refine ⟨z, ?_, z2⟩
      simp only [t1, s1, v1, q1, i1, okb, if_pos hsc, if_pos hpos, if_true]
      exact z1
    · obtain ⟨z, z1, z2⟩ := hc.finish b true (Is := Is) (Iv := Arr.zerosLike Is) (Ii := Arr.zerosLike Is)
        s2 s2 fun _ => s2
      refine ⟨z, ?_, z2⟩
      simp only [t1, s1, q1, okb, if_pos hsc, if_neg hpos]
      exact z1
  · obtain ⟨Ii, f1, f2⟩ := fixNan_succ (b := b) (o := o) (t := t) (I := I) t1 (by rw [i3]; exact t2)
    obtain ⟨z, z1, z2⟩ := fin Ii (by rw [f2, i3])
    refine ⟨z, ?_, z2⟩
    simp only [t1, s1, v1, q1, i1, f1, okb, if_neg hsc, if_true]
    exact z1

/-! ### Coefficients -/

/-- The coefficients of the interaction term can be evaluated, and were compiled for the names in
use. -/
structure Coefs (b : Backend) (names : List String) (o : Obj) : Prop where
  fnI : o.fnInput = none
  fneI : o.fnevalsInput = none
  fs : ∃ fs, fnCoefs o.V o.SRF o.geom = .ok fs ∧ (b = .symengine ∨ ∃ p ∈ fs, ¬ isConstFn p)
  V : ∃ n, o.V.ncoefs = .ok (n + 1)
  SRF : ∃ n, o.SRF.ncoefs = .ok (n + 1)
  known : o.fnevals_ = none ∨ ∀ n ∈ names, n ∈ o.params.keys
  vars : ∀ l, o.fnevals_ = some l → l.vars = ["theta_0", "phi_0", "theta_ex", "phi_ex"] ++ o.params.keys

theorem Coefs.update {b : Backend} {names : List String} {o : Obj} (h : Coefs b names o) (hb : BsfOK o) {kw : Dict}
    (hk : kw.keys = names) : Coefs b names (Fresh.update o kw) ∧ ∀ n ∈ names, n ∈ (Fresh.update o kw).params.keys := by
  have key : ∀ n ∈ names, n ∈ (Fresh.update o kw).params.keys := by
    intro n hn
    rw [update_params' hb.1, Dict.mem_keys_update, keys_atleast, hk]
    exact Or.inr hn
  refine ⟨⟨h.fnI, h.fneI, h.fs, h.V, h.SRF, Or.inr key, fun l hl => ?_⟩, key⟩
  have hl : o.fnevals_ = some l := hl
  have hkn := h.known.resolve_left (by rw [hl]; simp)
  rw [h.vars l hl, update_params' hb.1, Dict.keys_update]
  intro k hk'
  rw [keys_atleast, hk] at hk'
  exact hkn k hk'

theorem Coefs.filled {b : Backend} {names : List String} {o o' : Obj} (h : Coefs b names o) (hf : Filled b o o')
    (hk : ∀ n ∈ names, n ∈ o.params.keys) : Coefs b names o' := by
  have hg : o'.geom = o.geom := by have := congrArg Obj.geom hf.core; exact this
  have hfi : o'.fnInput = o.fnInput := by have := congrArg Obj.fnInput hf.core; exact this
  refine ⟨hfi.trans h.fnI, hf.fnevalsInput.trans h.fneI, by rw [hf.V, hf.SRF, hg]; exact h.fs,
    by rw [hf.V]; exact h.V, by rw [hf.SRF]; exact h.SRF, by rw [hf.params]; exact Or.inr hk, fun l hl => ?_⟩
  rw [hf.params]
  have e : Fresh.fnevals b o = .ok (some l) := by
    rw [← hf.fnevals]
    unfold Fresh.fnevals
    rw [hl]
  unfold Fresh.fnevals at e
  cases h1 : o.fnevals_ with
  | some l' =>
    rw [h1] at e
    cases e
    exact h.vars l h1
  | none =>
    simp only [h1, h.fneI] at e
    by_cases hq : o.intQ = true
    · rw [if_pos hq] at e
      obtain ⟨f, -, e⟩ := ok_bind e
      cases f with
      | none => cases e
      | some f =>
        obtain ⟨l', e1, e2⟩ := ok_bind e
        cases e2
        unfold Fresh.fnCompile at e1
        simp only at e1
        split_ifs at e1
        cases e1
        rfl
    · rw [if_neg hq] at e
      cases e

/-- The interaction term of an object whose angles have two axes can be evaluated. -/
theorem Coefs.completeI_of {b : Backend} {names : List String} {o : Obj} {S : List ℕ} (h : Coefs b names o) (hS : S.length = 2)
    (hc : Complete o S) (hb : BsfOK o) (hok : ObjOK b o) {a : Arr}
    (ht : o.ang .t0 = some a) (ha : a.shape.length = 2) (htex : o.mono = false → ∀ a, o.ang .tex = some a → a.shape.length = 2)
    (hpex : o.mono = false → ∀ a, o.ang .pex = some a → a.shape.length = 2) (hp0 : o.ang .p0 = some (arr1 0))
    (hq : o.intQ = true) : CompleteI b o S where
  base := hc
  aligned :=
    { pos := by omega
      t0 := fun a' ha' => by rw [ht] at ha'; cases ha'; omega
      tex := fun h a ha => (htex h a ha).trans hS.symm
      pex := fun h a ha => ((hpex h a ha).trans hS.symm).le
      p0 := fun a ha => by
        rw [hp0] at ha; cases ha
        show 1 ≤ _
        omega
      params := fun p hp => (hc.params p.1 p.2 (Dict.get?_of_nodup hb.2 hp)).length
      tau := fun a ha => by
        obtain ⟨a', h1, h2⟩ := hc.s_par b .tau
        rw [ha] at h1; cases h1
        exact h2.length
      const := by
        obtain ⟨fs, hfn, h | h⟩ := h.fs
        · exact Or.inr (Or.inl h)
        · exact Or.inr (Or.inr ⟨fs, hfn, h⟩) }
  intQ := hq
  objOK := hok
  fnI := h.fnI
  fneI := h.fneI
  fn := by
    obtain ⟨fs, h, -⟩ := h.fs
    exact ⟨fs, h⟩
  V := h.V
  SRF := h.SRF
  params := fun a ha => by
    obtain ⟨p, hp, rfl⟩ := List.mem_map.mp ha
    exact hc.params p.1 p.2 (Dict.get?_of_nodup hb.2 hp)
  vars := h.vars

/-- The interaction term of a monostatic object whose angles have two axes can be evaluated. -/
theorem Coefs.completeI {b : Backend} {names : List String} {o : Obj} {S : List ℕ} (h : Coefs b names o) (hS : S.length = 2)
    (hc : Complete o S) (hb : BsfOK o) (hok : ObjOK b o) {a : Arr}
    (ht : o.ang .t0 = some a) (ha : a.shape.length = 2) (hm : o.mono = true) (hp0 : o.ang .p0 = some (arr1 0))
    (hq : o.intQ = true) : CompleteI b o S :=
  h.completeI_of hS hc hb hok ht ha (fun h => by rw [hm] at h; cases h) (fun h => by rw [hm] at h; cases h) hp0 hq

/-! ### Events -/

/-- The object of an analyzer with interaction term. -/
structure AnaReadyI (b : Backend) (pd : PName → PDef) (names : List String) (o : Obj) : Prop where
  base : AnaReady true pd names o
  coefs : Coefs b names o
  mono : o.mono = true
  p0 : o.ang .p0 = some (arr1 0)
  geom : o.geom = ⟨.sym "theta_0", .sym "theta_0", .num 0, .num 0⟩

theorem AnaReadyI.filled {b : Backend} {pd : PName → PDef} {names : List String} {o o' : Obj}
    (h : AnaReadyI b pd names o) (hb : BsfOK o) (hf : Filled b o o') (hk : ∀ n ∈ names, n ∈ o.params.keys) :
    AnaReadyI b pd names o' :=
  ⟨h.base.filled hb hf, h.coefs.filled hf hk, hf.mono.trans h.mono, (congrFun hf.ang .p0).trans h.p0,
    (by have := congrArg Obj.geom hf.core; exact this : o'.geom = o.geom).trans h.geom⟩

theorem AnaReadyI.update {b : Backend} {pd : PName → PDef} {names : List String} {o : Obj}
    (h : AnaReadyI b pd names o) (hb : BsfOK o) {sl : List (String × Slider)} (hs : sl.map Prod.fst = names) :
    AnaReadyI b pd names (Fresh.update o (sliderVals sl)) :=
  ⟨h.base.update hb hs, (h.coefs.update hb (by rw [sliderVals_keys, hs])).1, h.mono, h.p0, h.geom⟩

theorem AnaReadyI.range {b : Backend} {pd : PName → PDef} {names : List String} {o : Obj}
    (h : AnaReadyI b pd names o) (hb : BsfOK o) {sl : List (String × Slider)} (hs : sl.map Prod.fst = names) (k : String) :
    AnaReadyI b pd names (Fresh.update (Fresh.update o (sliderVals sl)) (rangeVals sl k)) :=
  ⟨h.base.range hb hs k, ((h.update hb hs).coefs.update (hb.update _) (by rw [rangeVals_keys, hs])).1,
    h.mono, h.p0, h.geom⟩

theorem AnaReadyI.updated {id : ℕ} {A A' : Analyzer} {w w' : World} {o o' : Obj} {res : Arr} {contribs : List Arr}
    {sv : Option Arr} {pd : PName → PDef} (hw : Reachable w) (hU : Updated id A A' w w' o o' res contribs sv)
    (h : AnaReadyI w.backend pd (A.sliders.map Prod.fst) o) :
    AnaReadyI w.backend pd (A'.sliders.map Prod.fst) o' := by
  have hb := hw.keeps.any.bsfOK hU.before
  have hov := hU.over
  rw [hU.sliders]
  have hk : ∀ n ∈ A.sliders.map Prod.fst, n ∈ (Fresh.update o (sliderVals A.sliders)).params.keys :=
    (h.coefs.update hb (sliderVals_keys ..)).2
  cases hr : A.range with
  | none =>
    rw [hr] at hov
    exact (h.update hb rfl).filled (hb.update _) hov.2 hk
  | some k =>
    rw [hr] at hov
    obtain ⟨-, r, -, -, hf⟩ := hov
    exact (h.range hb rfl k).filled ((hb.update _).update _) hf
      ((h.update hb rfl).coefs.update (hb.update _) (rangeVals_keys ..)).2

/-- The evaluation for the sliders. -/
theorem AnaReadyI.completeI {b : Backend} {pd : PName → PDef} {names : List String} {o : Obj}
    (h : AnaReadyI b pd names o) (hb : BsfOK o) {sl : List (String × Slider)} (hs : sl.map Prod.fst = names)
    (hok : ObjOK b (Fresh.update o (sliderVals sl))) : CompleteI b (Fresh.update o (sliderVals sl)) [100, 1] :=
  (h.update hb hs).coefs.completeI rfl (h.base.complete sl hs) (hb.update _) hok (a := analyzeT0) h.base.t0 rfl
    h.mono h.p0 h.base.intQ

/-- The evaluation for the overlay. -/
theorem AnaReadyI.overlay {b : Backend} {pd : PName → PDef} {names : List String} {o : Obj}
    (h : AnaReadyI b pd names o) (hb : BsfOK o) {sl : List (String × Slider)} (hs : sl.map Prod.fst = names)
    {k : String} (hok : ObjOK b (Fresh.update (Fresh.update o (sliderVals sl)) (rangeVals sl k))) :
    CompleteI b (Fresh.update (Fresh.update o (sliderVals sl)) (rangeVals sl k)) [100, 20] := by
  have hc : Complete (Fresh.update (Fresh.update o (sliderVals sl)) (rangeVals sl k)) [100, 20] :=
    (h.base.complete sl hs).updated (by simp [Arr.Fits]) (hb.update _).1 fun p hp => by
      rw [rangeVals_shape p hp]; simp [Arr.Fits]
  exact (h.range hb hs k).coefs.completeI rfl hc ((hb.update _).update _) hok (a := analyzeT0) h.base.t0 rfl
    h.mono h.p0 h.base.intQ

theorem AnaReadyI.overlay_succ {b : Backend} {pd : PName → PDef} {names : List String} {o : Obj}
    (h : AnaReadyI b pd names o) (hb : BsfOK o) {sl : List (String × Slider)} (hs : sl.map Prod.fst = names)
    {k : String} (hok : ObjOK b (Fresh.update (Fresh.update o (sliderVals sl)) (rangeVals sl k)))
    {p : PName} {e : Expr} {s : String} (hp : p = .tau ∨ p = .bsf) (he : pd p = .str e) (hs' : s ∈ e.free)
    (hs2 : s ∈ names) :
    ∃ r, Fresh.calcAll b (Fresh.update (Fresh.update o (sliderVals sl)) (rangeVals sl k)) = .ok r ∧
      r.shape = [100, 20, 4] := by
  have hci := h.overlay hb hs hok
  obtain ⟨x, hx, hx'⟩ := rangeVals_get (hb.update (sliderVals sl)).1 (k := k) (by rw [hs]; exact hs2)
  have e1 : (Fresh.update (Fresh.update o (sliderVals sl)) (rangeVals sl k)).pdef = pd := h.base.pdef
  have e2 : (Fresh.update (Fresh.update o (sliderVals sl)) (rangeVals sl k)).ang .t0 = some analyzeT0 := h.base.t0
  generalize Fresh.update (Fresh.update o (sliderVals sl)) (rangeVals sl k) = o1 at *
  obtain ⟨t, t1, -⟩ := hci.base.s_par b .tau
  obtain ⟨β, b1, -⟩ := hci.base.s_par b .bsf
  refine hci.calcAll_common (a := analyzeT0) e2 t1 b1 ?_
  intro T h1 h2 h3 h4
  refine fits_box h1 ?_
  rw [← hx']
  rw [← e1] at he
  rcases hp with rfl | rfl
  · exact (par_below he t1 hs' hx).trans h3
  · exact (par_below he b1 hs' hx).trans h4

/-- The overlay was drawn. -/
def Overlaid (b : Backend) (A : Analyzer) (o : Obj) : Prop :=
  ∀ k, A.range = some k → Complete o [100, 20] ∧ ∃ r, A.overlay = some r ∧ r.shape = [100, 20, 4] ∧
    Fresh.calcAll b o = .ok r ∧ o.params.keys.Nodup ∧
    ∃ d, o.params = Dict.update d ((rangeVals A.sliders k).map fun p => (p.1, p.2.atleast1d))

/-- The update succeeds. -/
theorem AnaReadyI.succ {pd : PName → PDef} {id : ℕ} {A : Analyzer} {w : World} {o : Obj} (hw : Reachable w)
    (ho : w.objs id = some o) (h : AnaReadyI w.backend pd (A.sliders.map Prod.fst) o)
    (hsel : ∀ k, A.range = some k → k ∈ A.sliders.map Prod.fst ∧ ∃ p e s, (p = PName.tau ∨ p = .bsf) ∧
      pd p = .str e ∧ s ∈ e.free ∧ s ∈ A.sliders.map Prod.fst) :
    ∃ A' w' o', Analyzer.update id A w = (.ok A', w') ∧ Reachable w' ∧ w'.objs id = some o' ∧ w'.backend = w.backend ∧
      A'.sliders = A.sliders ∧ A'.range = A.range ∧ AnaReadyI w.backend pd (A'.sliders.map Prod.fst) o' ∧
      Overlaid w.backend A' o' := by
  have hb := hw.keeps.any.bsfOK ho
  have hi1 := hw.inv.updated ho (sliderVals A.sliders)
  have hok : ObjOK w.backend (Fresh.update o (sliderVals A.sliders)) := hi1.obj rfl _ _ (World.updated_objs ..)
  have hci := h.completeI hb rfl hok
  obtain ⟨res, hres, -⟩ := hci.calcAll (a := analyzeT0) h.base.t0 rfl
  obtain ⟨A', w', hA⟩ := update_succ hw ho hres (fun _ => hci.base.surfaceVolume w.backend) (fun k hk => by
    obtain ⟨h1, p, e, s, h2, h3, h4, h5⟩ := hsel k hk
    have hok2 : ObjOK w.backend (Fresh.update (Fresh.update o (sliderVals A.sliders)) (rangeVals A.sliders k)) :=
      (hi1.updated (World.updated_objs ..) (rangeVals A.sliders k)).obj rfl _ _ (World.updated_objs ..)
    obtain ⟨r, hr, -⟩ := h.overlay_succ hb rfl hok2 h2 h3 h4 h5
    exact ⟨h1, r, hr⟩)
  have hr' : Reachable w' := by
    have := (Runs.update (id := id) (A := A) (keys := A.sliders.map Prod.fst) fun _ h => h).reachable
      (fun _ h => h.toAna2.toAna.plain) hw
    rw [hA] at this
    exact this
  obtain ⟨o1, o', res', contribs, sv, hU⟩ := update_ok hw hA
  have := hU.before
  rw [ho] at this
  cases this
  refine ⟨A', w', o', hA, hr', hU.after, hU.backend, hU.sliders, hU.range, h.updated hw hU, fun k hk => ?_⟩
  rw [hU.range] at hk
  obtain ⟨h1, p, e, s, h2, h3, h4, h5⟩ := hsel k hk
  have hok2 : ObjOK w.backend (Fresh.update (Fresh.update o (sliderVals A.sliders)) (rangeVals A.sliders k)) :=
    (hi1.updated (World.updated_objs ..) (rangeVals A.sliders k)).obj rfl _ _ (World.updated_objs ..)
  obtain ⟨r, hr, hs⟩ := h.overlay_succ hb rfl hok2 h2 h3 h4 h5
  have hov := hU.over
  rw [hk] at hov
  obtain ⟨-, r', e1, e2, hf⟩ := hov
  rw [hr] at e1
  cases e1
  refine ⟨(h.overlay hb rfl hok2).base.congr hf.ang hf.mono hf.I0 hf.params hf.pdef hf.V hf.SRF, r, e2, hs, ?_, ?_, ?_⟩
  · rw [fresh_calc_filled hf, hr]
  · exact (((hb.update _).update _).filled hf).2
  · rw [hU.sliders]
    exact ⟨_, hf.params.trans (update_params' (hb.update _).1 _)⟩

/-- Sequences of events succeed. -/
theorem AnaReadyI.events {b : Backend} {pd : PName → PDef} {id : ℕ} {names : List String}
    {evs : List Event} (hevs : ∀ k, Event.select (some k) ∈ evs → k ∈ names ∧
      ∃ p e s, (p = PName.tau ∨ p = .bsf) ∧ pd p = .str e ∧ s ∈ e.free ∧ s ∈ names) :
    ∀ {A : Analyzer} {w : World} {o : Obj}, Drawn (fun _ => False) id w A → w.backend = b → w.objs id = some o →
      AnaReadyI b pd (A.sliders.map Prod.fst) o → Overlaid b A o → A.sliders.map Prod.fst = names →
      (∀ k, A.range = some k → k ∈ names ∧
        ∃ p e s, (p = PName.tau ∨ p = .bsf) ∧ pd p = .str e ∧ s ∈ e.free ∧ s ∈ names) →
      ∃ A' w' o', (evs.foldlM (fun A e => Analyzer.event id A e) A : M Analyzer) w = (.ok A', w') ∧
        Drawn (fun _ => False) id w' A' ∧ w'.backend = b ∧ w'.objs id = some o' ∧
        AnaReadyI b pd (A'.sliders.map Prod.fst) o' ∧ Overlaid b A' o' := by
  induction evs with
  | nil => intro A w o hD hb ho h hO hn hr; exact ⟨A, w, o, rfl, hD, hb, ho, h, hO⟩
  | cons e evs ih =>
    intro A w o hD hb ho h _ hn hr
    have hn' : (A.apply e).sliders.map Prod.fst = names := (apply_names A e).trans hn
    have hr' : ∀ k, (A.apply e).range = some k → k ∈ names ∧
        ∃ p e s, (p = PName.tau ∨ p = .bsf) ∧ pd p = .str e ∧ s ∈ e.free ∧ s ∈ names := by
      intro k hk
      cases e with
      | slide key v => exact hr k hk
      | select key =>
        have : key = some k := hk
        subst this
        exact hevs k (List.mem_cons_self ..)
    obtain ⟨A', w', o', h1, h2, h3, hb', h4, h5, h6, hO⟩ := AnaReadyI.succ (id := id) (A := A.apply e)
      hD.session.reachable ho (by rw [hn', hb]; rw [hn] at h; exact h) (by rw [hn']; exact hr')
    rw [hb] at h6 hO
    have h1 : Analyzer.event id A e w = (.ok A', w') := h1
    obtain ⟨A2, w2, o2, h7, h8⟩ := ih (fun k hk => hevs k (List.mem_cons_of_mem _ hk)) (.event e hD.session h1)
      (hb'.trans hb) h3 h6 hO (by rw [h4]; exact hn') (by rw [h5]; exact hr')
    refine ⟨A2, w2, o2, ?_, h8⟩
    rw [List.foldlM_cons, bind_ok h1]
    exact h7

/-! ### Values of the overlay -/

theorem Arr.Fits.at_bidx {a : Arr} {S : List ℕ} (h : Arr.Fits a.shape S) (idx : List ℕ) :
    a.at' (Arr.bidx S idx) = a.at' idx := by
  unfold Arr.at'
  rw [h.bidx_bidx]

theorem HasVal.bidx {x : Py Arr} {S idx : List ℕ} {v : ℝ} (h : HasVal x (Arr.bidx S idx) v) (hs : Succ x S) :
    HasVal x idx v := by
  obtain ⟨a, h1, h2⟩ := h
  obtain ⟨a', h3, h4⟩ := hs
  rw [h1] at h3
  cases h3
  exact ⟨a, h1, by rw [← h2, h4.at_bidx]⟩

/-- The values at an index where the parameters agree. -/
theorem AgreeAt.fsite {b : Backend} {o : Obj} {d' : Dict} {idx : List ℕ} (h : AgreeAt o.params d' idx)
    {S S' : List ℕ} (hc : Complete o S) (hc' : Complete (o.withValues d') S') {x : Site}
    (hx : FSite b (o.withValues d') (Arr.bidx S' idx) x) : FSite b o idx x := by
  have hpar : ∀ (p : PName) (v : ℝ), HasVal (Fresh.par b (o.withValues d') p) (Arr.bidx S' idx) v →
      HasVal (Fresh.par b o p) idx v := by
    intro p v hv
    obtain ⟨t', h1, h2⟩ := hv.bidx (hc'.s_par b p)
    obtain ⟨t, h3, -⟩ := hc.s_par b p
    exact ⟨t, h3, by rw [(h.par h3 h1).1, h2]⟩
  refine ⟨hx.t0.bidx hc'.s_t0, hx.tex.bidx hc'.s_tex, hx.p0.bidx hc'.s_p0, hx.pex.bidx hc'.s_pex,
    hpar _ _ hx.tau, hpar _ _ hx.omega, hpar _ _ hx.NormBRDF, hpar _ _ hx.bsf, ?_, ?_⟩
  · rw [← hx.I0]
    exact (Arr.Fits.at_bidx hc'.I0 idx).symm
  · intro k a hk
    obtain ⟨a', hk'⟩ := Dict.get?_of_mem ((h.keys k).mp (Lam.mem_of_get? hk))
    have e1 : a'.at' idx = XR.fin (x.ρ k) := by
      rw [← Arr.Fits.at_bidx (hc'.params k a' hk')]
      exact hx.params k a' hk'
    have e2 := congrFun h.vals k
    unfold Dict.valAt at e2
    rw [hk, hk'] at e2
    exact e2.trans e1

/-- All rows of `calc` with interaction term at an index where the values agree. -/
theorem AgreeAt.rowI {b : Backend} {o : Obj} {d' : Dict} {idx : List ℕ} (h : AgreeAt o.params d' idx)
    {S S' : List ℕ} (hc : CompleteI b o S) (hc' : CompleteI b (o.withValues d') S') (hg : o.geom.Named)
    {z z' : Arr} (hz : Fresh.calcAll b o = .ok z) (hz' : Fresh.calcAll b (o.withValues d') = .ok z')
    (hs : z.shape = S ++ [4]) (hs' : z'.shape = S' ++ [4]) (hl : S'.length = S.length)
    (hv : Arr.Valid S idx) (hv' : Arr.Valid S' (Arr.bidx S' idx)) {x : Site}
    (hx : FSite b (o.withValues d') (Arr.bidx S' idx) x) (hob : x.Oblique) {k : ℕ} (hk : k < 4) :
    z.get (idx ++ [k]) = z'.get (Arr.bidx S' idx ++ [k]) := by
  obtain ⟨Is, Iv, Ii, P⟩ := calc_parts hz
  obtain ⟨Is', Iv', Ii', P'⟩ := calc_parts hz'
  obtain ⟨nV, hV⟩ := hc.V
  obtain ⟨nS, hSr⟩ := hc.SRF
  have hx0 := h.fsite hc.base hc'.base hx
  have key : ∀ {o1 : Obj} {T : List ℕ} {Is Iv Ii z : Arr} {i : List ℕ}, Parts b o1 Is Iv Ii z → CompleteI b o1 T →
      o1.geom.Named → o1.V.ncoefs = .ok (nV + 1) → o1.SRF.ncoefs = .ok (nS + 1) → z.shape = T ++ [4] →
      Arr.Valid T i → FSite b o1 i x → Ii.get i = XR.fin (geomInteraction o1.V o1.SRF o1.geom x) := by
    intro o1 T Is Iv Ii z i P hc hg hV hSr hz hi hx
    obtain ⟨r1, -, r3, -⟩ := P.rows
    have e1 : Ii.shape = T := by
      rw [r3 hc.intQ]
      rw [hz] at r1
      exact (List.append_inj' r1 rfl).1.symm
    obtain ⟨t, ht, hT⟩ := P.tau
    have hta : t.at' i = XR.fin x.tau := by
      obtain ⟨t', h1, h2⟩ := hx.tau
      rw [ht] at h1; cases h1; exact h2
    have hn : ¬ (t.shape = [] ∧ ¬ (t.get []).isPos = true) := by
      rintro ⟨e1, e2⟩
      apply e2
      have : t.get [] = t.at' i := by unfold Arr.at'; rw [e1]; rfl
      rw [this, hta]
      simp [XR.isPos, hob.tau]
    rw [if_neg hn] at hT
    obtain ⟨I, hI1, hI2⟩ := hT.2 hc.intQ
    have hat := interaction_at hc.objOK hc.fnI hc.fneI hg hI1 hV hSr hc.aligned hi.length.symm.le hx hob
    by_cases hsc : t.shape = []
    · rw [if_pos hsc] at hI2
      subst hI2
      rwa [Arr.at'_valid (by rw [e1]; exact hi)] at hat
    · rw [if_neg hsc] at hI2
      obtain ⟨f1, f2, -⟩ := fixNan_spec hI2
      rw [Arr.at'_valid (by rw [← f1, e1]; exact hi)] at hat
      rw [f2 i (by rw [hat]; rfl), hat]
  refine h.rowParts P P' hs hs' hv hv' (by rw [hc.intQ]; exact hk) fun _ _ => ?_
  rw [key P hc hg hV hSr hs hv hx0, key P' hc' hg hV hSr hs' hv' hx]
  rfl

end

end RT1
