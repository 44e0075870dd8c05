import Verif.Spec.Widgets
import Verif.Props.Overlay
import Verif.Props.Analyze3D

/-!
# The sliders of the analyzers (C65, C67, C68)

The theorems about drawn lines and surfaces speak about the values of the sliders of the analyzer.
Here: these values are the ones the user moved the sliders to.
-/

namespace RT1

noncomputable section
open Classical

theorem movesOf_append (a b : List Event) : movesOf (a ++ b) = movesOf a ++ movesOf b := by
  induction a with
  | nil => rfl
  | cons e a ih => cases e <;> simp [movesOf, ih]

theorem selectionsOf_append (a b : List Event) : selectionsOf (a ++ b) = selectionsOf a ++ selectionsOf b := by
  induction a with
  | nil => rfl
  | cons e a ih => cases e <;> simp [selectionsOf, ih]

theorem LastMove.nil (key : String) (v : ℝ) : LastMove [] key v v := .inr ⟨by simp, rfl⟩

theorem LastMove.same (moves : List (String × ℝ)) (key : String) (v0 v : ℝ) : LastMove (moves ++ [(key, v)]) key v0 v :=
  .inl ⟨moves, [], rfl, by simp⟩

theorem LastMove.other {moves : List (String × ℝ)} {key k : String} (hk : k ≠ key) {v0 v : ℝ} (u : ℝ)
    (h : LastMove moves key v0 v) : LastMove (moves ++ [(k, u)]) key v0 v := by
  rcases h with ⟨l, l', rfl, h⟩ | ⟨h, rfl⟩
  · refine .inl ⟨l, l' ++ [(k, u)], by simp, fun x hx => ?_⟩
    rcases List.mem_append.mp hx with hx | hx
    · exact h x hx
    · simp only [List.mem_singleton, Prod.mk.injEq] at hx
      exact hk hx.1.symm
  · refine .inr ⟨fun x hx => ?_, rfl⟩
    rcases List.mem_append.mp hx with hx | hx
    · exact h x hx
    · simp only [List.mem_singleton, Prod.mk.injEq] at hx
      exact hk hx.1.symm

theorem SliderAfter.nil (p : String × Slider) : SliderAfter [] p p := ⟨rfl, rfl, rfl, .nil _ _⟩

theorem SliderAfter.slide {moves : List (String × ℝ)} {p0 p : String × Slider} (h : SliderAfter moves p0 p) (k : String)
    (v : ℝ) : SliderAfter (moves ++ [(k, v)]) p0 (if p.1 = k then (p.1, { p.2 with val := v }) else p) := by
  obtain ⟨h1, h2, h3, h4⟩ := h
  split_ifs with hk
  · refine ⟨h1, h2, h3, ?_⟩
    rw [← hk, ← h1]
    exact .same _ _ _ _
  · exact ⟨h1, h2, h3, h4.other (by rw [← h1]; exact fun h => hk h.symm) v⟩

theorem after_slide {moves : List (String × ℝ)} {l0 l : List (String × Slider)} (h : List.Forall₂ (SliderAfter moves) l0 l)
    (k : String) (v : ℝ) : List.Forall₂ (SliderAfter (moves ++ [(k, v)])) l0
      (l.map fun p => if p.1 = k then (p.1, { p.2 with val := v }) else p) :=
  List.forall₂_map_right_iff.mpr (h.imp fun _ _ h => h.slide k v)

theorem after_mem {moves : List (String × ℝ)} {l0 l : List (String × Slider)} (h : List.Forall₂ (SliderAfter moves) l0 l) :
    ∀ a ∈ l0, ∃ p ∈ l, SliderAfter moves a p := by
  induction h with
  | nil => simp
  | @cons a b l l' hab _ ih =>
    intro x hx
    rcases List.mem_cons.mp hx with rfl | hx
    · exact ⟨b, by simp, hab⟩
    · obtain ⟨p, hp, h⟩ := ih x hx
      exact ⟨p, List.mem_cons_of_mem _ hp, h⟩

theorem Played.session {P : Op → Prop} {id : ℕ} {A0 : Analyzer} {es : List Event} {w : World} {A : Analyzer}
    (h : Played P id A0 es w A) : Session P id w A := by
  induction h with
  | start hw h => exact .start hw h
  | event e _ he ih => exact .event e ih he
  | call op _ ho hp ih => exact .call op ih ho hp

theorem Session.played {P : Op → Prop} {id : ℕ} {w : World} {A : Analyzer} (h : Session P id w A) :
    ∃ A0 es, Played P id A0 es w A := by
  induction h with
  | start hw h => exact ⟨_, _, .start hw h⟩
  | event e _ he ih =>
    obtain ⟨A0, es, h⟩ := ih
    exact ⟨A0, _, .event e h he⟩
  | call op _ ho hp ih =>
    obtain ⟨A0, es, h⟩ := ih
    exact ⟨A0, _, .call op h ho hp⟩

/-- **C65** (sliders): after any sequence of user events (and other calls in between) the analyzer
has the sliders it was created with, each with its limits and the value it was last moved to, and
the range parameter selected last. (Every session has such a history, `Session.played`.) -/
theorem C65_sliders {P : Op → Prop} {id : ℕ} {A0 : Analyzer} {es : List Event} {w : World} {A : Analyzer}
    (h : Played P id A0 es w A) :
    List.Forall₂ (SliderAfter (movesOf es)) A0.sliders A.sliders ∧
      A.range = (selectionsOf es).getLastD A0.range := by
  induction h with
  | start hw h => exact ⟨List.forall₂_same.mpr fun _ _ => .nil _, rfl⟩
  | @event es w w' A A' e hs he ih =>
    obtain ⟨o, o', res, contribs, sv, hU⟩ := update_ok hs.session.reachable he
    rw [hU.sliders, hU.range, movesOf_append, selectionsOf_append]
    cases e with
    | slide k v => exact ⟨after_slide ih.1 k v, by simpa [selectionsOf, Analyzer.apply] using ih.2⟩
    | select k => exact ⟨by simpa [movesOf, Analyzer.apply] using ih.1, by simp [selectionsOf, Analyzer.apply]⟩
  | call op _ ho hp ih => exact ih

theorem played_of_fold {P : Op → Prop} {id : ℕ} {A0 : Analyzer} : ∀ (evs : List Event) {es : List Event} {w w' : World}
    {A A' : Analyzer}, Played P id A0 es w A → (evs.foldlM (fun A e => A.event id e) A : M Analyzer) w = (.ok A', w') →
    Played P id A0 (es ++ evs) w' A'
  | [], es, w, w', A, A', h, he => by
    have he : ((.ok A, w) : Py Analyzer × World) = (.ok A', w') := he
    cases he
    simpa using h
  | e :: evs, es, w, w', A, A', h, he => by
    rw [List.foldlM_cons] at he
    obtain ⟨A1, w1, h1, h2⟩ := bind_ok_inv he
    have := played_of_fold evs (h.event e h1) h2
    simpa using this

/-- Every sequence of events is met: here tau is moved twice, omega once and selected as range
parameter. -/
example (b : Backend) (s d : Bool) (I t p τ ω N : ℝ) : ∃ A0 A w,
    Played (fun _ => False) 0 A0 [.slide "tau" 1, .select (some "omega"), .slide "tau" (1 / 3), .slide "omega" (1 / 2)] w A := by
  obtain ⟨A, w', h⟩ := num_events b s d I t p τ ω N (r := none)
    (evs := [.slide "tau" 1, .select (some "omega"), .slide "tau" (1 / 3), .slide "omega" (1 / 2)]) (by
      intro k hk
      simp at hk
      exact .inr hk)
  obtain ⟨A1, w1, h1, h2⟩ := bind_ok_inv h
  exact ⟨A1, A, w', played_of_fold (P := fun _ => False) _ (.start (num_reachable ..) h1) h2⟩

/-- **C67** (partial): after an event without range parameter, each parameter with a slider has the
value to which its slider was last moved (its start value if it was not). -/
theorem C67_moves_partial {P : Op → Prop} {id : ℕ} {A0 : Analyzer} {es : List Event} {e : Event} {w w' : World}
    {A A' : Analyzer} (h : Played P id A0 es w A) (he : A.event id e w = (.ok A', w'))
    (hr : (selectionsOf (es ++ [e])).getLastD A0.range = none) (hn : (A0.sliders.map Prod.fst).Nodup) :
    ∃ o, w'.objs id = some o ∧ ∀ k sl, (k, sl) ∈ A0.sliders → ∃ x v, o.params.get? k = some x ∧
      LastMove (movesOf (es ++ [e])) k sl.val v ∧ x.shape = [1] ∧ x.get [0] = XR.fin v := by
  obtain ⟨h1, h2⟩ := C65_sliders (h.event e he)
  have hk : A'.sliders.map Prod.fst = A0.sliders.map Prod.fst := by
    have := h1
    generalize A'.sliders = l' at this
    generalize A0.sliders = l at this
    induction this with
    | nil => rfl
    | cons a _ ih => simp [a.1, ih]
  obtain ⟨o, res, ho, hp, -⟩ := C67_partial (Drawn.event e h.session he) (h2.trans hr) (by rw [hk]; exact hn)
  refine ⟨o, ho, fun k sl hm => ?_⟩
  obtain ⟨⟨k', sl'⟩, hm', e1, -, -, e2⟩ : ∃ p ∈ A'.sliders, SliderAfter (movesOf (es ++ [e])) (k, sl) p :=
    after_mem h1 _ hm
  obtain rfl : k' = k := e1
  obtain ⟨x, f1, f2, f3⟩ := hp _ _ hm'
  exact ⟨x, _, f1, e2, f2, f3⟩

/-- **C68** (sliders): the same for the 3D analyzer; the incidence angle starts at 45°. -/
theorem C68_sliders {P : Op → Prop} {id n : ℕ} {A0 : Analyzer3D} {es : List (String × ℝ)} {w : World} {A : Analyzer3D}
    (h : Played3D P id n A0 es w A) :
    List.Forall₂ (fun p0 p => if p0.1 = "inc" then p = p0 else SliderAfter es p0 p) A0.sliders A.sliders ∧
      LastMove es "inc" 45 A.inc ∧ A.contribs = A0.contribs := by
  induction h with
  | start hw h =>
    refine ⟨List.forall₂_same.mpr fun p _ => ?_, ?_, rfl⟩
    · split_ifs
      · rfl
      · exact .nil _
    · rw [(analyze3d_fields h).1]; exact .nil _ _
  | @slide es w w' A A' key v hs he ih =>
    obtain ⟨i1, i2, i3⟩ := ih
    obtain ⟨f1, f2, f3⟩ := update3_fields he
    rw [f1, f2, f3]
    by_cases hk : key = "inc"
    · rw [if_pos hk]
      subst hk
      refine ⟨i1.imp fun a b hab => ?_, .same _ _ _ _, i3⟩
      split_ifs with ha
      · rwa [if_pos ha] at hab
      · rw [if_neg ha] at hab
        exact ⟨hab.1, hab.2.1, hab.2.2.1, hab.2.2.2.other (fun h => ha h.symm) v⟩
    · rw [if_neg hk]
      refine ⟨List.forall₂_map_right_iff.mpr (i1.imp fun a b hab => ?_), i2.other hk v, i3⟩
      split_ifs at hab ⊢ with ha hb
      · exact absurd (hb ▸ hab ▸ ha) hk
      · exact hab
      all_goals
        have := SliderAfter.slide hab key v
        simp_all
  | call op _ ho hp ih => exact ih

theorem Played3D.session {P : Op → Prop} {id n : ℕ} {A0 : Analyzer3D} {es : List (String × ℝ)} {w : World} {A : Analyzer3D}
    (h : Played3D P id n A0 es w A) : Session3D P id n w A := by
  induction h with
  | start hw h => exact .start hw h
  | slide k v _ he ih => exact .slide k v ih he
  | call op _ ho hp ih => exact .call op ih ho hp

theorem Session3D.played {P : Op → Prop} {id n : ℕ} {w : World} {A : Analyzer3D} (h : Session3D P id n w A) :
    ∃ A0 es, Played3D P id n A0 es w A := by
  induction h with
  | start hw h => exact ⟨_, _, .start hw h⟩
  | slide k v _ he ih =>
    obtain ⟨A0, es, h⟩ := ih
    exact ⟨A0, _, .slide k v h he⟩
  | call op _ ho hp ih =>
    obtain ⟨A0, es, h⟩ := ih
    exact ⟨A0, _, .call op h ho hp⟩

theorem played3d_of_fold {P : Op → Prop} {id n : ℕ} {A0 : Analyzer3D} : ∀ (evs : List (String × ℝ)) {es : List (String × ℝ)}
    {w w' : World} {A A' : Analyzer3D}, Played3D P id n A0 es w A →
    (evs.foldlM (fun A e => A.slide id e.1 e.2) A : M Analyzer3D) w = (.ok A', w') → Played3D P id n A0 (es ++ evs) w' A'
  | [], es, w, w', A, A', h, he => by
    have he : ((.ok A, w) : Py Analyzer3D × World) = (.ok A', w') := he
    cases he
    simpa using h
  | e :: evs, es, w, w', A, A', h, he => by
    rw [List.foldlM_cons] at he
    obtain ⟨A1, w1, h1, h2⟩ := bind_ok_inv he
    have := played3d_of_fold evs (h.slide e.1 e.2 h1) h2
    simpa using this

example (b : Backend) (q s d : Bool) {I : ℝ} (hI : s = true → I ≠ 0) (t p τ ω N : ℝ) {n : ℕ} (hn : n ≠ 0)
    (evs : List (String × ℝ)) : ∃ A0 A w, Played3D (fun _ => False) 0 n A0 evs w A := by
  obtain ⟨A, w', h⟩ := num_slides b q s d hI t p τ ω N hn evs
  obtain ⟨A1, w1, h1, h2⟩ := bind_ok_inv h
  exact ⟨A1, A, w', played3d_of_fold (P := fun _ => False) _ (.start (num_reachable ..) h1) h2⟩

end

end RT1
