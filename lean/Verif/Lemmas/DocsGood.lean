import Verif.Lemmas.DocsPrint

/-!
# Merged docstrings can be written down
-/

namespace RT1.Docs

theorem firsts_subset (seen : List Line) (ps : List Param) : ∀ p ∈ firsts seen ps, p ∈ ps := by
  induction ps generalizing seen with
  | nil => simp [firsts]
  | cons q ps ih =>
    intro p hp
    rw [firsts] at hp
    split at hp
    · exact List.mem_cons_of_mem _ (ih _ p hp)
    · rcases List.mem_cons.mp hp with rfl | hp
      · simp
      · exact List.mem_cons_of_mem _ (ih _ p hp)

theorem mem_plist {d : Doc} {k : PSec} {p : Param} (h : p ∈ d.plist k) : ∃ ps, .params k ps ∈ d.sections ∧ p ∈ ps := by
  obtain ⟨s, hs, hp⟩ := List.mem_flatMap.mp h
  cases s with
  | params j ps =>
    by_cases e : j = k
    · subst e
      exact ⟨ps, hs, by simpa using hp⟩
    · simp [e] at hp
  | text j ls => simp at hp

theorem mem_text {d : Doc} {k : TSec} {l : Line} (h : l ∈ d.text k) : ∃ ls, .text k ls ∈ d.sections ∧ l ∈ ls := by
  obtain ⟨s, hs, hp⟩ := List.mem_flatMap.mp h
  cases s with
  | params j ps => simp at hp
  | text j ls =>
    by_cases e : j = k
    · subst e
      exact ⟨ls, hs, by simpa using hp⟩
    · simp [e] at hp

theorem text_eq_nil {ss : List Section} {k : TSec} (h : k.title ∉ ss.map Section.title) : Doc.text ⟨[], ss⟩ k = [] := by
  rw [List.eq_nil_iff_forall_not_mem]
  intro l hl
  obtain ⟨ls, hs, _⟩ := mem_text hl
  exact h (List.mem_map.mpr ⟨_, hs, rfl⟩)

theorem text_mem {o : List (List Line)} {ss : List Section} (h : (ss.map Section.title).Nodup) {k : TSec}
    (hk : Doc.text ⟨o, ss⟩ k ≠ []) : .text k (Doc.text ⟨o, ss⟩ k) ∈ ss := by
  induction ss with
  | nil => exact absurd rfl hk
  | cons s ss ih =>
    rw [List.map_cons, List.nodup_cons] at h
    have hstep : Doc.text ⟨o, s :: ss⟩ k = Doc.text ⟨o, [s]⟩ k ++ Doc.text ⟨o, ss⟩ k := by
      simp [Doc.text]
    by_cases e : ∃ ls, s = .text k ls
    · obtain ⟨ls, rfl⟩ := e
      have h2 : Doc.text ⟨o, ss⟩ k = [] := text_eq_nil h.1
      rw [hstep, h2]
      simp [Doc.text]
    · have h1 : Doc.text ⟨o, [s]⟩ k = [] := by
        cases s with
        | params j ps => rfl
        | text j ls =>
          have : j ≠ k := fun e' => e ⟨ls, by rw [e']⟩
          simp [Doc.text, this]
      rw [hstep, h1, List.nil_append] at hk ⊢
      exact List.mem_cons_of_mem _ (ih h.2 hk)

theorem mem_params {f : PSec → List Param} {ks : List PSec} {s : Section} (h : s ∈ ks.flatMap (paramSection f)) :
    ∃ k ∈ ks, f k ≠ [] ∧ s = .params k (f k) := by
  obtain ⟨k, hk, hs⟩ := List.mem_flatMap.mp h
  rw [paramSection] at hs
  split at hs
  · simp at hs
  · rename_i hne
    exact ⟨k, hk, hne, by simpa using hs⟩

theorem mem_texts {f : TSec → List Line} {k : TSec} {s : Section} (h : s ∈ textSection f k) :
    f k ≠ [] ∧ s = .text k (f k) := by
  rw [textSection] at h
  split at h
  · simp at h
  · rename_i hne
    exact ⟨hne, by simpa using h⟩

theorem mem_sectionsOf {f : PSec → List Param} {g : TSec → List Line} {s : Section} (h : s ∈ sectionsOf f g) :
    (∃ k, f k ≠ [] ∧ s = .params k (f k)) ∨ ∃ k, g k ≠ [] ∧ s = .text k (g k) := by
  rw [sectionsOf] at h
  rcases List.mem_append.mp h with h | h
  · rcases List.mem_append.mp h with h | h
    · rcases List.mem_append.mp h with h | h
      · obtain ⟨k, _, h⟩ := mem_params h
        exact .inl ⟨k, h⟩
      · exact .inr ⟨_, mem_texts h⟩
    · obtain ⟨k, _, h⟩ := List.mem_flatMap.mp h
      exact .inr ⟨k, mem_texts h⟩
  · obtain ⟨k, _, h⟩ := mem_params h
    exact .inl ⟨k, h⟩

theorem params_mem_sectionsOf {f : PSec → List Param} {g : TSec → List Line} {k : PSec} (h : f k ≠ []) :
    .params k (f k) ∈ sectionsOf f g := by
  have hp : Section.params k (f k) ∈ paramSection f k := by
    rw [paramSection, if_neg h]
    simp
  rw [sectionsOf]
  by_cases e : k = .attributes ∨ k = .methods
  · exact List.mem_append_right _ (List.mem_flatMap.mpr ⟨k, by rcases e with rfl | rfl <;> simp, hp⟩)
  · refine List.mem_append_left _ (List.mem_append_left _ (List.mem_append_left _ (List.mem_flatMap.mpr ⟨k, ?_, hp⟩)))
    cases k <;> simp at e ⊢

theorem text_mem_sectionsOf {f : PSec → List Param} {g : TSec → List Line} {k : TSec} (h : g k ≠ []) :
    .text k (g k) ∈ sectionsOf f g := by
  have hp : Section.text k (g k) ∈ textSection g k := by
    rw [textSection, if_neg h]
    simp
  rw [sectionsOf]
  refine List.mem_append_left _ ?_
  by_cases e : k = .warnings
  · subst e
    exact List.mem_append_left _ (List.mem_append_right _ hp)
  · refine List.mem_append_right _ (List.mem_flatMap.mpr ⟨k, ?_, hp⟩)
    cases k <;> simp at e ⊢

theorem titles_params (f : PSec → List Param) (ks : List PSec) :
    ((ks.flatMap (paramSection f)).map Section.title).Sublist (ks.map PSec.title) := by
  induction ks with
  | nil => simp
  | cons k ks ih =>
    rw [List.flatMap_cons, List.map_append, List.map_cons, paramSection]
    split
    · exact ih.cons _
    · exact ih.cons_cons _

theorem titles_texts (f : TSec → List Line) (ks : List TSec) :
    ((ks.flatMap (textSection f)).map Section.title).Sublist (ks.map TSec.title) := by
  induction ks with
  | nil => simp
  | cons k ks ih =>
    rw [List.flatMap_cons, List.map_append, List.map_cons, textSection]
    split
    · exact ih.cons _
    · exact ih.cons_cons _

theorem sectionsOf_once (f : PSec → List Param) (g : TSec → List Line) : ((sectionsOf f g).map Section.title).Nodup := by
  have h : ((sectionsOf f g).map Section.title).Sublist
      (([PSec.parameters, .returns, .yields, .receives, .other, .raises, .warns].map PSec.title ++ [TSec.warnings].map TSec.title ++
        [TSec.notes, .references, .examples].map TSec.title) ++ [PSec.attributes, .methods].map PSec.title) := by
    rw [sectionsOf, List.map_append, List.map_append, List.map_append]
    refine ((List.Sublist.append (titles_params _ _) ?_).append (titles_texts _ _)).append (titles_params _ _)
    have := titles_texts g [TSec.warnings]
    rwa [List.flatMap_cons, List.flatMap_nil, List.append_nil] at this
  exact h.nodup (by decide)

theorem title_sectionsOf {f : PSec → List Param} {g : TSec → List Line} {k : PSec} :
    k.title ∈ (sectionsOf f g).map Section.title ↔ f k ≠ [] := by
  constructor
  · intro h
    obtain ⟨s, hs, e⟩ := List.mem_map.mp h
    rcases mem_sectionsOf hs with ⟨j, hj, rfl⟩ | ⟨j, hj, rfl⟩
    · have : j = k := Section.title_inj_params e
      rwa [← this]
    · exfalso
      have e : j.title = k.title := e
      cases j <;> cases k <;> exact absurd e (by decide)
  · intro h
    exact List.mem_map.mpr ⟨_, params_mem_sectionsOf h, rfl⟩

theorem plist_append (o : List (List Line)) (a b : List Section) (k : PSec) :
    Doc.plist ⟨o, a ++ b⟩ k = Doc.plist ⟨o, a⟩ k ++ Doc.plist ⟨o, b⟩ k := List.flatMap_append

theorem text_append (o : List (List Line)) (a b : List Section) (k : TSec) :
    Doc.text ⟨o, a ++ b⟩ k = Doc.text ⟨o, a⟩ k ++ Doc.text ⟨o, b⟩ k := List.flatMap_append

theorem plist_param (o : List (List Line)) (f : PSec → List Param) (j k : PSec) :
    Doc.plist ⟨o, paramSection f j⟩ k = if j = k then f j else [] := by
  rw [paramSection]
  split
  · rename_i h
    rw [h]
    simp [Doc.plist]
  · simp [Doc.plist]

theorem plist_text (o : List (List Line)) (f : TSec → List Line) (j : TSec) (k : PSec) :
    Doc.plist ⟨o, textSection f j⟩ k = [] := by
  rw [textSection]
  split <;> simp [Doc.plist]

theorem text_text (o : List (List Line)) (f : TSec → List Line) (j k : TSec) :
    Doc.text ⟨o, textSection f j⟩ k = if j = k then f j else [] := by
  rw [textSection]
  split
  · rename_i h
    rw [h]
    simp [Doc.text]
  · simp [Doc.text]

theorem text_param (o : List (List Line)) (f : PSec → List Param) (j : PSec) (k : TSec) :
    Doc.text ⟨o, paramSection f j⟩ k = [] := by
  rw [paramSection]
  split <;> simp [Doc.text]

theorem plist_sectionsOf (o : List (List Line)) (f : PSec → List Param) (g : TSec → List Line) (k : PSec) :
    Doc.plist ⟨o, sectionsOf f g⟩ k = f k := by
  simp only [sectionsOf, List.flatMap_cons, List.flatMap_nil, plist_append, plist_param, plist_text, List.append_nil]
  cases k <;> simp [Doc.plist]

theorem text_sectionsOf (o : List (List Line)) (f : PSec → List Param) (g : TSec → List Line) :
    Doc.text ⟨o, sectionsOf f g⟩ = g := by
  funext k
  simp only [sectionsOf, List.flatMap_cons, List.flatMap_nil, text_append, text_param, text_text, List.append_nil]
  cases k <;> simp [Doc.text]

theorem mergeAll_append (o : Outside) (P : Parsed) (a b : List (Option (List Char))) :
    mergeAll o P (a ++ b) = (mergeAll o P a).bind fun Q => mergeAll o Q b := by
  induction a generalizing P with
  | nil => rfl
  | cons t a ih =>
    rw [List.cons_append, mergeAll, mergeAll]
    cases t.getD [] with
    | nil => exact ih P
    | cons c u =>
      show (parse o (c :: u)).bind (fun d => (merge P d).bind fun c => mergeAll o c (a ++ b)) =
        ((parse o (c :: u)).bind fun d => (merge P d).bind fun c => mergeAll o c a).bind _
      cases parse o (c :: u) with
      | error e => rfl
      | ok d =>
        show (merge P d).bind (fun c => mergeAll o c (a ++ b)) = ((merge P d).bind fun c => mergeAll o c a).bind _
        cases merge P d with
        | error e => rfl
        | ok c => exact ih c

theorem plist_title {sig : List Line → Bool} {d : Doc} (h : d.Good sig) {k : PSec} :
    k.title ∈ d.sections.map Section.title ↔ d.plist k ≠ [] := by
  constructor
  · intro hk
    obtain ⟨s, hs, e⟩ := List.mem_map.mp hk
    cases s with
    | params j ps =>
      obtain rfl : j = k := Section.title_inj_params e
      obtain ⟨p, ps', rfl⟩ := List.exists_cons_of_ne_nil (h.sections _ hs).1
      exact List.ne_nil_of_mem (List.mem_flatMap.mpr ⟨_, hs, by simp⟩ : p ∈ d.plist j)
    | text j ls =>
      exfalso
      have e : j.title = k.title := e
      cases j <;> cases k <;> exact absurd e (by decide)
  · intro hk
    obtain ⟨p, ps, e⟩ := List.exists_cons_of_ne_nil hk
    obtain ⟨qs, hq, _⟩ := mem_plist (show p ∈ d.plist k by rw [e]; simp)
    exact List.mem_map.mpr ⟨_, hq, rfl⟩

theorem head_opening {es : List Doc} {b : List Line}
    (h : b ∈ (es.flatMap (fun e => e.opening.take 1) ++ es.flatMap fun e => e.opening.drop 1).head?) :
    ∃ e ∈ es, b ∈ e.opening.head? := by
  cases hc : es.flatMap fun e => e.opening.take 1 with
  | nil =>
    have h0 : (es.flatMap fun e => e.opening.drop 1) = [] := by
      rw [List.flatMap_eq_nil_iff] at hc ⊢
      intro e he
      have := hc e he
      cases ho : e.opening with
      | nil => rfl
      | cons b bs =>
        rw [ho] at this
        simp at this
    rw [hc, h0] at h
    simp at h
  | cons c cs =>
    rw [hc] at h
    obtain rfl : c = b := by simpa using h
    have hm : c ∈ es.flatMap fun e => e.opening.take 1 := by
      rw [hc]
      simp
    obtain ⟨e, he, hb⟩ := List.mem_flatMap.mp hm
    refine ⟨e, he, ?_⟩
    cases ho : e.opening with
    | nil =>
      rw [ho] at hb
      simp at hb
    | cons x xs =>
      rw [ho] at hb
      obtain rfl : c = x := by simpa using hb
      simp

theorem mem_opening {es : List Doc} {b : List Line} :
    b ∈ (es.flatMap (fun e => e.opening.take 1) ++ es.flatMap fun e => e.opening.drop 1) ↔ ∃ e ∈ es, b ∈ e.opening := by
  rw [List.mem_append, List.mem_flatMap, List.mem_flatMap]
  have h : ∀ e : Doc, b ∈ e.opening ↔ b ∈ e.opening.take 1 ∨ b ∈ e.opening.drop 1 := fun e => by
    rw [← List.mem_append, List.take_append_drop]
  constructor
  · rintro (⟨e, he, hb⟩ | ⟨e, he, hb⟩)
    · exact ⟨e, he, (h e).2 (.inl hb)⟩
    · exact ⟨e, he, (h e).2 (.inr hb)⟩
  · rintro ⟨e, he, hb⟩
    rcases (h e).1 hb with hb | hb
    · exact .inl ⟨e, he, hb⟩
    · exact .inr ⟨e, he, hb⟩

theorem combine_opening (d : Doc) (ds : List Doc) :
    (combine d ds).opening = (d :: ds).flatMap (fun e => e.opening.take 1) ++ (d :: ds).flatMap fun e => e.opening.drop 1 := rfl

/-- The parameters of the merged docstring are among those of the docstrings. -/
theorem combined_params (d : Doc) (ds : List Doc) (k : PSec) :
    (∀ p ∈ (if k = PSec.parameters then d.plist k ++ firsts ((d.plist k).map Param.name) (ds.flatMap fun b => b.plist k)
      else d.plist k ++ ds.flatMap fun b => b.plist k), ∃ e ∈ d :: ds, p ∈ e.plist k) ∧
    ((if k = PSec.parameters then d.plist k ++ firsts ((d.plist k).map Param.name) (ds.flatMap fun b => b.plist k)
      else d.plist k ++ ds.flatMap fun b => b.plist k) = [] ↔ ∀ e ∈ d :: ds, e.plist k = []) := by
  have hmem : ∀ p, p ∈ ds.flatMap (fun b => b.plist k) → ∃ e ∈ d :: ds, p ∈ e.plist k := fun p hp => by
    obtain ⟨b, hb, hp⟩ := List.mem_flatMap.mp hp
    exact ⟨b, by simp [hb], hp⟩
  constructor
  · intro p hp
    split at hp
    · rcases List.mem_append.mp hp with hp | hp
      · exact ⟨d, by simp, hp⟩
      · exact hmem p (firsts_subset _ _ p hp)
    · rcases List.mem_append.mp hp with hp | hp
      · exact ⟨d, by simp, hp⟩
      · exact hmem p hp
  · rw [List.forall_mem_cons]
    have hf : ∀ l : List Param, firsts [] l = [] ↔ l = [] := fun l => by
      cases l <;> simp [firsts]
    split
    · rw [List.append_eq_nil_iff]
      constructor
      · rintro ⟨h1, h2⟩
        rw [h1, List.map_nil, hf, List.flatMap_eq_nil_iff] at h2
        exact ⟨h1, h2⟩
      · rintro ⟨h1, h2⟩
        rw [h1, List.map_nil, hf, List.flatMap_eq_nil_iff]
        exact ⟨rfl, h2⟩
    · rw [List.append_eq_nil_iff, List.flatMap_eq_nil_iff]

/-- The merged docstring can be written down if its parts can, the merged ones have no text
sections, and they do not mix functions that return with functions that yield. -/
theorem Doc.Good.combine {sig : List Line → Bool} {d : Doc} {ds : List Doc} (hd : d.Good sig) (hds : ∀ b ∈ ds, b.Good sig)
    (ht : ∀ b ∈ ds, ∀ k, b.text k = [])
    (hr : (∀ b ∈ d :: ds, b.plist .returns = []) ∨ ∀ b ∈ d :: ds, b.plist .yields = []) : (combine d ds).Good sig := by
  have hall : ∀ e ∈ d :: ds, e.Good sig := List.forall_mem_cons.mpr ⟨hd, hds⟩
  have htx : (fun k => d.text k ++ ds.flatMap fun b => b.text k) = d.text := by
    funext k
    rw [List.flatMap_eq_nil_iff.mpr fun b hb => ht b hb k, List.append_nil]
  have hsec : (Docs.combine d ds).sections = sectionsOf (fun k => if k = PSec.parameters then
      d.plist k ++ firsts ((d.plist k).map Param.name) (ds.flatMap fun b => b.plist k) else d.plist k ++ ds.flatMap fun b => b.plist k)
      d.text := by
    rw [← htx]
    rfl
  refine ⟨?_, ?_, ?_, ?_, ?_, ?_, ?_⟩
  · intro b hb
    rw [combine_opening, mem_opening] at hb
    obtain ⟨e, he, hb⟩ := hb
    exact (hall e he).opening b hb
  · intro b hb
    rw [combine_opening] at hb
    obtain ⟨e, he, hb⟩ := head_opening hb
    exact (hall e he).signature b hb
  · by_cases hs : (Docs.combine d ds).sections = []
    · right
      have hno : ∀ e ∈ d :: ds, e.sections = [] := by
        intro e he
        by_contra hne
        obtain ⟨s, ss, es⟩ := List.exists_cons_of_ne_nil hne
        have hm : s ∈ e.sections := by
          rw [es]
          simp
        cases s with
        | params k ps =>
          have h1 : e.plist k ≠ [] := (plist_title (hall e he)).1 (List.mem_map.mpr ⟨_, hm, rfl⟩)
          have h2 := params_mem_sectionsOf (g := d.text) (f := fun k => if k = PSec.parameters then
            d.plist k ++ firsts ((d.plist k).map Param.name) (ds.flatMap fun b => b.plist k)
            else d.plist k ++ ds.flatMap fun b => b.plist k) (k := k) fun h0 => h1 (((combined_params d ds k).2.1 h0) e he)
          rw [← hsec, hs] at h2
          simp at h2
        | text k ls =>
          obtain ⟨l, ls', rfl⟩ := List.exists_cons_of_ne_nil ((hall e he).sections _ hm).1
          have h1 : l ∈ e.text k := List.mem_flatMap.mpr ⟨_, hm, by simp⟩
          rcases List.mem_cons.mp he with rfl | he
          · have h2 := text_mem_sectionsOf (f := fun k => if k = PSec.parameters then
              e.plist k ++ firsts ((e.plist k).map Param.name) (ds.flatMap fun b => b.plist k)
              else e.plist k ++ ds.flatMap fun b => b.plist k) (g := e.text) (List.ne_nil_of_mem h1)
            rw [← hsec, hs] at h2
            simp at h2
          · rw [ht e he k] at h1
            simp at h1
      by_cases ho : (Docs.combine d ds).opening = []
      · exact .inl ho
      · right
        obtain ⟨b, bs, eb⟩ := List.exists_cons_of_ne_nil ho
        have hb : b ∈ (Docs.combine d ds).opening := by
          rw [eb]
          simp
        rw [combine_opening, mem_opening] at hb
        obtain ⟨e, he, hb⟩ := hb
        rcases (hall e he).flush with h | h | ⟨b', hb', h⟩
        · exact absurd (hno e he) h
        · rw [h] at hb
          simp at hb
        · refine ⟨b', ?_, h⟩
          rw [combine_opening, mem_opening]
          exact ⟨e, he, hb'⟩
    · exact .inl hs
  · intro s hs
    rw [hsec] at hs
    rcases mem_sectionsOf hs with ⟨k, hk, rfl⟩ | ⟨k, hk, rfl⟩
    · refine ⟨hk, fun p hp => ?_⟩
      obtain ⟨e, he, hp⟩ := (combined_params d ds k).1 p hp
      obtain ⟨ps, hs, hp⟩ := mem_plist hp
      exact ((hall e he).sections _ hs).2 p hp
    · exact hd.sections _ (text_mem hd.once hk)
  · rw [hsec]
    exact sectionsOf_once _ _
  · rw [hsec]
    rintro ⟨h1, h2⟩
    rw [title_sectionsOf] at h1 h2
    rcases hr with hr | hr
    · exact h1 ((combined_params d ds .returns).2.2 hr)
    · exact h2 ((combined_params d ds .yields).2.2 hr)
  · rw [hsec]
    intro h1
    rw [title_sectionsOf] at h1 ⊢
    intro h2
    apply h1
    refine (combined_params d ds .receives).2.2 fun e he => ?_
    have hy := (combined_params d ds .yields).2.1 h2 e he
    by_contra hne
    have := (hall e he).receives ((plist_title (hall e he)).2 hne)
    exact (plist_title (hall e he)).1 this hy

end RT1.Docs
