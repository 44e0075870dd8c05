import Verif.Model.AnalyzeFigure
import Verif.Props.Analyze
import Verif.Props.Analyze3D

/-!
# The figures of the analyzers
-/

namespace RT1

noncomputable section
open Classical

/-! ## Specification -/

/-- Places of sliders in `cols` columns: nothing is left out, the places are different and follow one another from left
to right and top to bottom, inside of `rows` rows of which none is empty (there is one row if there is no slider). -/
structure Placed {α : Type} (cols rows : ℕ) (l : List α) (placed : List (α × (ℕ × ℕ))) : Prop where
  all : placed.map Prod.fst = l
  nodup : (placed.map Prod.snd).Nodup
  inside : ∀ p ∈ placed, p.2.1 < rows ∧ p.2.2 < cols
  order : ∀ (i j : ℕ) (p q : α × (ℕ × ℕ)), placed[i]? = some p → placed[j]? = some q → i < j →
    p.2.1 < q.2.1 ∨ p.2.1 = q.2.1 ∧ p.2.2 < q.2.2
  used : l ≠ [] → ∀ r, r < rows → ∃ p ∈ placed, p.2.1 = r
  one : l = [] → rows = 1

/-! ## Lemmas -/

theorem sliderRows_enough (n : ℕ) {cols : ℕ} (hc : 0 < cols) : n ≤ sliderRows n cols * cols := by
  have h1 : (n : ℝ) / cols ≤ ⌈(n : ℝ) / cols⌉₊ := Nat.le_ceil _
  have hc' : (0 : ℝ) < cols := by exact_mod_cast hc
  rw [div_le_iff₀ hc'] at h1
  have h2 : n ≤ ⌈(n : ℝ) / cols⌉₊ * cols := by exact_mod_cast h1
  exact h2.trans (Nat.mul_le_mul_right _ (le_max_right _ _))

theorem sliderRows_tight {n cols r : ℕ} (hc : 0 < cols) (hn : 0 < n) (hr : r < sliderRows n cols) : r * cols < n := by
  unfold sliderRows at hr
  rcases lt_max_iff.mp hr with h | h
  · have : r = 0 := by omega
    subst this
    simpa using hn
  · rw [Nat.lt_ceil, lt_div_iff₀ (by exact_mod_cast hc)] at h
    exact_mod_cast h

theorem placeSliders_get {α : Type} {cols : ℕ} (hc : 0 < cols) (params : List (String × α)) {k : ℕ}
    {p : (String × α) × (ℕ × ℕ)} :
    (placeSliders cols params)[k]? = some p ↔ params[k]? = some p.1 ∧ p.2 = (k / cols, k % cols) := by
  unfold placeSliders gridCells
  rw [List.getElem?_zip_eq_some]
  refine and_congr_right fun hk => ?_
  have h1 := (List.getElem?_eq_some_iff.mp hk).1
  have h2 := sliderRows_enough params.length hc
  rw [List.getElem?_map, List.getElem?_range (by omega)]
  simp [eq_comm]

theorem divmod_lt {cols i j : ℕ} (h : i < j) :
    i / cols < j / cols ∨ i / cols = j / cols ∧ i % cols < j % cols := by
  rcases Nat.lt_or_ge (i / cols) (j / cols) with hl | hl
  · exact Or.inl hl
  · have heq : i / cols = j / cols := le_antisymm (Nat.div_le_div_right h.le) hl
    refine Or.inr ⟨heq, ?_⟩
    have h1 := Nat.div_add_mod i cols
    have h2 := Nat.div_add_mod j cols
    rw [heq] at h1
    omega

/-! ## C95 -/

/-- The loop over sliders and cells of the grid leaves out no slider, for any number of columns. -/
theorem C95_places {α : Type} {cols : ℕ} (hc : 0 < cols) (params : List (String × α)) :
    Placed cols (sliderRows params.length cols) params (placeSliders cols params) := by
  have hget := fun k p => placeSliders_get hc params (k := k) (p := p)
  have hord : ∀ (i j : ℕ) (p q : (String × α) × (ℕ × ℕ)), (placeSliders cols params)[i]? = some p → (placeSliders cols params)[j]? = some q → i < j →
      p.2.1 < q.2.1 ∨ p.2.1 = q.2.1 ∧ p.2.2 < q.2.2 := by
    intro i j p q hp hq hij
    rw [((hget i p).mp hp).2, ((hget j q).mp hq).2]
    exact divmod_lt hij
  have hen := sliderRows_enough params.length hc
  refine ⟨?_, ?_, ?_, hord, ?_, ?_⟩
  · unfold placeSliders gridCells
    exact List.map_fst_zip (by simpa using hen)
  · rw [List.nodup_iff_getElem?_ne_getElem?]
    intro i j hij hj hne
    rw [List.length_map] at hj
    have hi : i < (placeSliders cols params).length := by omega
    rw [List.getElem?_map, List.getElem?_map, List.getElem?_eq_getElem hi, List.getElem?_eq_getElem hj,
      Option.map_some, Option.map_some, Option.some.injEq] at hne
    have := hord i j _ _ (List.getElem?_eq_getElem hi) (List.getElem?_eq_getElem hj) hij
    rw [hne] at this
    omega
  · intro p hp
    obtain ⟨k, hk⟩ := List.mem_iff_getElem?.mp hp
    obtain ⟨h1, h2⟩ := (hget k p).mp hk
    rw [h2]
    have := (List.getElem?_eq_some_iff.mp h1).1
    exact ⟨(Nat.div_lt_iff_lt_mul hc).mpr (by omega), Nat.mod_lt _ hc⟩
  · intro hne r hr
    have hlt := sliderRows_tight hc (List.length_pos_iff.mpr hne) hr
    refine ⟨_, List.mem_iff_getElem?.mpr ⟨r * cols, (hget _ (params[r * cols], (r * cols / cols, r * cols % cols))).mpr
      ⟨List.getElem?_eq_getElem hlt, rfl⟩⟩, ?_⟩
    exact Nat.mul_div_cancel _ hc
  · rintro rfl
    simp [sliderRows]

/-- The sliders of a new analyzer: one for every supplied parameter that the model uses, in the order given, each with
a place of its own in two columns. -/
theorem C95_sliders {w w' : World} (hw : Reachable w) {id : ℕ} {o : Obj} (ho : w.objs id = some o)
    {r : Option String} {ps : List (String × List SliderArg)} {A : Analyzer} (h : analyze id r ps w = (.ok A, w')) :
    ∃ rows, Placed 2 rows A.sliders (placeSliders 2 A.sliders) ∧
      (placeSliders 2 A.sliders).map (fun p => p.1.1) = (ps.map Prod.fst).filter fun n => decide (o.Needs n) := by
  have hp := C95_places (cols := 2) (by norm_num) A.sliders
  refine ⟨_, hp, ?_⟩
  have h1 := (C64_sliders hw ho h).1
  have h2 : ∀ {l : List (String × List SliderArg)} {m : List (String × Slider)},
      List.Forall₂ (fun p q => q.1 = p.1 ∧ SliderFor p.2 q.2) l m → m.map Prod.fst = l.map Prod.fst := by
    intro l m hlm
    induction hlm with
    | nil => rfl
    | cons hx _ ih => rw [List.map_cons, List.map_cons, hx.1, ih]
  have h3 := h2 h1
  rw [show (placeSliders 2 A.sliders).map (fun p => p.1.1) = ((placeSliders 2 A.sliders).map Prod.fst).map Prod.fst by
    rw [List.map_map]; rfl, hp.all, h3, List.filter_map]
  rfl

/-- The same for the 3D analyzer. -/
theorem C95_sliders3d {w w' : World} (hw : Reachable w) {id n : ℕ} {o : Obj} (ho : w.objs id = some o)
    {cs : List Char} {ps : List (String × List SliderArg)} {A : Analyzer3D}
    (h : analyze3d id n cs ps w = (.ok A, w')) :
    ∃ rows, Placed 2 rows A.sliders (placeSliders 2 A.sliders) ∧
      (placeSliders 2 A.sliders).map (fun p => p.1.1) = (ps.map Prod.fst).filter fun n => decide (o.Needs n) := by
  have hp := C95_places (cols := 2) (by norm_num) A.sliders
  refine ⟨_, hp, ?_⟩
  have h1 := (C64_sliders3d hw ho h).1
  have h2 : ∀ {l : List (String × List SliderArg)} {m : List (String × Slider)},
      List.Forall₂ (fun p q => q.1 = p.1 ∧ SliderFor p.2 q.2) l m → m.map Prod.fst = l.map Prod.fst := by
    intro l m hlm
    induction hlm with
    | nil => rfl
    | cons hx _ ih => rw [List.map_cons, List.map_cons, hx.1, ih]
  have h3 := h2 h1
  rw [show (placeSliders 2 A.sliders).map (fun p => p.1.1) = ((placeSliders 2 A.sliders).map Prod.fst).map Prod.fst by
    rw [List.map_map]; rfl, hp.all, h3, List.filter_map]
  rfl

/-- The button that is active in a new analyzer is the one of the range parameter, "None" if there is none. -/
theorem C95_active {w w' : World} (hw : Reachable w) {id : ℕ} {o : Obj} (ho : w.objs id = some o)
    {r : Option String} (hr : r ≠ some "") {ps : List (String × List SliderArg)} {A : Analyzer}
    (h : analyze id r ps w = (.ok A, w')) :
    ∃ i, activeButton r (A.sliders.map Prod.fst) = .ok i ∧
      (rangeButtons (A.sliders.map Prod.fst))[i]? = some (r.getD "None") := by
  cases r with
  | none => exact ⟨0, rfl, rfl⟩
  | some k =>
    have hk := (C64_sliders hw ho h).2.2 k rfl
    have hne : k ≠ "" := fun hc => hr (by rw [hc])
    have hm : k ∈ rangeButtons (A.sliders.map Prod.fst) := List.mem_cons_of_mem _ hk
    unfold activeButton
    simp only [if_neg hne]
    cases hi : (rangeButtons (A.sliders.map Prod.fst)).idxOf? k with
    | none => exact absurd hm (by simpa using hi)
    | some i =>
      refine ⟨i, rfl, ?_⟩
      rw [List.idxOf?, List.findIdx?_eq_some_iff_getElem] at hi
      obtain ⟨h1, h2, -⟩ := hi
      rw [List.getElem?_eq_getElem h1]
      simpa using h2

/-- There is a button for every slider; clicking it selects this parameter, the button "None" selects no parameter;
the sliders stay where they are. -/
theorem C95_click (A : Analyzer) :
    (∀ n ∈ A.sliders.map Prod.fst, n ≠ "None" → n ∈ rangeButtons (A.sliders.map Prod.fst) ∧
      (A.apply (clickButton n)).range = some n) ∧
    "None" ∈ rangeButtons (A.sliders.map Prod.fst) ∧ (A.apply (clickButton "None")).range = none ∧
    ∀ n, (A.apply (clickButton n)).sliders = A.sliders := by
  refine ⟨fun n hn hne => ⟨List.mem_cons_of_mem _ hn, ?_⟩, List.mem_cons_self .., ?_, fun n => ?_⟩
  · unfold clickButton; rw [if_neg hne]; rfl
  · unfold clickButton; rw [if_pos rfl]; rfl
  · unfold clickButton; split_ifs <;> rfl

/-- No button selects a parameter called "None". -/
theorem C95_none_negation (A : Analyzer) (n : String) : (A.apply (clickButton n)).range ≠ some "None" := by
  unfold clickButton
  split_ifs with h
  · simp [Analyzer.apply]
  · simpa [Analyzer.apply] using h

/-- The label of the vertical axis tells the units of the object apart. -/
theorem C95_units (s d s' d' : Bool) : analyzeYLabel s d = analyzeYLabel s' d' ↔ s = s' ∧ d = d' := by
  cases s <;> cases d <;> cases s' <;> cases d' <;> simp [analyzeYLabel]

/-- An analyzer that can be created: one slider is placed. -/
example (b : Backend) (s d : Bool) (I t p τ ω N : ℝ) : ∃ A w',
    analyze 0 none [("tau", [.number 0, .number 1, .number (1 / 4)]), ("x", [.number 0, .number 1])]
      (numW b isoV isoS false s d I t p τ ω N) = (.ok A, w') ∧
    ∃ rows, Placed 2 rows A.sliders (placeSliders 2 A.sliders) ∧ ∃ i, activeButton none (A.sliders.map Prod.fst) = .ok i := by
  obtain ⟨A, w', sl, h, -⟩ := num_one b s d I t p τ ω N
  obtain ⟨rows, hp, -⟩ := C95_sliders (num_reachable ..) (num_objs ..) h
  obtain ⟨i, hi, -⟩ := C95_active (num_reachable ..) (num_objs ..) (by simp) h
  exact ⟨A, w', h, rows, hp, i, hi⟩

/-- Three sliders: two rows, the third slider is the first one of the second row. -/
example : placeSliders 2 [("tau", ()), ("omega", ()), ("t", ())] =
    [(("tau", ()), (0, 0)), (("omega", ()), (0, 1)), (("t", ()), (1, 0))] := by
  have h : ∀ k < 3, (placeSliders 2 [("tau", ()), ("omega", ()), ("t", ())])[k]? =
      [(("tau", ()), (0, 0)), (("omega", ()), (0, 1)), (("t", ()), (1, 0))][k]? := by
    intro k hk
    have : k = 0 ∨ k = 1 ∨ k = 2 := by omega
    rcases this with rfl | rfl | rfl <;> exact (placeSliders_get (by norm_num) _).mpr ⟨rfl, rfl⟩
  have hl := congrArg List.length (C95_places (cols := 2) (by norm_num) [("tau", ()), ("omega", ()), ("t", ())]).all
  rw [List.length_map] at hl
  refine List.ext_getElem? fun k => ?_
  by_cases hk : k < 3
  · exact h k hk
  · rw [List.getElem?_eq_none (by rw [hl]; simpa using hk), List.getElem?_eq_none (by simpa using hk)]

end

end RT1
