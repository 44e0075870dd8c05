import Verif.Lemmas.Analyze3

/-!
Lemmas about the limits of the axes and the lines of the 3D analyzer.
-/

namespace RT1

noncomputable section
open Classical

theorem Arr.mem_idxs {s idx : List ℕ} : idx ∈ Arr.idxs s ↔ Arr.Valid s idx := by
  induction s generalizing idx with
  | nil =>
    rw [Arr.idxs, List.mem_singleton]
    constructor
    · rintro rfl; exact .nil
    · intro h; cases h; rfl
  | cons n s ih =>
    rw [Arr.idxs]
    simp only [List.mem_flatMap, List.mem_range, List.mem_map]
    constructor
    · rintro ⟨i, hi, l, hl, rfl⟩
      exact .cons hi (ih.mp hl)
    · intro h
      cases h with
      | cons h1 h2 => exact ⟨_, h1, _, ih.mpr h2, rfl⟩

theorem Arr.mem_entries {a : Arr} {v : XR} : v ∈ a.entries ↔ ∃ idx, Arr.Valid a.shape idx ∧ a.get idx = v := by
  simp only [Arr.entries, List.mem_map, Arr.mem_idxs]

theorem nanmax_nan {l : List XR} (h : ∀ v ∈ l, v = .nan) : nanmax l = .nan := by
  induction l with
  | nil => rfl
  | cons x l ih =>
    rw [nanmax, if_pos (h x (by simp)), ih fun v hv => h v (by simp [hv])]

theorem nanmin_nan {l : List XR} (h : ∀ v ∈ l, v = .nan) : nanmin l = .nan := by
  induction l with
  | nil => rfl
  | cons x l ih =>
    rw [nanmin, if_pos (h x (by simp)), ih fun v hv => h v (by simp [hv])]

/-- The largest finite value. -/
theorem nanmax_fin {l : List XR} (h : ∀ v ∈ l, v = .nan ∨ ∃ r, v = .fin r) (he : ∃ r, XR.fin r ∈ l) :
    ∃ M, nanmax l = .fin M ∧ XR.fin M ∈ l ∧ ∀ r, XR.fin r ∈ l → r ≤ M := by
  induction l with
  | nil => obtain ⟨r, hr⟩ := he; cases hr
  | cons x l ih =>
    have h' : ∀ v ∈ l, v = .nan ∨ ∃ r, v = .fin r := fun v hv => h v (by simp [hv])
    rcases h x (by simp) with rfl | ⟨a, rfl⟩
    · obtain ⟨r, hr⟩ := he
      obtain ⟨M, h1, h2, h3⟩ := ih h' ⟨r, by simpa using hr⟩
      refine ⟨M, by rw [nanmax, if_pos rfl, h1], by simp [h2], fun r hr => h3 r (by simpa using hr)⟩
    · by_cases hl : ∃ r, XR.fin r ∈ l
      · obtain ⟨M, h1, h2, h3⟩ := ih h' hl
        by_cases hlt : a < M
        · refine ⟨M, by rw [nanmax, if_neg (by simp), h1, if_pos (show XR.lt (.fin a) (.fin M) from hlt)],
            by simp [h2], fun r hr => ?_⟩
          rcases List.mem_cons.mp hr with hr | hr
          · cases hr; exact hlt.le
          · exact h3 r hr
        · refine ⟨a, by rw [nanmax, if_neg (by simp), h1, if_neg (show ¬ XR.lt (.fin a) (.fin M) from hlt)],
            by simp, fun r hr => ?_⟩
          rcases List.mem_cons.mp hr with hr | hr
          · cases hr; exact le_refl _
          · exact (h3 r hr).trans (not_lt.mp hlt)
      · have hn : nanmax l = .nan := nanmax_nan fun v hv => (h' v hv).resolve_right fun ⟨r, e⟩ => hl ⟨r, e ▸ hv⟩
        refine ⟨a, by rw [nanmax, if_neg (by simp), hn, if_neg (by simp [XR.lt])], by simp, fun r hr => ?_⟩
        rcases List.mem_cons.mp hr with hr | hr
        · cases hr; exact le_refl _
        · exact absurd ⟨r, hr⟩ hl

/-- The smallest finite value. -/
theorem nanmin_fin {l : List XR} (h : ∀ v ∈ l, v = .nan ∨ ∃ r, v = .fin r) (he : ∃ r, XR.fin r ∈ l) :
    ∃ M, nanmin l = .fin M ∧ XR.fin M ∈ l ∧ ∀ r, XR.fin r ∈ l → M ≤ r := by
  induction l with
  | nil => obtain ⟨r, hr⟩ := he; cases hr
  | cons x l ih =>
    have h' : ∀ v ∈ l, v = .nan ∨ ∃ r, v = .fin r := fun v hv => h v (by simp [hv])
    rcases h x (by simp) with rfl | ⟨a, rfl⟩
    · obtain ⟨r, hr⟩ := he
      obtain ⟨M, h1, h2, h3⟩ := ih h' ⟨r, by simpa using hr⟩
      refine ⟨M, by rw [nanmin, if_pos rfl, h1], by simp [h2], fun r hr => h3 r (by simpa using hr)⟩
    · by_cases hl : ∃ r, XR.fin r ∈ l
      · obtain ⟨M, h1, h2, h3⟩ := ih h' hl
        by_cases hlt : M < a
        · refine ⟨M, by rw [nanmin, if_neg (by simp), h1, if_pos (show XR.lt (.fin M) (.fin a) from hlt)],
            by simp [h2], fun r hr => ?_⟩
          rcases List.mem_cons.mp hr with hr | hr
          · cases hr; exact hlt.le
          · exact h3 r hr
        · refine ⟨a, by rw [nanmin, if_neg (by simp), h1, if_neg (show ¬ XR.lt (.fin M) (.fin a) from hlt)],
            by simp, fun r hr => ?_⟩
          rcases List.mem_cons.mp hr with hr | hr
          · cases hr; exact le_refl _
          · exact (not_lt.mp hlt).trans (h3 r hr)
      · have hn : nanmin l = .nan := nanmin_nan fun v hv => (h' v hv).resolve_right fun ⟨r, e⟩ => hl ⟨r, e ▸ hv⟩
        refine ⟨a, by rw [nanmin, if_neg (by simp), hn, if_neg (by simp [XR.lt])], by simp, fun r hr => ?_⟩
        rcases List.mem_cons.mp hr with hr | hr
        · cases hr; exact le_refl _
        · exact absurd ⟨r, hr⟩ hl

/-- The largest entry is infinite if some entry is. -/
theorem nanmax_pinf {l : List XR} (h : XR.pinf ∈ l) : nanmax l = .pinf := by
  induction l with
  | nil => cases h
  | cons x l ih =>
    rw [nanmax]
    rcases List.mem_cons.mp h with h | h
    · subst h
      rw [if_neg (by simp)]
      split_ifs with hl
      · simp [XR.lt] at hl
      · rfl
    · rw [ih h]
      cases x <;> simp [XR.lt]

theorem nanmin_ninf {l : List XR} (h : XR.ninf ∈ l) : nanmin l = .ninf := by
  induction l with
  | nil => cases h
  | cons x l ih =>
    rw [nanmin]
    rcases List.mem_cons.mp h with h | h
    · subst h
      rw [if_neg (by simp)]
      split_ifs with hl
      · cases hn : nanmin l <;> simp [XR.lt, hn] at hl
      · rfl
    · rw [ih h]
      cases x <;> simp [XR.lt]

theorem nanmax_mem {l : List XR} : nanmax l = .nan ∨ nanmax l ∈ l := by
  induction l with
  | nil => exact .inl rfl
  | cons x l ih =>
    rw [nanmax]
    split_ifs
    · exact ih.imp id fun h => by simp [h]
    · exact ih.imp id fun h => by simp [h]
    · exact .inr (by simp)

theorem nanmin_mem {l : List XR} : nanmin l = .nan ∨ nanmin l ∈ l := by
  induction l with
  | nil => exact .inl rfl
  | cons x l ih =>
    rw [nanmin]
    split_ifs
    · exact ih.imp id fun h => by simp [h]
    · exact ih.imp id fun h => by simp [h]
    · exact .inr (by simp)

/-- Coordinates that are finite or nan, and not all nan. -/
structure Coords (v : List XR) : Prop where
  val : ∀ x ∈ v, x = .nan ∨ ∃ r, x = .fin r
  some : ∃ r, XR.fin r ∈ v

theorem XR.abs_fin (r : ℝ) : XR.abs (.fin r) = .fin |r| := rfl

/-- The limits are the largest horizontal coordinate. -/
theorem frame3d_fin {l : List (Arr × Arr × Arr)} (hx : Coords (l.flatMap fun s => s.1.entries))
    (hy : Coords (l.flatMap fun s => s.2.1.entries)) : ∃ L, frame3d l = .fin L ∧
      (∀ s ∈ l, ∀ r, XR.fin r ∈ s.1.entries ∨ XR.fin r ∈ s.2.1.entries → |r| ≤ L) ∧
      ∃ s ∈ l, ∃ r, (XR.fin r ∈ s.1.entries ∨ XR.fin r ∈ s.2.1.entries) ∧ |r| = L := by
  obtain ⟨a, a1, a2, a3⟩ := nanmin_fin hx.val hx.some
  obtain ⟨b, b1, b2, b3⟩ := nanmin_fin hy.val hy.some
  obtain ⟨c, c1, c2, c3⟩ := nanmax_fin hx.val hx.some
  obtain ⟨d, d1, d2, d3⟩ := nanmax_fin hy.val hy.some
  have hlo : (if XR.lt (nanmin (l.flatMap fun s => s.2.1.entries)) (nanmin (l.flatMap fun s => s.1.entries)) then
      nanmin (l.flatMap fun s => s.2.1.entries) else nanmin (l.flatMap fun s => s.1.entries)) = .fin (min a b) := by
    rw [a1, b1]
    by_cases h : b < a
    · rw [if_pos (show XR.lt (.fin b) (.fin a) from h), min_eq_right h.le]
    · rw [if_neg (show ¬ XR.lt (.fin b) (.fin a) from h), min_eq_left (not_lt.mp h)]
  have hhi : (if XR.lt (nanmax (l.flatMap fun s => s.1.entries)) (nanmax (l.flatMap fun s => s.2.1.entries)) then
      nanmax (l.flatMap fun s => s.2.1.entries) else nanmax (l.flatMap fun s => s.1.entries)) = .fin (max c d) := by
    rw [c1, d1]
    by_cases h : c < d
    · rw [if_pos (show XR.lt (.fin c) (.fin d) from h), max_eq_right h.le]
    · rw [if_neg (show ¬ XR.lt (.fin c) (.fin d) from h), max_eq_left (not_lt.mp h)]
  have hL : frame3d l = .fin (max |min a b| |max c d|) := by
    unfold frame3d
    simp only [hlo, hhi]
    rw [if_neg (by simp)]
    by_cases h : |min a b| < |max c d|
    · rw [if_pos (show XR.lt (XR.abs (.fin _)) (XR.abs (.fin _)) from h), XR.abs_fin, max_eq_right h.le]
    · rw [if_neg (show ¬ XR.lt (XR.abs (.fin _)) (XR.abs (.fin _)) from h), XR.abs_fin, max_eq_left (not_lt.mp h)]
  refine ⟨_, hL, ?_, ?_⟩
  · intro s hs r hr
    have h1 : min a b ≤ r ∧ r ≤ max c d := by
      rcases hr with hr | hr
      · have : XR.fin r ∈ l.flatMap fun s => s.1.entries := List.mem_flatMap.mpr ⟨s, hs, hr⟩
        exact ⟨(min_le_left _ _).trans (a3 r this), (c3 r this).trans (le_max_left _ _)⟩
      · have : XR.fin r ∈ l.flatMap fun s => s.2.1.entries := List.mem_flatMap.mpr ⟨s, hs, hr⟩
        exact ⟨(min_le_right _ _).trans (b3 r this), (d3 r this).trans (le_max_right _ _)⟩
    exact abs_le_max_abs_abs h1.1 h1.2
  · have mem : ∀ r, (XR.fin r ∈ l.flatMap fun s => s.1.entries) ∨ (XR.fin r ∈ l.flatMap fun s => s.2.1.entries) →
        ∃ s ∈ l, (XR.fin r ∈ s.1.entries ∨ XR.fin r ∈ s.2.1.entries) := by
      rintro r (h | h)
      · obtain ⟨s, hs, h⟩ := List.mem_flatMap.mp h
        exact ⟨s, hs, .inl h⟩
      · obtain ⟨s, hs, h⟩ := List.mem_flatMap.mp h
        exact ⟨s, hs, .inr h⟩
    rcases max_choice |min a b| |max c d| with h | h
    · rw [h]
      rcases min_choice a b with h | h
      · obtain ⟨s, hs, hr⟩ := mem a (.inl a2)
        exact ⟨s, hs, a, hr, by rw [h]⟩
      · obtain ⟨s, hs, hr⟩ := mem b (.inr b2)
        exact ⟨s, hs, b, hr, by rw [h]⟩
    · rw [h]
      rcases max_choice c d with h | h
      · obtain ⟨s, hs, hr⟩ := mem c (.inl c2)
        exact ⟨s, hs, c, hr, by rw [h]⟩
      · obtain ⟨s, hs, hr⟩ := mem d (.inr d2)
        exact ⟨s, hs, d, hr, by rw [h]⟩

/-- Without any value there are no limits. -/
theorem frame3d_nan {l : List (Arr × Arr × Arr)} (hx : ∀ v ∈ l.flatMap fun s => s.1.entries, v = .nan) :
    (frame3d l).isFin = false := by
  have h1 := nanmin_nan hx
  have hlt : ∀ v, ¬ XR.lt v .nan := fun v => by cases v <;> simp [XR.lt]
  unfold frame3d
  simp only [h1, if_neg (hlt _)]
  rfl

end

end RT1
