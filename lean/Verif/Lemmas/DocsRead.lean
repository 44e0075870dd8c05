import Verif.Spec.Docs
import Mathlib.Data.List.Infix

/-!
# The reader of docstrings works on paragraphs
-/

namespace RT1.Docs

theorem paras_blank {l : Line} {ls : List Line} (h : blank l = true) : paras (l :: ls) = paras ls := by
  rw [paras, if_pos h]

theorem paras_last {l : Line} (h : blank l = false) : paras [l] = [[l]] := by
  rw [paras, if_neg (by simp [h])]
  rfl

theorem paras_gap {l m : Line} {ls : List Line} (h : blank l = false) (hm : blank m = true) :
    paras (l :: m :: ls) = [l] :: paras (m :: ls) := by
  rw [paras, if_neg (by simp [h]), addLine, if_pos (by exact hm)]

theorem paras_ne_nil {l : Line} {ls : List Line} (h : blank l = false) : ∃ b bs, paras (l :: ls) = (l :: b) :: bs := by
  rw [paras, if_neg (by simp [h]), addLine]
  split
  · exact ⟨_, _, rfl⟩
  · exact ⟨_, _, rfl⟩

theorem paras_more {l m : Line} {ls : List Line} {b : List Line} {bs : List (List Line)} (h : blank l = false)
    (hm : blank m = false) (e : paras (m :: ls) = b :: bs) : paras (l :: m :: ls) = (l :: b) :: bs := by
  rw [paras, if_neg (by simp [h]), addLine, if_neg (by simp [hm]), e]
  rfl

/-- A run of lines followed by nothing or a blank line. -/
theorem paras_run {p q : List Line} (hp : p ≠ []) (h : ∀ l ∈ p, blank l = false) (hq : ∀ l ∈ q.head?, blank l = true) :
    paras (p ++ q) = p :: paras q := by
  induction p with
  | nil => exact absurd rfl hp
  | cons l p ih =>
    have hl := h l (by simp)
    cases p with
    | nil =>
      cases q with
      | nil => exact paras_last hl
      | cons m q => exact paras_gap hl (hq m (by simp))
    | cons m p =>
      have := ih (by simp) fun l hl => h l (by simp [hl])
      exact paras_more hl (h m (by simp)) this

theorem paras_dropWhile (ls : List Line) : paras (ls.dropWhile blank) = paras ls := by
  induction ls with
  | nil => rfl
  | cons l ls ih =>
    rw [List.dropWhile_cons]
    split
    · rename_i h
      rw [ih, paras_blank h]
    · rfl

theorem paras_all_blank {ls : List Line} (h : ∀ l ∈ ls, blank l = true) : paras ls = [] := by
  induction ls with
  | nil => rfl
  | cons l ls ih => rw [paras_blank (h l (by simp)), ih fun l hl => h l (by simp [hl])]

theorem head_dropWhile {α : Type} (p : α → Bool) (ls : List α) : ∀ l ∈ (ls.dropWhile p).head?, p l = false := by
  induction ls with
  | nil => simp
  | cons a ls ih =>
    rw [List.dropWhile_cons]
    split
    · exact ih
    · rename_i h
      intro l hl
      simp only [List.head?_cons, Option.mem_some_iff] at hl
      subst hl
      simpa using h

theorem mem_takeWhile' {α : Type} (p : α → Bool) (ls : List α) : ∀ l ∈ ls.takeWhile p, p l = true := by
  induction ls with
  | nil => simp
  | cons a ls ih =>
    rw [List.takeWhile_cons]
    split
    · rename_i h
      intro l hl
      rcases List.mem_cons.mp hl with rfl | hl
      · exact h
      · exact ih l hl
    · simp

/-- First paragraph and rest. -/
theorem paras_step {ls : List Line} : ls.dropWhile blank = [] ∧ paras ls = [] ∨
    (ls.dropWhile blank ≠ [] ∧ (ls.dropWhile blank).takeWhile (fun l => !blank l) ≠ [] ∧
      paras ls = (ls.dropWhile blank).takeWhile (fun l => !blank l) ::
        paras ((ls.dropWhile blank).dropWhile (fun l => !blank l))) := by
  by_cases h : ls.dropWhile blank = []
  · left
    refine ⟨h, ?_⟩
    rw [← paras_dropWhile, h]
    rfl
  · right
    obtain ⟨l, m, e⟩ := List.exists_cons_of_ne_nil h
    have hl : blank l = false := head_dropWhile blank ls l (by rw [e]; simp)
    have h1 : (ls.dropWhile blank).takeWhile (fun l => !blank l) ≠ [] := by
      rw [e, List.takeWhile_cons, if_pos (by simp [hl])]
      simp
    refine ⟨h, h1, ?_⟩
    conv_lhs => rw [← paras_dropWhile, ← List.takeWhile_append_dropWhile (p := fun l => !blank l) (l := ls.dropWhile blank)]
    refine paras_run h1 (fun l hl => by simpa using mem_takeWhile' _ _ l hl) fun l hl => ?_
    simpa using head_dropWhile _ _ l hl

theorem paras_append_blank (p : List Line) {m : Line} (q : List Line) (hm : blank m = true) :
    paras (p ++ m :: q) = paras p ++ paras q := by
  induction p with
  | nil => rw [List.nil_append, paras_blank hm]; rfl
  | cons l p ih =>
    cases hl : blank l with
    | true => rw [List.cons_append, paras_blank hl, paras_blank hl, ih]
    | false =>
      cases p with
      | nil =>
        show paras (l :: m :: q) = _
        rw [paras_gap hl hm, paras_blank hm, paras_last hl]
        rfl
      | cons k p =>
        cases hk : blank k with
        | true =>
          show paras (l :: k :: (p ++ m :: q)) = _
          rw [paras_gap hl hk, paras_gap hl hk]
          exact congrArg _ ih
        | false =>
          obtain ⟨b, bs, e⟩ := paras_ne_nil (ls := p) hk
          have e' : paras (k :: (p ++ m :: q)) = (k :: b) :: (bs ++ paras q) := by
            rw [show k :: (p ++ m :: q) = (k :: p) ++ m :: q from rfl, ih, e]
            rfl
          show paras (l :: k :: (p ++ m :: q)) = _
          rw [paras_more hl hk e', paras_more hl hk e]
          rfl

/-- Paragraphs are runs of consecutive lines. -/
theorem paras_infix {ls b : List Line} (h : b ∈ paras ls) : b <:+: ls := by
  induction hn : ls.length using Nat.strong_induction_on generalizing ls with
  | _ n ih =>
    rcases paras_step (ls := ls) with ⟨_, e⟩ | ⟨h1, h2, e⟩
    · rw [e] at h
      simp at h
    · rw [e] at h
      have hd : ls.dropWhile blank <:+ ls := List.dropWhile_suffix _
      rcases List.mem_cons.mp h with rfl | h
      · exact ((List.takeWhile_prefix _).isInfix).trans hd.isInfix
      · have hs : (ls.dropWhile blank).dropWhile (fun l => !blank l) <:+ ls := (List.dropWhile_suffix _).trans hd
        refine (ih _ ?_ h rfl).trans hs.isInfix
        have h3 := congrArg List.length (List.takeWhile_append_dropWhile (p := fun l => !blank l) (l := ls.dropWhile blank))
        rw [List.length_append] at h3
        have := List.length_pos_of_ne_nil h2
        have := hd.length_le
        omega

theorem paras_nonblank {ls b : List Line} (h : b ∈ paras ls) : b ≠ [] ∧ ∀ l ∈ b, blank l = false := by
  induction hn : ls.length using Nat.strong_induction_on generalizing ls with
  | _ n ih =>
    rcases paras_step (ls := ls) with ⟨_, e⟩ | ⟨h1, h2, e⟩
    · rw [e] at h
      simp at h
    · rw [e] at h
      have hd : ls.dropWhile blank <:+ ls := List.dropWhile_suffix _
      rcases List.mem_cons.mp h with rfl | h
      · exact ⟨h2, fun l hl => by simpa using mem_takeWhile' _ _ l hl⟩
      · refine ih _ ?_ h rfl
        have h3 := congrArg List.length (List.takeWhile_append_dropWhile (p := fun l => !blank l) (l := ls.dropWhile blank))
        rw [List.length_append] at h3
        have := List.length_pos_of_ne_nil h2
        have := hd.length_le
        omega

/-! ## strip -/

theorem dropWhile_nil_iff {α : Type} (p : α → Bool) (l : List α) : l.dropWhile p = [] ↔ ∀ c ∈ l, p c = true := by
  induction l with
  | nil => simp
  | cons a l ih =>
    rw [List.dropWhile_cons]
    split
    · rename_i h
      simp [ih, h]
    · rename_i h
      simp [h]

theorem strip_blank {l : Line} (h : blank l = true) : strip l = [] := by
  have : l.dropWhile isSpace = [] := by
    rw [dropWhile_nil_iff]
    simpa [blank] using h
  rw [strip, this]
  rfl

theorem strip_ne_nil {l : Line} (h : blank l = false) : strip l ≠ [] := by
  intro e
  have e1 : (l.dropWhile isSpace).reverse.dropWhile isSpace = [] := by
    rw [strip] at e
    simpa using e
  rw [dropWhile_nil_iff] at e1
  have hd : l.dropWhile isSpace ≠ [] := by
    rw [Ne, dropWhile_nil_iff]
    intro h1
    have : blank l = true := by simpa [blank] using h1
    rw [h] at this
    simp at this
  obtain ⟨c, m, ec⟩ := List.exists_cons_of_ne_nil hd
  have hc : isSpace c = false := head_dropWhile isSpace l c (by rw [ec]; simp)
  rw [e1 c (by rw [ec]; simp)] at hc
  simp at hc

theorem starts_replicate_nil (n : ℕ) (c : Char) : starts (List.replicate (n + 1) c) [] = false := rfl

theorem underlined_blank {l m : Line} (h : blank l = false) (hm : blank m = true) : underlined l m = false := by
  obtain ⟨c, s, e⟩ := List.exists_cons_of_ne_nil (strip_ne_nil h)
  rw [underlined, strip_blank hm, e]
  rfl

/-! ## The reader -/

/-- A paragraph that begins a section. -/
def isHead : List Line → Bool
  | [] => false
  | l :: ls => starts indexMark (strip l) || underlined l (ls.headD [])

theorem isAtSection_eq (r : Reader) : r.isAtSection.1 = ((paras r.rest).head?.map isHead).getD false := by
  show (match r.rest.dropWhile blank with
    | [] => false
    | l :: ls => starts indexMark (strip l) || underlined l (ls.headD [])) = _
  rcases paras_step (ls := r.rest) with ⟨e1, e2⟩ | ⟨h1, h2, e⟩
  · rw [e1, e2]
    rfl
  · rw [e]
    obtain ⟨l, m, el⟩ := List.exists_cons_of_ne_nil h1
    have hl : blank l = false := head_dropWhile blank r.rest l (by rw [el]; simp)
    rw [el]
    show (_ || underlined l (m.headD [])) = isHead (List.takeWhile _ (l :: m))
    rw [List.takeWhile_cons, if_pos (by simp [hl])]
    show _ = (_ || underlined l ((m.takeWhile _).headD []))
    cases m with
    | nil => rfl
    | cons k m =>
      rw [List.takeWhile_cons]
      split
      · rfl
      · rename_i hk
        have hk : blank k = true := by simpa using hk
        show (_ || underlined l k) = (_ || underlined l [])
        rw [underlined_blank hl hk, underlined_blank hl (show blank [] = true from rfl)]

theorem seek_eq_nil (r : Reader) : r.seek.rest = [] ↔ paras r.rest = [] := by
  rcases paras_step (ls := r.rest) with ⟨e1, e2⟩ | ⟨h1, h2, e⟩
  · exact ⟨fun _ => e2, fun _ => e1⟩
  · exact ⟨fun h => absurd h h1, fun h => by rw [e] at h; simp at h⟩

theorem readPara_eq (r : Reader) : paras r.rest = [] ∧ r.readPara.1 = [] ∧ r.readPara.2.rest = [] ∨
    ∃ bs, paras r.rest = r.readPara.1 :: bs ∧ paras r.readPara.2.rest = bs ∧
      (∀ l ∈ r.readPara.2.rest.head?, blank l = true) := by
  rcases paras_step (ls := r.rest) with ⟨e1, e2⟩ | ⟨h1, h2, e⟩
  · left
    refine ⟨e2, ?_, ?_⟩
    · show (r.rest.dropWhile blank).takeWhile _ = []
      rw [e1]
      rfl
    · show (r.rest.dropWhile blank).dropWhile _ = []
      rw [e1]
      rfl
  · right
    exact ⟨_, e, rfl, fun l hl => by simpa using head_dropWhile _ _ l hl⟩

theorem seek_readPara (r : Reader) : r.seek.readPara.1 = r.readPara.1 ∧ r.seek.readPara.2.rest = r.readPara.2.rest := by
  constructor
  · show ((r.rest.dropWhile blank).dropWhile blank).takeWhile _ = (r.rest.dropWhile blank).takeWhile _
    rw [dropWhile_idem]
  · show ((r.rest.dropWhile blank).dropWhile blank).dropWhile _ = (r.rest.dropWhile blank).dropWhile _
    rw [dropWhile_idem]

/-- The reader stands at a line that is not blank, or at the end. -/
def Sought (r : Reader) : Prop := ∀ l ∈ r.rest.head?, blank l = false

theorem seek_sought (r : Reader) : Sought r.seek := head_dropWhile blank r.rest

theorem sought_nil {r : Reader} (h : Sought r) : r.rest = [] ↔ paras r.rest = [] := by
  constructor
  · rintro e
    rw [e]
    rfl
  · intro e
    cases hr : r.rest with
    | nil => rfl
    | cons l ls =>
      obtain ⟨b, bs, e'⟩ := paras_ne_nil (ls := ls) (h l (by rw [hr]; simp))
      rw [hr, e'] at e
      simp at e

theorem readMore_eq (r : Reader) (hr : ∀ l ∈ r.rest.head?, blank l = true) :
    (readMore r).1 = ((paras r.rest).takeWhile (fun b => !isHead b)).flatMap (fun b => [] :: b) ∧
    paras (readMore r).2.rest = (paras r.rest).dropWhile (fun b => !isHead b) ∧ Sought (readMore r).2 := by
  induction r using readMore.induct with
  | case1 r h =>
    rw [readMore, dif_pos h]
    refine ⟨?_, ?_, seek_sought r⟩
    · rcases h with h | h
      · rw [isAtSection_eq] at h
        cases hp : paras r.rest with
        | nil => rfl
        | cons b bs =>
          rw [hp] at h
          have hb : isHead b = true := h
          rw [List.takeWhile_cons, if_neg (by simp [hb])]
          rfl
      · rw [(seek_eq_nil r).mp h]
        rfl
    · show paras (r.rest.dropWhile blank) = _
      rw [paras_dropWhile]
      rcases h with h | h
      · rw [isAtSection_eq] at h
        cases hp : paras r.rest with
        | nil => rfl
        | cons b bs =>
          rw [hp] at h
          have hb : isHead b = true := h
          rw [List.dropWhile_cons, if_neg (by simp [hb])]
      · rw [(seek_eq_nil r).mp h]
        rfl
  | case2 r h p ih =>
    rw [readMore, dif_neg h]
    have h1 : r.isAtSection.1 = false := by
      cases e : r.isAtSection.1 with
      | false => rfl
      | true => exact absurd (.inl e) h
    have h2 : r.seek.rest ≠ [] := fun e => h (.inr e)
    obtain ⟨s1, s2⟩ := seek_readPara r
    rcases readPara_eq r with ⟨e1, _⟩ | ⟨bs, e1, e2, e3⟩
    · exact absurd ((seek_eq_nil r).mpr e1) h2
    · have hh : isHead r.readPara.1 = false := by
        rw [isAtSection_eq, e1] at h1
        exact h1
      have hp : blank r.seek.prev = true := by
        show blank (((r.rest.takeWhile blank).getLast?).getD r.prev) = true
        cases hrr : r.rest with
        | nil =>
          exfalso
          apply h2
          show r.rest.dropWhile blank = []
          rw [hrr]
          rfl
        | cons l ls =>
          have hl := hr l (by rw [hrr]; simp)
          have hne : (l :: ls).takeWhile blank ≠ [] := by
            rw [List.takeWhile_cons, if_pos hl]
            simp
          rw [List.getLast?_eq_some_getLast hne]
          exact mem_takeWhile' blank (l :: ls) _ (List.getLast_mem hne)
      have hih := ih (by rw [show p.2.rest = r.readPara.2.rest from s2]; exact e3)
      rw [show p.2.rest = r.readPara.2.rest from s2, e2] at hih
      refine ⟨?_, ?_, hih.2.2⟩
      · show (if blank r.seek.prev then [[]] else []) ++ p.1 ++ (readMore p.2).1 = _
        rw [if_pos hp, hih.1, show p.1 = r.readPara.1 from s1, e1, List.takeWhile_cons, if_pos (by simp [hh])]
        simp
      · show paras (readMore p.2).2.rest = _
        rw [hih.2.1, e1, List.dropWhile_cons, if_pos (by simp [hh])]

/-- Reading a section: the first paragraph and all that do not begin a section. -/
theorem readSection_eq (r : Reader) :
    (readSection r).1 = (match paras r.rest with
      | [] => []
      | b :: bs => b ++ (bs.takeWhile (fun b => !isHead b)).flatMap (fun b => [] :: b)) ∧
    paras (readSection r).2.rest = (paras r.rest).tail.dropWhile (fun b => !isHead b) ∧ Sought (readSection r).2 := by
  rcases readPara_eq r with ⟨e1, e2, e3⟩ | ⟨bs, e1, e2, e3⟩
  · have := readMore_eq r.readPara.2 (by rw [e3]; simp)
    rw [e3] at this
    refine ⟨?_, ?_, this.2.2⟩
    · rw [e1]
      show r.readPara.1 ++ (readMore r.readPara.2).1 = []
      rw [e2, this.1]
      rfl
    · rw [e1]
      exact this.2.1
  · have := readMore_eq r.readPara.2 e3
    rw [e2] at this
    refine ⟨?_, ?_, this.2.2⟩
    · rw [e1]
      show r.readPara.1 ++ (readMore r.readPara.2).1 = _
      rw [this.1]
    · rw [e1]
      exact this.2.1

end RT1.Docs
