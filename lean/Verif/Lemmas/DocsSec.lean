import Verif.Lemmas.DocsRead
import Mathlib.Data.List.Chain
import Mathlib.Data.List.Forall2

/-!
# Reading the sections of a docstring
-/

namespace RT1.Docs

/-! ## Tidy text -/

theorem joinParas_cons (b : List Line) (bs : List (List Line)) :
    joinParas (b :: bs) = b ++ bs.flatMap (fun b => [] :: b) := by
  induction bs generalizing b with
  | nil => simp [joinParas]
  | cons c bs ih =>
    rw [joinParas, ih, List.flatMap_cons]
    · simp
    · simp

theorem Tidy.join {ls : List Line} (h : Tidy ls) : joinParas (paras ls) = ls := by
  induction hn : ls.length using Nat.strong_induction_on generalizing ls with
  | _ n ih =>
    cases ls with
    | nil => rfl
    | cons l ls =>
      have hl : blank l = false := h.first l (by simp)
      cases ls with
      | nil => rw [paras_last hl]; rfl
      | cons m ls =>
        have hc := List.isChain_cons_cons.mp h.single
        cases hm : blank m with
        | true =>
          obtain rfl : m = [] := h.empty m (by simp) hm
          cases ls with
          | nil =>
            have := h.last [] (by simp)
            rw [hm] at this
            simp at this
          | cons k ls =>
            have hc2 := List.isChain_cons_cons.mp hc.2
            have hk : blank k = false := by
              rcases hc2.1 with h1 | h1
              · rw [hm] at h1; simp at h1
              · exact h1
            have ht : Tidy (k :: ls) := ⟨by simpa using hk, fun l hl => h.last l (by simpa using hl),
              fun l hl => h.empty l (by simp [hl]), hc2.2⟩
            have e := ih (k :: ls).length (by simp only [List.length_cons] at hn ⊢; omega) ht rfl
            rw [paras_gap hl hm, paras_blank hm]
            obtain ⟨b, bs, eb⟩ := paras_ne_nil (ls := ls) hk
            rw [eb] at e ⊢
            rw [joinParas]
            · rw [e]
              rfl
            · simp
        | false =>
          have ht : Tidy (m :: ls) := ⟨by simpa using hm, fun l hl => h.last l (by simpa using hl),
            fun l hl => h.empty l (by simp [hl]), hc.2⟩
          have e := ih (m :: ls).length (by simp only [List.length_cons] at hn ⊢; omega) ht rfl
          obtain ⟨b, bs, eb⟩ := paras_ne_nil (ls := ls) hm
          rw [paras_more hl hm eb]
          rw [eb, joinParas_cons] at e
          rw [joinParas_cons, List.cons_append, e]

theorem dropWhile_of_head {α : Type} {p : α → Bool} {l : List α} (h : ∀ c ∈ l.head?, p c = false) : l.dropWhile p = l := by
  cases l with
  | nil => rfl
  | cons a l => rw [List.dropWhile_cons, if_neg (by simp [h a (by simp)])]

theorem Tidy.strip {ls : List Line} (h : Tidy ls) : stripBlank ls = ls := by
  rw [stripBlank, dropWhile_of_head h.first, dropWhile_of_head, List.reverse_reverse]
  rw [List.head?_reverse]
  exact h.last

theorem stripBlank_cons {l : Line} {ls : List Line} (h : blank l = true) : stripBlank (l :: ls) = stripBlank ls := by
  rw [stripBlank, List.dropWhile_cons, if_pos h]
  rfl

theorem stripBlank_concat {l : Line} {ls : List Line} (hl : blank l = true) (h : Tidy ls) : stripBlank (ls ++ [l]) = ls := by
  cases ls with
  | nil => rw [List.nil_append, stripBlank_cons hl]; rfl
  | cons m ls =>
    have : (m :: ls ++ [l]).dropWhile blank = m :: ls ++ [l] := dropWhile_of_head (by simpa using h.first m (by simp))
    rw [stripBlank, this, List.reverse_append]
    show (List.dropWhile blank (l :: (m :: ls).reverse)).reverse = _
    rw [List.dropWhile_cons, if_pos hl, dropWhile_of_head, List.reverse_reverse]
    rw [List.head?_reverse]
    exact h.last

theorem Tidy.append {a b : List Line} (ha : Tidy a) (hb : Tidy b) (hne : a ≠ []) (hnb : b ≠ []) : Tidy (a ++ b) := by
  refine ⟨?_, ?_, ?_, ?_⟩
  · rw [List.head?_append_of_ne_nil _ hne]
    exact ha.first
  · rw [List.getLast?_append_of_ne_nil _ hnb]
    exact hb.last
  · intro l hl
    rcases List.mem_append.mp hl with hl | hl
    · exact ha.empty l hl
    · exact hb.empty l hl
  · exact List.isChain_append.mpr ⟨ha.single, hb.single, fun x hx y hy => .inl (ha.last x hx)⟩

theorem Tidy.gap {a b : List Line} (ha : Tidy a) (hb : Tidy b) (hne : a ≠ []) (hnb : b ≠ []) : Tidy (a ++ [] :: b) := by
  refine ⟨?_, ?_, ?_, ?_⟩
  · rw [List.head?_append_of_ne_nil _ hne]
    exact ha.first
  · rw [List.getLast?_append_of_ne_nil _ (by simp), List.getLast?_cons_of_ne_nil hnb]
    exact hb.last
  · intro l hl
    rcases List.mem_append.mp hl with hl | hl
    · exact ha.empty l hl
    · rcases List.mem_cons.mp hl with rfl | hl
      · exact fun _ => rfl
      · exact hb.empty l hl
  · refine List.isChain_append.mpr ⟨ha.single, ?_, fun x hx y hy => .inl (ha.last x hx)⟩
    refine List.isChain_cons.mpr ⟨fun y hy => .inr (hb.first y hy), hb.single⟩

theorem Tidy.nil : Tidy [] := ⟨by simp, by simp, by simp, List.isChain_nil⟩

theorem Tidy.one {l : Line} (h : blank l = false) : Tidy [l] :=
  ⟨by simpa using h, by simpa using h, by simp [h], List.isChain_singleton _⟩

theorem blank_cons_space (l : Line) : blank (' ' :: l) = blank l := rfl

theorem blank_replicate (k : ℕ) (l : Line) : blank (List.replicate k ' ' ++ l) = blank l := by
  induction k with
  | zero => rfl
  | succ k ih => rw [List.replicate_succ, List.cons_append, blank_cons_space, ih]

theorem blank_indent (k : ℕ) (l : Line) :
    blank (if l = [] then [] else List.replicate (k + 1) ' ' ++ l) = blank l := by
  split
  · rename_i h
    rw [h]
  · exact blank_replicate _ _

theorem Tidy.indent {ls : List Line} (h : Tidy ls) (k : ℕ) : Tidy (indentBy k ls) := by
  refine ⟨?_, ?_, ?_, ?_⟩
  · intro l hl
    rw [indentBy, List.head?_map] at hl
    obtain ⟨m, hm, rfl⟩ := Option.map_eq_some_iff.mp hl
    rw [blank_indent]
    exact h.first m hm
  · intro l hl
    rw [indentBy, List.getLast?_map] at hl
    obtain ⟨m, hm, rfl⟩ := Option.map_eq_some_iff.mp hl
    rw [blank_indent]
    exact h.last m hm
  · intro l hl hb
    obtain ⟨m, hm, rfl⟩ := List.mem_map.mp hl
    rw [blank_indent] at hb
    rw [if_pos (h.empty m hm hb)]
  · refine (List.isChain_map _).mpr (h.single.imp ?_)
    intro a b hab
    rw [blank_indent, blank_indent]
    exact hab

/-! ## dedent -/

theorem isTab_isSpace {c : Char} (h : isTab c = true) : isSpace c = true := by
  rcases (by simpa [isTab] using h : c = ' ' ∨ c = '\t') with rfl | rfl <;> rfl

theorem blank_of_tabs {l : Line} (h : l.all isTab = true) : blank l = true := by
  rw [blank, List.all_eq_true]
  exact fun c hc => isTab_isSpace (List.all_eq_true.mp h c hc)

theorem takeWhile_append_all {α : Type} {p : α → Bool} {a b : List α} (h : a.all p = true) :
    (a ++ b).takeWhile p = a ++ b.takeWhile p := by
  induction a with
  | nil => rfl
  | cons c a ih =>
    rw [List.all_cons, Bool.and_eq_true] at h
    rw [List.cons_append, List.takeWhile_cons, if_pos h.1, ih h.2]
    rfl

theorem common_append (a l m : Line) : common (a ++ l) (a ++ m) = a ++ common l m := by
  induction a with
  | nil => rfl
  | cons c a ih =>
    show (if c = c then c :: common (a ++ l) (a ++ m) else []) = _
    rw [if_pos rfl, ih]
    rfl

theorem common_nil (l : Line) : common l [] = [] := by
  cases l <;> rfl

theorem margin_indented {ind : Line} {ls ts : List Line} (hi : ind.all isTab = true)
    (h : List.Forall₂ (fun l t => l = [] ∧ t.all isTab = true ∨ l.all isTab = false ∧ t = ind ++ l) ls ts) :
    margin ts = (margin ls).map (ind ++ ·) := by
  induction h with
  | nil => rfl
  | @cons l t ls ts hl h ih =>
    rcases hl with ⟨rfl, ht⟩ | ⟨hl, rfl⟩
    · rw [margin, if_pos ht, ih]
      rfl
    · have ht : (ind ++ l).all isTab = false := by rw [List.all_append, hl, Bool.and_false]
      rw [margin, if_neg (by simp [ht]), ih, margin, if_neg (by simp [hl]), takeWhile_append_all hi]
      cases margin ls with
      | none => rfl
      | some m => exact congrArg some (common_append _ _ _)

theorem margin_flush {ls : List Line} (h : ∃ l ∈ ls, ∃ c ∈ l.head?, isTab c = false) : margin ls = some [] := by
  induction ls with
  | nil => simp at h
  | cons l ls ih =>
    obtain ⟨m, hm, c, hc, hcf⟩ := h
    rcases List.mem_cons.mp hm with rfl | hm
    · obtain ⟨t, rfl⟩ : ∃ t, m = c :: t := by
        cases m with
        | nil => simp at hc
        | cons d t =>
          obtain rfl : d = c := by simpa using hc
          exact ⟨t, rfl⟩
      rw [margin, if_neg (by simp [hcf])]
      have e : (c :: t).takeWhile isTab = [] := by rw [List.takeWhile_cons, if_neg (by simp [hcf])]
      rw [e]
      cases margin ls with
      | none => rfl
      | some m => rfl
    · have e := ih ⟨m, hm, c, hc, hcf⟩
      rw [margin, e]
      split
      · rfl
      · exact congrArg some (common_nil _)

theorem margin_blank {ls : List Line} (h : ∀ l ∈ ls, l = []) : margin ls = none := by
  induction ls with
  | nil => rfl
  | cons l ls ih =>
    rw [h l (by simp)]
    exact ih fun l hl => h l (by simp [hl])

theorem flush_tab {ls : List Line} (h : ∃ l ∈ ls, ∃ c ∈ l.head?, isSpace c = false) :
    ∃ l ∈ ls, ∃ c ∈ l.head?, isTab c = false := by
  obtain ⟨l, hl, c, hc, hcf⟩ := h
  refine ⟨l, hl, c, hc, ?_⟩
  cases e : isTab c with
  | false => rfl
  | true =>
    rw [isTab_isSpace e] at hcf
    simp at hcf

theorem Indented.dedent {ind : Line} {ls ts : List Line} (h : Indented ind ls ts) : Docs.dedent ts = ls := by
  have hk : ∀ l ∈ ls, l.all isTab = false → ((margin ts).getD []).length = ind.length := by
    intro l hl hlt
    rw [margin_indented h.tabs h.lines]
    rcases h.flush with h0 | h0
    · rw [h0 l hl] at hlt
      simp at hlt
    · rw [margin_flush (flush_tab h0)]
      simp
  show ts.map (fun l => if l.all isTab then [] else l.drop ((margin ts).getD []).length) = ls
  generalize ((margin ts).getD []).length = k at hk
  have hl := h.lines
  clear h
  induction hl with
  | nil => rfl
  | @cons l t ls ts hlt _ ih =>
    rw [List.map_cons, ih fun l hl => hk l (by simp [hl])]
    congr 1
    rcases hlt with ⟨rfl, ht⟩ | ⟨hl, rfl⟩
    · rw [if_pos ht]
    · have ht : (ind ++ l).all isTab = false := by rw [List.all_append, hl, Bool.and_false]
      rw [if_neg (by simp [ht]), hk l (by simp) hl]
      simp

/-- Lines with a flush line and without lines of spaces are not changed. -/
theorem dedent_flush {ls : List Line} (h : ∃ l ∈ ls, ∃ c ∈ l.head?, isSpace c = false)
    (he : ∀ l ∈ ls, blank l = true → l = []) : Docs.dedent ls = ls := by
  refine Indented.dedent (ind := []) ⟨rfl, ?_, .inr h⟩
  rw [List.forall₂_same]
  intro l hl
  cases ht : l.all isTab with
  | true => exact .inl ⟨he l hl (blank_of_tabs ht), rfl⟩
  | false => exact .inr ⟨rfl, rfl⟩

end RT1.Docs
