import Verif.Lemmas.DocsSec

/-!
# Parsing docstrings
-/

namespace RT1.Docs

/-! ## Parameter entries -/

theorem Word.strip {l : Line} (h : Word l) : Docs.strip l = l := by
  rw [Docs.strip, dropWhile_of_head h.first, dropWhile_of_head, List.reverse_reverse]
  rw [List.head?_reverse]
  exact h.last

theorem Word.blank {l : Line} (h : Word l) : Docs.blank l = false := by
  obtain ⟨c, t, rfl⟩ := List.exists_cons_of_ne_nil h.ne
  have := h.first c (by simp)
  simp [Docs.blank, this]

theorem Word.unindented {l : Line} (h : Word l) : Docs.unindented l = true := by
  rw [Docs.unindented, h.blank]
  obtain ⟨c, t, rfl⟩ := List.exists_cons_of_ne_nil h.ne
  simp [h.first c (by simp)]

theorem Param.Good.word {b : Bool} {p : Param} (h : p.Good b) : Word p.head := by
  unfold Param.head
  split
  · rename_i hn
    rcases h.type with ht | ht
    · exfalso
      have := h.form
      cases b with
      | true => exact this.1 ht
      | false => exact this hn
    · exact ht
  · rename_i hn
    have hw : Word p.name := (h.name.resolve_left hn).1
    split
    · exact hw
    · rename_i ht
      have hw' : Word p.type := h.type.resolve_left ht
      refine ⟨by simp, ?_, ?_, ?_⟩
      · rw [List.head?_append_of_ne_nil _ (by simp), List.head?_append_of_ne_nil _ hn]
        exact hw.first
      · rw [List.getLast?_append_of_ne_nil _ ht]
        exact hw'.last
      · intro hm
        rcases List.mem_append.mp hm with hm | hm
        · rcases List.mem_append.mp hm with hm | hm
          · exact hw.line hm
          · simp at hm
        · exact hw'.line hm

theorem splitFirst_none {l : Line} (h : ':' ∉ l) : splitFirst [' ', ':', ' '] l = none := by
  induction l with
  | nil => rfl
  | cons c l ih =>
    have h1 : starts [' ', ':', ' '] (c :: l) = false := by
      cases l with
      | nil => simp [starts, List.isPrefixOf]
      | cons d l =>
        have : d ≠ ':' := fun e => h (by simp [e])
        simp [starts, List.isPrefixOf, Ne.symm this]
    rw [splitFirst, if_neg (by simp [h1]), ih fun hm => h (by simp [hm])]
    rfl

theorem splitFirst_some {a b : Line} (h : ':' ∉ a) : splitFirst [' ', ':', ' '] (a ++ [' ', ':', ' '] ++ b) = some (a, b) := by
  induction a with
  | nil => rfl
  | cons c a ih =>
    have h1 : starts [' ', ':', ' '] (c :: (a ++ [' ', ':', ' '] ++ b)) = false := by
      cases a with
      | nil => simp [starts, List.isPrefixOf]
      | cons d a =>
        have : d ≠ ':' := fun e => h (by simp [e])
        simp [starts, List.isPrefixOf, Ne.symm this]
    show splitFirst _ (c :: (a ++ [' ', ':', ' '] ++ b)) = _
    rw [splitFirst, if_neg (by rw [h1]; simp), ih fun hm => h (by simp [hm])]
    rfl

theorem parseHeader_none {b : Bool} {l : Line} (h : ':' ∉ l) : parseHeader b l = if b then ([], l) else (l, []) := by
  have h2 : l.reverse.take 2 ≠ [':', ' '] := by
    intro e
    apply h
    have : ':' ∈ l.reverse.take 2 := by rw [e]; simp
    exact List.mem_reverse.mp (List.mem_of_mem_take this)
  show (match splitFirst [' ', ':', ' '] l with
    | some p => p
    | none => _) = _
  rw [splitFirst_none h]
  show (if b then ([], if l.reverse.take 2 = [':', ' '] then _ else l) else (if l.reverse.take 2 = [':', ' '] then _ else l, [])) = _
  rw [if_neg h2]

theorem Param.Good.header {b : Bool} {p : Param} (h : p.Good b) : parseHeader b p.head = (p.name, p.type) := by
  unfold Param.head
  split
  · rename_i hn
    cases b with
    | true =>
      rw [parseHeader_none (h.form.2 hn), hn]
      rfl
    | false => exact absurd hn h.form
  · rename_i hn
    have hc := (h.name.resolve_left hn).2
    split
    · rename_i ht
      cases b with
      | true => exact absurd ht h.form.1
      | false =>
        rw [parseHeader_none hc, ht]
        rfl
    · show (match splitFirst [' ', ':', ' '] _ with
        | some p => p
        | none => _) = _
      rw [splitFirst_some hc]

theorem indentBy_nil (k : ℕ) : indentBy k [] = [] := rfl

theorem indented_indentBy {ls : List Line} (k : ℕ) (he : ∀ l ∈ ls, blank l = true → l = []) :
    List.Forall₂ (fun l t => l = [] ∧ t.all isTab = true ∨ l.all isTab = false ∧ t = List.replicate (k + 1) ' ' ++ l)
      ls (indentBy k ls) := by
  rw [indentBy, List.forall₂_map_right_iff, List.forall₂_same]
  intro l hl
  split
  · rename_i h
    exact .inl ⟨h, rfl⟩
  · rename_i h
    right
    refine ⟨?_, rfl⟩
    cases e : l.all isTab with
    | false => rfl
    | true => exact absurd (he l hl (blank_of_tabs e)) h

theorem replicate_tabs (k : ℕ) : (List.replicate k ' ').all isTab = true := by
  rw [List.all_eq_true]
  intro c hc
  rw [List.eq_of_mem_replicate hc]
  rfl

/-- Description lines, possibly followed by an empty one. -/
theorem desc_eq {ls : List Line} (ht : Tidy ls) (hf : ls = [] ∨ ∃ l ∈ ls, ∃ c ∈ l.head?, isSpace c = false) (k : ℕ) (gap : Bool) :
    stripBlank (dedentLines (indentBy k ls ++ if gap then [[]] else [])) = ls := by
  have key : indentBy k ls ++ (if gap then [[]] else []) ≠ [] →
      stripBlank (dedent (indentBy k ls ++ if gap then [[]] else [])) = ls := by
    intro _
    have hi : Indented (List.replicate (k + 1) ' ') (ls ++ if gap then [[]] else []) (indentBy k ls ++ if gap then [[]] else []) := by
      refine ⟨replicate_tabs _, ?_, ?_⟩
      · refine List.rel_append (indented_indentBy k ht.empty) ?_
        cases gap with
        | true => exact .cons (.inl ⟨rfl, rfl⟩) .nil
        | false => exact .nil
      · rcases hf with rfl | ⟨l, hl, h⟩
        · left
          cases gap <;> simp
        · exact .inr ⟨l, List.mem_append_left _ hl, h⟩
    rw [hi.dedent]
    cases gap with
    | true => exact stripBlank_concat rfl ht
    | false => simpa using ht.strip
  by_cases h : indentBy k ls ++ (if gap then [[]] else []) = []
  · rw [dedentLines, if_pos h]
    have : indentBy k ls = [] := (List.append_eq_nil_iff.mp h).1
    rw [List.map_eq_nil_iff.mp this]
    rfl
  · rw [dedentLines, if_neg h]
    exact key h

theorem not_unindented_indent (k : ℕ) (ls : List Line) : ∀ l ∈ indentBy k ls, unindented l = false := by
  intro l hl
  obtain ⟨m, hm, rfl⟩ := List.mem_map.mp hl
  split
  · rfl
  · rw [unindented, List.replicate_succ]
    simp [show isSpace ' ' = true from rfl]

theorem takeWhile_run {α : Type} {p : α → Bool} {a b : List α} (ha : ∀ c ∈ a, p c = true) (hb : ∀ c ∈ b.head?, p c = false) :
    (a ++ b).takeWhile p = a ∧ (a ++ b).dropWhile p = b := by
  induction a with
  | nil =>
    cases b with
    | nil => exact ⟨rfl, rfl⟩
    | cons c b =>
      have := hb c (by simp)
      simp [this]
  | cons c a ih =>
    have hc := ha c (by simp)
    have := ih fun c hc => ha c (by simp [hc])
    rw [List.cons_append, List.takeWhile_cons, if_pos hc, List.dropWhile_cons, if_pos hc]
    exact ⟨by rw [this.1], this.2⟩

theorem Entries.head {ps : List Param} {ls : List Line} (h : Entries ps ls) : ∃ p ∈ ps, ls.head? = some p.head := by
  cases h with
  | last p k => exact ⟨p, by simp, rfl⟩
  | next p k gap h => exact ⟨p, by simp, rfl⟩

theorem Entries.loop {b : Bool} {ps : List Param} {ls : List Line} (h : Entries ps ls) (hp : ∀ p ∈ ps, p.Good b) :
    paramLoop b ls = ps := by
  induction h with
  | last p k =>
    have hg := hp p (by simp)
    obtain ⟨h1, h2⟩ := takeWhile_run (p := fun l => !unindented l) (a := indentBy k p.desc) (b := [])
      (fun l hl => by simp [not_unindented_indent k p.desc l hl]) (by simp)
    rw [List.append_nil] at h1 h2
    rw [paramLoop, h1, h2, hg.word.strip, hg.header, paramLoop]
    have := desc_eq hg.desc hg.flush k false
    rw [show (if false = true then [[]] else ([] : List Line)) = [] from rfl, List.append_nil] at this
    rw [this]
  | @next p k ps ls gap h ih =>
    have hg := hp p (by simp)
    obtain ⟨q, hq, hh⟩ := h.head
    have hw : unindented q.head = true := (hp q (by simp [hq])).word.unindented
    obtain ⟨h1, h2⟩ := takeWhile_run (p := fun l => !unindented l) (a := indentBy k p.desc ++ if gap then [[]] else []) (b := ls)
      (fun l hl => by
        rcases List.mem_append.mp hl with hl | hl
        · simp [not_unindented_indent k p.desc l hl]
        · cases gap with
          | true =>
            obtain rfl : l = [] := by simpa using hl
            rfl
          | false => simp at hl) (by rw [hh]; intro c hc; obtain rfl : q.head = c := by simpa using hc
                                     simp [hw])
    rw [List.append_assoc] at h1 h2
    show paramLoop b (p.head :: (indentBy k p.desc ++ ((if gap then [[]] else []) ++ ls))) = _
    rw [paramLoop, h1, h2, hg.word.strip, hg.header, ih fun p hp' => hp p (by simp [hp']), desc_eq hg.desc hg.flush k gap]

theorem Param.Good.entry {b : Bool} {p : Param} (h : p.Good b) (k : ℕ) : Tidy (p.head :: indentBy k p.desc) := by
  by_cases hd : p.desc = []
  · rw [hd, indentBy_nil]
    exact .one h.word.blank
  · exact Tidy.append (.one h.word.blank) (h.desc.indent k) (by simp) (by simpa [indentBy] using hd)

theorem Entries.ne {ps : List Param} {ls : List Line} (h : Entries ps ls) : ls ≠ [] := by
  cases h <;> simp

theorem Entries.tidy {b : Bool} {ps : List Param} {ls : List Line} (h : Entries ps ls) (hp : ∀ p ∈ ps, p.Good b) : Tidy ls := by
  induction h with
  | last p k => exact (hp p (by simp)).entry k
  | @next p k ps ls gap h ih =>
    have h1 := (hp p (by simp)).entry k
    have h2 := ih fun p hp' => hp p (by simp [hp'])
    cases gap with
    | true => exact h1.gap h2 (by simp) h.ne
    | false => exact h1.append h2 (by simp) h.ne

theorem Entries.parse {b : Bool} {ps : List Param} {ls : List Line} (h : Entries ps ls) (hp : ∀ p ∈ ps, p.Good b) :
    parseParams b ls = ps := by
  have ht := h.tidy hp
  have hd : dedentLines ls = ls := by
    rw [dedentLines, if_neg h.ne]
    refine dedent_flush ?_ ht.empty
    obtain ⟨q, hq, hh⟩ := h.head
    obtain ⟨l, m, rfl⟩ := List.exists_cons_of_ne_nil h.ne
    obtain rfl : l = q.head := by simpa using hh
    have hw := (hp q hq).word
    obtain ⟨c, t, e⟩ := List.exists_cons_of_ne_nil hw.ne
    exact ⟨q.head, by simp, c, by rw [e]; simp, hw.first c (by rw [e]; simp)⟩
  rw [parseParams, hd]
  exact h.loop hp

/-! ## Sections -/

theorem Section.title_word (s : Section) : Word s.title := by
  have key : ∀ l : Line, (l ≠ [] ∧ (l.head?.any isSpace) = false ∧ (l.getLast?.any isSpace) = false ∧ l.contains '\n' = false) → Word l := by
    rintro l ⟨h1, h2, h3, h4⟩
    refine ⟨h1, fun c hc => ?_, fun c hc => ?_, by simpa using h4⟩
    · rw [Option.mem_def.mp hc] at h2
      simpa using h2
    · rw [Option.mem_def.mp hc] at h3
      simpa using h3
  have hp : ∀ k : PSec, Word k.title := fun k => key _ (by cases k <;> decide)
  have ht : ∀ k : TSec, Word k.title := fun k => key _ (by cases k <;> decide)
  cases s with
  | params k ps => exact hp k
  | text k ls => exact ht k

theorem Section.titleOf (s : Section) : Docs.titleOf s.title = s.title := by
  have hp : ∀ k : PSec, Docs.titleOf k.title = k.title := fun k => by cases k <;> decide
  have ht : ∀ k : TSec, Docs.titleOf k.title = k.title := fun k => by cases k <;> decide
  cases s with
  | params k ps => exact hp k
  | text k ls => exact ht k

/-- The key of a section. -/
def Section.key : Section → Key
  | params k _ => .plist k
  | text k _ => .text k

theorem Section.key_eq (s : Section) : Docs.key s.title = some s.key := by
  cases s with
  | params k ps => cases k <;> rfl
  | text k ls => cases k <;> rfl

theorem Section.noDots (s : Section) : starts "..".toList s.title = false := by
  cases s with
  | params k ps => cases k <;> rfl
  | text k ls => cases k <;> rfl

theorem Section.title_inj_params {j k : PSec} (h : j.title = k.title) : j = k := by
  have : ∀ j k : PSec, j.title = k.title → j = k := by
    intro j k
    cases j <;> cases k <;> decide
  exact this _ _ h

theorem Section.title_inj_text {j k : TSec} (h : j.title = k.title) : j = k := by
  have : ∀ j k : TSec, j.title = k.title → j = k := by
    intro j k
    cases j <;> cases k <;> decide
  exact this _ _ h

theorem Section.Body.tidy {s : Section} {ls : List Line} (h : s.Body ls) (hs : s.Good) : Tidy ls ∧ ls ≠ [] := by
  cases s with
  | params k ps => exact ⟨Entries.tidy h hs.2, Entries.ne h⟩
  | text k b =>
    obtain rfl : ls = b := h
    exact ⟨hs.2.1, hs.1⟩

theorem blank_dashes (n : ℕ) : blank (List.replicate (n + 1) '-') = false := rfl

theorem strip_dashes (n : ℕ) : strip (List.replicate n '-') = List.replicate n '-' := by
  have h : ∀ c ∈ List.replicate n '-', isSpace c = false := by
    intro c hc
    rw [List.eq_of_mem_replicate hc]
    rfl
  rw [strip, dropWhile_of_head fun c hc => h c (List.mem_of_mem_head? hc), dropWhile_of_head, List.reverse_reverse]
  rw [List.head?_reverse]
  exact fun c hc => h c (List.mem_of_mem_getLast? hc)

theorem starts_replicate (m n : ℕ) (c : Char) : starts (List.replicate m c) (List.replicate (m + n) c) = true := by
  rw [starts, List.isPrefixOf_iff_prefix, List.replicate_add]
  exact List.prefix_append _ _

theorem title_len (s : Section) : ∃ n, s.title.length = n + 1 :=
  Nat.exists_eq_succ_of_ne_zero (List.length_pos_of_ne_nil s.title_word.ne).ne'

/-! ### No section begins inside of a section -/

theorem strip_indent (k : ℕ) (l : Line) : strip (if l = [] then [] else List.replicate (k + 1) ' ' ++ l) = strip l := by
  split
  · rename_i h
    rw [h]
  · have : ∀ n, (List.replicate n ' ' ++ l).dropWhile isSpace = l.dropWhile isSpace := by
      intro n
      induction n with
      | zero => rfl
      | succ n ih =>
        rw [List.replicate_succ, List.cons_append, List.dropWhile_cons, if_pos (show isSpace ' ' = true from rfl), ih]
    rw [strip, this, strip]

theorem NoHead.isHead {ls b : List Line} (h : NoHead ls) (hb : b ∈ paras ls) : isHead b = false := by
  have hi := paras_infix hb
  have hn := paras_nonblank hb
  cases b with
  | nil => exact absurd rfl hn.1
  | cons l b =>
    have h1 : starts indexMark (strip l) = false := h.2 l (hi.subset (by simp))
    show (_ || _) = false
    rw [h1]
    cases b with
    | nil => exact underlined_blank (hn.2 l (by simp)) rfl
    | cons m b => exact h.1 l m ((List.infix_append' [] [l, m] b).trans hi)

theorem underlined_first {l m : Line} (hl : blank l = false) (hm : Word m) (h : ∀ c ∈ m.head?, c ≠ '-' ∧ c ≠ '=') :
    underlined l m = false := by
  obtain ⟨c, s, e⟩ := List.exists_cons_of_ne_nil (strip_ne_nil hl)
  obtain ⟨d, t, rfl⟩ := List.exists_cons_of_ne_nil hm.ne
  have := h d (by simp)
  rw [underlined, hm.strip, e]
  simp [starts, List.replicate_succ, List.isPrefixOf, Ne.symm this.1, Ne.symm this.2]

/-- Adjacent lines that are both not blank do not form a head, and no line begins an index section. -/
def NoHead' (ls : List Line) : Prop :=
  ls.IsChain (fun l m => blank l = false → underlined l m = false) ∧ ∀ l ∈ ls, starts indexMark (strip l) = false

theorem NoHead'.isHead {ls b : List Line} (h : NoHead' ls) (hb : b ∈ paras ls) : Docs.isHead b = false := by
  have hi := paras_infix hb
  have hn := paras_nonblank hb
  cases b with
  | nil => exact absurd rfl hn.1
  | cons l b =>
    have h1 : starts indexMark (strip l) = false := h.2 l (hi.subset (by simp))
    show (_ || _) = false
    rw [h1]
    cases b with
    | nil => exact underlined_blank (hn.2 l (by simp)) rfl
    | cons m b => exact (List.isChain_cons_cons.mp (h.1.infix hi)).1 (hn.2 l (by simp))

theorem NoHead.chain {ls : List Line} (h : NoHead ls) : NoHead' ls := by
  refine ⟨?_, h.2⟩
  have h1 := h.1
  clear h
  induction ls with
  | nil => exact List.isChain_nil
  | cons l ls ih =>
    refine List.isChain_cons.mpr ⟨fun m hm _ => h1 l m ?_, ih fun a b hab => h1 a b (hab.trans (List.suffix_cons l ls).isInfix)⟩
    cases ls with
    | nil => simp at hm
    | cons k ls =>
      obtain rfl : k = m := by simpa using hm
      exact List.infix_append' [] [l, k] ls

theorem Param.Good.entry_noHead {b : Bool} {p : Param} (h : p.Good b) (k : ℕ) : NoHead' (p.head :: indentBy k p.desc) := by
  have hc := h.plain.chain
  refine ⟨?_, ?_⟩
  · have hc1 := List.isChain_cons.mp hc.1
    refine List.isChain_cons.mpr ⟨fun m hm hb => ?_, ?_⟩
    · rw [indentBy, List.head?_map] at hm
      obtain ⟨n, hn, rfl⟩ := Option.map_eq_some_iff.mp hm
      have := hc1.1 n hn hb
      rw [underlined] at this ⊢
      rw [strip_indent]
      exact this
    · refine (List.isChain_map _).mpr (hc1.2.imp ?_)
      intro a b hab hbl
      rw [blank_indent] at hbl
      have := hab hbl
      rw [underlined] at this ⊢
      rw [strip_indent, strip_indent]
      exact this
  · intro l hl
    rcases List.mem_cons.mp hl with rfl | hl
    · exact hc.2 _ (by simp)
    · obtain ⟨m, hm, rfl⟩ := List.mem_map.mp hl
      rw [strip_indent]
      exact hc.2 m (by simp [hm])

theorem Entries.noHead {b : Bool} {ps : List Param} {ls : List Line} (h : Entries ps ls) (hp : ∀ p ∈ ps, p.Good b) : NoHead' ls := by
  induction h with
  | last p k => exact (hp p (by simp)).entry_noHead k
  | @next p k ps ls gap h ih =>
    have h1 := (hp p (by simp)).entry_noHead k
    have h2 := ih fun p hp' => hp p (by simp [hp'])
    obtain ⟨q, hq, hh⟩ := h.head
    have hg := hp q (by simp [hq])
    refine ⟨?_, ?_⟩
    · refine List.isChain_append.mpr ⟨h1.1, ?_, ?_⟩
      · cases gap with
        | true => exact List.isChain_cons.mpr ⟨fun m _ hb => absurd hb (by decide), h2.1⟩
        | false => exact h2.1
      · intro l hl m hm hb
        cases gap with
        | true =>
          obtain rfl : m = [] := by simpa using hm.symm
          exact underlined_blank hb rfl
        | false =>
          rw [show (if false = true then [[]] else ([] : List Line)) ++ ls = ls from rfl, hh] at hm
          obtain rfl : q.head = m := by simpa using hm
          exact underlined_first hb hg.word hg.first
    · intro l hl
      rcases List.mem_append.mp hl with hl | hl
      · exact h1.2 l hl
      · rcases List.mem_append.mp hl with hl | hl
        · cases gap with
          | true =>
            obtain rfl : l = [] := by simpa using hl
            rfl
          | false => simp at hl
        · exact h2.2 l hl

theorem Section.Body.noHead {s : Section} {ls : List Line} (h : s.Body ls) (hs : s.Good) : NoHead' ls := by
  cases s with
  | params k ps => exact Entries.noHead h hs.2
  | text k b =>
    obtain rfl : ls = b := h
    exact hs.2.2.1.chain

/-- What the reader needs to know about the lines of a section. -/
structure IsPart (part : List Line) : Prop where
  tidy : Tidy part
  paras : ∃ b bs, paras part = b :: bs ∧ isHead b = true ∧ ∀ b' ∈ bs, isHead b' = false

theorem Section.Lines.part {s : Section} {ls : List Line} (h : s.Lines ls) (hs : s.Good) :
    IsPart ls ∧ ∃ u body, ls.head? = some s.title ∧ s.Body body ∧ (ls.drop 1).head? = some u ∧ stripContent (ls.drop 2) = body := by
  obtain ⟨n, gap, body, hb, rfl⟩ := h
  obtain ⟨m, hm⟩ := title_len s
  have ht := hb.tidy hs
  have hn := hb.noHead hs
  have b1 : blank s.title = false := s.title_word.blank
  have b2 : blank (List.replicate (s.title.length + n) '-') = false := by
    rw [hm, show m + 1 + n = (m + n) + 1 by omega]
    rfl
  have hu : underlined s.title (List.replicate (s.title.length + n) '-') = true := by
    rw [underlined, s.title_word.strip, strip_dashes, starts_replicate]
    rfl
  have t2 : Tidy [s.title, List.replicate (s.title.length + n) '-'] :=
    Tidy.append (.one b1) (.one b2) (by simp) (by simp)
  refine ⟨⟨?_, ?_⟩, _, body, rfl, hb, rfl, ?_⟩
  · cases gap with
    | true => exact t2.gap ht.1 (by simp) ht.2
    | false => exact t2.append ht.1 (by simp) ht.2
  · cases gap with
    | true =>
      refine ⟨[s.title, List.replicate (s.title.length + n) '-'], Docs.paras body, ?_, ?_, fun b' hb' => hn.isHead hb'⟩
      · exact (paras_run (p := [s.title, List.replicate (s.title.length + n) '-']) (q := [] :: body) (by simp)
          (by simp [b1, b2]) (by simp [blank])).trans (by rw [paras_blank rfl])
      · show (_ || underlined _ _) = true
        rw [show (List.replicate (s.title.length + n) '-' :: ([] : List Line)).headD [] = List.replicate (s.title.length + n) '-' from rfl] at *
        simp [hu]
    | false =>
      obtain ⟨l, body, rfl⟩ := List.exists_cons_of_ne_nil ht.2
      obtain ⟨b, bs, e⟩ := paras_ne_nil (ls := body) (ht.1.first l (by simp))
      refine ⟨s.title :: List.replicate (s.title.length + n) '-' :: l :: b, bs, ?_, ?_, fun b' hb' => hn.isHead (by rw [e]; simp [hb'])⟩
      · exact paras_more b1 b2 (paras_more b2 (ht.1.first l (by simp)) e)
      · show (_ || underlined s.title (List.replicate (s.title.length + n) '-')) = true
        simp [hu]
  · cases gap with
    | true => exact (stripBlank_cons rfl).trans ht.1.strip
    | false => exact ht.1.strip

/-- The item read for the lines of a section. -/
def itemOf (part : List Line) : Option (Line × List Line) := some (strip (part.headD []), stripContent (part.drop 2))

theorem takeWhile_none {α : Type} {p : α → Bool} {l : List α} (h : ∀ c ∈ l.head?, p c = false) : l.takeWhile p = [] := by
  cases l with
  | nil => rfl
  | cons a l => rw [List.takeWhile_cons, if_neg (by simp [h a (by simp)])]

theorem flatten_head {parts : List (List Line)} (h : ∀ p ∈ parts, IsPart p) :
    ∀ b ∈ ((parts.map paras).flatten).head?, isHead b = true := by
  cases parts with
  | nil => simp
  | cons p parts =>
    obtain ⟨b, bs, e, hb, _⟩ := (h p (by simp)).paras
    rw [List.map_cons, List.flatten_cons, e]
    simpa using hb

theorem readSections_eq {parts : List (List Line)} (h : ∀ p ∈ parts, IsPart p)
    (hd : ∀ p ∈ parts, starts "..".toList (strip (p.headD [])) = false) (hl : ∀ p ∈ parts, 2 ≤ p.length)
    {r : Reader} (hr : Sought r) (e : paras r.rest = (parts.map paras).flatten) :
    readSections r = .ok (parts.map itemOf) := by
  induction parts generalizing r with
  | nil => rw [readSections, if_pos ((sought_nil hr).mpr e)]; rfl
  | cons p parts ih =>
    have hp := h p (by simp)
    obtain ⟨b, bs, eb, hb, hbs⟩ := hp.paras
    rw [List.map_cons, List.flatten_cons, eb] at e
    have hrest : ∀ c ∈ ((parts.map paras).flatten).head?, (!isHead c) = false := fun c hc => by
      rw [flatten_head (fun q hq => h q (by simp [hq])) c hc]
      rfl
    obtain ⟨h1, h2⟩ := takeWhile_run (p := fun b => !isHead b) (a := bs) (b := (parts.map paras).flatten)
      (fun c hc => by simp [hbs c hc]) hrest
    obtain ⟨s1, s2, s3⟩ := readSection_eq r
    rw [e] at s1 s2
    have s1 : (readSection r).1 = p := by
      rw [s1, ← hp.tidy.join, eb, joinParas_cons]
      show b ++ (List.takeWhile _ (bs ++ _)).flatMap _ = _
      rw [h1]
    have s2 : paras (readSection r).2.rest = (parts.map paras).flatten := s2.trans h2
    have hne : r.rest ≠ [] := by
      intro e0
      rw [e0] at e
      simp [paras] at e
    have ihr := ih (fun q hq => h q (by simp [hq])) (fun q hq => hd q (by simp [hq])) (fun q hq => hl q (by simp [hq])) s3 s2
    have h2l := hl p (by simp)
    have hdp := hd p (by simp)
    rw [readSections, if_neg hne]
    split
    · rename_i e0
      rw [s1] at e0
      rw [e0] at h2l
      simp at h2l
    · rename_i l ls e0
      rw [s1] at e0
      subst e0
      cases ls with
      | nil => simp at h2l
      | cons m ls =>
        rw [ihr]
        show Except.ok ((if starts "..".toList (strip l) then _ else _) :: _) = _
        rw [if_neg (by rw [show strip l = strip ((l :: m :: ls).headD []) from rfl, hdp]; simp)]
        rfl

/-! ## The whole docstring -/

/-- The parsed form of a docstring. -/
def Doc.parsed (d : Doc) : Parsed where
  signature := .inl []
  summary := d.opening.headD (if d.sections.isEmpty then [] else [[]])
  extended := joinParas d.opening.tail
  plist := d.plist
  text := d.text
  seeAlso := []
  index := []

theorem opening_noHead {sig : List Line → Bool} {d : Doc} (h : d.Good sig) {b : List Line} (hb : b ∈ d.opening) : isHead b = false := by
  obtain ⟨h1, h2, h3⟩ := h.opening b hb
  have e : paras b = [b] := by
    have := paras_run (p := b) (q := []) h1 (fun l hl => (h3 l hl).1) (by simp)
    rwa [List.append_nil] at this
  exact h2.isHead (by rw [e]; simp)

theorem seek_paras (r : Reader) : paras r.seek.rest = paras r.rest := paras_dropWhile _

theorem takeWhile_heads {bs tail : List (List Line)} (hb : ∀ b ∈ bs, isHead b = false) (ht : ∀ b ∈ tail.head?, isHead b = true) :
    (bs ++ tail).takeWhile (fun b => !isHead b) = bs ∧ (bs ++ tail).dropWhile (fun b => !isHead b) = tail :=
  takeWhile_run (fun c hc => by simp [hb c hc]) fun c hc => by simp [ht c hc]

/-- The opening paragraphs. -/
theorem parseSummary_eq {o : Outside} {opening tail : List (List Line)} (hb : ∀ b ∈ opening, isHead b = false)
    (hs : ∀ b ∈ opening.head?, isSignature o (summaryStr b) = false) (ht : ∀ b ∈ tail.head?, isHead b = true)
    {r : Reader} (e : paras r.rest = opening ++ tail) :
    (parseSummary o r).1 = { Parsed.init with
      summary := opening.headD (if tail = [] then [] else [[]])
      extended := joinParas opening.tail } ∧
    paras (parseSummary o r).2.rest = tail ∧ Sought (parseSummary o r).2 := by
  have hsec : r.isAtSection.1 = true ↔ opening = [] ∧ tail ≠ [] := by
    rw [isAtSection_eq, e]
    cases opening with
    | nil =>
      cases tail with
      | nil => simp
      | cons b tail => simp [ht b (by simp)]
    | cons b bs => simp [hb b (by simp)]
  rw [parseSummary]
  by_cases h : r.isAtSection.1 = true
  · rw [if_pos h]
    obtain ⟨rfl, hn⟩ := hsec.mp h
    refine ⟨?_, (seek_paras r).trans e, seek_sought r⟩
    simp only [if_neg hn]
    rfl
  · rw [if_neg h]
    -- the first paragraph
    obtain ⟨s1, s2⟩ := seek_readPara r
    have hsig : isSignature o (summaryStr r.seek.readPara.1) = false := by
      rw [s1]
      rcases readPara_eq r with ⟨e1, e2, _⟩ | ⟨bs, e1, _⟩
      · rw [e2]
        rfl
      · rw [e] at e1
        cases opening with
        | nil =>
          exfalso
          apply h
          refine hsec.mpr ⟨rfl, fun e0 => ?_⟩
          rw [e0] at e1
          simp at e1
        | cons b bs' =>
          obtain ⟨rfl, _⟩ := List.cons.inj e1
          exact hs _ (by simp)
    have hloop : summaryLoop o [] r.seek = ([], r.seek.readPara.1, r.seek.readPara.2) := by
      rw [summaryLoop, dif_neg (by rw [hsig]; simp)]
    simp only [hloop]
    cases opening with
    | nil =>
      have htail : tail = [] := by
        by_contra hne
        exact h (hsec.mpr ⟨rfl, hne⟩)
      subst htail
      have e0 : paras r.rest = [] := e
      rcases readPara_eq r with ⟨_, e2, e3⟩ | ⟨bs, e1, _⟩
      · have e4 : r.seek.readPara.2.rest = [] := s2.trans e3
        have e5 : r.seek.readPara.2.isAtSection.1 = false := by rw [isAtSection_eq, e4]; rfl
        rw [if_neg (by rw [e5]; simp)]
        obtain ⟨q1, q2, q3⟩ := readSection_eq r.seek.readPara.2.seek
        rw [seek_paras, e4] at q1 q2
        refine ⟨?_, q2, q3⟩
        show Parsed.mk _ _ _ _ _ _ _ = Parsed.mk _ _ _ _ _ _ _
        rw [q1, s1, e2]
        rfl
      · rw [e0] at e1
        simp at e1
    | cons b bs =>
      rcases readPara_eq r with ⟨e1, _⟩ | ⟨bs', e1, e2, _⟩
      · rw [e] at e1
        simp at e1
      · rw [e] at e1
        obtain ⟨hb1, rfl⟩ := List.cons.inj e1
        have e4 : paras r.seek.readPara.2.rest = bs ++ tail := by rw [s2]; exact e2
        obtain ⟨t1, t2⟩ := takeWhile_heads (bs := bs) (tail := tail) (fun c hc => hb c (by simp [hc])) ht
        by_cases h5 : r.seek.readPara.2.isAtSection.1 = true
        · rw [if_pos h5]
          have hbs : bs = [] := by
            cases bs with
            | nil => rfl
            | cons c bs =>
              rw [isAtSection_eq, e4] at h5
              have : isHead c = true := h5
              rw [hb c (by simp)] at this
              simp at this
          subst hbs
          refine ⟨?_, (seek_paras _).trans e4, seek_sought _⟩
          show Parsed.mk _ _ _ _ _ _ _ = Parsed.mk _ _ _ _ _ _ _
          rw [s1, ← hb1]
          rfl
        · rw [if_neg h5]
          obtain ⟨q1, q2, q3⟩ := readSection_eq r.seek.readPara.2.seek
          rw [seek_paras, e4] at q1 q2
          cases bs with
          | nil =>
            have htail : tail = [] := by
              by_contra hne
              apply h5
              rw [isAtSection_eq, e4]
              obtain ⟨c, cs, rfl⟩ := List.exists_cons_of_ne_nil hne
              exact ht c (by simp)
            subst htail
            refine ⟨?_, q2, q3⟩
            show Parsed.mk _ _ _ _ _ _ _ = Parsed.mk _ _ _ _ _ _ _
            rw [q1, s1, ← hb1]
            rfl
          | cons c cs =>
            obtain ⟨t3, t4⟩ := takeWhile_heads (bs := cs) (tail := tail) (fun c hc => hb c (by simp [hc])) ht
            refine ⟨?_, q2.trans t4, q3⟩
            show Parsed.mk _ _ _ _ _ _ _ = Parsed.mk _ _ _ _ _ _ _
            have q1' : (readSection r.seek.readPara.2.seek).1 = joinParas (c :: cs) := by
              rw [q1, joinParas_cons]
              show c ++ (List.takeWhile _ (cs ++ tail)).flatMap _ = _
              rw [t3]
            rw [q1', s1, ← hb1]
            rfl

/-- A section added to the parsed form. -/
def Parsed.add (p : Parsed) : Section → Parsed
  | .params k ps => { p with plist := Function.update p.plist k ps }
  | .text k ls => { p with text := Function.update p.text k ls }

/-- The section is not there yet. -/
def Parsed.free (p : Parsed) : Section → Prop
  | .params k _ => p.plist k = []
  | .text k _ => p.text k = []

theorem addSection_eq {o : Outside} {p : Parsed} {s : Section} {body : List Line} (hs : s.Good) (hb : s.Body body) (hf : p.free s) :
    addSection o p (s.title, body) = .ok (p.add s) := by
  rw [addSection, if_neg (by rw [s.noDots]; simp)]
  show (match key (titleOf s.title) with
    | none => _
    | some k => _) = _
  rw [s.titleOf, s.key_eq]
  cases s with
  | params k ps =>
    show (if (!(p.plist k).isEmpty) = true then _ else _) = _
    rw [show p.plist k = [] from hf, if_neg (by simp)]
    show Except.ok _ = Except.ok _
    rw [show parseParams k.single body = ps from Entries.parse hb hs.2]
    rfl
  | text k ls =>
    show (if (!(p.text k).isEmpty) = true then _ else _) = _
    rw [show p.text k = [] from hf, if_neg (by simp)]
    obtain rfl : body = ls := hb
    rfl

theorem free_add {p : Parsed} {s t : Section} (h : p.free t) (hst : s.title ≠ t.title) : (p.add s).free t := by
  cases s with
  | params j ps =>
    cases t with
    | params k qs =>
      show Function.update p.plist j ps k = []
      rw [Function.update_of_ne]
      · exact h
      · rintro rfl
        exact hst rfl
    | text k qs => exact h
  | text j ps =>
    cases t with
    | params k qs => exact h
    | text k qs =>
      show Function.update p.text j ps k = []
      rw [Function.update_of_ne]
      · exact h
      · rintro rfl
        exact hst rfl

theorem foldlM_sections {o : Outside} {ss : List Section} {bodies : List (List Line)} (h : List.Forall₂ Section.Body ss bodies)
    (hg : ∀ s ∈ ss, s.Good) (hn : (ss.map Section.title).Nodup) {p : Parsed} (hf : ∀ s ∈ ss, p.free s) :
    (List.zipWith (fun s b => (Section.title s, b)) ss bodies).foldlM (addSection o) p = .ok (ss.foldl Parsed.add p) := by
  induction h generalizing p with
  | nil => rfl
  | @cons s b ss bs hb h ih =>
    rw [List.zipWith_cons_cons, List.foldlM_cons, addSection_eq (hg s (by simp)) hb (hf s (by simp))]
    rw [List.map_cons, List.nodup_cons] at hn
    exact ih (fun t ht => hg t (by simp [ht])) hn.2 fun t ht =>
      free_add (hf t (by simp [ht])) fun e => hn.1 (e ▸ List.mem_map_of_mem ht)

theorem Doc.plist_cons (op : List (List Line)) (s : Section) (ss : List Section) (k : PSec) :
    Doc.plist ⟨op, s :: ss⟩ k = Doc.plist ⟨op, [s]⟩ k ++ Doc.plist ⟨op, ss⟩ k := by
  simp [Doc.plist]

theorem Doc.text_cons (op : List (List Line)) (s : Section) (ss : List Section) (k : TSec) :
    Doc.text ⟨op, s :: ss⟩ k = Doc.text ⟨op, [s]⟩ k ++ Doc.text ⟨op, ss⟩ k := by
  simp [Doc.text]

theorem foldl_add {ss : List Section} (hn : (ss.map Section.title).Nodup) {p : Parsed} (hf : ∀ s ∈ ss, p.free s)
    (op : List (List Line)) :
    ss.foldl Parsed.add p = { p with
      plist := fun k => p.plist k ++ Doc.plist ⟨op, ss⟩ k
      text := fun k => p.text k ++ Doc.text ⟨op, ss⟩ k } := by
  induction ss generalizing p with
  | nil => simp [Doc.plist, Doc.text]
  | cons s ss ih =>
    rw [List.map_cons, List.nodup_cons] at hn
    rw [List.foldl_cons, ih hn.2 fun t ht => free_add (hf t (by simp [ht])) fun e => hn.1 (e ▸ List.mem_map_of_mem ht)]
    have hs := hf s (by simp)
    have e1 : ∀ k, (p.add s).plist k = p.plist k ++ Doc.plist ⟨op, [s]⟩ k := by
      intro k
      cases s with
      | params j ps =>
        show Function.update p.plist j ps k = _
        by_cases hj : j = k
        · subst hj
          rw [Function.update_self, show p.plist j = [] from hs]
          simp [Doc.plist]
        · rw [Function.update_of_ne (Ne.symm hj)]
          simp [Doc.plist, hj]
      | text j ls => simp [Parsed.add, Doc.plist]
    have e2 : ∀ k, (p.add s).text k = p.text k ++ Doc.text ⟨op, [s]⟩ k := by
      intro k
      cases s with
      | params j ps => simp [Parsed.add, Doc.text]
      | text j ls =>
        show Function.update p.text j ls k = _
        by_cases hj : j = k
        · subst hj
          rw [Function.update_self, show p.text j = [] from hs]
          simp [Doc.text]
        · rw [Function.update_of_ne (Ne.symm hj)]
          simp [Doc.text, hj]
    have e3 : (p.add s).signature = p.signature ∧ (p.add s).summary = p.summary ∧ (p.add s).extended = p.extended ∧
        (p.add s).seeAlso = p.seeAlso ∧ (p.add s).index = p.index := by
      cases s <;> exact ⟨rfl, rfl, rfl, rfl, rfl⟩
    show Parsed.mk _ _ _ _ _ _ _ = Parsed.mk _ _ _ _ _ _ _
    rw [e3.1, e3.2.1, e3.2.2.1, e3.2.2.2.1, e3.2.2.2.2]
    congr 1
    · funext k
      rw [e1, Doc.plist_cons op s ss, List.append_assoc]
    · funext k
      rw [e2, Doc.text_cons op s ss, List.append_assoc]

theorem parts_spec {ss : List Section} {parts : List (List Line)} (h : List.Forall₂ Section.Lines ss parts) (hg : ∀ s ∈ ss, s.Good) :
    (∀ p ∈ parts, IsPart p ∧ 2 ≤ p.length ∧ starts "..".toList (strip (p.headD [])) = false) ∧
    ∃ bodies, List.Forall₂ Section.Body ss bodies ∧
      parts.map itemOf = (List.zipWith (fun s b => (Section.title s, b)) ss bodies).map some := by
  induction h with
  | nil => exact ⟨by simp, [], .nil, rfl⟩
  | @cons s p ss ps hl h ih =>
    obtain ⟨i1, bodies, i2, i3⟩ := ih fun t ht => hg t (by simp [ht])
    obtain ⟨h1, u, body, h2, h3, h4, h5⟩ := hl.part (hg s (by simp))
    have hp : p.headD [] = s.title := by
      cases p with
      | nil => simp at h2
      | cons l p => simpa using h2
    refine ⟨fun q hq => ?_, body :: bodies, .cons h3 i2, ?_⟩
    · rcases List.mem_cons.mp hq with rfl | hq
      · refine ⟨h1, ?_, ?_⟩
        · cases q with
          | nil => simp at h2
          | cons l q =>
            cases q with
            | nil => simp at h4
            | cons m q => simp
        · rw [hp, s.title_word.strip]
          exact s.noDots
      · exact i1 q hq
    · rw [List.map_cons, i3, List.zipWith_cons_cons, List.map_cons, itemOf, hp, s.title_word.strip, h5]

theorem mapM_some (l : List (Line × List Line)) : (l.map some).mapM unpack = .ok l := by
  induction l with
  | nil => rfl
  | cons a l ih =>
    rw [List.map_cons, List.mapM_cons, ih]
    rfl

/-- The reader finds what the docstring says. -/
theorem Reads.parse {o : Outside} {t : List Char} {d : Doc} (h : Reads t d)
    (hg : d.Good fun b => isSignature o (summaryStr b)) : Docs.parse o t = .ok d.parsed := by
  obtain ⟨ls, ind, ⟨parts, hp, hl⟩, hi⟩ := h
  obtain ⟨p1, bodies, p2, p3⟩ := parts_spec hp hg.sections
  obtain ⟨s1, s2, s3⟩ := parseSummary_eq (o := o) (r := ⟨[], ls⟩) (fun b hb => opening_noHead hg hb) hg.signature
    (flatten_head fun p hp => (p1 p hp).1) hl
  have hr := readSections_eq (fun p hp => (p1 p hp).1) (fun p hp => (p1 p hp).2.2) (fun p hp => (p1 p hp).2.1) s3 s2
  have hnames : (List.zipWith (fun s b => (Section.title s, b)) d.sections bodies).map Prod.fst = d.sections.map Section.title := by
    have : ∀ {ss : List Section} {bs : List (List Line)}, List.Forall₂ Section.Body ss bs →
        (List.zipWith (fun s b => (Section.title s, b)) ss bs).map Prod.fst = ss.map Section.title := by
      intro ss bs h
      induction h with
      | nil => rfl
      | cons _ _ ih => simp [ih]
    exact this p2
  have htail : ((parts.map paras).flatten = []) ↔ d.sections = [] := by
    revert p1 hp
    generalize d.sections = ss
    intro hp p1
    cases hp with
    | nil => simp
    | @cons s p ss ps hl h =>
      obtain ⟨b, bs, e, _⟩ := (p1 p (by simp)).1.paras
      simp [e]
  show parseLines o (Docs.dedent (splitNL t)) = _
  rw [hi.dedent]
  show (readSections (parseSummary o ⟨[], ls⟩).2 >>= fun secs => secs.mapM unpack >>= addSections o (parseSummary o ⟨[], ls⟩).1) = _
  rw [hr, p3]
  show ((List.map some _).mapM unpack >>= addSections o (parseSummary o ⟨[], ls⟩).1) = _
  rw [mapM_some]
  show addSections o (parseSummary o ⟨[], ls⟩).1 _ = _
  rw [addSections]
  simp only [hnames]
  rw [if_neg (by exact hg.returns), if_neg (by exact fun hc => hc.1 (hg.receives hc.2)), s1]
  have hf : ∀ s ∈ d.sections, Parsed.free { Parsed.init with
      summary := d.opening.headD (if (parts.map paras).flatten = [] then [] else [[]])
      extended := joinParas d.opening.tail } s := by
    intro s _
    cases s <;> rfl
  rw [foldlM_sections p2 hg.sections hg.once hf, foldl_add hg.once hf d.opening]
  show Except.ok (Parsed.mk _ _ _ _ _ _ _) = Except.ok (Parsed.mk _ _ _ _ _ _ _)
  simp only [htail, List.isEmpty_iff]
  rfl

end RT1.Docs
