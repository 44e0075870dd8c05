import Verif.Lemmas.DocsParse

/-!
# Merging and printing docstrings
-/

namespace RT1.Docs

/-! ## Splitting and joining -/

theorem splitNL_ne (t : List Char) : splitNL t ≠ [] := by
  cases t with
  | nil => simp [splitNL]
  | cons c t =>
    rw [splitNL]
    split
    · simp
    · split <;> simp

theorem splitNL_line {l : Line} (h : '\n' ∉ l) : splitNL l = [l] := by
  induction l with
  | nil => rfl
  | cons c l ih =>
    rw [splitNL, if_neg (fun e => h (by simp [e])), ih fun hm => h (by simp [hm])]

theorem splitNL_append (a b : List Char) : splitNL (a ++ '\n' :: b) = splitNL a ++ splitNL b := by
  induction a with
  | nil =>
    rfl
  | cons c a ih =>
    rw [List.cons_append, splitNL, ih, splitNL]
    split
    · rfl
    · obtain ⟨l, ls, e⟩ := List.exists_cons_of_ne_nil (splitNL_ne a)
      rw [e]
      rfl

theorem splitNL_join {ls : List Line} (h : ls ≠ []) : splitNL (joinNL ls) = ls.flatMap splitNL := by
  induction ls with
  | nil => exact absurd rfl h
  | cons l ls ih =>
    cases ls with
    | nil => simp [joinNL]
    | cons m ls =>
      rw [show joinNL (l :: m :: ls) = l ++ '\n' :: joinNL (m :: ls) from rfl, splitNL_append, ih (by simp), List.flatMap_cons (x := l)]

/-- Lines that are joined: lines without line feed, or a line feed. -/
def Joined (ls : List Line) : Prop := ∀ l ∈ ls, l = ['\n'] ∨ '\n' ∉ l

theorem paras_split {ls : List Line} (h : Joined ls) : paras (ls.flatMap splitNL) = paras ls := by
  induction ls with
  | nil => rfl
  | cons l ls ih =>
    have ih := ih fun l hl => h l (by simp [hl])
    rw [List.flatMap_cons]
    rcases h l (by simp) with rfl | hl
    · show paras ([] :: [] :: ls.flatMap splitNL) = _
      rw [paras_blank rfl, paras_blank rfl, paras_blank (by decide), ih]
    · rw [splitNL_line hl]
      show paras (l :: ls.flatMap splitNL) = paras (l :: ls)
      cases hb : blank l with
      | true => rw [paras_blank hb, paras_blank hb, ih]
      | false =>
        rw [paras, if_neg (by simp [hb]), paras, if_neg (by simp [hb]), ih]
        rw [addLine, addLine]
        have : blank ((ls.flatMap splitNL).headD []) = blank (ls.headD []) := by
          cases ls with
          | nil => rfl
          | cons m ls =>
            rcases h m (by simp) with rfl | hm
            · rfl
            · rw [List.flatMap_cons, splitNL_line hm]
              rfl
        rw [this]

/-- A line of spaces and tabs emptied. -/
def norm (l : Line) : Line := if l.all isTab then [] else l

theorem blank_norm (l : Line) : blank (norm l) = blank l := by
  rw [norm]
  split
  · rename_i h
    rw [blank_of_tabs h]
    rfl
  · rfl

theorem norm_nonblank {l : Line} (h : blank l = false) : norm l = l := by
  rw [norm, if_neg]
  intro e
  rw [blank_of_tabs e] at h
  simp at h

theorem paras_norm (ls : List Line) : paras (ls.map norm) = paras ls := by
  induction ls with
  | nil => rfl
  | cons l ls ih =>
    rw [List.map_cons]
    cases hb : blank l with
    | true => rw [paras_blank (by rw [blank_norm, hb]), paras_blank hb, ih]
    | false =>
      rw [norm_nonblank hb, paras, if_neg (by simp [hb]), paras, if_neg (by simp [hb]), ih, addLine, addLine]
      have : blank ((ls.map norm).headD []) = blank (ls.headD []) := by
        cases ls with
        | nil => rfl
        | cons m ls => exact blank_norm m
      rw [this]

theorem indented_norm (ls : List Line) :
    List.Forall₂ (fun l t => l = [] ∧ t.all isTab = true ∨ l.all isTab = false ∧ t = [] ++ l) (ls.map norm) ls := by
  rw [List.forall₂_map_left_iff, List.forall₂_same]
  intro l _
  rw [norm]
  split
  · rename_i h
    exact .inl ⟨rfl, h⟩
  · rename_i h
    exact .inr ⟨by simpa using h, rfl⟩

/-! ## Paragraphs of the parsed form -/

theorem paras_self {b : List Line} (h1 : b ≠ []) (h2 : ∀ l ∈ b, blank l = false) : paras b = [b] := by
  have := paras_run (p := b) (q := []) h1 h2 (by simp)
  rwa [List.append_nil] at this

theorem paras_joinParas {bs : List (List Line)} (h : ∀ b ∈ bs, b ≠ [] ∧ ∀ l ∈ b, blank l = false) : paras (joinParas bs) = bs := by
  induction bs with
  | nil => rfl
  | cons b bs ih =>
    have hb := h b (by simp)
    cases bs with
    | nil => exact paras_self hb.1 hb.2
    | cons c bs =>
      have ih := ih fun b hb => h b (by simp [hb])
      show paras (b ++ [] :: joinParas (c :: bs)) = _
      rw [paras_append_blank _ _ rfl, ih, paras_self hb.1 hb.2]
      rfl

/-- Lines of opening paragraphs. -/
def Plain (ls : List Line) : Prop := ∀ l ∈ ls, l = ['\n'] ∨ l = [] ∨ blank l = false ∧ '\n' ∉ l

theorem Plain.append {a b : List Line} (ha : Plain a) (hb : Plain b) : Plain (a ++ b) := fun l hl =>
  (List.mem_append.mp hl).elim (ha l) (hb l)

theorem Plain.joined {a : List Line} (h : Plain a) : Joined a := fun l hl => by
  rcases h l hl with h | rfl | h
  · exact .inl h
  · exact .inr (by simp)
  · exact .inr h.2

theorem Doc.parsed_summary {sig : List Line → Bool} {d : Doc} (h : d.Good sig) :
    paras d.parsed.summary = d.opening.take 1 ∧ Plain d.parsed.summary := by
  show paras (d.opening.headD _) = _ ∧ Plain (d.opening.headD _)
  have ho := h.opening
  cases hop : d.opening with
  | nil =>
    show paras (if _ then [] else [[]]) = [] ∧ Plain (if _ then [] else [[]])
    split
    · exact ⟨rfl, by simp [Plain]⟩
    · exact ⟨rfl, by simp [Plain]⟩
  | cons b bs =>
    rw [hop] at ho
    have hb := ho b (by simp)
    exact ⟨paras_self hb.1 fun l hl => (hb.2.2 l hl).1, fun l hl => .inr (.inr (hb.2.2 l hl))⟩

theorem plain_joinParas {bs : List (List Line)} (h : ∀ b ∈ bs, Plain b) : Plain (joinParas bs) := by
  induction bs with
  | nil => simp [joinParas, Plain]
  | cons b bs ih =>
    cases bs with
    | nil => exact h b (by simp)
    | cons c bs =>
      show Plain (b ++ ([[]] ++ joinParas (c :: bs)))
      exact (h b (by simp)).append (Plain.append (by simp [Plain]) (ih fun b hb => h b (by simp [hb])))

theorem Doc.parsed_extended {sig : List Line → Bool} {d : Doc} (h : d.Good sig) :
    paras d.parsed.extended = d.opening.drop 1 ∧ Plain d.parsed.extended := by
  show paras (joinParas d.opening.tail) = _ ∧ Plain (joinParas d.opening.tail)
  have ho : ∀ b ∈ d.opening.tail, _ := fun b hb => h.opening b (List.mem_of_mem_tail hb)
  refine ⟨?_, plain_joinParas fun b hb l hl => .inr (.inr ((ho b hb).2.2 l hl))⟩
  rw [paras_joinParas fun b hb => ⟨(ho b hb).1, fun l hl => ((ho b hb).2.2 l hl).1⟩, List.drop_one]

/-! ## Merging -/

theorem addParams_eq (c f : List Param) : addParams c f = c ++ firsts (c.map Param.name) f := by
  induction f generalizing c with
  | nil => simp [addParams, firsts]
  | cons p f ih =>
    rw [addParams, List.foldl_cons, firsts]
    by_cases h : p.name ∈ c.map Param.name
    · rw [if_pos h, if_pos]
      · exact ih c
      · obtain ⟨q, hq, e⟩ := List.mem_map.mp h
        rw [List.any_eq_true]
        exact ⟨q, hq, by simpa using e⟩
    · rw [if_neg h, if_neg]
      · have := ih (c ++ [p])
        rw [addParams] at this
        rw [this, List.map_append]
        simp
      · rw [List.any_eq_true]
        rintro ⟨q, hq, e⟩
        exact h (List.mem_map.mpr ⟨q, hq, by simpa using e⟩)

theorem addParams_append (c f g : List Param) : addParams (addParams c f) g = addParams c (f ++ g) := by
  simp [addParams, List.foldl_append]

theorem paras_addText (c f : List Line) : paras (addText c f) = paras c ++ paras f := by
  rw [addText]
  split
  · rename_i h
    rw [h]
    simp [paras]
  · exact paras_append_blank _ _ (by decide)

theorem plain_addText {c f : List Line} (hc : Plain c) (hf : Plain f) : Plain (addText c f) := by
  rw [addText]
  split
  · exact hc
  · exact hc.append (fun l hl => by
      rcases List.mem_cons.mp hl with rfl | hl
      · exact .inl rfl
      · exact hf l hl)

/-- The parsed form after merging. -/
structure Says (P : Parsed) (op1 op2 : List (List Line)) (pl : PSec → List Param) (tx : TSec → List Line) : Prop where
  signature : P.signature = .inl []
  summary : paras P.summary = op1
  plain1 : Plain P.summary
  extended : paras P.extended = op2
  plain2 : Plain P.extended
  plist : P.plist = pl
  text : P.text = tx
  seeAlso : P.seeAlso = []
  index : P.index = []

theorem parse_nil (o : Outside) : parse o [] = .ok ⟨.inl [], [], [], fun _ => [], fun _ => [], [], []⟩ := by
  have h : Reads [] ⟨[], []⟩ := ⟨[[]], [], ⟨[], .nil, rfl⟩, rfl, .cons (.inl ⟨rfl, rfl⟩) .nil, .inl (by simp)⟩
  exact h.parse (o := o) ⟨by simp, by simp, .inr (.inl rfl), by simp, by simp, by simp, by simp⟩

/-- The condition on the docstrings that are merged into another one. -/
def BaseOf (o : Outside) (t : Option (List Char)) (d : Doc) : Prop :=
  Reads (t.getD []) d ∧ (d.Good fun b => isSignature o (summaryStr b)) ∧ d.text .references = [] ∧ d.text .examples = []

theorem mergeAll_eq {o : Outside} {bases : List (Option (List Char))} {ds : List Doc} (h : List.Forall₂ (BaseOf o) bases ds)
    {P : Parsed} {op1 op2 : List (List Line)} {pl : PSec → List Param} {tx : TSec → List Line} (hP : Says P op1 op2 pl tx) :
    ∃ Q, mergeAll o P bases = .ok Q ∧ Says Q (op1 ++ ds.flatMap fun b => b.opening.take 1) (op2 ++ ds.flatMap fun b => b.opening.drop 1)
      (fun k => if k = .parameters then addParams (pl k) (ds.flatMap fun b => b.plist k) else pl k ++ ds.flatMap fun b => b.plist k)
      (fun k => tx k ++ ds.flatMap fun b => b.text k) := by
  induction h generalizing P op1 op2 pl tx with
  | nil =>
    refine ⟨P, rfl, ?_⟩
    have e : (fun k => if k = .parameters then addParams (pl k) (([] : List Doc).flatMap fun b => b.plist k)
        else pl k ++ ([] : List Doc).flatMap fun b => b.plist k) = pl := by
      funext k
      simp [addParams]
    rw [e]
    simpa using hP
  | @cons t d bases ds hb h ih =>
    obtain ⟨hr, hg, href, hex⟩ := hb
    have hp := hr.parse hg
    obtain ⟨s1, s2⟩ := d.parsed_summary hg
    obtain ⟨x1, x2⟩ := d.parsed_extended hg
    -- merging the parsed form of this docstring
    have hm : ∃ C, (match t.getD [] with
        | [] => mergeAll o P bases
        | u => do
          let e ← parse o u
          let c ← merge P e
          mergeAll o c bases) = mergeAll o C bases ∧
        Says C (op1 ++ d.opening.take 1) (op2 ++ d.opening.drop 1)
          (fun k => if k = .parameters then addParams (pl k) (d.plist k) else pl k ++ d.plist k) (fun k => tx k ++ d.text k) := by
      cases ht : t.getD [] with
      | nil =>
        refine ⟨P, rfl, ?_⟩
        rw [ht, parse_nil] at hp
        injection hp with hp
        rw [← hp] at s1 x1
        have e1 : d.opening.take 1 = [] := s1.symm
        have e2 : d.opening.drop 1 = [] := x1.symm
        have e3 : d.plist = fun _ => [] := (congrArg Parsed.plist hp).symm
        have e4 : d.text = fun _ => [] := (congrArg Parsed.text hp).symm
        rw [e1, e2, e3, e4]
        have e : (fun k => if k = PSec.parameters then addParams (pl k) [] else pl k ++ []) = pl := by
          funext k
          simp [addParams]
        rw [e]
        simpa using hP
      | cons c u =>
        rw [ht] at hp
        have hmerge : merge P d.parsed = .ok _ := if_neg (by
          rw [not_or, not_not, not_not]
          exact ⟨href, hex⟩)
        have hcont : (do
            let e ← parse o (c :: u)
            let c ← merge P e
            mergeAll o c bases) = (do
            let c ← merge P d.parsed
            mergeAll o c bases) := by
          rw [hp]
          rfl
        refine ⟨{ P with
          summary := addText P.summary d.parsed.summary
          extended := addText P.extended d.parsed.extended
          plist := fun k => if k = .parameters then addParams (P.plist k) (d.parsed.plist k) else P.plist k ++ d.parsed.plist k
          text := fun k => if k = .notes ∨ k = .warnings then P.text k ++ d.parsed.text k else P.text k
          seeAlso := P.seeAlso ++ d.parsed.seeAlso }, hcont.trans (by
            rw [hmerge]
            rfl), hP.signature, ?_, ?_, ?_, ?_, ?_, ?_, ?_, ?_⟩
        · exact (paras_addText _ _).trans (by rw [hP.summary, s1])
        · exact plain_addText hP.plain1 s2
        · exact (paras_addText _ _).trans (by rw [hP.extended, x1])
        · exact plain_addText hP.plain2 x2
        · funext k
          show (if _ then addParams (P.plist k) (d.plist k) else P.plist k ++ d.plist k) = _
          rw [hP.plist]
        · funext k
          show (if _ then P.text k ++ d.text k else P.text k) = _
          rw [hP.text]
          cases k with
          | notes => rfl
          | warnings => rfl
          | references =>
            rw [href]
            simp
          | examples =>
            rw [hex]
            simp
        · show P.seeAlso ++ [] = []
          rw [hP.seeAlso]
          rfl
        · exact hP.index
    obtain ⟨C, e, hC⟩ := hm
    obtain ⟨Q, eQ, hQ⟩ := ih hC
    refine ⟨Q, e.trans eQ, ?_⟩
    have e1 : (fun k => if k = PSec.parameters then
        addParams (if k = PSec.parameters then addParams (pl k) (d.plist k) else pl k ++ d.plist k) (ds.flatMap fun b => b.plist k)
        else (if k = PSec.parameters then addParams (pl k) (d.plist k) else pl k ++ d.plist k) ++ ds.flatMap fun b => b.plist k) =
        fun k => if k = PSec.parameters then addParams (pl k) ((d :: ds).flatMap fun b => b.plist k)
          else pl k ++ (d :: ds).flatMap fun b => b.plist k := by
      funext k
      split
      · rw [addParams_append, List.flatMap_cons]
      · rw [List.flatMap_cons, List.append_assoc]
    rw [e1] at hQ
    simpa only [List.flatMap_cons, List.append_assoc] using hQ

/-! ## Printing -/

/-- The printed lines of a section. -/
def strBlock : Section → List Line
  | .params k ps => strHeader k.title ++ ps.flatMap strParam
  | .text k ls => strHeader k.title ++ ls

theorem strParams_eq (f : PSec → List Param) (k : PSec) :
    strParams k (f k) = (paramSection f k).flatMap fun s => strBlock s ++ [[]] := by
  rw [strParams, paramSection]
  split
  · rfl
  · simp [strBlock]

theorem strSection_eq (f : TSec → List Line) (k : TSec) :
    strSection k (f k) = (textSection f k).flatMap fun s => strBlock s ++ [[]] := by
  rw [strSection, textSection]
  split
  · rfl
  · simp [strBlock]

theorem Says.lines {P : Parsed} {op1 op2 : List (List Line)} {pl : PSec → List Param} {tx : TSec → List Line} (h : Says P op1 op2 pl tx) :
    strLines P = .ok ([[]] ++ strText P.summary ++ strText P.extended ++ (sectionsOf pl tx).flatMap fun s => strBlock s ++ [[]]) := by
  rw [strLines, h.signature, h.plist, h.text, h.seeAlso, h.index]
  show Except.ok _ = Except.ok _
  congr 1
  show [[]] ++ strText P.summary ++ strText P.extended ++ _ ++ _ ++ strSeeAlso [] ++ _ ++ _ ++ [] = _
  rw [show strSeeAlso [] = [] from rfl]
  simp only [sectionsOf, List.flatMap_append, List.flatMap_cons, List.flatMap_nil, strParams_eq, strSection_eq, List.append_nil,
    List.append_assoc]

theorem paras_strText (a b : List Line) : paras (strText a ++ b) = paras a ++ paras b := by
  rw [strText]
  split
  · rename_i h
    rw [h]
    rfl
  · rw [List.append_assoc]
    exact paras_append_blank _ _ rfl

theorem paras_blocks (ss : List Section) :
    paras (ss.flatMap fun s => strBlock s ++ [[]]) = ((ss.map strBlock).map paras).flatten := by
  induction ss with
  | nil => rfl
  | cons s ss ih =>
    rw [List.flatMap_cons, List.append_assoc, List.singleton_append, paras_append_blank _ _ rfl, ih]
    rfl

theorem strParamHead_eq (p : Param) : strParamHead p = p.head := rfl

theorem norm_indent {ls : List Line} (h : ∀ l ∈ ls, blank l = true → l = []) : (strIndent ls).map norm = indentBy 3 ls := by
  rw [strIndent, indentBy, List.map_map]
  refine List.map_congr_left fun l hl => ?_
  show norm (' ' :: ' ' :: ' ' :: ' ' :: l) = _
  cases hb : blank l with
  | true =>
    rw [h l hl hb]
    rfl
  | false =>
    rw [norm_nonblank (by exact hb), if_neg]
    · rfl
    · rintro rfl
      simp [blank] at hb

theorem flatten_nonblank {ls : List Line} (h : ∃ l ∈ ls, ∃ c ∈ l.head?, isSpace c = false) : blank ls.flatten = false := by
  obtain ⟨l, hl, c, hc, hcf⟩ := h
  cases hb : blank ls.flatten with
  | false => rfl
  | true =>
    rw [blank, List.all_eq_true] at hb
    rw [hb c (List.mem_flatten.mpr ⟨l, hl, List.mem_of_mem_head? hc⟩)] at hcf
    simp at hcf

theorem Param.Good.printed {b : Bool} {p : Param} (h : p.Good b) : (strParam p).map norm = p.head :: indentBy 3 p.desc := by
  rw [strParam, List.map_cons, strParamHead_eq, norm_nonblank h.word.blank]
  rcases h.flush with hd | hd
  · rw [hd]
    rfl
  · rw [flatten_nonblank hd, if_neg (by simp), norm_indent h.desc.empty]

theorem entries_printed {ps : List Param} (hne : ps ≠ []) : Entries ps (ps.flatMap fun p => p.head :: indentBy 3 p.desc) := by
  induction ps with
  | nil => exact absurd rfl hne
  | cons p ps ih =>
    cases ps with
    | nil =>
      have := Entries.last p 3
      simpa using this
    | cons q ps => exact Entries.next p 3 false (ih (by simp))

theorem norm_dashes (n : ℕ) : norm (List.replicate n '-') = List.replicate n '-' := by
  cases n with
  | zero => rfl
  | succ n => exact norm_nonblank rfl

theorem Section.Good.printed {s : Section} (h : s.Good) : s.Lines ((strBlock s).map norm) := by
  cases s with
  | params k ps =>
    refine ⟨0, false, _, entries_printed h.1, ?_⟩
    show (k.title :: List.replicate k.title.length '-' :: ps.flatMap strParam).map norm = _
    rw [List.map_cons, List.map_cons, norm_dashes, show norm k.title = k.title from norm_nonblank (Section.title_word (.params k ps)).blank,
      List.map_flatMap]
    show k.title :: List.replicate k.title.length '-' :: _ = k.title :: List.replicate k.title.length '-' :: _
    congr 2
    refine List.flatMap_congr fun p hp => ?_
    exact (h.2 p hp).printed
  | text k ls =>
    refine ⟨0, false, ls, rfl, ?_⟩
    show (k.title :: List.replicate k.title.length '-' :: ls).map norm = _
    rw [List.map_cons, List.map_cons, norm_dashes, show norm k.title = k.title from norm_nonblank (Section.title_word (.text k ls)).blank]
    show k.title :: List.replicate k.title.length '-' :: _ = k.title :: List.replicate k.title.length '-' :: _
    congr 2
    conv_rhs => rw [← List.map_id ls]
    refine List.map_congr_left fun l hl => ?_
    cases hb : blank l with
    | true =>
      rw [h.2.1.empty l hl hb]
      rfl
    | false => exact norm_nonblank hb

theorem joined_block {s : Section} (h : s.Good) : Joined (strBlock s) := by
  have hd : ∀ n, '\n' ∉ List.replicate n '-' := fun n hm => absurd (List.eq_of_mem_replicate hm) (by decide)
  cases s with
  | params k ps =>
    intro l hl
    right
    rcases List.mem_append.mp hl with hl | hl
    · rcases List.mem_cons.mp hl with rfl | hl
      · exact (Section.title_word (.params k ps)).line
      · obtain rfl : l = _ := by simpa using hl
        exact hd _
    · obtain ⟨p, hp, hl⟩ := List.mem_flatMap.mp hl
      have hg := h.2 p hp
      rcases List.mem_cons.mp hl with rfl | hl
      · exact hg.word.line
      · split at hl
        · simp at hl
        · obtain ⟨m, hm, rfl⟩ := List.mem_map.mp hl
          have := hg.lines m hm
          simp [this]
  | text k ls =>
    intro l hl
    right
    rcases List.mem_append.mp hl with hl | hl
    · rcases List.mem_cons.mp hl with rfl | hl
      · exact (Section.title_word (.text k ls)).line
      · obtain rfl : l = _ := by simpa using hl
        exact hd _
    · exact h.2.2.2 l hl

theorem paras_nil {ls : List Line} (h : paras ls = []) : ∀ l ∈ ls, blank l = true := by
  induction ls with
  | nil => simp
  | cons l ls ih =>
    cases hb : blank l with
    | true =>
      rw [paras_blank hb] at h
      intro m hm
      rcases List.mem_cons.mp hm with rfl | hm
      · exact hb
      · exact ih h m hm
    | false =>
      obtain ⟨b, bs, e⟩ := paras_ne_nil (ls := ls) hb
      rw [e] at h
      simp at h

theorem plain_strText {ls : List Line} (h : Plain ls) : Plain (strText ls) := by
  rw [strText]
  split
  · simp [Plain]
  · exact h.append (by simp [Plain])

theorem head_title (s : Section) : ∃ q, (strBlock s).map norm = s.title :: q := by
  have h := norm_nonblank s.title_word.blank
  cases s with
  | params k ps => exact ⟨_, congrArg (· :: _) h⟩
  | text k ls => exact ⟨_, congrArg (· :: _) h⟩

/-- The printed text says what was merged. -/
theorem Says.reads {P : Parsed} {op1 op2 : List (List Line)} {pl : PSec → List Param} {tx : TSec → List Line} (h : Says P op1 op2 pl tx)
    {sig : List Line → Bool} (hg : Doc.Good sig ⟨op1 ++ op2, sectionsOf pl tx⟩) :
    ∃ ls, strLines P = .ok ls ∧ Reads (joinNL ls) ⟨op1 ++ op2, sectionsOf pl tx⟩ := by
  refine ⟨_, h.lines, ?_⟩
  generalize hls : [[]] ++ strText P.summary ++ strText P.extended ++ (sectionsOf pl tx).flatMap (fun s => strBlock s ++ [[]]) = ls
  have hsec : ∀ s ∈ sectionsOf pl tx, s.Good := hg.sections
  have hpl : Plain ([[]] ++ strText P.summary ++ strText P.extended) :=
    ((show Plain [[]] by simp [Plain]).append (plain_strText h.plain1)).append (plain_strText h.plain2)
  have hj : Joined ls := by
    rw [← hls]
    intro l hl
    rcases List.mem_append.mp hl with hl | hl
    · exact hpl.joined l hl
    · obtain ⟨s, hs, hl⟩ := List.mem_flatMap.mp hl
      rcases List.mem_append.mp hl with hl | hl
      · exact joined_block (hsec s hs) l hl
      · obtain rfl : l = [] := by simpa using hl
        exact .inr (by simp)
  have hpar : paras ls = op1 ++ op2 ++ (((sectionsOf pl tx).map strBlock).map paras).flatten := by
    rw [← hls]
    show paras ([] :: (strText P.summary ++ strText P.extended ++ _)) = _
    rw [paras_blank rfl, List.append_assoc, paras_strText, paras_strText, paras_blocks, h.summary, h.extended, List.append_assoc]
  have hne : ls ≠ [] := by
    rw [← hls]
    simp
  have hpar' : paras ((splitNL (joinNL ls)).map norm) =
      op1 ++ op2 ++ (((sectionsOf pl tx).map fun s => (strBlock s).map norm).map paras).flatten := by
    rw [paras_norm, splitNL_join hne, paras_split hj, hpar, List.map_map, List.map_map]
    congr 2
    refine List.map_congr_left fun s _ => ?_
    exact (paras_norm _).symm
  refine ⟨(splitNL (joinNL ls)).map norm, [], ⟨_, ?_, hpar'⟩, rfl, indented_norm _, ?_⟩
  · rw [List.forall₂_map_right_iff, List.forall₂_same]
    exact fun s hs => (hsec s hs).printed
  · by_cases h1 : sectionsOf pl tx = []
    · rcases hg.flush with h0 | h0 | ⟨b, hb, l, hl, hc⟩
      · exact absurd h1 h0
      · left
        have h0 : op1 ++ op2 = [] := h0
        have hall := paras_nil (show paras ((splitNL (joinNL ls)).map norm) = [] by rw [hpar', h0, h1]; rfl)
        rw [h1] at hls
        intro l hl
        have hb := hall l hl
        obtain ⟨l', hl', rfl⟩ := List.mem_map.mp hl
        rw [splitNL_join hne] at hl'
        obtain ⟨k, hk, hkl⟩ := List.mem_flatMap.mp hl'
        rw [← hls] at hk
        have hk : k ∈ [[]] ++ strText P.summary ++ strText P.extended := by simpa using hk
        rcases hpl k hk with rfl | rfl | ⟨hkb, hkn⟩
        · have : l' = [] := by
            have : l' ∈ [[], ([] : Line)] := hkl
            simpa using this
          rw [this]
          rfl
        · have : l' = [] := by
            have : l' ∈ [([] : Line)] := hkl
            simpa using this
          rw [this]
          rfl
        · rw [splitNL_line hkn] at hkl
          obtain rfl : l' = k := by simpa using hkl
          rw [blank_norm, hkb] at hb
          simp at hb
      · right
        have : b ∈ paras ((splitNL (joinNL ls)).map norm) := by
          rw [hpar']
          exact List.mem_append_left _ hb
        exact ⟨l, (paras_infix this).subset hl, hc⟩
    · right
      obtain ⟨s, ss, es⟩ := List.exists_cons_of_ne_nil h1
      obtain ⟨q, eq⟩ := head_title s
      obtain ⟨m, bs, em⟩ := paras_ne_nil (ls := q) s.title_word.blank
      obtain ⟨c, tl, et⟩ := List.exists_cons_of_ne_nil s.title_word.ne
      refine ⟨s.title, ?_, c, by rw [et]; simp, s.title_word.first c (by rw [et]; simp)⟩
      have : s.title :: m ∈ paras ((splitNL (joinNL ls)).map norm) := by
        rw [hpar', es, List.map_cons, List.map_cons, List.flatten_cons, eq, em]
        simp
      exact (paras_infix this).subset (by simp)

end RT1.Docs
