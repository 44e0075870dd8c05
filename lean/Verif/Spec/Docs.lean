import Verif.Model.Docs

/-!
# Docstrings in numpydoc format

What a docstring in numpydoc format says (`Doc`), and which texts say it (`Reads`): the paragraphs of
the text are the opening paragraphs followed by those of the sections; how many empty lines separate
paragraphs, how far the text and the descriptions are indented and how long the underlines are does not
matter.
-/

namespace RT1.Docs

/-- A line in front of lines `ls` with paragraphs `bs`. -/
def addLine (l : Line) (ls : List Line) (bs : List (List Line)) : List (List Line) :=
  if blank (ls.headD []) then [l] :: bs else (l :: bs.headD []) :: bs.tail

/-- The paragraphs of a text: the maximal runs of lines that are not blank. -/
def paras : List Line → List (List Line)
  | [] => []
  | l :: ls => if blank l then paras ls else addLine l ls (paras ls)

/-- Paragraphs with one empty line in between. -/
def joinParas : List (List Line) → List Line
  | [] => []
  | [b] => b
  | b :: bs => b ++ [] :: joinParas bs

/-- Lines without blank lines at the ends, whose blank lines are empty and do not follow each other. -/
structure Tidy (ls : List Line) : Prop where
  first : ∀ l ∈ ls.head?, blank l = false
  last : ∀ l ∈ ls.getLast?, blank l = false
  empty : ∀ l ∈ ls, blank l = true → l = []
  single : ls.IsChain fun l m => blank l = false ∨ blank m = false

/-- No line looks like the beginning of a section: none is followed by an underline of its length, and
none begins an index section. -/
def NoHead (ls : List Line) : Prop :=
  (∀ l1 l2, [l1, l2] <:+: ls → underlined l1 l2 = false) ∧ ∀ l ∈ ls, starts indexMark (strip l) = false

/-- No space at the ends, not empty. -/
structure Word (l : Line) : Prop where
  ne : l ≠ []
  first : ∀ c ∈ l.head?, isSpace c = false
  last : ∀ c ∈ l.getLast?, isSpace c = false
  line : '\n' ∉ l

/-- What a section says. -/
inductive Section where
  | params (k : PSec) (ps : List Param)
  | text (k : TSec) (ls : List Line)

/-- What a docstring says. -/
structure Doc where
  opening : List (List Line)
  sections : List Section

/-- First line of the entry of a parameter. -/
def Param.head (p : Param) : Line :=
  if p.name = [] then p.type else if p.type = [] then p.name else p.name ++ [' ', ':', ' '] ++ p.type

/-- A parameter that can be written down: names hold no colon, the description is tidy, not indented as
a whole, and does not look like a section.  In sections like "Returns" the name may be missing. -/
structure Param.Good (single : Bool) (p : Param) : Prop where
  name : p.name = [] ∨ Word p.name ∧ ':' ∉ p.name
  type : p.type = [] ∨ Word p.type
  form : if single then p.type ≠ [] ∧ (p.name = [] → ':' ∉ p.type) else p.name ≠ []
  first : ∀ c ∈ p.head.head?, c ≠ '-' ∧ c ≠ '='
  desc : Tidy p.desc
  flush : p.desc = [] ∨ ∃ l ∈ p.desc, ∃ c ∈ l.head?, isSpace c = false
  lines : ∀ l ∈ p.desc, '\n' ∉ l
  plain : NoHead (p.head :: p.desc)

/-- Indentation of the lines of a description by `k + 1` spaces. -/
def indentBy (k : ℕ) (ls : List Line) : List Line :=
  ls.map fun l => if l = [] then [] else List.replicate (k + 1) ' ' ++ l

/-- The entries of parameters: descriptions are indented, entries may be separated by an empty line. -/
inductive Entries : List Param → List Line → Prop
  | last (p : Param) (k : ℕ) : Entries [p] (p.head :: indentBy k p.desc)
  | next (p : Param) (k : ℕ) {ps : List Param} {ls : List Line} (gap : Bool) (h : Entries ps ls) :
      Entries (p :: ps) (p.head :: indentBy k p.desc ++ ((if gap then [[]] else []) ++ ls))

/-- Title of a section. -/
def Section.title : Section → Line
  | params k _ => k.title
  | text k _ => k.title

/-- Sections that can be written down. -/
def Section.Good : Section → Prop
  | params k ps => ps ≠ [] ∧ ∀ p ∈ ps, p.Good k.single
  | text _ ls => ls ≠ [] ∧ Tidy ls ∧ NoHead ls ∧ ∀ l ∈ ls, '\n' ∉ l

/-- The lines below the underline of a section. -/
def Section.Body : Section → List Line → Prop
  | params _ ps, ls => Entries ps ls
  | text _ b, ls => ls = b

/-- The lines of a section: title, underline, possibly an empty line, contents. -/
def Section.Lines (s : Section) (ls : List Line) : Prop :=
  ∃ (n : ℕ) (gap : Bool) (body : List Line), s.Body body ∧
    ls = s.title :: List.replicate (s.title.length + n) '-' :: (if gap then [[]] else []) ++ body

/-- Docstrings that can be written down: `sig` decides which first paragraphs are taken for a
signature. -/
structure Doc.Good (sig : List Line → Bool) (d : Doc) : Prop where
  opening : ∀ b ∈ d.opening, b ≠ [] ∧ NoHead b ∧ ∀ l ∈ b, blank l = false ∧ '\n' ∉ l
  signature : ∀ b ∈ d.opening.head?, sig b = false
  flush : d.sections ≠ [] ∨ d.opening = [] ∨ ∃ b ∈ d.opening, ∃ l ∈ b, ∃ c ∈ l.head?, isSpace c = false
  sections : ∀ s ∈ d.sections, s.Good
  once : (d.sections.map Section.title).Nodup
  returns : ¬ (PSec.returns.title ∈ d.sections.map Section.title ∧ PSec.yields.title ∈ d.sections.map Section.title)
  receives : PSec.receives.title ∈ d.sections.map Section.title → PSec.yields.title ∈ d.sections.map Section.title

/-- The lines `ls` say `d`: their paragraphs are the opening ones and those of the sections. -/
def Doc.Lines (d : Doc) (ls : List Line) : Prop :=
  ∃ parts : List (List Line), List.Forall₂ Section.Lines d.sections parts ∧
    paras ls = d.opening ++ (parts.map paras).flatten

/-- `ts` are the lines `ls` indented by `ind`; lines of spaces and tabs stand for empty lines. -/
structure Indented (ind : Line) (ls ts : List Line) : Prop where
  tabs : ind.all isTab = true
  lines : List.Forall₂ (fun l t => l = [] ∧ t.all isTab = true ∨ l.all isTab = false ∧ t = ind ++ l) ls ts
  flush : (∀ l ∈ ls, l = []) ∨ ∃ l ∈ ls, ∃ c ∈ l.head?, isSpace c = false

/-- The text `t` says `d`. -/
def Reads (t : List Char) (d : Doc) : Prop := ∃ ls ind, d.Lines ls ∧ Indented ind ls (splitNL t)

/-- The parameters of a section of a docstring. -/
def Doc.plist (d : Doc) (k : PSec) : List Param :=
  d.sections.flatMap fun
    | .params j ps => if j = k then ps else []
    | .text _ _ => []

/-- The text of a section of a docstring. -/
def Doc.text (d : Doc) (k : TSec) : List Line :=
  d.sections.flatMap fun
    | .params _ _ => []
    | .text j ls => if j = k then ls else []

/-! ## Merged docstrings -/

/-- The first description of every name that is not in `seen`. -/
def firsts (seen : List Line) : List Param → List Param
  | [] => []
  | p :: ps => if p.name ∈ seen then firsts seen ps else p :: firsts (seen ++ [p.name]) ps

/-- The section with these parameters, if there are any. -/
def paramSection (f : PSec → List Param) (k : PSec) : List Section := if f k = [] then [] else [.params k (f k)]

/-- The section with this text, if there is any. -/
def textSection (f : TSec → List Line) (k : TSec) : List Section := if f k = [] then [] else [.text k (f k)]

/-- Sections in the usual order. -/
def sectionsOf (f : PSec → List Param) (g : TSec → List Line) : List Section :=
  [PSec.parameters, .returns, .yields, .receives, .other, .raises, .warns].flatMap (paramSection f) ++
    textSection g .warnings ++ [TSec.notes, .references, .examples].flatMap (textSection g) ++
    [PSec.attributes, .methods].flatMap (paramSection f)

/-- A docstring merged with others: summaries, then the remaining opening paragraphs; the own
parameters, then the first description of all other parameters; all other sections one after the
other. -/
def combine (d : Doc) (bases : List Doc) : Doc where
  opening := (d.opening.take 1 ++ bases.flatMap fun b => b.opening.take 1) ++
    (d.opening.drop 1 ++ bases.flatMap fun b => b.opening.drop 1)
  sections := sectionsOf
    (fun k => if k = .parameters then d.plist k ++ firsts ((d.plist k).map Param.name) (bases.flatMap fun b => b.plist k)
      else d.plist k ++ bases.flatMap fun b => b.plist k)
    (fun k => d.text k ++ bases.flatMap fun b => b.text k)

end RT1.Docs
