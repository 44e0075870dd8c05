import Mathlib.Data.List.Basic
import Mathlib.Logic.Function.Basic
import Mathlib.Order.Basic
import Mathlib.Order.Lattice
import Mathlib.Data.Nat.Basic
import Verif.Model.Py

/-!
# Docstrings: the vendored numpydoc reader and `append_numpy_docstring`

`_numpydoc_docscrape.py` (class `NumpyDocString`) and `helpers.append_numpy_docstring`, on the level
of the text of the docstrings.  A text is a list of characters, a line a text without line feed.

Not interpreted (`Outside`): which characters the regular expression class `\w` matches beyond the
model's needs, the parser of "See Also" entries and the reader and printer of `.. index::` sections.
Warnings (`_error_location(..., error=False)`) have no effect on the result and are left out.
Upper and lower case are those of ASCII.  `textwrap.dedent` is the version of python < 3.14.
-/

namespace RT1.Docs

/-- A line of text. -/
abbrev Line := List Char

/-- Code points for which `str.isspace` holds (used by `strip`, `lstrip`). -/
def isSpace (c : Char) : Bool :=
  let n := c.toNat
  (9 ≤ n && n ≤ 13) || (28 ≤ n && n ≤ 32) || n == 133 || n == 160 || n == 5760 ||
    (8192 ≤ n && n ≤ 8202) || n == 8232 || n == 8233 || n == 8239 || n == 8287 || n == 12288

/-- `str.strip()`. -/
def strip (l : Line) : Line := ((l.dropWhile isSpace).reverse.dropWhile isSpace).reverse

/-- `not line.strip()`. -/
def blank (l : Line) : Bool := l.all isSpace

/-- `text.split("\n")`. -/
def splitNL : List Char → List Line
  | [] => [[]]
  | c :: t =>
    if c = '\n' then [] :: splitNL t
    else match splitNL t with
      | [] => [[c]]
      | l :: ls => (c :: l) :: ls

/-- `"\n".join(lines)`. -/
def joinNL : List Line → List Char
  | [] => []
  | [l] => l
  | l :: ls => l ++ '\n' :: joinNL ls

/-! ## textwrap.dedent -/

/-- The character class `[ \t]` of `textwrap.dedent`. -/
def isTab (c : Char) : Bool := c == ' ' || c == '\t'

/-- Longest common prefix. -/
def common : Line → Line → Line
  | a :: l, b :: m => if a = b then a :: common l m else []
  | _, _ => []

/-- The margin of `textwrap.dedent`: the longest common prefix of the leading `[ \t]*` of all lines
that hold another character.  (The three branches of the loop over the indents all compute the common
prefix.) -/
def margin : List Line → Option Line
  | [] => none
  | l :: ls =>
    if l.all isTab then margin ls
    else match margin ls with
      | none => some (l.takeWhile isTab)
      | some m => some (common (l.takeWhile isTab) m)

/-- `textwrap.dedent` on the lines of a text: lines of spaces and tabs are emptied, the margin is
removed from all others. -/
def dedent (ls : List Line) : List Line :=
  let k := ((margin ls).getD []).length
  ls.map fun l => if l.all isTab then [] else l.drop k

/-- `dedent_lines` (_numpydoc_docscrape.py 617-619); joining no lines and splitting again gives one
empty line. -/
def dedentLines (ls : List Line) : List Line := if ls = [] then [[]] else dedent ls

/-- `strip_blank_lines` (_numpydoc_docscrape.py 56-62). -/
def stripBlank (ls : List Line) : List Line := ((ls.dropWhile blank).reverse.dropWhile blank).reverse

/-! ## Reader -/

/-- `Reader` (_numpydoc_docscrape.py 65-138), as the line before the current position and the lines
from it on. -/
structure Reader where
  prev : Line
  rest : List Line

/-- `seek_next_non_empty_line` (lines 97-102). -/
def Reader.seek (r : Reader) : Reader :=
  ⟨((r.rest.takeWhile blank).getLast?).getD r.prev, r.rest.dropWhile blank⟩

/-- `read_to_condition` (lines 107-115); the lines up to the first that meets the condition. -/
def Reader.readTo (p : Line → Bool) (r : Reader) : List Line × Reader :=
  (r.rest.takeWhile (fun l => !p l),
    ⟨((r.rest.takeWhile (fun l => !p l)).getLast?).getD r.prev, r.rest.dropWhile (fun l => !p l)⟩)

/-- `read_to_next_empty_line` (lines 117-123). -/
def Reader.readPara (r : Reader) : List Line × Reader := r.seek.readTo blank

/-- The condition of `read_to_next_unindented_line` (lines 125-129). -/
def unindented (l : Line) : Bool := !blank l && !(l.head?.any isSpace)

/-- `str.startswith`. -/
def starts (p l : Line) : Bool := p.isPrefixOf l

/-- The comparison of a stripped line with the one below it in `_is_at_section` (lines 208-226). -/
def underlined (l1 l2 : Line) : Bool :=
  starts (List.replicate (strip l1).length '-') (strip l2) ||
    starts (List.replicate (strip l1).length '=') (strip l2)

/-- The prefix of index sections. -/
def indexMark : Line := ".. index::".toList

/-- `_is_at_section` (lines 208-226): the result and the reader after seeking. -/
def Reader.isAtSection (r : Reader) : Bool × Reader :=
  let r' := r.seek
  (match r'.rest with
    | [] => false
    | l :: ls => starts indexMark (strip l) || underlined l (ls.headD []), r')

theorem dropWhile_length_le (p : Line → Bool) : ∀ l : List Line, (l.dropWhile p).length ≤ l.length
  | [] => le_rfl
  | a :: l => by
    rw [List.dropWhile_cons]
    split
    · exact (dropWhile_length_le p l).trans (Nat.le_succ _)
    · exact le_rfl

theorem dropWhile_idem (p : Line → Bool) : ∀ l : List Line, (l.dropWhile p).dropWhile p = l.dropWhile p
  | [] => rfl
  | a :: l => by
    rw [List.dropWhile_cons]
    split
    · exact dropWhile_idem p l
    · rename_i h
      rw [List.dropWhile_cons, if_neg h]

/-- Reading a paragraph at a position that is not the end consumes lines. -/
theorem readPara_lt (r : Reader) (h : r.seek.rest ≠ []) : (r.seek.readPara).2.rest.length < r.rest.length := by
  have hs : (r.seek.readPara).2.rest = (r.rest.dropWhile blank).dropWhile (fun l => !blank l) := by
    show ((r.rest.dropWhile blank).dropWhile blank).dropWhile _ = _
    rw [dropWhile_idem]
  rw [hs]
  have h1 : r.rest.dropWhile blank ≠ [] := h
  have hle := dropWhile_length_le blank r.rest
  revert h1 hle
  cases hd : r.rest.dropWhile blank with
  | nil => exact fun h _ => absurd rfl h
  | cons a l =>
    intro _ hle
    have ha : blank a = false := by
      have := List.head?_dropWhile_not blank r.rest
      rw [hd] at this
      simpa using this
    rw [List.dropWhile_cons, if_pos (by simp [ha])]
    have := dropWhile_length_le (fun l => !blank l) l
    simp only [List.length_cons] at hle
    omega

/-- The loop of `_read_to_next_section` (lines 244-249). -/
def readMore (r : Reader) : List Line × Reader :=
  if h : r.isAtSection.1 = true ∨ r.seek.rest = [] then ([], r.seek)
  else
    let sep : List Line := if blank r.seek.prev then [[]] else []
    let p := r.seek.readPara
    let m := readMore p.2
    (sep ++ p.1 ++ m.1, m.2)
termination_by r.rest.length
decreasing_by exact readPara_lt r (fun e => h (.inr e))

/-- `_read_to_next_section` (lines 241-250). -/
def readSection (r : Reader) : List Line × Reader :=
  (r.readPara.1 ++ (readMore r.readPara.2).1, (readMore r.readPara.2).2)

/-- `_strip` (lines 228-239): without blank lines at both ends (for content that is not blank
throughout; `_read_to_next_section` never ends with blank lines). -/
def stripContent (ls : List Line) : List Line := stripBlank ls

theorem readTo_length (p : Line → Bool) (r : Reader) : (r.readTo p).2.rest.length ≤ r.rest.length :=
  dropWhile_length_le _ _

theorem readMore_length (r : Reader) : (readMore r).2.rest.length ≤ r.rest.length := by
  induction r using readMore.induct with
  | case1 r h =>
    rw [readMore, dif_pos h]
    exact dropWhile_length_le _ _
  | case2 r h p ih =>
    rw [readMore, dif_neg h]
    exact ih.trans (readPara_lt r (fun e => h (.inr e))).le

theorem readSection_lt (r : Reader) (hd : (readSection r).1 ≠ []) :
    (readSection r).2.rest.length < r.rest.length := by
  by_cases h : r.seek.rest = []
  · exfalso
    apply hd
    have e1 : r.readPara.1 = [] := by
      show r.seek.rest.takeWhile _ = []
      rw [h]
      rfl
    have e2 : r.readPara.2.rest = [] := by
      show r.seek.rest.dropWhile _ = []
      rw [h]
      rfl
    have e3 : r.readPara.2.seek.rest = [] := by
      show r.readPara.2.rest.dropWhile _ = []
      rw [e2]
      rfl
    show r.readPara.1 ++ (readMore r.readPara.2).1 = []
    rw [e1, readMore, dif_pos (.inr e3)]
    rfl
  · have e : r.seek.readPara.2.rest = r.readPara.2.rest := by
      show ((r.rest.dropWhile blank).dropWhile blank).dropWhile _ = (r.rest.dropWhile blank).dropWhile _
      rw [dropWhile_idem]
    calc (readMore r.readPara.2).2.rest.length ≤ r.readPara.2.rest.length := readMore_length _
      _ = r.seek.readPara.2.rest.length := by rw [e]
      _ < _ := readPara_lt r h

/-- `_read_sections` (lines 252-262) as a list; `none` for the yielded `StopIteration`. -/
def readSections (r : Reader) : Py (List (Option (Line × List Line))) :=
  if r.rest = [] then .ok []
  else
    match hd : (readSection r).1 with
    | [] => .error .indexError
    | l :: ls => do
      let name := strip l
      let item := if starts "..".toList name then some (name, ls)
        else match ls with
          | [] => none
          | _ :: content => some (name, stripContent content)
      let more ← readSections (readSection r).2
      .ok (item :: more)
termination_by r.rest.length
decreasing_by exact readSection_lt r (by rw [hd]; simp)

/-! ## Contents -/

/-- `Parameter` (line 149). -/
structure Param where
  name : Line
  type : Line
  desc : List Line
deriving DecidableEq

/-- `sub in l`, as the parts before and after the first occurrence (`l.split(sub, maxsplit=1)`). -/
def splitFirst (sub : Line) : Line → Option (Line × Line)
  | [] => if sub = [] then some ([], []) else none
  | c :: l =>
    if starts sub (c :: l) then some ([], (c :: l).drop sub.length)
    else (splitFirst sub l).map fun p => (c :: p.1, p.2)

/-- Name and type of a parameter line (lines 269-281). -/
def parseHeader (single : Bool) (h : Line) : Line × Line :=
  match splitFirst " : ".toList h with
  | some p => p
  | none =>
    let h := if h.reverse.take 2 = ": ".toList then h.take (h.length - 2) else h
    if single then ([], h) else (h, [])

theorem readTo_lt (l : Line) (ls : List Line) (p : Line → Bool) :
    (ls.dropWhile (fun l => !p l)).length < (l :: ls).length :=
  Nat.lt_succ_of_le (dropWhile_length_le _ _)

/-- The loop of `_parse_param_list` (lines 268-287). -/
def paramLoop (single : Bool) : List Line → List Param
  | [] => []
  | l :: ls =>
    let d := ls.takeWhile (fun l => !unindented l)
    let h := parseHeader single (strip l)
    ⟨h.1, h.2, stripBlank (dedentLines d)⟩ :: paramLoop single (ls.dropWhile (fun l => !unindented l))
termination_by ls => ls.length
decreasing_by exact readTo_lt l ls unindented

/-- `_parse_param_list` (lines 264-289). -/
def parseParams (single : Bool) (content : List Line) : List Param := paramLoop single (dedentLines content)

/-- Sections with a list of parameters. -/
inductive PSec where
  | parameters | returns | yields | receives | other | raises | warns | attributes | methods
deriving DecidableEq

/-- Sections with lines of text. -/
inductive TSec where
  | notes | warnings | references | examples
deriving DecidableEq

/-- Title of a section with parameters. -/
def PSec.title : PSec → Line
  | parameters => "Parameters".toList
  | returns => "Returns".toList
  | yields => "Yields".toList
  | receives => "Receives".toList
  | other => "Other Parameters".toList
  | raises => "Raises".toList
  | warns => "Warns".toList
  | attributes => "Attributes".toList
  | methods => "Methods".toList

/-- Title of a section with text. -/
def TSec.title : TSec → Line
  | notes => "Notes".toList
  | warnings => "Warnings".toList
  | references => "References".toList
  | examples => "Examples".toList

/-- `single_element_is_type` (lines 455-460). -/
def PSec.single : PSec → Bool
  | returns | yields | receives | raises | warns => true
  | parameters | other | attributes | methods => false

/-- All sections with parameters, in the order of `__str__` (lines 597-606 and 611-612). -/
def PSec.all : List PSec :=
  [.parameters, .returns, .yields, .receives, .other, .raises, .warns, .attributes, .methods]

/-- All sections with text. -/
def TSec.all : List TSec := [.notes, .warnings, .references, .examples]

/-- What a title that is looked up in `_parsed_data` stands for (lines 159-178). -/
inductive Key where
  | signature | summary | extended | seeAlso
  | plist (k : PSec)
  | text (k : TSec)

/-- The lookup of a title; `none` for unknown titles.  (The key "index" cannot be the result of
`capitalize`.) -/
def key (t : Line) : Option Key :=
  if t = "Signature".toList then some .signature
  else if t = "Summary".toList then some .summary
  else if t = "Extended Summary".toList then some .extended
  else if t = "See Also".toList then some .seeAlso
  else match PSec.all.find? (fun k => k.title = t) with
    | some k => some (.plist k)
    | none => (TSec.all.find? (fun k => k.title = t)).map .text

/-- `NumpyDocString._parsed_data` (lines 159-178).  A signature is a text, or a list of lines if the
docstring has a section of this title.  "See Also" entries are held as the printed links and the
description, the index section as its printed lines. -/
structure Parsed where
  signature : Line ⊕ List Line
  summary : List Line
  extended : List Line
  plist : PSec → List Param
  text : TSec → List Line
  seeAlso : List (Line × List Line)
  index : List Line

/-- The initial contents (lines 159-178). -/
def Parsed.init : Parsed := ⟨.inl [], [[]], [], fun _ => [], fun _ => [], [], []⟩

/-- Functions that are not interpreted. -/
structure Outside where
  /-- the characters matched by `\w` -/
  word : Char → Bool
  /-- `_parse_see_also` (lines 330-384) and the links of `_str_see_also` (lines 550-568) -/
  seeAlso : List Line → Py (List (Line × List Line))
  /-- `_parse_index` and `_str_index` (lines 386-404, 575-590) -/
  index : Line → List Line → List Line

/-- `\s*[\w\.]+\(.*\)$` -/
def callLike (o : Outside) (s : Line) : Bool :=
  let s := s.dropWhile isSpace
  let w := fun c => o.word c || c == '.'
  !(s.takeWhile w).isEmpty &&
    match s.dropWhile w with
    | '(' :: t => t.getLast? == some ')'
    | _ => false

/-- The regular expression for signatures (line 415): `^([\w., ]+=)?\s*[\w\.]+\(.*\)$`. -/
def isSignature (o : Outside) (s : Line) : Bool :=
  let w := fun c => o.word c || c == '.' || c == ',' || c == ' '
  callLike o s ||
    (!(s.takeWhile w).isEmpty &&
      match s.dropWhile w with
      | '=' :: t => callLike o t
      | _ => false)

/-- `" ".join(...)` -/
def joinSp : List Line → Line
  | [] => []
  | [l] => l
  | l :: ls => l ++ ' ' :: joinSp ls

/-- The text compared with the regular expression (line 414). -/
def summaryStr (ls : List Line) : Line := strip (joinSp (ls.map strip))

theorem readPara_length (r : Reader) : r.readPara.2.rest.length ≤ r.rest.length :=
  (readTo_length _ _).trans (dropWhile_length_le _ _)

theorem callLike_nil (o : Outside) : callLike o [] = false := rfl

theorem isSignature_nil (o : Outside) : isSignature o [] = false := rfl

/-- A paragraph that is not empty consumes lines. -/
theorem readPara_lt' (r : Reader) (h : r.readPara.1 ≠ []) : r.readPara.2.rest.length < r.rest.length := by
  by_cases hs : r.seek.rest = []
  · exfalso
    apply h
    show r.seek.rest.takeWhile _ = []
    rw [hs]
    rfl
  · have e : r.seek.readPara.2.rest = r.readPara.2.rest := by
      show ((r.rest.dropWhile blank).dropWhile blank).dropWhile _ = (r.rest.dropWhile blank).dropWhile _
      rw [dropWhile_idem]
    rw [← e]
    exact readPara_lt r hs

/-- The loop of `_parse_summary` (lines 412-420): the signature (if any), the summary and the reader. -/
def summaryLoop (o : Outside) (sig : Line) (r : Reader) : Line × List Line × Reader :=
  if h : isSignature o (summaryStr r.readPara.1) = true then
    if (r.readPara.2.isAtSection).1 then (summaryStr r.readPara.1, r.readPara.1, r.readPara.2.seek)
    else summaryLoop o (summaryStr r.readPara.1) r.readPara.2.seek
  else (sig, r.readPara.1, r.readPara.2)
termination_by r.rest.length
decreasing_by
  refine lt_of_le_of_lt (dropWhile_length_le _ _) (readPara_lt' r fun e => ?_)
  rw [e] at h
  exact absurd h (by rw [show summaryStr [] = [] from rfl, isSignature_nil]; simp)

/-- `_parse_summary` (lines 406-426). -/
def parseSummary (o : Outside) (r : Reader) : Parsed × Reader :=
  if r.isAtSection.1 then (Parsed.init, r.seek)
  else
    let s := summaryLoop o [] r.seek
    let d : Parsed := { Parsed.init with signature := .inl s.1, summary := s.2.1 }
    if s.2.2.isAtSection.1 then (d, s.2.2.seek)
    else
      let e := readSection s.2.2.seek
      ({ d with extended := e.1 }, e.2)

/-- `str.capitalize` of one word. -/
def capital : Line → Line
  | [] => []
  | c :: l => c.toUpper :: l.map Char.toLower

/-- `text.split(" ")` -/
def splitSp : Line → List Line
  | [] => [[]]
  | c :: t =>
    if c = ' ' then [] :: splitSp t
    else match splitSp t with
      | [] => [[c]]
      | l :: ls => (c :: l) :: ls

/-- The title of a section after line 448. -/
def titleOf (t : Line) : Line := joinSp ((splitSp t).map capital)

/-- `bool(self.get(section))` (line 449). -/
def Parsed.has (d : Parsed) : Key → Bool
  | .signature => match d.signature with
    | .inl l => !l.isEmpty
    | .inr ls => !ls.isEmpty
  | .summary => !d.summary.isEmpty
  | .extended => !d.extended.isEmpty
  | .seeAlso => !d.seeAlso.isEmpty
  | .plist k => !(d.plist k).isEmpty
  | .text k => !(d.text k).isEmpty

/-- One pass of the loop over the sections (lines 445-466). -/
def addSection (o : Outside) (d : Parsed) (s : Line × List Line) : Py Parsed :=
  if starts "..".toList s.1 then
    if starts indexMark s.1 then .ok { d with index := o.index s.1 s.2 } else .ok d
  else match key (titleOf s.1) with
    | none => .ok d
    | some k =>
      if d.has k then .error .valueError
      else match k with
        | .signature => .ok { d with signature := .inr s.2 }
        | .summary => .ok { d with summary := s.2 }
        | .extended => .ok { d with extended := s.2 }
        | .seeAlso => do
          let e ← o.seeAlso s.2
          .ok { d with seeAlso := e }
        | .plist k => .ok { d with plist := Function.update d.plist k (parseParams k.single s.2) }
        | .text k => .ok { d with text := Function.update d.text k s.2 }

/-- Unpacking of a section (line 433); a yielded `StopIteration` raises TypeError. -/
def unpack : Option (Line × List Line) → Py (Line × List Line)
  | some x => .ok x
  | none => .error (.typeError [])

/-- The checks and the loop over the sections (lines 433-466). -/
def addSections (o : Outside) (d : Parsed) (secs : List (Line × List Line)) : Py Parsed :=
  let names := secs.map Prod.fst
  if "Returns".toList ∈ names ∧ "Yields".toList ∈ names then .error .valueError
  else if "Yields".toList ∉ names ∧ "Receives".toList ∈ names then .error .valueError
  else secs.foldlM (addSection o) d

/-- `_parse` (lines 428-466). -/
def parseLines (o : Outside) (ls : List Line) : Py Parsed := do
  let s := parseSummary o ⟨[], ls⟩
  let secs ← readSections s.2
  let secs ← secs.mapM unpack
  addSections o s.1 secs

/-- `NumpyDocString.__init__` (lines 180-191). -/
def parse (o : Outside) (t : List Char) : Py Parsed := parseLines o (dedent (splitNL t))

/-! ## Printing -/

/-- `_str_header` (lines 498-499). -/
def strHeader (t : Line) : List Line := [t, List.replicate t.length '-']

/-- `_str_indent` (lines 501-502). -/
def strIndent (ls : List Line) : List Line := ls.map fun l => ' ' :: ' ' :: ' ' :: ' ' :: l

/-- `_str_signature` (lines 504-507): lists have no method `replace`. -/
def strSignature : Line ⊕ List Line → Py (List Line)
  | .inl [] => .ok [[]]
  | .inl l => .ok [l.flatMap fun c => if c = '*' then ['\\', '*'] else [c], []]
  | .inr [] => .ok [[]]
  | .inr _ => .error .attributeError

/-- `_str_summary`, `_str_extended_summary` (lines 509-517). -/
def strText (ls : List Line) : List Line := if ls = [] then [] else ls ++ [[]]

/-- The line of a parameter (lines 524-529). -/
def strParamHead (p : Param) : Line :=
  if p.name = [] then p.type
  else if p.type = [] then p.name
  else p.name ++ " : ".toList ++ p.type

/-- One parameter (lines 524-531). -/
def strParam (p : Param) : List Line :=
  strParamHead p :: if blank p.desc.flatten then [] else strIndent p.desc

/-- `_str_param_list` (lines 519-533). -/
def strParams (k : PSec) (ps : List Param) : List Line :=
  if ps = [] then [] else strHeader k.title ++ ps.flatMap strParam ++ [[]]

/-- `_str_section` (lines 535-541). -/
def strSection (k : TSec) (ls : List Line) : List Line :=
  if ls = [] then [] else strHeader k.title ++ ls ++ [[]]

/-- `_str_see_also` (lines 543-573). -/
def strSeeAlso (items : List (Line × List Line)) : List Line :=
  if items = [] then []
  else strHeader "See Also".toList ++ [[]] ++
    items.flatMap (fun i => i.1 :: strIndent [if i.2 = [] then "..".toList else joinSp i.2]) ++
    (if (items.getLast?).any (fun i => !i.2.isEmpty) then [[]] else []) ++ [[]]

/-- `__str__` (lines 592-614), as the list of strings that are joined. -/
def strLines (d : Parsed) : Py (List Line) := do
  let sig ← strSignature d.signature
  .ok (sig ++ strText d.summary ++ strText d.extended ++
    [PSec.parameters, .returns, .yields, .receives, .other, .raises, .warns].flatMap (fun k => strParams k (d.plist k)) ++
    strSection .warnings (d.text .warnings) ++ strSeeAlso d.seeAlso ++
    [TSec.notes, .references, .examples].flatMap (fun k => strSection k (d.text k)) ++
    [PSec.attributes, .methods].flatMap (fun k => strParams k (d.plist k)) ++ d.index)

/-! ## append_numpy_docstring -/

/-- `comb[key] += ["\n", *f_doc[key]]` (helpers.py 128-131). -/
def addText (comb f : List Line) : List Line := if f = [] then comb else comb ++ ['\n'] :: f

/-- Parameters that are not defined yet are appended (helpers.py 138-144). -/
def addParams (comb f : List Param) : List Param :=
  f.foldl (fun c p => if c.any (fun i => i.name = p.name) then c else c ++ [p]) comb

/-- One pass of the loop over the other docstrings (helpers.py 122-159).  Adding `"\n"` and a list of
lines raises TypeError (line 136). -/
def merge (comb f : Parsed) : Py Parsed :=
  if f.text .references ≠ [] ∨ f.text .examples ≠ [] then .error (.typeError [])
  else .ok
    { comb with
      summary := addText comb.summary f.summary
      extended := addText comb.extended f.extended
      plist := fun k => if k = .parameters then addParams (comb.plist k) (f.plist k) else comb.plist k ++ f.plist k
      text := fun k => if k = .notes ∨ k = .warnings then comb.text k ++ f.text k else comb.text k
      seeAlso := comb.seeAlso ++ f.seeAlso }

/-- The loop over the other docstrings (helpers.py 122-159); empty ones are skipped. -/
def mergeAll (o : Outside) (comb : Parsed) : List (Option (List Char)) → Py Parsed
  | [] => .ok comb
  | f :: fs =>
    match f.getD [] with
    | [] => mergeAll o comb fs
    | t => do
      let d ← parse o t
      let c ← merge comb d
      mergeAll o c fs

/-- The combined docstring (helpers.py 114-162). -/
def combined (o : Outside) (own : Option (List Char)) (bases : List (Option (List Char))) : Py (List Char) := do
  let comb ← parse o (own.getD [])
  let d ← mergeAll o comb bases
  let ls ← strLines d
  .ok (joinNL ls)

/-- `append_numpy_docstring(*funcs)(decorated_f)` (helpers.py 95-170): the docstring of the decorated
object.  If anything raises, it stays as it is. -/
def append (o : Outside) (own : Option (List Char)) (bases : List (Option (List Char))) : Option (List Char) :=
  match combined o own bases with
  | .ok t => some t
  | .error _ => own

end RT1.Docs
