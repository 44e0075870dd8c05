import Verif.Lemmas.DocsGood

/-!
# The docstrings of the volume scattering classes
-/

namespace RT1.Docs

/-! ## Conditions that can be evaluated -/

/-- `NoHead` evaluated. -/
def noHeadB : List Line → Bool
  | [] => true
  | [l] => !starts indexMark (strip l)
  | l :: m :: ls => !starts indexMark (strip l) && !underlined l m && noHeadB (m :: ls)

theorem noHead_iff (ls : List Line) : noHeadB ls = true ↔ NoHead ls := by
  induction ls with
  | nil => exact ⟨fun _ => ⟨fun _ _ h => by simp at h, by simp⟩, fun _ => rfl⟩
  | cons l ls ih =>
    cases ls with
    | nil =>
      constructor
      · intro h
        refine ⟨fun l1 l2 h => ?_, fun m hm => ?_⟩
        · have := h.length_le
          simp at this
        · obtain rfl : m = l := by simpa using hm
          simpa [noHeadB] using h
      · intro h
        have := h.2 l (by simp)
        simpa [noHeadB] using this
    | cons m ls =>
      have e : noHeadB (l :: m :: ls) = (!starts indexMark (strip l) && !underlined l m && noHeadB (m :: ls)) := rfl
      rw [e, Bool.and_eq_true, Bool.and_eq_true, ih]
      constructor
      · rintro ⟨⟨h1, h2⟩, h3⟩
        refine ⟨fun l1 l2 h => ?_, fun k hk => ?_⟩
        · rcases List.infix_cons_iff.mp h with h | h
          · obtain ⟨t, ht⟩ := h
            obtain ⟨rfl, rfl⟩ : l1 = l ∧ l2 = m := by
              simp only [List.cons_append, List.cons.injEq] at ht
              exact ⟨ht.1, ht.2.1⟩
            simpa using h2
          · exact h3.1 l1 l2 h
        · rcases List.mem_cons.mp hk with rfl | hk
          · simpa using h1
          · exact h3.2 k hk
      · intro h
        refine ⟨⟨by simpa using h.2 l (by simp), by simpa using h.1 l m ⟨[], ls, rfl⟩⟩, fun l1 l2 h' => ?_, fun k hk => ?_⟩
        · exact h.1 l1 l2 (List.infix_cons h')
        · exact h.2 k (List.mem_cons_of_mem _ hk)

instance (ls : List Line) : Decidable (NoHead ls) := decidable_of_iff _ (noHead_iff ls)

instance (l : Line) : Decidable (Word l) :=
  decidable_of_iff (l ≠ [] ∧ (∀ c ∈ l.head?, isSpace c = false) ∧ (∀ c ∈ l.getLast?, isSpace c = false) ∧ '\n' ∉ l)
    ⟨fun ⟨a, b, c, d⟩ => ⟨a, b, c, d⟩, fun ⟨a, b, c, d⟩ => ⟨a, b, c, d⟩⟩

instance (ls : List Line) : Decidable (Tidy ls) :=
  decidable_of_iff ((∀ l ∈ ls.head?, blank l = false) ∧ (∀ l ∈ ls.getLast?, blank l = false) ∧ (∀ l ∈ ls, blank l = true → l = []) ∧
      ls.IsChain fun l m => blank l = false ∨ blank m = false)
    ⟨fun ⟨a, b, c, d⟩ => ⟨a, b, c, d⟩, fun ⟨a, b, c, d⟩ => ⟨a, b, c, d⟩⟩

instance (b : Bool) (p : Param) : Decidable (p.Good b) :=
  decidable_of_iff ((p.name = [] ∨ Word p.name ∧ ':' ∉ p.name) ∧ (p.type = [] ∨ Word p.type) ∧
      (if b then p.type ≠ [] ∧ (p.name = [] → ':' ∉ p.type) else p.name ≠ []) ∧ (∀ c ∈ p.head.head?, c ≠ '-' ∧ c ≠ '=') ∧ Tidy p.desc ∧
      (p.desc = [] ∨ ∃ l ∈ p.desc, ∃ c ∈ l.head?, isSpace c = false) ∧ (∀ l ∈ p.desc, '\n' ∉ l) ∧ NoHead (p.head :: p.desc))
    ⟨fun ⟨a, b, c, d, e, f, g, h⟩ => ⟨a, b, c, d, e, f, g, h⟩, fun ⟨a, b, c, d, e, f, g, h⟩ => ⟨a, b, c, d, e, f, g, h⟩⟩

instance : (s : Section) → Decidable s.Good
  | .params k ps => inferInstanceAs (Decidable (ps ≠ [] ∧ ∀ p ∈ ps, p.Good k.single))
  | .text _ ls => inferInstanceAs (Decidable (ls ≠ [] ∧ Tidy ls ∧ NoHead ls ∧ ∀ l ∈ ls, '\n' ∉ l))

instance (sig : List Line → Bool) (d : Doc) : Decidable (d.Good sig) :=
  decidable_of_iff ((∀ b ∈ d.opening, b ≠ [] ∧ NoHead b ∧ ∀ l ∈ b, blank l = false ∧ '\n' ∉ l) ∧ (∀ b ∈ d.opening.head?, sig b = false) ∧
      ((d.sections ≠ [] ∨ d.opening = [] ∨ ∃ b ∈ d.opening, ∃ l ∈ b, ∃ c ∈ l.head?, isSpace c = false)) ∧ (∀ s ∈ d.sections, s.Good) ∧
      (d.sections.map Section.title).Nodup ∧
      (¬ (PSec.returns.title ∈ d.sections.map Section.title ∧ PSec.yields.title ∈ d.sections.map Section.title)) ∧
      (PSec.receives.title ∈ d.sections.map Section.title → PSec.yields.title ∈ d.sections.map Section.title))
    ⟨fun ⟨a, b, c, d, e, f, g⟩ => ⟨a, b, c, d, e, f, g⟩, fun ⟨a, b, c, d, e, f, g⟩ => ⟨a, b, c, d, e, f, g⟩⟩

/-- The lines of a text without an indentation of `n` characters. -/
def unindent (n : ℕ) (t : List Char) : List Line := (splitNL t).map fun l => if l.all isTab then [] else l.drop n

theorem reads_of {t : List Char} {d : Doc} (n : ℕ) (parts : List (List Line)) (h : List.Forall₂ Section.Lines d.sections parts)
    (hp : paras (unindent n t) = d.opening ++ (parts.map paras).flatten)
    (hi : ∀ l ∈ splitNL t, l.all isTab = true ∨ l.take n = List.replicate n ' ' ∧ (l.drop n).all isTab = false)
    (hf : ∃ l ∈ unindent n t, ∃ c ∈ l.head?, isSpace c = false) : Reads t d := by
  refine ⟨unindent n t, List.replicate n ' ', ⟨parts, h, hp⟩, ?_, ?_, .inr hf⟩
  · rw [List.all_eq_true]
    intro c hc
    rw [List.eq_of_mem_replicate hc]
    rfl
  · rw [unindent, List.forall₂_map_left_iff, List.forall₂_same]
    intro l hl
    rcases hi l hl with h | ⟨h1, h2⟩
    · rw [if_pos h]
      exact .inl ⟨rfl, h⟩
    · by_cases h : l.all isTab = true
      · rw [if_pos h]
        exact .inl ⟨rfl, h⟩
      · rw [if_neg h]
        exact .inr ⟨h2, by rw [← h1, List.take_append_drop]⟩

/-! ## Docstrings of the code -/

/-- The characters of a string, written as a list: the kernel takes long to decode strings. -/
scoped macro "chars! " s:str : term => do
  let cs := (s.getString.toList.map fun c => Lean.Syntax.mkCharLit c).toArray
  `([$cs,*])

/-- Letters, digits and the underscore; the docstrings below hold no other word characters where it
matters. -/
def demoOut : Outside := ⟨fun c => c.isAlphanum || c == '_', fun _ => .ok [], fun _ _ => []⟩

/-- The docstring of `VolumeScatter` (volume.py 13-27). -/
def volText : List Char := chars! "
    Abstract base class for use as volume scattering distribution.

    Parameters
    ----------
    ncoefs : int
             Number of coefficients used for the Legendre-approximation.

    a : [ float , float , float ] , optional (default = [-1.,1.,1.])
        Generalized scattering angle parameters used for defining the
        scattering angle of the distribution function. For more details, see:
        https://rt1-model.rtfd.io/en/latest/theory.html#equation-general_scat_angle

    "

/-- The parameter `ncoefs` of `VolumeScatter`. -/
def volNcoefs : Param :=
  ⟨chars! "ncoefs", chars! "int", [chars! "Number of coefficients used for the Legendre-approximation."]⟩

/-- The parameter `a` of `VolumeScatter`. -/
def volA : Param :=
  ⟨chars! "a", chars! "[ float , float , float ] , optional (default = [-1.,1.,1.])",
    [chars! "Generalized scattering angle parameters used for defining the",
      chars! "scattering angle of the distribution function. For more details, see:",
      chars! "https://rt1-model.rtfd.io/en/latest/theory.html#equation-general_scat_angle"]⟩

/-- What it says. -/
def volDoc : Doc :=
  ⟨[[chars! "Abstract base class for use as volume scattering distribution."]], [.params .parameters [volNcoefs, volA]]⟩

/-- The docstring of `Isotropic` (volume.py 68-77). -/
def isoText : List Char := chars! "
    Define an isotropic scattering distribution.

    Notes
    -----
    - Only 1 expansion coefficient is required, so `ncoefs` is always set to 1!
    - Since the distribution is independent of the scattering angle, the `a` parameter
      has no effect!

    "

/-- The notes of `Isotropic`. -/
def isoNotes : List Line :=
  [chars! "- Only 1 expansion coefficient is required, so `ncoefs` is always set to 1!",
    chars! "- Since the distribution is independent of the scattering angle, the `a` parameter", chars! "  has no effect!"]

/-- What it says. -/
def isoDoc : Doc := ⟨[[chars! "Define an isotropic scattering distribution."]], [.text .notes isoNotes]⟩

/-- The docstring of `HenyeyGreenstein` (volume.py 142-153). -/
def hgText : List Char := chars! "
    HenyeyGreenstein scattering function.

        Henyey, L. G. and Greenstein, J. L., Diffuse radiation in the Galaxy.,
        The Astrophysical Journal, vol. 93, pp. 70–83, 1941. doi:10.1086/144246.

    Parameters
    ----------
    t : float
        Asymmetry parameter (must be in the range -1 < t < 1).

    "

/-- The parameter `t` of `HenyeyGreenstein`. -/
def hgT : Param := ⟨chars! "t", chars! "float", [chars! "Asymmetry parameter (must be in the range -1 < t < 1)."]⟩

/-- What it says. -/
def hgDoc : Doc :=
  ⟨[[chars! "HenyeyGreenstein scattering function."],
      [chars! "    Henyey, L. G. and Greenstein, J. L., Diffuse radiation in the Galaxy.,",
        chars! "    The Astrophysical Journal, vol. 93, pp. 70–83, 1941. doi:10.1086/144246."]], [.params .parameters [hgT]]⟩

/-- The lines of its section. -/
def volPart : List Line :=
  chars! "Parameters" :: List.replicate 10 '-' :: volNcoefs.head :: indentBy 8 volNcoefs.desc ++
    ([[]] ++ volA.head :: indentBy 3 volA.desc)

theorem volText_reads : Reads volText volDoc := by
  have h : Section.Lines (.params .parameters [volNcoefs, volA]) volPart :=
    ⟨0, false, _, Entries.next volNcoefs 8 true (Entries.last volA 3), by decide +kernel⟩
  exact reads_of 4 [volPart] (.cons h .nil) (by decide +kernel) (by decide +kernel) (by decide +kernel)

/-- The lines of its section. -/
def isoPart : List Line := chars! "Notes" :: List.replicate 5 '-' :: isoNotes

theorem isoText_reads : Reads isoText isoDoc := by
  have h : Section.Lines (.text .notes isoNotes) isoPart := ⟨0, false, isoNotes, rfl, rfl⟩
  exact reads_of 4 [isoPart] (.cons h .nil) (by decide +kernel) (by decide +kernel) (by decide +kernel)

/-- The lines of its section. -/
def hgPart : List Line := chars! "Parameters" :: List.replicate 10 '-' :: hgT.head :: indentBy 3 hgT.desc

theorem hgText_reads : Reads hgText hgDoc := by
  have h : Section.Lines (.params .parameters [hgT]) hgPart := ⟨0, false, _, Entries.last hgT 3, by decide +kernel⟩
  exact reads_of 4 [hgPart] (.cons h .nil) (by decide +kernel) (by decide +kernel) (by decide +kernel)

theorem volDoc_good : volDoc.Good fun b => isSignature demoOut (summaryStr b) := by decide +kernel

theorem isoDoc_good : isoDoc.Good fun b => isSignature demoOut (summaryStr b) := by decide +kernel

theorem hgDoc_good : hgDoc.Good fun b => isSignature demoOut (summaryStr b) := by decide +kernel

/-- A docstring with references. -/
def refText : List Char := chars! "Scattering function.

Parameters
----------
ncoefs : int
    Number of coefficients used for the Legendre-approximation.

References
----------
Some paper."

/-- What it says. -/
def refDoc : Doc := ⟨[[chars! "Scattering function."]], [.params .parameters [volNcoefs], .text .references [chars! "Some paper."]]⟩

/-- The lines of its sections. -/
def refParts : List (List Line) :=
  [chars! "Parameters" :: List.replicate 10 '-' :: volNcoefs.head :: indentBy 3 volNcoefs.desc,
    chars! "References" :: List.replicate 10 '-' :: [chars! "Some paper."]]

theorem refText_reads : Reads refText refDoc :=
  reads_of 0 refParts (.cons ⟨0, false, _, Entries.last volNcoefs 3, by decide +kernel⟩ (.cons ⟨0, false, _, rfl, rfl⟩ .nil))
    (by decide +kernel) (by decide +kernel) (by decide +kernel)

theorem refDoc_good : refDoc.Good fun b => isSignature demoOut (summaryStr b) := by decide +kernel

end RT1.Docs
