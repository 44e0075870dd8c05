import Verif.Lemmas.DocsDemo

/-!
# Docstrings merged as text (C77)
-/

namespace RT1

open Docs

/-- The text that a docstring says is found by the reader: summary, further paragraphs, parameters and
texts of all sections. -/
theorem C77_reader (o : Outside) {t : List Char} {d : Doc} (h : Reads t d) (hg : d.Good fun b => isSignature o (summaryStr b)) :
    ∃ P, parse o t = .ok P ∧ P.signature = .inl [] ∧ paras P.summary = d.opening.take 1 ∧ paras P.extended = d.opening.drop 1 ∧
      P.plist = d.plist ∧ P.text = d.text ∧ P.seeAlso = [] ∧ P.index = [] :=
  ⟨d.parsed, h.parse hg, rfl, (d.parsed_summary hg).1, (d.parsed_extended hg).1, rfl, rfl, rfl, rfl⟩

example : ∃ P, parse demoOut volText = .ok P ∧ P.plist .parameters = [volNcoefs, volA] := by
  obtain ⟨P, h1, _, _, _, h2, _⟩ := C77_reader demoOut volText_reads volDoc_good
  exact ⟨P, h1, by rw [h2]; rfl⟩

/-- A text says one thing only. -/
theorem C77_unique (o : Outside) {t : List Char} {d e : Doc} (hd : Reads t d) (he : Reads t e)
    (gd : d.Good fun b => isSignature o (summaryStr b)) (ge : e.Good fun b => isSignature o (summaryStr b)) :
    d.opening = e.opening ∧ d.plist = e.plist ∧ d.text = e.text := by
  obtain ⟨P, h1, _, h2, h3, h4, h5, _⟩ := C77_reader o hd gd
  obtain ⟨Q, k1, _, k2, k3, k4, k5, _⟩ := C77_reader o he ge
  rw [h1] at k1
  injection k1 with k1
  subst k1
  refine ⟨?_, h4.symm.trans k4, h5.symm.trans k5⟩
  rw [← List.take_append_drop 1 d.opening, ← List.take_append_drop 1 e.opening, ← h2, ← h3, k2, k3]

example {e : Doc} (h : Reads volText e) (g : e.Good fun b => isSignature demoOut (summaryStr b)) :
    e.plist .parameters = [volNcoefs, volA] := by
  rw [← (C77_unique demoOut volText_reads h volDoc_good g).2.1]
  rfl

/-- The merged docstring says what the docstrings say together: summaries first, then the other
paragraphs; own parameters, then the first description of every other parameter; then all other
sections.  Missing: docstrings to be merged that have references or examples. -/
theorem C77_merge_partial (o : Outside) {own : Option (List Char)} {d : Doc} (h : Reads (own.getD []) d)
    (hg : d.Good fun b => isSignature o (summaryStr b)) {bases : List (Option (List Char))} {ds : List Doc}
    (hb : List.Forall₂ (fun t b => Reads (t.getD []) b ∧ (b.Good fun b => isSignature o (summaryStr b)) ∧
      b.text .references = [] ∧ b.text .examples = []) bases ds)
    (hc : (combine d ds).Good fun b => isSignature o (summaryStr b)) :
    ∃ t, append o own bases = some t ∧ Reads t (combine d ds) := by
  have hP : Says d.parsed (d.opening.take 1) (d.opening.drop 1) d.plist d.text :=
    ⟨rfl, (d.parsed_summary hg).1, (d.parsed_summary hg).2, (d.parsed_extended hg).1, (d.parsed_extended hg).2, rfl, rfl, rfl, rfl⟩
  obtain ⟨Q, e1, hQ⟩ := mergeAll_eq (o := o) hb hP
  have ep : (fun k => if k = PSec.parameters then addParams (d.plist k) (ds.flatMap fun b => b.plist k)
      else d.plist k ++ ds.flatMap fun b => b.plist k) =
      fun k => if k = PSec.parameters then d.plist k ++ firsts ((d.plist k).map Param.name) (ds.flatMap fun b => b.plist k)
        else d.plist k ++ ds.flatMap fun b => b.plist k := by
    funext k
    rw [addParams_eq]
  rw [ep] at hQ
  obtain ⟨ls, e2, hr⟩ := hQ.reads hc
  refine ⟨joinNL ls, ?_, hr⟩
  have : combined o own bases = .ok (joinNL ls) := by
    rw [combined, h.parse hg]
    show (do
      let d ← mergeAll o d.parsed bases
      let ls ← strLines d
      .ok (joinNL ls)) = _
    rw [e1]
    show (do
      let ls ← strLines Q
      .ok (joinNL ls)) = _
    rw [e2]
    rfl
  rw [append, this]

/-- Docstrings without text sections, as those of the base classes, are always merged, and whoever
reads the merged docstring finds the own summary first, all own parameters with their own description,
and the parameters of the others that have no description yet. -/
theorem C77_inherited_partial (o : Outside) {own : Option (List Char)} {d : Doc} (h : Reads (own.getD []) d)
    (hg : d.Good fun b => isSignature o (summaryStr b)) {bases : List (Option (List Char))} {ds : List Doc}
    (hb : List.Forall₂ (fun t b => Reads (t.getD []) b ∧ (b.Good fun b => isSignature o (summaryStr b)) ∧ ∀ k, b.text k = []) bases ds)
    (hr : (∀ b ∈ d :: ds, b.plist .returns = []) ∨ ∀ b ∈ d :: ds, b.plist .yields = []) :
    ∃ t, append o own bases = some t ∧ (∃ e, Reads t e ∧ e.Good fun b => isSignature o (summaryStr b)) ∧
      ∀ e : Doc, Reads t e → (e.Good fun b => isSignature o (summaryStr b)) →
        e.opening = (d :: ds).flatMap (fun b => b.opening.take 1) ++ (d :: ds).flatMap (fun b => b.opening.drop 1) ∧
        (∀ k, e.plist k = d.plist k ++ if k = .parameters then
          firsts ((d.plist k).map Param.name) (ds.flatMap fun b => b.plist k) else ds.flatMap fun b => b.plist k) ∧
        e.text = d.text := by
  have hds : ∀ b ∈ ds, (b.Good fun b => isSignature o (summaryStr b)) ∧ ∀ k, b.text k = [] := by
    clear hr
    induction hb with
    | nil => simp
    | cons h1 h2 ih => exact List.forall_mem_cons.mpr ⟨h1.2, ih⟩
  have hc : (combine d ds).Good fun b => isSignature o (summaryStr b) :=
    hg.combine (fun b hb => (hds b hb).1) (fun b hb => (hds b hb).2) hr
  obtain ⟨t, e1, e2⟩ := C77_merge_partial o h hg (hb.imp fun _ _ ⟨h1, h2, h3⟩ => ⟨h1, h2, h3 _, h3 _⟩) hc
  refine ⟨t, e1, ⟨_, e2, hc⟩, fun e he ge => ?_⟩
  obtain ⟨u1, u2, u3⟩ := C77_unique o he e2 ge hc
  refine ⟨u1, fun k => ?_, ?_⟩
  · rw [u2, combine, plist_sectionsOf]
    split
    · rfl
    · rfl
  · rw [u3, combine, text_sectionsOf]
    funext k
    rw [List.flatMap_eq_nil_iff.mpr fun b hb => (hds b hb).2 k, List.append_nil]

/-- The docstring of `HenyeyGreenstein` describes `t`, `ncoefs` and `a`, in this order. -/
example : ∃ t, append demoOut (some hgText) [some volText] = some t ∧ Reads t (combine hgDoc [volDoc]) ∧
    (combine hgDoc [volDoc]).plist .parameters = [hgT, volNcoefs, volA] := by
  obtain ⟨t, h1, h2⟩ := C77_merge_partial demoOut (own := some hgText) hgText_reads hgDoc_good (bases := [some volText])
    (.cons ⟨volText_reads, volDoc_good, rfl, rfl⟩ .nil) (by decide +kernel)
  exact ⟨t, h1, h2, by decide +kernel⟩

/-- The docstring of `Isotropic` keeps its notes and describes `ncoefs` and `a`. -/
example : ∃ t, append demoOut (some isoText) [some volText] = some t ∧
    ∀ e : Doc, Reads t e → (e.Good fun b => isSignature demoOut (summaryStr b)) →
      e.plist .parameters = [volNcoefs, volA] ∧ e.text .notes = isoNotes := by
  obtain ⟨t, h1, _, h2⟩ := C77_inherited_partial demoOut (own := some isoText) isoText_reads isoDoc_good (bases := [some volText])
    (.cons ⟨volText_reads, volDoc_good, fun k => rfl⟩ .nil) (.inl (by decide +kernel))
  refine ⟨t, h1, fun e he ge => ?_⟩
  obtain ⟨_, h3, h4⟩ := h2 e he ge
  exact ⟨by rw [h3]; decide +kernel, by rw [h4]; decide +kernel⟩

/-- If a docstring to be merged has references or examples, nothing is merged: the docstring stays as
it is, whatever the others say. -/
theorem C77_references_negation (o : Outside) {own : Option (List Char)} {d : Doc} (h : Reads (own.getD []) d)
    (hg : d.Good fun b => isSignature o (summaryStr b)) {before after : List (Option (List Char))} {ds : List Doc}
    (hb : List.Forall₂ (fun t b => Reads (t.getD []) b ∧ (b.Good fun b => isSignature o (summaryStr b)) ∧
      b.text .references = [] ∧ b.text .examples = []) before ds)
    {base : Option (List Char)} {e : Doc} (he : Reads (base.getD []) e) (ge : e.Good fun b => isSignature o (summaryStr b))
    (hne : e.text .references ≠ [] ∨ e.text .examples ≠ []) : append o own (before ++ base :: after) = own := by
  have hP : Says d.parsed (d.opening.take 1) (d.opening.drop 1) d.plist d.text :=
    ⟨rfl, (d.parsed_summary hg).1, (d.parsed_summary hg).2, (d.parsed_extended hg).1, (d.parsed_extended hg).2, rfl, rfl, rfl, rfl⟩
  obtain ⟨Q, e1, _⟩ := mergeAll_eq (o := o) hb hP
  have hlast : mergeAll o Q (base :: after) = .error (.typeError []) := by
    cases hbase : base.getD [] with
    | nil =>
      exfalso
      rw [hbase] at he
      have hp := he.parse ge
      rw [parse_nil] at hp
      injection hp with hp
      have e4 : e.text = fun _ => [] := (congrArg Parsed.text hp).symm
      rw [e4] at hne
      simp at hne
    | cons c u =>
      rw [mergeAll, hbase]
      show (do
        let d ← parse o (c :: u)
        let c ← merge Q d
        mergeAll o c after) = _
      rw [hbase] at he
      rw [he.parse ge]
      show (do
        let c ← merge Q e.parsed
        mergeAll o c after) = _
      rw [show merge Q e.parsed = .error (.typeError []) from if_pos hne]
      rfl
  have : combined o own (before ++ base :: after) = .error (.typeError []) := by
    rw [combined, h.parse hg]
    show (do
      let d ← mergeAll o d.parsed (before ++ base :: after)
      let ls ← strLines d
      .ok (joinNL ls)) = _
    rw [mergeAll_append, e1]
    show (do
      let d ← mergeAll o Q (base :: after)
      let ls ← strLines d
      .ok (joinNL ls)) = _
    rw [hlast]
    rfl
  rw [append, this]

/-- The docstring of a class that is derived from a class with references is left alone: the inherited
parameter is not described. -/
theorem C77_references_counterexample : ∃ (own base : List Char) (d b : Doc), Reads own d ∧ Reads base b ∧
    (d.Good fun b => isSignature demoOut (summaryStr b)) ∧ (b.Good fun b => isSignature demoOut (summaryStr b)) ∧
    b.plist .parameters = [volNcoefs] ∧ d.plist .parameters = [hgT] ∧ append demoOut (some own) [some base] = some own := by
  refine ⟨hgText, refText, hgDoc, refDoc, hgText_reads, refText_reads, hgDoc_good, refDoc_good, by decide +kernel, by decide +kernel, ?_⟩
  exact C77_references_negation demoOut (own := some hgText) hgText_reads hgDoc_good (before := []) (after := []) .nil
    (base := some refText) refText_reads refDoc_good (.inl (by decide +kernel))

end RT1
