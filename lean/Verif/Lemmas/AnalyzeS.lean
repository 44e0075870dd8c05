import Verif.Lemmas.AnalyzeU
import Verif.Spec.Analyze

/-! Sessions with the analyzers. -/

namespace RT1

noncomputable section
open Classical

/-! ### Rows without axes of length 1 -/

theorem unsqueeze_dropOnes {n k : ℕ} (hn : n ≠ 1) : ∀ {S idx : List ℕ}, Arr.Valid S idx →
    Arr.unsqueeze (S ++ [n]) (dropOnes S idx ++ [k]) = idx ++ [k]
  | [], idx, h => by
    cases h
    simp [Arr.unsqueeze, dropOnes, hn]
  | a :: s, idx, h => by
    cases h with
    | cons h1 h2 =>
      rename_i i is
      have ih := unsqueeze_dropOnes (k := k) hn h2
      by_cases ha : a = 1
      · subst ha
        have : i = 0 := by omega
        subst this
        simp [Arr.unsqueeze, dropOnes, ih]
      · simp [Arr.unsqueeze, dropOnes, ha, ih]

theorem rowsOf_squeeze {x : Arr} {S : List ℕ} {n : ℕ} (hs : x.shape = S ++ [n]) (hn : n ≠ 1)
    {l : List Arr} (h : rowsOf x.squeeze = .ok l) :
    l.length = n ∧ ∀ (k : ℕ) (y : Arr), l[k]? = some y → IsRow y x k := by
  have hsh : x.squeeze.shape = S.filter (fun m => decide (m ≠ 1)) ++ [n] := by
    simp [Arr.squeeze, hs, hn]
  have hl : l = (List.range n).map fun k => ⟨S.filter (fun m => decide (m ≠ 1)),
      fun i => x.squeeze.get (i ++ [k])⟩ := by
    unfold rowsOf at h
    split at h
    · cases h
    · cases h
      rw [hsh]
      simp
  subst hl
  refine ⟨by simp, fun k y hy => ?_⟩
  rw [List.getElem?_map] at hy
  by_cases hk : k < n
  · rw [List.getElem?_range hk] at hy
    cases hy
    refine ⟨S, n, hs, hk, rfl, fun idx hv => ?_⟩
    show x.get (Arr.unsqueeze x.shape _) = _
    rw [hs, unsqueeze_dropOnes hn hv]
  · rw [List.getElem?_eq_none (by simpa using hk)] at hy
    cases hy

/-! ### The lines -/

/-- The lines with their values. -/
def drawnLines (q : Bool) (c : ℕ → Arr) (y : Arr) : List (Option String × Arr) :=
  [(some "Total", c 0), (some "Surface", c 1), (some "Volume", c 2)] ++
    (if q = true then [(some "Interaction", c 3), (none, y)] else [])

theorem list_three {α : Type} {l : List α} (h : l.length = 3) : ∃ a b c, l = [a, b, c] := by
  match l, h with
  | [a, b, c], _ => exact ⟨a, b, c, rfl⟩
theorem list_four {α : Type} {l : List α} (h : l.length = 4) : ∃ a b c d, l = [a, b, c, d] := by
  match l, h with
  | [a, b, c, d], _ => exact ⟨a, b, c, d, rfl⟩
theorem list_five {α : Type} {l : List α} (h : l.length = 5) : ∃ a b c d e, l = [a, b, c, d, e] := by
  match l, h with
  | [a, b, c, d, e], _ => exact ⟨a, b, c, d, e, rfl⟩

theorem newLines_eq {q : Bool} {old : Option (List (Option String × Arr))} {contribs : List Arr}
    {sv : Option Arr} (hold : ∀ ls, old = some ls → ls.map Prod.fst = labelsFor q)
    (hc : contribs.length = nrows q) (hsv : sv.isSome = q) :
    newLines old contribs sv = drawnLines q (fun k => contribs.getD k (Arr.lit 0)) (sv.getD (Arr.lit 0)) := by
  cases q with
  | false =>
    obtain ⟨a, b, c, rfl⟩ := list_three (l := contribs) hc
    cases sv with
    | some y => cases hsv
    | none =>
    cases old with
    | none => simp [newLines, lineLabels, drawnLines]
    | some ls =>
      have h := hold ls rfl
      have hl : ls.length = 3 := by have := congrArg List.length h; simpa [labelsFor] using this
      obtain ⟨x, y, z, rfl⟩ := list_three hl
      simp [labelsFor] at h
      simp [newLines, setLines, drawnLines, h]
  | true =>
    obtain ⟨a, b, c, d, rfl⟩ := list_four (l := contribs) hc
    cases sv with
    | none => cases hsv
    | some y =>
    cases old with
    | none => simp [newLines, lineLabels, drawnLines]
    | some ls =>
      have h := hold ls rfl
      have hl : ls.length = 5 := by have := congrArg List.length h; simpa [labelsFor] using this
      obtain ⟨x, y, z, u, v, rfl⟩ := list_five hl
      simp [labelsFor] at h
      simp [newLines, setLines, setLast, drawnLines, h]

theorem drawnLines_labels (q : Bool) (c : ℕ → Arr) (y : Arr) :
    (drawnLines q c y).map Prod.fst = labelsFor q := by
  cases q <;> simp [drawnLines, labelsFor]

theorem Updated.shape {id : ℕ} {A A' : Analyzer} {w w' : World} {o o' : Obj} {res : Arr}
    {contribs : List Arr} {sv : Option Arr} (h : Updated id A A' w w' o o' res contribs sv) :
    ∃ S, res.shape = S ++ [nrows o.intQ] ∧ contribs.length = nrows o.intQ ∧
      (∀ (k : ℕ) (y : Arr), contribs[k]? = some y → IsRow y res k) ∧ sv.isSome = o.intQ := by
  obtain ⟨Is, Iv, Ii, hp⟩ := calc_parts h.calc_
  have hs := hp.rows.1
  have hq : (Fresh.update o (sliderVals A.sliders)).intQ = o.intQ := rfl
  rw [hq] at hs
  have hn : nrows o.intQ ≠ 1 := by cases o.intQ <;> decide
  obtain ⟨r1, r2⟩ := rowsOf_squeeze hs hn h.rows
  refine ⟨_, hs, r1, r2, ?_⟩
  have := h.dashed
  cases hqq : o.intQ with
  | false => rw [hqq] at this; simp at this; rw [this]; rfl
  | true =>
    rw [hqq] at this
    obtain ⟨y, -, rfl⟩ := this
    rfl

theorem Updated.drawn {id : ℕ} {A A' : Analyzer} {w w' : World} {o o' : Obj} {res : Arr}
    {contribs : List Arr} {sv : Option Arr} (h : Updated id A A' w w' o o' res contribs sv)
    (hold : ∀ ls, A.lines = some ls → ls.map Prod.fst = labelsFor o.intQ) :
    A'.lines = some (drawnLines o.intQ (fun k => contribs.getD k (Arr.lit 0)) (sv.getD (Arr.lit 0))) := by
  obtain ⟨S, -, h1, -, h2⟩ := h.shape
  rw [h.lines, newLines_eq hold h1 h2]

theorem Updated.intQ {id : ℕ} {A A' : Analyzer} {w w' : World} {o o' : Obj} {res : Arr}
    {contribs : List Arr} {sv : Option Arr} (h : Updated id A A' w w' o o' res contribs sv) :
    o'.intQ = o.intQ := by
  have := h.over
  cases hr : A.range with
  | none => rw [hr] at this; exact this.2.intQ
  | some k => rw [hr] at this; obtain ⟨-, r, -, -, hf⟩ := this; exact hf.intQ

/-- The slider values supplied again. -/
theorem Updated.again {id : ℕ} {A A' : Analyzer} {w w' : World} {o o' : Obj} {res : Arr}
    {contribs : List Arr} {sv : Option Arr} (hw : Reachable w)
    (h : Updated id A A' w w' o o' res contribs sv) :
    Filled w.backend (Fresh.update o (sliderVals A.sliders)) (Fresh.update o' (sliderVals A'.sliders)) := by
  have hb := hw.keeps.any.bsfOK h.before
  have := h.over
  rw [h.sliders]
  cases hr : A.range with
  | none => rw [hr] at this; exact this.2.again hb
  | some k =>
    rw [hr] at this
    obtain ⟨-, r, -, -, hf⟩ := this
    exact hf.back hb (by rw [rangeVals_keys, sliderVals_keys])

/-! ### Sessions -/

theorem Runs.reachable {P : Op → Prop} (hP : ∀ op, P op → op.Plain) {α : Type} {x : M α} (h : Runs P x)
    {w : World} (hw : Reachable w) : Reachable (x w).2 := by
  obtain ⟨ops, ho, he⟩ := h w
  rw [he]
  exact hw.run fun op hop => hP op (ho op hop)

theorem event_runs (id : ℕ) (A : Analyzer) (e : Event) :
    Runs (AnaOp2 id ((A.apply e).sliders.map Prod.fst)) (A.event id e) :=
  (Runs.update fun _ h => h).mono fun _ h => h.toAna2

theorem apply_names (A : Analyzer) (e : Event) :
    (A.apply e).sliders.map Prod.fst = A.sliders.map Prod.fst := by
  cases e with
  | select k => rfl
  | slide k v =>
    simp only [Analyzer.apply, List.map_map]
    refine List.map_congr_left fun p _ => ?_
    simp only [Function.comp]
    split_ifs <;> rfl

theorem apply_lines (A : Analyzer) (e : Event) : (A.apply e).lines = A.lines := by
  cases e <;> rfl

theorem Session.reachable {P : Op → Prop} {id : ℕ} {w : World} {A : Analyzer} (h : Session P id w A) :
    Reachable w := by
  induction h with
  | @start w w' r ps A hw h =>
    have := (Runs.analyze id r ps).reachable (fun _ h => h.toAna.plain) hw
    rw [h] at this
    exact this
  | @event w w' A A' e _ h ih =>
    have := (event_runs id A e).reachable (fun _ h => h.toAna.plain) ih
    rw [h] at this
    exact this
  | call op _ h1 h2 ih => exact ih.step h1

/-- `Analyze(...)` ends with an update. -/
theorem analyze_ok {w w' : World} {id : ℕ} {r : Option String} {ps : List (String × List SliderArg)}
    {A : Analyzer} (hw : Reachable w) (h : analyze id r ps w = (.ok A, w')) : ∃ w1 w2 sl,
      setMonostatic id (some (.number 0)) w = (.ok (), w1) ∧
      setGeometry id [("t_0", some analyzeT0)] w1 = (.ok (), w2) ∧
      ∃ w3, analyzerSliders id ps w2 = (.ok sl, w3) ∧ Reachable w2 ∧ Reachable w3 ∧
      (∀ k, r = some k → k = "" ∨ k = "None" ∨ k ∈ sl.map Prod.fst) ∧
      Analyzer.update id ⟨sl, r, none, none⟩ w3 = (.ok A, w') := by
  unfold analyze at h
  obtain ⟨u1, w1, h1, h⟩ := bind_ok_inv h
  obtain ⟨u2, w2, h2, h⟩ := bind_ok_inv h
  obtain ⟨sl, w3, h3, h⟩ := bind_ok_inv h
  have r1 : Reachable w1 := by
    have := hw.step (op := .setMonostatic id (some (.number 0))) trivial
    rw [show step (.setMonostatic id (some (.number 0))) w = (.ok (), w1) from h1] at this
    exact this
  have r2 : Reachable w2 := by
    have := r1.step (op := .setGeometry id [("t_0", some analyzeT0)]) trivial
    rw [show step (.setGeometry id [("t_0", some analyzeT0)]) w1 = (.ok (), w2) from h2] at this
    exact this
  have r3 : Reachable w3 := by
    have := (Runs.sliders (P := AnaOp2 id []) (id := id) (ps := ps) (.check _)).reachable
      (fun _ h => h.toAna.plain) r2
    rw [h3] at this
    exact this
  refine ⟨w1, w2, sl, h1, h2, w3, h3, r2, r3, ?_⟩
  cases r with
  | none => exact ⟨by simp, h⟩
  | some k =>
    by_cases hk : k = "" ∨ k = "None" ∨ k ∈ sl.map Prod.fst
    · refine ⟨?_, ?_⟩
      · rintro k' ⟨⟩; exact hk
      · have h : (if k = "" ∨ k = "None" ∨ k ∈ sl.map Prod.fst then
          Analyzer.update id ⟨sl, some k, none, none⟩ else throw PyErr.valueError : M Analyzer) w3 = (.ok A, w') := h
        rwa [if_pos hk] at h
    · have h : (if k = "" ∨ k = "None" ∨ k ∈ sl.map Prod.fst then
          Analyzer.update id ⟨sl, some k, none, none⟩ else throw PyErr.valueError : M Analyzer) w3 = (.ok A, w') := h
      rw [if_neg hk] at h
      cases h

/-- A call that does not assign `int_Q` of the object leaves it. -/
theorem after_intQ {id : ℕ} {op : Op} (ht : op.target = some id) (h : ∀ b, op ≠ .setIntQ id b) (o : Obj) :
    (o.after op).intQ = o.intQ := by
  have hl : ∀ (l : List (String × Option Arr)) (o : Obj), (Obj.angLoop l o).intQ = o.intQ := by
    intro l
    induction l with
    | nil => intro o; rfl
    | cons p l ih =>
      intro o
      obtain ⟨k, v⟩ := p
      unfold Obj.angLoop
      cases AngN.ofName k with
      | none => exact ih o
      | some n =>
        simp only
        by_cases hn : n ∈ o.fixed
        · simp [hn]
        · simp only [hn, if_false]
          cases v with
          | none => rfl
          | some a => exact ih { o with ang := Function.update o.ang n (some a.atleast1d) }
  have hf : ∀ (l : List (AngN × Option PyArg)) (o : Obj), (Obj.fixLoop l o).intQ = o.intQ := by
    intro l
    induction l with
    | nil => intro o; rfl
    | cons p l ih =>
      intro o
      obtain ⟨n, v⟩ := p
      cases v with
      | none => exact ih o
      | some a =>
        cases a with
        | other => rfl
        | number r => exact ih (o.fix n r)
  cases op <;> try rfl
  case setMonostatic j p =>
    cases p with
    | none => rfl
    | some a => cases a <;> rfl
  case setBistatic j a b c d =>
    show (Obj.afterBi o a b c d).intQ = _
    unfold Obj.afterBi
    simp only
    split_ifs
    · exact hf _ _
    · exact hf _ _
  case setGeometry j kw =>
    show (Obj.afterGeom o kw).intQ = _
    unfold Obj.afterGeom
    split_ifs
    · rfl
    · rfl
    · exact hl _ _
  case setIntQ j b =>
    simp only [Op.target, Option.some.injEq] at ht
    subst ht
    exact absurd rfl (h b)

theorem step_intQ {w : World} (hw : Reachable w) {id : ℕ} {o : Obj} (ho : w.objs id = some o) {op : Op}
    (h : ∀ b, op ≠ .setIntQ id b) : ∃ o', (step op w).2.objs id = some o' ∧ o'.intQ = o.intQ := by
  have hn := hw.keeps.any.next
  by_cases ht : op.target = some id
  · obtain ⟨o', ho', hc⟩ := step_core hn ho ht
    have hq : o'.intQ = (o.after op).intQ := by have := congrArg Obj.intQ hc; exact this
    exact ⟨o', ho', hq.trans (after_intQ ht h o)⟩
  · exact ⟨o, by rw [(step_other hn op).2.2 id ht (lt_next hn ho), ho], rfl⟩

theorem Session.labels {P : Op → Prop} {id : ℕ} (hP : ∀ op, P op → ∀ b, op ≠ .setIntQ id b) {w : World}
    {A : Analyzer} (h : Session P id w A) :
    ∃ o ls, w.objs id = some o ∧ A.lines = some ls ∧ ls.map Prod.fst = labelsFor o.intQ := by
  induction h with
  | start hw h =>
    obtain ⟨w1, w2, sl, -, -, w3, -, -, r3, -, hu⟩ := analyze_ok hw h
    obtain ⟨o, o', res, contribs, sv, hU⟩ := update_ok r3 hu
    refine ⟨o', _, hU.after, hU.drawn (by simp), ?_⟩
    rw [drawnLines_labels, hU.intQ]
  | event e hs h ih =>
    obtain ⟨o, o', res, contribs, sv, hU⟩ := update_ok hs.reachable h
    obtain ⟨o1, ls, h1, h2, h3⟩ := ih
    rw [hU.before] at h1
    cases h1
    refine ⟨o', _, hU.after, hU.drawn fun l hl => ?_, ?_⟩
    · rw [apply_lines, h2] at hl
      cases hl
      exact h3
    · rw [drawnLines_labels, hU.intQ]
  | call op hs h1 h2 ih =>
    obtain ⟨o, ls, h3, h4, h5⟩ := ih
    obtain ⟨o', ho', hq⟩ := step_intQ hs.reachable h3 (hP op h2)
    exact ⟨o', ls, ho', h4, by rw [hq]; exact h5⟩

/-- What was just drawn. -/
theorem Drawn.updated {P : Op → Prop} {id : ℕ} (hP : ∀ op, P op → ∀ b, op ≠ .setIntQ id b) {w' : World}
    {A' : Analyzer} (h : Drawn P id w' A') : ∃ w A o o' res contribs sv, Reachable w ∧
      Updated id A A' w w' o o' res contribs sv ∧
      A'.lines = some (drawnLines o.intQ (fun k => contribs.getD k (Arr.lit 0)) (sv.getD (Arr.lit 0))) := by
  cases h with
  | start hw h =>
    obtain ⟨w1, w2, sl, -, -, w3, -, -, r3, -, hu⟩ := analyze_ok hw h
    obtain ⟨o, o', res, contribs, sv, hU⟩ := update_ok r3 hu
    exact ⟨_, _, o, o', res, contribs, sv, r3, hU, hU.drawn (by simp)⟩
  | event e hs h =>
    obtain ⟨o, o', res, contribs, sv, hU⟩ := update_ok hs.reachable h
    obtain ⟨o1, ls, h1, h2, h3⟩ := hs.labels hP
    rw [hU.before] at h1
    cases h1
    refine ⟨_, _, o, o', res, contribs, sv, hs.reachable, hU, hU.drawn fun l hl => ?_⟩
    rw [apply_lines, h2] at hl
    cases hl
    exact h3

end

end RT1
