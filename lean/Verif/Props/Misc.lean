import Verif.Model.Misc
import Verif.Props.Rows
import Verif.Lemmas.DemoVec

/-!
# Analyzer widgets and docstring merging (C61, C62, C63)
-/

namespace RT1

noncomputable section
open Classical

/-! ## C61 -/

/-- An explicit start value is used as it is, with the given range. -/
theorem C61_explicit_start {kw : List (String × List SliderArg)}
    {res : List (String × SliderParams)} (h : parseParameters kw = .ok res) :
    res.map Prod.fst = kw.map Prod.fst ∧
    ∀ (j : ℕ) (key : String) (a b : ℝ) (c : SliderArg) (rest : List SliderArg),
      kw[j]? = some (key, .number a :: .number b :: c :: rest) →
      ∃ p : SliderParams, res[j]? = some (key, p) ∧ p.valmin = .number a ∧ p.valmax = .number b ∧
        p.valinit = c ∧ p.label = key := by
  induction kw generalizing res with
  | nil => cases h; simp
  | cons x l ih =>
    obtain ⟨k, v⟩ := x
    simp only [parseParameters] at h
    cases hp : parseParameter k v with
    | error e => rw [hp] at h; cases h
    | ok p =>
      rw [hp] at h
      cases hr : parseParameters l with
      | error e =>
        have h : (do let r ← parseParameters l; Except.ok ((k, p) :: r)) = Except.ok res := h
        rw [hr] at h; cases h
      | ok r =>
        have h : (do let r ← parseParameters l; Except.ok ((k, p) :: r)) = Except.ok res := h
        rw [hr] at h
        cases h
        obtain ⟨i1, i2⟩ := ih hr
        refine ⟨by simp [i1], fun j key a b c rest hj => ?_⟩
        cases j with
        | zero =>
          simp only [List.getElem?_cons_zero, Option.some.injEq, Prod.mk.injEq] at hj
          obtain ⟨rfl, rfl⟩ := hj
          simp only [parseParameter, halfRange] at hp
          cases hp
          exact ⟨_, rfl, rfl, rfl, rfl, rfl⟩
        | succ j => exact i2 j key a b c rest hj

/-- Without a start value the slider starts at half the width of the range; this is the centre
exactly if the range starts at zero. -/
theorem C61_default_partial {kw : List (String × List SliderArg)}
    {res : List (String × SliderParams)} (h : parseParameters kw = .ok res)
    {j : ℕ} {key : String} {a b : ℝ} (hj : kw[j]? = some (key, [.number a, .number b])) :
    ∃ p r, res[j]? = some (key, p) ∧ p.valmin = .number a ∧ p.valmax = .number b ∧
      p.valinit = .number r ∧ (r = (a + b) / 2 ↔ a = 0) := by
  induction kw generalizing res j with
  | nil => simp at hj
  | cons x l ih =>
    obtain ⟨k, v⟩ := x
    simp only [parseParameters] at h
    cases hp : parseParameter k v with
    | error e => rw [hp] at h; cases h
    | ok p =>
      rw [hp] at h
      have h : (do let r ← parseParameters l; Except.ok ((k, p) :: r)) = Except.ok res := h
      cases hr : parseParameters l with
      | error e => rw [hr] at h; cases h
      | ok r =>
        rw [hr] at h
        cases h
        cases j with
        | zero =>
          simp only [List.getElem?_cons_zero, Option.some.injEq, Prod.mk.injEq] at hj
          obtain ⟨rfl, rfl⟩ := hj
          simp only [parseParameter, halfRange] at hp
          cases hp
          refine ⟨_, _, rfl, rfl, rfl, rfl, ?_⟩
          constructor <;> intro h <;> linarith
        | succ j => exact ih hr hj

/-- C61 is false in general: for the range (1, 3) the slider starts at 1, not at 2; for the range
(10, 12) it starts outside of the range. -/
theorem C61_counterexample :
    (∃ p, parseParameters [("omega", [.number 1, .number 3])] = .ok [("omega", p)] ∧
      p.valinit = .number 1 ∧ (1 : ℝ) ≠ (1 + 3) / 2) ∧
    ∃ p r, parseParameters [("tau", [.number 10, .number 12])] = .ok [("tau", p)] ∧
      p.valinit = .number r ∧ ¬ (10 ≤ r) := by
  refine ⟨⟨⟨_, _, .number ((3 - 1) / 2), _⟩, rfl, ?_, by norm_num⟩,
    ⟨⟨_, _, .number ((12 - 10) / 2), _⟩, _, rfl, rfl, by norm_num⟩⟩
  show SliderArg.number _ = _
  norm_num

example : ∃ res, parseParameters [("omega", [.number 0, .number 1, .number (1 / 4)]),
    ("tau", [.number 0, .number 2])] = .ok res := ⟨_, rfl⟩

/-! ## C62 -/

/-- The meaning of the characters of the contributions string: the row of `calc()`. -/
inductive Shows : Char → ℕ → Prop
  | total : Shows 't' 0
  | surface : Shows 's' 1
  | volume : Shows 'v' 2
  | interaction : Shows 'i' 3

theorem contribIndex_shows {c : Char} {k : ℕ} (h : contribIndex c = .ok k) : Shows c k := by
  unfold contribIndex at h
  split at h <;> cases h <;> constructor

theorem mapM_get {α β : Type} {f : α → Py β} {l : List α} {r : List β} (h : l.mapM f = .ok r) :
    r.length = l.length ∧ ∀ (j : ℕ) (a : α), l[j]? = some a → ∃ y, r[j]? = some y ∧ f a = .ok y := by
  induction l generalizing r with
  | nil => rw [List.mapM_nil] at h; cases h; simp
  | cons x l ih =>
    rw [List.mapM_cons] at h
    cases hx : f x with
    | error e => rw [hx] at h; cases h
    | ok y =>
      rw [hx] at h
      have h : (do let ys ← l.mapM f; pure (y :: ys)) = Except.ok r := h
      cases hl : l.mapM f with
      | error e => rw [hl] at h; cases h
      | ok ys =>
        rw [hl] at h
        cases h
        obtain ⟨h1, h2⟩ := ih hl
        refine ⟨by simp [h1], fun j a hj => ?_⟩
        cases j with
        | zero =>
          simp only [List.getElem?_cons_zero, Option.some.injEq] at hj
          subst hj
          exact ⟨y, rfl, hx⟩
        | succ j => exact h2 j a hj

theorem rowOf_ok {x y : Arr} {k : ℕ} (h : rowOf x k = .ok y) :
    (∃ n, x.shape = y.shape ++ [n] ∧ k < n) ∧ ∀ idx, y.get idx = x.get (idx ++ [k]) := by
  unfold rowOf at h
  cases hs : x.shape with
  | nil => rw [hs] at h; cases h
  | cons a t =>
    rw [hs] at h
    by_cases hk : k < (a :: t).getLastD 0
    · simp only [hk, if_true] at h
      cases h
      refine ⟨⟨(a :: t).getLastD 0, ?_, hk⟩, fun idx => rfl⟩
      show a :: t = (a :: t).dropLast ++ [_]
      rw [List.getLastD_eq_getLast?]
      rw [List.getLast?_eq_some_getLast (by simp)]
      exact (List.dropLast_append_getLast (by simp)).symm
    · simp only [hk, if_false] at h
      cases h

/-- `R.int_Q = "i" in contributions`. -/
def withoutI (id : ℕ) (cs : List Char) (w : World) : World :=
  (step (.setIntQ id (decide ('i' ∈ cs))) w).2

theorem shownRows_ok {w : World} {id : ℕ} {cs : List Char} {rows : List Arr} {w' : World}
    (h : shownRows id cs w = (.ok rows, w')) : ∃ o idx res w1, w.objs id = some o ∧
      useContribs cs = .ok idx ∧ calcOp id [] (withoutI id cs w) = (.ok res, w1) ∧
      idx.mapM (rowOf res) = .ok rows := by
  unfold shownRows at h
  cases hu : useContribs cs with
  | error e => rw [hu] at h; cases h
  | ok idx =>
    rw [hu, bind_ok (show (liftPy (Except.ok idx) : M _) w = (.ok idx, w) from rfl)] at h
    cases ho : w.objs id with
    | none =>
      have : withIntQ id cs (calcOp id []) w = (.error .attributeError, w) := by
        unfold withIntQ
        exact bind_error (by unfold getObj; rw [ho])
      rw [bind_error this] at h
      cases h
    | some o =>
      have e : withIntQ id cs (calcOp id []) w = ((calcOp id [] (withoutI id cs w)).1,
          ((modObj id fun o' => { o' with intQ := o.intQ }) (calcOp id [] (withoutI id cs w)).2).2) := by
        unfold withIntQ
        rw [bind_ok (show getObj id w = (.ok o, w) by unfold getObj; rw [ho])]
        rfl
      cases hc : calcOp id [] (withoutI id cs w) with
      | mk r w1 =>
        rw [hc] at e
        cases r with
        | error er => rw [bind_error e] at h; cases h
        | ok res =>
          rw [bind_ok e] at h
          refine ⟨o, idx, res, w1, rfl, rfl, rfl, ?_⟩
          cases hm : idx.mapM (rowOf res) with
          | error er => rw [hm] at h; cases h
          | ok rr => rw [hm] at h; cases h; rfl

/-- The surfaces that are drawn for the contributions string are, in its order, the rows with the
meaning of its characters of what `calc()` returns with `int_Q = "i" in contributions`. -/
theorem C62_rows {w : World} {id : ℕ} {cs : List Char} {rows : List Arr} {w' : World}
    (h : shownRows id cs w = (.ok rows, w')) : ∃ res,
      (calcOp id [] (step (.setIntQ id (decide ('i' ∈ cs))) w).2).1 = .ok res ∧
      rows.length = cs.length ∧ ∀ (j : ℕ) (c : Char), cs[j]? = some c →
        ∃ (k : ℕ) (row : Arr), Shows c k ∧ rows[j]? = some row ∧
        (∃ n, res.shape = row.shape ++ [n] ∧ k < n) ∧ ∀ idx, row.get idx = res.get (idx ++ [k]) := by
  obtain ⟨o, ks, res, w1, -, hu, hc, hm⟩ := shownRows_ok h
  obtain ⟨u1, u2⟩ := mapM_get hu
  obtain ⟨m1, m2⟩ := mapM_get hm
  refine ⟨res, by rw [show (step (.setIntQ id (decide ('i' ∈ cs))) w).2 = withoutI id cs w from rfl, hc],
    m1.trans u1, fun j c hj => ?_⟩
  obtain ⟨k, hk, hck⟩ := u2 j c hj
  obtain ⟨row, hrow, hr⟩ := m2 j k hk
  obtain ⟨a, b⟩ := rowOf_ok hr
  exact ⟨k, row, contribIndex_shows hck, hrow, a, b⟩

/-- A character with no meaning is rejected with ValueError before anything is evaluated. -/
theorem C62_unknown {w : World} {id : ℕ} {cs : List Char} {c : Char} (hc : c ∈ cs)
    (h : ∀ k, ¬ Shows c k) : shownRows id cs w = (.error .valueError, w) := by
  have key : useContribs cs = .error .valueError := by
    unfold useContribs
    induction cs with
    | nil => cases hc
    | cons x l ih =>
      rw [List.mapM_cons]
      rcases List.mem_cons.1 hc with rfl | hc
      · have : contribIndex c = .error .valueError := by
          unfold contribIndex
          split
          · exact absurd Shows.total (h 0)
          · exact absurd Shows.surface (h 1)
          · exact absurd Shows.volume (h 2)
          · exact absurd Shows.interaction (h 3)
          · rfl
        rw [this]; rfl
      · rw [ih hc]
        unfold contribIndex
        split <;> rfl
  unfold shownRows
  rw [key]
  rfl

/-- `int_Q` has its previous value afterwards, whether the evaluation succeeds or raises. -/
theorem C62_restored {w : World} (hw : ReachableAny w) {id : ℕ} {o : Obj} (ho : w.objs id = some o)
    (cs : List Char) : ∃ o', (shownRows id cs w).2.objs id = some o' ∧ o'.intQ = o.intQ ∧
      o'.sig0 = o.sig0 ∧ o'.dB = o.dB ∧ o'.I0 = o.I0 := by
  unfold shownRows
  cases hu : useContribs cs with
  | error e => exact ⟨o, ho, rfl, rfl, rfl, rfl⟩
  | ok idx =>
    rw [bind_ok (show (liftPy (Except.ok idx) : M _) w = (.ok idx, w) from rfl)]
    have e : withIntQ id cs (calcOp id []) w = ((calcOp id [] (withoutI id cs w)).1,
        ((modObj id fun o' => { o' with intQ := o.intQ }) (calcOp id [] (withoutI id cs w)).2).2) := by
      unfold withIntQ
      rw [bind_ok (show getObj id w = (.ok o, w) by unfold getObj; rw [ho])]
      rfl
    have h1 : (withoutI id cs w).objs id = some { o with intQ := decide ('i' ∈ cs) } :=
      modObj_get ho _
    have hn : NextOK (withoutI id cs w) := (step_other hw.next _).1
    have h2 := step_core hn h1 (op := .evalCalc id []) rfl
    obtain ⟨o2, ho2, hcore⟩ := h2
    have e2 : (step (.evalCalc id []) (withoutI id cs w)).2 = (calcOp id [] (withoutI id cs w)).2 :=
      bind_pure_state _ _
    rw [e2] at ho2
    have h3 := modObj_get ho2 (fun o' => { o' with intQ := o.intQ })
    have hs : o2.sig0 = o.sig0 := by have := congrArg Obj.sig0 hcore; exact this
    have hd : o2.dB = o.dB := by have := congrArg Obj.dB hcore; exact this
    have hi : o2.I0 = o.I0 := by have := congrArg Obj.I0 hcore; exact this
    cases hc : calcOp id [] (withoutI id cs w) with
    | mk r w1 =>
      rw [hc] at e h3
      cases r with
      | error er =>
        rw [bind_error e]
        exact ⟨_, h3, rfl, hs, hd, hi⟩
      | ok res =>
        rw [bind_ok e]
        have key : ∀ w2 : World, ((liftPy (idx.mapM (rowOf res)) : M (List Arr)) w2).2 = w2 := by
          intro w2
          cases idx.mapM (rowOf res) <;> rfl
        rw [key]
        exact ⟨_, h3, rfl, hs, hd, hi⟩

theorem parts_intQ {b : Backend} {o : Obj} {q : Bool} {Is Iv Ii z Is' Iv' Ii' z' : Arr}
    (h : Parts b o Is Iv Ii z) (h' : Parts b { o with intQ := q } Is' Iv' Ii' z') :
    Is = Is' ∧ Iv = Iv' := by
  have e : (Fresh.acc0 b { o with intQ := q }).surface = (Fresh.acc0 b o).surface := rfl
  have ev : (Fresh.acc0 b { o with intQ := q }).volume = (Fresh.acc0 b o).volume := rfl
  have ep : Fresh.par b { o with intQ := q } .tau = Fresh.par b o .tau := rfl
  have hs : Is = Is' := by
    have := h'.surf
    rw [e, h.surf] at this
    cases this; rfl
  subst hs
  refine ⟨rfl, ?_⟩
  obtain ⟨t, ht, h1⟩ := h.tau
  obtain ⟨t', ht', h1'⟩ := h'.tau
  rw [ep, ht] at ht'
  cases ht'
  by_cases hc : t.shape = [] ∧ ¬ (t.get []).isPos = true
  · rw [if_pos hc] at h1 h1'
    rw [h1.1, h1'.1]
  · rw [if_neg hc] at h1 h1'
    have := h1'.1
    rw [ev, h1.1] at this
    cases this; rfl

/-- The drawn rows and the rows of `calc()` with the object's own `int_Q` (linear units): surface
and volume agree, and so does the total if `"i"` is requested exactly if the object evaluates the
interaction; otherwise (`int_Q` set, `"i"` not requested) the drawn total lacks the interaction
row. -/
theorem C62_total_partial {w : World} (hw : Reachable w) {id : ℕ} {cs : List Char} {rows : List Arr}
    {w' : World} (h : shownRows id cs w = (.ok rows, w')) {o : Obj} (ho : w.objs id = some o)
    {own : Arr} {w'' : World} (hc : calcOp id [] w = (.ok own, w'')) :
    ∃ S n, own.shape = S ++ [n] ∧ ∀ (j : ℕ) (c : Char) (k : ℕ), cs[j]? = some c → Shows c k →
      ∃ row : Arr, rows[j]? = some row ∧ row.shape = S ∧
        (k = 1 ∨ k = 2 ∨ (k = 0 ∧ (o.intQ = true ↔ 'i' ∈ cs)) →
          ∀ idx, Arr.Valid S idx → row.get idx = own.get (idx ++ [k])) ∧
        (k = 0 → o.dB = false → o.intQ = true → 'i' ∉ cs →
          ∀ idx, Arr.Valid S idx → ∀ s v i,
          own.get (idx ++ [1]) = XR.fin s → own.get (idx ++ [2]) = XR.fin v →
          own.get (idx ++ [3]) = XR.fin i →
          row.get idx = XR.fin (s + v) ∧ own.get (idx ++ [0]) = XR.fin (s + v + i)) := by
  obtain ⟨o0, ks, res, w1, ho', hu, hcalc, hm⟩ := shownRows_ok h
  obtain ⟨u1, u2⟩ := mapM_get hu
  obtain ⟨m1, m2⟩ := mapM_get hm
  obtain ⟨oa, ob, hA⟩ := calc_callOK hw hc
  have hw1 : Reachable (withoutI id cs w) := Reachable.step hw (op := .setIntQ id _) trivial
  obtain ⟨oc, od, hB⟩ := calc_callOK hw1 hcalc
  have e1 := hA.before
  rw [ho] at e1
  cases e1
  have e2 := hB.before
  rw [show (withoutI id cs w).objs id = some { o with intQ := decide ('i' ∈ cs) } from
    modObj_get ho _] at e2
  cases e2
  obtain ⟨Is, Iv, Ii, hp⟩ := calc_parts hA.ok
  obtain ⟨Is', Iv', Ii', hp'⟩ := calc_parts hB.ok
  have eb : (withoutI id cs w).backend = w.backend := rfl
  rw [eb] at hp'
  have eo : Fresh.update { o with intQ := decide ('i' ∈ cs) } [] =
      { Fresh.update o [] with intQ := decide ('i' ∈ cs) } := rfl
  rw [eo] at hp'
  obtain ⟨rfl, rfl⟩ := parts_intQ hp hp'
  obtain ⟨r1, r2, r3, r4⟩ := hp.rows
  obtain ⟨s1, s2, s3, s4⟩ := hp'.rows
  refine ⟨Is.shape, _, r1, fun j c k hj hs => ?_⟩
  obtain ⟨k', hk', hck⟩ := u2 j c hj
  obtain ⟨row, hrow, hr⟩ := m2 j k' hk'
  obtain ⟨⟨n, a1, a2⟩, b⟩ := rowOf_ok hr
  have hkk : k' = k := by
    have := contribIndex_shows hck
    cases hs <;> cases this <;> rfl
  subst hkk
  have hsh : row.shape = Is.shape ∧ nrows (decide ('i' ∈ cs)) = n := by
    have e : Is.shape ++ [nrows (decide ('i' ∈ cs))] = row.shape ++ [n] := s1.symm.trans a1
    have e' := List.append_inj' e rfl
    refine ⟨e'.1.symm, ?_⟩
    simpa using e'.2
  obtain ⟨hsh, rfl⟩ := hsh
  have hX : ∀ idx, XSite.of w.backend { Fresh.update o [] with intQ := decide ('i' ∈ cs) } idx =
    XSite.of w.backend (Fresh.update o []) idx := fun _ => rfl
  have hq : (Fresh.update o []).intQ = o.intQ := rfl
  refine ⟨row, hrow, hsh, fun hk idx hv => ?_, fun hk hd ho hi idx hv s v i es ev ei => ?_⟩
  · rw [b idx, s4 k' a2 idx hv, hX]
    have hk2 : k' < nrows o.intQ := by unfold nrows; split_ifs <;> omega
    rw [r4 k' hk2 idx hv]
    show XSite.convert _ _ _ _ = XSite.convert _ _ _ _
    congr 1
    rcases hk with rfl | rfl | ⟨rfl, hk⟩
    · rfl
    · rfl
    · simp only [rowVal, hq]
      by_cases hi : 'i' ∈ cs
      · have ho := hk.2 hi
        rw [ho, if_pos rfl, if_pos (by simp [hi])]
        have p1 := hp.tau
        have p2 := hp'.tau
        obtain ⟨t, ht, h1⟩ := p1
        obtain ⟨t', ht', h1'⟩ := p2
        have ep : Fresh.par w.backend { Fresh.update o [] with intQ := decide ('i' ∈ cs) } .tau =
          Fresh.par w.backend (Fresh.update o []) .tau := rfl
        rw [ep, ht] at ht'
        cases ht'
        have : Ii = Ii' := by
          by_cases hc : t.shape = [] ∧ ¬ (t.get []).isPos = true
          · rw [if_pos hc] at h1 h1'
            rw [h1.2, h1'.2]
          · rw [if_neg hc] at h1 h1'
            obtain ⟨I, i1, i2⟩ := h1.2 (by rw [hq]; exact ho)
            obtain ⟨I', j1, j2⟩ := h1'.2 (by simp [hi])
            have hobj : ({ Fresh.update o [] with intQ := decide ('i' ∈ cs) } : Obj) =
                Fresh.update o [] := by
              have : decide ('i' ∈ cs) = (Fresh.update o []).intQ := by rw [hq, ho]; simp [hi]
              rw [this]
            rw [hobj] at j1 j2
            rw [i1] at j1
            cases j1
            by_cases ht0 : t.shape = []
            · rw [if_pos ht0] at i2 j2
              rw [i2, j2]
            · rw [if_neg ht0] at i2 j2
              rw [i2] at j2
              cases j2; rfl
        rw [this]
      · have ho : ¬ o.intQ = true := fun h => hi (hk.1 h)
        rw [if_neg ho, if_neg (by simp [hi])]
  · subst hk
    obtain ⟨S', q1, q2⟩ := C20_total_linear hw hc (o := ob) hA.after (by rw [← hA.dB]; exact hd)
    have hqo : ob.intQ = true := by rw [← hA.intQ]; exact ho
    have hS' : S' = Is.shape := by
      have e := q1.symm.trans r1
      exact (List.append_inj' e rfl).1
    subst hS'
    refine ⟨?_, (q2 idx hv s v es ev).2 hqo i ei⟩
    obtain ⟨S2, q3, q4⟩ := C20_total_linear hw1 hcalc (o := od) hB.after (by rw [← hB.dB]; exact hd)
    have hqd : od.intQ = false := by
      rw [← hB.intQ]
      show decide ('i' ∈ cs) = false
      simp [hi]
    have hS2 : S2 = Is.shape := by
      have e := q3.symm.trans s1
      exact (List.append_inj' e rfl).1
    subst hS2
    rw [b idx]
    refine (q4 idx hv s v ?_ ?_).1 hqd
    · rw [← es, s4 1 (by unfold nrows; split_ifs <;> omega) idx hv,
        r4 1 (by unfold nrows; split_ifs <;> omega) idx hv]
      rfl
    · rw [← ev, s4 2 (by unfold nrows; split_ifs <;> omega) idx hv,
        r4 2 (by unfold nrows; split_ifs <;> omega) idx hv]
      rfl

example : ∃ w id rows w', Reachable w ∧ shownRows id "tsv".toList w = (.ok rows, w') ∧
    rows.length = 3 := by
  obtain ⟨arr, w', h, hs⟩ := demo_calc .sympy exV_plain exS_plain false false 1 (Real.pi / 3) 0 1 1 1 0
  have hr := demo_reachable .sympy exV exS false false false (Arr.lit 1) (Arr.lit (Real.pi / 3))
    (Arr.lit 0) (demoKw 1 1 1 0)
  have ho := demo_objs .sympy exV exS false false false (Arr.lit 1) (Arr.lit (Real.pi / 3))
    (Arr.lit 0) (demoKw 1 1 1 0)
  have hq : (demoObj exV exS false false false (Arr.lit 1) (Arr.lit (Real.pi / 3))
    (Arr.lit 0) (demoKw 1 1 1 0)).intQ = false := rfl
  generalize demoObj exV exS false false false (Arr.lit 1) (Arr.lit (Real.pi / 3))
    (Arr.lit 0) (demoKw 1 1 1 0) = o at ho hq
  generalize demoW .sympy exV exS false false false (Arr.lit 1) (Arr.lit (Real.pi / 3))
    (Arr.lit 0) (demoKw 1 1 1 0) = w at h hr ho
  have hw : withoutI 0 "tsv".toList w = w := by
    show { w with objs := Function.update w.objs 0 ((w.objs 0).map _) } = w
    rw [ho]
    have : ({ o with intQ := decide ('i' ∈ "tsv".toList) } : Obj) = o := by
      have e : decide ('i' ∈ "tsv".toList) = o.intQ := by rw [hq]; decide
      rw [e]
    rw [Option.map_some, this, ← ho, Function.update_eq_self]
  have hrow : ∀ k < 3, rowOf arr k = .ok ⟨[1], fun i => arr.get (i ++ [k])⟩ := by
    intro k hk
    unfold rowOf
    rw [hs]
    simp [hk]
  have e : withIntQ 0 "tsv".toList (calcOp 0 []) w = (.ok arr,
      ((modObj 0 fun o' => { o' with intQ := o.intQ }) w').2) := by
    unfold withIntQ
    rw [bind_ok (show getObj 0 w = (.ok o, w) by unfold getObj; rw [ho])]
    show ((calcOp 0 [] (withoutI 0 "tsv".toList w)).1, ((modObj 0 fun o' => { o' with intQ := o.intQ })
      (calcOp 0 [] (withoutI 0 "tsv".toList w)).2).2) = _
    rw [hw, h]
  have hu : useContribs "tsv".toList = .ok [0, 1, 2] := rfl
  obtain ⟨rows, hm, hl⟩ : ∃ rows, [0, 1, 2].mapM (rowOf arr) = .ok rows ∧ rows.length = 3 := by
    simp only [List.mapM_cons, List.mapM_nil, hrow 0 (by norm_num), hrow 1 (by norm_num),
      hrow 2 (by norm_num)]
    exact ⟨_, rfl, rfl⟩
  refine ⟨w, 0, rows, ((modObj 0 fun o' => { o' with intQ := o.intQ }) w').2, hr, ?_, hl⟩
  unfold shownRows
  rw [hu, bind_ok (show (liftPy (Except.ok [0, 1, 2]) : M _) w = (.ok [0, 1, 2], w) from rfl),
    bind_ok e, hm]
  rfl

/-! ## C63 -/

theorem mergeOne_spec (f own : List (String × String)) : ∃ added,
    f.foldl (fun comb p => if comb.any (fun i => i.1 == p.1) then comb else comb ++ [p]) own
      = own ++ added ∧
    added.Sublist f ∧ (added.map Prod.fst).Nodup ∧
    (∀ p ∈ added, p.1 ∉ own.map Prod.fst) ∧
    (∀ p ∈ added, ∃ l r, f = l ++ p :: r ∧ p.1 ∉ l.map Prod.fst) ∧
    ∀ n ∈ f.map Prod.fst, n ∈ (own ++ added).map Prod.fst := by
  induction f generalizing own with
  | nil => exact ⟨[], by simp⟩
  | cons p f ih =>
    rw [List.foldl_cons]
    by_cases hp : own.any (fun i => i.1 == p.1) = true
    · rw [if_pos hp]
      have hmem : p.1 ∈ own.map Prod.fst := by
        simp only [List.any_eq_true, beq_iff_eq] at hp
        obtain ⟨q, hq, e⟩ := hp
        exact List.mem_map.2 ⟨q, hq, e⟩
      obtain ⟨added, h1, h2, h3, h4, h5, h6⟩ := ih own
      refine ⟨added, h1, h2.trans (List.sublist_cons_self _ _), h3, h4, fun q hq => ?_, fun n hn => ?_⟩
      · obtain ⟨l, r, e, hl⟩ := h5 q hq
        refine ⟨p :: l, r, by rw [e]; rfl, ?_⟩
        rw [List.map_cons, List.mem_cons]
        rintro (h | h)
        · exact h4 q hq (h ▸ hmem)
        · exact hl h
      · rw [List.map_cons, List.mem_cons] at hn
        rcases hn with rfl | hn
        · rw [List.map_append]; exact List.mem_append_left _ hmem
        · exact h6 n hn
    · rw [if_neg hp]
      have hmem : p.1 ∉ own.map Prod.fst := by
        intro h
        obtain ⟨q, hq, e⟩ := List.mem_map.1 h
        exact hp (List.any_eq_true.2 ⟨q, hq, by simpa using e⟩)
      obtain ⟨added, h1, h2, h3, h4, h5, h6⟩ := ih (own ++ [p])
      refine ⟨p :: added, by rw [h1]; simp, h2.cons_cons p, ?_, ?_, ?_, ?_⟩
      · rw [List.map_cons, List.nodup_cons]
        refine ⟨fun h => ?_, h3⟩
        obtain ⟨q, hq, e⟩ := List.mem_map.1 h
        exact h4 q hq (by rw [List.map_append]; exact List.mem_append_right _ (by simp [e]))
      · intro q hq
        rcases List.mem_cons.1 hq with rfl | hq
        · exact hmem
        · intro h
          exact h4 q hq (by rw [List.map_append]; exact List.mem_append_left _ h)
      · intro q hq
        rcases List.mem_cons.1 hq with rfl | hq
        · exact ⟨[], f, rfl, by simp⟩
        · obtain ⟨l, r, e, hl⟩ := h5 q hq
          refine ⟨p :: l, r, by rw [e]; rfl, ?_⟩
          rw [List.map_cons, List.mem_cons]
          rintro (h | h)
          · exact h4 q hq (by rw [List.map_append]; exact List.mem_append_right _ (by simp [h]))
          · exact hl h
      · intro n hn
        rw [List.map_cons, List.mem_cons] at hn
        rcases hn with rfl | hn
        · simp
        · have := h6 n hn
          simpa [List.append_assoc] using this

/-- The parameters of the merged docstring are those of the own docstring, unchanged and in order,
followed by further parameters of the other docstrings: the first description of every name that is
not documented yet, each name once. -/
theorem C63_merge (own : List (String × String)) (bases : List (List (String × String))) :
    ∃ added, mergeParams own bases = own ++ added ∧
      (added.map Prod.fst).Nodup ∧ added.Sublist bases.flatten ∧
      (∀ n, n ∈ added.map Prod.fst ↔
        n ∈ bases.flatten.map Prod.fst ∧ n ∉ own.map Prod.fst) ∧
      ∀ p ∈ added, ∃ l r, bases.flatten = l ++ p :: r ∧ p.1 ∉ l.map Prod.fst := by
  induction bases generalizing own with
  | nil => exact ⟨[], by simp [mergeParams]⟩
  | cons f fs ih =>
    obtain ⟨a1, h1, h2, h3, h4, h5, h6⟩ := mergeOne_spec f own
    obtain ⟨a2, g1, g2, g3, g4, g5⟩ := ih (own ++ a1)
    refine ⟨a1 ++ a2, ?_, ?_, ?_, ?_, ?_⟩
    · rw [mergeParams, h1, g1, List.append_assoc]
    · rw [List.map_append, List.nodup_append]
      refine ⟨h3, g2, fun a ha b hb e => ?_⟩
      subst e
      exact ((g4 a).1 hb).2 (by rw [List.map_append]; exact List.mem_append_right _ ha)
    · rw [List.flatten_cons]; exact h2.append g3
    · intro n
      rw [List.map_append, List.mem_append, g4 n, List.flatten_cons, List.map_append,
        List.mem_append, List.map_append, List.mem_append]
      constructor
      · rintro (h | ⟨h, h'⟩)
        · obtain ⟨p, hp, rfl⟩ := List.mem_map.1 h
          exact ⟨.inl (List.mem_map.2 ⟨p, h2.subset hp, rfl⟩), h4 p hp⟩
        · exact ⟨.inr h, fun h => h' (.inl h)⟩
      · rintro ⟨h | h, h'⟩
        · have := h6 n h
          rw [List.map_append, List.mem_append] at this
          exact .inl (this.resolve_left h')
        · by_cases ha : n ∈ a1.map Prod.fst
          · exact .inl ha
          · exact .inr ⟨h, by rintro (h | h) <;> contradiction⟩
    · intro p hp
      rw [List.flatten_cons]
      rcases List.mem_append.1 hp with hp | hp
      · obtain ⟨l, r, e, hl⟩ := h5 p hp
        exact ⟨l, r ++ fs.flatten, by rw [e]; simp, hl⟩
      · obtain ⟨l, r, e, hl⟩ := g5 p hp
        refine ⟨f ++ l, r, by rw [e]; simp, ?_⟩
        rw [List.map_append, List.mem_append]
        rintro (h | h)
        · have h7 := h6 _ h
          have := (g4 p.1).1 (List.mem_map.2 ⟨p, hp, rfl⟩)
          exact this.2 h7
        · exact hl h

example : mergeParams [("t", "own")] [[("t", "base"), ("N", "base")], [("N", "other"), ("a", "other")]]
    = [("t", "own"), ("N", "base"), ("a", "other")] := by decide

end

end RT1
