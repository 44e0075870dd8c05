import Verif.Lemmas.OrderAcc
import Verif.Lemmas.Steps

/-! Calls on records whose parameters are listed in another order (C84). -/

namespace RT1

noncomputable section
open Classical

theorem okmap {α β : Type} {x y : Py α} (h : x = y) (f : α → β) : x.map f = y.map f := by rw [h]

namespace Record.Same

theorem update {r : Record} {d kw kw' : Dict} (h : Dict.Same r.params d) (hk : Dict.Same kw kw') :
    Dict.Same (r.update kw).params (Record.update { r with params := d } kw').params := by
  have key : ∀ e : Dict, (e = [] ∨ (e = [("bsf", Arr.lit 0)] ∧ "bsf" ∉ kw.keys)) →
      Dict.Same (Dict.update r.params ((kw ++ e).map fun p => (p.1, p.2.atleast1d)))
        (Dict.update d ((kw' ++ e).map fun p => (p.1, p.2.atleast1d))) := by
    intro e he
    refine h.update (Dict.Same.of_perm ((hk.perm.append_right e).map _) ?_)
    rw [Dict.keys_map_snd _ Arr.atleast1d]
    rcases he with rfl | ⟨rfl, he⟩
    · rw [List.append_nil]; exact hk.left
    · show (List.map Prod.fst (kw ++ [("bsf", Arr.lit 0)])).Nodup
      rw [List.map_append, List.nodup_append]
      refine ⟨hk.left, by simp, ?_⟩
      intro a ha b hb
      simp at hb
      subst hb
      rintro rfl
      exact he ha
  have hc : ("bsf" ∈ r.params.keys ∨ "bsf" ∈ kw.keys) ↔ ("bsf" ∈ d.keys ∨ "bsf" ∈ kw'.keys) := by
    rw [h.mem, hk.mem]
  unfold Record.update
  simp only
  split
  · by_cases hb : "bsf" ∈ r.params.keys ∨ "bsf" ∈ kw.keys
    · rw [if_pos hb, if_pos (hc.1 hb)]
      exact key [] (Or.inl rfl)
    · rw [if_neg hb, if_neg (fun h => hb (hc.2 h))]
      exact key _ (Or.inr ⟨rfl, fun h => hb (Or.inr h)⟩)
  · exact key [] (Or.inl rfl)

theorem updated {r r' : Record} (h : r.Same r') {kw kw' : Dict} (hk : Dict.Same kw kw') :
    (r.update kw).Same (r'.update kw') := by
  obtain ⟨d, rfl, h⟩ := h
  exact ⟨_, rfl, update h hk⟩

theorem fixAll {l : List (AngN × Option PyArg)} (d : Dict) : ∀ r : Record,
    Record.fixAll { r with params := d } l = ((r.fixAll l).1, { (r.fixAll l).2 with params := d }) := by
  induction l with
  | nil => intro r; rfl
  | cons p l ih =>
    intro r
    obtain ⟨n, a⟩ := p
    cases a with
    | none => exact ih r
    | some a =>
      cases a with
      | other => rfl
      | number x => exact ih (r.fix n x)

theorem fixAll_params (l : List (AngN × Option PyArg)) : ∀ r : Record, (r.fixAll l).2.params = r.params := by
  induction l with
  | nil => intro r; rfl
  | cons p l ih =>
    intro r
    obtain ⟨n, a⟩ := p
    cases a with
    | none => exact ih r
    | some a =>
      cases a with
      | other => rfl
      | number x => exact ih (r.fix n x)

theorem assign {l : List (String × Option Arr)} (d : Dict) : ∀ r : Record,
    Record.assign { r with params := d } l = ((r.assign l).1, { (r.assign l).2 with params := d }) := by
  induction l with
  | nil => intro r; rfl
  | cons p l ih =>
    intro r
    obtain ⟨k, v⟩ := p
    unfold Record.assign
    cases AngN.ofName k with
    | none => exact ih r
    | some n =>
      cases v with
      | none => rfl
      | some a =>
        by_cases hf : n ∈ r.fixed
        · simp only [if_pos hf]
        · simp only [if_neg hf]
          exact ih { r with ang := Function.update r.ang n (some a.atleast1d) }

theorem assign_params (l : List (String × Option Arr)) : ∀ r : Record, (r.assign l).2.params = r.params := by
  induction l with
  | nil => intro r; rfl
  | cons p l ih =>
    intro r
    obtain ⟨k, v⟩ := p
    unfold Record.assign
    cases AngN.ofName k with
    | none => exact ih r
    | some n =>
      cases v with
      | none => rfl
      | some a =>
        by_cases hf : n ∈ r.fixed
        · simp only [if_pos hf]
        · simp only [if_neg hf]
          exact ih { r with ang := Function.update r.ang n (some a.atleast1d) }

theorem accR {b : Backend} {r r' : Record} (h : r.Same r') : AccSame (r.acc b) (r'.acc b) := by
  obtain ⟨d, rfl, h⟩ := h
  exact Record.Same.acc h _ _

theorem surface {b : Backend} {r r' : Record} (h : r.Same r') : r.surface b = r'.surface b := by
  unfold Record.surface
  rw [h.accR.surface]
  simp only [h.accR.convert]

theorem volume {b : Backend} {r r' : Record} (h : r.Same r') : r.volume b = r'.volume b := by
  unfold Record.volume
  rw [h.accR.volume]
  simp only [h.accR.convert]

theorem surfaceVolume {b : Backend} {r r' : Record} (h : r.Same r') : r.surfaceVolume b = r'.surfaceVolume b := by
  unfold Record.surfaceVolume
  rw [h.accR.surface, h.accR.volume]
  simp only [h.accR.convert]

theorem total {b : Backend} {r r' : Record} (h : r.Same r') (hq : r.intQ = false) : r.total b = r'.total b :=
  (h.accR (b := b)).calcTry (Or.inr (congrArg Except.ok hq))

theorem columns {d d' : Dict} (h : ∀ k, d.get? k = d'.get? k) (l : List (String × Arr)) : Jac.columns d l = Jac.columns d' l := by
  have : Jac.allRows d l = Jac.allRows d' l := by
    induction l with
    | nil => rfl
    | cons p l ih =>
      obtain ⟨k, j⟩ := p
      unfold Jac.allRows
      rw [h, ih]
  unfold Jac.columns
  rw [this]

theorem jacobian {b : Backend} {r r' : Record} (h : r.Same r') {ks : List String}
    (hk : ∀ k ∈ ks, k ∈ ["omega", "tau", "NormBRDF", "bsf"]) (f : String) : r.jacobian b ks f = r'.jacobian b ks f := by
  unfold Record.jacobian
  rw [(h.accR (b := b)).jacList hk]
  obtain ⟨d, rfl, h⟩ := h
  simp only [columns h.get]

theorem check {r r' : Record} (h : r.Same r') (l : List String) : r.check l = r'.check l := by
  obtain ⟨d, rfl, h⟩ := h
  have hm : ∀ l : List String, (l.filter fun k => decide (k ∉ r.params.keys)) = l.filter fun k => decide (k ∉ d.keys) := by
    intro l
    refine List.filter_congr fun k _ => ?_
    rw [decide_eq_decide, h.mem]
  unfold Record.check
  simp only [hm]
  rfl

theorem param {b : Backend} {r r' : Record} (h : r.Same r') (p : PName) : r.param b p = r'.param b p := by
  obtain ⟨d, rfl, h⟩ := h
  exact par_same h p

/-- A call with the keywords in another order: the settings. -/
theorem actS {b : Backend} {r r' : Record} (h : r.Same r') {x y : Op} (ha : x.Alike y) :
    (r.act b x).2.Same (r'.act b y).2 := by
  have up : ∀ {kw kw' : Dict}, kw.Perm kw' → (kw.map Prod.fst).Nodup → (r.update kw).Same (r'.update kw') :=
    fun hp hn => h.updated (Dict.Same.of_perm hp hn)
  have refl : ∀ kw : Dict, (r.update kw).Same (r'.update kw) := by
    intro kw
    obtain ⟨d, rfl, h⟩ := h
    refine ⟨_, rfl, ?_⟩
    have hc : ("bsf" ∈ r.params.keys ∨ "bsf" ∈ kw.keys) ↔ ("bsf" ∈ d.keys ∨ "bsf" ∈ kw.keys) := by rw [h.mem]
    have key : ∀ e : Dict, Dict.Same (r.params.update e) (d.update e) := by
      intro e
      refine ⟨Dict.nodup_update h.left _, Dict.nodup_update h.right _, fun k => ?_⟩
      rw [Dict.get?_update, Dict.get?_update, h.get]
    unfold Record.update
    simp only [hc]
    exact key _
  cases ha with
  | updateParams id hp hn => exact up hp hn
  | evalCalc id hp hn => exact up hp hn
  | surface id hp hn => exact up hp hn
  | volume id hp hn => exact up hp hn
  | interaction id hp hn => exact up hp hn
  | refl _ =>
    cases x with
    | updateParams id kw => exact refl kw
    | evalCalc id kw => exact refl kw
    | surface id kw => exact refl kw
    | volume id kw => exact refl kw
    | interaction id kw => exact refl kw
    | setMonostatic id p =>
      obtain ⟨d, rfl, h⟩ := h
      cases p with
      | none => exact ⟨d, rfl, h⟩
      | some p => cases p <;> exact ⟨d, rfl, h⟩
    | setBistatic id t u p q =>
      obtain ⟨d, rfl, h⟩ := h
      refine ⟨d, ?_, ?_⟩
      · show (Record.selectBi { r with params := d } t u p q).2 = { (r.selectBi t u p q).2 with params := d }
        unfold Record.selectBi
        have := fixAll (l := [(.t0, t), (.tex, u), (.p0, p), (.pex, q)]) d { r with mono := false, fixed := [] }
        rw [show ({ r with params := d, mono := false, fixed := [] } : Record) =
          { ({ r with mono := false, fixed := [] } : Record) with params := d } from rfl, this]
        cases Record.fixAll { r with mono := false, fixed := [] } [(.t0, t), (.tex, u), (.p0, p), (.pex, q)] with
        | mk x r1 => cases x <;> rfl
      · show Dict.Same (r.selectBi t u p q).2.params d
        have : (r.selectBi t u p q).2.params = r.params := by
          unfold Record.selectBi
          have := fixAll_params [(.t0, t), (.tex, u), (.p0, p), (.pex, q)] { r with mono := false, fixed := [] }
          generalize Record.fixAll { r with mono := false, fixed := [] } [(.t0, t), (.tex, u), (.p0, p), (.pex, q)] = z at this
          obtain ⟨x, r1⟩ := z
          cases x <;> exact this
        rw [this]; exact h
    | setGeometry id kw =>
      obtain ⟨d, rfl, h⟩ := h
      refine ⟨d, ?_, ?_⟩
      · show (Record.setAngles { r with params := d } kw).2 = { (r.setAngles kw).2 with params := d }
        unfold Record.setAngles
        split
        · rfl
        · split
          · rfl
          · rw [assign]
      · show Dict.Same (r.setAngles kw).2.params d
        unfold Record.setAngles
        split
        · exact h
        · split
          · exact h
          · rw [assign_params]; exact h
    | _ => obtain ⟨d, rfl, h⟩ := h; exact ⟨d, rfl, h⟩

/-- ... and what the call returns. -/
theorem actA {b : Backend} {r r' : Record} (h : r.Same r') {x y : Op} (ha : x.Alike y) (hj : x.OwnJac) (hi : ∀ i kw, x ≠ .interaction i kw)
    (hc : ∀ i kw, x = .evalCalc i kw → r.intQ = false) : (r.act b x).1 = (r'.act b y).1 := by
  have hs := h.actS (b := b) ha
  cases ha with
  | updateParams id hp hn => rfl
  | evalCalc id hp hn => exact okmap (total hs (hc _ _ rfl)) _
  | surface id hp hn => exact okmap (surface hs) _
  | volume id hp hn => exact okmap (volume hs) _
  | interaction id hp hn => exact (hi _ _ rfl).elim
  | refl _ =>
    cases x with
    | evalCalc id kw => exact okmap (total hs (hc _ _ rfl)) _
    | surface id kw => exact okmap (surface hs) _
    | volume id kw => exact okmap (volume hs) _
    | interaction id kw => exact (hi _ _ rfl).elim
    | jacobian id ks f => exact okmap (jacobian h hj f) _
    | getParam id p => exact okmap (param h p) _
    | surfaceVolume id => exact okmap (surfaceVolume h) _
    | checkParams id l => exact okmap (check h l) _
    | setMonostatic id p =>
      obtain ⟨d, rfl, h⟩ := h
      cases p with
      | none => rfl
      | some p => cases p <;> rfl
    | setBistatic id t u p q =>
      obtain ⟨d, rfl, h⟩ := h
      refine okmap ?_ _
      unfold Record.selectBi
      have := fixAll (l := [(.t0, t), (.tex, u), (.p0, p), (.pex, q)]) d { r with mono := false, fixed := [] }
      rw [show ({ r with params := d, mono := false, fixed := [] } : Record) =
        { ({ r with mono := false, fixed := [] } : Record) with params := d } from rfl, this]
      cases Record.fixAll { r with mono := false, fixed := [] } [(.t0, t), (.tex, u), (.p0, p), (.pex, q)] with
      | mk x r1 => cases x <;> rfl
    | setGeometry id kw =>
      obtain ⟨d, rfl, h⟩ := h
      refine okmap ?_ _
      unfold Record.setAngles
      split
      · rfl
      · split
        · rfl
        · exact (congrArg Prod.fst (assign (l := kw) d r)).symm
    | _ => rfl

end Record.Same

end

end RT1
