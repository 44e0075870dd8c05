import Verif.Props.OrderSupplied

/-!
# The order of settings: keywords of `set_geometry` (C84)
-/

namespace RT1

noncomputable section
open Classical

theorem AngN.ofName_inj {k k' : String} {n : AngN} (h : AngN.ofName k = some n) (h' : AngN.ofName k' = some n) : k = k' := by
  unfold AngN.ofName at h h'
  split at h <;> split at h' <;> first | rfl | (cases h; cases h') | cases h | cases h'

/-- The calls of `set_geometry` agree. -/
def SetsAlike (x y : Py Unit × Record) : Prop := x.1 = y.1 ∧ (x.1 = .ok () → x.2 = y.2)

theorem SetsAlike.refl (x : Py Unit × Record) : SetsAlike x x := ⟨rfl, fun _ => rfl⟩

theorem SetsAlike.trans {x y z : Py Unit × Record} (h : SetsAlike x y) (h' : SetsAlike y z) : SetsAlike x z :=
  ⟨h.1.trans h'.1, fun e => (h.2 e).trans (h'.2 (h.1 ▸ e))⟩

/-- The only exception of assignments. -/
theorem assign_error (l : List (String × Option Arr)) : ∀ r : Record, (r.assign l).1 = .ok () ∨ (r.assign l).1 = .error .assertionError := by
  induction l with
  | nil => intro r; exact Or.inl rfl
  | cons p l ih =>
    intro r
    obtain ⟨k, v⟩ := p
    unfold Record.assign
    split
    · exact ih r
    · split_ifs
      · exact Or.inr rfl
      · exact ih _
    · exact Or.inr rfl

/-- One assignment fails. -/
def Refused (r : Record) (p : String × Option Arr) : Prop := ∃ n, AngN.ofName p.1 = some n ∧ (n ∈ r.fixed ∨ p.2 = none)

theorem assign_refused {l : List (String × Option Arr)} : ∀ {r : Record}, (r.assign l).1 = .ok () ↔ ¬ ∃ p ∈ l, Refused r p := by
  induction l with
  | nil => intro r; simp [Record.assign]
  | cons p l ih =>
    intro r
    obtain ⟨k, v⟩ := p
    unfold Record.assign
    cases hk : AngN.ofName k with
    | none =>
      simp only
      rw [ih]
      simp [Refused, hk]
    | some n =>
      cases v with
      | none => simp [Refused, hk]
      | some a =>
        simp only
        by_cases hn : n ∈ r.fixed
        · rw [if_pos hn]
          simp [Refused, hk, hn]
        · rw [if_neg hn, ih]
          simp [Refused, hk, hn]

theorem assign_none {k : String} (hk : AngN.ofName k = none) (v : Option Arr) (l : List (String × Option Arr)) (r : Record) :
    r.assign ((k, v) :: l) = r.assign l := by
  conv_lhs => unfold Record.assign
  simp only [hk]

theorem assign_some {k : String} {n : AngN} (hk : AngN.ofName k = some n) (a : Arr) (l : List (String × Option Arr)) {r : Record}
    (hf : n ∉ r.fixed) :
    r.assign ((k, some a) :: l) = ({ r with ang := Function.update r.ang n (some a.atleast1d) } : Record).assign l := by
  conv_lhs => unfold Record.assign
  simp only [hk, hf, if_false]

theorem assign_perm {l l' : List (String × Option Arr)} (hp : l.Perm l') : ∀ {r : Record}, (l.map Prod.fst).Nodup →
    (r.assign l).1 = .ok () → (r.assign l).2 = (r.assign l').2 := by
  induction hp with
  | nil => intros; rfl
  | @cons p l l' _ ih =>
    intro r hn ho
    obtain ⟨k, v⟩ := p
    have hn' := (List.nodup_cons.1 hn).2
    unfold Record.assign at ho ⊢
    cases hk : AngN.ofName k with
    | none => simp only [hk] at ho ⊢; exact ih hn' ho
    | some n =>
      cases v with
      | none => simp only [hk]
      | some a =>
        simp only [hk] at ho ⊢
        by_cases hf : n ∈ r.fixed
        · rw [if_pos hf, if_pos hf]
        · rw [if_neg hf] at ho ⊢
          rw [if_neg hf]
          exact ih hn' ho
  | swap p q l =>
    intro r hn ho
    obtain ⟨k, v⟩ := p
    obtain ⟨m, u⟩ := q
    rw [assign_refused] at ho
    have hp : ¬ Refused r (k, v) := fun h => ho ⟨_, by simp, h⟩
    have hq : ¬ Refused r (m, u) := fun h => ho ⟨_, by simp, h⟩
    have hkm : m ≠ k := by
      simp only [List.map_cons, List.nodup_cons, List.mem_cons, not_or] at hn
      exact hn.1.1
    cases hk : AngN.ofName k with
    | none =>
      rw [assign_none hk]
      cases hm : AngN.ofName m with
      | none => rw [assign_none hm, assign_none hm, assign_none hk]
      | some n' =>
        cases u with
        | none => exact absurd ⟨n', hm, Or.inr rfl⟩ hq
        | some c =>
          have h2 : n' ∉ r.fixed := fun h => hq ⟨n', hm, Or.inl h⟩
          rw [assign_some hm c _ h2, assign_some hm c _ h2, assign_none hk]
    | some n =>
      cases v with
      | none => exact absurd ⟨n, hk, Or.inr rfl⟩ hp
      | some a =>
        have h1 : n ∉ r.fixed := fun h => hp ⟨n, hk, Or.inl h⟩
        rw [assign_some hk a _ h1]
        cases hm : AngN.ofName m with
        | none => rw [assign_none hm, assign_none hm, assign_some hk a _ h1]
        | some n' =>
          cases u with
          | none => exact absurd ⟨n', hm, Or.inr rfl⟩ hq
          | some c =>
            have h2 : n' ∉ r.fixed := fun h => hq ⟨n', hm, Or.inl h⟩
            have hnn : n ≠ n' := fun e => hkm (AngN.ofName_inj hm (e ▸ hk))
            rw [assign_some hm c _ h2, assign_some hm c _ (r := { r with ang := Function.update r.ang n (some a.atleast1d) }) h2,
              assign_some hk a _ (r := { r with ang := Function.update r.ang n' (some c.atleast1d) }) h1]
            simp only
            rw [Function.update_comm hnn]
  | trans h1 _ ih1 ih2 =>
    intro r hn ho
    rw [ih1 hn ho]
    refine ih2 ((h1.map Prod.fst).nodup_iff.1 hn) ?_
    rw [assign_refused] at ho ⊢
    exact fun ⟨p, hp, h⟩ => ho ⟨p, h1.symm.subset hp, h⟩

theorem setAngles_perm {kw kw' : List (String × Option Arr)} (hp : kw.Perm kw') (hn : (kw.map Prod.fst).Nodup) (r : Record) :
    SetsAlike (r.setAngles kw) (r.setAngles kw') := by
  have hm : ∀ {P : String × Option Arr → Prop}, (∃ p ∈ kw, P p) ↔ ∃ p ∈ kw', P p := by
    intro P
    exact exists_congr fun p => and_congr_left fun _ => hp.mem_iff
  unfold Record.setAngles
  simp only [hm]
  split_ifs
  · exact .refl _
  · exact .refl _
  · refine ⟨?_, assign_perm hp hn⟩
    rcases assign_error kw r with h | h <;> rcases assign_error kw' r with h' | h'
    · rw [h, h']
    · rw [assign_refused, hm, ← assign_refused, h'] at h; cases h
    · rw [assign_refused, ← hm, ← assign_refused, h] at h'; cases h'
    · rw [h, h']

/-- **C84**, angles: the order of the keywords of `set_geometry` does not matter for what this call returns, and if it returns
(without exception) then not for anything that is called afterwards. -/
theorem C84_angles {b : Backend} {pre post : List Op} {id : ℕ} {kw kw' : List (String × Option Arr)} (hp : kw.Perm kw')
    (hn : (kw.map Prod.fst).Nodup) (hk : ∀ x ∈ pre ++ post, x.Plain) (hj : ∀ x ∈ pre ++ post, x.OwnJac)
    (hs : Sound 0 (pre ++ [.setGeometry id kw] ++ post)) :
    ∃ (A C C' : List (Py Answer)) (y : Py Answer), A.length = pre.length ∧
      trace (initWorld b) (pre ++ [.setGeometry id kw] ++ post) = A ++ [y] ++ C ∧
      trace (initWorld b) (pre ++ [.setGeometry id kw'] ++ post) = A ++ [y] ++ C' ∧ (y = .ok .done → C = C') := by
  have hx : ∀ l, ∀ x ∈ [Op.setGeometry id l], x.part ≠ none := by
    intro l x h
    rw [List.mem_singleton.1 h]; simp [Op.part]
  have hs' : Sound 0 (pre ++ [.setGeometry id kw'] ++ post) := by
    rw [Sound.append, Sound.append, Sound.setters (hx _)] at hs ⊢
    refine ⟨⟨hs.1.1, ?_⟩, ?_⟩
    · intro x h i hi
      rw [List.mem_singleton.1 h] at hi
      exact hs.1.2 _ (List.mem_singleton.2 rfl) i hi
    · rw [List.countP_append, creates_setters (hx _)]
      rw [List.countP_append, creates_setters (hx _)] at hs
      exact hs.2
  have all : ∀ {P : Op → Prop} {zs : List Op}, (∀ x ∈ pre ++ post, P x) → (∀ x ∈ zs, P x) → ∀ x ∈ pre ++ zs ++ post, P x := by
    intro P zs h1 h2 x h
    simp only [List.mem_append] at h h1
    rcases h with (h | h) | h
    · exact h1 x (.inl h)
    · exact h2 x h
    · exact h1 x (.inr h)
  rw [C82_trace_interaction (all hk fun x h => (setter_plain (hx _ x h)).1) (all hj fun x h => (setter_plain (hx _ x h)).2) hs,
    C82_trace_interaction (all hk fun x h => (setter_plain (hx _ x h)).1) (all hj fun x h => (setter_plain (hx _ x h)).2) hs']
  rw [Sound.append, Sound.append, Sound.setters (hx _)] at hs
  have hid : id < 0 + pre.countP fun x => decide x.creates := hs.1.2 _ (List.mem_singleton.2 rfl) id rfl
  have e : ∀ zs, Remembered.run b [] (pre ++ zs) = Remembered.run b (Remembered.run b [] pre) zs := fun zs => List.foldl_append
  have hlen : id < (Remembered.run b [] pre).length := by
    have := Remembered.run_length (b := b) (ks := []) hs.1.1
    simp only [List.length_nil] at this
    omega
  generalize hks : Remembered.run b [] pre = ks at hlen e
  have hg := List.getElem?_eq_getElem hlen
  have s1 : ∀ l, Remembered.step b ks (.setGeometry id l) = ((ks[id].settings.setAngles l).1.map fun _ => .done,
      ks.set id { ks[id] with settings := (ks[id].settings.setAngles l).2 }) := by
    intro l
    simp only [Remembered.step, Op.on, hg]
    rfl
  obtain ⟨h1, h2⟩ := setAngles_perm hp hn ks[id].settings
  refine ⟨Remembered.trace b [] pre, Remembered.trace b (Remembered.step b ks (.setGeometry id kw)).2 post,
    Remembered.trace b (Remembered.step b ks (.setGeometry id kw')).2 post, (Remembered.step b ks (.setGeometry id kw)).1,
    Remembered.trace_length _ _ _, ?_, ?_, ?_⟩
  · rw [Remembered.trace_append, Remembered.trace_append, e, hks]
    rfl
  · rw [Remembered.trace_append, Remembered.trace_append, e, hks]
    have : (Remembered.step b ks (.setGeometry id kw)).1 = (Remembered.step b ks (.setGeometry id kw')).1 := by
      rw [s1, s1]
      simp only [h1]
    rw [this]
    rfl
  · rw [s1, s1]
    intro ho
    have : (ks[id].settings.setAngles kw).1 = .ok () := by
      revert ho
      generalize (ks[id].settings.setAngles kw).1 = z
      cases z with
      | error e => intro h; cases h
      | ok u => intro _; rfl
    simp only [h2 this]

/-- Azimuth first or zenith first, then an evaluation with interaction term. -/
example (b : Backend) : ∃ (A C C' : List (Py Answer)) (y : Py Answer), A.length = 1 ∧
    trace (initWorld b) ([.new isoV isoS true false false none none (Arr.lit 1)] ++
      [.setGeometry 0 [("t_0", some (Arr.lit 1)), ("p_0", some (Arr.lit 0))]] ++ [.evalCalc 0 orderKw]) = A ++ [y] ++ C ∧
    trace (initWorld b) ([.new isoV isoS true false false none none (Arr.lit 1)] ++
      [.setGeometry 0 [("p_0", some (Arr.lit 0)), ("t_0", some (Arr.lit 1))]] ++ [.evalCalc 0 orderKw]) = A ++ [y] ++ C' ∧
    (y = .ok .done → C = C') := by
  refine C84_angles (pre := [.new isoV isoS true false false none none (Arr.lit 1)]) (List.Perm.swap _ _ _) (by simp) ?_ ?_ ?_
  · intro x hx
    simp only [List.cons_append, List.nil_append, List.mem_cons, List.not_mem_nil, or_false] at hx
    rcases hx with rfl | rfl <;> trivial
  · intro x hx
    simp only [List.cons_append, List.nil_append, List.mem_cons, List.not_mem_nil, or_false] at hx
    rcases hx with rfl | rfl <;> trivial
  · simp [Sound, Op.on]

/-! ### failing calls -/

/-- The incidence azimuth is fixed, `set_geometry` gets an azimuth as well. -/
def failOps (kw : List (String × Option Arr)) : List Op :=
  [.new isoV isoS false false false none none (Arr.lit 1), .setMonostatic 0 (some (.number 0)), .setGeometry 0 kw,
    .updateParams 0 (scalarKw (witSite 1 1 0 Real.pi) []), .surface 0 []]

/-- The record after the mode call. -/
def failBase : Record := ((Record.default isoV isoS false false false none none (Arr.lit 1)).selectMono (some (.number 0))).2

theorem fail_trace (b : Backend) (kw : List (String × Option Arr)) : Records.trace b [] (failOps kw) =
    [.ok (.obj 0), .ok .done, (failBase.setAngles kw).1.map fun _ => .done, .ok .done,
      ((((failBase.setAngles kw).2.update (scalarKw (witSite 1 1 0 Real.pi) [])).update []).surface b).map .arr] := rfl

theorem surface_no_angle {b : Backend} {r : Record} (h : r.ang .t0 = none) : r.surface b = .error .attributeError := by
  have hm : (r.acc b).mu0 = .error .attributeError := by
    show Fresh.mu0 r.fresh = _
    unfold Fresh.mu0 Fresh.ang
    rw [show r.fresh.ang = r.ang from rfl, h]
    rfl
  have hI : (r.acc b).I0 = .ok r.I0 := rfl
  unfold Record.surface Acc.surface
  rw [hm, hI]
  rfl

theorem fail_first (t p : Arr) : failBase.setAngles [("t_0", some t), ("p_0", some p)] =
    (.error .assertionError, { failBase with ang := Function.update failBase.ang .t0 (some t.atleast1d) }) := by
  have hf : failBase.fixed = [.p0] := rfl
  unfold Record.setAngles
  rw [if_neg (by simp), if_neg (by simp), assign_some (n := .t0) rfl t _ (by rw [hf]; simp)]
  unfold Record.assign
  simp only [AngN.ofName]
  rw [if_pos (by show AngN.p0 ∈ failBase.fixed; rw [hf]; simp)]

theorem fail_second (t p : Arr) : failBase.setAngles [("p_0", some p), ("t_0", some t)] = (.error .assertionError, failBase) := by
  have hf : failBase.fixed = [.p0] := rfl
  unfold Record.setAngles
  rw [if_neg (by simp), if_neg (by simp)]
  unfold Record.assign
  simp only [AngN.ofName]
  rw [if_pos (by rw [hf]; simp)]

/-- A call of `set_geometry` that raises leaves the angles set that come before the refused one: whether a later evaluation
returns or raises depends on the order of the keywords. -/
theorem C84_angles_counterexample (b : Backend) : ∃ (t p : Arr) (A : List (Py Answer)) (arr : Arr) (e : PyErr),
    trace (initWorld b) (failOps [("t_0", some t), ("p_0", some p)]) = A ++ [.ok (.arr arr)] ∧
    trace (initWorld b) (failOps [("p_0", some p), ("t_0", some t)]) = A ++ [.error e] := by
  have ok : ∀ kw, (∀ x ∈ failOps kw, x.Keeps) ∧ (∀ x ∈ failOps kw, x.NoInt) ∧ (∀ x ∈ failOps kw, x.OwnJac) ∧ Sound 0 (failOps kw) := by
    intro kw
    refine ⟨?_, ?_, ?_, by simp [failOps, Sound, Op.on]⟩ <;>
    · intro x hx
      simp only [failOps, List.mem_cons, List.not_mem_nil, or_false] at hx
      rcases hx with rfl | rfl | rfl | rfl | rfl <;> first | trivial | rfl
  obtain ⟨⟨arr, w', h, -⟩, -⟩ := scalar_site_call b (V := isoV) (SRF := isoS) false false false
    (x := witSite 1 1 0 Real.pi) (mono := true) (fun n => n = .p0) (l := []) (fun _ => ⟨rfl, by simp [witSite]⟩)
    (witSite_reports ..) (fun n hn => List.mem_append_left _ (isoV_plain n hn))
    (fun n hn => List.mem_append_left _ (isoS_plain n hn))
  refine ⟨Arr.lit 1, Arr.lit 0, [.ok (.obj 0), .ok .done, .error .assertionError, .ok .done], arr, .attributeError, ?_, ?_⟩
  · obtain ⟨s1, s2, s3, s4⟩ := ok [("t_0", some (Arr.lit 1)), ("p_0", some (Arr.lit 0))]
    rw [C82_trace s1 s2 s3 s4, fail_trace, fail_first]
    set z := ((({ failBase with ang := Function.update failBase.ang .t0 (some (Arr.lit 1).atleast1d) } : Record).update
      (scalarKw (witSite 1 1 0 Real.pi) [])).update []).surface b with hz
    have hops : scalarOps (witSite 1 1 0 Real.pi) true (fun n => decide (n = AngN.p0)) (scalarKw (witSite 1 1 0 Real.pi) []) =
        [.setMonostatic 0 (some (.number 0)), .setGeometry 0 [("t_0", some (Arr.lit 1))],
          .updateParams 0 (scalarKw (witSite 1 1 0 Real.pi) [])] := by
      simp [scalarOps, witSite, Site.angle]
    have ha : (answer (.surface 0 []) (scalarW b isoV isoS false false false (witSite 1 1 0 Real.pi) true (fun n => decide (n = AngN.p0))
        (scalarKw (witSite 1 1 0 Real.pi) []))).1 = Except.ok (Answer.arr arr) := by
      generalize scalarW b isoV isoS false false false (witSite 1 1 0 Real.pi) true (fun n => decide (n = AngN.p0))
        (scalarKw (witSite 1 1 0 Real.pi) []) = w at h ⊢
      exact map_answer (surface 0 []) Answer.arr _ (congrArg Prod.fst h)
    unfold scalarW at ha
    rw [hops] at ha
    have hc := C82_answers (b := b) (ops := .new isoV isoS false false false none none (Arr.lit (witSite 1 1 0 Real.pi).I0) ::
      [.setMonostatic 0 (some (.number 0)), .setGeometry 0 [("t_0", some (Arr.lit 1))],
          .updateParams 0 (scalarKw (witSite 1 1 0 Real.pi) [])]) (op := .surface 0 []) ?_ ?_ trivial
    · rw [ha] at hc
      have hr : failBase.setAngles [("t_0", some (Arr.lit 1))] =
          (.ok (), { failBase with ang := Function.update failBase.ang .t0 (some (Arr.lit 1).atleast1d) }) := by
        have hf : failBase.fixed = [.p0] := rfl
        unfold Record.setAngles
        rw [if_neg (by simp), if_neg (by simp), assign_some (n := .t0) rfl (Arr.lit 1) _ (by rw [hf]; simp)]
        rfl
      have hc2 : Except.ok (Answer.arr arr) =
          ((((failBase.setAngles [("t_0", some (Arr.lit 1))]).2.update (scalarKw (witSite 1 1 0 Real.pi) [])).update []).surface b).map .arr := hc
      rw [hr] at hc2
      have : z = .ok arr := by
        change _ = z.map Answer.arr at hc2
        revert hc2
        generalize z = y
        intro hc2
        cases y with
        | error e => cases hc2
        | ok y => cases hc2; rfl
      change [_, _, _, _, z.map Answer.arr] = _
      rw [this]
      rfl
    · intro x hx
      simp only [List.mem_cons, List.not_mem_nil, or_false] at hx
      rcases hx with rfl | rfl | rfl | rfl <;> trivial
    · simp [Sound, Op.on]
  · obtain ⟨s1, s2, s3, s4⟩ := ok [("p_0", some (Arr.lit 0)), ("t_0", some (Arr.lit 1))]
    rw [C82_trace s1 s2 s3 s4, fail_trace, fail_second, surface_no_angle rfl]
    rfl

end

end RT1
