import Verif.Lemmas.OrderRun

/-! The same for records that remember compiled names, and for lists of records (C84). -/

namespace RT1

noncomputable section
open Classical

/-- Both have compiled their coefficients, or none of them has. -/
def NamesSame (d d' : Dict) : Option (List String) → Option (List String) → Prop
  | none, none => True
  | some ns, some ns' => ns <+: d.keys ∧ ns' <+: d'.keys ∧ ns.Perm ns'
  | _, _ => False

/-- The same settings with the parameters listed in another order. -/
structure Remembered.Same (k k' : Remembered) : Prop where
  settings : k.settings.Same k'.settings
  names : NamesSame k.settings.params k'.settings.params k.names k'.names
  supplied : k.settings.fnevalsInput = none

theorem NamesSame.grow {d d' e e' : Dict} {n n' : Option (List String)} (h : NamesSame d d' n n') (h1 : d.keys <+: e.keys)
    (h2 : d'.keys <+: e'.keys) : NamesSame e e' n n' := by
  cases n <;> cases n' <;> first | exact h | exact ⟨h.1.trans h1, h.2.1.trans h2, h.2.2⟩

theorem coefs_some {b : Backend} {r : Record} (hi : r.fnevalsInput = none) (ns : List String) :
    Remembered.coefs b ⟨r, some ns⟩ = (Remembered.symbolic r >>= fun f =>
      .ok (some ⟨["theta_0", "phi_0", "theta_ex", "phi_ex"] ++ ns, r.V.phase.free ++ r.SRF.phase.free, f⟩)) := by
  unfold Remembered.coefs
  simp only [hi]

theorem coefs_none {b : Backend} {r : Record} (hi : r.fnevalsInput = none) :
    Remembered.coefs b ⟨r, none⟩ = if r.intQ = true then (Remembered.symbolic r >>= fun f =>
      (if b = .symengine ∧ ∃ s ∈ r.V.phase.free ++ r.SRF.phase.free, s ∉ Self.fnVars r.params then
        (.error .runtimeError : Py FnLam) else .ok ⟨Self.fnVars r.params, r.V.phase.free ++ r.SRF.phase.free, f⟩) >>= fun l => .ok (some l))
      else .ok none := by
  unfold Remembered.coefs Fresh.fnCompile
  simp only [hi]
  rfl

theorem compile_iff (b : Backend) (r : Record) {d : Dict} (hd : Dict.Same r.params d) :
    (b = .symengine ∧ ∃ s ∈ r.V.phase.free ++ r.SRF.phase.free, s ∉ Self.fnVars r.params) ↔
      (b = .symengine ∧ ∃ s ∈ r.V.phase.free ++ r.SRF.phase.free, s ∉ Self.fnVars d) := by
  refine and_congr_right fun _ => exists_congr fun t => and_congr_right fun _ => ?_
  unfold Self.fnVars
  rw [List.mem_append, List.mem_append, hd.mem]

namespace Remembered.Same

variable {b : Backend} {k k' : Remembered}

theorem outs (h : k.Same k') (a1 a2 a3 a4 : Arr) : fnOuts (k.acc b) [a1, a2, a3, a4] = fnOuts (k'.acc b) [a1, a2, a3, a4] := by
  obtain ⟨hs, hn, hi⟩ := h
  obtain ⟨r, n⟩ := k
  obtain ⟨r', n'⟩ := k'
  obtain ⟨d, rfl, hd⟩ := hs
  simp only at hn hi
  have hb := args_same (a := [a1, a2, a3, a4]) hd
  show (do
    let args ← Arr.broadcastArrays ([a1, a2, a3, a4] ++ r.params.map Prod.snd)
    let f ← Remembered.coefs b ⟨r, n⟩
    match f with
    | none => .error (.typeError [])
    | some f => (liftPy (f.call b args) : Py (List Arr))) = (do
    let args ← Arr.broadcastArrays ([a1, a2, a3, a4] ++ d.map Prod.snd)
    let f ← Remembered.coefs b ⟨{ r with params := d }, n'⟩
    match f with
    | none => .error (.typeError [])
    | some f => (liftPy (f.call b args) : Py (List Arr)))
  unfold Arr.broadcastArrays
  rw [← hb]
  cases hB : Arr.bshapes ((([a1, a2, a3, a4] : List Arr) ++ r.params.map Prod.snd).map Arr.shape) with
  | none => rfl
  | some s =>
    simp only [okb]
    have hsym : Remembered.symbolic { r with params := d } = Remembered.symbolic r := rfl
    cases n with
    | some ns =>
      cases n' with
      | none => exact hn.elim
      | some ns' =>
        rw [coefs_some hi, coefs_some (r := { r with params := d }) hi, hsym]
        cases Remembered.symbolic r with
        | error e => rfl
        | ok f =>
          simp only [okb]
          exact congrArg _ (fnCall_same hd hn.1 hn.2.1 hn.2.2 _ _ _ _ _ _ _)
    | none =>
      cases n' with
      | some ns' => exact hn.elim
      | none =>
        rw [coefs_none hi, coefs_none (r := { r with params := d }) hi, hsym]
        by_cases hq : r.intQ = true
        · rw [if_pos hq, if_pos (show Record.intQ { r with params := d } = true from hq)]
          cases Remembered.symbolic r with
          | error e => rfl
          | ok f =>
            simp only [okb]
            have hc := compile_iff b r hd
            by_cases hcc : b = .symengine ∧ ∃ s ∈ r.V.phase.free ++ r.SRF.phase.free, s ∉ Self.fnVars r.params
            · rw [if_pos hcc, if_pos (hc.1 hcc)]; rfl
            · rw [if_neg hcc, if_neg (fun h => hcc (hc.2 h))]
              simp only [okb]
              exact congrArg _ (fnCall_same hd (List.prefix_refl _) (List.prefix_refl _) hd.keys _ _ _ _ _ _ _)
        · rw [if_neg hq, if_neg (show ¬ Record.intQ { r with params := d } = true from hq)]
          rfl

theorem acc (h : k.Same k') : AccSameInt (k.acc b) (k'.acc b) := by
  have hA : AccSame (k.acc b) (k'.acc b) := by
    obtain ⟨hs, hn, hi⟩ := h
    obtain ⟨r, n⟩ := k
    obtain ⟨r', n'⟩ := k'
    obtain ⟨d, rfl, hd⟩ := hs
    exact Record.Same.acc hd _ _
  have hx : (k.acc b).mu0x = (k'.acc b).mu0x ∧ (k.acc b).muExx = (k'.acc b).muExx ∧ (k.acc b).nmax = (k'.acc b).nmax := by
    obtain ⟨hs, hn, hi⟩ := h
    obtain ⟨r, n⟩ := k
    obtain ⟨r', n'⟩ := k'
    obtain ⟨d, rfl, hd⟩ := hs
    exact ⟨rfl, rfl, rfl⟩
  refine ⟨hA, ?_, ?_⟩
  · unfold Acc.fint1
    rw [fint_outs, fint_outs, hA.t0, hA.p0, hA.tex, hA.pex, hA.mu0, hx.1, hx.2.2, hA.par]
    simp only [bind_assoc, pure_bind, h.outs]
  · unfold Acc.fint2
    rw [fint_outs, fint_outs, hA.t0, hA.p0, hA.tex, hA.pex, hA.muEx, hx.2.1, hx.2.2, hA.par]
    simp only [bind_assoc, pure_bind, h.outs]

theorem interaction (h : k.Same k') : k.interaction b = k'.interaction b := by
  unfold Remembered.interaction
  rw [(h.acc (b := b)).interaction]
  simp only [(h.acc (b := b)).convert]

theorem total (h : k.Same k') : k.total b = k'.total b := (h.acc (b := b)).calcTry (Or.inl (h.acc (b := b)).interaction)

theorem coefs_ok (h : k.Same k') : (∃ l, k.coefs b = .ok l) ↔ ∃ l, k'.coefs b = .ok l := by
  obtain ⟨hs, hn, hi⟩ := h
  obtain ⟨r, n⟩ := k
  obtain ⟨r', n'⟩ := k'
  obtain ⟨d, rfl, hd⟩ := hs
  simp only at hn hi
  have hsym : Remembered.symbolic { r with params := d } = Remembered.symbolic r := rfl
  cases n with
  | some ns =>
    cases n' with
    | none => exact hn.elim
    | some ns' =>
      rw [coefs_some hi, coefs_some (r := { r with params := d }) hi, hsym]
      cases Remembered.symbolic r with
      | error e => exact ⟨fun ⟨l, h⟩ => (nomatch h), fun ⟨l, h⟩ => (nomatch h)⟩
      | ok f => exact ⟨fun _ => ⟨_, rfl⟩, fun _ => ⟨_, rfl⟩⟩
  | none =>
    cases n' with
    | some ns' => exact hn.elim
    | none =>
      rw [coefs_none hi, coefs_none (r := { r with params := d }) hi, hsym]
      by_cases hq : r.intQ = true
      · rw [if_pos hq, if_pos (show Record.intQ { r with params := d } = true from hq)]
        cases Remembered.symbolic r with
        | error e => exact ⟨fun ⟨l, h⟩ => (nomatch h), fun ⟨l, h⟩ => (nomatch h)⟩
        | ok f =>
          simp only [okb]
          have hc := compile_iff b r hd
          by_cases hcc : b = .symengine ∧ ∃ s ∈ r.V.phase.free ++ r.SRF.phase.free, s ∉ Self.fnVars r.params
          · rw [if_pos hcc, if_pos (hc.1 hcc)]
          · rw [if_neg hcc, if_neg (fun h => hcc (hc.2 h))]
            exact ⟨fun _ => ⟨_, rfl⟩, fun _ => ⟨_, rfl⟩⟩
      · rw [if_neg hq, if_neg (show ¬ Record.intQ { r with params := d } = true from hq)]

theorem ready (h : k.Same k') : Ready k.settings ↔ Ready k'.settings := by
  obtain ⟨hs, hn, hi⟩ := h
  obtain ⟨r, n⟩ := k
  obtain ⟨r', n'⟩ := k'
  obtain ⟨d, rfl, hd⟩ := hs
  have key : ∀ a : List Arr, (∃ l, Arr.broadcastArrays (a ++ r.params.map Prod.snd) = .ok l) ↔
      ∃ l, Arr.broadcastArrays (a ++ d.map Prod.snd) = .ok l := by
    intro a
    unfold Arr.broadcastArrays
    rw [args_same hd]
    cases Arr.bshapes ((a ++ d.map Prod.snd).map Arr.shape) with
    | none => exact ⟨fun ⟨l, h⟩ => (nomatch h), fun ⟨l, h⟩ => (nomatch h)⟩
    | some s => exact ⟨fun _ => ⟨_, rfl⟩, fun _ => ⟨_, rfl⟩⟩
  constructor
  · rintro ⟨t, p, u, q, l, h1, h2, h3, h4, h5⟩
    obtain ⟨l', h5'⟩ := (key _).1 ⟨l, h5⟩
    exact ⟨t, p, u, q, l', h1, h2, h3, h4, h5'⟩
  · rintro ⟨t, p, u, q, l, h1, h2, h3, h4, h5⟩
    obtain ⟨l', h5'⟩ := (key _).2 ⟨l, h5⟩
    exact ⟨t, p, u, q, l', h1, h2, h3, h4, h5'⟩

theorem totalIff (h : k.Same k') : Total b k.settings ↔ Total b k'.settings := by
  have hr := h.ready
  have hA := h.settings.accR (b := b)
  have hp := h.settings.param (b := b) .tau
  have hq : k.settings.intQ = k'.settings.intQ := by
    obtain ⟨d, hd, _⟩ := h.settings
    rw [hd]
  unfold Total
  rw [hr, hA.surface, hA.volume, hp, hq]

theorem compile (h : k.Same k') : (k.compile b).Same (k'.compile b) := by
  have hc := h.coefs_ok (b := b)
  have hs := h.settings
  have hn := h.names
  have hi := h.supplied
  obtain ⟨r, n⟩ := k
  obtain ⟨r', n'⟩ := k'
  obtain ⟨d, rfl, hd⟩ := hs
  simp only at hn hi
  unfold Remembered.compile
  have hnn : n = none ↔ n' = none := by
    cases n <;> cases n' <;> first | exact hn.elim | simp
  by_cases hh : r.fnevalsInput = none ∧ n = none ∧ r.intQ = true ∧ ∃ l, Remembered.coefs b ⟨r, n⟩ = .ok l
  · rw [if_pos hh, if_pos ⟨hh.1, hnn.1 hh.2.1, hh.2.2.1, hc.1 hh.2.2.2⟩]
    exact ⟨⟨d, rfl, hd⟩, ⟨List.prefix_refl _, List.prefix_refl _, hd.keys⟩, hi⟩
  · rw [if_neg hh, if_neg (fun h => hh ⟨h.1, hnn.2 h.2.1, h.2.2.1, hc.2 h.2.2.2⟩)]
    exact ⟨⟨d, rfl, hd⟩, hn, hi⟩

/-- Settings that have changed in the same way. -/
theorem change (h : k.Same k') {r r' : Record} (hr : r.Same r') (h1 : k.settings.params.keys <+: r.params.keys)
    (h2 : k'.settings.params.keys <+: r'.params.keys) (h3 : r.fnevalsInput = k.settings.fnevalsInput) :
    Remembered.Same { k with settings := r } { k' with settings := r' } :=
  ⟨hr, h.names.grow h1 h2, h3.trans h.supplied⟩

theorem forget (h : k.Same k') {r r' : Record} (hr : r.Same r') (h3 : r.fnevalsInput = k.settings.fnevalsInput) :
    Remembered.Same ⟨r, none⟩ ⟨r', none⟩ := ⟨hr, trivial, h3.trans h.supplied⟩

end Remembered.Same

theorem Record.fixAll_supplied (l : List (AngN × Option PyArg)) : ∀ r : Record,
    (r.fixAll l).2.fnevalsInput = r.fnevalsInput := by
  induction l with
  | nil => intro r; rfl
  | cons p l ih =>
    intro r
    obtain ⟨n, a⟩ := p
    cases a with
    | none => exact ih r
    | some a =>
      cases a with
      | other => rfl
      | number x => exact ih (r.fix n x)

theorem Record.assign_supplied (l : List (String × Option Arr)) : ∀ r : Record,
    (r.assign l).2.fnevalsInput = r.fnevalsInput := by
  induction l with
  | nil => intro r; rfl
  | cons p l ih =>
    intro r
    obtain ⟨k, v⟩ := p
    unfold Record.assign
    cases AngN.ofName k with
    | none => exact ih r
    | some n =>
      cases v with
      | none => rfl
      | some a =>
        by_cases hf : n ∈ r.fixed
        · simp only [if_pos hf]
        · simp only [if_neg hf]
          exact ih { r with ang := Function.update r.ang n (some a.atleast1d) }

theorem Record.update_prefix (r : Record) (kw : Dict) : r.params.keys <+: (r.update kw).params.keys :=
  Dict.keys_update_prefix _ _

/-- No call changes the supplied coefficients or removes a parameter. -/
theorem Record.act_kept (b : Backend) (r : Record) (op : Op) :
    (r.act b op).2.fnevalsInput = r.fnevalsInput ∧ r.params.keys <+: (r.act b op).2.params.keys := by
  cases op with
  | updateParams id kw => exact ⟨rfl, r.update_prefix kw⟩
  | evalCalc id kw => exact ⟨rfl, r.update_prefix kw⟩
  | surface id kw => exact ⟨rfl, r.update_prefix kw⟩
  | volume id kw => exact ⟨rfl, r.update_prefix kw⟩
  | interaction id kw => exact ⟨rfl, r.update_prefix kw⟩
  | setMonostatic id p =>
    cases p with
    | none => exact ⟨rfl, List.prefix_refl _⟩
    | some p => cases p <;> exact ⟨rfl, List.prefix_refl _⟩
  | setBistatic id t u p q =>
    show (r.selectBi t u p q).2.fnevalsInput = r.fnevalsInput ∧ r.params.keys <+: (r.selectBi t u p q).2.params.keys
    unfold Record.selectBi
    have h1 := Record.Same.fixAll_params [(.t0, t), (.tex, u), (.p0, p), (.pex, q)] { r with mono := false, fixed := [] }
    have h2 := Record.fixAll_supplied [(.t0, t), (.tex, u), (.p0, p), (.pex, q)] { r with mono := false, fixed := [] }
    generalize Record.fixAll { r with mono := false, fixed := [] } [(.t0, t), (.tex, u), (.p0, p), (.pex, q)] = z at h1 h2
    obtain ⟨x, r1⟩ := z
    have h1' : r1.params = r.params := h1
    cases x <;> exact ⟨h2, by rw [← h1']⟩
  | setGeometry id kw =>
    show (r.setAngles kw).2.fnevalsInput = r.fnevalsInput ∧ r.params.keys <+: (r.setAngles kw).2.params.keys
    unfold Record.setAngles
    split
    · exact ⟨rfl, List.prefix_refl _⟩
    · split
      · exact ⟨rfl, List.prefix_refl _⟩
      · exact ⟨Record.assign_supplied _ _, by rw [Record.Same.assign_params]⟩
  | _ => exact ⟨rfl, List.prefix_refl _⟩

theorem Remembered.Same.act {b : Backend} {k k' : Remembered} (h : k.Same k') {x y : Op} (ha : x.Alike y) (hj : x.OwnJac) :
    (k.act b x).1 = (k'.act b y).1 ∧ (k.act b x).2.Same (k'.act b y).2 := by
  have hS := h.settings.actS (b := b) ha
  have hx := Record.act_kept b k.settings x
  have hy := Record.act_kept b k'.settings y
  have hc := h.change hS hx.2 hy.2 hx.1
  have hf := h.forget hS hx.1
  have hA : (∀ i kw, x ≠ .interaction i kw) → (∀ i kw, x ≠ .evalCalc i kw) → (k.settings.act b x).1 = (k'.settings.act b y).1 :=
    fun h1 h2 => h.settings.actA ha hj h1 fun i kw h' => (h2 i kw h').elim
  have tot : ∀ i kw i' kw', Remembered.Same (k.update kw) (k'.update kw') →
      (k.act b (.evalCalc i kw)).1 = (k'.act b (.evalCalc i' kw')).1 ∧
      (k.act b (.evalCalc i kw)).2.Same (k'.act b (.evalCalc i' kw')).2 := by
    intro i kw i' kw' hu
    refine ⟨okmap hu.total _, ?_⟩
    show Remembered.Same (if _ then _ else _) (if _ then _ else _)
    by_cases ht : Remembered.Total b (k.update kw).settings
    · rw [if_pos ht, if_pos (hu.totalIff.1 ht)]; exact hu.compile
    · rw [if_neg ht, if_neg (fun h => ht (hu.totalIff.2 h))]; exact hu
  have int : ∀ i kw i' kw', Remembered.Same (k.update kw) (k'.update kw') →
      (k.act b (.interaction i kw)).1 = (k'.act b (.interaction i' kw')).1 ∧
      (k.act b (.interaction i kw)).2.Same (k'.act b (.interaction i' kw')).2 := by
    intro i kw i' kw' hu
    refine ⟨okmap hu.interaction _, ?_⟩
    show Remembered.Same (if _ then _ else _) (if _ then _ else _)
    by_cases ht : Remembered.Ready (k.update kw).settings
    · rw [if_pos ht, if_pos (hu.ready.1 ht)]; exact hu.compile
    · rw [if_neg ht, if_neg (fun h => ht (hu.ready.2 h))]; exact hu
  cases ha with
  | updateParams id hp hn => exact ⟨rfl, hc⟩
  | evalCalc id hp hn => exact tot _ _ _ _ hc
  | surface id hp hn => exact ⟨hA (by simp) (by simp), hc⟩
  | volume id hp hn => exact ⟨hA (by simp) (by simp), hc⟩
  | interaction id hp hn => exact int _ _ _ _ hc
  | refl _ =>
    cases x with
    | evalCalc id kw => exact tot _ _ _ _ hc
    | interaction id kw => exact int _ _ _ _ hc
    | setMonostatic id p => exact ⟨hA (by simp) (by simp), hf⟩
    | setBistatic id t u p q => exact ⟨hA (by simp) (by simp), hf⟩
    | _ => exact ⟨hA (by simp) (by simp), hc⟩

theorem Op.Alike.on {x y : Op} (h : x.Alike y) : x.on = y.on := by
  cases h <;> rfl

end

end RT1
