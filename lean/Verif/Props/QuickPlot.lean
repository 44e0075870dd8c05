import Verif.Lemmas.QuickPlot
import Verif.Props.AnalyzeNeg

/-!
# Quick access to the plot functions (C93)
-/

namespace RT1

noncomputable section
open Classical

/-- Positional and keyword arguments reach the parameters as Python's rules say; a call with other arguments
raises TypeError. -/
theorem C93_arguments {α : Type} {s : Sig α} {args : List α} {kw : List (String × α)} (hn : (kw.map Prod.fst).Nodup) :
    (∀ vals extra, s.bind args kw = .ok (vals, extra) ↔ Receives s args kw vals extra) ∧
    ((¬ ∃ vals extra, Receives s args kw vals extra) → ∃ l, s.bind args kw = .error (.typeError l)) := by
  have key : ∀ vals extra, s.bind args kw = .ok (vals, extra) ↔ Receives s args kw vals extra := by
    intro vals extra
    have hmem : ∀ k, k ∉ s.params.map Prod.fst ↔ ∀ d, (k, d) ∉ s.params := by
      intro k
      rw [List.mem_map]
      constructor
      · intro h d hd
        exact h ⟨_, hd, rfl⟩
      · rintro h ⟨p, hp, rfl⟩
        exact h p.2 hp
    constructor
    · intro h
      unfold Sig.bind at h
      split_ifs at h with h1 h2 h3
      obtain ⟨rest, hr, h⟩ : ∃ rest, (s.params.drop args.length).mapM (takeKw kw) = .ok rest ∧
          (args ++ rest, kw.filter fun p => decide (p.1 ∉ s.params.map Prod.fst)) = (vals, extra) := by
        cases hm : (s.params.drop args.length).mapM (takeKw kw) with
        | error e => rw [hm] at h; cases h
        | ok rest =>
          rw [hm] at h
          exact ⟨rest, rfl, by cases h; rfl⟩
      cases h
      have hf := qp_mapM_iff.mp hr
      have hl := hf.length_eq
      rw [List.length_drop] at hl
      refine ⟨by rw [List.length_append]; omega, ?_, by omega, ?_, ?_, ?_, List.filter_sublist, ?_⟩
      · intro i v hv
        rw [List.getElem?_append_left (List.getElem?_eq_some_iff.mp hv).1]
        exact hv
      · intro i p hp hi v hv
        refine h2 ⟨_, hv, List.mem_map.mpr ⟨p, ?_, rfl⟩⟩
        exact List.mem_of_getElem? (i := i) (by rw [List.getElem?_take_of_lt hi]; exact hp)
      · intro i p v hp hi hv
        rw [List.getElem?_append_right hi] at hv
        have hq : (s.params.drop args.length)[i - args.length]? = some p := by
          rw [List.getElem?_drop, Nat.add_sub_cancel' hi]
          exact hp
        obtain ⟨a1, a2⟩ := List.getElem?_eq_some_iff.mp hq
        obtain ⟨b1, b2⟩ := List.getElem?_eq_some_iff.mp hv
        have := hf.get a1 b1
        simp only [List.get_eq_getElem, a2, b2] at this
        exact (takeKw_iff hn).mp this
      · intro hv p hp
        by_contra hc
        refine h3 ⟨hv, p, hp, (hmem _).mpr ?_⟩
        simpa using hc
      · intro p
        rw [List.mem_filter, decide_eq_true_eq, hmem]
    · intro h
      have h1 : ¬ s.params.length < args.length := by have := h.fits; omega
      have h2 : ¬ ∃ p ∈ kw, p.1 ∈ (s.params.take args.length).map Prod.fst := by
        rintro ⟨p, hp, hm⟩
        obtain ⟨q, hq, hq'⟩ := List.mem_map.mp hm
        obtain ⟨i, hi⟩ := List.getElem?_of_mem hq
        have hlt : i < args.length := by
          have := (List.getElem?_eq_some_iff.mp hi).1
          rw [List.length_take] at this
          omega
        rw [List.getElem?_take_of_lt hlt] at hi
        exact h.once i q hi hlt p.2 (by rw [hq']; exact hp)
      have h3 : ¬ (s.varkw = false ∧ ∃ p ∈ kw, p.1 ∉ s.params.map Prod.fst) := by
        rintro ⟨hv, p, hp, hm⟩
        obtain ⟨d, hd⟩ := h.known hv p hp
        exact (hmem _).mp hm d hd
      unfold Sig.bind
      rw [if_neg h1, if_neg h2, if_neg h3]
      have hlen := h.length
      have hfit := h.fits
      have hv : vals = args ++ vals.drop args.length := by
        apply List.ext_getElem?
        intro i
        by_cases hi : i < args.length
        · rw [List.getElem?_append_left hi, List.getElem?_eq_getElem hi]
          exact h.positional i _ (List.getElem?_eq_getElem hi)
        · rw [List.getElem?_append_right (by omega), List.getElem?_drop, Nat.add_sub_cancel' (by omega)]
      have hm : (s.params.drop args.length).mapM (takeKw kw) = .ok (vals.drop args.length) := by
        rw [qp_mapM_iff, List.forall₂_iff_get]
        refine ⟨by simp [hlen], ?_⟩
        intro i a1 a2
        rw [takeKw_iff hn]
        refine h.named (args.length + i) _ _ ?_ (by omega) ?_
        · rw [List.get_eq_getElem, List.getElem_drop, List.getElem?_eq_getElem]
        · rw [List.get_eq_getElem, List.getElem_drop, List.getElem?_eq_getElem]
      have he : extra = kw.filter fun p => decide (p.1 ∉ s.params.map Prod.fst) := by
        have hkn : kw.Nodup := List.Nodup.of_map _ hn
        refine List.Sublist.eq_of_length_le ?_ ?_
        · have := h.kept.filter fun p => decide (p.1 ∉ s.params.map Prod.fst)
          rwa [List.filter_eq_self.mpr ?_] at this
          intro p hp
          rw [decide_eq_true_eq, hmem]
          exact ((h.extra p).mp hp).2
        · refine (List.Nodup.subperm (hkn.filter _) ?_).length_le
          intro p hp
          rw [List.mem_filter, decide_eq_true_eq, hmem] at hp
          exact (h.extra p).mpr hp
      rw [hm, okb, ← hv, ← he]
  refine ⟨key, fun h => ?_⟩
  cases hb : s.bind args kw with
  | ok v => exact absurd ⟨v.1, v.2, (key _ _).mp hb⟩ h
  | error e =>
    obtain ⟨l, rfl⟩ := bind_error_type hb
    exact ⟨l, rfl⟩

/-- The rules admit calls: `polarplot(V, inc=[30.0])`. -/
example (V : Scatter) : Receives polarSig [.volume V] [("inc", .list [30])]
    [.volume V, .list [30], .float 2, .none, .bool true, .bool true, .tuple [.number (3 / 4), .number (1 / 2)],
      .text ".5", .none, .none] [] := by
  refine ((C93_arguments (s := polarSig) (args := [.volume V]) (kw := [("inc", .list [30])]) (by simp)).1 _ _).mp ?_
  simp [Sig.bind, polarSig, takeKw]
  rfl

/-! ### Scattering functions -/

/-- A scattering function as an argument. -/
def PlotVal.IsScatter (v : PlotVal) (src : PolarSrc) : Prop :=
  (∃ s, v = .surface s ∧ src = .surface s) ∨ ∃ s, v = .volume s ∧ src = .volume s

/-- **C93**: `V.polarplot(...)` with keyword arguments draws what `polarplot(V, ...)` and
`polarplot(V_SRF=V, ...)` draw, with the same settings. -/
theorem C93_polarplot (V : PlotVal) {kw : List (String × PlotVal)} (hn : (kw.map Prod.fst).Nodup)
    (hV : "V_SRF" ∉ kw.map Prod.fst) :
    methodPolar true V [] kw = callPolar [] (("V_SRF", V) :: kw) ∧ methodPolar true V [] kw = callPolar [V] kw := by
  have hm : mergeKw [("V_SRF", V)] kw = ("V_SRF", V) :: kw := by
    unfold mergeKw
    have h1 : kw.lookup "V_SRF" = none := lookup_none_iff.mpr fun v hv => hV (List.mem_map.mpr ⟨_, hv, rfl⟩)
    have h2 : kw.filter (fun p => decide (p.1 ∉ [("V_SRF", V)].map Prod.fst)) = kw := by
      rw [List.filter_eq_self]
      intro p hp
      simp only [List.map_cons, List.map_nil, List.mem_singleton, decide_eq_true_eq]
      intro h
      exact hV (List.mem_map.mpr ⟨p, hp, h⟩)
    rw [h2]
    simp [h1]
  have h1 : methodPolar true V [] kw = callPolar [] (("V_SRF", V) :: kw) := by
    unfold methodPolar Sig.partialBind callPolar
    rw [hm]
    rfl
  refine ⟨h1, h1.trans ?_⟩
  have hb : polarSig.bind [] (("V_SRF", V) :: kw) = polarSig.bind [V] kw := by
    have hn' : ((("V_SRF", V) :: kw).map Prod.fst).Nodup := List.nodup_cons.mpr ⟨hV, hn⟩
    have c1 : ¬ polarSig.params.length < ([] : List PlotVal).length := by simp
    have c2 : ¬ polarSig.params.length < [V].length := by simp [polarSig]
    have c3 : ¬ ∃ p ∈ ("V_SRF", V) :: kw, p.1 ∈ (polarSig.params.take ([] : List PlotVal).length).map Prod.fst := by
      simp
    have c4 : ¬ ∃ p ∈ kw, p.1 ∈ (polarSig.params.take [V].length).map Prod.fst := by
      rintro ⟨p, hp, h⟩
      simp only [polarSig, List.length_cons, List.length_nil, List.take_succ_cons, List.take_zero, List.map_cons,
        List.map_nil, List.mem_singleton] at h
      exact hV (List.mem_map.mpr ⟨p, hp, h⟩)
    have c5 : (polarSig.varkw = false ∧ ∃ p ∈ ("V_SRF", V) :: kw, p.1 ∉ polarSig.params.map Prod.fst) ↔
        (polarSig.varkw = false ∧ ∃ p ∈ kw, p.1 ∉ polarSig.params.map Prod.fst) := by
      simp [polarSig]
    unfold Sig.bind
    rw [if_neg c1, if_neg c2, if_neg c3, if_neg c4]
    by_cases c : polarSig.varkw = false ∧ ∃ p ∈ kw, p.1 ∉ polarSig.params.map Prod.fst
    · rw [if_pos (c5.mpr c), if_pos c]
    · rw [if_neg (fun h => c (c5.mp h)), if_neg c]
      have e1 : (polarSig.params.drop ([] : List PlotVal).length).mapM (takeKw (("V_SRF", V) :: kw)) =
          ((polarSig.params.drop [V].length).mapM (takeKw kw) >>= fun l => .ok (V :: l)) := by
        have t : ∀ p ∈ polarSig.params.drop [V].length, takeKw (("V_SRF", V) :: kw) p = takeKw kw p := by
          intro p hp
          have : ((p.1 : String) == "V_SRF") = false := by
            simp [polarSig] at hp
            rcases hp with rfl | rfl | rfl | rfl | rfl | rfl | rfl | rfl | rfl <;> rfl
          unfold takeKw
          rw [List.lookup_cons, this]
        have t' : (polarSig.params.drop [V].length).mapM (takeKw (("V_SRF", V) :: kw)) =
            (polarSig.params.drop [V].length).mapM (takeKw kw) := qp_mapM_congr t
        rw [show polarSig.params.drop ([] : List PlotVal).length =
          ("V_SRF", some .none) :: polarSig.params.drop [V].length from rfl, List.mapM_cons, t']
        have : takeKw (("V_SRF", V) :: kw) ("V_SRF", some .none) = .ok V := by simp [takeKw]
        rw [this]
        rfl
      rw [e1]
      have e2 : (("V_SRF", V) :: kw).filter (fun p => decide (p.1 ∉ polarSig.params.map Prod.fst)) =
          kw.filter fun p => decide (p.1 ∉ polarSig.params.map Prod.fst) := by
        rw [List.filter_cons_of_neg]
        simp [polarSig]
      rw [e2]
      cases (polarSig.params.drop [V].length).mapM (takeKw kw) <;> rfl
  unfold callPolar
  rw [hb]

/-- What `V.polarplot(...)` draws is `V`, if another function is not given explicitly. -/
theorem C93_polarplot_drawn {V : PlotVal} {src : PolarSrc} (hV : V.IsScatter src) {kw : List (String × PlotVal)}
    (hn : (kw.map Prod.fst).Nodup) (hk : "V_SRF" ∉ kw.map Prod.fst) {src' : PolarSrc} {l : List PlotVal}
    (h : methodPolar true V [] kw = .ok (src', l)) : src' = src := by
  rw [(C93_polarplot V hn hk).2] at h
  unfold callPolar at h
  cases hb : polarSig.bind [V] kw with
  | error e => rw [hb] at h; cases h
  | ok v =>
    have hr := ((C93_arguments hn).1 v.1 v.2).mp hb
    have h0 := hr.positional 0 V rfl
    rw [hb] at h
    obtain ⟨vals, ex⟩ := v
    cases vals with
    | nil => cases h0
    | cons x t =>
      cases h0
      cases h
      rcases hV with ⟨s, rfl, rfl⟩ | ⟨s, rfl, rfl⟩ <;> rfl

/-- Positional arguments are not possible: `V.polarplot([30.0, 45.0])` raises TypeError, as does every call
with a positional argument. -/
theorem C93_polarplot_positional (V x : PlotVal) (args : List PlotVal) (kw : List (String × PlotVal)) :
    ∃ l, methodPolar true V (x :: args) kw = .error (.typeError l) := by
  have h : polarSig.partialBind [("V_SRF", V)] (x :: args) kw = .error (.typeError []) := by
    unfold Sig.partialBind Sig.bind
    split_ifs with h1 h2 h3
    · rfl
    · rfl
    · rfl
    · exfalso
      refine h2 ⟨("V_SRF", (kw.lookup "V_SRF").getD V), by simp [mergeKw], ?_⟩
      simp [polarSig]
  refine ⟨[], ?_⟩
  unfold methodPolar
  rw [h]
  rfl

/-- `V.polarplot(V_SRF=W, ...)` draws `W` instead of `V`. -/
theorem C93_polarplot_other (V W : PlotVal) {kw : List (String × PlotVal)} (hn : (kw.map Prod.fst).Nodup)
    (hW : ("V_SRF", W) ∈ kw) : methodPolar true V [] kw =
      methodPolar true W [] (kw.filter fun p => decide (p.1 ≠ "V_SRF")) := by
  have h1 : kw.lookup "V_SRF" = some W := (lookup_some_iff hn).mpr hW
  have h2 : (kw.filter fun p => decide (p.1 ≠ "V_SRF")).lookup "V_SRF" = none :=
    lookup_none_iff.mpr fun v hv => by simp at hv
  have hm : mergeKw [("V_SRF", V)] kw = mergeKw [("V_SRF", W)] (kw.filter fun p => decide (p.1 ≠ "V_SRF")) := by
    unfold mergeKw
    simp only [List.map_cons, List.map_nil, h1, h2]
    simp [List.filter_filter]
  unfold methodPolar Sig.partialBind
  rw [hm]

/-- The method can be used: `V.polarplot(inc=[30.0])`. -/
example (V : Scatter) : ∃ l, methodPolar true (.volume V) [] [("inc", .list [30])] = .ok (.volume V, .list [30] :: l) := by
  rw [(C93_polarplot _ (by simp) (by simp)).2]
  refine ⟨[.float 2, .none, .bool true, .bool true, .tuple [.number (3 / 4), .number (1 / 2)],
      .text ".5", .none, .none], ?_⟩
  simp [callPolar, Sig.bind, polarSig, takeKw]
  rfl

/-- **C93**: `S.hemreflect(...)` with keyword arguments evaluates what `hemreflect(SRF=S, ...)` evaluates. -/
theorem C93_hemreflect (S : Scatter) {kw : List (String × PlotVal)} (hS : "SRF" ∉ kw.map Prod.fst)
    (args : List PlotVal) : methodHem true (.surface S) args kw = callHem args (("SRF", .surface S) :: kw) := by
  have hm : mergeKw [("SRF", PlotVal.surface S)] kw = ("SRF", .surface S) :: kw := by
    unfold mergeKw
    have h1 : kw.lookup "SRF" = none := lookup_none_iff.mpr fun v hv => hS (List.mem_map.mpr ⟨_, hv, rfl⟩)
    have h2 : kw.filter (fun p => decide (p.1 ∉ [("SRF", PlotVal.surface S)].map Prod.fst)) = kw := by
      rw [List.filter_eq_self]
      intro p hp
      simp only [List.map_cons, List.map_nil, List.mem_singleton, decide_eq_true_eq]
      intro h
      exact hS (List.mem_map.mpr ⟨p, hp, h⟩)
    rw [h2]
    simp [h1]
  unfold methodHem Sig.partialBind callHem
  simp only [hm]

/-- What `S.hemreflect(...)` evaluates is `S`, unless an RT1 object is given as `R` or as positional argument:
then it is the surface of that object.  More than one positional argument is not possible. -/
theorem C93_hemreflect_evaluated {S : Scatter} {args : List PlotVal} {kw : List (String × PlotVal)}
    (hn : (kw.map Prod.fst).Nodup) (hS : "SRF" ∉ kw.map Prod.fst) {src : HemSource} {l : List PlotVal}
    (h : methodHem true (.surface S) args kw = .ok (src, l)) :
    (src = .SRF S ∧ (∀ v, ("R", v) ∈ kw → v = .none) ∧ ∀ v ∈ args, v = .none) ∨
    ∃ id, src = .R id ∧ (("R", .rt1 id) ∈ kw ∨ args = [.rt1 id]) := by
  rw [C93_hemreflect S hS] at h
  have hn' : ((("SRF", PlotVal.surface S) :: kw).map Prod.fst).Nodup := List.nodup_cons.mpr ⟨hS, hn⟩
  unfold callHem at h
  cases hb : hemSig.bind args (("SRF", .surface S) :: kw) with
  | error e => rw [hb] at h; cases h
  | ok v =>
    have hr := ((C93_arguments hn').1 v.1 v.2).mp hb
    rw [hb] at h
    obtain ⟨vals, ex⟩ := v
    have ha : args.length ≤ 1 := by
      by_contra hc
      exact hr.once 1 ("SRF", some .none) rfl (by omega) _ List.mem_cons_self
    match vals, hr, h with
    | [], hr, h => cases h
    | [_], hr, h => cases h
    | r :: x :: t, hr, h =>
      have hx : x = .surface S := by
        rcases hr.named 1 ("SRF", some .none) x rfl ha rfl with hm | ⟨hm, -⟩
        · rcases List.mem_cons.mp hm with hm | hm
          · cases hm; rfl
          · exact absurd (List.mem_map.mpr ⟨_, hm, rfl⟩) hS
        · exact absurd List.mem_cons_self (hm _)
      subst hx
      have hR : (args = [r] ∧ ∀ v, ("R", v) ∉ kw) ∨ (args = [] ∧ (("R", r) ∈ kw ∨ ((∀ v, ("R", v) ∉ kw) ∧ r = .none))) := by
        match args, ha, hr with
        | [], _, hr =>
          refine .inr ⟨rfl, ?_⟩
          rcases hr.named 0 ("R", some .none) r rfl (by simp) rfl with hm | ⟨hm, hd⟩
          · rcases List.mem_cons.mp hm with hm | hm
            · exact absurd (congrArg Prod.fst hm) (by simp)
            · exact .inl hm
          · cases hd
            exact .inr ⟨fun v hv => hm v (List.mem_cons_of_mem _ hv), rfl⟩
        | [a], _, hr =>
          have := hr.positional 0 a rfl
          cases this
          exact .inl ⟨rfl, fun v hv => hr.once 0 ("R", some .none) rfl (by simp) v (List.mem_cons_of_mem _ hv)⟩
      have hs : ∃ src', hemSrc r (.surface S) = .ok src' ∧ src' = src := by
        cases hh : hemSrc r (.surface S) with
        | error e => simp only [okb, hh] at h; cases h
        | ok q =>
          simp only [okb, hh] at h
          cases h
          exact ⟨_, rfl, rfl⟩
      obtain ⟨src', hs, rfl⟩ := hs
      cases r with
      | none =>
        cases hs
        refine .inl ⟨rfl, ?_⟩
        rcases hR with ⟨rfl, h2⟩ | ⟨rfl, h2 | ⟨h2, -⟩⟩
        · exact ⟨fun v hv => absurd hv (h2 v), by simp⟩
        · refine ⟨fun v hv => ?_, by simp⟩
          have e1 := (lookup_some_iff hn).mpr h2
          rw [(lookup_some_iff hn).mpr hv] at e1
          cases e1
          rfl
        · exact ⟨fun v hv => absurd hv (h2 v), by simp⟩
      | rt1 id =>
        cases hs
        refine .inr ⟨id, rfl, ?_⟩
        rcases hR with ⟨rfl, -⟩ | ⟨rfl, h2 | ⟨-, h2⟩⟩
        · exact .inr rfl
        · exact .inl h2
        · cases h2
      | _ => cases hs

/-- The method can be used: `S.hemreflect(simps_N=100)`, and with an RT1 object as positional argument, which
then takes the place of `S`; a number as positional argument raises AttributeError. -/
example (S : Scatter) (id : ℕ) (r : ℝ) :
    (∃ l, methodHem true (.surface S) [] [("simps_N", .int 100)] = .ok (.SRF S, l)) ∧
    (∃ l, methodHem true (.surface S) [.rt1 id] [] = .ok (.R id, l)) ∧
    methodHem true (.surface S) [.float r] [] = .error .attributeError := by
  refine ⟨⟨[.float 0, .float 5, .float 0, .float 90, .int 100, .bool true, .bool false, .dict []], ?_⟩,
    ⟨[.float 0, .float 5, .float 0, .float 90, .int 1000, .bool true, .bool false, .dict []], ?_⟩, ?_⟩ <;>
    rw [C93_hemreflect S (by simp)] <;> simp [callHem, Sig.bind, hemSig, takeKw] <;> rfl

/-- Volume functions have no `hemreflect`. -/
theorem C93_hemreflect_volume (avail : Bool) (V : Scatter) (args : List PlotVal) (kw : List (String × PlotVal)) :
    methodHem avail (.volume V) args kw = .error .attributeError := by
  cases avail <;> rfl

/-! ### RT1 objects -/

/-- The keyword arguments for the sliders. -/
def sliderKw (ps : List (String × List SliderArg)) : List (String × PlotVal) := ps.map fun p => (p.1, .tuple p.2)

/-- The value of a keyword argument that may be left out. -/
def GivenAs {β : Type} (kw : List (String × PlotVal)) (name : String) (value : β → PlotVal) (default x : β) : Prop :=
  (name, value x) ∈ kw ∨ (name ∉ kw.map Prod.fst ∧ x = default)

/-- The range parameter as an argument. -/
def rangeVal : Option String → PlotVal
  | none => .none
  | some k => .text k

theorem tuplesOf_slider (ps : List (String × List SliderArg)) : tuplesOf (sliderKw ps) = .ok ps := by
  unfold tuplesOf
  rw [qp_mapM_iff]
  unfold sliderKw
  rw [List.forall₂_map_left_iff]
  exact List.forall₂_same.mpr fun _ _ => rfl

theorem methodSig_bind (x : PlotVal) {kw : List (String × PlotVal)} (hs : "self" ∉ kw.map Prod.fst) :
    methodSig.bind [x] kw = .ok ([x], kw) := by
  have h : ∀ p ∈ kw, p.1 ≠ "self" := fun p hp h => hs (List.mem_map.mpr ⟨p, hp, h⟩)
  have h' : ∀ x, ("self", x) ∉ kw := fun x hx => h _ hx rfl
  unfold Sig.bind
  rw [if_neg (by simp [methodSig]), if_neg (by simpa [methodSig] using h'), if_neg (by simp [methodSig])]
  rw [List.filter_eq_self.mpr (by simpa [methodSig] using h)]
  rfl

theorem takeKw_given {β : Type} {kw : List (String × PlotVal)} (hn : (kw.map Prod.fst).Nodup) {name : String}
    {value : β → PlotVal} {d x : β} (h : GivenAs kw name value d x) : takeKw kw (name, some (value d)) = .ok (value x) := by
  rw [takeKw_iff hn]
  rcases h with h | ⟨h, rfl⟩
  · exact .inl h
  · exact .inr ⟨fun u hu => h (List.mem_map.mpr ⟨_, hu, rfl⟩), rfl⟩

/-- **C93**: `R.analyze(tau=(0, 1), ..., range_parameter="tau")` creates the analyzer of `R` with exactly these
sliders in this order and this range parameter (none if it is left out). -/
theorem C93_analyze (id : ℕ) {kw : List (String × PlotVal)} (hn : (kw.map Prod.fst).Nodup)
    (hk : "self" ∉ kw.map Prod.fst ∧ "R" ∉ kw.map Prod.fst) {r : Option String}
    (hr : GivenAs kw "range_parameter" rangeVal none r) {ps : List (String × List SliderArg)}
    (hp : kw.filter (fun p => decide (p.1 ≠ "range_parameter")) = sliderKw ps) :
    methodAnalyze true id [] kw = analyze id r ps := by
  obtain ⟨hs, hR⟩ := hk
  have h1 : ∀ p ∈ kw, p.1 ≠ "self" := fun p hp h => hs (List.mem_map.mpr ⟨p, hp, h⟩)
  have h2 : ∀ p ∈ kw, p.1 ≠ "R" := fun p hp h => hR (List.mem_map.mpr ⟨p, hp, h⟩)
  have hn' : ((("R", PlotVal.rt1 id) :: kw).map Prod.fst).Nodup := List.nodup_cons.mpr ⟨hR, hn⟩
  have hr' : GivenAs (("R", .rt1 id) :: kw) "range_parameter" rangeVal none r := by
    rcases hr with h | ⟨h, h'⟩
    · exact .inl (List.mem_cons_of_mem _ h)
    · exact .inr ⟨by simpa using h, h'⟩
  have hb : analyzeSig.bind [.none] (("R", .rt1 id) :: kw) = .ok ([.none, .rt1 id, rangeVal r], sliderKw ps) := by
    unfold Sig.bind
    have h1' : ∀ x, ("self", x) ∉ kw := fun x hx => h1 _ hx rfl
    rw [if_neg (by simp [analyzeSig]), if_neg (by simpa [analyzeSig] using h1'), if_neg (by simp [analyzeSig])]
    have e1 : (("R", PlotVal.rt1 id) :: kw).filter (fun p => decide (p.1 ∉ analyzeSig.params.map Prod.fst)) =
        sliderKw ps := by
      rw [List.filter_cons_of_neg (by simp [analyzeSig]), ← hp]
      apply List.filter_congr
      intro p hp
      simp [analyzeSig, h1 p hp, h2 p hp]
    have e2 : (analyzeSig.params.drop [PlotVal.none].length).mapM (takeKw (("R", .rt1 id) :: kw)) =
        .ok [.rt1 id, rangeVal r] := by
      rw [qp_mapM_iff]
      refine .cons ?_ (.cons ?_ .nil)
      · exact (takeKw_iff hn').mpr (.inl List.mem_cons_self)
      · exact takeKw_given hn' hr'
    rw [e1, e2]
    rfl
  unfold methodAnalyze
  rw [if_pos rfl, methodSig_bind _ hs]
  funext w
  show (if "R" ∈ kw.map Prod.fst then _ else _ : M Analyzer) w = _
  rw [if_neg hR]
  unfold callAnalyze
  rw [hb]
  show (liftPy (tuplesOf (sliderKw ps)) >>= fun ps => match rangeVal r with
    | .none => analyze id none ps
    | .text k => analyze id (some k) ps
    | _ => throw .valueError : M Analyzer) w = _
  rw [tuplesOf_slider]
  cases r <;> rfl

/-- The keyword arguments of `R.analyze(omega=(0, 1), range_parameter="omega")`. -/
example (id : ℕ) (w : World) : methodAnalyze true id []
    [("omega", .tuple [.number 0, .number 1]), ("range_parameter", .text "omega")] w =
      analyze id (some "omega") [("omega", [.number 0, .number 1])] w :=
  congrFun (C93_analyze id (by simp) (by simp) (.inl (by simp [rangeVal])) (by simp [sliderKw])) w

/-- **C93**: `R.analyze3d(tau=(0, 1), ..., samples=n, contributions="tsvi")` creates the 3D analyzer of `R` with
exactly these sliders in this order; if they are left out, there are 35 samples and the contributions are
"ts". -/
theorem C93_analyze3d (id : ℕ) {kw : List (String × PlotVal)} (hn : (kw.map Prod.fst).Nodup)
    (hk : "self" ∉ kw.map Prod.fst ∧ "R" ∉ kw.map Prod.fst) {n : ℕ} {cs : String}
    (hm : GivenAs kw "samples" (fun n : ℕ => .int n) 35 n) (hc : GivenAs kw "contributions" .text "ts" cs)
    {ps : List (String × List SliderArg)}
    (hp : kw.filter (fun p => decide (p.1 ∉ ["samples", "contributions"])) = sliderKw ps) :
    methodAnalyze3d true id [] kw = analyze3d id n cs.toList ps := by
  obtain ⟨hs, hR⟩ := hk
  have h1 : ∀ p ∈ kw, p.1 ≠ "self" := fun p hp h => hs (List.mem_map.mpr ⟨p, hp, h⟩)
  have h2 : ∀ p ∈ kw, p.1 ≠ "R" := fun p hp h => hR (List.mem_map.mpr ⟨p, hp, h⟩)
  have hn' : ((("R", PlotVal.rt1 id) :: kw).map Prod.fst).Nodup := List.nodup_cons.mpr ⟨hR, hn⟩
  have hm' : GivenAs (("R", .rt1 id) :: kw) "samples" (fun n : ℕ => .int n) 35 n := by
    rcases hm with h | ⟨h, h'⟩
    · exact .inl (List.mem_cons_of_mem _ h)
    · exact .inr ⟨by simpa using h, h'⟩
  have hc' : GivenAs (("R", .rt1 id) :: kw) "contributions" .text "ts" cs := by
    rcases hc with h | ⟨h, h'⟩
    · exact .inl (List.mem_cons_of_mem _ h)
    · exact .inr ⟨by simpa using h, h'⟩
  have hb : analyze3dSig.bind [.none] (("R", .rt1 id) :: kw) =
      .ok ([.none, .rt1 id, .int n, .text cs], sliderKw ps) := by
    unfold Sig.bind
    have h1' : ∀ x, ("self", x) ∉ kw := fun x hx => h1 _ hx rfl
    rw [if_neg (by simp [analyze3dSig]), if_neg (by simpa [analyze3dSig] using h1'), if_neg (by simp [analyze3dSig])]
    have e1 : (("R", PlotVal.rt1 id) :: kw).filter (fun p => decide (p.1 ∉ analyze3dSig.params.map Prod.fst)) =
        sliderKw ps := by
      rw [List.filter_cons_of_neg (by simp [analyze3dSig]), ← hp]
      apply List.filter_congr
      intro p hp
      simp [analyze3dSig, h1 p hp, h2 p hp]
    have e2 : (analyze3dSig.params.drop [PlotVal.none].length).mapM (takeKw (("R", .rt1 id) :: kw)) =
        .ok [.rt1 id, .int n, .text cs] := by
      rw [qp_mapM_iff]
      refine .cons ?_ (.cons ?_ (.cons ?_ .nil))
      · exact (takeKw_iff hn').mpr (.inl List.mem_cons_self)
      · exact takeKw_given (value := fun n : ℕ => PlotVal.int n) (d := 35) hn' hm'
      · exact takeKw_given hn' hc'
    rw [e1, e2]
    rfl
  unfold methodAnalyze3d
  rw [if_pos rfl, methodSig_bind _ hs]
  funext w
  show (if "R" ∈ kw.map Prod.fst then _ else _ : M Analyzer3D) w = _
  rw [if_neg hR]
  unfold callAnalyze3d
  rw [hb]
  show (liftPy (tuplesOf (sliderKw ps)) >>= fun ps => if (n : ℤ) < 0 then throw .valueError else
    analyze3d id (n : ℤ).toNat cs.toList ps : M Analyzer3D) w = _
  rw [tuplesOf_slider]
  show (if (n : ℤ) < 0 then throw .valueError else analyze3d id (n : ℤ).toNat cs.toList ps : M Analyzer3D) w = _
  rw [if_neg (by omega), Int.toNat_natCast]

/-- The keyword arguments of `R.analyze3d(contributions="v", omega=(0, 1))`. -/
example (id : ℕ) (w : World) : methodAnalyze3d true id []
    [("contributions", .text "v"), ("omega", .tuple [.number 0, .number 1])] w =
      analyze3d id 35 ['v'] [("omega", [.number 0, .number 1])] w :=
  congrFun (C93_analyze3d id (n := 35) (cs := "v") (by simp) (by simp) (.inr ⟨by simp, rfl⟩) (.inl (by simp))
    (by simp [sliderKw])) w

/-- Positional arguments of `R.analyze` and `R.analyze3d`, and second values for the object, raise TypeError;
the object is left as it was. -/
theorem C93_analyze_rejected (id : ℕ) {args : List PlotVal} {kw : List (String × PlotVal)}
    (h : args ≠ [] ∨ "self" ∈ kw.map Prod.fst ∨ "R" ∈ kw.map Prod.fst) (w : World) :
    ∃ l, methodAnalyze true id args kw w = (.error (.typeError l), w) ∧
      methodAnalyze3d true id args kw w = (.error (.typeError l), w) := by
  by_cases hc : args = [] ∧ "self" ∉ kw.map Prod.fst
  · obtain ⟨rfl, hs⟩ := hc
    have hR : "R" ∈ kw.map Prod.fst := by
      rcases h with h | h | h
      · exact absurd rfl h
      · exact absurd h hs
      · exact h
    refine ⟨["R"], ?_, ?_⟩
    · unfold methodAnalyze
      rw [if_pos rfl, methodSig_bind _ hs]
      show (if "R" ∈ kw.map Prod.fst then _ else _ : M Analyzer) w = _
      rw [if_pos hR]
      rfl
    · unfold methodAnalyze3d
      rw [if_pos rfl, methodSig_bind _ hs]
      show (if "R" ∈ kw.map Prod.fst then _ else _ : M Analyzer3D) w = _
      rw [if_pos hR]
      rfl
  · have hb : methodSig.bind (.rt1 id :: args) kw = .error (.typeError []) := by
      unfold Sig.bind
      by_cases ha : args = []
      · subst ha
        have hs : "self" ∈ kw.map Prod.fst := by
          by_contra hs
          exact hc ⟨rfl, hs⟩
        obtain ⟨p, hp, hp'⟩ := List.mem_map.mp hs
        rw [if_neg (by simp [methodSig]), if_pos ⟨p, hp, by simp [methodSig, hp']⟩]
      · rw [if_pos]
        have := List.length_pos_iff.mpr ha
        simp only [methodSig, List.length_cons, List.length_nil]
        omega
    refine ⟨[], ?_, ?_⟩
    · unfold methodAnalyze
      rw [if_pos rfl, hb]
      rfl
    · unfold methodAnalyze3d
      rw [if_pos rfl, hb]
      rfl

theorem bind_inv {α : Type} {s : Sig α} {args : List α} {kw : List (String × α)} {v : List α × List (String × α)}
    (h : s.bind args kw = .ok v) : v.2 = kw.filter (fun p => decide (p.1 ∉ s.params.map Prod.fst)) ∧
      ∃ rest, v.1 = args ++ rest ∧ List.Forall₂ (fun p x => takeKw kw p = .ok x) (s.params.drop args.length) rest := by
  unfold Sig.bind at h
  split_ifs at h
  cases hm : (s.params.drop args.length).mapM (takeKw kw) with
  | error e => rw [hm] at h; cases h
  | ok l =>
    rw [hm] at h
    cases h
    exact ⟨rfl, l, rfl, qp_mapM_iff.mp hm⟩

theorem tuplesOf_names {kw : List (String × PlotVal)} {ps : List (String × List SliderArg)} (h : tuplesOf kw = .ok ps) :
    ps.map Prod.fst = kw.map Prod.fst := by
  unfold tuplesOf at h
  have := qp_mapM_iff.mp h
  clear h
  induction this with
  | nil => rfl
  | cons h1 _ ih =>
    rw [List.map_cons, List.map_cons, ih]
    split at h1
    · cases h1
      rfl
    · cases h1

theorem liftPy_inv {α : Type} {x : Py α} {w w' : World} {a : α} (h : (liftPy x : M α) w = (.ok a, w')) :
    x = .ok a ∧ w' = w := by
  cases x with
  | error e => cases h
  | ok b => cases h; exact ⟨rfl, rfl⟩

/-- A parameter of the model that is called like a parameter of the analyzer cannot have a slider: if it has no
value either, no call of `R.analyze` creates an analyzer. -/
theorem C93_analyze_names_negation {w : World} (hw : Reachable w) {id : ℕ} {o : Obj} (ho : w.objs id = some o)
    {k : String} (hk : k ∈ ["self", "R", "range_parameter"]) (hN : o.Needs k) (hv : k ∉ o.params.keys)
    (args : List PlotVal) (kw : List (String × PlotVal)) :
    ¬ ∃ A w', methodAnalyze true id args kw w = (.ok A, w') := by
  rintro ⟨A, w', h⟩
  unfold methodAnalyze at h
  rw [if_pos rfl] at h
  obtain ⟨v, w1, h1, g⟩ := bind_ok_inv h
  clear h
  obtain ⟨-, rfl⟩ := liftPy_inv h1
  split_ifs at g with hR
  · cases g
  unfold callAnalyze at g
  obtain ⟨v', w2, h2, h⟩ := bind_ok_inv g
  clear g h1
  obtain ⟨h2', rfl⟩ := liftPy_inv h2
  clear h2
  obtain ⟨he, rest, hv1, hf⟩ := bind_inv h2'
  obtain ⟨r, hr⟩ : ∃ r, v'.1 = [.none, .rt1 id, r] := by
    rw [hv1]
    cases hf with
    | cons h4 h5 =>
      simp only [takeKw, List.lookup_cons_self] at h4
      cases h4
      cases h5 with
      | cons _ h6 =>
        cases h6
        exact ⟨_, rfl⟩
  rw [hr] at h
  obtain ⟨ps, w3, h3, g⟩ := bind_ok_inv h
  clear h
  obtain ⟨h3', rfl⟩ := liftPy_inv h3
  have hps := tuplesOf_names h3'
  have hno : k ∉ ps.map Prod.fst := by
    rw [hps, he]
    intro hm
    obtain ⟨p, hp, rfl⟩ := List.mem_map.mp hm
    have := (List.mem_filter.mp hp).2
    rw [decide_eq_true_eq] at this
    exact this hk
  have key : ∀ r, analyze id r ps w3 ≠ (.ok A, w') := by
    intro r hA
    obtain ⟨l, hl, -⟩ := C64_missing hw ho r ps ⟨k, hN, hno, hv⟩
    rw [hA] at hl
    cases hl
  cases r with
  | none => exact key _ g
  | text t => exact key _ g
  | _ => cases g

/-- The same for `R.analyze3d`. -/
theorem C93_analyze3d_names_negation {w : World} (hw : Reachable w) {id : ℕ} {o : Obj} (ho : w.objs id = some o)
    {k : String} (hk : k ∈ ["self", "R", "samples", "contributions"]) (hN : o.Needs k) (hv : k ∉ o.params.keys)
    (args : List PlotVal) (kw : List (String × PlotVal)) :
    ¬ ∃ A w', methodAnalyze3d true id args kw w = (.ok A, w') := by
  rintro ⟨A, w', h⟩
  unfold methodAnalyze3d at h
  rw [if_pos rfl] at h
  obtain ⟨v, w1, h1, g⟩ := bind_ok_inv h
  clear h
  obtain ⟨-, rfl⟩ := liftPy_inv h1
  split_ifs at g with hR
  · cases g
  unfold callAnalyze3d at g
  obtain ⟨v', w2, h2, h⟩ := bind_ok_inv g
  clear g h1
  obtain ⟨h2', rfl⟩ := liftPy_inv h2
  clear h2
  obtain ⟨he, rest, hv1, hf⟩ := bind_inv h2'
  obtain ⟨m, c, hr⟩ : ∃ m c, v'.1 = [.none, .rt1 id, m, c] := by
    rw [hv1]
    cases hf with
    | cons h4 h5 =>
      simp only [takeKw, List.lookup_cons_self] at h4
      cases h4
      cases h5 with
      | cons _ h6 =>
        cases h6 with
        | cons _ h7 =>
          cases h7
          exact ⟨_, _, rfl⟩
  rw [hr] at h
  have : ∃ n cs, m = .int n ∧ c = .text cs := by
    cases m with
    | int n =>
      cases c with
      | text cs => exact ⟨n, cs, rfl, rfl⟩
      | _ => cases h
    | _ => cases h
  obtain ⟨n, cs, rfl, rfl⟩ := this
  obtain ⟨ps, w3, h3, g⟩ := bind_ok_inv h
  clear h
  obtain ⟨h3', rfl⟩ := liftPy_inv h3
  have hps := tuplesOf_names h3'
  have hno : k ∉ ps.map Prod.fst := by
    rw [hps, he]
    intro hm
    obtain ⟨p, hp, rfl⟩ := List.mem_map.mp hm
    have := (List.mem_filter.mp hp).2
    rw [decide_eq_true_eq] at this
    exact this hk
  split_ifs at g
  · cases g
  obtain ⟨hsl, hall, -⟩ := C64_sliders3d hw ho g
  rcases hall k hN with hm | hm
  · obtain ⟨q, hq, rfl⟩ := List.mem_map.mp hm
    obtain ⟨p, hp, hpq⟩ := forall2_right hsl hq
    exact hno (List.mem_map.mpr ⟨p, (List.mem_filter.mp hp).1, hpq.1.symm⟩)
  · exact hv hm

/-- The case is met: after `R.tau = "R"` no call of `R.analyze` or `R.analyze3d` creates an analyzer, whatever
the arguments are. -/
theorem C93_names_counterexample (b : Backend) : ∃ w o, Reachable w ∧ w.objs 0 = some o ∧ o.Needs "R" ∧
    (∀ n, o.Needs n → n = "R" ∨ n ∈ o.params.keys) ∧
    ∀ args kw, (¬ ∃ A w', methodAnalyze true 0 args kw w = (.ok A, w')) ∧
      ¬ ∃ A w', methodAnalyze3d true 0 args kw w = (.ok A, w') := by
  obtain ⟨o, hr, ho, hd, hk, hV, hS⟩ := sym_obj b "R"
  have hN : o.Needs "R" := ⟨.inl ⟨.tau, .sym "R", by rw [hd]; simp, by simp [Expr.free]⟩, by simp⟩
  refine ⟨symW b "R", o, hr, ho, hN, fun n hn => ?_, fun args kw =>
    ⟨C93_analyze_names_negation hr ho (by simp) hN (by rw [hk]; simp) args kw,
      C93_analyze3d_names_negation hr ho (by simp) hN (by rw [hk]; simp) args kw⟩⟩
  rw [hk]
  rcases sym_needs hd hV hS hn with ⟨rfl, -⟩ | rfl | rfl | rfl
  · exact .inl rfl
  all_goals simp

/-- Without the plot functions (matplotlib missing) the methods do not exist. -/
theorem C93_unavailable (V : PlotVal) (id : ℕ) (args : List PlotVal) (kw : List (String × PlotVal)) (w : World) :
    methodPolar false V args kw = .error .attributeError ∧ methodHem false V args kw = .error .attributeError ∧
    methodAnalyze false id args kw w = (.error .attributeError, w) ∧
    methodAnalyze3d false id args kw w = (.error .attributeError, w) := by
  refine ⟨rfl, ?_, rfl, rfl⟩
  cases V <;> rfl

end

end RT1
