import Verif.Lemmas.OrderInt

/-! Setters of different settings commute (C84). -/

namespace RT1

noncomputable section
open Classical

/-- The settings of the geometry. -/
structure Geo where
  fixed : List AngN
  mono : Bool
  ang : AngN → Option Arr
  geom : Geom4

def Record.geo (r : Record) : Geo := ⟨r.fixed, r.mono, r.ang, r.geom⟩

def Record.setGeo (r : Record) (g : Geo) : Record := { r with fixed := g.fixed, mono := g.mono, ang := g.ang, geom := g.geom }

/-- A function on records that reads and changes the geometry only. -/
def GeoFun {α : Type} (f : Record → α × Record) : Prop :=
  ∃ g : Geo → α × Geo, ∀ r, f r = ((g r.geo).1, r.setGeo (g r.geo).2)

theorem geo_fixAll (l : List (AngN × Option PyArg)) : GeoFun fun r => r.fixAll l := by
  induction l with
  | nil => exact ⟨fun g => (.ok (), g), fun r => rfl⟩
  | cons p l ih =>
    obtain ⟨n, a⟩ := p
    obtain ⟨g, hg⟩ := ih
    cases a with
    | none => exact ⟨g, hg⟩
    | some a =>
      cases a with
      | other => exact ⟨fun g => (.error .assertionError, g), fun r => rfl⟩
      | number x =>
        exact ⟨fun h => g { h with ang := Function.update h.ang n (some (arr1 x)), fixed := n :: h.fixed }, fun r => hg (r.fix n x)⟩

theorem geo_assign (l : List (String × Option Arr)) : GeoFun fun r => r.assign l := by
  induction l with
  | nil => exact ⟨fun g => (.ok (), g), fun r => rfl⟩
  | cons p l ih =>
    obtain ⟨k, v⟩ := p
    obtain ⟨g, hg⟩ := ih
    unfold Record.assign
    cases AngN.ofName k with
    | none => exact ⟨g, hg⟩
    | some n =>
      cases v with
      | none => exact ⟨fun g => (.error .assertionError, g), fun r => rfl⟩
      | some a =>
        refine ⟨fun h => if n ∈ h.fixed then (.error .assertionError, h)
          else g { h with ang := Function.update h.ang n (some a.atleast1d) }, fun r => ?_⟩
        have hg' := hg { r with ang := Function.update r.ang n (some a.atleast1d) }
        by_cases hf : n ∈ r.fixed
        · simp only [if_pos hf, if_pos (show n ∈ r.geo.fixed from hf)]
          rfl
        · simp only [if_neg hf, if_neg (show ¬ n ∈ r.geo.fixed from hf)]
          exact hg'

/-- The end of `selectBi`. -/
def biEnd (g4 : Geom4) : Py Unit × Geo → Py Answer × Geo
  | (.ok (), h) => (.ok .done, { h with geom := g4 })
  | (.error e, h) => (.error e, h)

theorem GeoFun.act {b : Backend} {x : Op} {id : ℕ} (hx : x.part = some (id, .geometry)) : GeoFun fun r => r.act b x := by
  cases x <;> simp only [Op.part, Option.some.injEq, Prod.mk.injEq, reduceCtorEq, and_false] at hx
  case setMonostatic i p =>
    cases p with
    | none => exact ⟨fun h => (.ok .done, { h with mono := true, fixed := [], geom := ⟨.sym "theta_0", .sym "theta_0", .sym "phi_0", .sym "phi_0"⟩ }), fun r => rfl⟩
    | some p =>
      cases p with
      | other => exact ⟨fun h => (.error .assertionError, { h with mono := true, fixed := [] }), fun r => rfl⟩
      | number x => exact ⟨fun h => (.ok .done, { h with mono := true, fixed := [.p0], ang := Function.update h.ang .p0 (some (arr1 x)), geom := ⟨.sym "theta_0", .sym "theta_0", .num x, .num x⟩ }), fun r => rfl⟩
  case setBistatic i t u p q =>
    obtain ⟨g, hg⟩ := geo_fixAll [(.t0, t), (.tex, u), (.p0, p), (.pex, q)]
    refine ⟨fun h => biEnd ⟨Record.inCoefs "theta_0" t, Record.inCoefs "theta_ex" u, Record.inCoefs "phi_0" p, Record.inCoefs "phi_ex" q⟩
      (g { h with mono := false, fixed := [] }), fun r => ?_⟩
    have h1 : Record.fixAll { r with mono := false, fixed := [] } [(.t0, t), (.tex, u), (.p0, p), (.pex, q)] =
        ((g { r.geo with mono := false, fixed := [] }).1,
          Record.setGeo { r with mono := false, fixed := [] } (g { r.geo with mono := false, fixed := [] }).2) :=
      hg { r with mono := false, fixed := [] }
    show ((r.selectBi t u p q).1.map _, (r.selectBi t u p q).2) = _
    unfold Record.selectBi
    rw [h1]
    show _ = ((biEnd _ (g { r.geo with mono := false, fixed := [] })).1, r.setGeo (biEnd _ (g { r.geo with mono := false, fixed := [] })).2)
    generalize g { r.geo with mono := false, fixed := [] } = z
    obtain ⟨a, h'⟩ := z
    cases a <;> rfl
  case setGeometry i kw =>
    obtain ⟨g, hg⟩ := geo_assign kw
    refine ⟨fun h => if ∃ p ∈ kw, p.1 ∉ ["t_0", "t_ex", "p_0", "p_ex"] then (.error (.typeError []), h)
      else if h.mono = true ∧ ∃ p ∈ kw, p.1 = "t_ex" ∨ p.1 = "p_ex" then (.error .assertionError, h)
      else ((g h).1.map fun _ => .done, (g h).2), fun r => ?_⟩
    show ((r.setAngles kw).1.map _, (r.setAngles kw).2) = _
    unfold Record.setAngles
    by_cases c1 : ∃ p ∈ kw, p.1 ∉ ["t_0", "t_ex", "p_0", "p_ex"]
    · simp only [if_pos c1]; rfl
    · by_cases c2 : r.mono = true ∧ ∃ p ∈ kw, p.1 = "t_ex" ∨ p.1 = "p_ex"
      · simp only [if_neg c1, if_pos c2, if_pos (show r.geo.mono = true ∧ _ from c2)]; rfl
      · simp only [if_neg c1, if_neg c2, if_neg (show ¬ (r.geo.mono = true ∧ _) from c2), hg]

/-- With bsf known. -/
theorem Record.update_bsf {r : Record} (h : "bsf" ∈ r.params.keys) (kw : Dict) :
    r.update kw = { r with params := Dict.update r.params (kw.map fun p => (p.1, p.2.atleast1d)) } := by
  unfold Record.update
  simp only [h, true_or, if_true]
  split <;> simp only [List.append_nil]

theorem Record.act_swap {b : Backend} {r : Record} (h : "bsf" ∈ r.params.keys) {x y : Op} {i j : ℕ} {P Q : Part}
    (hx : x.part = some (i, P)) (hy : y.part = some (j, Q)) (hne : P ≠ Q) :
    ((r.act b x).2.act b y).1 = (r.act b y).1 ∧ ((r.act b x).2.act b y).2 = ((r.act b y).2.act b x).2 := by
  by_cases hP : P = .geometry
  · subst hP
    obtain ⟨g, hg⟩ := GeoFun.act (b := b) hx
    simp only at hg
    rw [hg, hg]
    cases y <;> simp only [Op.part, Option.some.injEq, Prod.mk.injEq, reduceCtorEq] at hy
    case updateParams => 
      refine ⟨rfl, ?_⟩
      show Record.update _ _ = (r.update _).setGeo _
      rw [Record.update_bsf h, Record.update_bsf (show "bsf" ∈ (r.setGeo _).params.keys from h)]
      rfl
    case setMonostatic => exact absurd hy.2 hne
    case setBistatic => exact absurd hy.2 hne
    case setGeometry => exact absurd hy.2 hne
    all_goals exact ⟨rfl, rfl⟩
  · by_cases hQ : Q = .geometry
    · subst hQ
      obtain ⟨g, hg⟩ := GeoFun.act (b := b) hy
      simp only at hg
      rw [hg, hg]
      cases x <;> simp only [Op.part, Option.some.injEq, Prod.mk.injEq, reduceCtorEq] at hx
      case updateParams => 
        refine ⟨rfl, ?_⟩
        show (r.update _).setGeo _ = Record.update _ _
        rw [Record.update_bsf h, Record.update_bsf (show "bsf" ∈ (r.setGeo _).params.keys from h)]
        rfl
      case setMonostatic => exact absurd hx.2.symm hP
      case setBistatic => exact absurd hx.2.symm hP
      case setGeometry => exact absurd hx.2.symm hP
      all_goals exact ⟨rfl, rfl⟩
    · have hup : ∀ (kw : Dict) (p : PName) (d : PDef),
          Record.update { r with pdef := Function.update r.pdef p d } kw =
            { r.update kw with pdef := Function.update r.pdef p d } := by
        intro kw p d
        rw [Record.update_bsf h, Record.update_bsf (r := { r with pdef := Function.update r.pdef p d }) h]
      cases x <;> simp only [Op.part, Option.some.injEq, Prod.mk.injEq, reduceCtorEq] at hx
      case setMonostatic => exact absurd hx.2.symm hP
      case setBistatic => exact absurd hx.2.symm hP
      case setGeometry => exact absurd hx.2.symm hP
      case updateParams i kw =>
        cases y <;> simp only [Op.part, Option.some.injEq, Prod.mk.injEq, reduceCtorEq] at hy
        case setMonostatic => exact absurd hy.2.symm hQ
        case setBistatic => exact absurd hy.2.symm hQ
        case setGeometry => exact absurd hy.2.symm hQ
        case updateParams => exact absurd (hx.2.symm.trans hy.2) hne
        case setParamDef j p d => exact ⟨rfl, (hup kw p d).symm⟩
        all_goals exact ⟨rfl, rfl⟩
      case setParamDef i p d =>
        cases y <;> simp only [Op.part, Option.some.injEq, Prod.mk.injEq, reduceCtorEq] at hy
        case setMonostatic => exact absurd hy.2.symm hQ
        case setBistatic => exact absurd hy.2.symm hQ
        case setGeometry => exact absurd hy.2.symm hQ
        case updateParams j kw => exact ⟨rfl, hup kw p d⟩
        case setParamDef j p' d' =>
          refine ⟨rfl, ?_⟩
          have hpp : p' ≠ p := by
            rintro rfl
            exact hne (hx.2.symm.trans hy.2)
          show ({ r with pdef := Function.update (Function.update r.pdef p d) p' d' } : Record) =
            { r with pdef := Function.update (Function.update r.pdef p' d') p d }
          rw [Function.update_comm hpp]
        all_goals exact ⟨rfl, rfl⟩
      all_goals
        cases y <;> simp only [Op.part, Option.some.injEq, Prod.mk.injEq, reduceCtorEq] at hy
        case setMonostatic => exact absurd hy.2.symm hQ
        case setBistatic => exact absurd hy.2.symm hQ
        case setGeometry => exact absurd hy.2.symm hQ
        all_goals first
          | exact absurd (hx.2.symm.trans hy.2) hne
          | exact ⟨rfl, rfl⟩

/-- What a setter does to the remembered names. -/
theorem Remembered.act_setter {x : Op} {i : ℕ} {P : Part} (hx : x.part = some (i, P)) :
    ∃ c : Bool, ∀ (b : Backend) (k : Remembered), k.act b x =
      ((k.settings.act b x).1, ⟨(k.settings.act b x).2, if c = true then none else k.names⟩) := by
  cases x <;> simp only [Op.part, Option.some.injEq, Prod.mk.injEq, reduceCtorEq] at hx
  case setMonostatic => exact ⟨true, fun b k => rfl⟩
  case setBistatic => exact ⟨true, fun b k => rfl⟩
  all_goals exact ⟨false, fun b k => rfl⟩

theorem Remembered.act_swap {b : Backend} {k : Remembered} (h : "bsf" ∈ k.settings.params.keys) {x y : Op} {i j : ℕ} {P Q : Part}
    (hx : x.part = some (i, P)) (hy : y.part = some (j, Q)) (hne : P ≠ Q) :
    ((k.act b x).2.act b y).1 = (k.act b y).1 ∧ ((k.act b x).2.act b y).2 = ((k.act b y).2.act b x).2 := by
  obtain ⟨c, hc⟩ := Remembered.act_setter hx
  obtain ⟨d, hd⟩ := Remembered.act_setter hy
  have := Record.act_swap (b := b) h hx hy hne
  rw [hc b k, hd, hd b k, hc]
  refine ⟨this.1, ?_⟩
  simp only [this.2]
  cases c <;> cases d <;> rfl

theorem Op.part_on {x : Op} {i : ℕ} {P : Part} (hx : x.part = some (i, P)) : x.on = some i ∧ ¬ x.creates := by
  cases x <;> simp only [Op.part, Option.some.injEq, Prod.mk.injEq, reduceCtorEq] at hx
  all_goals exact ⟨congrArg some hx.1, id⟩

theorem Remembered.step_other {b : Backend} {ks : List Remembered} {x : Op} (hc : ¬ x.creates) :
    Remembered.step b ks x = match x.on with
    | none => (.error .attributeError, ks)
    | some id =>
      match ks[id]? with
      | none => (.error .attributeError, ks)
      | some k => ((k.act b x).1, ks.set id (k.act b x).2) := by
  cases x <;> first | exact absurd trivial hc | rfl

/-- Every record knows bsf. -/
def KnowBsf (ks : List Remembered) : Prop := ∀ k ∈ ks, "bsf" ∈ k.settings.params.keys

theorem step_swap {b : Backend} {ks : List Remembered} (h : KnowBsf ks) {x y : Op} (hx : x.part ≠ none) (hy : y.part ≠ none)
    (hne : x.part ≠ y.part) :
    (Remembered.step b (Remembered.step b ks x).2 y).1 = (Remembered.step b ks y).1 ∧
    (Remembered.step b (Remembered.step b ks x).2 y).2 = (Remembered.step b (Remembered.step b ks y).2 x).2 := by
  obtain ⟨⟨i, P⟩, hx⟩ := Option.ne_none_iff_exists'.1 hx
  obtain ⟨⟨j, Q⟩, hy⟩ := Option.ne_none_iff_exists'.1 hy
  rw [hx, hy] at hne
  obtain ⟨ox, cx⟩ := Op.part_on hx
  obtain ⟨oy, cy⟩ := Op.part_on hy
  simp only [Remembered.step_other cx, Remembered.step_other cy, ox, oy]
  by_cases hij : i = j
  · subst hij
    have hPQ : P ≠ Q := fun h => hne (by rw [h])
    cases hg : ks[i]? with
    | none => simp only [hg]; exact ⟨trivial, trivial⟩
    | some k =>
      have hi : i < ks.length := (List.getElem?_eq_some_iff.1 hg).1
      have hs := Remembered.act_swap (b := b) (h k (List.mem_of_getElem? hg)) hx hy hPQ
      simp only [List.getElem?_set_self hi, List.set_set]
      exact ⟨hs.1, by rw [hs.2]⟩
  · cases hg : ks[i]? with
    | none =>
      cases hg' : ks[j]? with
      | none => simp only [hg, hg']; exact ⟨trivial, trivial⟩
      | some k' =>
        simp only [hg', List.getElem?_set_ne (Ne.symm hij), hg]
        exact ⟨trivial, trivial⟩
    | some k =>
      cases hg' : ks[j]? with
      | none =>
        simp only [hg, List.getElem?_set_ne hij, hg']
        exact ⟨trivial, trivial⟩
      | some k' =>
        simp only [List.getElem?_set_ne (Ne.symm hij), hg, List.getElem?_set_ne hij, hg']
        exact ⟨trivial, List.set_comm _ _ hij⟩

end

end RT1
