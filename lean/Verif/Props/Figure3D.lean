import Verif.Model.Figure3D
import Verif.Props.Frame3D
import Verif.Props.AnalyzeNeg

/-!
# What the axes of the 3D analyzer contain (C96)
-/

namespace RT1

noncomputable section
open Classical

/-- Label and colour that identify a contribution. -/
inductive Look : Char → String → String → Prop
  | total : Look 't' "Total" "C0"
  | surface : Look 's' "Surface" "C1"
  | volume : Look 'v' "Volume" "C2"
  | interaction : Look 'i' "Interaction" "C3"

/-- Sessions of the 3D analyzer with its axes.  `L` is the half-width of the axes when the analyzer was
created, `ok` tells whether the last callback succeeded.  Between the callbacks anything may be done with
the RT1 objects (`call`: any other state). -/
inductive Figure3D (id n : ℕ) (cs : List Char) : World → Analyzer3D → ℝ → Bool → Axes3D → Prop
  | start {w w' : World} {ps : List (String × List SliderArg)} {A : Analyzer3D} {L : ℝ} :
      analyze3d id n cs ps w = (.ok A, w') → frame3d A.surfaces = .fin L →
      Figure3D id n cs w' A L true (Axes3D.first A L)
  | slide {w w' : World} {A A' : Analyzer3D} {L : ℝ} {ok : Bool} {f : Axes3D} (key : String) (v : ℝ) :
      Figure3D id n cs w A L ok f → A.slide id key v w = (.ok A', w') →
      Figure3D id n cs w' A' L true (f.update (.ok A'))
  | fail {w w' : World} {A : Analyzer3D} {L : ℝ} {ok : Bool} {f : Axes3D} {e : PyErr} (key : String) (v : ℝ) :
      Figure3D id n cs w A L ok f → A.slide id key v w = (.error e, w') →
      Figure3D id n cs w' (A.moved key v) L false (f.update (.error e))
  | call {w w' : World} {A : Analyzer3D} {L : ℝ} {ok : Bool} {f : Axes3D} :
      Figure3D id n cs w A L ok f → Figure3D id n cs w' A L ok f

/-- The ground plane `G` and then the artists `l`, exactly the latter known to the analyzer. -/
def Axes3D.Holds (f : Axes3D) (G : Artist3D) (l : List Artist3D) : Prop :=
  ∃ g rest, f.drawn = (g, G) :: rest ∧ rest.map Prod.snd = l ∧ g ∉ f.own ∧ (∀ p ∈ rest, p.1 ∈ f.own) ∧ g < f.next

theorem Axes3D.Holds.drawOwn {f : Axes3D} {G : Artist3D} {l : List Artist3D} (h : f.Holds G l) (a : Artist3D) :
    (f.drawOwn a).Holds G (l ++ [a]) := by
  obtain ⟨g, rest, h1, h2, h3, h4, h5⟩ := h
  refine ⟨g, rest ++ [(f.next, a)], by simp [Axes3D.drawOwn, Axes3D.draw, h1], by simp [h2], ?_, fun p hp => ?_,
    Nat.lt_succ_of_lt h5⟩
  · simp only [Axes3D.drawOwn, List.mem_cons, not_or]
    exact ⟨h5.ne, h3⟩
  · simp only [Axes3D.drawOwn, List.mem_cons]
    rcases List.mem_append.mp hp with hp | hp
    · exact .inr (h4 p hp)
    · rw [List.mem_singleton.mp hp]
      exact .inl rfl

theorem Axes3D.Holds.foldl {G : Artist3D} (k : List Artist3D) : ∀ {f : Axes3D} {l : List Artist3D}, f.Holds G l →
    (k.foldl Axes3D.drawOwn f).Holds G (l ++ k) := by
  induction k with
  | nil => intro f l h; simpa using h
  | cons a k ih =>
    intro f l h
    have := ih (h.drawOwn a)
    simpa using this

theorem Axes3D.Holds.clear {f : Axes3D} {G : Artist3D} {l : List Artist3D} (h : f.Holds G l) : f.clear.Holds G [] := by
  obtain ⟨g, rest, h1, h2, h3, h4, h5⟩ := h
  refine ⟨g, [], ?_, rfl, by simp [Axes3D.clear], by simp, h5⟩
  simp only [Axes3D.clear, h1]
  rw [List.filter_cons_of_pos (by simpa using h3), List.filter_eq_nil_iff.mpr fun p hp => by simpa using h4 p hp]

theorem Axes3D.Holds.rays {f : Axes3D} {G : Artist3D} {l : List Artist3D} (h : f.Holds G l) (A : Analyzer3D) :
    (f.rays A).Holds G (l ++ [.ray true A.arrows.1, .ray false A.arrows.2]) := by
  have := (h.drawOwn (.ray true A.arrows.1)).drawOwn (.ray false A.arrows.2)
  rw [List.append_assoc] at this
  exact this

theorem foldl_legend (k : List Artist3D) : ∀ f : Axes3D, (k.foldl Axes3D.drawOwn f).legend = f.legend := by
  induction k with
  | nil => exact fun _ => rfl
  | cons a k ih => exact fun f => ih _

/-- The surfaces belong to the indices of the contributions. -/
theorem update3_indices {w w' : World} {id : ℕ} {A A' : Analyzer3D} (h : Analyzer3D.update id A w = (.ok A', w')) :
    ∃ idx, useContribs A'.contribs = .ok idx ∧ idx.length = A'.surfaces.length := by
  have hc := (update3_fields h).2.2
  unfold Analyzer3D.update at h
  obtain ⟨_, _, -, h⟩ := bind_ok_inv h
  obtain ⟨⟨x, y, z⟩, _, -, h⟩ := bind_ok_inv h
  obtain ⟨idx, _, h1, h⟩ := bind_ok_inv h
  obtain ⟨l, _, h2, h⟩ := bind_ok_inv h
  split_ifs at h
  · cases h
  · cases h
    exact ⟨idx, (lift_ok h1).1, (mapM_ok (lift_ok h2).1).length_eq⟩

theorem analyze3d_indices {w w' : World} {id n : ℕ} {cs : List Char} {ps : List (String × List SliderArg)}
    {A : Analyzer3D} (h : analyze3d id n cs ps w = (.ok A, w')) :
    ∃ idx, useContribs A.contribs = .ok idx ∧ idx.length = A.surfaces.length := by
  unfold analyze3d at h
  obtain ⟨_, _, -, h⟩ := bind_ok_inv h
  obtain ⟨_, _, -, h⟩ := bind_ok_inv h
  obtain ⟨_, _, -, h⟩ := bind_ok_inv h
  obtain ⟨_, _, -, h⟩ := bind_ok_inv h
  obtain ⟨_, _, -, h⟩ := bind_ok_inv h
  obtain ⟨_, _, -, h⟩ := bind_ok_inv h
  exact update3_indices (first3_ok h).1

theorem contribIndex_look {c : Char} {k : ℕ} (h : contribIndex c = .ok k) : Look c (labels3d k) (colors3d k) := by
  unfold contribIndex at h
  split at h <;> cases h <;> constructor

/-- `l` are the surfaces of the contributions `cs` with the coordinates `s`, labelled and coloured. -/
def Depict (cs : List Char) (s : List (Arr × Arr × Arr)) (l : List Artist3D) : Prop :=
  l.length = cs.length ∧ ∀ (j : ℕ) (c : Char), cs[j]? = some c → ∃ name colour x y z,
    Look c name colour ∧ s[j]? = some (x, y, z) ∧ l[j]? = some (.surface name colour x y z)

theorem artists_depict {A : Analyzer3D} (h : ∃ idx, useContribs A.contribs = .ok idx ∧ idx.length = A.surfaces.length) :
    Depict A.contribs A.surfaces A.artists := by
  obtain ⟨idx, h1, h2⟩ := h
  have h3 := mapM_ok h1
  unfold Analyzer3D.artists
  rw [h1]
  refine ⟨by simp [← h2, h3.length_eq], fun j c hc => ?_⟩
  obtain ⟨hj, rfl⟩ := List.getElem?_eq_some_iff.mp hc
  have hi : j < idx.length := h3.length_eq ▸ hj
  have hs : j < A.surfaces.length := h2 ▸ hi
  refine ⟨_, _, A.surfaces[j].1, A.surfaces[j].2.1, A.surfaces[j].2.2, contribIndex_look (h3.get hj hi), ?_, ?_⟩
  · simp [List.getElem?_eq_getElem hs]
  · simp [List.getElem?_eq_getElem hi, List.getElem?_eq_getElem hs, List.getElem?_zip_eq_some]

theorem first_holds (A : Analyzer3D) (L : ℝ) : (Axes3D.first A L).Holds
    (.ground (getsurface L).1 (getsurface L).2.1 (getsurface L).2.2)
    (A.artists ++ [.ray true A.arrows.1, .ray false A.arrows.2]) := by
  have h0 : (Axes3D.empty.clear.draw (.ground (getsurface L).1 (getsurface L).2.1 (getsurface L).2.2)).Holds
      (.ground (getsurface L).1 (getsurface L).2.1 (getsurface L).2.2) [] :=
    ⟨0, [], rfl, rfl, by simp [Axes3D.draw, Axes3D.clear], by simp, Nat.one_pos⟩
  have h1 := h0.foldl A.artists
  rw [List.nil_append] at h1
  have h2 : (Axes3D.addLegend (A.artists.foldl Axes3D.drawOwn (Axes3D.empty.clear.draw
      (.ground (getsurface L).1 (getsurface L).2.1 (getsurface L).2.2)))).Holds _ A.artists := h1
  exact h2.rays A

theorem first_legend (A : Analyzer3D) (L : ℝ) : (Axes3D.first A L).legend = A.artists.filterMap fun a => match a with
    | .surface l c _ _ _ => some (l, c)
    | _ => none := by
  have h0 : (Axes3D.empty.clear.draw (.ground (getsurface L).1 (getsurface L).2.1 (getsurface L).2.2)).Holds
      (.ground (getsurface L).1 (getsurface L).2.1 (getsurface L).2.2) [] :=
    ⟨0, [], rfl, rfl, by simp [Axes3D.draw, Axes3D.clear], by simp, Nat.one_pos⟩
  obtain ⟨g, rest, h1, h2, -⟩ := h0.foldl A.artists
  rw [List.nil_append] at h2
  show ((A.artists.foldl Axes3D.drawOwn _).drawn.filterMap _) = _
  rw [h1, List.filterMap_cons_none rfl, ← h2, List.filterMap_map]
  rfl

/-- The invariant of a session. -/
theorem Figure3D.inv {id n : ℕ} {cs : List Char} {w : World} {A : Analyzer3D} {L : ℝ} {ok : Bool} {f : Axes3D}
    (h : Figure3D id n cs w A L ok f) : A.contribs = cs ∧
      f.Holds (.ground (getsurface L).1 (getsurface L).2.1 (getsurface L).2.2)
        (if ok then A.artists ++ [.ray true A.arrows.1, .ray false A.arrows.2] else []) ∧
      (ok = true → Depict cs A.surfaces A.artists) ∧
      f.legend.length = cs.length ∧
      ∀ (j : ℕ) (c : Char), cs[j]? = some c → ∃ name colour, Look c name colour ∧ f.legend[j]? = some (name, colour) := by
  induction h with
  | @start w w' ps A L h hL =>
    have hc := (analyze3d_fields h).2
    have hd := artists_depict (analyze3d_indices h)
    rw [hc] at hd
    have hl : (Axes3D.first A L).legend.length = cs.length ∧ ∀ (j : ℕ) (c : Char), cs[j]? = some c →
        ∃ name colour, Look c name colour ∧ (Axes3D.first A L).legend[j]? = some (name, colour) := by
      have e : (Axes3D.first A L).legend = A.artists.map fun a => match a with
          | .surface l c _ _ _ => (l, c)
          | _ => ("", "") := by
        rw [first_legend]
        refine List.filterMap_eq_map_iff_forall_eq_some.mpr fun a ha => ?_
        unfold Analyzer3D.artists at ha
        split at ha
        · obtain ⟨p, -, rfl⟩ := List.mem_map.mp ha
          rfl
        · cases ha
      rw [e]
      refine ⟨by rw [List.length_map]; exact hd.1, fun j c hj => ?_⟩
      obtain ⟨nm, co, x, y, z, h1, -, h3⟩ := hd.2 j c hj
      exact ⟨nm, co, h1, by rw [List.getElem?_map, h3]; rfl⟩
    exact ⟨hc, first_holds A L, fun _ => hd, hl⟩
  | @slide w w' A A' L ok f key v _ h ih =>
    obtain ⟨hc, hh, -, hl⟩ := ih
    have hc' : A'.contribs = cs := by
      rw [(update3_fields h).2.2]
      split_ifs <;> exact hc
    have hd := artists_depict (update3_indices h)
    rw [hc'] at hd
    have h1 := hh.clear.foldl A'.artists
    rw [List.nil_append] at h1
    refine ⟨hc', h1.rays A', fun _ => hd, ?_⟩
    have e : (f.update (.ok A')).legend = f.legend :=
      (foldl_legend A'.artists f.clear :)
    rw [e]
    exact hl
  | @fail w w' A L ok f e key v _ h ih =>
    obtain ⟨hc, hh, -, hl⟩ := ih
    refine ⟨?_, hh.clear, fun h => (by cases h), hl⟩
    unfold Analyzer3D.moved
    split_ifs <;> exact hc
  | call _ ih => exact ih

/-- **C96** (content): whatever was done before, after a callback that succeeded the axes show the
ground plane, one surface for each requested contribution (with its label, its colour and the coordinates that
the callback calculated) and one dashed and one solid ray, and nothing else: nothing of an earlier picture is left. -/
theorem C96_content {id n : ℕ} {cs : List Char} {w : World} {A : Analyzer3D} {L : ℝ} {f : Axes3D}
    (h : Figure3D id n cs w A L true f) : ∃ gx gy gz l,
      f.drawn.map Prod.snd = .ground gx gy gz :: (l ++ [.ray true A.arrows.1, .ray false A.arrows.2]) ∧
      Depict cs A.surfaces l := by
  obtain ⟨-, ⟨g, rest, h1, h2, -⟩, h3, -⟩ := h.inv
  exact ⟨_, _, _, A.artists, by rw [h1, List.map_cons, h2, if_pos rfl], h3 rfl⟩

/-- **C96** (failed callback): after a callback that raised the axes show the ground plane only,
not the picture for earlier values of the sliders. -/
theorem C96_failed {id n : ℕ} {cs : List Char} {w : World} {A : Analyzer3D} {L : ℝ} {f : Axes3D}
    (h : Figure3D id n cs w A L false f) : ∃ gx gy gz, f.drawn.map Prod.snd = [.ground gx gy gz] := by
  obtain ⟨-, ⟨g, rest, h1, h2, -⟩, -⟩ := h.inv
  exact ⟨_, _, _, by rw [h1, List.map_cons, h2]; rfl⟩

/-- **C96** (legend): the legend has one line for each requested contribution, with the label and the
colour of the surface, throughout the session. -/
theorem C96_legend {id n : ℕ} {cs : List Char} {w : World} {A : Analyzer3D} {L : ℝ} {ok : Bool} {f : Axes3D}
    (h : Figure3D id n cs w A L ok f) : f.legend.length = cs.length ∧
      ∀ (j : ℕ) (c : Char), cs[j]? = some c → ∃ name colour, Look c name colour ∧ f.legend[j]? = some (name, colour) :=
  h.inv.2.2.2

/-- **C96** (identification): label or colour determine the contribution, and conversely. -/
theorem C96_identify {id n : ℕ} {cs : List Char} {w : World} {A : Analyzer3D} {L : ℝ} {ok : Bool} {f : Axes3D}
    (h : Figure3D id n cs w A L ok f) {i j : ℕ} {c d : Char} (hc : cs[i]? = some c) (hd : cs[j]? = some d) :
    ∃ a b a' b', f.legend[i]? = some (a, b) ∧ f.legend[j]? = some (a', b') ∧ (a = a' ↔ c = d) ∧ (b = b' ↔ c = d) := by
  obtain ⟨a, b, h1, h2⟩ := (C96_legend h).2 i c hc
  obtain ⟨a', b', h3, h4⟩ := (C96_legend h).2 j d hd
  refine ⟨a, b, a', b', h2, h4, ?_⟩
  cases h1 <;> cases h3 <;> simp

/-- **C96** (ground): throughout the session the ground plane is the horizontal square at height zero
from `-L` to `L` in both directions, where `L` is the half-width of the axes: its points lie in
it, and its corners are the corners of the square. -/
theorem C96_ground {id n : ℕ} {cs : List Char} {w : World} {A : Analyzer3D} {L : ℝ} {ok : Bool} {f : Axes3D}
    (h : Figure3D id n cs w A L ok f) (h0 : 0 ≤ L) : ∃ gx gy gz m, f.drawn.head?.map Prod.snd = some (.ground gx gy gz) ∧
      1 < m ∧ gx.shape = [m, m] ∧ gy.shape = [m, m] ∧ gz.shape = [m, m] ∧
      (∀ i < m, ∀ j < m, gz.get [i, j] = .fin 0 ∧ ∃ a b, gx.get [i, j] = .fin a ∧ |a| ≤ L ∧ gy.get [i, j] = .fin b ∧ |b| ≤ L) ∧
      gx.get [0, 0] = .fin (-L) ∧ gy.get [0, 0] = .fin (-L) ∧ gx.get [m - 1, 0] = .fin L ∧ gy.get [m - 1, 0] = .fin (-L) ∧
      gx.get [0, m - 1] = .fin (-L) ∧ gy.get [0, m - 1] = .fin L ∧
      gx.get [m - 1, m - 1] = .fin L ∧ gy.get [m - 1, m - 1] = .fin L := by
  obtain ⟨-, ⟨g, rest, h1, h2, -⟩, -⟩ := h.inv
  have hb : ∀ i < 100, |linspace (-L) L 100 i| ≤ L := fun i hi => by
    have : (i : ℝ) ≤ 99 := by exact_mod_cast Nat.le_of_lt_succ hi
    have h2 : (0 : ℝ) ≤ i := Nat.cast_nonneg i
    unfold linspace
    rw [abs_le]
    push_cast
    constructor <;> nlinarith [mul_le_mul_of_nonneg_right this h0, mul_nonneg h2 h0]
  have e0 : linspace (-L) L 100 0 = -L := by simp [linspace]
  have e1 : linspace (-L) L 100 99 = L := by
    unfold linspace
    push_cast
    ring
  refine ⟨_, _, _, 100, by rw [h1]; rfl, by norm_num, rfl, rfl, rfl, fun i hi j hj => ⟨rfl, _, _, rfl, hb i hi, rfl, hb j hj⟩, ?_⟩
  simp [getsurface, e0, e1]

/-- **C96** (frame): when the analyzer was created the ground plane reaches exactly as far as the
surfaces: every horizontal coordinate of a surface is at most `L`, and one attains it. -/
theorem C96_reach {w w' : World} {id n : ℕ} {cs : List Char} {ps : List (String × List SliderArg)} {A : Analyzer3D}
    (h : analyze3d id n cs ps w = (.ok A, w')) : ∃ L, 0 ≤ L ∧ Figure3D id n cs w' A L true (Axes3D.first A L) ∧
      (∀ v, A.Horizontal v → v = .nan ∨ ∃ r, v = .fin r ∧ |r| ≤ L) ∧ ∃ r, A.Horizontal (.fin r) ∧ |r| = L := by
  obtain ⟨L, h1, h2, r, h3, h4⟩ := C85_limits h
  exact ⟨L, h4 ▸ abs_nonneg r, .start h h1, h2, r, h3, h4⟩

/-- **C96** (above the ground): where `calc` gives a number for a contribution, the point of its
surface lies above the ground plane if the number is positive, below if it is negative, on it if
it is zero. -/
theorem C96_above {P : Op → Prop} {id n : ℕ} (hP : ∀ op, P op → ¬ MovesAngles id op) {w : World} {A : Analyzer3D}
    (h : Drawn3D P id n w A) {j : ℕ} {c : Char} (hj : A.contribs[j]? = some c) : ∃ (res : Arr) (S : List ℕ) (k : ℕ)
      (x y z : Arr),
      (calcOp id ((A.sliders.filter fun p => decide (p.1 ≠ "inc")).map fun p => (p.1, Arr.lit p.2.val))
        (step (.setIntQ id (decide ('i' ∈ A.contribs))) w).2).1 = .ok res ∧ Shows c k ∧
      res.shape.dropLast = S ∧ A.surfaces[j]? = some (x, y, z) ∧
      ∀ idx r, Arr.Valid S idx → res.get (idx ++ [k]) = XR.fin r →
        ∃ height, z.get idx = XR.fin height ∧ (0 < height ↔ 0 < r) ∧ (height < 0 ↔ r < 0) := by
  obtain ⟨res, S, o, a, h1, h2, hS, -, -, -, -, -, h3⟩ := C68_surfaces hP h
  obtain ⟨k, x, y, z, e1, e2, -, -, -, e3⟩ := h3 j c hj
  refine ⟨res, S, k, x, y, z, h1, e1, by rw [h2]; simp, e2, fun idx r hv hr => ?_⟩
  have f3 := (e3 idx hv).2.2
  rw [hr] at f3
  have hc : 0 < Real.cos (gridPolar n (idx.getD 0 0)) := by
    rcases S with _ | ⟨m, S⟩
    · cases hS
    · rcases hS.1 with rfl | rfl
      · simp [gridPolar]
      · refine gridPolar_cos ?_
        rcases hv with _ | ⟨h, _⟩
        exact h
  exact ⟨_, f3, mul_pos_iff_of_pos_right hc, by constructor <;> intro h <;> nlinarith⟩

/-- The hypotheses are met: a session with three contributions in which the slider of the
incidence angle was moved to 30°. -/
example (b : Backend) (q s d : Bool) {I : ℝ} (hI : s = true → I ≠ 0) (t p τ ω N : ℝ) {n : ℕ} (hn : n ≠ 0) :
    ∃ w A L f, 0 ≤ L ∧ Figure3D 0 n ['t', 's', 'v'] w A L true f ∧ A.inc = 30 ∧ f.drawn.length = 6 ∧
      f.legend[2]? = some ("Volume", "C2") := by
  obtain ⟨A, w', h⟩ := num_slides b q s d hI t p τ ω N hn [("inc", 30)]
  obtain ⟨A1, w1, h1, h⟩ := bind_ok_inv h
  rw [List.foldlM_cons] at h
  obtain ⟨A2, w2, h2, h⟩ := bind_ok_inv h
  have h : (.ok A2, w2) = ((.ok A, w') : Py Analyzer3D × World) := h
  cases h
  obtain ⟨L, h0, hF, -⟩ := C96_reach h1
  have hF' := Figure3D.slide "inc" 30 hF h2
  have f2 := update3_fields h2
  rw [if_pos rfl] at f2
  refine ⟨_, _, L, _, h0, hF', f2.1, ?_, ?_⟩
  · obtain ⟨gx, gy, gz, l, e, hl, -⟩ := C96_content hF'
    have := congrArg List.length e
    simpa [hl] using this
  · obtain ⟨nm, co, e1, e2⟩ := (C96_legend hF').2 2 'v' rfl
    cases e1
    exact e2

/-- The hypothesis of `C96_failed` is met: after the creation the user sets `R.tau = "inc"`, a name without
value, and moves the slider of the incidence angle. -/
example (b : Backend) (q s d : Bool) {I : ℝ} (hI : s = true → I ≠ 0) (t p τ ω N : ℝ) {n : ℕ} (hn : n ≠ 0) :
    ∃ w A L f, Figure3D 0 n ['t', 's', 'v'] w A L false f ∧ A.inc = 30 ∧ f.drawn.length = 1 := by
  obtain ⟨A, w', h⟩ := num_slides b q s d hI t p τ ω N hn []
  obtain ⟨A1, w1, h1, -⟩ := bind_ok_inv h
  obtain ⟨L, h0, hF, -⟩ := C96_reach h1
  have hw : Reachable (numW b isoV isoS q s d I t p τ ω N) := num_reachable ..
  obtain ⟨o1, ho1, hsame, -⟩ := C69_analyze3d hw (num_objs ..) n ['t', 's', 'v'] [("tau", [.number 0, .number 1])]
  rw [h1] at ho1
  have hP : ∀ op, op = Op.setParamDef 0 .tau (.str (.sym "inc")) → ¬ MovesAngles 0 op := by
    rintro _ rfl h
    cases h
  have hS : Session3D (fun op => op = Op.setParamDef 0 .tau (.str (.sym "inc"))) 0 n
      (step (.setParamDef 0 .tau (.str (.sym "inc"))) w1).2 A1 := .call _ (.start hw h1) trivial rfl
  have ho2 : (step (.setParamDef 0 .tau (.str (.sym "inc"))) w1).2.objs 0 =
      some { o1 with pdef := Function.update o1.pdef .tau (.str (.sym "inc")) } :=
    modObj_get (w := (clearParam w1).2) (show (clearParam w1).2.objs 0 = some o1 from ho1) _
  obtain ⟨r2, o2, ho2', g2⟩ := hS.grid hP
  have hF2 := hF.call (w' := (step (.setParamDef 0 .tau (.str (.sym "inc"))) w1).2)
  generalize (step (.setParamDef 0 .tau (.str (.sym "inc"))) w1).2 = w2 at *
  rw [ho2] at ho2'
  cases ho2'
  have hk : "inc" ∉ o1.params.keys := fun hm => by
    obtain ⟨v, hv⟩ := Dict.get?_of_mem hm
    rw [hsame.params "inc" (by simp)] at hv
    have := Lam.mem_of_get? hv
    rw [num_keys] at this
    simp at this
  have hE : ∃ e w3, A1.slide 0 "inc" 30 w2 = (.error e, w3) := by
    rcases hx : A1.slide 0 "inc" 30 w2 with ⟨r, w3⟩
    cases r with
    | error e => exact ⟨e, w3, rfl⟩
    | ok A2 =>
      obtain ⟨o', res, x, y, z, ks, hU⟩ := update3_ok r2 ho2 g2 hx
      have hb := (r2.keeps.any.bsfOK ho2).1
      refine (calcAll_tau_missing (e := .sym "inc") (a := "inc") ?_ (by simp [Expr.free]) ?_ res hU.calc_).elim
      · show (Fresh.update _ (sliderVals (noInc A1.sliders))).pdef .tau = _
        rw [Fresh.update_eq hb]
        show Function.update o1.pdef PName.tau (PDef.str (.sym "inc")) .tau = _
        exact Function.update_self (β := fun _ => PDef) ..
      · show "inc" ∉ (Fresh.update _ (sliderVals (noInc A1.sliders))).params.keys
        rw [update_params hb, Dict.mem_keys_update]
        rintro (hm | hm)
        · exact hk hm
        · simp [Dict.keys, sliderVals, noInc] at hm
  obtain ⟨e, w3, hE⟩ := hE
  have hF' := Figure3D.fail "inc" 30 hF2 hE
  refine ⟨_, _, L, _, hF', rfl, ?_⟩
  obtain ⟨gx, gy, gz, e⟩ := C96_failed hF'
  simpa using congrArg List.length e

end

end RT1
