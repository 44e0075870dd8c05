import Verif.Spec.Analyze

/-!
# What the sliders of an analyzer show after a sequence of user events
-/

namespace RT1

noncomputable section
open Classical

/-- The value `v` is the last one in `moves` for `key`; `v0` if there is none. -/
def LastMove (moves : List (String × ℝ)) (key : String) (v0 v : ℝ) : Prop :=
  (∃ l l', moves = l ++ (key, v) :: l' ∧ ∀ u, (key, u) ∉ l') ∨ ((∀ u, (key, u) ∉ moves) ∧ v = v0)

/-- The slider movements among the events. -/
def movesOf : List Event → List (String × ℝ)
  | [] => []
  | .slide k v :: es => (k, v) :: movesOf es
  | .select _ :: es => movesOf es

/-- The selections of a range parameter among the events. -/
def selectionsOf : List Event → List (Option String)
  | [] => []
  | .slide _ _ :: es => selectionsOf es
  | .select k :: es => k :: selectionsOf es

/-- `Session` with its history: the analyzer `A0` was created, the events `es` (in this order)
followed, with other calls in between. -/
inductive Played (P : Op → Prop) (id : ℕ) (A0 : Analyzer) : List Event → World → Analyzer → Prop
  | start {w w' : World} {r : Option String} {ps : List (String × List SliderArg)} :
      Reachable w → analyze id r ps w = (.ok A0, w') → Played P id A0 [] w' A0
  | event {es : List Event} {w w' : World} {A A' : Analyzer} (e : Event) :
      Played P id A0 es w A → A.event id e w = (.ok A', w') → Played P id A0 (es ++ [e]) w' A'
  | call {es : List Event} {w : World} {A : Analyzer} (op : Op) : Played P id A0 es w A → op.Plain → P op →
      Played P id A0 es (step op w).2 A

/-- The same for the 3D analyzer; the events are movements of sliders. -/
inductive Played3D (P : Op → Prop) (id n : ℕ) (A0 : Analyzer3D) : List (String × ℝ) → World → Analyzer3D → Prop
  | start {w w' : World} {cs : List Char} {ps : List (String × List SliderArg)} :
      Reachable w → analyze3d id n cs ps w = (.ok A0, w') → Played3D P id n A0 [] w' A0
  | slide {es : List (String × ℝ)} {w w' : World} {A A' : Analyzer3D} (key : String) (v : ℝ) :
      Played3D P id n A0 es w A → A.slide id key v w = (.ok A', w') → Played3D P id n A0 (es ++ [(key, v)]) w' A'
  | call {es : List (String × ℝ)} {w : World} {A : Analyzer3D} (op : Op) : Played3D P id n A0 es w A → op.Plain → P op →
      Played3D P id n A0 es (step op w).2 A

/-- A slider after the movements: limits as before, the value is the last one it was moved to. -/
def SliderAfter (moves : List (String × ℝ)) (p0 p : String × Slider) : Prop :=
  p.1 = p0.1 ∧ p.2.lo = p0.2.lo ∧ p.2.hi = p0.2.hi ∧ LastMove moves p0.1 p0.2.val p.2.val

end

end RT1
