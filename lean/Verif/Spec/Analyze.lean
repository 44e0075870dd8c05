import Verif.Model.Analyze

/-!
# Specification of the analyzers
-/

namespace RT1

noncomputable section
open Classical

/-- The name is used by the model (in a definition of a parameter or in a scattering function) and
does not stand for an angle. -/
def Obj.Needs (o : Obj) (n : String) : Prop :=
  ((∃ p e, o.pdef p = .str e ∧ n ∈ e.free) ∨ n ∈ o.V.phase.free ∨ n ∈ o.SRF.phase.free) ∧
    n ∉ ["theta_0", "theta_ex", "phi_0", "phi_ex"]

/-- A slider for the given tuple: the limits are the first two numbers, the value lies between the
limits, an explicit start value between the limits is used. -/
def SliderFor (args : List SliderArg) (s : Slider) : Prop :=
  ∃ a b rest, args = .number a :: .number b :: rest ∧ s.lo = a ∧ s.hi = b ∧
    (a ≤ b → a ≤ s.val ∧ s.val ≤ b) ∧
    ∀ c r, rest = .number c :: r → a ≤ c → c ≤ b → s.val = c

/-- The row of `calc()` that belongs to a label. -/
inductive LabelRow : String → ℕ → Prop
  | total : LabelRow "Total" 0
  | surface : LabelRow "Surface" 1
  | volume : LabelRow "Volume" 2
  | interaction : LabelRow "Interaction" 3

/-- An index without its entries for axes of length 1. -/
def dropOnes : List ℕ → List ℕ → List ℕ
  | a :: s, i :: idx => if a = 1 then dropOnes s idx else i :: dropOnes s idx
  | _, _ => []

/-- `line` holds the entries of row `k` of `res`, without axes of length 1. -/
def IsRow (line res : Arr) (k : ℕ) : Prop :=
  ∃ S n, res.shape = S ++ [n] ∧ k < n ∧ line.shape = S.filter (fun m => decide (m ≠ 1)) ∧
    ∀ idx, Arr.Valid S idx → line.get (dropOnes S idx) = res.get (idx ++ [k])

/-- The sum of two values in the units of the object. -/
def unitSum (dB : Bool) (a b : ℝ) : ℝ :=
  if dB = true then 10 * Real.logb 10 ((10 : ℝ) ^ (a / 10) + (10 : ℝ) ^ (b / 10)) else a + b

/-- The labels of the lines (the dashed line for surface + volume has none). -/
def labelsFor (intQ : Bool) : List (Option String) :=
  [some "Total", some "Surface", some "Volume"] ++ (if intQ = true then [some "Interaction", none] else [])

/-- Sessions: an analyzer `A` for the object `id` was created in some reachable state; then sliders
are moved, range parameters selected (callbacks that succeed) and other calls made that satisfy
`P`. -/
inductive Session (P : Op → Prop) (id : ℕ) : World → Analyzer → Prop
  | start {w w' : World} {r : Option String} {ps : List (String × List SliderArg)} {A : Analyzer} :
      Reachable w → analyze id r ps w = (.ok A, w') → Session P id w' A
  | event {w w' : World} {A A' : Analyzer} (e : Event) :
      Session P id w A → A.event id e w = (.ok A', w') → Session P id w' A'
  | call {w : World} {A : Analyzer} (op : Op) : Session P id w A → op.Plain → P op →
      Session P id (step op w).2 A

/-- The lines of `A` were just drawn in the state `w`. -/
inductive Drawn (P : Op → Prop) (id : ℕ) : World → Analyzer → Prop
  | start {w w' : World} {r : Option String} {ps : List (String × List SliderArg)} {A : Analyzer} :
      Reachable w → analyze id r ps w = (.ok A, w') → Drawn P id w' A
  | event {w w' : World} {A A' : Analyzer} (e : Event) :
      Session P id w A → A.event id e w = (.ok A', w') → Drawn P id w' A'

/-- The values of the sliders as python numbers; the parameter `key` has the `j`-th of 20 equidistant
values between the limits of its slider. -/
def overlayValues (sl : List (String × Slider)) (key : String) (j : ℕ) : Dict :=
  sl.map fun p => (p.1, Arr.lit (if p.1 = key then p.2.lo + (p.2.hi - p.2.lo) * j / 19 else p.2.val))

/-- What an analyzer leaves as it is: scattering functions, intensity, units, `int_Q`, definitions
of parameters, and the values of all parameters but those with the given names. -/
structure SameBut (keys : List String) (o o' : Obj) : Prop where
  V : o'.V = o.V
  SRF : o'.SRF = o.SRF
  I0 : o'.I0 = o.I0
  sig0 : o'.sig0 = o.sig0
  pdef : o'.pdef = o.pdef
  intQ : o'.intQ = o.intQ
  params : ∀ k, k ∉ keys → o'.params.get? k = o.params.get? k

/-- Sessions of the 3D analyzer with `n` samples: created in some reachable state, then sliders are
moved (callbacks that succeed) and other calls made that satisfy `P`. -/
inductive Session3D (P : Op → Prop) (id n : ℕ) : World → Analyzer3D → Prop
  | start {w w' : World} {cs : List Char} {ps : List (String × List SliderArg)} {A : Analyzer3D} :
      Reachable w → analyze3d id n cs ps w = (.ok A, w') → Session3D P id n w' A
  | slide {w w' : World} {A A' : Analyzer3D} (key : String) (v : ℝ) :
      Session3D P id n w A → A.slide id key v w = (.ok A', w') → Session3D P id n w' A'
  | call {w : World} {A : Analyzer3D} (op : Op) : Session3D P id n w A → op.Plain → P op →
      Session3D P id n (step op w).2 A

/-- The surfaces of `A` were just drawn in the state `w`. -/
inductive Drawn3D (P : Op → Prop) (id n : ℕ) : World → Analyzer3D → Prop
  | start {w w' : World} {cs : List Char} {ps : List (String × List SliderArg)} {A : Analyzer3D} :
      Reachable w → analyze3d id n cs ps w = (.ok A, w') → Drawn3D P id n w' A
  | slide {w w' : World} {A A' : Analyzer3D} (key : String) (v : ℝ) :
      Session3D P id n w A → A.slide id key v w = (.ok A', w') → Drawn3D P id n w' A'

/-- The exit angle of the grid point in column `i`: from 0° to 89°. -/
def gridPolar (n i : ℕ) : ℝ := (89 * i / (n - 1 : ℝ)) * (Real.pi / 180)
/-- The azimuth of the grid point in row `i`: from -180° to 180°. -/
def gridAzimuth (n i : ℕ) : ℝ := (-180 + 360 * i / (n - 1 : ℝ)) * (Real.pi / 180)

/-- Calls that may change the angles of the object. -/
inductive MovesAngles (id : ℕ) : Op → Prop
  | geom (kw : List (String × Option Arr)) : MovesAngles id (.setGeometry id kw)
  | mono (p : Option PyArg) : MovesAngles id (.setMonostatic id p)
  | bi (a b c d : Option PyArg) : MovesAngles id (.setBistatic id a b c d)

end

end RT1
