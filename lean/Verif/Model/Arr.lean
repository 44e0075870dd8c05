import Verif.Model.XR
import Verif.Model.Py

/-!
# numpy arrays

`Arr` is an n-dimensional array of `XR` values.  Shapes and indices are lists with the
*last* axis first, so that broadcasting aligns lists at their heads; `np.array([...])` of
equally shaped arrays therefore appends the new leading axis at the end of the list.
A python number is an array with the empty shape.
-/

namespace RT1

/-- A numpy array: shape and entries (both with the last axis first). -/
structure Arr where
  shape : List ℕ
  get : List ℕ → XR

namespace Arr

noncomputable section
open Classical

/-- `idx` is an index into an array of shape `s`. -/
def Valid (s idx : List ℕ) : Prop := List.Forall₂ (· < ·) idx s

/-- The common shape of two arrays under numpy broadcasting, `none` if incompatible. -/
def bshape : List ℕ → List ℕ → Option (List ℕ)
  | [], t => some t
  | s, [] => some s
  | a :: s, b :: t =>
    match bshape s t with
    | none => none
    | some u =>
      if a = b then some (a :: u)
      else if a = 1 then some (b :: u)
      else if b = 1 then some (a :: u)
      else none

/-- The entry of an operand of shape `s` that is used for the broadcast index `idx`. -/
def bidx : List ℕ → List ℕ → List ℕ
  | [], _ => []
  | _, [] => []
  | a :: s, i :: idx => (if a = 1 then 0 else i) :: bidx s idx

/-- Read an array at an index of a (larger) broadcast shape. -/
def at' (x : Arr) (idx : List ℕ) : XR := x.get (bidx x.shape idx)

/-- A python number. -/
def num (x : XR) : Arr := ⟨[], fun _ => x⟩

/-- A python float literal. -/
def lit (r : ℝ) : Arr := num (XR.fin r)

/-- Elementwise function. -/
def map (f : XR → XR) (x : Arr) : Arr := ⟨x.shape, fun i => f (x.get i)⟩

/-- Elementwise binary operation with broadcasting; incompatible shapes raise ValueError. -/
def map2 (f : XR → XR → XR) (x y : Arr) : Py Arr :=
  match bshape x.shape y.shape with
  | none => .error .valueError
  | some s => .ok ⟨s, fun i => f (x.at' i) (y.at' i)⟩

def add : Arr → Arr → Py Arr := map2 (· + ·)
def sub : Arr → Arr → Py Arr := map2 (· - ·)
def mul : Arr → Arr → Py Arr := map2 (· * ·)
def div : Arr → Arr → Py Arr := map2 (· / ·)
def neg : Arr → Arr := map (- ·)
def exp : Arr → Arr := map XR.exp
def log : Arr → Arr := map XR.log
def cos : Arr → Arr := map XR.cos

/-- `np.atleast_1d`. -/
def atleast1d (x : Arr) : Arr :=
  match x.shape with
  | [] => ⟨[1], fun _ => x.get []⟩
  | _ => x

/-- Broadcast shape of a list of shapes. -/
def bshapes : List (List ℕ) → Option (List ℕ)
  | [] => some []
  | s :: l =>
    match bshapes l with
    | none => none
    | some u => bshape s u

/-- The array as a view of the larger shape `s`. -/
def broadcastTo (s : List ℕ) (x : Arr) : Arr := ⟨s, x.at'⟩

/-- `np.broadcast_arrays`. -/
def broadcastArrays (l : List Arr) : Py (List Arr) :=
  match bshapes (l.map shape) with
  | none => .error .valueError
  | some s => .ok (l.map (broadcastTo s))

/-- `np.array([x_0, ..., x_{n-1}])` / `np.stack`: all shapes must agree; the new axis is
the leading one (last in our lists). -/
def stack (l : List Arr) : Py Arr :=
  match l with
  | [] => .ok ⟨[0], fun _ => XR.nan⟩
  | x :: l' =>
    if ∀ y ∈ l', y.shape = x.shape then
      .ok ⟨x.shape ++ [(x :: l').length], fun i =>
        match (x :: l')[i.getLastD 0]? with
        | some y => y.get i.dropLast
        | none => XR.nan⟩
    else .error .valueError

/-- Sum of a list of numbers. -/
def sumX : List XR → XR
  | [] => XR.fin 0
  | x :: l => x + sumX l

/-- `np.sum(x, axis=0)`: sum over the leading axis (last in our lists). -/
def sum0 (x : Arr) : Py Arr :=
  match x.shape with
  | [] => .error .valueError
  | s => .ok ⟨s.dropLast, fun i =>
      sumX ((List.range (s.getLastD 0)).map fun k => x.get (i ++ [k]))⟩

/-- `np.size(x) == 1`. -/
def sizeOne (x : Arr) : Bool := x.shape.prod == 1

/-- `np.any(np.isnan(x))`. -/
def anyNan (x : Arr) : Prop := ∃ i, Valid x.shape i ∧ (x.get i).isnan = true

/-- `np.allclose(*np.broadcast_arrays(np.isnan(x), tau == 0.0))`. -/
def nanIffZero (x tau : Arr) : Py Bool :=
  match bshape x.shape tau.shape with
  | none => .error .valueError
  | some s =>
    .ok (decide (∀ i, Valid s i → (x.at' i).isnan = (tau.at' i).isZero))

/-- `x[np.where(np.isnan(x))] = 0.0`. -/
def nanToZero (x : Arr) : Arr := map (fun v => if v.isnan then XR.fin 0 else v) x

/-- `np.full_like(x, 0.0)`. -/
def zerosLike (x : Arr) : Arr := ⟨x.shape, fun _ => XR.fin 0⟩

/-- `np.ones_like(x)`. -/
def onesLike (x : Arr) : Arr := ⟨x.shape, fun _ => XR.fin 1⟩

end

end Arr

end RT1
