import Verif.Model.Eval

/-! Lemmas about arrays: reading at broadcast indices. -/

namespace RT1

noncomputable section
open Classical

namespace Arr

@[simp] theorem bidx_nil (idx : List ℕ) : bidx [] idx = [] := rfl

theorem bidx_nil_right (s : List ℕ) : bidx s [] = [] := by cases s <;> rfl

theorem bidx_valid {s idx : List ℕ} (h : Valid s idx) : bidx s idx = idx := by
  induction s generalizing idx with
  | nil => cases h; rfl
  | cons a s ih =>
    cases h with
    | cons h1 h2 =>
      simp only [bidx, ih h2]
      by_cases ha : a = 1
      · subst ha; simp [Nat.lt_one_iff.mp h1]
      · simp [ha]

theorem at'_valid {x : Arr} {idx : List ℕ} (h : Valid x.shape idx) : x.at' idx = x.get idx := by
  simp [at', bidx_valid h]

theorem bidx_bidx_left {s t u : List ℕ} (h : bshape s t = some u) (idx : List ℕ) :
    bidx s (bidx u idx) = bidx s idx := by
  induction s generalizing t u idx with
  | nil => rfl
  | cons a s ih =>
    cases idx with
    | nil => simp [bidx_nil_right]
    | cons i idx =>
      cases t with
      | nil =>
        simp only [bshape, Option.some.injEq] at h
        subst h
        have h' := ih (t := []) (u := s) (by cases s <;> rfl) idx
        simp only [bidx, h']
        by_cases ha : a = 1 <;> simp [ha]
      | cons b t =>
        simp only [bshape] at h
        cases hu : bshape s t with
        | none => simp [hu] at h
        | some u' =>
          have h' := ih hu idx
          simp only [hu] at h
          split_ifs at h <;> simp only [Option.some.injEq] at h <;> subst h <;>
            simp only [bidx, h'] <;> simp_all

theorem bshape_comm (s t : List ℕ) : bshape s t = bshape t s := by
  induction s generalizing t with
  | nil => cases t <;> rfl
  | cons a s ih =>
    cases t with
    | nil => rfl
    | cons b t =>
      simp only [bshape, ih t]
      cases bshape t s with
      | none => rfl
      | some u =>
        simp only
        by_cases h1 : a = b
        · simp [h1]
        · have h1' : ¬ b = a := fun h => h1 h.symm
          by_cases h2 : a = 1 <;> by_cases h3 : b = 1 <;> simp_all

theorem bidx_bidx_right {s t u : List ℕ} (h : bshape s t = some u) (idx : List ℕ) :
    bidx t (bidx u idx) = bidx t idx := by
  rw [bshape_comm] at h
  exact bidx_bidx_left h idx

@[simp] theorem at'_map (f : XR → XR) (x : Arr) (idx : List ℕ) :
    (map f x).at' idx = f (x.at' idx) := rfl

@[simp] theorem at'_num (v : XR) (idx : List ℕ) : (num v).at' idx = v := rfl
@[simp] theorem at'_lit (r : ℝ) (idx : List ℕ) : (lit r).at' idx = XR.fin r := rfl

theorem at'_map2 {f : XR → XR → XR} {x y z : Arr} (h : map2 f x y = .ok z) (idx : List ℕ) :
    z.at' idx = f (x.at' idx) (y.at' idx) := by
  unfold map2 at h
  cases hs : bshape x.shape y.shape with
  | none => simp [hs] at h
  | some s =>
    simp only [hs, Except.ok.injEq] at h
    subst h
    simp only [at']
    rw [bidx_bidx_left hs, bidx_bidx_right hs]

theorem shape_map2 {f : XR → XR → XR} {x y z : Arr} (h : map2 f x y = .ok z) :
    bshape x.shape y.shape = some z.shape := by
  unfold map2 at h
  cases hs : bshape x.shape y.shape with
  | none => simp [hs] at h
  | some s =>
    simp only [hs, Except.ok.injEq] at h
    subst h
    rfl

theorem at'_atleast1d (x : Arr) (idx : List ℕ) : x.atleast1d.at' idx = x.at' idx := by
  unfold atleast1d
  cases x with
  | mk s g =>
    cases s with
    | nil => rfl
    | cons a s => rfl

end Arr

/-- Pointwise value: whatever array the computation returns, reading it at `idx` gives `v`. -/
def PW (x : Py Arr) (idx : List ℕ) (v : XR) : Prop := ∀ z, x = .ok z → z.at' idx = v

namespace PW

variable {x y : Py Arr} {idx : List ℕ} {u v : XR}

theorem of_ok {a : Arr} (h : a.at' idx = u) : PW (.ok a) idx u := by
  intro z hz
  cases hz
  exact h

theorem pure {a : Arr} (h : a.at' idx = u) : PW (Pure.pure a) idx u := of_ok h

theorem lit (r : ℝ) : PW (litM r) idx (XR.fin r) := of_ok rfl

theorem bind {α : Type} {x : Py α} {f : α → Py Arr} (h : ∀ a, x = .ok a → PW (f a) idx u) :
    PW (x >>= f) idx u := by
  intro z hz
  cases hx : x with
  | error e => rw [hx] at hz; cases hz
  | ok a => rw [hx] at hz; exact h a hx z hz

theorem bind_pw {f : Arr → Py Arr} (hx : PW x idx v)
    (h : ∀ a, a.at' idx = v → PW (f a) idx u) :
    PW (x >>= f) idx u :=
  bind fun a ha => h a (hx a ha)

theorem lift {z : Py Arr} (h : PW z idx u) : PW (liftPy z) idx u := by
  cases z with
  | ok a => exact h
  | error e => intro z hz; cases hz

theorem map2 {f : XR → XR → XR} {a b : Arr} (ha : a.at' idx = u) (hb : b.at' idx = v) :
    PW (Arr.map2 f a b) idx (f u v) := by
  intro z hz
  rw [Arr.at'_map2 hz, ha, hb]

theorem mulM (hx : PW x idx u) (hy : PW y idx v) : PW (RT1.mulM x y) idx (u * v) :=
  bind_pw hx fun _ ha => bind_pw hy fun _ hb => lift (map2 ha hb)
theorem divM (hx : PW x idx u) (hy : PW y idx v) : PW (RT1.divM x y) idx (u / v) :=
  bind_pw hx fun _ ha => bind_pw hy fun _ hb => lift (map2 ha hb)
theorem addM (hx : PW x idx u) (hy : PW y idx v) : PW (RT1.addM x y) idx (u + v) :=
  bind_pw hx fun _ ha => bind_pw hy fun _ hb => lift (map2 ha hb)
theorem subM (hx : PW x idx u) (hy : PW y idx v) : PW (RT1.subM x y) idx (u - v) :=
  bind_pw hx fun _ ha => bind_pw hy fun _ hb => lift (map2 ha hb)
theorem mapM' {f : XR → XR} (hx : PW x idx u) : PW (RT1.mapM' f x) idx (f u) :=
  bind_pw hx fun _ ha => pure (by rw [Arr.at'_map, ha])
theorem negM (hx : PW x idx u) : PW (RT1.negM x) idx (-u) := mapM' hx
theorem expM (hx : PW x idx u) : PW (RT1.expM x) idx (XR.exp u) := mapM' hx
theorem logM (hx : PW x idx u) : PW (RT1.logM x) idx (XR.log u) := mapM' hx

end PW

end

end RT1
