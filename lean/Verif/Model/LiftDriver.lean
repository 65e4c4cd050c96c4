import Verif.Model.Rotation

/-!
# The driver that looks for the angle of attack of a given lift (`src/Euler/CLDriver.hpp`)

Numbers are real; an angle may also be NaN, which is `none`.  Counters are natural numbers.  Texts are lists of characters; the message that rank 0 prints is part
of the outcome of `update`, the lift that it prints with its deviation is given without it.
-/

namespace DNDSR.Lift

open DNDSR.Rot

/-- `veryLargeReal`, `src/DNDS/Defines.hpp:152` -/
noncomputable def veryLarge : ℝ := 3 * 10 ^ 200

/-- `CLDriverSettings`, `src/Euler/CLDriver.hpp:13-31` -/
structure Settings where
  aoaInit : ℝ
  aoaAxis : String
  cl0Axis : String
  cd0Axis : String
  refArea : ℝ
  refDynamicPressure : ℝ
  targetCL : ℝ
  relax : ℝ
  ratio : ℝ
  startDrive : Int
  convergeMin : Int
  threshold : ℝ
  window : Int
  longWindow : Int
  longThreshold : Int

/-- reading a number from the configuration into an `index` variable, `src/Euler/CLDriver.hpp:31,40`: the fraction is cut off -/
noncomputable def toIndex (x : ℝ) : Int := if 0 ≤ x then ⌊x⌋ else ⌈x⌉

/-- `CLDriver`, `src/Euler/CLDriver.hpp:43-66` -/
structure State where
  lastCL : ℝ
  lastAOA : Option ℝ
  hist : List ℝ
  size : Nat
  head : Nat
  acc : Nat
  aoa : Option ℝ

/-- the message of `Update`, `src/Euler/CLDriver.hpp:128-131` -/
structure Msg where
  iter : Int
  cl : ℝ
  slope : Option ℝ
  aoa : Option ℝ

/-- one axis, `src/Euler/CLDriver.hpp:71-75` -/
def axisOk (ax : String) : Bool := ax.length = 1 ∧ (ax = "x" ∨ ax = "y" ∨ ax = "z")

/-- Models the constructor, `src/Euler/CLDriver.hpp:69-84`. -/
noncomputable def construct (s : Settings) : Res State := do
  Res.assert (axisOk s.aoaAxis = true)
  Res.assert (axisOk s.cl0Axis = true)
  Res.assert (axisOk s.cd0Axis = true)
  Res.assert (s.window ≥ 2)
  .ok { lastCL := veryLarge, lastAOA := some veryLarge, hist := List.replicate s.window.toNat veryLarge, size := 0, head := 0, acc := 0,
        aoa := some s.aoaInit }

/-- Models `_PushCL`, `src/Euler/CLDriver.hpp:52-57`. -/
noncomputable def push (st : State) (cl : ℝ) : State :=
  let head := (st.head + 1) % st.hist.length
  { st with head := head, hist := st.hist.set head cl, size := st.size + 1 }

/-- Models `_ClearCL`, `src/Euler/CLDriver.hpp:58-63`. -/
noncomputable def clear (st : State) : State :=
  { st with hist := List.replicate st.hist.length veryLarge, size := 0, head := 0 }

/-- `CLHistory.maxCoeff()` -/
noncomputable def maxCoeff : List ℝ → ℝ
  | [] => 0
  | x :: xs => xs.foldl max x

/-- `CLHistory.minCoeff()` -/
noncomputable def minCoeff : List ℝ → ℝ
  | [] => 0
  | x :: xs => xs.foldl min x

/-- a floating point number -/
inductive Ext where
  | fin (x : ℝ)
  | pinf
  | ninf
  | nan

/-- division of a number by the difference of two angles; a difference of equal angles is `+0` -/
noncomputable def quotient (n : ℝ) (d : Option ℝ) : Ext :=
  match d with
  | none => .nan
  | some d => if d ≠ 0 then .fin (n / d) else if n = 0 then .nan else if 0 < n then .pinf else .ninf

/-- `lastAOA - AOA` -/
noncomputable def minus (a b : Option ℝ) : Option ℝ :=
  match a, b with
  | some a, some b => some (a - b)
  | _, _ => none

/-- `CLSlopeStandard`, `src/Euler/CLDriver.hpp:107` -/
noncomputable def standard : ℝ := Real.pi ^ 2 / 90

/-- `CLSlope < 0` -/
def Ext.neg : Ext → Prop
  | .fin x => x < 0
  | .ninf => True
  | _ => False

open Classical in
/-- the bounds of `CLSlope`, `src/Euler/CLDriver.hpp:111-118`; `std::min` and `std::max` keep a NaN that is their first argument -/
noncomputable def bounded (q : Ext) : Option ℝ :=
  match (if q.neg then .fin standard else q : Ext) with
  | .fin x => some (max (min x (10 * standard)) (9 / 10 * standard))
  | .pinf => some (max (10 * standard) (9 / 10 * standard))
  | .ninf => some (9 / 10 * standard)
  | .nan => none

open Classical in
/-- `CLSlope`, `src/Euler/CLDriver.hpp:106-118` -/
noncomputable def clSlope (lastCL : ℝ) (lastAOA : Option ℝ) (cl : ℝ) (aoa : Option ℝ) : Option ℝ :=
  bounded (if lastCL = veryLarge ∨ lastAOA = some veryLarge then .fin standard else quotient (lastCL - cl) (minus lastAOA aoa))

/-- `AOANew`, `src/Euler/CLDriver.hpp:120` -/
noncomputable def newAngle (s : Settings) (aoa : Option ℝ) (cl : ℝ) (slope : Option ℝ) : Option ℝ :=
  match aoa, slope with
  | some a, some k => some (a + (s.targetCL - cl) / k * s.relax)
  | _, _ => none

open Classical in
/-- Models `Update`, `src/Euler/CLDriver.hpp:91-135`. -/
noncomputable def update (s : Settings) (st : State) (iter : Int) (cl : ℝ) : State × Option Msg :=
  let st := push st cl
  let err := |s.targetCL - cl|
  let st := { st with acc := if err ≤ (s.longThreshold : ℝ) then st.acc + 1 else 0 }
  if iter < s.startDrive then (st, none)
  else if st.size ≥ st.hist.length ∧ (st.size : Int) ≥ s.convergeMin then
    let cur := st.hist.sum / st.hist.length
    let thr := min s.threshold (|s.targetCL - st.lastCL| * s.ratio)
    let dev := max (maxCoeff st.hist - cur) (cur - minCoeff st.hist)
    if dev ≤ thr then
      let slope := clSlope st.lastCL st.lastAOA cl st.aoa
      let new := newAngle s st.aoa cl slope
      (clear { st with lastAOA := st.aoa, lastCL := cur, aoa := new, acc := 0 }, some ⟨iter, cur, slope, new⟩)
    else (st, none)
  else (st, none)

/-- Models `ConvergedAtTarget`, `src/Euler/CLDriver.hpp:137-140`. -/
def converged (s : Settings) (st : State) : Bool := (st.acc : Int) ≥ s.longWindow

/-- Models `GetAOARotation`, `src/Euler/CLDriver.hpp:145-160`, for an angle that is a number. -/
noncomputable def rotation (s : Settings) (aoa : ℝ) : Res M3 :=
  if s.aoaAxis = "z" then .ok (rotZ aoa) else if s.aoaAxis = "y" then .ok (rotY (-aoa)) else .abort

/-- Models `GetCL0Direction`, `src/Euler/CLDriver.hpp:162-173`. -/
noncomputable def liftDir (s : Settings) : Res V3 :=
  if s.cl0Axis = "y" then .ok ![0, 1, 0] else if s.cl0Axis = "z" then .ok ![0, 0, 1] else .abort

/-- Models `GetCD0Direction`, `src/Euler/CLDriver.hpp:175-184`. -/
noncomputable def dragDir (s : Settings) : Res V3 :=
  if s.cd0Axis = "x" then .ok ![1, 0, 0] else .abort

/-- Models `GetForce2CoeffRatio`, `src/Euler/CLDriver.hpp:186-189`. -/
noncomputable def coeffRatio (s : Settings) : ℝ := 1 / (s.refArea * s.refDynamicPressure)

/-- the coefficients of `CLDriverGetIntegrationUpdate`, `src/Euler/EulerEvaluator.hpp:972-977`, from the force on the boundaries -/
noncomputable def coefficients (s : Settings) (aoa : ℝ) (force : V3) : Res (ℝ × ℝ) := do
  let R ← rotation s aoa
  let f := Matrix.mulVec R.transpose force
  let l ← liftDir s
  let d ← dragDir s
  .ok (f ⬝ᵥ l * coeffRatio s, f ⬝ᵥ d * coeffRatio s)

/-- `ifStop` of an inner iteration when the driver is used, `src/Euler/EulerSolver_Init.hxx:515-519`: `small` says that the residual is below its threshold -/
def stop (s : Settings) (st : State) (small : Bool) (iter iterMin : Int) : Bool :=
  if iter < iterMin then false else small && converged s st

end DNDSR.Lift
