import Verif.Model.LiftDriver

/-!
# What the driver of the angle of attack does

Its history is a log, the newest entry first: every entry has the lift it was given and the message it printed, if it did; it prints one when it chooses a new angle.
-/

namespace DNDSR.Lift

/-- an entry of the log -/
abbrev Entry := ℝ × Option Msg

/-- calls of `update`, the newest first, and their log -/
noncomputable def run (s : Settings) (st : State) : List (Int × ℝ) → State × List Entry
  | [] => (st, [])
  | x :: xs => ((update s (run s st xs).1 x.1 x.2).1, (x.2, (update s (run s st xs).1 x.1 x.2).2) :: (run s st xs).2)

/-- the lifts since the last change of the angle -/
def since (log : List Entry) : List ℝ := (log.takeWhile (fun e => e.2.isNone)).map (fun e => e.1)

/-- the message of the last change -/
def lastMsg (log : List Entry) : Option Msg := log.findSome? (fun e => e.2)

/-- the log before the last change -/
def before (log : List Entry) : List Entry := (log.dropWhile (fun e => e.2.isNone)).tail

/-- the angle: that of the last message -/
def angle (s : Settings) (log : List Entry) : Option ℝ :=
  match lastMsg log with
  | none => some s.aoaInit
  | some m => m.aoa

/-- the arithmetic mean -/
noncomputable def mean (l : List ℝ) : ℝ := l.sum / l.length

/-- the lifts `w` are steady: no further from their mean than the threshold, and than the given part of the distance of the lift at the last change to the target -/
def Steady (s : Settings) (log : List Entry) (w : List ℝ) : Prop :=
  ∀ x ∈ w, |x - mean w| ≤ s.threshold ∧ ∀ m, lastMsg log = some m → |x - mean w| ≤ s.ratio * |s.targetCL - m.cl|

/-- the last calls, counted from the last change, all of them close to the target -/
noncomputable def atTarget (s : Settings) (log : List Entry) : Nat :=
  open Classical in (log.takeWhile (fun e => e.2.isNone && decide (|s.targetCL - e.1| ≤ (s.longThreshold : ℝ)))).length

/-- settings that make sense: the constructor demands the window; `3e200`, which stands for a lift before the first change, is far from the target -/
structure Sane (s : Settings) : Prop where
  window : 2 ≤ s.window
  far : s.threshold ≤ |s.targetCL - 3 * 10 ^ 200| * s.ratio

end DNDSR.Lift
