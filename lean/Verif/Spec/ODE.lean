import Verif.Model.ODE
import Mathlib.Algebra.BigOperators.Group.Finset.Basic
import Mathlib.Algebra.BigOperators.Module

/-!
# What the time integrators should do
-/

namespace DNDSR.ODE

open Finset

variable {σ D K V : Type} [Field K] [AddCommGroup V] [Module K V]

/-- the curve `t ↦ Σ_{i ≤ d} tⁱ aᵢ`: every polynomial of degree at most `d` with values in `V` -/
def curve (d : Nat) (a : Nat → V) (t : K) : V := ∑ i ∈ range (d + 1), t ^ i • a i

/-- its derivative -/
def curve' (d : Nat) (a : Nat → V) (t : K) : V := ∑ i ∈ range (d + 1), ((i : K) * t ^ (i - 1)) • a i

/-- The equation a solver call is about: the residual handed to `fsolve` is
`resOther - x/dt + alpha f(x)`, and `resOther` is the part not depending on the unknown. -/
def SolveCall.Solves (c : SolveCall K V) (dt alpha : K) (other : V) : Prop :=
  c.dt = dt ∧ c.alpha = alpha ∧ c.resOther = other ∧ c.rhs = other - (1 / dt) • c.x + alpha • c.f

/-- the BDF formula of order `q = w.length - 1`: `w₀` multiplies the right-hand side at the new time, `w₁, w₂, …` the states at
the current time, one step earlier, … (the textbook table) -/
def bdfFormula (K : Type) [Field K] : Nat → List K
  | 1 => [1, 1]
  | 2 => [2 / 3, 4 / 3, -1 / 3]
  | 3 => [6 / 11, 18 / 11, -9 / 11, 2 / 11]
  | 4 => [12 / 25, 48 / 25, -36 / 25, 16 / 25, -3 / 25]
  | _ => []

/-- the second order formula for a step `dt` following a step `dp` -/
def vbdfFormula (dp dt : K) : List K :=
  [(dp + dt) / (dp + 2 * dt), (dp + dt) ^ 2 / (dp * (dp + 2 * dt)), -dt ^ 2 / (dp * (dp + 2 * dt))]

/-- `Σ w_{i+1} x_i` -/
def weighted : List K → List V → V
  | _ :: ws, xs => (List.zipWith (fun w x => w • x) ws xs).sum
  | [], _ => 0

/-- the arguments of one call of `Step` -/
structure StepIn (σ D K V : Type) where
  cb : Callbacks σ D K V
  maxIter : Int
  dt : K
  x : V
  xinc : V

/-- a sequence of calls of `Step` on one integrator object; the caller may change the state and the callbacks between two
steps.  Returns what each step produced. -/
def runSteps (step : StepIn σ D K V → BDF K V → σ → Res (BDF K V × Loop σ K V)) :
    List (StepIn σ D K V) → BDF K V → σ → Res (BDF K V × List (Loop σ K V))
  | [], b, _ => pure (b, [])
  | i :: is, b, s => do
    let (b, l) ← step i b s
    let (b, ls) ← runSteps step is b l.s
    pure (b, l :: ls)

end DNDSR.ODE
