import Verif.Model.Basic
import Verif.Model.Defines
import Verif.Model.IndexMapping
import Mathlib.Algebra.Module.Defs
import Mathlib.Algebra.Order.Field.Basic
import Mathlib.Algebra.Order.Group.Unbundled.Abs

/-!
# Time integrators

Models the classes of `src/Solver/ODE.hpp` and `BisectSolveLower` of `src/Solver/Scalar.hpp`.

Simplifications, all definitions of this file: numbers are elements of a field `K` and the data of type `TDATA` of a `K`-module
`V`, so rounding is not modelled; `addTo`, `*=`, `=`, `setConstant(0.0)` are the module operations.  The callbacks are arbitrary
functions of a world state `σ` and of their input arguments; each writes its output argument only (`frhs` the right-hand side,
`fdt` the pseudo time step, `fsolve` the increment, `fincrement` the state).
-/

namespace DNDSR.ODE

open DNDSR.IMap DNDSR.Defines

/-- Models the `std::function` arguments of `Step`, `src/Solver/ODE.hpp:12-17`. -/
structure Callbacks (σ D K V : Type) where
  /-- `fdt(x, dTau, alpha, uPos)` -/
  fdt : σ → V → K → Int → σ × D
  /-- `frhs(rhs, x, dTau, iter, ct, uPos)` -/
  frhs : σ → V → D → Int → K → Int → σ × V
  /-- `fsolve(x, res, resOther, dTau, dt, alpha, xinc, iter, ct, uPos)` -/
  fsolve : σ → V → V → V → D → K → K → Int → K → Int → σ × V
  /-- `fstop(iter, res, iInternal)` -/
  fstop : σ → Int → V → Int → σ × Bool
  /-- `fincrement(x, inc, alpha, uPos)` -/
  fincrement : σ → V → V → K → Int → σ × V

/-- What a call of `fsolve` is given, together with the right-hand side `f` that was evaluated at `x` (and at relative time `ct`)
just before.  Ghost data: the code does not store it. -/
structure SolveCall (K V : Type) where
  x : V
  f : V
  rhs : V
  resOther : V
  dt : K
  alpha : K
  ct : K

/-- the variables of the pseudo time loop -/
structure Loop (σ K V : Type) where
  s : σ
  x : V
  rhs : V
  rhsbuf : V
  xinc : V
  iter : Int
  calls : List (SolveCall K V)

variable {σ D K V : Type}

/-- Models the pseudo time loop shared by the implicit integrators, `src/Solver/ODE.hpp:74-90`, `201-241`, `348-379`, `609-639`:
`fdt`, `frhs`, assembling `resOther` and `rhs`, `fsolve`, `fincrement`, `fstop`.  `n` is the number of remaining iterations. -/
def dualLoop [One K] (cb : Callbacks σ D K V) (dt alpha ct : K) (stopId : Int) (resid : V → V → Res (V × V)) :
    Nat → Loop σ K V → Res (Loop σ K V)
  | 0, l => pure l
  | n + 1, l => do
    let (s, dTau) := cb.fdt l.s l.x alpha 0
    let (s, f) := cb.frhs s l.x dTau l.iter ct 0
    let (resOther, rhs) ← resid l.x f
    let (s, xinc) := cb.fsolve s l.x rhs resOther dTau dt alpha l.iter ct 0
    let (s, x) := cb.fincrement s l.x xinc 1 0
    let (s, stop) := cb.fstop s l.iter rhs stopId
    let calls := l.calls ++ [{ x := l.x, f := f, rhs := rhs, resOther := resOther, dt := dt, alpha := alpha, ct := ct }]
    let l' : Loop σ K V := { s := s, x := x, rhs := rhs, rhsbuf := f, xinc := xinc, iter := l.iter, calls := calls }
    if stop then pure l' else dualLoop cb dt alpha ct stopId resid n { l' with iter := l.iter + 1 }

/-- Models the loop with the call of `fstop` after it, `src/Solver/ODE.hpp:242-243`, `380-381`, `640-641`. -/
def dualSolve [One K] (cb : Callbacks σ D K V) (maxIter : Int) (dt alpha ct : K) (stopId : Int) (resid : V → V → Res (V × V))
    (s : σ) (x rhs rhsbuf xinc : V) : Res (Loop σ K V) := do
  let l ← dualLoop cb dt alpha ct stopId resid maxIter.toNat
    { s := s, x := x, rhs := rhs, rhsbuf := rhsbuf, xinc := xinc, iter := 1, calls := [] }
  if maxIter < l.iter then
    let (s, _) := cb.fstop l.s l.iter l.rhs stopId
    pure { l with s := s }
  else pure l

section Field

variable [Field K] [AddCommGroup V] [Module K V]

/-! ## Implicit Euler -/

/-- Models `ImplicitEulerDualTimeStep::Step`, `src/Solver/ODE.hpp:70-91`.  Only `x` and the solver calls are returned. -/
def eulerStep (cb : Callbacks σ D K V) (maxIter : Int) (dt : K) (s : σ) (x rhs rhsbuf xinc : V) : Res (Loop σ K V) :=
  let xLast := x
  dualLoop cb dt 1 1 1 (fun x f =>
      let rhs := (1 / dt) • xLast
      let resOther := rhs
      let rhs := rhs + (-1 / dt) • x
      let rhs := rhs + f
      pure (resOther, rhs)) maxIter.toNat
    { s := s, x := x, rhs := rhs, rhsbuf := rhsbuf, xinc := xinc, iter := 1, calls := [] }

/-! ## BDF -/

/-- Models `ImplicitBDFDualTimeStep::BDFCoefs`, `src/Solver/ODE.hpp:494-500`; `none` is the NaN filling. -/
def bdfCoefs (K : Type) [Field K] : List (List (Option K)) :=
  [[some (1 / 1), some (1 / 1), none, none, none],
   [some (2 / 3), some (4 / 3), some (-1 / 3), none, none],
   [some (6 / 11), some (18 / 11), some (-9 / 11), some (2 / 11), none],
   [some (12 / 25), some (48 / 25), some (-36 / 25), some (16 / 25), some (-3 / 25)]]

/-- an access with a signed index: outside is undefined -/
def at' {α : Type} (l : List α) (i : Int) : Res α := if i < 0 then .ub else idx l i.toNat

/-- Models `BDFCoefs(row, col)`; using a NaN coefficient counts as undefined. -/
def bdfCoef (K : Type) [Field K] (row col : Int) : Res K := do
  let r ← at' (bdfCoefs K) row
  let c ← at' r col
  match c with
  | some c => pure c
  | none => .ub

/-- Models the data members of `ImplicitBDFDualTimeStep` and of `ImplicitVBDFDualTimeStep` that survive a step,
`src/Solver/ODE.hpp:290-303`, `514-528`. -/
structure BDF (K V : Type) where
  kBDF : Int
  cnPrev : Int
  prevStart : Int
  xPrevs : List V
  dtPrevs : List K
  rhs : V
  rhsbuf : V

/-- Models the constructor, `src/Solver/ODE.hpp:309-327`; `x0` is what `finit` makes of the stored data, `d0` the content of
the unset `dtPrevs`. -/
def mkBDF (k : Int) (x0 : V) (d0 : K) : Res (BDF K V) := do
  Res.assert (0 < k ∧ k ≤ 4)
  pure { kBDF := k, cnPrev := 0, prevStart := k - 2, xPrevs := List.replicate (k - 1).toNat x0,
         dtPrevs := List.replicate (k - 1).toNat d0, rhs := x0, rhsbuf := x0 }

/-- Models `for (iPrev = 0; iPrev < cnPrev; iPrev++) rhs.addTo(xPrevs[mod(iPrev + prevStart, prevSiz)], coef(2 + iPrev) / dt)`,
`src/Solver/ODE.hpp:356-361`. -/
def addPrevs (coef : Int → Res K) (b : BDF K V) (prevSiz : Int) (dt : K) : Nat → V → Res V
  | 0, acc => pure acc
  | n + 1, acc => do
    let acc ← addPrevs coef b prevSiz dt n acc
    let j ← cmod ((n : Int) + b.prevStart) prevSiz
    let xp ← at' b.xPrevs j
    let c ← coef (2 + n)
    pure (acc + (c / dt) • xp)

/-- Models assembling the residual of a BDF step, `src/Solver/ODE.hpp:353-364` and `614-625`. -/
def bdfResid (coef : Int → Res K) (b : BDF K V) (dt : K) (xLast x f : V) : Res (V × V) := do
  let c1 ← coef 1
  let rhs := 0 + (c1 / dt) • xLast
  let prevSiz := b.kBDF - 1
  let rhs ← if prevSiz ≠ 0 then addPrevs coef b prevSiz dt b.cnPrev.toNat rhs else pure rhs
  let resOther := rhs
  let rhs := rhs + (-1 / dt) • x
  let c0 ← coef 0
  pure (resOther, rhs + c0 • f)

/-- Models the end of a step, `src/Solver/ODE.hpp:382-389` and `642-649`. -/
def bdfPush (b : BDF K V) (dt : K) (xLast : V) : Res (BDF K V) := do
  let prevSiz := b.kBDF - 1
  if prevSiz ≠ 0 then
    let prevStart ← cmod (b.prevStart - 1) prevSiz
    if prevStart < 0 ∨ b.xPrevs.length ≤ prevStart.toNat ∨ b.dtPrevs.length ≤ prevStart.toNat then .ub else
    pure { b with prevStart := prevStart, xPrevs := b.xPrevs.set prevStart.toNat xLast,
                  dtPrevs := b.dtPrevs.set prevStart.toNat dt, cnPrev := min (b.cnPrev + 1) prevSiz }
  else pure b

/-- Models `VBDFFrontMatters`, `src/Solver/ODE.hpp:563-590`: the coefficients `BDFCoefs(0 .. kCurrent)`. -/
def vbdfCoefs (b : BDF K V) (dt : K) : Res (List K) := do
  let kCurrent := b.cnPrev + 1
  let prevSiz := b.kBDF - 1
  if kCurrent = 1 then pure [1, 1]
  else if kCurrent = 2 then
    let j ← cmod (0 + b.prevStart) prevSiz
    let dp ← at' b.dtPrevs j
    let phi := dt / (dp + dt)
    let Rt := dt / dp
    pure [1 / (1 + phi), 1 + Rt * phi / (1 + phi), -Rt * phi / (1 + phi)]
  else .abort

/-- Models the constructor of the variable step integrator, `src/Solver/ODE.hpp:540-561`. -/
def mkVBDF (k : Int) (x0 : V) (d0 : K) : Res (BDF K V) := do
  let b ← mkBDF k x0 d0
  Res.assert (k ≤ 2)
  pure b

/-- Models `ImplicitVBDFDualTimeStep::Step`, `src/Solver/ODE.hpp:599-650`. -/
def vbdfStep (cb : Callbacks σ D K V) (maxIter : Int) (dt : K) (b : BDF K V) (s : σ) (x xinc : V) :
    Res (BDF K V × Loop σ K V) := do
  let cs ← vbdfCoefs b dt
  let xLast := x
  let alpha ← at' cs 0
  let l ← dualSolve cb maxIter dt alpha 1 1 (bdfResid (at' cs) b dt xLast) s x b.rhs b.rhsbuf xinc
  let b ← bdfPush { b with rhs := l.rhs, rhsbuf := l.rhsbuf } dt xLast
  pure (b, l)

end Field

section Ordered

variable [Field K] [LinearOrder K] [AddCommGroup V] [Module K V]

/-- Models the check `for (iPrev) assert(prevSiz && |dtPrevs[...] - dt| < dt * 1e-8)`, `src/Solver/ODE.hpp:340-341`. -/
def checkDts (b : BDF K V) (prevSiz : Int) (dt : K) : Nat → Res Unit
  | 0 => pure ()
  | n + 1 => do
    checkDts b prevSiz dt n
    Res.assert (prevSiz ≠ 0)
    let j ← cmod ((n : Int) + b.prevStart) prevSiz
    let d ← at' b.dtPrevs j
    Res.assert (|d - dt| < dt * (1 / 10 ^ 8))

/-- Models `ImplicitBDFDualTimeStep::Step`, `src/Solver/ODE.hpp:335-390`. -/
def bdfStep (cb : Callbacks σ D K V) (maxIter : Int) (dt : K) (b : BDF K V) (s : σ) (x xinc : V) :
    Res (BDF K V × Loop σ K V) := do
  let kCurrent := b.cnPrev + 1
  let prevSiz := b.kBDF - 1
  checkDts b prevSiz dt b.cnPrev.toNat
  let xLast := x
  let alpha ← bdfCoef K (kCurrent - 1) 0
  let l ← dualSolve cb maxIter dt alpha 1 1 (bdfResid (bdfCoef K (kCurrent - 1)) b dt xLast) s x b.rhs b.rhsbuf xinc
  let b ← bdfPush { b with rhs := l.rhs, rhsbuf := l.rhsbuf } dt xLast
  pure (b, l)

/-! ## Bisection -/

/-- Models `verySmallReal`, `src/DNDS/Defines.hpp:154`. -/
def verySmallReal (K : Type) [Field K] : K := 1 / 10 ^ 200

/-- Models the loop of `BisectSolveLower`, `src/Solver/Scalar.hpp:15-27`; `f0` is not updated in the loop. -/
def bisectGo (F : K → K) (f0 fTarget : K) : Nat → K → K → K
  | 0, v0, _ => v0
  | n + 1, v0, v1 =>
    if fTarget - verySmallReal K ≤ f0 then v0 else
    let vm := (1 / 2) * (v0 + v1)
    let v0 := min v0 vm
    let v1 := max v1 vm
    if F vm ≤ fTarget then bisectGo F f0 fTarget n vm v1 else bisectGo F f0 fTarget n v0 vm

/-- Models `BisectSolveLower`, `src/Solver/Scalar.hpp:9-30`. -/
def bisectSolveLower (F : K → K) (v0 v1 fTarget : K) (maxIter : Int) : Res K := do
  let f0 := F v0
  let f1 := F v1
  Res.assert (f0 ≤ fTarget ∧ fTarget ≤ f1 ∧ v0 < v1)
  pure (bisectGo F f0 fTarget maxIter.toNat v0 v1)

/-- Models `LimitDt_StepPPV2`, `src/Solver/ODE.hpp:671-712`; `flimit` is the value of `flimitDtBDF(xIn, xLast)` for the
increment `xLast` it is given.  Returns the new `dtOut`. -/
def limitDt (b : BDF K V) (flimit : V → V → K) (xIn : V) (dtOut maxIncrease : K) : Res K := do
  let cs ← vbdfCoefs b dtOut
  let kCurrent := b.cnPrev + 1
  let prevSiz := b.kBDF - 1
  if kCurrent = 1 then pure dtOut
  else if kCurrent = 2 then
    Res.assert (prevSiz = 1)
    let j ← cmod (0 + b.prevStart) prevSiz
    let xp ← at' b.xPrevs j
    let c2 ← at' cs 2
    let xLast := (-c2) • (xIn + (-1 : K) • xp)
    let limitingV := flimit xIn xLast
    if 1 ≤ limitingV then pure dtOut else
    Res.assert (0 ≤ limitingV)
    let dtm1 ← at' b.dtPrevs j
    let fB := fun dt : K =>
      let Rt := dt / dtm1
      let phi := dt / (dt + dtm1)
      Rt * phi / (1 + phi)
    let targetB := limitingV * -c2
    let dtNew ← if fB (dtm1 * maxIncrease) ≤ targetB then pure (dtm1 * maxIncrease)
      else bisectSolveLower fB 0 (dtm1 * maxIncrease) (targetB * (99 / 100)) 20
    pure (min dtNew dtOut)
  else .abort

end Ordered
end DNDSR.ODE
