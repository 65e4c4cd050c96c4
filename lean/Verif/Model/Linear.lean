import Verif.Model.IndexMapping
import Mathlib.Algebra.Module.Defs
import Mathlib.Algebra.Field.Defs
import Mathlib.Algebra.Order.Field.Basic
import Mathlib.Algebra.Order.Group.Unbundled.Abs

/-!
# Krylov solvers

Models `src/Solver/Linear.hpp`.  Numbers are in a field `K`, vectors (`TDATA`) in a module `V` over it (exact arithmetic); `dot` is
`fDot`.  The operators are functions without side effects.  `TScalar` of the conjugate gradient class is `K`, that is one
component of the array of scalars used by the application (the operations on that array are component-wise).
-/

namespace DNDSR.Krylov

open DNDSR.IMap

variable {K V : Type}

section PCG

variable [Field K] [AddCommGroup V] [Module K V]

/-- Models the data members of `PCG_PreconditionedRes` that survive a call of `solve`, `src/Solver/Linear.hpp:135-142`. -/
structure PCG (K V : Type) where
  initialized : Bool
  p : V
  Ap : V
  zrDot : K
  pHistorySize : Nat

/-- Models the constructor, `src/Solver/Linear.hpp:144-153`; `p`, `Ap`, `zrDot` are what the members start with. -/
def PCG.mk' (p Ap : V) (zrDot : K) : PCG K V := { initialized := false, p := p, Ap := Ap, zrDot := zrDot, pHistorySize := 0 }

/-- Models `reset`, `src/Solver/Linear.hpp:155`. -/
def PCG.reset (c : PCG K V) : PCG K V := { c with initialized := false, pHistorySize := 0 }

/-- What `FStop` was asked, and the state at that moment (ghost). -/
structure Asked (K V : Type) where
  iter : Nat
  zr : K
  zz : K
  x : V
  step : Option (V × K)

/-- the functions given to `solve` -/
structure Ops (K V : Type) where
  FA : V → V
  FM : V → V
  FResPrec : V → V
  dot : V → V → K

/-- Models the loop of `solve`, `src/Solver/Linear.hpp:170-200`, from iteration `iter` with `n` iterations left.  `z`, `r` are the
members as the code before the loop (or the previous iteration) leaves them.  Returns the object, `x`, the returned flag, and what
was asked (ghost; `step` is the direction and length of the step then taken, if one was). -/
def pcgLoop (o : Ops K V) (eps : K) (stop : Nat → K → K → Bool) : Nat → Nat → PCG K V → V → V → V → List (Asked K V) →
    PCG K V × V × Bool × List (Asked K V)
  | 0, _, c, x, _, _, log => (c, x, false, log)
  | n + 1, iter, c, x, z, r, log =>
    let z := if c.initialized then o.FResPrec x else z
    let r := if c.initialized then o.FM z else r
    let zrDotNew := o.dot z r
    let zDotz := o.dot z z
    if stop iter zrDotNew zDotz then
      (c, x, true, log ++ [{ iter := iter, zr := zrDotNew, zz := zDotz, x := x, step := none }])
    else
      let c := if c.initialized then
          let beta := zrDotNew / (c.zrDot + eps)
          let p := beta • c.p
          let p := p + z
          { c with p := p, pHistorySize := c.pHistorySize + 1, Ap := o.FA p }
        else c
      let alpha := zrDotNew / (o.dot c.p c.Ap + eps)
      let log := log ++ [{ iter := iter, zr := zrDotNew, zz := zDotz, x := x, step := some (c.p, alpha) }]
      let x := x + alpha • c.p
      pcgLoop o eps stop n (iter + 1) { c with zrDot := zrDotNew, initialized := true } x z r log

/-- Models `solve`, `src/Solver/Linear.hpp:159-202`; `eps` is `verySmallReal`. -/
def pcgSolve (o : Ops K V) (eps : K) (stop : Nat → K → K → Bool) (niter : Nat) (c : PCG K V) (x : V) :
    PCG K V × V × Bool × List (Asked K V) :=
  if c.initialized then pcgLoop o eps stop niter 1 c x 0 0 []
  else
    let z := o.FResPrec x
    let r := o.FM z
    let p := z
    pcgLoop o eps stop niter 1 { c with p := p, pHistorySize := c.pHistorySize + 1, Ap := o.FA p } x z r []

end PCG

section GMRES

variable [Field K] [LinearOrder K] [AddCommGroup V] [Module K V]

/-- `f` with the value at `i` replaced -/
def upd {α : Type} (f : Nat → α) (i : Nat) (a : α) : Nat → α := fun k => if k = i then a else f k

/-- Models the two Gram-Schmidt loops, `src/Solver/Linear.hpp:71-80`: the column `h(0..j, j)` and the remainder of `w`. -/
def gramSchmidt (dot : V → V → K) (Vs : Nat → V) (j : Nat) (w : V) : (Nat → K) × V :=
  let col := fun i => dot w (Vs i)
  (col, (List.range (j + 1)).foldl (fun w i => w + (-col i) • Vs i) w)

/-- Models the Arnoldi loop, `src/Solver/Linear.hpp:66-88`, from column `j` with `n` columns left.  A division by zero (only
possible when `scale` is zero) counts as undefined. -/
def arnoldi (FA FML : V → V) (dot : V → V → K) (sqrt : K → K) (scale : K) :
    Nat → Nat → (Nat → V) → (Nat → Nat → K) → Res (Nat × (Nat → V) × (Nat → Nat → K))
  | 0, j, Vs, h => pure (j, Vs, h)
  | n + 1, j, Vs, h =>
    let w := FML (FA (Vs j))
    let (col, w) := gramSchmidt dot Vs j w
    let hn := sqrt (dot w w)
    let h := fun i c => if c = j then (if i ≤ j then col i else if i = j + 1 then hn else h i c) else h i c
    if hn < scale * (1 / 10 ^ 32) then pure (j, upd Vs (j + 1) w, h)
    else if hn = 0 then .ub
    else arnoldi FA FML dot sqrt scale n (j + 1) (upd Vs (j + 1) ((1 / hn) • w)) h

/-- Models `for (jj = 0; jj < j; jj++) x.addTo(Vs[jj], y(jj))`, `src/Solver/Linear.hpp:117-121`. -/
def addBasis (Vs : Nat → V) (y : Nat → K) (j : Nat) (x : V) : V :=
  (List.range j).foldl (fun x jj => x + y jj • Vs jj) x

/-- how the restart loop ended (ghost) -/
inductive Why where
  | stopped | negligible | lastRestart | noColumn | deficient | exhausted
  deriving DecidableEq

/-- the functions given to `solve` -/
structure GOps (K V : Type) where
  FA : V → V
  FML : V → V
  dot : V → V → K
  /-- `std::sqrt` -/
  sqrt : K → K
  /-- `HardEigen::EigenLeastSquareSolve` for the `(j+1) × j` part of `h` and the right-hand side `beta e₁`: solution and rank -/
  lsq : Nat → (Nat → Nat → K) → K → (Nat → K) × Nat

/-- Models the restart loop, `src/Solver/Linear.hpp:51-128`, from restart `iRestart` with `n` passes left.  Returns `x`, the final
`iRestart`, and (ghost) how it ended and the iterates with the number of columns used for each. -/
def gmresLoop (o : GOps K V) (vsmall : K) (kSub nRestart : Nat) (stop : Nat → K → K → Bool) (MLb : V) (scale : K) :
    Nat → Nat → (Nat → V) → (Nat → Nat → K) → V → List (V × Nat) → Res (V × Nat × Why × List (V × Nat))
  | 0, iRestart, _, _, x, log => pure (x, iRestart, .exhausted, log)
  | n + 1, iRestart, Vs, h, x, log => do
    let v0 := o.FML (o.FA x)
    let v0 := v0 + (-1 : K) • MLb
    let beta := o.sqrt (o.dot v0 v0)
    if stop iRestart beta scale then pure (x, iRestart, .stopped, log)
    else if |beta| < vsmall then pure (x, iRestart, .negligible, log)
    else if iRestart = nRestart then pure (x, iRestart, .lastRestart, log)
    else
      let v0 := (-1 / beta) • v0
      let (j, Vs, h) ← arnoldi o.FA o.FML o.dot o.sqrt scale kSub 0 (upd Vs 0 v0) h
      if j < 1 then pure (x, iRestart, .noColumn, log)
      else
        let (y, rank) := o.lsq j h beta
        let x := addBasis Vs y j x
        if rank < kSub then pure (x, iRestart, .deficient, log ++ [(x, j)])
        else gmresLoop o vsmall kSub nRestart stop MLb scale n (iRestart + 1) Vs h x (log ++ [(x, j)])

/-- Models `GMRES_LeftPreconditioned::solve`, `src/Solver/Linear.hpp:45-130`; `Vs` is the content of that member, `vsmall` is
`verySmallReal`.  Returns `x` and the returned flag, with the ghost data. -/
def gmresSolve (o : GOps K V) (vsmall : K) (kSub nRestart : Nat) (stop : Nat → K → K → Bool) (Vs : Nat → V) (b x : V) :
    Res (V × Bool × Why × List (V × Nat)) := do
  let MLb := o.FML b
  let scale := o.sqrt (o.dot MLb MLb)
  let (x, iRestart, why, log) ← gmresLoop o vsmall kSub nRestart stop MLb scale (nRestart + 1) 0 Vs (fun _ _ => 0) x []
  pure (x, decide (iRestart < nRestart), why, log)

end GMRES
end DNDSR.Krylov
