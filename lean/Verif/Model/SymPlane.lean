import Verif.Model.BndZones
import Mathlib.Data.Real.Basic
import Mathlib.Logic.Function.Basic

/-!
# Moving the nodes of symmetry planes onto the plane (`src/Euler/EulerSolver_Init.hxx:303-317`)

All ranks.  A rank has its own nodes first and then copies of nodes of other ranks.  Numbers are real.  The mesh of the boundary alone, which is treated in the
same way in `:318-329`, is left out.
-/

namespace DNDSR.SymP

/-- a point -/
abbrev V3 := Fin 3 → ℝ

/-- a boundary element of a rank: the type of its zone, the flag `rectifyOpt` of its zone and its nodes, in the numbering of the rank -/
structure Bnd where
  kind : Zones.Kind
  flag : Option Nat
  nodes : List Nat

/-- a rank: the number of its own nodes, for every copy the rank and the number of the original, the coordinates and the boundary elements -/
structure Rank where
  own : Nat
  ghosts : List (Nat × Nat)
  pos : Nat → V3
  bnds : List Bnd

/-- `EulerSolver_Init.hxx:309-313`: the coordinate that is set to zero for an element.  `GetFlagFromID`, `src/Euler/EulerBC.hpp:301-308`, needs the flag. -/
def axisOf (b : Bnd) : Res (Option (Fin 3)) :=
  if b.kind = .sym then
    match b.flag with
    | none => .abort
    | some o => .ok (if o = 1 then some 0 else if o = 2 then some 1 else if o = 3 then some 2 else none)
  else .ok none

/-- `EulerSolver_Init.hxx:314-315`: the nodes of an element; an index outside the local nodes stops -/
noncomputable def zeroNodes (size : Nat) (a : Fin 3) : (Nat → V3) → List Nat → Res (Nat → V3)
  | p, [] => .ok p
  | p, i :: is => if i < size then zeroNodes size a (Function.update p i (Function.update (p i) a 0)) is else .abort

/-- `EulerSolver_Init.hxx:304-317`: the elements of a rank -/
noncomputable def zeroBnds (size : Nat) : (Nat → V3) → List Bnd → Res (Nat → V3)
  | p, [] => .ok p
  | p, b :: bs => do
    let o ← axisOf b
    let p' ← (match o with | some a => zeroNodes size a p b.nodes | none => .ok p)
    zeroBnds size p' bs

/-- all ranks before the exchange -/
noncomputable def zeroAll : List Rank → Res (List (Nat → V3))
  | [] => .ok []
  | R :: Rs => do
    let p ← zeroBnds (R.own + R.ghosts.length) R.pos R.bnds
    let ps ← zeroAll Rs
    .ok (p :: ps)

/-- `coords.trans.pullOnce()`, `EulerSolver_Init.hxx:318`, of one rank with coordinates `p`: every copy gets the value of its original in `ps` -/
noncomputable def pullRank (ps : List (Nat → V3)) (R : Rank) (p : Nat → V3) : Nat → V3 := fun i =>
  if i < R.own then p i
  else match R.ghosts[i - R.own]? with
    | some o => (match ps[o.1]? with | some q => q o.2 | none => p i)
    | none => p i

/-- Models the part of the initialisation that rectifies symmetry planes, `EulerSolver_Init.hxx:303-318`: the coordinates of all ranks. -/
noncomputable def rectify (Rs : List Rank) : Res (List (Nat → V3)) := do
  let ps ← zeroAll Rs
  .ok (List.zipWith (pullRank ps) Rs ps)

end DNDSR.SymP
