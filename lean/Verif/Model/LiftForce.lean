import Verif.Model.BndZones
import Mathlib.Data.Real.Basic
import Mathlib.Data.Finset.Sort

/-!
# The force that the lift driver uses (`src/Euler/EulerEvaluator.hpp:956-971`)

What `EvaluateRHS` sums over the faces of boundaries, and the sum over the boundaries that are named for the driver.  Numbers are real.  The recorders of
zones with `integrationOpt == 2` and the areas of recorders are left out; `Model/BndRecord.lean` has them.
-/

namespace DNDSR.LiftF

variable {n : Nat}

/-- a face of a rank: its zone, the flux `fluxEs(Eigen::all, 0)` and whether `iFace < NumFace()` -/
structure Face (n : Nat) where
  id : Int
  flux : Fin n → ℝ
  owned : Bool

/-- what the boundary handler knows about the zones, by id: `BCTypes` and the flag `integrationOpt` of `BCFlags`, `0` where there is no flag -/
abbrev Tab := List (Zones.Kind × Nat)

/-- `fluxWallSum` and the vectors of `bndIntegrations` of one rank -/
structure Sums (n : Nat) where
  wall : Fin n → ℝ
  recs : Int → Option (Fin n → ℝ)

/-- Models `GetTypeFromID`, `src/Euler/EulerBC.hpp:281-287`. -/
def typeOf (zs : Tab) (id : Int) : Res Zones.Kind :=
  if id > 0 then (match zs[id.toNat]? with | some z => .ok z.1 | none => .abort) else .ok .unknown

/-- Models `GetFlagFromIDSoft` for `integrationOpt`, `src/Euler/EulerBC.hpp:310-315`. -/
def optOf (zs : Tab) (id : Int) : Res Nat :=
  if id > 0 then (match zs[id.toNat]? with | some z => .ok z.2 | none => .abort) else .ok 0

/-- `BC_ID_DEFAULT_MAX`, `src/Geom/BoundaryCondition.hpp:44` -/
def defaultMax : Int := 20

/-- the start of `EvaluateRHS`, `src/Euler/EulerEvaluator_EvaluateRHS.hxx:59-76`: recorders are made for the zones that want one, and all are reset -/
def prepare (zs : Tab) (old : Sums n) : Sums n :=
  ⟨0, fun i => if defaultMax ≤ i ∧ i < zs.length ∧ (match zs[i.toNat]? with | some z => z.2 | none => 0) ≠ 0 then some 0 else (old.recs i).map fun _ => 0⟩

open Classical in
/-- the sum over walls with one more face of type `t`, `src/Euler/EulerEvaluator_EvaluateRHS.hxx:529-537` -/
noncomputable def addWall (mu : ℝ) (w : Fin n → ℝ) (f : Face n) (t : Zones.Kind) : Res (Fin n → ℝ) :=
  if t = .wall ∨ (t = .wallInvis ∧ mu < 1 / 10 ^ 99) then (if f.owned then .ok (w - f.flux) else .abort) else .ok w

/-- one face, `src/Euler/EulerEvaluator_EvaluateRHS.hxx:529-547` -/
noncomputable def addFace (zs : Tab) (mu : ℝ) (s : Sums n) (f : Face n) : Res (Sums n) := do
  let t ← typeOf zs f.id
  let w ← addWall mu s.wall f t
  let o ← optOf zs f.id
  if o = 1 then
    match s.recs f.id with
    | some r => .ok ⟨w, Function.update s.recs f.id (some (r + -f.flux))⟩
    | none => .abort
  else .ok ⟨w, s.recs⟩

/-- the loop over faces of one rank, `src/Euler/EulerEvaluator_EvaluateRHS.hxx:139-566` -/
noncomputable def addFaces (zs : Tab) (mu : ℝ) : Sums n → List (Face n) → Res (Sums n)
  | s, [] => .ok s
  | s, f :: fs => do
    let s' ← addFace zs mu s f
    addFaces zs mu s' fs

/-- all ranks up to the reduction -/
noncomputable def localSums (zs : Tab) (mu : ℝ) : List (Sums n × List (Face n)) → Res (List (Sums n))
  | [] => .ok []
  | r :: rs => do
    let s ← addFaces zs mu (prepare zs r.1) r.2
    let ss ← localSums zs mu rs
    .ok (s :: ss)

/-- the reductions at the end, `src/Euler/EulerEvaluator_EvaluateRHS.hxx:728-734`, of all ranks; the ranks have the same recorders -/
noncomputable def reduce (ss : List (Sums n)) : List (Sums n) :=
  ss.map fun s => ⟨(ss.map Sums.wall).sum, fun i => (s.recs i).map fun _ => (ss.map fun s' => (s'.recs i).getD 0).sum⟩

/-- what `EvaluateRHS` does to the sums of all ranks; `ranks` has the old sums and the faces of every rank.  With `dontUpdateIntegration` nothing changes. -/
noncomputable def evaluate (zs : Tab) (mu : ℝ) (dont : Bool) (ranks : List (Sums n × List (Face n))) : Res (List (Sums n)) :=
  if dont then .ok (ranks.map Prod.fst) else do
    let ss ← localSums zs mu ranks
    .ok (reduce ss)

/-- Models the part of the constructor about the named boundaries, `src/Euler/EulerEvaluator.hpp:178-188`; `ids` are the ids of the names. -/
def chooseIds (zs : Tab) : List Int → Finset Int → Res (Finset Int)
  | [], S => .ok S
  | i :: is, S =>
    if i ≥ defaultMax then do
      let o ← optOf zs i
      if o = 1 then chooseIds zs is (insert i S) else .abort
    else if i = 2 ∨ i = 4 then chooseIds zs is (insert i S) else .abort

/-- the loop of `CLDriverGetIntegrationUpdate`, `src/Euler/EulerEvaluator.hpp:963-971`, from `acc` -/
noncomputable def addIds (s : Sums n) : (Fin n → ℝ) → List Int → Res (Fin n → ℝ)
  | acc, [] => .ok acc
  | acc, i :: is =>
    if i ≥ defaultMax then
      match s.recs i with
      | some r => addIds s (acc + r) is
      | none => .abort
    else addIds s (acc + s.wall) is

/-- `fluxBndCur` of `CLDriverGetIntegrationUpdate`, `src/Euler/EulerEvaluator.hpp:961-971`; the ids are a `std::set`, in ascending order -/
noncomputable def boundaryFlux (ids : Finset Int) (s : Sums n) : Res (Fin n → ℝ) := addIds s 0 (ids.sort (· ≤ ·))

end DNDSR.LiftF
