import Verif.Model.Elevation
import Mathlib.Analysis.Real.Sqrt

/-!
# Cutting a mesh of order two into elements of order one (`src/Geom/Mesh_Elevation.cpp:439-581`)

`BuildBisectO1FormO2` on one rank: the ranks do not communicate, except that `IsO2` sums flags whose sum is not used.  Every element is
cut into the parts its table lists; tetrahedra and pyramids have several tables, and the one along the shortest inner diagonal is taken.
Coordinates are real numbers.  The copies of `mRank`, `mpi`, `dim`, `periodicInfo`, `nNodeO1` and the empty arrays made at the end are
left out; `ElemInfo` is given by its zone and type.
-/

namespace DNDSR.Bisect

open DNDSR.IMap DNDSR.MeshAdj DNDSR.Faces DNDSR.Elem DNDSR.Elev
open DNDSR.Bits (Mark)
open DNDSR.Per (V3 Periodicity)

/-- what a rank has of the mesh of order two, in global numbers: its cells with their zones, the types of the copied cells, the boundary
elements with type, zone, nodes and first cell, `coords` (own nodes, then copies) and the mappings, `src/Geom/Mesh.hpp:101-123` -/
structure Rank where
  rank : Nat
  cells : List (Int × Cell)
  ghostTypes : List ElemType
  bnds : List (ElemType × Ghost.Bnd × Int)
  coords : List V3
  nodeMap : Map
  cellGlob : GOM

/-- what it has of the mesh of order one: cells with zones, boundary elements with types, and `coords.father` -/
structure Out where
  cells : List (Int × Cell)
  bnds : List (ElemType × Ghost.Bnd)
  coords : List V3

/-- `NodeIndexGlobal2Local` with its assertion, and the coordinates of the node, `src/Geom/Mesh.hpp:432-436,465-469` -/
noncomputable def nodeAt (m : Map) (coords : List V3) (q : Int) : Res V3 := do
  let v ← global2Local m q
  Res.assert (v ≥ 0)
  at64 coords v

/-- Models `GetCoordsOnCell` when numbers are global, `src/Geom/Mesh.hpp:427-438,459-470,488-494`. -/
noncomputable def cellCoords (per : Bool) (P : Periodicity) (m : Map) (coords : List V3) (C : Cell) : Res (List V3) :=
  forRanks (fun i q => do
    let x ← nodeAt m coords q
    if per then do
      let b ← idx C.pbi i
      Per.coordByBits P x b
    else .ok x) 0 C.nodes

/-- `(a - b).norm()` -/
noncomputable def length (xs : List V3) (a b : Nat) : Res ℝ := do
  let x ← idx xs a
  let y ← idx xs b
  .ok (Real.sqrt (sqrDist x y))

open Classical in
/-- `lengths.minCoeff(&iMin)`: the position of the first smallest entry; `i` is the position of the head of the list -/
noncomputable def argMin (best : ℝ) (arg i : Nat) : List ℝ → Nat
  | [] => arg
  | x :: xs => if x < best then argMin x i (i + 1) xs else argMin best arg (i + 1) xs

/-- Models `GetO2ElemBisectVariant`, `src/Geom/Elements.hpp:2503-2536`. -/
noncomputable def variant (t : ElemType) (xs : List V3) : Res Nat := do
  Res.assert (order t = 2)
  match t with
  | .tet10 => do
    let a ← length xs (5 - 1) (10 - 1)
    let b ← length xs (6 - 1) (8 - 1)
    let c ← length xs (7 - 1) (9 - 1)
    .ok (argMin a 0 1 [b, c])
  | .pyramid14 => do
    let a ← length xs (10 - 1) (12 - 1)
    let b ← length xs (11 - 1) (13 - 1)
    .ok (argMin a 0 1 [b])
  | _ => .ok 0

/-- the loop over the parts of a cell, `src/Geom/Mesh_Elevation.cpp:468-486` -/
def cutCell (per : Bool) (v : Nat) (z : Int) (C : Cell) : Res (List (Int × Cell)) :=
  forRanks (fun i _ => do
    let ns ← extractBisect C.type i v C.nodes
    let bs ← if per then extractBisect C.type i v C.pbi else .ok []
    .ok (z, ⟨bisectElem C.type i, ns, bs⟩)) 0 (List.replicate (bisectNum C.type).toNat ())

/-- one own cell, `src/Geom/Mesh_Elevation.cpp:461-487` -/
noncomputable def doCell (per : Bool) (P : Periodicity) (x : Rank) (c : Int × Cell) : Res (List (Int × Cell)) := do
  let xs ← cellCoords per P x.nodeMap x.coords c.2
  let v ← variant c.2.type xs
  cutCell per v c.1 c.2

/-- the search for a node of a boundary element among the nodes of its cell, `src/Geom/Mesh_Elevation.cpp:545-549`: the last match -/
noncomputable def seekNode (q : Int) (found : Option V3) : List (Int × V3) → Option V3
  | [] => found
  | p :: ps => if p.1 = q then seekNode q (some p.2) ps else seekNode q found ps

/-- `coordsB`, `src/Geom/Mesh_Elevation.cpp:541-550` -/
noncomputable def bndCoords (C : Cell) (xs : List V3) (nodes : List Int) : Res (List V3) :=
  forRanks (fun _ q => match seekNode q none (C.nodes.zip xs) with
    | some y => .ok y
    | none => .abort) 0 nodes

/-- the loop over the parts of a boundary element, `src/Geom/Mesh_Elevation.cpp:554-564` -/
def cutBnd (t : ElemType) (v : Nat) (b : Ghost.Bnd) : Res (List (ElemType × Ghost.Bnd)) :=
  forRanks (fun i _ => do
    let ns ← extractBisect t i v b.nodes
    .ok (bisectElem t i, ⟨b.zone, ns⟩)) 0 (List.replicate (bisectNum t).toNat ())

/-- one boundary element, `src/Geom/Mesh_Elevation.cpp:529-565` -/
noncomputable def doBnd (per : Bool) (P : Periodicity) (x : Rank) (b : ElemType × Ghost.Bnd × Int) :
    Res (List (ElemType × Ghost.Bnd)) := do
  let i ← global2LocalNoSon x.cellGlob x.rank b.2.2
  Res.assert (i ≥ 0)
  let c ← at64 x.cells i
  let xs ← cellCoords per P x.nodeMap x.coords c.2
  let ys ← bndCoords c.2 xs b.2.1.nodes
  let v ← variant b.1 ys
  cutBnd b.1 v b.2.1

/-- Models `BuildBisectO1FormO2` on one rank, `src/Geom/Mesh_Elevation.cpp:439-581`. -/
noncomputable def bisect (per : Bool) (P : Periodicity) (x : Rank) : Res Out := do
  Res.assert (hasBad okO2 (x.cells.map (fun c => c.2.type) ++ x.ghostTypes) = 0)
  let cs ← forRanks (fun _ c => doCell per P x c) 0 x.cells
  let bs ← forRanks (fun _ b => doBnd per P x b) 0 x.bnds
  .ok ⟨cs.flatten, bs.flatten, x.coords.take x.nodeMap.mainSize⟩

end DNDSR.Bisect
