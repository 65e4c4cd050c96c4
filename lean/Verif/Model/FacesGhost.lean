import Verif.Model.Faces
import Verif.Model.MeshAdj

/-!
# Faces over all ranks (`src/Geom/Mesh.cpp:1319-1709`)

`InterpolateFace` run collectively.  Between building the faces of each rank (`Verif.Model.Faces`) and the exchange
the code copies boundary zones onto faces (`src/Geom/Mesh.cpp:1534-1592`); that part changes zones only and is in
`Verif.Model.FaceZones`.  The pulls are modelled by what they deliver (C08): a ghost row is the row of the same global number on
its owner.  The OpenMP loops are run in order; their iterations write different entries.
-/

namespace DNDSR.Faces

open DNDSR.Elem DNDSR.IMap
open DNDSR.Bits (Mark)

/-- what a rank brings: `cellElemInfo`, `cell2node` and `cell2nodePbi` (own cells first), the mapping of the cells and
that of the nodes, `src/Geom/Mesh.cpp:1323` -/
structure RankIn where
  cells : List Cell
  cellMap : Map
  nodeMap : Map
  deriving Repr, DecidableEq

/-- `cell2face.father->Size()`, `src/Geom/Mesh.cpp:1339` -/
def RankIn.nOwn (x : RankIn) : Nat := x.cellMap.mainSize

/-- `coords.Size()`, `src/Geom/Mesh.cpp:1341` -/
def RankIn.nNodes (x : RankIn) : Nat := x.nodeMap.mainSize + x.nodeMap.ghostIndex.length

/-- one face in `AdjLocal2GlobalFacial`, `src/Geom/Mesh.cpp:1110-1136` -/
def faceToGlobal (x : RankIn) (f : Face) : Res Face := do
  let ns ← forRanks (fun _ v => x.nodeMap.apply (-1) v) 0 f.slot.nodes
  let a ← MeshAdj.faceCellToGlobal x.cellMap f.first
  let b ← MeshAdj.faceCellToGlobal x.cellMap f.second
  .ok ⟨{ f.slot with nodes := ns }, a, b⟩

/-- one face in `AdjGlobal2LocalFacial`, `src/Geom/Mesh.cpp:1073-1108` -/
def faceToLocal (x : RankIn) (f : Face) : Res Face := do
  let ns ← forRanks (fun _ q => MeshAdj.mustFind x.nodeMap q) 0 f.slot.nodes
  let a ← MeshAdj.faceCellToLocal x.cellMap f.first
  let b ← MeshAdj.faceCellToLocal x.cellMap f.second
  .ok ⟨{ f.slot with nodes := ns }, a, b⟩

/-- the row with global number `q`, `rows[r]` being the rows of rank `r` -/
def fetch {α : Type} (g : GOM) (rows : List (List α)) (q : Int) : Res α := do
  match ← g.search q with
  | none => .abort
  | some (r, off) => do
    let own ← idx rows r
    at64 own off

/-- `std::includes` of two sorted ranges -/
def includes : List Int → List Int → Bool
  | _, [] => true
  | [], _ :: _ => false
  | a :: as, b :: bs => if b < a then false else if a < b then includes as (b :: bs) else includes as bs

/-- one slot, `src/Geom/Mesh.cpp:1659-1668`: the new entry and whether it was found -/
def fillSlot (ns V : List Int) (v x : Int) : Res (Int × Bool) :=
  if includes (sortIdx ns) V then do
    Res.assert (x = -1)
    .ok (v, true)
  else .ok (x, false)

/-- the loop over the slots of a cell, `src/Geom/Mesh.cpp:1657-1669` -/
def fillSlots (c : Cell) (V : List Int) (v : Int) (j : Nat) : List Int → Res (List Int × Bool)
  | [] => .ok ([], false)
  | x :: xs => do
    let ns ← extractFaceNodes c.type j c.nodes
    let (x', hit) ← fillSlot ns V v x
    let (xs', hit') ← fillSlots c V v (j + 1) xs
    .ok (x' :: xs', hit || hit')

/-- one cell of a ghost face, `src/Geom/Mesh.cpp:1652-1671` -/
def fillCell (cells : List Cell) (V : List Int) (v : Int) (c2f : List (List Int)) (iCell : Int) : Res (List (List Int)) := do
  let row ← at64 c2f iCell
  let c ← at64 cells iCell
  let (row', hit) ← fillSlots c V v 0 row
  Res.assert (hit = true)
  .ok (c2f.set iCell.toNat row')

/-- one ghost face, `src/Geom/Mesh.cpp:1645-1672` -/
def fillFace (cells : List Cell) (nOwn : Nat) (v : Int) (c2f : List (List Int)) (f : Face) : Res (List (List Int)) := do
  Res.assert (f.first ≥ nOwn)
  let V ← sortedVerts f.slot.type f.slot.nodes
  let c2f1 ← fillCell cells V v c2f f.first
  fillCell cells V v c2f1 f.second

/-- the loop over the ghost faces, `src/Geom/Mesh.cpp:1645-1673`; the first one gets number `v` -/
def fillFaces (cells : List Cell) (nOwn : Nat) (v : Int) (c2f : List (List Int)) : List Face → Res (List (List Int))
  | [] => .ok c2f
  | f :: fs => do
    let c2f' ← fillFace cells nOwn v c2f f
    fillFaces cells nOwn (v + 1) c2f' fs

/-- what a rank has afterwards: its faces (own first, then ghosts), the number of own ones, `cell2face` and the mapping
of the faces -/
structure RankOut where
  faces : List Face
  nFaces : Nat
  c2f : List (List Int)
  faceMap : Map
  deriving Repr, DecidableEq

/-- Models `InterpolateFace` on all ranks, `src/Geom/Mesh.cpp:1319-1709`; `gc` is the global mapping of the cells. -/
def interpolate (per : Bool) (srt : Sorter) (gc : GOM) (ranks : List RankIn) : Res (List RankOut) := do
  let outs ← forRanks (fun r x => buildFaces per srt x.nNodes x.cellMap gc r ranks.length x.nOwn x.cells) 0 ranks
  -- to global numbers, and the push-constructed ghost faces, `src/Geom/Mesh.cpp:1594-1633`
  let glob ← forRanks (fun _ (x : RankIn × Interp) => forRanks (fun _ f => faceToGlobal x.1 f) 0 x.2.faces) 0 (ranks.zip outs)
  let lens := outs.map (·.faces.length)
  let gf ← setMPIAlignBcast (lens.map Int.ofNat)
  let maps ← createPush gf lens (outs.map (fun o => (o.send.flatten, plainStarts (o.send.map List.length))))
  let sons ← forRanks (fun _ (m : Map) => forRanks (fun _ q => fetch gf glob q) 0 m.ghostIndex) 0 maps
  -- to local numbers, `src/Geom/Mesh.cpp:1636`
  let locs ← forRanks (fun _ (x : RankIn × List Face × List Face) => do
    let own ← forRanks (fun _ f => faceToLocal x.1 f) 0 x.2.1
    let son ← forRanks (fun _ f => faceToLocal x.1 f) 0 x.2.2
    .ok (own, son)) 0 (ranks.zip (glob.zip sons))
  -- `src/Geom/Mesh.cpp:1640-1673`
  let c2fs ← forRanks (fun _ (x : (RankIn × Interp) × List Face × List Face) =>
    fillFaces x.1.1.cells x.1.1.nOwn x.2.1.length x.1.2.c2f x.2.2) 0 ((ranks.zip outs).zip locs)
  -- to global numbers, the pull of the rows of the ghost cells, and back, `src/Geom/Mesh.cpp:1680-1685`
  let globC ← forRanks (fun _ (x : Map × List (List Int)) => MeshAdj.mapRows (fun _ v => MeshAdj.local2Global x.1 v) x.2) 0 (maps.zip c2fs)
  let owns := (ranks.zip globC).map (fun x => x.2.take x.1.nOwn)
  forRanks (fun _ (x : (RankIn × List (List Int)) × Map × List Face × List Face) => do
    let ghost ← forRanks (fun _ q => fetch gc owns q) 0 x.1.1.cellMap.ghostIndex
    let c2f ← MeshAdj.mapRows (fun _ q => MeshAdj.global2Local x.2.1 q) (x.1.2 ++ ghost)
    .ok ⟨x.2.2.1 ++ x.2.2.2, x.2.2.1.length, c2f, x.2.1⟩) 0 ((ranks.zip owns).zip (maps.zip locs))

end DNDSR.Faces
