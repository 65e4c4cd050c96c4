import Verif.Model.GhostPrimary
import Verif.Model.RCM

/-!
# Renumbering the cells of every rank (`src/Geom/Mesh.cpp:2039-2270`)

`ReorderLocalCells` on all ranks, as it is called after the ghost layer is built and before the faces are
(`src/Euler/EulerSolver_Init.hxx:138-141`): `adjFacialState`, `adjC2FState` and `adjN2CBState` are `Adj_Unknown`, so the blocks for
faces and for `node2cell` are skipped.  The pulls are modelled by what they deliver (C08): a ghost row is the row of the same global
number on its owner.  Boundary elements have no ghosts.  The array operations that copy and rewrite rows (`CopyData`, `Decompress`,
`ResizeRow`, `Compress`) are modelled by their effect on the rows (C05, C06).  `cell2nodePbi` is moved whether the mesh is periodic
or not (it has empty rows if not).
-/

namespace DNDSR.Reorder

open DNDSR.IMap DNDSR.MeshAdj DNDSR.Faces DNDSR.Ghost DNDSR.Elem
open DNDSR.Bits (Mark)

/-- what a rank has: `cellElemInfo` and `cell2nodePbi` (own cells, then ghosts), the adjacencies, the mapping of cells and that of
nodes, `src/Geom/Mesh.hpp:101-110` -/
structure St where
  info : List (ElemType × List Mark)
  prim : Primary
  cellMap : Map
  nodeMap : Map
  deriving Repr, DecidableEq

/-- `NumCell()`, `src/Geom/Mesh.hpp:381` -/
def St.nCell (s : St) : Nat := s.cellMap.mainSize

/-- `std::set_intersection` of two sorted ranges -/
def inter : List Int → List Int → List Int
  | [], _ => []
  | _ :: _, [] => []
  | a :: as, b :: bs => if a < b then inter as (b :: bs) else if b < a then inter (a :: as) bs else a :: inter as bs

/-- `c2ni`, `c2nj`: the sorted corners of a cell, `src/Geom/Mesh_Serial_Partition.cpp:203-204,210-211` -/
def cellCorners (s : St) (i : Int) : Res (List Int) := do
  let e ← at64 s.info i
  let ns ← at64 s.prim.cell2node i
  sortedVerts e.1 ns

/-- the loop over `cell2cell[iCell]`, `src/Geom/Mesh_Serial_Partition.cpp:205-217` -/
def faceRow (dim : Nat) (s : St) (ci : List Int) : List Int → Res (List Int)
  | [] => .ok []
  | j :: js =>
    if j ≥ s.nCell then faceRow dim s ci js
    else do
      let cj ← cellCorners s j
      let rest ← faceRow dim s ci js
      .ok (if (inter ci cj).length ≥ dim then j :: rest else rest)

/-- Models `GetCell2CellFaceVLocal` without faces, `src/Geom/Mesh_Serial_Partition.cpp:178-221`. -/
def faceGraph (dim : Nat) (s : St) : Res RCM.Graph := do
  Res.assert (s.prim.state = .pointToLocal)
  forRanks (fun i _ => do
    let ci ← cellCorners s i
    let row ← idx s.prim.cell2cell i
    faceRow dim s ci row) 0 (List.replicate s.nCell ())

/-- `cellOld2NewArr.father`, `src/Geom/Mesh.cpp:2052-2054` -/
def newNumbers (gc : GOM) (r n : Nat) (o : RCM.Order) : Res (List Int) :=
  forRanks (fun i _ => do
    let v ← RCM.atI o.old2New i
    local2GlobalNoSon gc r n v) 0 (List.replicate n ())

/-- `record_iCellNonLocal` over some entries, `src/Geom/Mesh.cpp:2059-2068`: the ones to be inserted -/
def record (gc : GOM) (r : Nat) : List Int → Res (List Int)
  | [] => .ok []
  | c :: cs =>
    if c ≥ 0 ∧ c < gc.globalSize then do
      match ← gc.search c with
      | none => .abort
      | some (s, _) => do
        let rest ← record gc r cs
        .ok (if s ≠ r then c :: rest else rest)
    else do
      Res.assert (c = unInit)
      record gc r cs

/-- `replaceCellIndexToNew`, `src/Geom/Mesh.cpp:2121-2128`; `m` is the mapping of `cellOld2NewArr`, `tab` its entries -/
def replace (m : Map) (tab : List Int) (c : Int) : Res Int :=
  if c = unInit then .ok unInit
  else do
    let v ← mustFind m c
    at64 tab v

/-- the loops that move rows, `src/Geom/Mesh.cpp:2164-2169` and the others: row `i` goes to the place `tab[i]` has on the rank -/
def place {α : Type} (gc : GOM) (r : Nat) : List Int → List α → List α → Res (List α)
  | [], _, out => .ok out
  | _ :: _, [], _ => .ub
  | c :: cs, row :: rows, out => do
    let v ← global2LocalNoSon gc r c
    if 0 ≤ v ∧ v.toNat < out.length then place gc r cs rows (out.set v.toNat row) else .abort

/-- the mappings a rank converts with (only those of cells and nodes are used) -/
def mapsOf (cellMap nodeMap : Map) : Maps := ⟨cellMap, nodeMap, cellMap, ⟨[], []⟩, 0, 0⟩

/-- the rows of a rank's own cells -/
structure Own where
  nodes : List (List Int)
  c2c : List (List Int)
  info : List (ElemType × List Mark)

/-- the part of `ReorderLocalCells` after the new numbers of the own cells are known, `src/Geom/Mesh.cpp:2093-2267` -/
def moveCells (gc : GOM) (lens : List Nat) (o2n : List (List Int)) (ss : List St) : Res (List St) := do
  -- `src/Geom/Mesh.cpp:2093-2104`
  let glob ← forRanks (fun _ (s : St) => adjLocal2GlobalPrimary (mapsOf s.cellMap s.nodeMap) s.prim) 0 ss
  let want ← forRanks (fun r (x : St × Primary) => do
    let a ← record gc r (x.2.cell2cell.take x.1.nCell).flatten
    let b ← record gc r x.2.bnd2cell.flatten
    .ok (a ++ b ++ x.1.cellMap.ghostIndex)) 0 (ss.zip glob)
  -- `src/Geom/Mesh.cpp:2112-2115`
  let maps ← createPull gc lens want
  let tabs ← forRanks (fun _ (x : Map × List Int) => do
    let son ← forRanks (fun _ q => fetch gc o2n q) 0 x.1.ghostIndex
    .ok (x.2 ++ son)) 0 (maps.zip o2n)
  -- `src/Geom/Mesh.cpp:2138-2143`
  let c2c ← forRanks (fun _ (x : (St × Primary) × Map × List Int) =>
    mapRows (fun _ c => replace x.2.1 x.2.2 c) (x.1.2.cell2cell.take x.1.1.nCell)) 0 ((ss.zip glob).zip (maps.zip tabs))
  let b2c ← forRanks (fun _ (x : Primary × Map × List Int) =>
    mapRows (fun _ c => replace x.2.1 x.2.2 c) x.1.bnd2cell) 0 (glob.zip (maps.zip tabs))
  -- `src/Geom/Mesh.cpp:2159-2218`
  let owns ← forRanks (fun r (x : (St × Primary) × List (List Int) × List Int) => do
    let ns := x.1.2.cell2node.take x.1.1.nCell
    let nodes ← place gc r x.2.2 ns ns
    let rows ← place gc r x.2.2 x.2.1 x.2.1
    let es := x.1.1.info.take x.1.1.nCell
    let info ← place gc r x.2.2 es es
    .ok (⟨nodes, rows, info⟩ : Own)) 0 ((ss.zip glob).zip (c2c.zip o2n))
  -- `src/Geom/Mesh.cpp:2224-2253`
  let ghosts ← forRanks (fun _ (x : St × Map × List Int) =>
    forRanks (fun _ c => replace x.2.1 x.2.2 c) 0 x.1.cellMap.ghostIndex) 0 (ss.zip (maps.zip tabs))
  let cmaps ← createPull gc lens ghosts
  forRanks (fun _ (x : ((St × Primary) × List (List Int)) × Own × Map) => do
    let nodes ← forRanks (fun _ q => fetch gc (owns.map (·.nodes)) q) 0 x.2.2.ghostIndex
    let rows ← forRanks (fun _ q => fetch gc (owns.map (·.c2c)) q) 0 x.2.2.ghostIndex
    let info ← forRanks (fun _ q => fetch gc (owns.map (·.info)) q) 0 x.2.2.ghostIndex
    -- `src/Geom/Mesh.cpp:2267`
    let prim ← adjGlobal2LocalPrimary (mapsOf x.2.2 x.1.1.1.nodeMap)
      { x.1.1.2 with cell2cell := x.2.1.c2c ++ rows, bnd2cell := x.1.2, cell2node := x.2.1.nodes ++ nodes }
    .ok (⟨x.2.1.info ++ info, prim, x.2.2, x.1.1.1.nodeMap⟩ : St)) 0 (((ss.zip glob).zip b2c).zip (owns.zip cmaps))

/-- Models `ReorderLocalCells`, `src/Geom/Mesh.cpp:2039-2270`: the ranks and the reduced bandwidths before and after. -/
def reorderCells (dim : Nat) (ss : List St) : Res (List St × Int × Int) := do
  let lens := ss.map (·.nCell)
  let gc ← setMPIAlignBcast (lens.map Int.ofNat)
  -- `src/Geom/Mesh.cpp:2041-2048`
  let orders ← forRanks (fun _ s => do
    let g ← faceGraph dim s
    RCM.reorder g) 0 ss
  let bwOld := (orders.map (·.bandOld)).foldl max 0
  let bwNew := (orders.map (·.bandNew)).foldl max 0
  let o2n ← forRanks (fun r (x : St × RCM.Order) => newNumbers gc r x.1.nCell x.2) 0 (ss.zip orders)
  let out ← moveCells gc lens o2n ss
  .ok (out, bwOld, bwNew)

/-- what a rank has when the cells are to be renumbered -/
def stOf (x : Held) (y : Primary) : St := ⟨x.cells.map (fun c => (c.type, c.pbi)), y, x.cellMap, x.nodeMap⟩

/-- what a rank has when its faces are to be built -/
def St.rankIn (s : St) : RankIn := ⟨(s.info.zip s.prim.cell2node).map (fun y => ⟨y.1.1, y.2, y.1.2⟩), s.cellMap, s.nodeMap⟩

/-- The sequence of calls with the cells renumbered before the faces are built, `src/Euler/EulerSolver_Init.hxx:64-141`: the
neighbours are recovered, the ghosts built, the numbers made local, `ReorderLocalCells`, `InterpolateFace`. -/
def buildReordered (dim : Nat) (per : Bool) (h : N2C.Hash) (unique : Bool) (srt : Sorter) (order : List (Nat × Nat)) (ps : List Piece) :
    Res (List (St × RankOut)) := do
  let arrs ← N2C.node2Cell h unique (ps.map (·.nNodes)) (ps.map (fun p => p.cells.map (·.nodes))) order
  let n2c ← forRanks (fun _ a => readAll a) 0 arrs
  let adj ← recover per h ps n2c
  let held ← buildGhost ps adj
  let prim ← forRanks (fun _ (x : Piece × Adj × Held) => toLocalPrimary x.1.bnds x.2.1 x.2.2) 0 (ps.zip (adj.zip held))
  let out ← reorderCells dim ((held.zip prim).map (fun x => stOf x.1 x.2))
  let gc ← setMPIAlignBcast ((ps.map (·.cells.length)).map Int.ofNat)
  let outs ← interpolate per srt gc (out.1.map (·.rankIn))
  .ok (out.1.zip outs)

end DNDSR.Reorder
