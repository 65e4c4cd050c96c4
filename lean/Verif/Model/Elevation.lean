import Verif.Model.Reorder
import Verif.Model.Periodic

/-!
# From elements of order one to elements of order two (`src/Geom/Mesh_Elevation.cpp:22-437`)

`BuildO2FromO1Elevation` on all ranks.  A new node is put at the mean of every edge, of every quadrilateral face and of every
quadrilateral or hexahedral cell; the cell with the smallest global number that has the edge or face makes the node, and the others
look for it by its position among the nodes that cell made.  Pulls are modelled by what they deliver (C08): a ghost row is the row of
the same global number on its owner.  Coordinates are real numbers.  The logs, `nNodeO1`, `elevState` and the zones of
`cellElemInfo`, which are copied, are left out.
-/

namespace DNDSR.Elev

open DNDSR.IMap DNDSR.MeshAdj DNDSR.Faces DNDSR.Ghost DNDSR.Elem DNDSR.Reorder
open DNDSR.Bits (Mark)
open DNDSR.Per (V3 Periodicity)

/-- what a rank has of the mesh of order one: cells, adjacencies and mappings, `coords` (own nodes, then copies), and the zones of
`bndElemInfo`, `src/Geom/Mesh.hpp:101-123` -/
structure RankO1 where
  st : Reorder.St
  coords : List V3
  zones : List Int

/-- what a rank has of the mesh of order two: its cells, the coordinates of its nodes, `cell2cell` and `bnd2cell`, and its boundary
elements with their types; all in global numbers -/
structure RankO2 where
  cells : List Cell
  coords : List V3
  c2c : List (List Int)
  b2c : List (Int × Int)
  bnds : List (ElemType × Bnd)

/-- Models `GetCoordsOnCell` when numbers are local, `src/Geom/Mesh.hpp:427-438,459-470,488-494`. -/
noncomputable def cellCoords (per : Bool) (P : Periodicity) (coords : List V3) (nodes : List Int) (pbi : List Mark) : Res (List V3) :=
  forRanks (fun i v => do
    let x ← at64 coords v
    if per then do
      let b ← idx pbi i
      Per.coordByBits P x b
    else .ok x) 0 nodes

/-- `newNodeCoord` and `pbiR` of one new node, `src/Geom/Mesh_Elevation.cpp:68-87,247-275`: the mean of the nodes it spans, brought back by
the bits they have in common (without periodicity there are none) -/
noncomputable def newPoint (per : Bool) (P : Periodicity) (t : ElemType) (xs : List V3) (pbi : List Mark) (k : Nat) : Res (V3 × Mark) := do
  let ys ← extractElevSpan t k xs
  let y := (ys.length : ℝ)⁻¹ • ys.sum
  if per then do
    let bs ← extractElevSpan t k pbi
    let b := Bits.bitandReduce bs
    let z ← Per.coordBackByBits P y b
    .ok (z, b)
  else .ok (y, 0#8)

/-- the loop over `c2c`, `src/Geom/Mesh_Elevation.cpp:89-105`: `curMinGlobiCell` and `curMinic2c` -/
def findOwner (s : Reorder.St) (i : Int) (spanSrt : List Int) (best arg : Int) (k : Nat) : List Int → Res (Int × Int)
  | [] => .ok (best, arg)
  | j :: js =>
    if j = i then findOwner s i spanSrt best arg (k + 1) js
    else do
      let ns ← at64 s.prim.cell2node j
      let g ← s.cellMap.apply (-1) j
      if g < best ∧ includes (sortIdx ns) spanSrt = true then findOwner s i spanSrt g k (k + 1) js
      else findOwner s i spanSrt best arg (k + 1) js

/-- what the loop over the new nodes of a cell finds for one of them: whether this cell makes it, `curMinic2c`, where it is and its bits -/
structure Choice where
  own : Bool
  arg : Int
  at_ : V3
  bits : Mark

/-- the body of the loop over new nodes, up to the numbering, `src/Geom/Mesh_Elevation.cpp:59-107` -/
noncomputable def choose (per : Bool) (P : Periodicity) (s : Reorder.St) (i : Nat) (self : Int) (e : ElemType × List Mark) (ns c2c : List Int)
    (xs : List V3) (k : Nat) : Res Choice := do
  let span ← extractElevSpan e.1 k ns
  let y ← newPoint per P e.1 xs e.2 k
  let o ← findOwner s i (sortIdx span) self (-1) 0 c2c
  .ok ⟨decide (o.1 = self), o.2, y.1, y.2⟩

/-- the loop over the own cells, `src/Geom/Mesh_Elevation.cpp:47-113`.  The loop numbers the new nodes while it goes; nothing it reads
depends on the numbers, so here all nodes are found first and numbered by `numberRows`. -/
noncomputable def chooseAll (per : Bool) (P : Periodicity) (x : RankO1) : Res (List (List Choice)) :=
  forRanks (fun i _ => do
    let e ← idx x.st.info i
    let ns ← idx x.st.prim.cell2node i
    let c2c ← idx x.st.prim.cell2cell i
    let self ← x.st.cellMap.apply (-1) i
    let xs ← cellCoords per P x.coords ns e.2
    forRanks (fun k _ => choose per P x.st i self e ns c2c xs k) 0 (List.replicate (numElev e.1).toNat ())) 0
      (List.replicate x.st.nCell ())

/-- one row of `cellNewNodes` and the next free number, `src/Geom/Mesh_Elevation.cpp:106-114` -/
def numberRow (n : Nat) : List Choice → List Int × Nat
  | [] => ([], n)
  | c :: cs =>
    if c.own then ((n : Int) :: (numberRow (n + 1) cs).1, (numberRow (n + 1) cs).2)
    else ((-1 - c.arg) :: (numberRow n cs).1, (numberRow n cs).2)

/-- `cellNewNodes` of a rank -/
def numberRows (n : Nat) : List (List Choice) → List (List Int)
  | [] => []
  | cs :: rest => (numberRow n cs).1 :: numberRows (numberRow n cs).2 rest

/-- `newCoords` -/
def newCoords (cs : List (List Choice)) : List V3 := (cs.flatten.filter (·.own)).map (·.at_)

/-- `coords.father`, `src/Geom/Mesh_Elevation.cpp:127-135`: the own nodes of order one, then the new ones -/
def ownCoords (x : RankO1) (cs : List (List Choice)) : List V3 := x.coords.take x.st.nodeMap.mainSize ++ newCoords cs

/-- numbers of new nodes made global, `src/Geom/Mesh_Elevation.cpp:149-161` -/
def globalRow (gn : GOM) (r nO1 : Nat) (row : List Int) : Res (List Int) :=
  forRanks (fun _ v => if v < 0 then .ok v else gn.apply r (v + nO1)) 0 row

/-- the new number of a node of order one, `src/Geom/Mesh_Elevation.cpp:216-223,362-369` -/
def oldNode (gnO1 gn : GOM) (m : Map) (v : Int) : Res Int := do
  let q ← m.apply (-1) v
  match ← gnO1.search q with
  | none => .abort
  | some (r, off) => gn.apply r off

/-- `squaredNorm` of a difference -/
noncomputable def sqrDist (a b : V3) : ℝ := (a 0 - b 0) ^ 2 + (a 1 - b 1) ^ 2 + (a 2 - b 2) ^ 2

/-- the geometric search, `src/Geom/Mesh_Elevation.cpp:285-306`: `nFound` and the node found last -/
noncomputable def seek (m : Map) (coords : List V3) (y : V3) (n : Nat) (found : Int) : List Int → Res (Nat × Int)
  | [] => .ok (n, found)
  | q :: qs =>
    if q < 0 then seek m coords y n found qs
    else do
      match ← m.searchAppend q with
      | none => .abort
      | some (_, v) => do
        let z ← at64 coords v
        if sqrDist z y < (10 : ℝ)⁻¹ ^ 20 then seek m coords y (n + 1) q qs else seek m coords y n found qs

/-- the node of the mesh of order two for one new node of a cell, `src/Geom/Mesh_Elevation.cpp:276-308` -/
noncomputable def newNode (m : Map) (coords : List V3) (rows : List (List Int)) (c2c : List Int) (y : V3) (entry : Int) : Res Int :=
  if entry ≥ 0 then .ok entry
  else do
    let j ← at64 c2c (-1 - entry)
    let row ← at64 rows j
    let f ← seek m coords y 0 (-1) row
    Res.assert (f.1 = 1)
    .ok f.2

/-- one cell, `src/Geom/Mesh_Elevation.cpp:204-308`.  (The source fills the nodes of order one of all cells in a first loop.  The positions it
computes again are those of the first stage, `cs`.) -/
noncomputable def newCell (per : Bool) (gnO1 gn : GOM) (m : Map) (coords : List V3) (rows : List (List Int)) (x : RankO1) (i : Nat)
    (cs : List Choice) : Res Cell := do
  let e ← idx x.st.info i
  let ns ← idx x.st.prim.cell2node i
  let c2c ← idx x.st.prim.cell2cell i
  let row ← idx rows i
  let old ← forRanks (fun _ v => oldNode gnO1 gn x.st.nodeMap v) 0 ns
  let new ← forRanks (fun k (c : Choice) => do
    let v ← idx row k
    newNode m coords rows c2c c.at_ v) 0 cs
  .ok ⟨elevatedType e.1, old ++ new, if per then e.2 ++ cs.map (·.bits) else []⟩

/-- the loop over the faces of a cell, `src/Geom/Mesh_Elevation.cpp:377-394`: `nFound` and the type and the nodes of the face found last -/
def seekFace (c : Cell) (b : List Int) (f n : Nat) (found : ElemType × List Int) : Nat → Res (Nat × ElemType × List Int)
  | 0 => .ok (n, found)
  | k + 1 => do
    let ns ← extractFaceNodes c.type f c.nodes
    if includes (sortIdx ns) b = true then seekFace c b (f + 1) (n + 1) (faceType c.type f, ns) k
    else seekFace c b (f + 1) n found k

/-- one boundary element, `src/Geom/Mesh_Elevation.cpp:357-399`.  `cellElemInfo` and `cell2node` of the new mesh have no copies yet, so the
cell has to be an own one. -/
def newBnd (gnO1 gn : GOM) (x : RankO1) (cells : List Cell) (i : Nat) (zone : Int) : Res (ElemType × Bnd) := do
  let b2c ← idx x.st.prim.bnd2cell i
  let iCell ← idx b2c 0
  let b2n ← idx x.st.prim.bnd2node i
  let b ← forRanks (fun _ v => oldNode gnO1 gn x.st.nodeMap v) 0 b2n
  let c ← (if iCell < 0 then Res.ub else match cells[iCell.toNat]? with | some c => .ok c | none => .abort)
  let f ← seekFace c (sortIdx b) 0 0 (.unknown, []) (numFaces c.type).toNat
  Res.assert (f.1 = 1)
  .ok (f.2.1, ⟨zone, f.2.2⟩)

/-- `bnd2cell` of one boundary element, `src/Geom/Mesh_Elevation.cpp:334-341` -/
def bndCells (m : Map) (row : List Int) : Res (Int × Int) := do
  let a ← idx row 0
  let b ← idx row 1
  let a' ← m.apply (-1) a
  if b ≠ Faces.unInit then do
    let b' ← m.apply (-1) b
    .ok (a', b')
  else .ok (a', b)

/-- Models `BuildO2FromO1Elevation`, `src/Geom/Mesh_Elevation.cpp:22-437`. -/
noncomputable def elevate (per : Bool) (P : Periodicity) (xs : List RankO1) : Res (List RankO2) := do
  Res.assert ((isO1 (xs.map (fun x => x.st.info.map (·.1)))).all (· = true))
  Res.assert (xs.all (fun x => decide (x.st.prim.state = .pointToLocal)))
  let gc ← setMPIAlignBcast ((xs.map (fun x => x.st.nCell)).map Int.ofNat)
  let gnO1 ← setMPIAlignBcast ((xs.map (fun x => x.st.nodeMap.mainSize)).map Int.ofNat)
  -- `src/Geom/Mesh_Elevation.cpp:47-120`
  let cs ← forRanks (fun _ x => chooseAll per P x) 0 xs
  -- `src/Geom/Mesh_Elevation.cpp:127-135`
  let own := (xs.zip cs).map (fun y => ownCoords y.1 y.2)
  let gn ← setMPIAlignBcast ((own.map List.length).map Int.ofNat)
  -- `src/Geom/Mesh_Elevation.cpp:149-165`
  let rows ← forRanks (fun r (y : RankO1 × List (List Choice)) =>
    forRanks (fun _ row => globalRow gn r y.1.st.nodeMap.mainSize row) 0 (numberRows 0 y.2)) 0 (xs.zip cs)
  let held ← forRanks (fun _ (y : RankO1 × List (List Int)) => do
    let son ← forRanks (fun _ q => fetch gc rows q) 0 y.1.st.cellMap.ghostIndex
    .ok (y.2 ++ son)) 0 (xs.zip rows)
  -- `src/Geom/Mesh_Elevation.cpp:167-186`
  let want ← forRanks (fun r (h : List (List Int)) => away gn r (h.flatten.filter (fun q => decide (0 ≤ q)))) 0 held
  let maps ← createPull gn (own.map List.length) want
  let coords ← forRanks (fun _ (y : List V3 × Map) => do
    let son ← forRanks (fun _ q => fetch gn own q) 0 y.2.ghostIndex
    .ok (y.1 ++ son)) 0 (own.zip maps)
  -- `src/Geom/Mesh_Elevation.cpp:204-308`
  let cells ← forRanks (fun _ (y : (RankO1 × List (List Choice)) × List (List Int) × Map × List V3) =>
    forRanks (fun i c => newCell per gnO1 gn y.2.2.1 y.2.2.2 y.2.1 y.1.1 i c) 0 y.1.2) 0
      ((xs.zip cs).zip (held.zip (maps.zip coords)))
  -- `src/Geom/Mesh_Elevation.cpp:316-400`
  forRanks (fun _ (y : RankO1 × List V3 × List Cell) => do
    let c2c ← forRanks (fun _ row => forRanks (fun _ v => y.1.st.cellMap.apply (-1) v) 0 row) 0 (y.1.st.prim.cell2cell.take y.1.st.nCell)
    let b2c ← forRanks (fun _ row => bndCells y.1.st.cellMap row) 0 y.1.st.prim.bnd2cell
    let bnds ← forRanks (fun i z => newBnd gnO1 gn y.1 y.2.2 i z) 0 y.1.zones
    .ok (⟨y.2.2, y.2.1, c2c, b2c, bnds⟩ : RankO2)) 0 (xs.zip (own.zip cells))

end DNDSR.Elev
