import Verif.Model.Node2Cell
import Verif.Model.FacesGhost

/-!
# Cell neighbours, boundary cells and the ghost layer (`src/Geom/Mesh.cpp:657-1012`)

`RecoverCell2CellAndBnd2Cell`, `BuildGhostPrimary` and `AdjGlobal2LocalPrimary` on all ranks.  Entries are global numbers
until the last one.  The pulls are modelled by what they deliver (C08): a ghost row is the row of the same global number
on its owner.  Coordinates, `bndElemInfo` and the empty ghost layer of the boundaries are carried along unchanged and left
out.  `std::set<index>` is a strictly ascending list.
-/

namespace DNDSR.Ghost

open DNDSR.IMap DNDSR.MeshAdj DNDSR.N2C DNDSR.Faces
open DNDSR.Bits (Mark mxor mand)

/-- one row of `bnd2node` and the zone in `bndElemInfo` -/
structure Bnd where
  zone : Int
  nodes : List Int
  deriving Repr, DecidableEq

/-- what a rank owns: cells in global node numbers, boundary elements, and the size of `coords.father` -/
structure Piece where
  cells : List Cell
  bnds : List Bnd
  nNodes : Nat
  deriving Repr, DecidableEq

/-! ### Neighbours -/

/-- `std::set::insert` -/
def sIns (x : Int) : List Int → List Int
  | [] => [x]
  | y :: ys => if x < y then x :: y :: ys else if x = y then y :: ys else y :: sIns x ys

/-- the nodes owned elsewhere, `src/Geom/Mesh.cpp:675-683`, added to the set `s` -/
def needNodes (gn : GOM) (rank : Nat) (s : List Int) : List Int → Res (List Int)
  | [] => .ok s
  | q :: qs => do
    let v ← global2LocalNoSon gn rank q
    needNodes gn rank (if v < 0 then setInsert s q else s) qs

/-- `iNodeGlobal2LocalAppendInNode2Cell` as the list of its keys in the order of their values, `src/Geom/Mesh.cpp:696-699` -/
def nodeTable (m : Map) (n : Nat) : Res (List Int) := forRanks (fun i _ => m.apply (-1) i) 0 (List.replicate n ())

/-- the value of a key: a later assignment replaces an earlier one -/
def lookupFrom (q : Int) (i : Nat) : List Int → Option Nat
  | [] => none
  | x :: xs =>
    match lookupFrom q (i + 1) xs with
    | some k => some k
    | none => if x = q then some i else none

/-- `node2cell[iNodeGlobal2LocalAppendInNode2Cell.at(in)]`, `src/Geom/Mesh.cpp:712-713,734-736`; the assertions on `count`
(also the separate loop at `src/Geom/Mesh.cpp:701-703`) are here -/
def cellsOfNode (tbl : List Int) (rows : List (List Int)) (q : Int) : Res (List Int) :=
  match lookupFrom q 0 tbl with
  | none => .abort
  | some k => idx rows k

/-- the set of cells of the nodes, `src/Geom/Mesh.cpp:709-715` -/
def gather (tbl : List Int) (rows : List (List Int)) (s : List Int) : List Int → Res (List Int)
  | [] => .ok s
  | q :: qs => do
    let row ← cellsOfNode tbl rows q
    gather tbl rows (row.foldl (fun s c => sIns c s) s) qs

/-- one row of `cell2cell`, `src/Geom/Mesh.cpp:707-722` -/
def neighbours (tbl : List Int) (rows : List (List Int)) (self : Res Int) (nodes : List Int) : Res (List Int) := do
  let s ← gather tbl rows [] nodes
  let c ← self
  Res.assert (c ∈ s)
  .ok (s.erase c)

/-- the set of cells with all of the nodes, `src/Geom/Mesh.cpp:729-741`; `none` is `initDone == false` -/
def common (tbl : List Int) (rows : List (List Int)) (cur : Option (List Int)) : List Int → Res (List Int)
  | [] => .ok (cur.getD [])
  | q :: qs => do
    let row ← cellsOfNode tbl rows q
    common tbl rows (some (row.foldl (fun s c => if (match cur with | none => true | some s0 => decide (c ∈ s0)) then sIns c s else s) [])) qs

/-- Models `FaceIDIsPeriodic`, `src/Geom/BoundaryCondition.hpp:117-125`. -/
def isPeriodicId (z : Int) : Bool := decide (z = -1 ∨ z = -2 ∨ z = -3 ∨ z = -4 ∨ z = -5 ∨ z = -6)

/-- the two entries of `bnd2cell`, `src/Geom/Mesh.cpp:748-766` -/
def bndCells (per : Bool) (zone : Int) (s : List Int) : Res (Int × Int) :=
  if per && isPeriodicId zone then
    match s with
    | [a, b] => .ok (a, b)
    | _ => .abort
  else
    match s with
    | [a] => .ok (a, unInit)
    | _ => .abort

/-! ### Which of two cells a periodic boundary element belongs to -/

/-- the bits a cell has at a node, `src/Geom/Mesh.cpp:802-808` -/
def bitsAt (q : Int) : List Int → List Mark → Res (List Mark)
  | [], _ => .ok []
  | n :: ns, pbi =>
    if n = q then
      match pbi with
      | [] => .ub
      | b :: bs => do
        let r ← bitsAt q ns bs
        .ok (b :: r)
    else bitsAt q ns pbi.tail

/-- `pbi0`, `pbi1`, `src/Geom/Mesh.cpp:797-811` -/
def sideBits (c : Cell) : List Int → Res (List Mark)
  | [] => .ok []
  | q :: qs => do
    let bs ← bitsAt q c.nodes c.pbi
    Res.assert (bs ≠ [])
    let r ← sideBits c qs
    .ok (bs ++ r)

/-- `cleanOtherBits`, `src/Geom/Mesh.cpp:813-821` -/
def clean (zone : Int) (b : Mark) : Mark :=
  if zone = -1 ∨ zone = -4 then mand b 1#8
  else if zone = -2 ∨ zone = -5 then mand b 2#8
  else if zone = -3 ∨ zone = -6 then mand b 4#8
  else b

/-- `bndBit`, `src/Geom/Mesh.cpp:827-836` -/
def bndBit (zone : Int) : Res Mark :=
  if zone = -4 then .ok 1#8
  else if zone = -5 then .ok 2#8
  else if zone = -6 then .ok 4#8
  else if isPeriodicId zone then .ok 0#8
  else .abort

/-- `match0`, `match1`, `src/Geom/Mesh.cpp:837-843` -/
def fitsBit (zone : Int) (bit : Mark) (bs : List Mark) : Bool := bs.all (fun b => decide (mxor (clean zone b) bit = 0#8))

/-- one boundary element with two cells, `src/Geom/Mesh.cpp:788-870`; `m` is the mapping of the cells pulled for this and
`held` those cells, own ones first -/
def orient (m : Map) (held : List Cell) (b : Bnd) (x : Int × Int) : Res (Int × Int) :=
  if x.2 = unInit then .ok x
  else do
    let l0 ← mustFind m x.1
    let l1 ← mustFind m x.2
    let c0 ← at64 held l0
    let c1 ← at64 held l1
    let b0 ← sideBits c0 b.nodes
    let b1 ← sideBits c1 b.nodes
    let bit ← bndBit b.zone
    if fitsBit b.zone bit b0 && !fitsBit b.zone bit b1 then .ok x
    else if fitsBit b.zone bit b1 && !fitsBit b.zone bit b0 then .ok (x.2, x.1)
    else .abort

/-- `neededCells`, `src/Geom/Mesh.cpp:776-779` -/
def neededCells (xs : List (Int × Int)) : List Int := (xs.map (fun x => if x.2 = unInit then [] else [x.1, x.2])).flatten

/-- the rows of `cell2cell.father` and `bnd2cell.father` -/
structure Adj where
  c2c : List (List Int)
  b2c : List (Int × Int)
  deriving Repr, DecidableEq

/-- the part for periodic meshes, `src/Geom/Mesh.cpp:774-871` -/
def orientAll (gc : GOM) (ps : List Piece) (adj : List Adj) : Res (List Adj) := do
  let maps ← createPull gc (ps.map (·.cells.length)) (adj.map (fun a => neededCells a.b2c))
  forRanks (fun _ (x : Piece × Adj × Map) => do
    let son ← forRanks (fun _ q => fetch gc (ps.map (·.cells)) q) 0 x.2.2.ghostIndex
    let b2c ← forRanks (fun _ (y : Bnd × Int × Int) => orient x.2.2 (x.1.cells ++ son) y.1 y.2) 0 (x.1.bnds.zip x.2.1.b2c)
    .ok { x.2.1 with b2c := b2c }) 0 (ps.zip (adj.zip maps))

/-- Models `RecoverCell2CellAndBnd2Cell`, `src/Geom/Mesh.cpp:657-872`; `n2c` are the rows of `node2cell.father`, `h` the order
in which the set of nodes is iterated. -/
def recover (per : Bool) (h : Hash) (ps : List Piece) (n2c : List (List (List Int))) : Res (List Adj) := do
  let gn ← setMPIAlignBcast ((ps.map (·.nNodes)).map Int.ofNat)
  let gc ← setMPIAlignBcast ((ps.map (·.cells.length)).map Int.ofNat)
  let need ← forRanks (fun r (p : Piece) => do
    let s ← needNodes gn r [] (p.cells.map (·.nodes)).flatten
    let s ← needNodes gn r s (p.bnds.map (·.nodes)).flatten
    .ok (h.set s)) 0 ps
  let gm ← setMPIAlignBcast ((n2c.map List.length).map Int.ofNat)
  let maps ← createPull gm (n2c.map List.length) need
  let adj ← forRanks (fun r (x : Piece × List (List Int) × Map) => do
    let son ← forRanks (fun _ q => fetch gm n2c q) 0 x.2.2.ghostIndex
    let rows := x.2.1 ++ son
    let tbl ← nodeTable x.2.2 rows.length
    let c2c ← forRanks (fun i (c : Cell) => neighbours tbl rows (local2GlobalNoSon gc r x.1.cells.length i) c.nodes) 0 x.1.cells
    let b2c ← forRanks (fun _ (b : Bnd) => do
      let s ← common tbl rows none b.nodes
      bndCells per b.zone s) 0 x.1.bnds
    .ok ⟨c2c, b2c⟩) 0 (ps.zip (n2c.zip maps))
  if per then orientAll gc ps adj else .ok adj

/-! ### The ghost layer -/

/-- the entries owned by other ranks, `src/Geom/Mesh.cpp:889-902,934-947` -/
def away (g : GOM) (rank : Nat) : List Int → Res (List Int)
  | [] => .ok []
  | q :: qs => do
    match ← g.search q with
    | none => .abort
    | some (r, _) => do
      let rest ← away g rank qs
      .ok (if r ≠ rank then q :: rest else rest)

/-- what a rank holds: cells and rows of `cell2cell` (own, then ghosts), the mapping of cells and that of nodes -/
structure Held where
  cells : List Cell
  c2c : List (List Int)
  cellMap : Map
  nodeMap : Map
  deriving Repr, DecidableEq

/-- Models `BuildGhostPrimary`, `src/Geom/Mesh.cpp:874-982`. -/
def buildGhost (ps : List Piece) (adj : List Adj) : Res (List Held) := do
  let gc ← setMPIAlignBcast ((adj.map (·.c2c.length)).map Int.ofNat)
  let want ← forRanks (fun r (a : Adj) => away gc r a.c2c.flatten) 0 adj
  let cmaps ← createPull gc (adj.map (·.c2c.length)) want
  let held ← forRanks (fun _ (x : Piece × Adj × Map) => do
    let son ← forRanks (fun _ q => fetch gc (ps.map (·.cells)) q) 0 x.2.2.ghostIndex
    let c2c ← forRanks (fun _ q => fetch gc (adj.map (·.c2c)) q) 0 x.2.2.ghostIndex
    .ok (x.1.cells ++ son, x.2.1.c2c ++ c2c)) 0 (ps.zip (adj.zip cmaps))
  let gn ← setMPIAlignBcast ((ps.map (·.nNodes)).map Int.ofNat)
  let wantN ← forRanks (fun r (x : List Cell × List (List Int)) => away gn r (x.1.map (·.nodes)).flatten) 0 held
  let nmaps ← createPull gn (ps.map (·.nNodes)) wantN
  .ok ((held.zip (cmaps.zip nmaps)).map (fun x => ⟨x.1.1, x.1.2, x.2.1, x.2.2⟩))

/-- `AdjGlobal2LocalPrimary` on one rank, `src/Geom/Mesh.cpp:984-1012` -/
def toLocalPrimary (b : List Bnd) (a : Adj) (x : Held) : Res Primary :=
  adjGlobal2LocalPrimary ⟨x.cellMap, x.nodeMap, x.cellMap, ⟨[], []⟩, 0, 0⟩
    ⟨.pointToGlobal, x.c2c, a.b2c.map (fun y => [y.1, y.2]), x.cells.map (·.nodes), b.map (·.nodes)⟩

/-- what a rank has when its faces are to be built -/
def toRankIn (x : Held) (p : Primary) : RankIn :=
  ⟨(x.cells.zip p.cell2node).map (fun y => { y.1 with nodes := y.2 }), x.cellMap, x.nodeMap⟩

/-- every row of an array, as `node2cell[i]` reads them -/
def readAll (a : Arr.Array Int) : Res (List (List Int)) := forRanks (fun i _ => readRow a i) 0 (List.replicate a.size ())

/-- The sequence of calls that builds a mesh from its parts: `RecoverNode2CellAndNode2Bnd` (here `node2cell` only),
`RecoverCell2CellAndBnd2Cell`, `BuildGhostPrimary`, `AdjGlobal2LocalPrimary`, `InterpolateFace`,
`src/Geom/Mesh.hpp:317-342`. -/
def buildMesh (per : Bool) (h : Hash) (unique : Bool) (srt : Sorter) (order : List (Nat × Nat)) (ps : List Piece) :
    Res (List (Adj × Primary × RankOut)) := do
  let arrs ← node2Cell h unique (ps.map (·.nNodes)) (ps.map (fun p => p.cells.map (·.nodes))) order
  let n2c ← forRanks (fun _ a => readAll a) 0 arrs
  let adj ← recover per h ps n2c
  let held ← buildGhost ps adj
  let prim ← forRanks (fun _ (x : Piece × Adj × Held) => toLocalPrimary x.1.bnds x.2.1 x.2.2) 0 (ps.zip (adj.zip held))
  let gc ← setMPIAlignBcast ((ps.map (·.cells.length)).map Int.ofNat)
  let outs ← interpolate per srt gc ((held.zip prim).map (fun x => toRankIn x.1 x.2))
  .ok (adj.zip (prim.zip outs))

end DNDSR.Ghost
