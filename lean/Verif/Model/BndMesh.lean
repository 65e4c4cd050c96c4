import Verif.Model.FaceZones
import Verif.Model.MeshAdj

/-!
# The boundary mesh (`UnstructuredMesh::ConstructBndMesh`, `src/Geom/Mesh.cpp:1880-2029`)

Run collectively.  Pulls are modelled by what they deliver (C07): a ghost row is the row of the same global number on its
owner.  The second exchange, which brings the counts of ghost nodes back to the owners
(`src/Geom/Mesh.cpp:1917-1938`), is the one of `GeneralCell2NodeToNode2Cell` (C25).  Coordinates are of any type `V`.
-/

namespace DNDSR.Bnd

open DNDSR.Elem DNDSR.IMap DNDSR.Faces DNDSR.MeshAdj
open DNDSR.Per (isPeriodic)
open DNDSR.Bits (Mark)

/-- what a rank brings: the mapping of the nodes, `coords` (own nodes first), the boundary elements in local numbers,
`bnd2face`, and the faces (`face2node`, `face2nodePbi`) -/
structure RankB (V : Type) where
  nodeMap : Map
  coords : List V
  bnds : List BndRow
  bnd2face : List Int
  faces : List Face

variable {V : Type}

/-- `NumNode()` and `NumNodeProc()`, `src/Geom/Mesh.hpp:380,389` -/
def RankB.nNode (x : RankB V) : Nat := x.nodeMap.mainSize
def RankB.nProc (x : RankB V) : Nat := x.nodeMap.mainSize + x.nodeMap.ghostIndex.length

/-- a cell of the boundary mesh: rows of `cell2node`, `cell2nodePbi`, `cellElemInfo` and `cell2parentCell` -/
structure BCell where
  nodes : List Int
  pbi : List Mark
  info : Info
  parent : Nat

/-- what a rank has afterwards: `bMesh.coords` and its mapping, `node2bndNode`, `bMesh.node2parentNode` and the cells -/
structure OutB (V : Type) where
  map : Map
  coords : List V
  node2bnd : List Int
  parents : List Int
  cells : List BCell

/-- `node2bndNodeGlobal[c] += k` -/
def addAt (cont : List Nat) (c : Int) (k : Nat) : Res (List Nat) := do
  let n ← at64 cont c
  .ok (cont.set c.toNat (n + k))

/-- the nodes of one element, `src/Geom/Mesh.cpp:1911-1912` -/
def refRow (cont : List Nat) : List Int → Res (List Nat)
  | [] => .ok cont
  | v :: vs => do
    let c ← addAt cont v 1
    refRow c vs

/-- the loop over the elements, `src/Geom/Mesh.cpp:1910-1912` -/
def refBnds (cont : List Nat) : List BndRow → Res (List Nat)
  | [] => .ok cont
  | b :: bs => do
    let c ← refRow cont b.nodes
    refBnds c bs

/-- the counts that came back, `src/Geom/Mesh.cpp:1927-1933` -/
def addPast (gn : GOM) (r : Nat) (cont : List Nat) : List (Int × Nat) → Res (List Nat)
  | [] => .ok cont
  | (q, k) :: ps => do
    match ← gn.search q with
    | none => .abort
    | some (rank, val) => do
      Res.assert (rank = r)
      let c ← addAt cont val k
      addPast gn r c ps

/-- local numbers of the own boundary nodes and `bndNodeCount`, `src/Geom/Mesh.cpp:1936-1940` -/
def numberOwn (count : Nat) : List Nat → List Int × Nat
  | [] => ([], count)
  | n :: ns =>
    if n = 0 then let p := numberOwn count ns; (unInit :: p.1, p.2)
    else let p := numberOwn (count + 1) ns; ((count : Int) :: p.1, p.2)

/-- `node2bndNodeGlobal[i] += bndNodeStart`, `src/Geom/Mesh.cpp:1945-1947`; the rows of ghost nodes are overwritten by the
pull that follows -/
def shift (start v : Int) : Int := if v ≥ 0 then v + start else v

/-- the global numbers of the own boundary nodes on every rank, and their counts, `src/Geom/Mesh.cpp:1896-1948`;
`MPI_Scan` gives the sum over the ranks up to this one -/
def bndNumbers (gn : GOM) (xs : List (RankB V)) : Res (List (List Int) × List Nat) := do
  let cs ← forRanks (fun _ (x : RankB V) => refBnds (List.replicate x.nProc 0) x.bnds) 0 xs
  let sonLens := xs.map (fun x => x.nodeMap.ghostIndex.length)
  let gs ← setMPIAlignBcast (sonLens.map Int.ofNat)
  let maps2 ← createPush gs sonLens (xs.map fun x => ((List.range x.nodeMap.ghostIndex.length).map Int.ofNat, x.nodeMap.ghostStart))
  let sons := (xs.zip cs).map (fun x => x.2.drop x.1.nNode)
  let fs ← forRanks (fun r (x : (RankB V × List Nat) × Map) => do
    let past ← forRanks (fun _ q => fetch gs sons q) 0 x.2.ghostIndex
    Res.assert (x.1.1.nodeMap.pushingIndexGlobal.length = past.length)
    addPast gn r x.1.2 (x.1.1.nodeMap.pushingIndexGlobal.zip past)) 0 ((xs.zip cs).zip maps2)
  let ns := (xs.zip fs).map (fun x => numberOwn 0 (x.2.take x.1.nNode))
  let counts := ns.map (·.2)
  let owns ← forRanks (fun r (n : List Int × Nat) => do
    let start : Int := ((counts.take (r + 1)).sum : Int) - n.2
    Res.assert (start ≥ 0)
    .ok (n.1.map (shift start))) 0 ns
  .ok (owns, counts)

/-- `bndNodePullingSet`, `src/Geom/Mesh.cpp:1953-1963` -/
def pullSet (gb : GOM) (r : Nat) : List Int → Res (List Int)
  | [] => .ok []
  | v :: vs =>
    if v < 0 then pullSet gb r vs
    else do
      match ← gb.search v with
      | none => .abort
      | some (rank, _) => do
        let rest ← pullSet gb r vs
        .ok (if rank ≠ r then v :: rest else rest)

/-- `bMesh.node2parentNode`, `src/Geom/Mesh.cpp:1972-1974`, from node `i` on; `std::vector::at` throws -/
def setParents (i : Nat) (ps : List Int) : List Int → Res (List Int)
  | [] => .ok ps
  | w :: ws =>
    if w ≥ 0 then
      if w.toNat < ps.length then setParents (i + 1) (ps.set w.toNat i) ws else .abort
    else setParents (i + 1) ps ws

/-- `node2bndNode`, `src/Geom/Mesh.cpp:1967,1969-1971` -/
def node2Bnd (m : Map) (all : List Int) : Res (List Int) :=
  forRanks (fun _ v => do
    let w ← global2Local m v
    Res.assert (v = unInit ∨ w ≥ 0)
    .ok w) 0 all

/-- the nodes of the boundary mesh on a rank before the last pull, `src/Geom/Mesh.cpp:1967-1978` -/
def nodesOf (x : RankB V) (all : List Int) (m : Map) : Res (OutB V) := do
  let n2b ← node2Bnd m all
  let ps ← setParents 0 (List.replicate (m.mainSize + m.ghostIndex.length) 0) n2b
  let cs ← forRanks (fun _ p => at64 x.coords p) 0 ps
  .ok ⟨m, cs, n2b, ps, []⟩

/-- where the nodes of element `k` come from, `src/Geom/Mesh.cpp:2003-2006` -/
def srcNodes (faces : List Face) (f : Int) (b : BndRow) : Res (List Int) :=
  if f < 0 then .ok b.nodes
  else do
    let fc ← at64 faces f
    .ok fc.slot.nodes

/-- `cell2nodePbi` of element `k`, `src/Geom/Mesh.cpp:2008-2016` -/
def srcPbi (per : Bool) (faces : List Face) (f : Int) (b : BndRow) : Res (List Mark) :=
  if per then
    if f < 0 then .ok (List.replicate b.nodes.length 0#8)
    else do
      let fc ← at64 faces f
      forRanks (fun p _ => idx fc.slot.pbi p) 0 b.nodes
  else .ok []

/-- one element, `src/Geom/Mesh.cpp:1995-2018` -/
def bndCell (per : Bool) (x : RankB V) (n2b : List Int) (k : Nat) (b : BndRow) : Res BCell := do
  let f ← idx x.bnd2face k
  let src ← srcNodes x.faces f b
  let nodes ← forRanks (fun p v => do
    let u ← idx src p
    let w ← at64 n2b u
    let w0 ← at64 n2b v
    Res.assert (w0 ≥ 0)
    .ok w) 0 b.nodes
  let pbi ← srcPbi per x.faces f b
  .ok ⟨nodes, pbi, b.info, k⟩

/-- the loop over the elements from `k` on, `src/Geom/Mesh.cpp:1990-2019` -/
def bndCells (per : Bool) (x : RankB V) (n2b : List Int) (k : Nat) : List BndRow → Res (List BCell)
  | [] => .ok []
  | b :: bs =>
    if isPeriodic b.info.zone then bndCells per x n2b (k + 1) bs
    else do
      let c ← bndCell per x n2b k b
      let cs ← bndCells per x n2b (k + 1) bs
      .ok (c :: cs)

/-- Models `ConstructBndMesh` on all ranks, `src/Geom/Mesh.cpp:1880-2029`. -/
def constructBnd (per : Bool) (gn : GOM) (xs : List (RankB V)) : Res (List (OutB V)) := do
  let nums ← bndNumbers gn xs
  -- node2bndNodeGlobal.trans.pullOnce(), `src/Geom/Mesh.cpp:1949`
  let alls ← forRanks (fun _ (x : RankB V × List Int) => do
    let son ← forRanks (fun _ q => fetch gn nums.1 q) 0 x.1.nodeMap.ghostIndex
    .ok (x.2 ++ son)) 0 (xs.zip nums.1)
  -- bMesh.coords.trans, `src/Geom/Mesh.cpp:1950-1965`
  let gb ← setMPIAlignBcast (nums.2.map Int.ofNat)
  let sets ← forRanks (fun r vs => pullSet gb r vs) 0 alls
  let maps ← createPull gb nums.2 sets
  let pre ← forRanks (fun _ (x : (RankB V × List Int) × Map) => nodesOf x.1.1 x.1.2 x.2) 0 ((xs.zip alls).zip maps)
  -- bMesh.coords.trans.pullOnce(), `src/Geom/Mesh.cpp:1979`
  let fathers := pre.map (fun o => o.coords.take o.map.mainSize)
  forRanks (fun _ (x : RankB V × OutB V) => do
    let son ← forRanks (fun _ q => fetch gb fathers q) 0 x.2.map.ghostIndex
    let cells ← bndCells per x.1 x.2.node2bnd 0 x.1.bnds
    .ok ⟨x.2.map, x.2.coords.take x.2.map.mainSize ++ son, x.2.node2bnd, x.2.parents, cells⟩) 0 (xs.zip pre)

end DNDSR.Bnd
