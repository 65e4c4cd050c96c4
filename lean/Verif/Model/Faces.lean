import Verif.Model.Elements
import Verif.Model.Bits
import Verif.Model.IndexMapping

/-!
# Building faces from cells on one rank (`src/Geom/Mesh.cpp:1319-1532`)

`InterpolateFace` up to the point where the faces of the rank are built: the loop over all cells (own and ghost) and
their face slots, the choice of the faces the rank keeps, and the renumbering.  `cell2node`, `cell2nodePbi` and
`cellElemInfo` are one list of `Cell`s, the own ones first.  `std::vector` subscripts out of range are undefined
behaviour.  `std::sort` of node and bit pairs by node leaves the order of equal nodes open, so it is an argument
(`srt`).  The zone of every face is 0 at this point (`src/Geom/Mesh.cpp:1418`), so the branch for zones above 0
(`src/Geom/Mesh.cpp:1486-1489`) is not modelled.
-/

namespace DNDSR.Faces

open DNDSR.Elem DNDSR.IMap
open DNDSR.Bits (Mark mxor collabLoop)

/-- `DNDS::UnInitIndex`, `src/DNDS/Defines.hpp:141` -/
def unInit : Int := -9223372036854775808

/-- one row of `cellElemInfo`, `cell2node` and `cell2nodePbi` -/
structure Cell where
  type : ElemType
  nodes : List Int
  pbi : List Mark
  deriving Repr, DecidableEq

/-- `eFace`, `faceNodes` and `faceNodePeriodicBits` -/
structure Slot where
  type : ElemType
  nodes : List Int
  pbi : List Mark
  deriving Repr, DecidableEq

/-- one entry of `faceElemInfoV`, `face2nodeV`, `face2nodePbiV` and `face2cellV` -/
structure Face where
  slot : Slot
  first : Int
  second : Int
  deriving Repr, DecidableEq

/-- `face2nodeV`... and `node2face` -/
structure St where
  faces : List Face
  n2f : List (List Nat)
  deriving Repr, DecidableEq

/-- the order in which `std::sort` by node leaves the pairs, `src/Geom/Mesh.cpp:1370-1372,1394-1396` -/
abbrev Sorter := List (Int × Mark) → List (Int × Mark)

/-- `std::vector(nodes.begin(), nodes.begin() + n)`, sorted, `src/Geom/Mesh.cpp:1358-1359,1382-1385` -/
def sortedVerts (t : ElemType) (nodes : List Int) : Res (List Int) :=
  let n := (numVertices t).toNat
  if n ≤ nodes.length then .ok (sortIdx (nodes.take n)) else .ub

/-- `ObtainFace`, `ExtractFaceNodes` for the nodes and, in a periodic mesh, for the bits,
`src/Geom/Mesh.cpp:1354-1356,1363-1367` -/
def slotOf (per : Bool) (c : Cell) (j : Nat) : Res Slot := do
  let nodes ← extractFaceNodes c.type j c.nodes
  match per with
  | false => .ok ⟨faceType c.type j, nodes, []⟩
  | true => do
    let pbi ← extractFaceNodes c.type j c.pbi
    .ok ⟨faceType c.type j, nodes, pbi⟩

/-- comparing the periodic bits, `src/Geom/Mesh.cpp:1390-1402`; `at(0)` throws on an empty vector -/
def collaborating (srt : Sorter) (s o : Slot) : Res Bool :=
  match (srt (s.nodes.zip s.pbi)).map (·.2), (srt (o.nodes.zip o.pbi)).map (·.2) with
  | a :: as, b :: bs => do
    Res.assert (bs.length = as.length)
    .ok (collabLoop (mxor a b) as bs)
  | _, _ => .abort

/-- does slot `s` with sorted vertices `fv` fit the face, `src/Geom/Mesh.cpp:1379-1408` -/
def fits (per : Bool) (srt : Sorter) (s : Slot) (fv : List Int) (f : Face) : Res Bool :=
  if f.slot.type ≠ s.type then .ok false
  else do
    let ov ← sortedVerts s.type f.slot.nodes
    if fv = ov then (if per then collaborating srt s f.slot else .ok true) else .ok false

/-- the loop over `node2face[iV]`, `src/Geom/Mesh.cpp:1377-1409`: a later face overwrites an earlier one -/
def searchRow (per : Bool) (srt : Sorter) (faces : List Face) (s : Slot) (fv : List Int) (found : Option Nat) :
    List Nat → Res (Option Nat)
  | [] => .ok found
  | k :: ks => do
    let f ← idx faces k
    let b ← fits per srt s fv f
    searchRow per srt faces s fv (if b then some k else found) ks

/-- `v[i]` for an `index` -/
def at64 {α : Type} (l : List α) (i : Int) : Res α := if 0 ≤ i then idx l i.toNat else .ub

/-- the loop over the vertices, `src/Geom/Mesh.cpp:1375-1409` -/
def search (per : Bool) (srt : Sorter) (st : St) (s : Slot) (fv : List Int) (found : Option Nat) : List Int → Res (Option Nat)
  | [] => .ok found
  | v :: vs =>
    match found with
    | some k => search per srt st s fv (some k) vs
    | none => do
      let row ← at64 st.n2f v
      let found' ← searchRow per srt st.faces s fv none row
      search per srt st s fv found' vs

/-- `node2face[iV].push_back(nFaces)` for all vertices, `src/Geom/Mesh.cpp:1419-1420` -/
def pushFace (k : Nat) (n2f : List (List Nat)) : List Int → Res (List (List Nat))
  | [] => .ok n2f
  | v :: vs => do
    let row ← at64 n2f v
    pushFace k (n2f.set v.toNat (row ++ [k])) vs

/-- one face slot of cell `iCell`, `src/Geom/Mesh.cpp:1354-1429`; returns what is assigned to `cell2face(iCell, ic2f)` -/
def addSlot (per : Bool) (srt : Sorter) (iCell : Int) (s : Slot) (st : St) : Res (St × Nat) := do
  let fv ← sortedVerts s.type s.nodes
  match ← search per srt st s fv none fv with
  | none => do
    let n2f ← pushFace st.faces.length st.n2f fv
    .ok (⟨st.faces ++ [⟨s, iCell, unInit⟩], n2f⟩, st.faces.length)
  | some k => do
    let f ← idx st.faces k
    Res.assert (f.second = unInit)
    .ok (⟨st.faces.set k { f with second := iCell }, st.n2f⟩, k)

/-- the loop over the slots of a cell from slot `j` for `n` slots, `src/Geom/Mesh.cpp:1352-1430` -/
def addSlots (per : Bool) (srt : Sorter) (iCell : Int) (c : Cell) (st : St) : Nat → Nat → Res (St × List Nat)
  | _, 0 => .ok (st, [])
  | j, n + 1 => do
    let s ← slotOf per c j
    let (st1, k) ← addSlot per srt iCell s st
    let (st2, ks) ← addSlots per srt iCell c st1 (j + 1) n
    .ok (st2, k :: ks)

/-- the loop over the cells from cell `i` on, `src/Geom/Mesh.cpp:1348-1431`; the rows are those of `cell2face` -/
def addCells (per : Bool) (srt : Sorter) (st : St) (i : Nat) : List Cell → Res (St × List (List Nat))
  | [] => .ok (st, [])
  | c :: cs => do
    let (st1, row) ← addSlots per srt i c st 0 (numFaces c.type).toNat
    let (st2, rows) ← addCells per srt st1 (i + 1) cs
    .ok (st2, row :: rows)

/-- the matching, `src/Geom/Mesh.cpp:1341-1431`; `nNodes` is `coords.Size()` -/
def matchFaces (per : Bool) (srt : Sorter) (nNodes : Nat) (cells : List Cell) : Res (St × List (List Nat)) :=
  addCells per srt ⟨[], List.replicate nNodes []⟩ 0 cells

/-! ### choosing the faces the rank keeps -/

/-- `iFaceAllToCollected`, `faceSendLocals` and `nFacesNew`, `src/Geom/Mesh.cpp:1446-1448` -/
structure Collect where
  all : List Int
  send : List (List Int)
  n : Nat
  deriving Repr, DecidableEq

/-- one face, `src/Geom/Mesh.cpp:1453-1484`; `nFather` is the number of own cells, `mp` and `g` the mappings of the
cells -/
def collectFace (mp : Map) (g : GOM) (rank nFather : Nat) (c : Collect) (f : Face) : Res Collect :=
  if f.second = unInit ∧ f.first ≥ nFather then .ok { c with all := c.all ++ [unInit] }
  else if f.first ≥ nFather ∧ f.second ≥ nFather then .ok { c with all := c.all ++ [unInit] }
  else if f.first ≥ nFather ∨ f.second ≥ nFather then do
    Res.assert (f.second ≥ nFather)
    let globL ← mp.apply (-1) f.first
    let globR ← mp.apply (-1) f.second
    match ← g.search globL, ← g.search globR with
    | some (rankL, _), some (rankR, _) => do
      Res.assert (rankL ≠ rankR)
      if rankL > rankR then .ok { c with all := c.all ++ [-1] }
      else do
        Res.assert (rankL = rank)
        let row ← idx c.send rankR
        .ok ⟨c.all ++ [(c.n : Int)], c.send.set rankR (row ++ [(c.n : Int)]), c.n + 1⟩
    | _, _ => .abort
  else .ok { c with all := c.all ++ [(c.n : Int)], n := c.n + 1 }

def collectFaces (mp : Map) (g : GOM) (rank nFather : Nat) (c : Collect) : List Face → Res Collect
  | [] => .ok c
  | f :: fs => do
    let c' ← collectFace mp g rank nFather c f
    collectFaces mp g rank nFather c' fs

/-- the rows of `face2node`, `face2cell`, `faceElemInfo`, `src/Geom/Mesh.cpp:1499-1519` -/
def keptFaces (faces : List Face) (all : List Int) : List Face :=
  ((faces.zip all).filter (fun x => decide (x.2 ≥ 0))).map (·.1)

/-- converting `cell2face`, `src/Geom/Mesh.cpp:1525-1531` -/
def renumber (all : List Int) (rows : List (List Nat)) : Res (List (List Int)) :=
  forRanks (fun _ row => forRanks (fun _ k => idx all k) 0 row) 0 rows

/-- what is built before the exchange: own faces, `cell2face` and `faceSendLocals` -/
structure Interp where
  faces : List Face
  c2f : List (List Int)
  send : List (List Int)
  deriving Repr, DecidableEq

/-- `InterpolateFace` before the exchange, `src/Geom/Mesh.cpp:1341-1532` -/
def buildFaces (per : Bool) (srt : Sorter) (nNodes : Nat) (mp : Map) (g : GOM) (rank size nFather : Nat)
    (cells : List Cell) : Res Interp := do
  let (st, rows) ← matchFaces per srt nNodes cells
  let c ← collectFaces mp g rank nFather ⟨[], List.replicate size [], 0⟩ st.faces
  let c2f ← renumber c.all rows
  .ok ⟨keptFaces st.faces c.all, c2f, c.send⟩

end DNDSR.Faces
