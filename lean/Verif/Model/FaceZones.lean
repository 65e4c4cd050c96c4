import Verif.Model.FacesGhost
import Verif.Model.Periodic

/-!
# Boundary elements on faces (`src/Geom/Mesh.cpp:1534-1592,1600-1633,1711-1757`)

The part of `InterpolateFace` that `Verif.Model.FacesGhost` leaves out: the information of the boundary elements is
copied onto the own faces, and from there to the ghost faces; and `AssertOnFaces`.  `iFace2iBnd` and the member `face2bnd` get
the same pairs (`src/Geom/Mesh.cpp:1575,1585`), so they are one table here, a row for every own face.  A boundary
element is a row of `bnd2node`, `bndElemInfo` and `bnd2cell`; there are no ghost boundary elements
(`src/Geom/Mesh.cpp:968`).
-/

namespace DNDSR.Faces

open DNDSR.Elem DNDSR.IMap
open DNDSR.Per (isPeriodic)

/-- `ElemInfo`, `src/Geom/Mesh.hpp:21-48` -/
structure Info where
  type : ElemType
  zone : Int
  deriving Repr, DecidableEq

/-- `bnd2node[iBnd]`, `bndElemInfo(iBnd, 0)` and `bnd2cell(iBnd, 0)` in local numbers -/
structure BndRow where
  nodes : List Int
  info : Info
  cell : Int
  deriving Repr, DecidableEq

/-- `faceElemInfo`, `bnd2face` and `face2bnd` -/
structure ZSt where
  info : List Info
  bnd2face : List Int
  face2bnd : List (Option Nat)
  deriving Repr, DecidableEq

/-- `FaceIDIsExternalBC`, `src/Geom/BoundaryCondition.hpp:102-105` -/
def isExternal (id : Int) : Bool := decide (id > 0)

/-- `FaceIDIsInternal`, `src/Geom/BoundaryCondition.hpp:107-110` -/
def isInternal (id : Int) : Bool := decide (id ≤ 0)

/-- does the element that is on the face already stay there, `src/Geom/Mesh.cpp:1562-1574` -/
def stays (nOwn : Nat) (bnds : List BndRow) (b : BndRow) : Option Nat → Res Bool
  | none => .ok false
  | some k => do
    Res.assert (isPeriodic b.info.zone = true)
    let o ← idx bnds k
    Res.assert (b.cell < nOwn)
    Res.assert (o.cell < nOwn)
    .ok (decide (b.cell > o.cell))

/-- element `iBnd` on face `iFace`, `src/Geom/Mesh.cpp:1562-1588`; the flag is whether `nFound` is increased -/
def putBnd (nOwn : Nat) (bnds : List BndRow) (iBnd : Nat) (b : BndRow) (iFace : Int) (s : ZSt) : Res (ZSt × Bool) := do
  let other ← at64 s.face2bnd iFace
  let st ← stays nOwn bnds b other
  if st then .ok (s, false)
  else do
    Res.assert (isExternal b.info.zone = true ∨ isPeriodic b.info.zone = true)
    .ok (⟨s.info.set iFace.toNat b.info, s.bnd2face.set iBnd iFace, s.face2bnd.set iFace.toNat (some iBnd)⟩, true)

/-- the loop over the row of `cell2face`, `src/Geom/Mesh.cpp:1554-1590`; `found` is `nFound > 0` -/
def bndSlots (nOwn : Nat) (faces : List Face) (bnds : List BndRow) (iBnd : Nat) (b : BndRow) (s : ZSt) (found : Bool) :
    List Int → Res (ZSt × Bool)
  | [] => .ok (s, found)
  | v :: vs =>
    if v < 0 then bndSlots nOwn faces bnds iBnd b s found vs
    else do
      let f ← at64 faces v
      if sortIdx b.nodes = sortIdx f.slot.nodes then do
        let (s', hit) ← putBnd nOwn bnds iBnd b v s
        bndSlots nOwn faces bnds iBnd b s' (found || hit) vs
      else bndSlots nOwn faces bnds iBnd b s found vs

/-- one boundary element, `src/Geom/Mesh.cpp:1549-1592` -/
def bndStep (nOwn : Nat) (faces : List Face) (c2f : List (List Int)) (bnds : List BndRow) (iBnd : Nat) (b : BndRow) (s : ZSt) : Res ZSt := do
  let row ← at64 c2f b.cell
  let (s', found) ← bndSlots nOwn faces bnds iBnd b s false row
  Res.assert (found = true ∨ isPeriodic b.info.zone = true)
  .ok s'

/-- the loop over the boundary elements from `iBnd` on, `src/Geom/Mesh.cpp:1549-1592` -/
def bndLoop (nOwn : Nat) (faces : List Face) (c2f : List (List Int)) (bnds : List BndRow) (iBnd : Nat) (s : ZSt) : List BndRow → Res ZSt
  | [] => .ok s
  | b :: bs => do
    let s' ← bndStep nOwn faces c2f bnds iBnd b s
    bndLoop nOwn faces c2f bnds (iBnd + 1) s' bs

/-- the boundary elements of a rank, `src/Geom/Mesh.cpp:1546-1592`; a face is created with zone 0,
`src/Geom/Mesh.cpp:1418` -/
def putBnds (nOwn : Nat) (p : Interp) (bnds : List BndRow) : Res ZSt :=
  bndLoop nOwn p.faces p.c2f bnds 0
    ⟨p.faces.map (fun f => ⟨f.slot.type, 0⟩), List.replicate bnds.length (-1), List.replicate p.faces.length none⟩ bnds

/-- The zones of the faces on all ranks: what `InterpolateFace` does with the boundary elements `bnds[r]` of every rank
`r`, `src/Geom/Mesh.cpp:1534-1592`, and the pull of `faceElemInfo`, `src/Geom/Mesh.cpp:1600-1633`.  The faces and their
mapping are those of `interpolate`, which is run beside it; in the code it is one run. -/
def faceZones (per : Bool) (srt : Sorter) (gc : GOM) (ranks : List RankIn) (bnds : List (List BndRow)) : Res (List ZSt) := do
  let outs ← forRanks (fun r x => buildFaces per srt x.nNodes x.cellMap gc r ranks.length x.nOwn x.cells) 0 ranks
  let zs ← forRanks (fun _ (x : (RankIn × Interp) × List BndRow) => putBnds x.1.1.nOwn x.1.2 x.2) 0 ((ranks.zip outs).zip bnds)
  let lens := outs.map (·.faces.length)
  let gf ← setMPIAlignBcast (lens.map Int.ofNat)
  let maps ← createPush gf lens (outs.map (fun o => (o.send.flatten, plainStarts (o.send.map List.length))))
  forRanks (fun _ (x : ZSt × Map) => do
    let son ← forRanks (fun _ q => fetch gf (zs.map (·.info)) q) 0 x.2.ghostIndex
    .ok ⟨x.1.info ++ son, x.1.bnd2face, x.1.face2bnd⟩) 0 (zs.zip maps)

/-! ### `AssertOnFaces` -/

/-- `cCont[c]++`, `src/Geom/Mesh.cpp:1738-1739,1745`; `uint16_t` is taken as a number (a cell has at most six faces) -/
def bump (cont : List Nat) (c : Int) : Res (List Nat) := do
  let n ← at64 cont c
  .ok (cont.set c.toNat (n + 1))

/-- one face, `src/Geom/Mesh.cpp:1717-1747`; `nCell` is `cell2cell.Size()` -/
def assertFace (nOwn nCell : Nat) (f : Face) (z : Info) (cont : List Nat) : Res (List Nat) :=
  if isInternal z.zone then do
    Res.assert (f.second ≠ unInit)
    Res.assert (0 ≤ f.first ∧ f.first < nCell)
    Res.assert (0 ≤ f.second ∧ f.second < nCell)
    let c1 ← bump cont f.first
    bump c1 f.second
  else do
    Res.assert (f.second = unInit)
    Res.assert (0 ≤ f.first ∧ f.first < nOwn)
    bump cont f.first

/-- the loop over the faces, `src/Geom/Mesh.cpp:1717-1747` -/
def assertFaces (nOwn nCell : Nat) : List (Face × Info) → List Nat → Res (List Nat)
  | [], cont => .ok cont
  | (f, z) :: fs, cont => do
    let c ← assertFace nOwn nCell f z cont
    assertFaces nOwn nCell fs c

/-- the faces of one cell, `src/Geom/Mesh.cpp:1750-1754` -/
def assertCell (faces : List Face) (cell : Nat) : List Int → Res Unit
  | [] => .ok ()
  | v :: vs => do
    Res.assert (0 ≤ v ∧ v < faces.length)
    let f ← at64 faces v
    Res.assert (f.first = cell ∨ f.second = cell)
    assertCell faces cell vs

/-- Models `AssertOnFaces`, `src/Geom/Mesh.cpp:1711-1757`. -/
def assertOnFaces (nOwn : Nat) (o : RankOut) (info : List Info) : Res Unit := do
  let cont ← assertFaces nOwn o.c2f.length (o.faces.zip info) (List.replicate o.c2f.length 0)
  let _ ← forRanks (fun l (row : List Int) => do
    assertCell o.faces l row
    let n ← idx cont l
    Res.assert (n = row.length)) 0 (o.c2f.take nOwn)
  .ok ()

end DNDSR.Faces
