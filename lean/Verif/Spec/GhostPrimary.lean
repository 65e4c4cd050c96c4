import Verif.Model.GhostPrimary
import Verif.Spec.Node2Cell
import Verif.Spec.FacesGhost

/-!
# What recovering neighbours and building the ghost layer has to do (C72-C74)

The mesh as a whole is the cells of rank 0, then those of rank 1, and so on; the same for the nodes.
-/

namespace DNDSR.Ghost

open DNDSR.IMap DNDSR.MeshAdj DNDSR.N2C DNDSR.Faces
open DNDSR.Bits (Mark)

/-- the cells of the whole mesh in the order of their global numbers -/
def whole (ps : List Piece) : List Cell := (ps.map (·.cells)).flatten

def cellLens (ps : List Piece) : List Nat := ps.map (·.cells.length)
def nodeLens (ps : List Piece) : List Nat := ps.map (·.nNodes)

/-- cell `c` of the mesh -/
def IsCell (ps : List Piece) (c : Int) (C : Cell) : Prop := 0 ≤ c ∧ (whole ps)[c.toNat]? = some C

/-- cell `c` of the mesh has node `q` -/
def HasNode (ps : List Piece) (c q : Int) : Prop := ∃ C, IsCell ps c C ∧ q ∈ C.nodes

/-- cell `c` has all nodes of the boundary element -/
def Covers (ps : List Piece) (c : Int) (b : Bnd) : Prop := ∀ q ∈ b.nodes, HasNode ps c q

/-- the direction of a periodic zone as a bit: zones -1, -2, -3 are the main sides, -4, -5, -6 the donor sides -/
def dirBit (zone : Int) : Mark := if zone = -1 ∨ zone = -4 then 1#8 else if zone = -2 ∨ zone = -5 then 2#8 else 4#8
def isDonor (zone : Int) : Bool := decide (zone = -4 ∨ zone = -5 ∨ zone = -6)

/-- the cell lies on the side of the zone: at every node of the boundary element its bit in the direction of the zone is
set on a donor side and clear on a main side -/
def OnSide (C : Cell) (b : Bnd) : Prop :=
  ∀ (q : Int) (v : Mark), q ∈ b.nodes → (q, v) ∈ C.nodes.zip C.pbi → (v &&& dirBit b.zone = if isDonor b.zone then dirBit b.zone else 0#8)

/-- what `bnd2cell` has to be for a boundary element -/
def BndOk (per : Bool) (ps : List Piece) (b : Bnd) (x : Int × Int) : Prop :=
  if per = true ∧ isPeriodicId b.zone = true then
    x.1 ≠ x.2 ∧ (∀ c, Covers ps c b ↔ c = x.1 ∨ c = x.2) ∧
    ∃ C0 C1, IsCell ps x.1 C0 ∧ IsCell ps x.2 C1 ∧ OnSide C0 b ∧ ¬ OnSide C1 b
  else x.2 = Faces.unInit ∧ ∀ c, Covers ps c b ↔ c = x.1

/-- `node2cell` as C25 proves it: the row of a node lists the cells that have it, once each -/
structure N2COk (ps : List Piece) (n2c : List (List (List Int))) : Prop where
  len : n2c.map List.length = nodeLens ps
  row : ∀ (i : Nat) (row : List Int), n2c.flatten[i]? = some row → ∀ c, c ∈ row ↔ HasNode ps c i

/-- cells and boundary elements refer to nodes of the mesh only; cells and boundary elements have nodes, and a bit for
every node of a cell in a periodic mesh -/
structure PartsOk (per : Bool) (ps : List Piece) : Prop where
  cells : ∀ p ∈ ps, ∀ C ∈ p.cells, C.nodes ≠ [] ∧ ∀ q ∈ C.nodes, Global (nodeLens ps) q
  bnds : ∀ p ∈ ps, ∀ b ∈ p.bnds, b.nodes ≠ [] ∧ ∀ q ∈ b.nodes, Global (nodeLens ps) q
  pbi : per = true → ∀ p ∈ ps, ∀ C ∈ p.cells, C.pbi.length = C.nodes.length

/-- the number of ranks times the number of entries of any rank fits `int` -/
def Small (lens : List Nat) : Prop := ∀ n ∈ lens, ((lens.length * n : Nat) : Int) ≤ Defines.intMax 32

/-- the neighbours and boundary cells of rank `r`, whatever the order in which they are listed -/
structure AdjMeans (per : Bool) (ps : List Piece) (r : Nat) (p : Piece) (a : Adj) : Prop where
  /-- a row for every cell, listing exactly the other cells that share a node with it, once each -/
  rows : a.c2c.length = p.cells.length
  once : ∀ row ∈ a.c2c, row.Nodup
  exact_ : ∀ (k : Nat) (row : List Int), a.c2c[k]? = some row → ∀ c, c ∈ row ↔ c ≠ (before (cellLens ps) r : Int) + k ∧
    ∃ q, HasNode ps ((before (cellLens ps) r : Int) + k) q ∧ HasNode ps c q
  /-- the cells of every boundary element -/
  bnds : a.b2c.length = p.bnds.length
  bnd : ∀ (k : Nat) (b : Bnd) (x : Int × Int), p.bnds[k]? = some b → a.b2c[k]? = some x → BndOk per ps b x

/-- what `RecoverCell2CellAndBnd2Cell` has to give on rank `r`: the rows are ascending -/
structure AdjOk (per : Bool) (ps : List Piece) (r : Nat) (p : Piece) (a : Adj) : Prop extends AdjMeans per ps r p a where
  sorted : ∀ row ∈ a.c2c, row.Pairwise (· < ·)

/-- the cells that share a node with a cell of rank `r` -/
def Touches (ps : List Piece) (r : Nat) (c : Int) : Prop := ∃ d q, Owns (cellLens ps) r d ∧ HasNode ps d q ∧ HasNode ps c q

/-- what rank `r` holds -/
structure HeldMeans (ps : List Piece) (r : Nat) (x : Held) : Prop where
  cellMap : Collective (cellLens ps) r x.cellMap
  nodeMap : Collective (nodeLens ps) r x.nodeMap
  /-- copies of exactly the cells of other ranks that share a node with one of its own -/
  ghosts : ∀ c, c ∈ x.cellMap.ghostIndex ↔ ¬ Owns (cellLens ps) r c ∧ Touches ps r c
  /-- copies of exactly the nodes of other ranks that a cell it holds has -/
  nodes : ∀ q, q ∈ x.nodeMap.ghostIndex ↔ ¬ Owns (nodeLens ps) r q ∧
    ∃ c, (Owns (cellLens ps) r c ∨ c ∈ x.cellMap.ghostIndex) ∧ HasNode ps c q
  /-- the cells and their rows of `cell2cell`, under their local names -/
  size : x.cells.length = x.cellMap.mainSize + x.cellMap.ghostIndex.length
  cells : ∀ (l : Nat) (i : Int) (c C : Cell), x.cells[l]? = some c → IsCell ps i C → LocalName (cellLens ps) r x.cellMap.ghostIndex i l → c = C
  c2cSize : x.c2c.length = x.cells.length
  c2c : ∀ (l : Nat) (i : Int) (row : List Int), x.c2c[l]? = some row → 0 ≤ i → LocalName (cellLens ps) r x.cellMap.ghostIndex i l →
    row.Nodup ∧ ∀ c, c ∈ row ↔ c ≠ i ∧ ∃ q, HasNode ps i q ∧ HasNode ps c q

/-- what `BuildGhostPrimary` has to give on rank `r`: the rows of `cell2cell` are ascending -/
structure HeldOk (ps : List Piece) (r : Nat) (x : Held) : Prop extends HeldMeans ps r x where
  sorted : ∀ row ∈ x.c2c, row.Pairwise (· < ·)

/-- an entry in the form it has on the rank; "no cell" stays "no cell" -/
def Named (lens : List Nat) (r : Nat) (ghosts : List Int) (q v : Int) : Prop :=
  (q = Faces.unInit ∧ v = Faces.unInit) ∨ (q ≠ Faces.unInit ∧ LocalName lens r ghosts q v)

/-- what `AdjGlobal2LocalPrimary` has to give on rank `r`: every entry under its local name, and a nonnegative one for
nodes and for the first cell of a boundary element -/
structure PrimaryOk (ps : List Piece) (r : Nat) (p : Piece) (a : Adj) (x : Held) (y : Primary) : Prop where
  c2c : RowsRel (Named (cellLens ps) r x.cellMap.ghostIndex) x.c2c y.cell2cell
  b2c : RowsRel (Named (cellLens ps) r x.cellMap.ghostIndex) (a.b2c.map (fun z => [z.1, z.2])) y.bnd2cell
  c2n : RowsRel (fun q v => 0 ≤ v ∧ LocalName (nodeLens ps) r x.nodeMap.ghostIndex q v) (x.cells.map (·.nodes)) y.cell2node
  b2n : RowsRel (fun q v => 0 ≤ v ∧ LocalName (nodeLens ps) r x.nodeMap.ghostIndex q v) (p.bnds.map (·.nodes)) y.bnd2node
  first : ∀ row ∈ y.bnd2cell, ∀ v, row[0]? = some v → 0 ≤ v

/-- a mesh cut into parts: cells fit their types, a cell does not list a node twice, slots with the same corners have the
same nodes, no face has three sides; boundary elements have nodes, and each has its cell or cells, the first of which is
on the rank of the boundary element or touches it -/
structure MeshOk (per : Bool) (ps : List Piece) : Prop where
  valid : ∀ C ∈ whole ps, Valid per (nodeLens ps).sum C ∧ C.nodes.Nodup
  conforming : ∀ (i j i' j' : Nat) (a b : Slot), IsSlot per (whole ps) i j a → IsSlot per (whole ps) i' j' b → a.type = b.type →
    (corners a).Perm (corners b) → a.nodes.Perm b.nodes
  two : ∀ (i1 j1 i2 j2 i3 j3 : Nat) (a b c : Slot), IsSlot per (whole ps) i1 j1 a → IsSlot per (whole ps) i2 j2 b →
    IsSlot per (whole ps) i3 j3 c → SameFace per a b → SameFace per a c → (i1, j1) = (i2, j2) ∨ (i1, j1) = (i3, j3) ∨ (i2, j2) = (i3, j3)
  bnds : ∀ p ∈ ps, ∀ b ∈ p.bnds, b.nodes ≠ [] ∧ ∀ q ∈ b.nodes, Global (nodeLens ps) q
  home : ∀ (r : Nat) (p : Piece) (b : Bnd), ps[r]? = some p → b ∈ p.bnds → ∃ x, BndOk per ps b x ∧ Touches ps r x.1

end DNDSR.Ghost
