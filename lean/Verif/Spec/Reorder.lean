import Verif.Spec.GhostPrimary
import Verif.Spec.RCM
import Verif.Model.Reorder

/-!
# What renumbering the cells of every rank has to do (C85)
-/

namespace DNDSR.Reorder

open DNDSR.IMap DNDSR.MeshAdj DNDSR.Faces DNDSR.Ghost DNDSR.Elem

/-- `ps'` is the mesh `ps` with new numbers of its cells: number `c` became `π c`.  Every rank keeps its cells, its boundary
elements and its nodes. -/
structure Renumbered (ps ps' : List Piece) (π : Int → Int) : Prop where
  ranks : ps'.length = ps.length
  same : ∀ (r : Nat) (p p' : Piece), ps[r]? = some p → ps'[r]? = some p' → p'.cells.length = p.cells.length ∧ p'.bnds = p.bnds ∧ p'.nNodes = p.nNodes
  own : ∀ (r : Nat) (c : Int), Owns (cellLens ps) r c → Owns (cellLens ps) r (π c)
  inj : ∀ c d, Global (cellLens ps) c → Global (cellLens ps) d → π c = π d → c = d
  onto : ∀ d, Global (cellLens ps) d → ∃ c, Global (cellLens ps) c ∧ π c = d
  cell : ∀ (c : Int) (C : Cell), IsCell ps c C → IsCell ps' (π c) C

/-- what rank `r` has of the mesh `ps`: the cells it holds, and neighbours, boundary cells and nodes under their local names -/
structure RankOk (per : Bool) (ps : List Piece) (r : Nat) (p : Piece) (s : St) : Prop where
  ex : ∃ (a : Adj) (x : Held), AdjMeans per ps r p a ∧ HeldMeans ps r x ∧ PrimaryOk ps r p a x s.prim ∧
    s.info = x.cells.map (fun C => (C.type, C.pbi)) ∧ s.cellMap = x.cellMap ∧ s.nodeMap = x.nodeMap
  state : s.prim.state = .pointToLocal

/-- what the ranks have -/
structure RanksOk (per : Bool) (ps : List Piece) (ss : List St) : Prop where
  len : ss.length = ps.length
  rank : ∀ (r : Nat) (p : Piece) (s : St), ps[r]? = some p → ss[r]? = some s → RankOk per ps r p s

/-- the corners of a cell -/
def cornersOf (C : Cell) : List Int := C.nodes.take (numVertices C.type).toNat

/-- the number of corners two cells have in common -/
def shared (C D : Cell) : Nat := ((cornersOf C).filter (fun q => decide (q ∈ cornersOf D))).length

/-- the graph of the cells of a rank in which cells with at least `dim` common corners are neighbours -/
structure FaceGraph (dim : Nat) (p : Piece) (g : RCM.Graph) : Prop where
  size : g.length = p.cells.length
  iff : ∀ (i : Nat) (j : Int) (C : Cell), p.cells[i]? = some C →
    (j ∈ RCM.nbr g i ↔ (i : Int) ≠ j ∧ 0 ≤ j ∧ ∃ D, p.cells[j.toNat]? = some D ∧ dim ≤ shared C D)

/-- the largest band width over the ranks, 0 without any edge -/
def LargestBand (gs : List RCM.Graph) (num : Nat → Int → Int) (b : Int) : Prop :=
  (∀ (r : Nat) (g : RCM.Graph) (w : Int), gs[r]? = some g → RCM.BandWidth g (num r) w → w ≤ b) ∧
  (b = 0 ∨ ∃ (r : Nat) (g : RCM.Graph), gs[r]? = some g ∧ RCM.BandWidth g (num r) b)

end DNDSR.Reorder
