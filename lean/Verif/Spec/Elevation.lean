import Verif.Spec.Reorder
import Verif.Spec.Elements
import Verif.Spec.Periodic
import Verif.Model.Elevation

/-!
# What elevating a mesh from order one to order two has to do (C87)

The nodes of the mesh are given positions `X q`.  New node `k` of a cell lies between the nodes of the span `k` of its element: the two ends
of an edge, the corners of a quadrilateral face or of the whole cell.
-/

namespace DNDSR.Elev

open DNDSR.IMap DNDSR.MeshAdj DNDSR.Faces DNDSR.Ghost
open DNDSR.Elem hiding V3
open DNDSR.Bits (Mark)
open DNDSR.Per (V3 Periodicity)

/-- the nodes between which new node `k` of the cell lies, and their periodic bits -/
def spanOf (C : Cell) (k : Nat) : List Int := (span C.type k).map (fun a => C.nodes[a]?.getD 0)
def spanBits (C : Cell) (k : Nat) : List Mark := (span C.type k).map (fun a => C.pbi[a]?.getD 0#8)

/-- the bits set in all marks -/
def commonBits (l : List Mark) : Mark := l.foldl (· &&& ·) 7#8

/-- cell `i` of the mesh is `C`, and it has a new node `k` -/
def IsNew (ps : List Piece) (i k : Nat) (C : Cell) : Prop := (whole ps)[i]? = some C ∧ k < (numElev C.type).toNat

open Matrix in
/-- the motion of a periodic direction and its inverse -/
noncomputable def shift (P : Periodicity) (d : Fin 4) (x : V3) : V3 :=
  P.rotation d *ᵥ (x - P.rotationCenter d) + P.rotationCenter d + P.translation d

open Matrix in
noncomputable def unshift (P : Periodicity) (d : Fin 4) (x : V3) : V3 :=
  (P.rotation d)ᵀ *ᵥ ((x - P.translation d) - P.rotationCenter d) + P.rotationCenter d

/-- a step taken if a bit is set -/
def stepIf (b : Bool) (f : V3 → V3) (x : V3) : V3 := if b then f x else x

/-- the position under periodic bits, and back -/
noncomputable def forward (P : Periodicity) (b : Mark) (x : V3) : V3 :=
  stepIf (b &&& 1#8 != 0#8) (shift P 1) (stepIf (b &&& 2#8 != 0#8) (shift P 2) (stepIf (b &&& 4#8 != 0#8) (shift P 3) x))
noncomputable def backward (P : Periodicity) (b : Mark) (x : V3) : V3 :=
  stepIf (b &&& 4#8 != 0#8) (unshift P 3) (stepIf (b &&& 2#8 != 0#8) (unshift P 2) (stepIf (b &&& 1#8 != 0#8) (unshift P 1) x))

/-- where the cell sees its node `a` -/
noncomputable def seen (per : Bool) (P : Periodicity) (X : Int → V3) (C : Cell) (a : Nat) : V3 :=
  if per then forward P (C.pbi[a]?.getD 0#8) (X (C.nodes[a]?.getD 0)) else X (C.nodes[a]?.getD 0)

/-- the mean of the nodes of a span, as the cell sees them -/
noncomputable def middle (per : Bool) (P : Periodicity) (X : Int → V3) (C : Cell) (k : Nat) : V3 :=
  ((span C.type k).length : ℝ)⁻¹ • ((span C.type k).map (seen per P X C)).sum

/-- where the new node is put: the cell sees it in the middle, the bits being those the nodes have in common -/
noncomputable def nodePoint (per : Bool) (P : Periodicity) (X : Int → V3) (C : Cell) (k : Nat) : V3 :=
  if per then backward P (commonBits (spanBits C k)) (middle per P X C k) else middle per P X C k

/-- the meshes that can be elevated -/
structure Elevatable (per : Bool) (P : Periodicity) (ps : List Piece) (X : Int → V3) : Prop where
  mesh : MeshOk per ps
  order : ∀ C ∈ whole ps, order C.type = 1
  /-- a cell that has all nodes of an edge or face of another cell has that edge or face -/
  spans : ∀ (i k j : Nat) (C D : Cell), IsNew ps i k C → (whole ps)[j]? = some D → (∀ q ∈ spanOf C k, q ∈ D.nodes) →
    ∃ k', IsNew ps j k' D ∧ (spanOf D k').Perm (spanOf C k)
  /-- cells that share an edge or face in a periodic mesh put its node at the same place (each direction has at least two layers) -/
  place : per = true → ∀ (i k j k' : Nat) (C D : Cell), IsNew ps i k C → IsNew ps j k' D → (spanOf D k').Perm (spanOf C k) →
    nodePoint per P X D k' = nodePoint per P X C k
  /-- the new nodes of a cell are not closer than `1e-10` to each other -/
  apart : ∀ (i k k' : Nat) (C : Cell), IsNew ps i k C → IsNew ps i k' C → k ≠ k' →
    (10 : ℝ)⁻¹ ^ 20 ≤ Per.dist2 (nodePoint per P X C k) (nodePoint per P X C k')
  /-- the first cell of a boundary element is on its rank and has it as a face -/
  bnds : ∀ (r : Nat) (p : Piece) (b : Bnd) (x : Int × Int), ps[r]? = some p → b ∈ p.bnds → BndOk per ps b x →
    Owns (cellLens ps) r x.1 ∧ ∃ C f, IsCell ps x.1 C ∧ f < (numFaces C.type).toNat ∧ (corners (slot per C f)).Perm b.nodes

/-- what the ranks have: the mesh with its ghost layer (C74), the positions of the nodes they hold and the zones -/
structure RanksHave (per : Bool) (ps : List Piece) (X : Int → V3) (xs : List RankO1) : Prop where
  ranks : Reorder.RanksOk per ps (xs.map (·.st))
  size : ∀ x ∈ xs, x.coords.length = x.st.nodeMap.mainSize + x.st.nodeMap.ghostIndex.length
  coords : ∀ (r : Nat) (x : RankO1) (q v : Int), xs[r]? = some x → 0 ≤ q → 0 ≤ v → LocalName (nodeLens ps) r x.st.nodeMap.ghostIndex q v →
    x.coords[v.toNat]? = some (X q)
  zones : ∀ (r : Nat) (p : Piece) (x : RankO1), ps[r]? = some p → xs[r]? = some x → x.zones = p.bnds.map (·.zone)

/-- the mesh of order two, as parts -/
def pieces (outs : List RankO2) : List Piece := outs.map (fun o => ⟨o.cells, o.bnds.map (·.2), o.coords.length⟩)

/-- the cell with its new nodes: `ν` gives the new numbers of nodes, `N i k` the number of new node `k` of cell `i` -/
def elevCell (per : Bool) (ν : Int → Int) (N : Nat → Nat → Int) (i : Nat) (C : Cell) : Cell :=
  ⟨elevatedType C.type, C.nodes.map ν ++ (List.range (numElev C.type).toNat).map (N i),
    if per then C.pbi ++ (List.range (numElev C.type).toNat).map (fun k => commonBits (spanBits C k)) else []⟩

/-- the position of node `q` of the new mesh -/
def IsAt (outs : List RankO2) (q : Int) (y : V3) : Prop := 0 ≤ q ∧ (outs.map (·.coords)).flatten[q.toNat]? = some y

/-- What the ranks have afterwards. -/
structure Elevated (per : Bool) (P : Periodicity) (ps : List Piece) (X : Int → V3) (outs : List RankO2) (ν : Int → Int) (N : Nat → Nat → Int) : Prop where
  ranks : outs.length = ps.length
  /-- every rank keeps its cells; they keep their nodes and get the new ones behind them -/
  lens : cellLens (pieces outs) = cellLens ps
  cell : ∀ (i : Nat) (C : Cell), (whole ps)[i]? = some C → (whole (pieces outs))[i]? = some (elevCell per ν N i C)
  /-- every rank keeps its nodes, under the same local number, and they stay where they are -/
  old : ∀ (r : Nat) (q : Int), Owns (nodeLens ps) r q → Owns (nodeLens (pieces outs)) r (ν q) ∧
    ν q - before (nodeLens (pieces outs)) r = q - before (nodeLens ps) r ∧ IsAt outs (ν q) (X q)
  /-- two new nodes, of whatever cells on whatever ranks, are one node exactly if they lie between the same nodes -/
  iff : ∀ (i k i' k' : Nat) (C C' : Cell), IsNew ps i k C → IsNew ps i' k' C' → (N i k = N i' k' ↔ (spanOf C' k').Perm (spanOf C k))
  /-- new nodes are no old ones, and there are no others -/
  fresh : ∀ (i k : Nat) (C : Cell) (q : Int), IsNew ps i k C → Global (nodeLens ps) q → N i k ≠ ν q
  used : ∀ q, Global (nodeLens (pieces outs)) q → (∃ q', Global (nodeLens ps) q' ∧ ν q' = q) ∨ ∃ i k C, IsNew ps i k C ∧ N i k = q
  /-- a new node belongs to the rank of the first cell that has it -/
  owner : ∀ (i k : Nat) (C : Cell), IsNew ps i k C → ∃ (r i' k' : Nat) (C' : Cell), Owns (nodeLens (pieces outs)) r (N i k) ∧ Owns (cellLens ps) r i' ∧
    IsNew ps i' k' C' ∧ (spanOf C' k').Perm (spanOf C k) ∧
    ∀ (j k'' : Nat) (D : Cell), IsNew ps j k'' D → (spanOf D k'').Perm (spanOf C k) → i' ≤ j
  /-- and is in the middle -/
  point : ∀ (i k : Nat) (C : Cell), IsNew ps i k C → IsAt outs (N i k) (nodePoint per P X C k)
  /-- a boundary element becomes the face of its cell that it was -/
  bndLen : ∀ (r : Nat) (p : Piece) (o : RankO2), ps[r]? = some p → outs[r]? = some o → o.bnds.length = p.bnds.length
  bnd : ∀ (r : Nat) (p : Piece) (o : RankO2) (n : Nat) (b : Bnd), ps[r]? = some p → outs[r]? = some o → p.bnds[n]? = some b →
    ∃ (x : Int × Int) (C : Cell) (f : Nat), BndOk per ps b x ∧ IsCell ps x.1 C ∧ f < (numFaces C.type).toNat ∧ (corners (slot per C f)).Perm b.nodes ∧
      o.bnds[n]? = some (faceType (elevatedType C.type) f, ⟨b.zone, (slot per (elevCell per ν N x.1.toNat C) f).nodes⟩)
  /-- neighbours and boundary cells are those of the new mesh -/
  adj : ∀ (r : Nat) (p : Piece) (o : RankO2), (pieces outs)[r]? = some p → outs[r]? = some o → AdjMeans per (pieces outs) r p ⟨o.c2c, o.b2c⟩

end DNDSR.Elev
