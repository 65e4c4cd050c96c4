import Verif.Spec.Elevation
import Verif.Model.Bisect

/-!
# What cutting a mesh of order two into elements of order one has to do (C103)

The nodes of the mesh have positions `X q`.
-/

namespace DNDSR.Bisect

open DNDSR.IMap DNDSR.MeshAdj DNDSR.Faces DNDSR.Elev
open DNDSR.Elem hiding V3
open DNDSR.Bits (Mark)
open DNDSR.Per (V3 Periodicity)

/-! ### the parts of an element -/

/-- the nodes of a list at the given places -/
def nodesAt (nodes : List Int) (l : List Nat) : List Int := l.map (fun a => nodes[a]?.getD 0)

/-- part `i` of a cell cut by table `v`: it has the nodes and the periodic bits that the cell has at these places -/
def child (per : Bool) (v : Nat) (C : Cell) (i : Nat) : Cell :=
  ⟨bisectElem C.type i, nodesAt C.nodes (part C.type v i),
    if per then (part C.type v i).map (fun a => C.pbi[a]?.getD 0#8) else []⟩

def childBnd (t : ElemType) (b : Ghost.Bnd) (i : Nat) : ElemType × Ghost.Bnd :=
  (bisectElem t i, ⟨b.zone, nodesAt b.nodes (part t 0 i)⟩)

/-- the parts of cells with zones, one after the other; `V` gives the table for each -/
def childCells (per : Bool) (cells : List (Int × Cell)) (V : List Nat) : List (Int × Cell) :=
  (cells.zip V).flatMap (fun c => (List.range (bisectNum c.1.2.type).toNat).map (fun i => (c.1.1, child per c.2 c.1.2 i)))

def childBnds (bnds : List (ElemType × Ghost.Bnd)) : List (ElemType × Ghost.Bnd) :=
  bnds.flatMap (fun b => (List.range (bisectNum b.1).toNat).map (childBnd b.1 b.2))

/-- the inner diagonal along which table `v` cuts, as local nodes -/
def diagonal : ElemType → Nat → Nat × Nat
  | .tet10, 0 => (4, 9)
  | .tet10, 1 => (5, 7)
  | .tet10, _ => (6, 8)
  | .pyramid14, 0 => (9, 11)
  | .pyramid14, _ => (10, 12)
  | _, _ => (0, 0)

/-- its squared length, as the cell sees it -/
noncomputable def diagonalLength (per : Bool) (P : Periodicity) (X : Int → V3) (C : Cell) (v : Nat) : ℝ :=
  Per.dist2 (seen per P X C (diagonal C.type v).1) (seen per P X C (diagonal C.type v).2)

/-- the table for each cell: one of its tables, along a shortest diagonal -/
def Chosen (per : Bool) (P : Periodicity) (X : Int → V3) (cells : List (Int × Cell)) (V : List Nat) : Prop :=
  V.length = cells.length ∧ ∀ (i : Nat) (c : Int × Cell) (v : Nat), cells[i]? = some c → V[i]? = some v →
    v < (bisectVariants c.2.type).toNat ∧
    ∀ w, w < (bisectVariants c.2.type).toNat → diagonalLength per P X c.2 v ≤ diagonalLength per P X c.2 w

/-- what a rank has before the cut: cells of order two of which it knows all nodes, and boundary elements of order two whose first cell is
its own and has all their nodes -/
structure RankOk (per : Bool) (X : Int → V3) (nodeLens cellLens : List Nat) (x : Rank) : Prop where
  order : ∀ c ∈ x.cells, order c.2.type = 2 ∧ c.2.nodes.length = (numNodes c.2.type).toNat ∧
    (per = true → c.2.pbi.length = c.2.nodes.length)
  ghosts : ∀ t ∈ x.ghostTypes, Elem.order t = 2
  map : Collective nodeLens x.rank x.nodeMap
  glob : Built cellLens x.cellGlob
  size : cellLens[x.rank]? = some x.cells.length
  nodes : ∀ c ∈ x.cells, ∀ q ∈ c.2.nodes, 0 ≤ q ∧ (Owns nodeLens x.rank q ∨ q ∈ x.nodeMap.ghostIndex)
  coords : ∀ q v : Int, 0 ≤ q → 0 ≤ v → LocalName nodeLens x.rank x.nodeMap.ghostIndex q v → x.coords[v.toNat]? = some (X q)
  bnds : ∀ b ∈ x.bnds, Elem.order b.1 = 2 ∧ Elem.dim b.1 < 3 ∧ b.2.1.nodes.length = (numNodes b.1).toNat ∧
    Owns cellLens x.rank b.2.2 ∧
    ∀ c, x.cells[(b.2.2 - before cellLens x.rank).toNat]? = some c → ∀ q ∈ b.2.1.nodes, q ∈ c.2.nodes

/-! ### faces that meet -/

/-- the ways to read the corners and edges of a face from another corner, in the same sense (a line has one way only) -/
def rots (t : ElemType) : List (List Nat) :=
  match t with
  | .line2 => [[0, 1]]
  | .line3 => [[0, 1, 2]]
  | _ =>
    let n := (numVertices t).toNat
    (List.range n).map (fun r => (List.range n).map (fun j => (r + j) % n) ++
      (if order t = 2 then (List.range n).map (fun j => n + (r + j) % n) else []) ++ (if t = .quad9 then [8] else []))

/-- the ways to read them in the opposite sense: edge `j` is between corners `j` and `j + 1` -/
def revs (t : ElemType) : List (List Nat) :=
  match t with
  | .line2 => [[1, 0]]
  | .line3 => [[1, 0, 2]]
  | _ =>
    let n := (numVertices t).toNat
    (List.range n).map (fun r => (List.range n).map (fun j => (r + n - j) % n) ++
      (if order t = 2 then (List.range n).map (fun j => n + (r + 2 * n - j - 1) % n) else []) ++ (if t = .quad9 then [8] else []))

/-- the nodes of face `f` of a cell -/
def faceNodes (C : Cell) (f : Nat) : List Int := nodesAt C.nodes (fnodes C.type f)

/-- face `f` of `C` and face `g` of `D` are the same face seen from its two sides -/
def Meet (C : Cell) (f : Nat) (D : Cell) (g : Nat) : Prop :=
  faceType C.type f = faceType D.type g ∧ ∃ σ ∈ revs (faceType C.type f), faceNodes D g = nodesAt (faceNodes C f) σ

/-- the boundary element is face `f` of `C` -/
def IsFace (b : ElemType × List Int) (C : Cell) (f : Nat) : Prop :=
  b.1 = faceType C.type f ∧ ∃ ρ ∈ rots b.1, b.2 = nodesAt (faceNodes C f) ρ

/-- Nothing is missing between the cells: every face of every cell is met by another face of a cell or is a boundary element, and every
boundary element is a face of a cell. -/
structure Closed (cells : List Cell) (bnds : List (ElemType × List Int)) : Prop where
  faces : ∀ (i : Nat) (C : Cell) (f : Nat), cells[i]? = some C → f < (numFaces C.type).toNat →
    (∃ (j : Nat) (D : Cell) (g : Nat), cells[j]? = some D ∧ g < (numFaces D.type).toNat ∧ (j, g) ≠ (i, f) ∧ Meet C f D g) ∨
    (∃ b ∈ bnds, IsFace b C f)
  bnds : ∀ b ∈ bnds, ∃ (i : Nat) (C : Cell) (f : Nat), cells[i]? = some C ∧ f < (numFaces C.type).toNat ∧ IsFace b C f

/-- The same for a mesh of order one that is to be elevated: its boundary elements have no types yet, and each that closes a face is that face
only. -/
def ClosedO1 (ps : List Ghost.Piece) : Prop :=
  ∀ (i : Nat) (C : Cell) (f : Nat), (Ghost.whole ps)[i]? = some C → f < (numFaces C.type).toNat →
    (∃ (j : Nat) (D : Cell) (g : Nat), (Ghost.whole ps)[j]? = some D ∧ g < (numFaces D.type).toNat ∧ (j, g) ≠ (i, f) ∧ Meet C f D g) ∨
    (∃ (r : Nat) (p : Ghost.Piece) (b : Ghost.Bnd), ps[r]? = some p ∧ b ∈ p.bnds ∧ ∀ (j : Nat) (D : Cell) (g : Nat),
      (Ghost.whole ps)[j]? = some D → g < (numFaces D.type).toNat → (faceNodes D g).Perm b.nodes → j = i ∧ g = f)

/-- the boundary elements of the elevated mesh, of all ranks -/
def elevBnds (outs : List RankO2) : List (ElemType × List Int) := (outs.map (fun o => o.bnds.map (fun b => (b.1, b.2.nodes)))).flatten

/-- the cells and the boundary elements of all ranks -/
def allCells (outs : List Out) : List Cell := (outs.map (fun o => o.cells.map (·.2))).flatten
def allBnds (outs : List Out) : List (ElemType × List Int) := (outs.map (fun o => o.bnds.map (fun b => (b.1, b.2.nodes)))).flatten
def inCells (xs : List Rank) : List Cell := (xs.map (fun x => x.cells.map (·.2))).flatten
def inBnds (xs : List Rank) : List (ElemType × List Int) := (xs.map (fun x => x.bnds.map (fun b => (b.1, b.2.1.nodes)))).flatten

end DNDSR.Bisect
