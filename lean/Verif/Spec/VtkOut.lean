import Verif.Model.VtkOut
import Verif.Spec.MeshAdj
import Verif.Spec.Elements
import Verif.Spec.Elevation

/-!
# What the VTKHDF file has to contain (C102)

The mesh as a whole is `G` (cells: type, global nodes, marks) with the nodes at `X`.  On a periodic mesh a cell sees node `q` under
mark `b` at the place `Elev.forward P b (X q)`: the translations and rotations of the marked directions applied to the node.
A reader of the file knows VTK's cell types only, so the numbering of the points of a cell is described here by VTK's own rules.
-/

namespace DNDSR.VtkOut

open DNDSR.IMap DNDSR.Elem DNDSR.Bits DNDSR.Faces DNDSR.MeshAdj

/-! ## VTK's cell types -/

/-- shape of a VTK cell type, by its number: line, poly line, triangle, quad, tetra, hexahedron, wedge, pyramid, and the quadratic ones -/
def vtkShape : Nat → Option ParamSpace
  | 3 => some .line | 4 => some .line
  | 5 => some .tri | 22 => some .tri
  | 9 => some .quad | 23 => some .quad
  | 10 => some .tet | 24 => some .tet
  | 12 => some .hex | 25 => some .hex
  | 13 => some .prism | 26 => some .prism
  | 14 => some .pyramid | 27 => some .pyramid
  | _ => none

/-- with points on the edges (order two), or without -/
def vtkOrder (code : Nat) : Int := if code = 4 ∨ 22 ≤ code then 2 else 1

/-- the corners in the order in which VTK lists them, as points of the reference element (coordinates doubled): quads and the layers of
hexahedra and wedges in a loop, lower layer first, base of a pyramid before the apex -/
def vtkCorners : ParamSpace → List Elem.V3
  | .line => [(-2, 0, 0), (2, 0, 0)]
  | .tri => [(0, 0, 0), (2, 0, 0), (0, 2, 0)]
  | .quad => [(-2, -2, 0), (2, -2, 0), (2, 2, 0), (-2, 2, 0)]
  | .tet => [(0, 0, 0), (2, 0, 0), (0, 2, 0), (0, 0, 2)]
  | .hex => [(-2, -2, -2), (2, -2, -2), (2, 2, -2), (-2, 2, -2), (-2, -2, 2), (2, -2, 2), (2, 2, 2), (-2, 2, 2)]
  | .prism => [(0, 0, -2), (2, 0, -2), (0, 2, -2), (0, 0, 2), (2, 0, 2), (0, 2, 2)]
  | .pyramid => [(-2, -2, 0), (2, -2, 0), (2, 2, 0), (-2, 2, 0), (0, 0, 2)]
  | .unknown => []

/-- the edges (pairs of corners) whose midpoints a quadratic cell lists after its corners, in VTK's order -/
def vtkEdges : Nat → List (Nat × Nat)
  | 22 => [(0, 1), (1, 2), (2, 0)]
  | 23 => [(0, 1), (1, 2), (2, 3), (3, 0)]
  | 24 => [(0, 1), (1, 2), (2, 0), (0, 3), (1, 3), (2, 3)]
  | 25 => [(0, 1), (1, 2), (2, 3), (3, 0), (4, 5), (5, 6), (6, 7), (7, 4), (0, 4), (1, 5), (2, 6), (3, 7)]
  | 26 => [(0, 1), (1, 2), (2, 0), (3, 4), (4, 5), (5, 3), (0, 3), (1, 4), (2, 5)]
  | 27 => [(0, 1), (1, 2), (2, 3), (3, 0), (0, 4), (1, 4), (2, 4), (3, 4)]
  | _ => []

/-- the midpoint of two corners -/
def mid (a b : Elem.V3) : Elem.V3 := ((a.1 + b.1) / 2, (a.2.1 + b.2.1) / 2, (a.2.2 + b.2.2) / 2)

/-- where the points of a VTK cell lie on the reference element, in VTK's order; a poly line goes from end to end through the middle -/
def vtkPlaces (code : Nat) : List Elem.V3 :=
  match vtkShape code with
  | none => []
  | some s =>
    let c := vtkCorners s
    if code = 4 then [c.getD 0 (0, 0, 0), mid (c.getD 0 (0, 0, 0)) (c.getD 1 (0, 0, 0)), c.getD 1 (0, 0, 0)]
    else c ++ (vtkEdges code).map (fun e => mid (c.getD e.1 (0, 0, 0)) (c.getD e.2 (0, 0, 0)))

/-! ## the mesh on the ranks -/

/-- a cell of the mesh: as many nodes as its type has, each an existing node, with a mark of three bits each on a periodic mesh -/
def CellOk (periodic : Bool) (nl : List Nat) (c : Cell) : Prop :=
  c.type ≠ .unknown ∧ (c.nodes.length : Int) = numNodes c.type ∧ (∀ q ∈ c.nodes, Global nl q) ∧
  (periodic = true → c.pbi.length = c.nodes.length ∧ ∀ b ∈ c.pbi, b.toNat < 8)

/-- the ranks hold the mesh `G`, `X`: `cl[r]` cells and `nl[r]` nodes on rank `r`, numbered block by block; every rank has copies of the
nodes of its cells, requested collectively -/
structure OnMesh (periodic : Bool) (gn : GOM) (cl nl : List Nat) (G : List Cell) (X : Nat → Per.V3) (ranks : List Rk) : Prop where
  ranks_len : ranks.length = nl.length
  cl_len : cl.length = nl.length
  total : G.length = cl.sum
  built : Built nl gn
  maps : ∃ reqs : List (List Int), reqs.length = nl.length ∧ createPull gn nl reqs = .ok (ranks.map (fun s => s.map))
  good : ∀ c ∈ G, CellOk periodic nl c
  coords : ∀ (r : Nat) (s : Rk), ranks[r]? = some s → nl[r]? = some s.coords.length ∧
    ∀ (i : Nat) (x : Per.V3), s.coords[i]? = some x → x = X (before nl r + i)
  cells : ∀ (r : Nat) (s : Rk), ranks[r]? = some s → cl[r]? = some s.cells.length ∧
    ∀ (i : Nat) (c : Cell), s.cells[i]? = some c → ∃ C, G[before cl r + i]? = some C ∧ c.type = C.type ∧ c.pbi = C.pbi ∧
      c.nodes.length = C.nodes.length ∧
      ∀ (j : Nat) (q v : Int), C.nodes[j]? = some q → c.nodes[j]? = some v → 0 ≤ v ∧ LocalName nl r s.map.ghostIndex q v

/-- the callbacks of the ranks return the values of the fields `cd` (by array and cell) and `pd` (by array and node) -/
def DataOn {D : Type} (cl nl : List Nat) (cd pd : Nat → Nat → D) (data : List (Data D)) : Prop :=
  data.length = nl.length ∧ ∀ (r : Nat) (d : Data D), data[r]? = some d → ∀ (a i : Nat),
    ((∃ n, cl[r]? = some n ∧ i < n) → d.cell a i = cd a (before cl r + i)) ∧
    ((∃ n, nl[r]? = some n ∧ i < n) → d.node a i = pd a (before nl r + i))

/-! ## the file -/

/-- the mark under which the cell sees its `j`-th node -/
def mark (periodic : Bool) (c : Cell) (j : Nat) : Mark := if periodic then c.pbi.getD j 0 else 0

/-- some cell sees node `q` under the mark `b` -/
def Seen (periodic : Bool) (G : List Cell) (q : Nat) (b : Mark) : Prop :=
  ∃ c ∈ G, ∃ j, c.nodes[j]? = some (q : Int) ∧ mark periodic c j = b

/-- Cell `i` of the file is cell `c` of the mesh. `L` tells which node, under which mark, a point of the file is. -/
def CellShown {D : Type} (periodic : Bool) (F : File D) (L : List (Nat × Mark)) (i : Nat) (c : Cell) : Prop :=
  ∃ (code o : Nat) (ids : List Nat),
    F.types[i]? = some (some code) ∧ vtkShape code = some (paramSpace c.type) ∧ vtkOrder code = order c.type ∧
    F.offsets[i]? = some (some o) ∧ F.offsets[i + 1]? = some (some (o + ids.length)) ∧
    (F.connectivity.drop o).take ids.length = ids.map (fun p : Nat => some (p : Int)) ∧
    ids.length = (vtkPlaces code).length ∧
    ∀ (k : Nat) (x : Elem.V3), (vtkPlaces code)[k]? = some x →
      ∃ (j p q : Nat), c.nodes[j]? = some (q : Int) ∧ pt c.type j = x ∧ ids[k]? = some p ∧ L[p]? = some (q, mark periodic c j)

/-- the file shows the mesh and the fields; `nN` is the number of nodes -/
structure Shows {D : Type} (periodic : Bool) (P : Per.Periodicity) (nN : Nat) (G : List Cell) (X : Nat → Per.V3)
    (cellNames pointNames : List String) (cd pd : Nat → Nat → D) (F : File D) (L : List (Nat × Mark)) : Prop where
  /-- a node has one point under each mark -/
  once : L.Nodup
  /-- every node has a point of its own, and one under each mark under which some cell sees it; there are no others -/
  exactly : ∀ (q : Nat) (b : Mark), (q, b) ∈ L ↔ q < nN ∧ (b = 0 ∨ Seen periodic G q b)
  points : F.points = L.map (fun e => some (Elev.forward P e.2 (X e.1)))
  cells : ∀ (i : Nat) (c : Cell), G[i]? = some c → CellShown periodic F L i c
  types_len : F.types.length = G.length
  offsets_len : F.offsets.length = G.length + 1
  last : F.offsets[G.length]? = some (some F.connectivity.length)
  numberOfCells : F.numberOfCells = [some G.length]
  numberOfPoints : F.numberOfPoints = [some L.length]
  numberOfIds : F.numberOfConnectivityIds = [some F.connectivity.length]
  cellData : F.cellData = cellNames.zipIdx.map (fun p => (p.1, (List.range G.length).map (fun i => some (cd p.2 i))))
  pointData : F.pointData = pointNames.zipIdx.map (fun p => (p.1, L.map (fun e => some (pd p.2 e.1))))

end DNDSR.VtkOut
