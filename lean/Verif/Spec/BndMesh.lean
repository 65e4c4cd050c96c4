import Verif.Spec.FaceZones
import Verif.Model.BndMesh
import Mathlib.Order.Interval.Finset.Nat
import Mathlib.Data.Nat.Count

/-!
# What building the boundary mesh has to do (C93)

The nodes of the boundary mesh are the nodes of the boundary elements of all ranks, each once, in the order they have in the
mesh.
-/

namespace DNDSR.Bnd

open DNDSR.Elem DNDSR.IMap DNDSR.Faces DNDSR.MeshAdj
open DNDSR.Per (isPeriodic)

variable {V : Type}

/-- node `n` of the mesh is a node of a boundary element of some rank -/
def OnBnd (nl : List Nat) (xs : List (RankB V)) (n : Nat) : Prop :=
  ∃ (s : Nat) (x : RankB V) (b : BndRow) (v : Int), xs[s]? = some x ∧ b ∈ x.bnds ∧ v ∈ b.nodes ∧ LocalName nl s x.nodeMap.ghostIndex n v

open Classical in
/-- how many nodes of the boundary come before node `n` of the mesh -/
noncomputable def rankIn (nl : List Nat) (xs : List (RankB V)) (n : Nat) : Nat := Nat.count (OnBnd nl xs) n

/-- a mesh distributed over the ranks; `X n` are the coordinates of node `n` -/
structure Given (per : Bool) (nl : List Nat) (gn : GOM) (X : Nat → V) (xs : List (RankB V)) : Prop where
  built : Built nl gn
  maps : ∃ reqs, reqs.length = nl.length ∧ createPull gn nl reqs = .ok (xs.map (·.nodeMap))
  /-- ghost nodes are nodes of other ranks -/
  others : ∀ (r : Nat) (x : RankB V), xs[r]? = some x → ∀ q ∈ x.nodeMap.ghostIndex, ¬ Owns nl r q
  /-- the number of all ghost nodes fits an `int` -/
  small : (((xs.map (fun x => x.nodeMap.ghostIndex.length)).sum : Nat) : Int) ≤ Defines.intMax 32
  size : ∀ x ∈ xs, x.coords.length = x.nProc
  coords : ∀ (r : Nat) (x : RankB V) (n v : Nat), xs[r]? = some x → LocalName nl r x.nodeMap.ghostIndex n v → x.coords[v]? = some (X n)
  nodes : ∀ x ∈ xs, ∀ b ∈ x.bnds, ∀ v ∈ b.nodes, 0 ≤ v ∧ v < x.nProc
  /-- an element that has a face has the nodes of the face -/
  faces : ∀ x ∈ xs, x.bnd2face.length = x.bnds.length ∧ ∀ (k : Nat) (b : BndRow) (q : Int), x.bnds[k]? = some b → x.bnd2face[k]? = some q →
    0 ≤ q → isPeriodic b.info.zone = false → ∃ f, x.faces[q.toNat]? = some f ∧ f.slot.nodes.Perm b.nodes ∧
      (per = true → f.slot.pbi.length = f.slot.nodes.length)

/-- a cell of the boundary mesh: it is element `parent`, with its nodes in the order of the face, if it has one -/
def CellOf (per : Bool) (nl lens : List Nat) (xs : List (RankB V)) (r : Nat) (x : RankB V) (o : OutB V) (c : BCell) : Prop :=
  ∃ (b : BndRow) (q : Int) (src : List Int), x.bnds[c.parent]? = some b ∧ isPeriodic b.info.zone = false ∧ x.bnd2face[c.parent]? = some q ∧
    c.info = b.info ∧ c.nodes.length = b.nodes.length ∧ src.length = b.nodes.length ∧
    ((q < 0 ∧ src = b.nodes ∧ (per = true → c.pbi = List.replicate b.nodes.length 0#8)) ∨
     ∃ f, 0 ≤ q ∧ x.faces[q.toNat]? = some f ∧ src = f.slot.nodes ∧ (per = true → c.pbi = f.slot.pbi)) ∧
    ∀ (p : Nat) (u w : Int), src[p]? = some u → c.nodes[p]? = some w →
      ∃ n : Nat, OnBnd nl xs n ∧ LocalName nl r x.nodeMap.ghostIndex n u ∧ 0 ≤ w ∧ LocalName lens r o.map.ghostIndex (rankIn nl xs n) w

/-- the numbers of own nodes of the boundary mesh -/
def lensB (outs : List (OutB V)) : List Nat := outs.map (·.map.mainSize)

/-- what the ranks have afterwards -/
structure Made (per : Bool) (nl : List Nat) (X : Nat → V) (xs : List (RankB V)) (outs : List (OutB V)) : Prop where
  size : outs.length = xs.length
  /-- the nodes of the boundary mesh are owned by the ranks that own them in the mesh -/
  total : (lensB outs).sum = rankIn nl xs nl.sum
  owner : ∀ (r n : Nat), OnBnd nl xs n → (Owns (lensB outs) r (rankIn nl xs n) ↔ Owns nl r n)
  maps : ∀ (r : Nat) (o : OutB V), outs[r]? = some o → Collective (lensB outs) r o.map
  /-- `node2bndNode`: the local name of the number of a boundary node; nodes that are not on the boundary have none -/
  bound : ∀ (r : Nat) (x : RankB V) (o : OutB V) (n v : Nat), xs[r]? = some x → outs[r]? = some o → LocalName nl r x.nodeMap.ghostIndex n v →
    OnBnd nl xs n → ∃ w, o.node2bnd[v]? = some w ∧ 0 ≤ w ∧ LocalName (lensB outs) r o.map.ghostIndex (rankIn nl xs n) w
  inner : ∀ (r : Nat) (x : RankB V) (o : OutB V) (n v : Nat), xs[r]? = some x → outs[r]? = some o → LocalName nl r x.nodeMap.ghostIndex n v →
    ¬ OnBnd nl xs n → o.node2bnd[v]? = some unInit
  lengths : ∀ (r : Nat) (x : RankB V) (o : OutB V), xs[r]? = some x → outs[r]? = some o → o.node2bnd.length = x.nProc ∧
    o.parents.length = o.map.mainSize + o.map.ghostIndex.length ∧ o.coords.length = o.map.mainSize + o.map.ghostIndex.length
  /-- `node2parentNode` is its inverse, and every node of the boundary mesh has a parent -/
  parent : ∀ (r : Nat) (o : OutB V) (v w : Nat), outs[r]? = some o → (o.node2bnd[v]? = some (w : Int) ↔ o.parents[w]? = some (v : Int))
  parented : ∀ (r : Nat) (o : OutB V) (w : Nat), outs[r]? = some o → w < o.parents.length → ∃ v : Nat, o.parents[w]? = some (v : Int)
  /-- coordinates are those of the mesh -/
  coords : ∀ (r : Nat) (o : OutB V) (n w : Nat), outs[r]? = some o → OnBnd nl xs n →
    LocalName (lensB outs) r o.map.ghostIndex (rankIn nl xs n) w → o.coords[w]? = some (X n)
  /-- a cell for every element that is not periodic, in the order of the elements -/
  cells : ∀ (r : Nat) (x : RankB V) (o : OutB V), xs[r]? = some x → outs[r]? = some o →
    o.cells.map (·.parent) = (List.range x.bnds.length).filter (fun k => (x.bnds[k]?.map fun b => !isPeriodic b.info.zone).getD false) ∧
    ∀ c ∈ o.cells, CellOf per nl (lensB outs) xs r x o c

/-! ### together with the faces (C71) and their zones (C92) -/

/-- node `n` is a node of a slot of the whole mesh with a boundary element -/
def OnSides (per : Bool) (G : List Cell) (Z : Nat → Nat → Option Info) (n : Nat) : Prop :=
  ∃ (i j : Nat) (a : Slot) (z : Info), IsSlot per G i j a ∧ Z i j = some z ∧ (n : Int) ∈ a.nodes

/-- the ranks bring what building faces with boundary elements has left -/
structure Assembled (ranks : List RankIn) (bnds : List (List BndRow)) (outs : List RankOut) (zs : List ZSt) (xs : List (RankB V)) : Prop where
  size : xs.length = ranks.length
  same : ∀ (r : Nat) (y : RankB V) (x : RankIn) (bs : List BndRow) (o : RankOut) (z : ZSt), xs[r]? = some y → ranks[r]? = some x → bnds[r]? = some bs →
    outs[r]? = some o → zs[r]? = some z → y.nodeMap = x.nodeMap ∧ y.bnds = bs ∧ y.bnd2face = z.bnd2face ∧ y.faces = o.faces

/-- the nodes of a distributed mesh -/
structure Nodes (nl : List Nat) (gn : GOM) (X : Nat → V) (xs : List (RankB V)) : Prop where
  built : Built nl gn
  maps : ∃ reqs, reqs.length = nl.length ∧ createPull gn nl reqs = .ok (xs.map (·.nodeMap))
  others : ∀ (r : Nat) (x : RankB V), xs[r]? = some x → ∀ q ∈ x.nodeMap.ghostIndex, ¬ Owns nl r q
  small : (((xs.map (fun x => x.nodeMap.ghostIndex.length)).sum : Nat) : Int) ≤ Defines.intMax 32
  size : ∀ x ∈ xs, x.coords.length = x.nProc
  coords : ∀ (r : Nat) (x : RankB V) (n v : Nat), xs[r]? = some x → LocalName nl r x.nodeMap.ghostIndex n v → x.coords[v]? = some (X n)

/-- cell `c` of the boundary mesh is slot `j` of cell `i` of the whole mesh, its nodes in the order of the slot -/
structure IsSide (per : Bool) (nl : List Nat) (G : List Cell) (Z : Nat → Nat → Option Info) (xs : List (RankB V)) (lens : List Nat) (r : Nat) (o : OutB V) (c : BCell)
    (i j : Nat) (a : Slot) : Prop where
  slot : IsSlot per G i j a
  info : Z i j = some c.info
  pbi : per = true → c.pbi = a.pbi
  len : c.nodes.length = a.nodes.length
  nodes : ∀ (p n : Nat) (w : Int), a.nodes[p]? = some (n : Int) → c.nodes[p]? = some w → 0 ≤ w ∧ LocalName lens r o.map.ghostIndex (rankIn nl xs n) w

end DNDSR.Bnd
