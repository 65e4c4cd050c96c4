import Verif.Spec.Faces
import Verif.Spec.MeshAdj
import Verif.Model.FacesGhost

/-!
# What building faces over all ranks has to do (C71)

The mesh as a whole is a list `G` of cells in global node numbers, numbered by blocks (`cl[r]` cells and `nl[r]` nodes on
rank `r`).  Every rank holds its own cells and copies of some others, in local node numbers.
-/

namespace DNDSR.Faces

open DNDSR.Elem DNDSR.IMap DNDSR.MeshAdj
open DNDSR.Bits (Mark)

/-- two slots are the same face: same type, same corners up to order and, in a periodic mesh, bits that differ at every
node by one and the same mark -/
def SameFace (per : Bool) (a b : Slot) : Prop :=
  a.type = b.type ∧ (corners a).Perm (corners b) ∧
  (per = true → ∃ v : Mark, ∀ (n : Int) (x y : Mark), (n, x) ∈ a.nodes.zip a.pbi → (n, y) ∈ b.nodes.zip b.pbi → y = x ^^^ v)

/-- cell `c` of rank `r` is cell `C` of the mesh in local node numbers -/
structure Localized (nl : List Nat) (r : Nat) (ghosts : List Int) (C c : Cell) : Prop where
  type : c.type = C.type
  pbi : c.pbi = C.pbi
  len : c.nodes.length = C.nodes.length
  nodes : ∀ (p : Nat) (q v : Int), C.nodes[p]? = some q → c.nodes[p]? = some v → 0 ≤ v ∧ LocalName nl r ghosts q v

/-- the cells a rank holds: its own ones, then the copies, which are cells of other ranks -/
structure Holds (cl nl : List Nat) (G : List Cell) (r : Nat) (x : RankIn) : Prop where
  cellMap : Collective cl r x.cellMap
  nodeMap : Collective nl r x.nodeMap
  others : ∀ q ∈ x.cellMap.ghostIndex, ¬ Owns cl r q
  size : x.cells.length = x.cellMap.mainSize + x.cellMap.ghostIndex.length
  cells : ∀ (l i : Nat) (c C : Cell), x.cells[l]? = some c → G[i]? = some C →
    LocalName cl r x.cellMap.ghostIndex i l → Localized nl r x.nodeMap.ghostIndex C c

/-- a mesh distributed over the ranks -/
structure Distributed (per : Bool) (cl nl : List Nat) (G : List Cell) (gc : GOM) (ranks : List RankIn) : Prop where
  built : Built cl gc
  nranks : ranks.length = cl.length
  len : G.length = cl.sum
  /-- rows fit their types, nodes are nodes of the mesh, a cell does not list a node twice -/
  valid : ∀ C ∈ G, Valid per nl.sum C ∧ C.nodes.Nodup
  /-- slots with the same corners have the same nodes -/
  conforming : ∀ (i j i' j' : Nat) (a b : Slot), IsSlot per G i j a → IsSlot per G i' j' b → a.type = b.type → (corners a).Perm (corners b) →
    a.nodes.Perm b.nodes
  /-- no face has three sides -/
  two : ∀ (i1 j1 i2 j2 i3 j3 : Nat) (a b c : Slot), IsSlot per G i1 j1 a → IsSlot per G i2 j2 b → IsSlot per G i3 j3 c →
    SameFace per a b → SameFace per a c → (i1, j1) = (i2, j2) ∨ (i1, j1) = (i3, j3) ∨ (i2, j2) = (i3, j3)
  /-- what each rank holds -/
  holds : ∀ (r : Nat) (x : RankIn), ranks[r]? = some x → Holds cl nl G r x
  /-- a rank holds a copy of every cell that shares a face with one of its own -/
  near : ∀ (r : Nat) (x : RankIn) (i j i' j' : Nat) (a b : Slot), ranks[r]? = some x → IsSlot per G i j a → IsSlot per G i' j' b →
    SameFace per a b → Owns cl r i → ¬ Owns cl r i' → (i' : Int) ∈ x.cellMap.ghostIndex

/-- slot `s` is slot `a` of the mesh, the nodes under the names they have on rank `r` -/
structure LocalSlot (nl : List Nat) (r : Nat) (ghosts : List Int) (a s : Slot) : Prop where
  type : s.type = a.type
  pbi : s.pbi = a.pbi
  len : s.nodes.length = a.nodes.length
  nodes : ∀ (p : Nat) (n v : Int), a.nodes[p]? = some n → s.nodes[p]? = some v → 0 ≤ v ∧ LocalName nl r ghosts n v

/-- What every rank has afterwards.  `F i j` is the global number of the face of slot `j` of cell `i`. -/
structure Numbered (per : Bool) (cl nl : List Nat) (G : List Cell) (ranks : List RankIn) (outs : List RankOut)
    (F : Nat → Nat → Int) : Prop where
  size : outs.length = ranks.length
  /-- numbers are those of the faces the ranks own, and each is used -/
  range : ∀ (i j : Nat) (a : Slot), IsSlot per G i j a → Global (outs.map (·.nFaces)) (F i j)
  used : ∀ q, Global (outs.map (·.nFaces)) q → ∃ i j a, IsSlot per G i j a ∧ F i j = q
  /-- two slots, on whatever ranks, get the same number exactly if they are the same face -/
  iff : ∀ (i j i' j' : Nat) (a b : Slot), IsSlot per G i j a → IsSlot per G i' j' b → (F i j = F i' j' ↔ SameFace per a b)
  /-- the face belongs to the lowest rank that owns one of its cells -/
  owner : ∀ (i j r : Nat) (a : Slot), IsSlot per G i j a → Owns (outs.map (·.nFaces)) r (F i j) →
    (∃ i' j' b, IsSlot per G i' j' b ∧ SameFace per a b ∧ Owns cl r i') ∧
    ∀ i' j' b s, IsSlot per G i' j' b → SameFace per a b → Owns cl s i' → r ≤ s
  /-- `cell2face` of every cell a rank holds is the rank's local name of the number; for own cells there is one -/
  local_ : ∀ (r : Nat) (x : RankIn) (o : RankOut) (l i j : Nat) (a : Slot), ranks[r]? = some x → outs[r]? = some o →
    LocalName cl r x.cellMap.ghostIndex i l → IsSlot per G i j a →
    ∃ v, Gives o.c2f l j v ∧ LocalName (outs.map (·.nFaces)) r o.faceMap.ghostIndex (F i j) v ∧ (Owns cl r i → 0 ≤ v)
  /-- and it has an entry for every face of the cell, and no more -/
  width : ∀ (r : Nat) (x : RankIn) (o : RankOut) (l i : Nat) (C : Cell) (row : List Int), ranks[r]? = some x → outs[r]? = some o →
    LocalName cl r x.cellMap.ghostIndex i l → G[i]? = some C → o.c2f[l]? = some row → row.length = (numFaces C.type).toNat
  rows : ∀ (r : Nat) (x : RankIn) (o : RankOut), ranks[r]? = some x → outs[r]? = some o → o.c2f.length = x.cells.length
  /-- the faces of a rank are its own ones and those of the mapping -/
  maps : ∀ (r : Nat) (o : RankOut), outs[r]? = some o → Collective (outs.map (·.nFaces)) r o.faceMap ∧
    o.faces.length = o.nFaces + o.faceMap.ghostIndex.length
  /-- a face a rank holds has the nodes of the slot of its first cell, and its cells are those of its slots; the first
  cell belongs to the rank the face belongs to, and on any other rank the second cell is one of its own -/
  faces : ∀ (r : Nat) (x : RankIn) (o : RankOut) (v : Nat) (f : Face), ranks[r]? = some x → outs[r]? = some o → o.faces[v]? = some f →
    ∃ (l i j : Nat) (a : Slot), f.first = l ∧ LocalName cl r x.cellMap.ghostIndex i l ∧ IsSlot per G i j a ∧
      LocalName (outs.map (·.nFaces)) r o.faceMap.ghostIndex (F i j) v ∧ LocalSlot nl r x.nodeMap.ghostIndex a f.slot ∧
      (∀ ρ, Owns (outs.map (·.nFaces)) ρ (F i j) → Owns cl ρ i) ∧
      ((f.second = unInit ∧ Owns (outs.map (·.nFaces)) r (F i j) ∧
          ∀ (i' j' : Nat) (b : Slot), IsSlot per G i' j' b → F i' j' = F i j → (i', j') = (i, j)) ∨
       ∃ (l' i' j' : Nat) (b : Slot), f.second = l' ∧ LocalName cl r x.cellMap.ghostIndex i' l' ∧ IsSlot per G i' j' b ∧
         (i', j') ≠ (i, j) ∧ F i' j' = F i j ∧ (Owns (outs.map (·.nFaces)) r (F i j) ∨ Owns cl r i'))

end DNDSR.Faces
