import Verif.Spec.FacesGhost
import Verif.Model.FaceZones

/-!
# What putting boundary elements on faces has to do (C92)

`Z i j` is the information (type and zone) of the boundary element on slot `j` of cell `i` of the whole mesh, if there is
one.  A face has the element of its first cell's side; that side is what the orientation of the face is about, and on a
periodic face the zone says which of the two sides it is.
-/

namespace DNDSR.Faces

open DNDSR.Elem DNDSR.IMap DNDSR.MeshAdj
open DNDSR.Per (isPeriodic)

/-- boundary element `b` of rank `r` is on slot `j` of cell `i`: the cell is its cell, and its nodes are those of the slot in
some order, under the names they have on the rank -/
def Sits (per : Bool) (cl nl : List Nat) (G : List Cell) (r : Nat) (x : RankIn) (b : BndRow) (i j : Nat) : Prop :=
  ∃ (l : Nat) (a s : Slot), b.cell = l ∧ LocalName cl r x.cellMap.ghostIndex i l ∧ IsSlot per G i j a ∧
    LocalSlot nl r x.nodeMap.ghostIndex a s ∧ b.nodes.Perm s.nodes

/-- the boundary elements of a mesh distributed over the ranks -/
structure Bounded (per : Bool) (cl nl : List Nat) (G : List Cell) (ranks : List RankIn) (bnds : List (List BndRow))
    (Z : Nat → Nat → Option Info) : Prop where
  nranks : bnds.length = ranks.length
  /-- an element of a rank is on a slot of a cell the rank owns -/
  sits : ∀ (r : Nat) (x : RankIn) (bs : List BndRow) (k : Nat) (b : BndRow), ranks[r]? = some x → bnds[r]? = some bs → bs[k]? = some b →
    ∃ (i j : Nat), Owns cl r i ∧ Sits per cl nl G r x b i j ∧ Z i j = some b.info
  /-- the elements on the slots of a cell are on the rank that owns the cell -/
  held : ∀ (r : Nat) (x : RankIn) (bs : List BndRow) (i j : Nat) (a : Slot) (z : Info), ranks[r]? = some x → bnds[r]? = some bs → Owns cl r i →
    IsSlot per G i j a → Z i j = some z → ∃ (k : Nat) (b : BndRow), bs[k]? = some b ∧ Sits per cl nl G r x b i j
  /-- no two elements of a rank are on the same slot -/
  once : ∀ (r : Nat) (x : RankIn) (bs : List BndRow) (k k' : Nat) (b b' : BndRow) (i j : Nat), ranks[r]? = some x → bnds[r]? = some bs →
    bs[k]? = some b → bs[k']? = some b' → Sits per cl nl G r x b i j → Sits per cl nl G r x b' i j → k = k'
  /-- an element has a zone of a boundary condition or a periodic one -/
  zone : ∀ (i j : Nat) (z : Info), Z i j = some z → isExternal z.zone = true ∨ isPeriodic z.zone = true
  /-- an element on a face with two sides is periodic, and there is one on the other side too -/
  twin : ∀ (i j i' j' : Nat) (a b : Slot) (z : Info), IsSlot per G i j a → IsSlot per G i' j' b → SameFace per a b → (i, j) ≠ (i', j') →
    Z i j = some z → isPeriodic z.zone = true ∧ ∃ z', Z i' j' = some z'

/-- there is an element with the zone of a boundary condition on every slot whose face has no other side -/
def Closed (per : Bool) (G : List Cell) (Z : Nat → Nat → Option Info) : Prop :=
  ∀ (i j : Nat) (a : Slot), IsSlot per G i j a → (∀ (i' j' : Nat) (b : Slot), IsSlot per G i' j' b → SameFace per a b → (i', j') = (i, j)) →
    ∃ z, Z i j = some z ∧ isExternal z.zone = true

/-- what the ranks have afterwards: `outs` are the faces, `F` their numbers (C71) -/
structure Zoned (per : Bool) (cl nl : List Nat) (G : List Cell) (ranks : List RankIn) (bnds : List (List BndRow))
    (Z : Nat → Nat → Option Info) (outs : List RankOut) (F : Nat → Nat → Int) (zs : List ZSt) : Prop where
  size : zs.length = ranks.length
  sizes : ∀ (r : Nat) (o : RankOut) (z : ZSt), outs[r]? = some o → zs[r]? = some z → z.info.length = o.faces.length ∧
    z.face2bnd.length = o.nFaces
  /-- on every rank that holds a face, it has the information of the element on the side of its first cell, and zone 0 if
  there is none -/
  info : ∀ (r : Nat) (x : RankIn) (o : RankOut) (z : ZSt) (v l i j : Nat) (f : Face) (a : Slot), ranks[r]? = some x → outs[r]? = some o →
    zs[r]? = some z → o.faces[v]? = some f → f.first = l → LocalName cl r x.cellMap.ghostIndex i l → IsSlot per G i j a →
    LocalName (outs.map (·.nFaces)) r o.faceMap.ghostIndex (F i j) v → z.info[v]? = some ((Z i j).getD ⟨a.type, 0⟩)
  /-- the element of an own face is the one on the side of its first cell -/
  face2bnd : ∀ (r : Nat) (x : RankIn) (o : RankOut) (z : ZSt) (bs : List BndRow) (v l i j : Nat) (f : Face) (a : Slot), ranks[r]? = some x →
    outs[r]? = some o → zs[r]? = some z → bnds[r]? = some bs → o.faces[v]? = some f → v < o.nFaces → f.first = l →
    LocalName cl r x.cellMap.ghostIndex i l → IsSlot per G i j a → LocalName (outs.map (·.nFaces)) r o.faceMap.ghostIndex (F i j) v →
    (Z i j = none ∧ z.face2bnd[v]? = some none) ∨
    ∃ (k : Nat) (b : BndRow), z.face2bnd[v]? = some (some k) ∧ bs[k]? = some b ∧ Sits per cl nl G r x b i j
  /-- an element has the face of its slot, under its local number; only a periodic one may be left without -/
  bnd2face : ∀ (r : Nat) (x : RankIn) (o : RankOut) (z : ZSt) (bs : List BndRow) (k i j : Nat) (b : BndRow), ranks[r]? = some x →
    outs[r]? = some o → zs[r]? = some z → bnds[r]? = some bs → bs[k]? = some b → Sits per cl nl G r x b i j →
    (isPeriodic b.info.zone = true ∧ z.bnd2face[k]? = some (-1)) ∨
    ∃ v : Nat, z.bnd2face[k]? = some (v : Int) ∧ v < o.nFaces ∧ LocalName (outs.map (·.nFaces)) r o.faceMap.ghostIndex (F i j) v
  /-- elements with the zone of a boundary condition: the two tables are inverse to each other -/
  inverse : ∀ (r : Nat) (x : RankIn) (z : ZSt) (bs : List BndRow) (k : Nat) (b : BndRow), ranks[r]? = some x → zs[r]? = some z →
    bnds[r]? = some bs → bs[k]? = some b → isPeriodic b.info.zone = false →
    ∃ v : Nat, z.bnd2face[k]? = some (v : Int) ∧ z.face2bnd[v]? = some (some k)
  /-- there is an entry for every element, and no more -/
  entries : ∀ (r : Nat) (z : ZSt) (bs : List BndRow), zs[r]? = some z → bnds[r]? = some bs → z.bnd2face.length = bs.length

end DNDSR.Faces
