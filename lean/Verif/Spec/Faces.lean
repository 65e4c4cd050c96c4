import Verif.Model.Faces
import Verif.Spec.Elements
import Verif.Spec.Partition

/-!
# What building faces has to do (C26)
-/

namespace DNDSR.Faces

open DNDSR.Elem DNDSR.Part
open DNDSR.Bits (Mark)

/-- the cells as `InterpolateFace` may rely on: a row has as many entries as the element has nodes, all of them
nodes of the rank -/
structure Valid (per : Bool) (nNodes : Nat) (c : Cell) : Prop where
  known : c.type ≠ .unknown
  nodes : c.nodes.length = (numNodes c.type).toNat
  pbi : per = true → c.pbi.length = (numNodes c.type).toNat
  range : ∀ q ∈ c.nodes, 0 ≤ q ∧ q < nNodes

/-- face slot `j` of a cell: the nodes (and periodic bits) its element lists for that face -/
def slot (per : Bool) (c : Cell) (j : Nat) : Slot :=
  ⟨faceType c.type j, (fnodes c.type j).map (fun a => c.nodes[a]?.getD 0),
    if per then (fnodes c.type j).map (fun a => c.pbi[a]?.getD 0#8) else []⟩

/-- `s` is face slot `j` of cell `i` -/
def IsSlot (per : Bool) (cells : List Cell) (i j : Nat) (s : Slot) : Prop :=
  ∃ c, cells[i]? = some c ∧ j < (numFaces c.type).toNat ∧ s = slot per c j

/-- the corners of a slot -/
def corners (s : Slot) : List Int := s.nodes.take (numVertices s.type).toNat

/-- the periodic bits in the order of the sorted nodes -/
def sortedBits (srt : Sorter) (s : Slot) : List Mark := (srt (s.nodes.zip s.pbi)).map (·.2)

/-- Two slots are the same face: same type, same corners up to order and, in a periodic mesh, periodic bits that
differ by one and the same mark. -/
def Same (per : Bool) (srt : Sorter) (a b : Slot) : Prop :=
  a.type = b.type ∧ (corners a).Perm (corners b) ∧
  (per = true → ∃ v : Mark, ∀ (i : Nat) (x y : Mark), (sortedBits srt a)[i]? = some x → (sortedBits srt b)[i]? = some y → y = x ^^^ v)

/-- sorting by node -/
structure Sorts (srt : Sorter) : Prop where
  perm : ∀ l, (srt l).Perm l
  sorted : ∀ l, (srt l).Pairwise (fun a b => a.1 ≤ b.1)

/-- three different face slots are the same face -/
def Triple (per : Bool) (srt : Sorter) (cells : List Cell) : Prop :=
  ∃ (i1 j1 i2 j2 i3 j3 : Nat) (s1 s2 s3 : Slot), IsSlot per cells i1 j1 s1 ∧ IsSlot per cells i2 j2 s2 ∧ IsSlot per cells i3 j3 s3 ∧
    (i1, j1) ≠ (i2, j2) ∧ (i1, j1) ≠ (i3, j3) ∧ (i2, j2) ≠ (i3, j3) ∧ Same per srt s1 s2 ∧ Same per srt s1 s3 ∧ Same per srt s2 s3

/-- entry `j` of row `i` is `k` -/
def Gives {α : Type} (rows : List (List α)) (i j : Nat) (k : α) : Prop := ∃ row, rows[i]? = some row ∧ row[j]? = some k

/-- slot `(i, j)` comes before slot `(i', j')` -/
def Earlier (i j i' j' : Nat) : Prop := i < i' ∨ (i = i' ∧ j < j')

/-- The faces `faces` and the rows `rows` of faces of the cells are what the cells describe. -/
structure Matching (per : Bool) (srt : Sorter) (cells : List Cell) (faces : List Face) (rows : List (List Nat)) : Prop where
  /-- a row for every cell, with an entry for every face slot -/
  size : rows.length = cells.length
  width : ∀ (i : Nat) (c : Cell) (row : List Nat), cells[i]? = some c → rows[i]? = some row → row.length = (numFaces c.type).toNat
  /-- every face slot is given a face, and it is the face the slot describes -/
  given : ∀ (i j : Nat) (s : Slot), IsSlot per cells i j s → ∃ k f, Gives rows i j k ∧ faces[k]? = some f ∧ Same per srt s f.slot
  /-- two slots are given one face if and only if they are the same face -/
  iff : ∀ (i j i' j' k k' : Nat) (s s' : Slot), IsSlot per cells i j s → IsSlot per cells i' j' s' → Gives rows i j k → Gives rows i' j' k' →
    (k = k' ↔ Same per srt s s')
  /-- every face is given to one slot or to two slots; it has the nodes and bits of the first, and records the cells
  of the two in the order of the loop -/
  cells : ∀ (k : Nat) (f : Face), faces[k]? = some f → ∃ i j, IsSlot per cells i j f.slot ∧ Gives rows i j k ∧ f.first = i ∧
    ((f.second = unInit ∧ ∀ i' j', Gives rows i' j' k → i' = i ∧ j' = j) ∨
     (∃ i' j' : Nat, f.second = i' ∧ Earlier i j i' j' ∧ Gives rows i' j' k ∧
       ∀ i'' j'', Gives rows i'' j'' k → (i'' = i ∧ j'' = j) ∨ (i'' = i' ∧ j'' = j')))

end DNDSR.Faces
