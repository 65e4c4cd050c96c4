import Verif.Spec.FacesGhost
import Verif.Model.FluxSum
import Mathlib.Algebra.BigOperators.Group.Finset.Basic

/-!
# What summing face fluxes has to do (C75)

`F i j` is the global number of the face of slot `j` of cell `i` (C71), `vol i` the volume of cell `i`, `flux q` the flux
through face `q` seen from its first side and `zone q` its zone.
-/

namespace DNDSR.Flux

open DNDSR.Elem DNDSR.IMap DNDSR.MeshAdj DNDSR.Faces

variable {K V : Type} [Field K] [AddCommGroup V] [Module K V]

/-- every rank has the volume of each cell it holds, and the flux and zone of each face it holds, and all ranks holding a
cell or face have the same -/
structure Agree (cl : List Nat) (ranks : List RankIn) (outs : List RankOut) (ds : List (Fields K V)) (vol : Nat → K)
    (flux : Int → V) (zone : Int → Int) : Prop where
  size : ds.length = ranks.length
  len : ∀ (r : Nat) (x : RankIn) (d : Fields K V), ranks[r]? = some x → ds[r]? = some d → d.vol.length = x.cells.length
  vols : ∀ (r : Nat) (x : RankIn) (d : Fields K V) (i l : Nat), ranks[r]? = some x → ds[r]? = some d →
    LocalName cl r x.cellMap.ghostIndex i l → d.vol[l]? = some (vol i)
  faces : ∀ (r : Nat) (o : RankOut) (d : Fields K V) (q : Int) (v : Nat), outs[r]? = some o → ds[r]? = some d →
    LocalName (outs.map (·.nFaces)) r o.faceMap.ghostIndex q v → Global (outs.map (·.nFaces)) q →
    d.flux[v]? = some (flux q) ∧ d.zone[v]? = some (zone q)

/-- how a vector on a face of zone `z` is turned to the frame of the cell on the second side: back through the periodic
boundary -/
def turn (fr : Frame V) (z : Int) (u : V) : V :=
  if fr.periodic = true ∧ z ∈ ([-1, -2, -3] : List Int) then fr.trans z u
  else if fr.periodic = true ∧ z ∈ ([-4, -5, -6] : List Int) then fr.transBack z u else u

/-- the slot is the only side of its face -/
def Outer (per : Bool) (G : List Cell) (F : Nat → Nat → Int) (i j : Nat) : Prop :=
  ∀ (i' j' : Nat) (b : Slot), IsSlot per G i' j' b → F i' j' = F i j → (i', j') = (i, j)

/-- `σ` tells the first side of every face from the second -/
structure Sides (per : Bool) (G : List Cell) (F : Nat → Nat → Int) (σ : Nat → Nat → Bool) : Prop where
  outer : ∀ (i j : Nat) (a : Slot), IsSlot per G i j a → Outer per G F i j → σ i j = true
  inner : ∀ (i j i' j' : Nat) (a b : Slot), IsSlot per G i j a → IsSlot per G i' j' b → F i j = F i' j' → (i, j) ≠ (i', j') →
    σ i j = !σ i' j'

/-- how many faces cell `i` has -/
def nSides (G : List Cell) (i : Nat) : Nat := ((G[i]?).map fun C => (numFaces C.type).toNat).getD 0

/-- what cell `i` gets: every one of its faces once, minus on the second side, divided by its volume -/
def balance (fr : Frame V) (G : List Cell) (F : Nat → Nat → Int) (σ : Nat → Nat → Bool) (vol : Nat → K) (flux : Int → V)
    (zone : Int → Int) (i : Nat) : V :=
  (vol i)⁻¹ • ∑ j ∈ Finset.range (nSides G i), if σ i j then flux (F i j) else turn fr (zone (F i j)) (-flux (F i j))

/-- rank `r` has `R i` for each cell `i` it owns -/
def OwnValues (cl : List Nat) (rows : List (List V)) (R : Nat → V) : Prop :=
  rows.length = cl.length ∧ ∀ (r i : Nat) (row : List V), Owns cl r i → rows[r]? = some row →
    row[((i : Int) - before cl r).toNat]? = some (R i)

end DNDSR.Flux
