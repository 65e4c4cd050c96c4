import Verif.Spec.Sweeps
import Verif.Proof.FluxSum
import Verif.Model.RecIter

/-!
# What the iterations of the reconstruction have to do (C81, C82)

The reconstruction system of the whole mesh: one equation for each cell, with a term for each of its faces.
-/

namespace DNDSR.RecIt

open DNDSR.Elem DNDSR.IMap DNDSR.MeshAdj DNDSR.Faces
open DNDSR.Flux (nSides firstSide)
open DNDSR.Sweep (Mates)
open Matrix

variable {N V : Nat} {K : Type} [Field K]

/-- The mesh and the coefficients of the system. `E` gives the first side of each face, `mate i j` the cell on the other side of face `j` of cell `i`,
`U` the mean values. -/
structure Prob (N V : Nat) (K : Type) where
  per : Bool
  G : List Cell
  F : Nat → Nat → Int
  E : Int → Nat × Nat
  mate : Nat → Nat → Option Nat
  T : Trans V K
  U : Nat → Fin V → K
  AInv : Nat → Matrix (Fin N) (Fin N) K
  B : Nat → Nat → Matrix (Fin N) (Fin N) K
  b : Nat → Nat → Fin N → K
  relax : Nat → K
  zone : Int → Int
  bc : Int → Matrix (Fin N) (Fin V) K → (Fin V → K) → Matrix (Fin N) (Fin V) K
  bcd : Int → Matrix (Fin N) (Fin V) K → Matrix (Fin N) (Fin V) K → (Fin V → K) → Matrix (Fin N) (Fin V) K

namespace Prob

variable (P : Prob N V K)

/-- The state of a neighbour as it is seen through face `j` of cell `i`: turned, if the face is periodic, from the coordinates on one side to those
on the other. -/
def carry (i j : Nat) (w : Fin V → K) : Fin V → K :=
  let id := P.zone (P.F i j)
  if P.per = false then w
  else if id = -1 ∨ id = -2 ∨ id = -3 then if firstSide P.E P.F i j then P.T.back id w else P.T.fwd id w
  else if id = -4 ∨ id = -5 ∨ id = -6 then if firstSide P.E P.F i j then P.T.fwd id w else P.T.back id w
  else w

/-- The same for coefficients. -/
def carryM (i j : Nat) (M : Matrix (Fin N) (Fin V) K) : Matrix (Fin N) (Fin V) K := fun k => P.carry i j (M k)

/-- What face `j` of cell `i` asks of the cell: the neighbour's values come from `X`, those the boundary condition sees from `own`. -/
def part (i j : Nat) (own : Matrix (Fin N) (Fin V) K) (X : Nat → Matrix (Fin N) (Fin V) K) : Matrix (Fin N) (Fin V) K :=
  match P.mate i j with
  | some i' => P.B i j * P.carryM i j (X i') + vecMulVec (P.b i j) (P.carry i j (P.U i') - P.U i)
  | none => P.AInv i * P.bc (P.F i j) own (P.U i)

/-- The residual of the equation of cell `i`. -/
def residual (X : Nat → Matrix (Fin N) (Fin V) K) (i : Nat) : Matrix (Fin N) (Fin V) K :=
  X i - ∑ j ∈ Finset.range (nSides P.G i), P.part i j (X i) X

/-- `X` solves the system. -/
def Solves (X : Nat → Matrix (Fin N) (Fin V) K) : Prop := ∀ i < P.G.length, P.residual X i = 0

/-- The same for a difference `Δ` at the values `X`: mean values drop out. -/
def linPart (i j : Nat) (x own : Matrix (Fin N) (Fin V) K) (Δ : Nat → Matrix (Fin N) (Fin V) K) : Matrix (Fin N) (Fin V) K :=
  match P.mate i j with
  | some i' => P.B i j * P.carryM i j (Δ i')
  | none => P.AInv i * P.bcd (P.F i j) x own (P.U i)

/-- The linearised system at `X`, applied to a difference. -/
def linear (X Δ : Nat → Matrix (Fin N) (Fin V) K) (i : Nat) : Matrix (Fin N) (Fin V) K :=
  Δ i - ∑ j ∈ Finset.range (nSides P.G i), P.linPart i j (X i) (Δ i) Δ

/-- The boundary values do not depend on the coefficients of the cell. -/
def Blind : Prop := ∀ i < P.G.length, ∀ j < nSides P.G i, P.mate i j = none → ∀ x y, P.bc (P.F i j) x (P.U i) = P.bc (P.F i j) y (P.U i)

/-- Nor do their differences on the difference. -/
def BlindD : Prop := ∀ i < P.G.length, ∀ j < nSides P.G i, P.mate i j = none → ∀ x y z, P.bcd (P.F i j) x y (P.U i) = P.bcd (P.F i j) x z (P.U i)

/-- Turning a state is linear as far as sums go. -/
def Additive : Prop := ∀ id, (∀ v w, P.T.fwd id (v - w) = P.T.fwd id v - P.T.fwd id w) ∧ ∀ v w, P.T.back id (v - w) = P.T.back id v - P.T.back id w

end Prob

/-- Faces added one after the other to a value that the boundary conditions see as it grows. -/
def grow (t : Nat → Matrix (Fin N) (Fin V) K → Matrix (Fin N) (Fin V) K) : Nat → Matrix (Fin N) (Fin V) K → Matrix (Fin N) (Fin V) K
  | 0, a => a
  | n + 1, a => grow t n a + t n (grow t n a)

/-- Every rank has its part of the mesh and of the system. -/
structure OnMesh (cl nl : List Nat) (gc : GOM) (ranks : List RankIn) (outs : List RankOut) (rs : List (Rk N V K)) (P : Prob N V K) : Prop where
  dist : Distributed P.per cl nl P.G gc ranks
  num : Numbered P.per cl nl P.G ranks outs P.F
  orient : Orient P.per cl P.G ranks outs P.F P.E
  mates : Mates P.per P.G P.F P.mate
  given : P.per = true → P.T.given = true
  size : rs.length = ranks.length
  own : ∀ (r : Nat) (x : RankIn) (s : Rk N V K), ranks[r]? = some x → rs[r]? = some s →
    s.sys.n = x.nOwn ∧ s.sys.ghosts = x.cellMap.ghostIndex ∧ s.sys.isPeriodic = P.per
  faces : ∀ (r : Nat) (o : RankOut) (s : Rk N V K), outs[r]? = some o → rs[r]? = some s → s.sys.faces = o.faces ∧ s.sys.c2f = o.c2f
  byFace : ∀ (r : Nat) (o : RankOut) (s : Rk N V K) (q : Int) (v : Nat), outs[r]? = some o → rs[r]? = some s →
    LocalName (outs.map (·.nFaces)) r o.faceMap.ghostIndex q v → Global (outs.map (·.nFaces)) q →
    s.sys.zone[v]? = some (P.zone q) ∧ s.sys.bc[v]? = some (P.bc q) ∧ s.sys.bcd[v]? = some (P.bcd q)
  byCell : ∀ (r i : Nat) (s : Rk N V K), Owns cl r i → rs[r]? = some s →
    s.sys.AB[((i : Int) - before cl r).toNat]? = some (P.AInv i :: (List.range (nSides P.G i)).map (P.B i)) ∧
    s.sys.b[((i : Int) - before cl r).toNat]? = some ((List.range (nSides P.G i)).map (P.b i)) ∧
    s.sys.relax[((i : Int) - before cl r).toNat]? = some (P.relax i)
  means : ∀ (r : Nat) (x : RankIn) (s : Rk N V K) (i l : Nat), ranks[r]? = some x → rs[r]? = some s →
    LocalName cl r x.cellMap.ghostIndex i l → s.u[l]? = some (P.U i)
  lens : ∀ (r : Nat) (x : RankIn) (s : Rk N V K), ranks[r]? = some x → rs[r]? = some s →
    s.x.length = x.cells.length ∧ s.y.length = x.cells.length ∧ s.d.length = x.cells.length

/-- A vector of the ranks is `X`, on own and on ghost cells. -/
def Has (cl : List Nat) (ranks : List RankIn) (rs : List (Rk N V K)) (vec : Rk N V K → List (Matrix (Fin N) (Fin V) K))
    (X : Nat → Matrix (Fin N) (Fin V) K) : Prop :=
  ∀ (r : Nat) (x : RankIn) (s : Rk N V K) (i l : Nat), ranks[r]? = some x → rs[r]? = some s →
    LocalName cl r x.cellMap.ghostIndex i l → (vec s)[l]? = some (X i)

/-- A vector of the ranks is `X` on own cells. -/
def HasOwn (cl : List Nat) (rs : List (Rk N V K)) (vec : Rk N V K → List (Matrix (Fin N) (Fin V) K)) (X : Nat → Matrix (Fin N) (Fin V) K) : Prop :=
  ∀ (r : Nat) (s : Rk N V K) (i : Nat), rs[r]? = some s → Owns cl r i → (vec s)[((i : Int) - before cl r).toNat]? = some (X i)

end DNDSR.RecIt
