import Verif.Spec.FluxSum
import Verif.Model.Sweeps

/-!
# What the implicit sweeps have to do (C76, C77)

The linear system of the whole mesh: `D i` is the diagonal block of cell `i`, `cpl q s` what the increment of the
neighbour does through face `q` to the cell on its first (`s = false`) or second side.
-/

namespace DNDSR.Sweep

open DNDSR.Elem DNDSR.IMap DNDSR.MeshAdj DNDSR.Faces
open DNDSR.Flux (nSides)
open Matrix

variable {m : Nat} {K : Type} [Field K] [LinearOrder K]

/-! ## Diagonal blocks -/

/-- if there are inverses, they are those of the blocks -/
def JDiag.Sound (J : JDiag m K) : Prop :=
  J.hasInvert = true →
    if J.block then J.dataInv.length = J.data.length ∧
      ∀ (l : Nat) (A B : Matrix (Fin m) (Fin m) K), J.data[l]? = some A → J.dataInv[l]? = some B → A * B = 1 ∧ B * A = 1
    else J.diagInv.length = J.diag.length ∧
      ∀ (l : Nat) (d e : Fin m → K), J.diag[l]? = some d → J.diagInv[l]? = some e → ∀ k, d k * e k = 1

/-- what the caller does to the blocks -/
inductive Op (m : Nat) (K : Type)
  | clear
  | setBlock (i : Nat) (A : Matrix (Fin m) (Fin m) K)
  | setDiag (i : Nat) (d : Fin m → K)
  | getInvert

noncomputable def Op.run (J : JDiag m K) : Op m K → Res (JDiag m K)
  | .clear => .ok J.clear
  | .setBlock i A => J.setBlock i A
  | .setDiag i d => J.setDiag i d
  | .getInvert => J.getInvert

noncomputable def runOps (J : JDiag m K) : List (Op m K) → Res (JDiag m K)
  | [] => .ok J
  | o :: os => do
    let J' ← o.run J
    runOps J' os

/-- blocks are not written between an inversion and the next `clearValues`; `inverted` says that there was an inversion -/
def Disciplined : Bool → List (Op m K) → Prop
  | _, [] => True
  | _, .clear :: os => Disciplined false os
  | _, .getInvert :: os => Disciplined true os
  | inverted, .setBlock _ _ :: os => inverted = false ∧ Disciplined inverted os
  | inverted, .setDiag _ _ :: os => inverted = false ∧ Disciplined inverted os

/-! ## The system -/

/-- `mate i j` is the cell on the other side of face `j` of cell `i`, if there is one -/
def Mates (per : Bool) (G : List Cell) (F : Nat → Nat → Int) (mate : Nat → Nat → Option Nat) : Prop :=
  ∀ (i j : Nat) (a : Slot), IsSlot per G i j a → ∀ i', mate i j = some i' ↔
    ∃ (j' : Nat) (b : Slot), IsSlot per G i' j' b ∧ F i' j' = F i j ∧ (i', j') ≠ (i, j)

/-- the matrix of the whole mesh, off the diagonal: the sum over the faces of cell `i` -/
def off (G : List Cell) (F : Nat → Nat → Int) (σ : Nat → Nat → Bool) (mate : Nat → Nat → Option Nat)
    (cpl : Int → Bool → (Fin m → K) → Fin m → K) (i : Nat) (x : Nat → Fin m → K) : Fin m → K :=
  ∑ j ∈ Finset.range (nSides G i), match mate i j with
    | none => 0
    | some i' => cpl (F i j) (!σ i j) (x i')

open Classical in
/-- the same, only with the neighbours `P` holds of -/
noncomputable def offIf (G : List Cell) (F : Nat → Nat → Int) (σ : Nat → Nat → Bool) (mate : Nat → Nat → Option Nat)
    (cpl : Int → Bool → (Fin m → K) → Fin m → K) (i : Nat) (P : Nat → Prop) (x : Nat → Fin m → K) : Fin m → K :=
  ∑ j ∈ Finset.range (nSides G i), match mate i j with
    | none => 0
    | some i' => if P i' then cpl (F i j) (!σ i j) (x i') else 0

/-- when cell `i` of rank `r` is computed, cell `i'` already has its new value: not in a Jacobi sweep, and otherwise the
cells of the same rank before `i`, in the direction of the sweep -/
def Seen (cl : List Nat) (jacobi forward : Bool) (r i i' : Nat) : Prop :=
  jacobi = false ∧ Owns cl r i' ∧ if forward then i' < i else i < i'

/-- every rank has its part of the system: the faces, the blocks of its own cells and the couplings of its faces.  `b` is the
right-hand side. -/
structure Given (cl : List Nat) (ranks : List RankIn) (outs : List RankOut) (rs : List (Rk m K)) (D : Nat → Matrix (Fin m) (Fin m) K)
    (cpl : Int → Bool → (Fin m → K) → Fin m → K) (b : Nat → Fin m → K) : Prop where
  size : rs.length = ranks.length
  own : ∀ (r : Nat) (x : RankIn) (s : Rk m K), ranks[r]? = some x → rs[r]? = some s → s.sys.n = x.nOwn ∧ s.sys.ghosts = x.cellMap.ghostIndex
  faces : ∀ (r : Nat) (o : RankOut) (s : Rk m K), outs[r]? = some o → rs[r]? = some s → s.sys.faces = o.faces ∧ s.sys.c2f = o.c2f
  couple : ∀ (r : Nat) (o : RankOut) (s : Rk m K) (q : Int) (v : Nat), outs[r]? = some o → rs[r]? = some s →
    LocalName (outs.map (·.nFaces)) r o.faceMap.ghostIndex q v → Global (outs.map (·.nFaces)) q → s.sys.couple[v]? = some (cpl q)
  blocks : ∀ (r i : Nat) (s : Rk m K), Owns cl r i → rs[r]? = some s → s.J.getValue ((i : Int) - before cl r).toNat = .ok (D i)
  nblocks : ∀ (r : Nat) (x : RankIn) (s : Rk m K), ranks[r]? = some x → rs[r]? = some s →
    (s.J.block = true → s.J.data.length = x.nOwn) ∧ (s.J.block = false → s.J.diag.length = x.nOwn)
  sound : ∀ (r : Nat) (s : Rk m K), rs[r]? = some s → s.J.Sound
  rhs : ∀ (r i : Nat) (s : Rk m K), Owns cl r i → rs[r]? = some s → s.rhs[((i : Int) - before cl r).toNat]? = some (b i)
  lens : ∀ (r : Nat) (x : RankIn) (s : Rk m K), ranks[r]? = some x → rs[r]? = some s → s.x.length = x.cells.length ∧ s.tmp.length = x.cells.length

/-- the unknown is `X`, on own and on ghost cells -/
def Has (cl : List Nat) (ranks : List RankIn) (rs : List (Rk m K)) (X : Nat → Fin m → K) : Prop :=
  ∀ (r : Nat) (x : RankIn) (s : Rk m K) (i l : Nat), ranks[r]? = some x → rs[r]? = some s →
    LocalName cl r x.cellMap.ghostIndex i l → s.x[l]? = some (X i)

/-- the unknown is `X` on own cells -/
def HasOwn (cl : List Nat) (rs : List (Rk m K)) (X : Nat → Fin m → K) : Prop :=
  ∀ (r : Nat) (s : Rk m K) (i : Nat), rs[r]? = some s → Owns cl r i → s.x[((i : Int) - before cl r).toNat]? = some (X i)

/-- the temporary vector is `T` on own cells -/
def TmpOwn (cl : List Nat) (rs : List (Rk m K)) (T : Nat → Fin m → K) : Prop :=
  ∀ (r : Nat) (s : Rk m K) (i : Nat), rs[r]? = some s → Owns cl r i → s.tmp[((i : Int) - before cl r).toNat]? = some (T i)

/-- the blocks can be inverted the way the program does: regular, and no zero on the diagonal -/
def Regular (G : List Cell) (D : Nat → Matrix (Fin m) (Fin m) K) : Prop :=
  ∀ i < G.length, (∀ k, D i k k ≠ 0) ∧ IsUnit (D i).det

end DNDSR.Sweep
