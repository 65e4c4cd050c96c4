import Verif.Spec.Sweeps
import Verif.Spec.DirectLU
import Verif.Model.SweepsDirect

/-!
# What the direct preconditioner has to do (C78)
-/

namespace DNDSR.Sweep

open DNDSR.Elem DNDSR.IMap DNDSR.MeshAdj DNDSR.Faces
open DNDSR.Flux (nSides)
open DNDSR.Direct (IsReorder SymAdj)
open Matrix

variable {m : Nat} {K : Type} [Field K] [LinearOrder K]

/-- no two cells have more than one face in common -/
def SingleFace (G : List Cell) (mate : Nat → Nat → Option Nat) : Prop :=
  ∀ i j j' i', j < nSides G i → j' < nSides G i → mate i j = some i' → mate i j' = some i' → j = j'

open Classical in
/-- the couplings of cell `i` with the neighbours `P` holds of; of several faces with the same neighbour only the last counts -/
noncomputable def offLast (G : List Cell) (F : Nat → Nat → Int) (σ : Nat → Nat → Bool) (mate : Nat → Nat → Option Nat)
    (cpl : Int → Bool → (Fin m → K) → Fin m → K) (i : Nat) (P : Nat → Prop) (x : Nat → Fin m → K) : Fin m → K :=
  ∑ j ∈ Finset.range (nSides G i), match mate i j with
    | none => 0
    | some i' => if P i' ∧ (∀ j' < nSides G i, j < j' → mate i j' ≠ some i') then cpl (F i j) (!σ i j) (x i') else 0

/-- the couplings are linear, as `fluxJacobian0_Right_Times_du` is in its increment (`src/Euler/EulerEvaluator.hpp:649-707`) -/
def LinearCouplings (cpl : Int → Bool → (Fin m → K) → Fin m → K) : Prop :=
  ∀ q s, (∀ v w, cpl q s (v + w) = cpl q s v + cpl q s w) ∧ ∀ (a : K) v, cpl q s (a • v) = a • cpl q s v

/-- on symmetric adjacencies a library returns two inverse permutations -/
def GoodLibrary (lib : Int → List (List Nat) → Res (List Nat × List Nat)) : Prop :=
  ∀ (code : Int) (adj : List (List Nat)), SymAdj adj.length adj → ∃ t, lib code adj = .ok t ∧ IsReorder adj.length t.1 t.2

/-- the options the program documents: ordering codes -1 to 4, fill level up to 5 (negative: complete factorization).  The
ordering of the library itself (code 4) needs a mesh below `2^31` cells without double faces. -/
structure Options (G : List Cell) (mate : Nat → Nat → Option Nat) (lib : Int → List (List Nat) → Res (List Nat × List Nat)) (ord : List Nat → List Nat)
    (code iluCode : Int) : Prop where
  library : GoodLibrary lib
  order : ∀ l, (ord l).Perm l
  codes : -1 ≤ code ∧ code ≤ 4
  fill : iluCode ≤ 5
  rcm : code = 4 → G.length ≤ 2 ^ 31 ∧ SingleFace G mate

/-- the ranks were set up and their matrices factorized, and nothing stopped the program -/
def Prepared (lib : Int → List (List Nat) → Res (List Nat × List Nat)) (ord : List Nat → List Nat) (code iluCode : Int) (rs : List (Rk m K)) (fs : List (Fact m K)) : Prop :=
  ∃ ts, setupAll lib ord code iluCode rs = .ok ts ∧ factorAll ts rs = .ok fs

/-- every row of the system is strictly dominated by its diagonal entry; `i` is the cell, `p` the component.  The columns of a
coupling are what it does to the unit vectors. -/
def DominantSystem (G : List Cell) (F : Nat → Nat → Int) (σ : Nat → Nat → Bool) (mate : Nat → Nat → Option Nat) (D : Nat → Matrix (Fin m) (Fin m) K)
    (cpl : Int → Bool → (Fin m → K) → Fin m → K) : Prop :=
  ∀ i < G.length, ∀ p, (∑ q ∈ Finset.univ.erase p, |D i p q|) + (∑ j ∈ Finset.range (nSides G i), match mate i j with
    | none => 0
    | some _ => ∑ q, |cpl (F i j) (!σ i j) (Pi.single q 1) p|) < |D i p p|

end DNDSR.Sweep
