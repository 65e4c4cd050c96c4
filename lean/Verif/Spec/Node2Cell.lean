import Verif.Model.Node2Cell
import Verif.Spec.Partition

/-!
# What inverting cell-to-node has to do (C25)

Cells and nodes are numbered globally by blocks: those of rank 0 first, then those of rank 1, and so on.
-/

namespace DNDSR.N2C

open DNDSR.IMap DNDSR.Part

/-- The cell with global number `c` refers to node `q`: `c` is the `k`-th cell of some rank `s`, and `q` is in its
row. -/
def Refers (cells : List (List (List Int))) (c q : Int) : Prop :=
  ∃ (s k : Nat) (row : List Int), At cells s k row ∧ c = (before (cells.map List.length) s : Int) + k ∧ q ∈ row

/-- number of entries of all rows of all ranks -/
def entries (cells : List (List (List Int))) : Nat := (cells.map (fun rows => (rows.map List.length).sum)).sum

/-- the iteration orders visit every element once -/
structure Fair (h : Hash) : Prop where
  set : ∀ s, (h.set s).Perm s
  map : ∀ m, (h.map m).Perm m

end DNDSR.N2C
