import Verif.Model.SymPlane

/-! # Nodes on symmetry planes -/

namespace DNDSR.SymP

/-- the element lies on the symmetry plane where coordinate `a` is zero -/
def OnPlane (b : Bnd) (a : Fin 3) : Prop := b.kind = .sym ∧ b.flag = some (a.val + 1)

/-- every copy has an original: it is an own node of the rank that is named -/
def Linked (Rs : List Rank) : Prop := ∀ R ∈ Rs, ∀ o ∈ R.ghosts, ∃ Q, Rs[o.1]? = some Q ∧ o.2 < Q.own

/-- where the original of a node of rank `r` is: the rank and the number there -/
def original (r : Nat) (R : Rank) (i : Nat) : Nat × Nat := if i < R.own then (r, i) else (R.ghosts[i - R.own]?).getD (r, i)

/-- the rank that owns a node of a symmetry plane has an element of this plane with the node as well -/
def Covered (Rs : List Rank) : Prop := ∀ r R, Rs[r]? = some R → ∀ b ∈ R.bnds, ∀ a, OnPlane b a → ∀ i ∈ b.nodes,
  ∃ Q b', Rs[(original r R i).1]? = some Q ∧ b' ∈ Q.bnds ∧ OnPlane b' a ∧ (original r R i).2 ∈ b'.nodes

end DNDSR.SymP
