import Verif.Model.IndexMapping

/-!
# What the index mappings have to do (C04-C06)

`lens[r]` is the number of entries rank `r` owns.  Global numbering is by blocks: rank 0's entries
first, then rank 1's, and so on.
-/

namespace DNDSR.IMap

/-- entries owned by the ranks before `r` -/
def before (lens : List Nat) (r : Nat) : Nat := (lens.take r).sum

/-- rank `r` owns global index `q` -/
def Owns (lens : List Nat) (r : Nat) (q : Int) : Prop :=
  ∃ h : r < lens.length, (before lens r : Int) ≤ q ∧ q < before lens r + lens[r]

/-- the offsets table built from `lens` -/
def Built (lens : List Nat) (g : GOM) : Prop :=
  setMPIAlignBcast (lens.map Int.ofNat) = .ok g

/-- `seg` of a CSR-stored list: entries `starts[r] .. starts[r+1]` of `l` -/
def segment {α : Type} (l : List α) (starts : List Nat) (r : Nat) : List α :=
  match starts[r]?, starts[r + 1]? with
  | some b, some e => (l.drop b).take (e - b)
  | _, _ => []

end DNDSR.IMap
