import Verif.Model.Defines

/-!
# Specification vocabulary for the helpers of `Defines.hpp`
-/

namespace DNDSR.Defines

/-- strictly ascending -/
def StrictAsc (l : List Int) : Prop := l.Pairwise (· < ·)

instance (l : List Int) : Decidable (StrictAsc l) := by unfold StrictAsc; infer_instance

/-- The visits expected of a sorted merge: every value of the first list that occurs in the second,
in order, with its position in each list (offset by the positions already consumed). -/
def commonVisits (l1 l2 : List Int) (p1 p2 : Nat) : List (Int × Nat × Nat) :=
  l1.zipIdx.filterMap (fun ai => if ai.1 ∈ l2 then some (ai.1, p1 + ai.2, p2 + l2.idxOf ai.1) else none)

/-- run a visitor over a list of visits, stopping when it says so -/
def runVisits {σ : Type} (F : Int → Nat → Nat → σ → σ × Bool) : List (Int × Nat × Nat) → σ → σ × Bool
  | [], s => (s, false)
  | v :: vs, s => let r := F v.1 v.2.1 v.2.2 s
                  if r.2 then (r.1, true) else runVisits F vs r.1

/-- joining with a separator -/
def joinWith (d : Char) : List (List Char) → List Char
  | [] => []
  | [x] => x
  | x :: y :: r => x ++ d :: joinWith d (y :: r)

end DNDSR.Defines
