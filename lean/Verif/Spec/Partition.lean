import Verif.Model.Partition
import Verif.Spec.Transformer

/-!
# What redistribution has to do (C23)

`parts[r][i]` is the target rank of the `i`-th entity of rank `r`.
-/

namespace DNDSR.Part

open DNDSR.Arr hiding Array
open DNDSR.IMap DNDSR.Tran

/-- every target is one of the `n` ranks -/
def ValidParts (n : Nat) (parts : List (List Int)) : Prop := ∀ p ∈ parts, ∀ x ∈ p, 0 ≤ x ∧ x < n

/-- entry `(r, i)` of a distributed list -/
def At {β : Type} (l : List (List β)) (r i : Nat) (x : β) : Prop := ∃ row, l[r]? = some row ∧ row[i]? = some x

/-- two distributed lists of the same shape -/
def SameShape2 {β γ : Type} (a : List (List β)) (b : List (List γ)) : Prop :=
  a.map List.length = b.map List.length

/-- how many entities every rank receives -/
def newLens (n : Nat) (parts : List (List Int)) : List Nat :=
  (List.range n).map (fun t => (parts.map (fun p => p.count (t : Int))).sum)

/-- first by target rank, then by source rank, then by source position -/
def Earlier (a b : Int × Nat × Nat) : Prop :=
  a.1 < b.1 ∨ (a.1 = b.1 ∧ (a.2.1 < b.2.1 ∨ (a.2.1 = b.2.1 ∧ a.2.2 < b.2.2)))

/-- a row of an adjacency and what it has to become: entry by entry under `f` up to the first unset entry, unchanged
from there on -/
inductive RowMapped (f : Int → Int → Prop) : List Int → List Int → Prop where
  | nil : RowMapped f [] []
  | stop (vs : List Int) : RowMapped f (unInit :: vs) (unInit :: vs)
  | step {v v' : Int} {vs vs' : List Int} : v ≠ unInit → f v v' → RowMapped f vs vs' → RowMapped f (v :: vs) (v' :: vs')

end DNDSR.Part
