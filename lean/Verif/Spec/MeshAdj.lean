import Verif.Spec.IndexMapping
import Verif.Model.MeshAdj

/-!
# What converting adjacencies between global and local numbers has to do (C24)

A rank names entries in two ways.  Globally, by the block numbering of all ranks (`lens[r]` entries on rank
`r`).  Locally, its own entries come first and the entries it keeps copies of (its ghosts) follow, in the
order of the ghost list.  An entry it has no copy of is named locally by the negative number `-1 - global`.
The mark "no entry" is `unInit`, the smallest 64-bit number.
-/

namespace DNDSR.MeshAdj

open DNDSR.IMap DNDSR.Part

/-- `v` is the local name on rank `r` of global entry `q`, the ghost list being `ghosts` -/
def LocalName (lens : List Nat) (r : Nat) (ghosts : List Int) (q v : Int) : Prop :=
  (Owns lens r q ∧ v = q - before lens r) ∨
  (¬ Owns lens r q ∧ ∃ k : Nat, ghosts[k]? = some q ∧ ∃ n, lens[r]? = some n ∧ v = n + k) ∨
  (¬ Owns lens r q ∧ q ∉ ghosts ∧ v = -1 - q)

/-- `q` is a global number of an entry -/
def Global (lens : List Nat) (q : Int) : Prop := 0 ≤ q ∧ q < lens.sum

/-- the mapping `m` of rank `r` was built collectively: either each rank asked for entries (cells and nodes), or
each rank chose entries to send, listing those for one destination in ascending order (faces) -/
inductive Collective (lens : List Nat) (r : Nat) (m : Map) : Prop where
  | pull (g : GOM) (reqs : List (List Int)) (maps : List Map) (hg : Built lens g)
      (hn : reqs.length = lens.length) (h : createPull g lens reqs = .ok maps) (hm : maps[r]? = some m)
  | push (g : GOM) (lists : List (List Int × List Nat)) (maps : List Map) (hg : Built lens g)
      (hn : lists.length = lens.length) (hz : ∀ p ∈ lists, p.2[0]? = some 0)
      (hv : ∀ (s : Nat) (p : List Int × List Nat), lists[s]? = some p → ∀ l ∈ p.1,
        0 ≤ l ∧ ∃ n, lens[s]? = some n ∧ l < n)
      (ha : ∀ p ∈ lists, ∀ s, (segment p.1 p.2 s).Pairwise (· < ·))
      (h : createPush g lens lists = .ok maps) (hm : maps[r]? = some m)

/-- global numbers fit 64-bit signed integers -/
def Fits (lens : List Nat) : Prop := (lens.sum : Int) ≤ 9223372036854775807

/-- `f` is applied to corresponding entries of rows of equal shape -/
def RowsRel (R : Int → Int → Prop) (a b : List (List Int)) : Prop :=
  a.length = b.length ∧ ∀ (i : Nat) (x y : List Int), a[i]? = some x → b[i]? = some y →
    x.length = y.length ∧ ∀ (j : Nat) (u v : Int), x[j]? = some u → y[j]? = some v → R u v

/-- every entry of the rows -/
def EachEntry (P : Int → Prop) (rows : List (List Int)) : Prop := ∀ row ∈ rows, ∀ x ∈ row, P x

end DNDSR.MeshAdj
