import Mathlib.Algebra.Order.Group.Unbundled.Int
import Verif.Model.RCM

/-!
# Graphs, reachability and permutations
-/

namespace DNDSR.RCM

/-- `i` is a vertex. -/
def Vertex (g : Graph) (i : Int) : Prop := 0 ≤ i ∧ i < g.length

/-- The neighbours listed for `i`. -/
def nbr (g : Graph) (i : Int) : List Int := if 0 ≤ i then g.getD i.toNat [] else []

/-- A symmetric graph: what is listed for a vertex, other than the vertex itself, is listed once, is a vertex and
lists the first one in turn. It need not be connected, and a vertex may list itself. -/
structure Symmetric (g : Graph) : Prop where
  once : ∀ i, Vertex g i → ((nbr g i).filter fun j => decide (i ≠ j)).Nodup
  back : ∀ i, Vertex g i → ∀ j ∈ nbr g i, i ≠ j → Vertex g j ∧ i ∈ nbr g j

/-- There is a path from `u` to `v`. -/
inductive Reach (g : Graph) (u : Int) : Int → Prop
  | refl : Reach g u u
  | step {v w : Int} : Reach g u v → w ∈ nbr g v → Reach g u w

/-- There is a path of `n` edges from `u` to `v`. -/
inductive Walk (g : Graph) (u : Int) : Int → Nat → Prop
  | refl : Walk g u u 0
  | step {v w : Int} {n : Nat} : Walk g u v n → w ∈ nbr g v → Walk g u w (n + 1)

/-- `d` is the distance from `u` to `v`: the least number of edges of a path, `-1` if there is none. -/
def Distance (g : Graph) (u v d : Int) : Prop :=
  (d = -1 ∧ ¬ Reach g u v) ∨ ((∃ n : Nat, d = n ∧ Walk g u v n) ∧ ∀ n, Walk g u v n → d ≤ n)

/-- Entry `i` of a list of numbers; `-1` if there is none. -/
def entry (l : List Int) (i : Int) : Int := if 0 ≤ i then l.getD i.toNat (-1) else -1

/-- Two lists of `n` entries that are mutually inverse permutations of `0, …, n - 1`. -/
def Inverse (n : Nat) (p q : List Int) : Prop :=
  p.length = n ∧ q.length = n ∧
  ∀ i : Int, 0 ≤ i → i < n → (0 ≤ entry p i ∧ entry p i < n ∧ entry q (entry p i) = i) ∧
    (0 ≤ entry q i ∧ entry q i < n ∧ entry p (entry q i) = i)

/-- `b` is the largest distance of the numbers of two neighbours, 0 without any. -/
def BandWidth (g : Graph) (num : Int → Int) (b : Int) : Prop :=
  (∀ i, Vertex g i → ∀ j ∈ nbr g i, |num i - num j| ≤ b) ∧
  (b = 0 ∨ ∃ i, Vertex g i ∧ ∃ j ∈ nbr g i, b = |num i - num j|)

end DNDSR.RCM
