import Verif.Spec.RecIter
import Verif.Model.LimProc

/-!
# What the limiter procedures have to do (C99)
-/

namespace DNDSR.LimProc

open DNDSR.Elem DNDSR.IMap DNDSR.MeshAdj DNDSR.Faces
open DNDSR.Flux (nSides firstSide)
open DNDSR.Sweep (Mates)
open Matrix

variable {N V : Nat}

/-- The number of monomials of the degrees 1 to `p` in `dim` coordinates. -/
def modes (dim p : Nat) : Nat := (p + dim).choose dim - 1

/-- A base function of the degree `q`, by its number. -/
def Degree (dim q k : Nat) : Prop := modes dim (q - 1) ≤ k ∧ k < modes dim q

/-- Settings the procedures are meant for: base functions up to a degree of at most three, a two-way limiter there is, and no `normWBAP` in three
dimensions. -/
structure Good (c : Ctl) (N : Nat) : Prop where
  dim : c.dim = 2 ∨ c.dim = 3
  order : c.maxOrder ≤ 3
  size : N = modes c.dim c.maxOrder
  code : 0 ≤ c.biway ∧ c.biway ≤ 4
  norm : c.normWBAP = true → c.dim = 2

/-- The whole mesh: `E` gives the first side of each face, `mate i j` the cell on the other side of face `j` of cell `i`, `U` the mean values, `R` the
two matrices of each face that express polynomials of one side in the base functions of the other, `ν` its normal, `si` the smoothness of each cell. -/
structure Prob (N V : Nat) where
  per : Bool
  G : List Cell
  F : Nat → Nat → Int
  E : Int → Nat × Nat
  mate : Nat → Nat → Option Nat
  U : Nat → Fin V → ℝ
  R : Int → Matrix (Fin N) (Fin N) ℝ × Matrix (Fin N) (Fin N) ℝ
  ν : Int → Fin 3 → ℝ
  si : Nat → ℝ

namespace Prob

variable (P : Prob N V)

/-- Across face `j` of cell `i`, from the base functions of the neighbour into those of the cell. -/
def into (i j : Nat) : Matrix (Fin N) (Fin N) ℝ := if firstSide P.E P.F i j then (P.R (P.F i j)).1 else (P.R (P.F i j)).2

/-- Back. -/
def outOf (i j : Nat) : Matrix (Fin N) (Fin N) ℝ := if firstSide P.E P.F i j then (P.R (P.F i j)).2 else (P.R (P.F i j)).1

/-- Mean values on the two sides of the face between the cells `i` and `i'`. -/
def left (i j i' : Nat) : Fin V → ℝ := if firstSide P.E P.F i j then P.U i else P.U i'

def right (i j i' : Nat) : Fin V → ℝ := if firstSide P.E P.F i j then P.U i' else P.U i

/-- Cells that are to be limited. -/
def Limited (c : Ctl) (ifAll : Bool) (i : Nat) : Prop := ifAll = true ∨ c.threshold ≤ P.si i

/-- All cells around cell `i` have the polynomial that cell `i` has. -/
def Smooth (X : Nat → Matrix (Fin N) (Fin V) ℝ) (i : Nat) : Prop :=
  ∀ j < nSides P.G i, ∀ i', P.mate i j = some i' → P.into i j * X i' = X i ∧ P.outOf i j * X i = X i'

/-- Derivatives of a degree are not touched by monomials of a lower one. -/
def Triangular (c : Ctl) (i : Nat) : Prop :=
  ∀ j < nSides P.G i, ∀ q (k k' : Fin N), modes c.dim q ≤ k.1 → k'.1 < modes c.dim q → P.outOf i j k k' = 0

end Prob

/-- `FM` and `FMI` work on the variables of each base function by themselves. -/
def ByRow (E : Eig V) (T T' : (Fin V → ℝ) → (Fin V → ℝ) → (Fin 3 → ℝ) → (Fin V → ℝ) → Fin V → ℝ) : Prop :=
  ∀ l r n m B, E.fm l r n m B = (fun k => T l r n (B k)) ∧ E.fmi l r n m B = fun k => T' l r n (B k)

/-- The two-way limiters that work on single numbers. -/
def Scalar (c : Ctl) (f : ℝ → ℝ → ℝ) : Prop := (c.biway = 0 ∧ f = Lim.wbap 1) ∨ (c.biway = 1 ∧ f = Lim.minmod) ∨ (c.biway = 4 ∧ f = Lim.wbapCut 1)

/-- The new coefficient has the sign of the old one and is not larger, up to the guard of the multi-way limiter. -/
def NotSteeper (x y : ℝ) : Prop := (0 ≤ x → 0 ≤ y ∧ y ≤ x + 1 / 10 ^ 50) ∧ (x ≤ 0 → x - 1 / 10 ^ 50 ≤ y ∧ y ≤ 0)

/-- Every rank has its part of the mesh. -/
structure OnMesh (cl nl : List Nat) (gc : GOM) (ranks : List RankIn) (outs : List RankOut) (rs : List (Rk N V)) (P : Prob N V) : Prop where
  dist : Distributed P.per cl nl P.G gc ranks
  num : Numbered P.per cl nl P.G ranks outs P.F
  orient : Orient P.per cl P.G ranks outs P.F P.E
  mates : Mates P.per P.G P.F P.mate
  size : rs.length = ranks.length
  own : ∀ (r : Nat) (x : RankIn) (s : Rk N V), ranks[r]? = some x → rs[r]? = some s → s.sys.n = x.nOwn ∧ s.sys.ghosts = x.cellMap.ghostIndex
  faces : ∀ (r : Nat) (o : RankOut) (s : Rk N V), outs[r]? = some o → rs[r]? = some s → s.sys.faces = o.faces ∧ s.sys.c2f = o.c2f
  byFace : ∀ (r : Nat) (o : RankOut) (s : Rk N V) (q : Int) (v : Nat), outs[r]? = some o → rs[r]? = some s →
    LocalName (outs.map (·.nFaces)) r o.faceMap.ghostIndex q v → Global (outs.map (·.nFaces)) q →
    s.sys.norm[v]? = some (P.ν q) ∧ s.sys.sec[v]? = some (P.R q)
  bySelf : ∀ (r i : Nat) (s : Rk N V), Owns cl r i → rs[r]? = some s → s.si[((i : Int) - before cl r).toNat]? = some (P.si i)
  means : ∀ (r : Nat) (x : RankIn) (s : Rk N V) (i l : Nat), ranks[r]? = some x → rs[r]? = some s →
    LocalName cl r x.cellMap.ghostIndex i l → s.u[l]? = some (P.U i)
  lens : ∀ (r : Nat) (x : RankIn) (s : Rk N V), ranks[r]? = some x → rs[r]? = some s → s.x.length = x.cells.length ∧ s.y.length = x.cells.length

/-- A vector of the ranks is `X`, on own and on ghost cells. -/
def Has (cl : List Nat) (ranks : List RankIn) (rs : List (Rk N V)) (vec : Rk N V → List (Matrix (Fin N) (Fin V) ℝ))
    (X : Nat → Matrix (Fin N) (Fin V) ℝ) : Prop :=
  ∀ (r : Nat) (x : RankIn) (s : Rk N V) (i l : Nat), ranks[r]? = some x → rs[r]? = some s →
    LocalName cl r x.cellMap.ghostIndex i l → (vec s)[l]? = some (X i)

/-- A vector of the ranks is `X` on own cells. -/
def HasOwn (cl : List Nat) (rs : List (Rk N V)) (vec : Rk N V → List (Matrix (Fin N) (Fin V) ℝ)) (X : Nat → Matrix (Fin N) (Fin V) ℝ) : Prop :=
  ∀ (r : Nat) (s : Rk N V) (i : Nat), rs[r]? = some s → Owns cl r i → (vec s)[((i : Int) - before cl r).toNat]? = some (X i)

/-- `limiter` turns the coefficients `X` into `Y` on the mesh `P`, on every number of ranks and whatever the distribution: it returns on all ranks,
own and ghost entries of `uRecNew` are those of `Y`, and `uRec` is `Y` too or, with `putIntoNew`, still `X`. -/
def Gives (limiter : GOM → Bool → List (Rk N V) → Res (List (Rk N V))) (P : Prob N V) (X Y : Nat → Matrix (Fin N) (Fin V) ℝ) : Prop :=
  ∀ (cl nl : List Nat) (gc : GOM) (ranks : List RankIn) (outs : List RankOut) (rs : List (Rk N V)) (putIntoNew : Bool),
    OnMesh cl nl gc ranks outs rs P → Has cl ranks rs (·.x) X →
    ∃ rs', limiter gc putIntoNew rs = .ok rs' ∧ OnMesh cl nl gc ranks outs rs' P ∧ Has cl ranks rs' (·.y) Y ∧
      Has cl ranks rs' (·.x) (if putIntoNew then X else Y)

end DNDSR.LimProc
