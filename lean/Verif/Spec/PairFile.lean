import Verif.Model.PairFile
import Verif.Spec.SerArray
import Verif.Spec.IndexMapping

/-!
# What files have to keep (C98)
-/

namespace DNDSR.PSer

open DNDSR.Defines DNDSR.SerArr DNDSR.IMap
open DNDSR.Arr hiding Array

variable {α A V : Type}

/-- On every rank the distributed array `xs` shows the value in `fv` in the rows it owns, that in `sv` in its ghosts, and has the mapping
in `maps`. -/
structure Kept (shows : A → V → Prop) (xs : List ((A × A) × Option Map)) (fv sv : List V) (maps : List Map) : Prop where
  ranks : xs.length = maps.length ∧ fv.length = maps.length ∧ sv.length = maps.length
  father : ∀ (r : Nat) (x : (A × A) × Option Map) (v : V), xs[r]? = some x → fv[r]? = some v → shows x.1.1 v
  son : ∀ (r : Nat) (x : (A × A) × Option Map) (v : V), xs[r]? = some x → sv[r]? = some v → shows x.1.2 v
  map : xs.map (·.2) = maps.map some

/-- the mappings were made by `createGhostMapping` of rows to pull, for `lens[r]` rows on rank `r` -/
def Pulled (lens : List Nat) (maps : List Map) : Prop :=
  ∃ g reqs, Built lens g ∧ reqs.length = lens.length ∧ createPull g lens reqs = .ok maps

/-- an array of type `t` that a program can produce, with value `v`; a fixed width is not 0, and an array with a greatest width has
been given a size -/
def Writable (z : α) (t : STy) (a : Arr.Array α) (v : Val α) : Prop :=
  Reachable z t.ty a ∧ Represents t.ty a v ∧ (kind t = .fixed → v.width ≠ 0) ∧ (kind t = .max → a.pRowSizes ≠ none)

/-- the array shows the value -/
def Shows (t : STy) (a : Arr.Array α) (v : Val α) : Prop := Represents t.ty a v

/-- template parameters of matrices that are `int`s -/
structure MValid (M : MTy) : Prop where
  ni : -2147483648 ≤ M.ni ∧ M.ni ≤ 2147483647
  nj : -2147483648 ≤ M.nj ∧ M.nj ≤ 2147483647
  niMax : -2147483648 ≤ M.niMax ∧ M.niMax ≤ 2147483647
  njMax : -2147483648 ≤ M.njMax ∧ M.njMax ≤ 2147483647

/-- the array of matrices shows the coefficients `v.1` and has `v.2[i]` rows in matrix `i` -/
def MShows (t : STy) (M : MTy) (a : MArr α) (v : Val α × List Int) : Prop :=
  Represents t.ty a.base v.1 ∧ v.2.length = v.1.rows.length ∧ ∀ i k, v.2[i]? = some k → matRows M a i = .ok k

/-- A type of matrices can read those of another: sizes that both types fix are the same, and either the reader allows every matrix its
own number of rows, or the writer does not; a reader with a fixed number of rows reads matrices with this number. -/
structure MCompatible (W R : MTy) (rows : List Int) : Prop where
  ni : 0 ≤ W.ni → 0 ≤ R.ni → W.ni = R.ni
  nj : 0 ≤ W.nj → 0 ≤ R.nj → W.nj = R.nj
  niMax : 0 ≤ W.niMax → 0 ≤ R.niMax → W.niMax = R.niMax
  njMax : 0 ≤ W.njMax → 0 ≤ R.njMax → W.njMax = R.njMax
  uniform : W.ni = NonUniformSize → R.ni = NonUniformSize
  fixed : 0 ≤ R.ni → ∀ k ∈ rows, k = R.ni
  kindsW : 0 ≤ W.ni ∨ W.ni = DynamicSize ∨ W.ni = NonUniformSize
  kindsR : 0 ≤ R.ni ∨ R.ni = DynamicSize ∨ R.ni = NonUniformSize

/-- all the values of a mesh -/
structure MeshVal (K E : Type) where
  dim : Int
  periodic : Bool
  coords : List (Val K) × List (Val K) × List Map
  cell2node : List (Val Int) × List (Val Int) × List Map
  cell2cell : List (Val Int) × List (Val Int) × List Map
  cellInfo : List (Val E) × List (Val E) × List Map
  bnd2node : List (Val Int) × List (Val Int) × List Map
  bnd2cell : List (Val Int) × List (Val Int) × List Map
  bndInfo : List (Val E) × List (Val E) × List Map
  cell2nodePbi : List (Val Nat) × List (Val Nat) × List Map
  per : List (Per K)

/-- a distributed array of a mesh on `n` ranks that can be written -/
def Ready (z : α) (t : STy) (n : Nat) (x : Dist α) (v : List (Val α) × List (Val α) × List Map) : Prop :=
  x.length = n ∧ Kept (Writable z t) x v.1 v.2.1 v.2.2 ∧ Pulled (v.1.map fun w => w.rows.length) v.2.2

/-- a mesh that can be written -/
structure Mesh.Ready {K E : Type} [Zero K] (zE : E) (n : Nat) (m : Mesh K E) (v : MeshVal K E) : Prop where
  dim : m.dim = v.dim
  state : m.local_ = true
  periodic : m.periodic = v.periodic
  coords : PSer.Ready 0 coordT n m.coords v.coords
  cell2node : PSer.Ready 0 adjT n m.cell2node v.cell2node
  cell2cell : PSer.Ready 0 adjT n m.cell2cell v.cell2cell
  cellInfo : PSer.Ready zE infoT n m.cellInfo v.cellInfo
  bnd2node : PSer.Ready 0 adjT n m.bnd2node v.bnd2node
  bnd2cell : PSer.Ready 0 adj2T n m.bnd2cell v.bnd2cell
  bndInfo : PSer.Ready zE infoT n m.bndInfo v.bndInfo
  pbi : v.periodic = true → PSer.Ready 0 pbiT n m.cell2nodePbi v.cell2nodePbi
  per : v.periodic = true → m.per = v.per ∧ m.per.length = n

/-- a mesh that shows the values; of a mesh that is periodic also where its sides lie -/
structure Mesh.Shows {K E : Type} (m : Mesh K E) (v : MeshVal K E) : Prop where
  dim : m.dim = v.dim
  state : m.local_ = true
  periodic : m.periodic = v.periodic
  coords : Kept (PSer.Shows coordT) m.coords v.coords.1 v.coords.2.1 v.coords.2.2
  cell2node : Kept (PSer.Shows adjT) m.cell2node v.cell2node.1 v.cell2node.2.1 v.cell2node.2.2
  cell2cell : Kept (PSer.Shows adjT) m.cell2cell v.cell2cell.1 v.cell2cell.2.1 v.cell2cell.2.2
  cellInfo : Kept (PSer.Shows infoT) m.cellInfo v.cellInfo.1 v.cellInfo.2.1 v.cellInfo.2.2
  bnd2node : Kept (PSer.Shows adjT) m.bnd2node v.bnd2node.1 v.bnd2node.2.1 v.bnd2node.2.2
  bnd2cell : Kept (PSer.Shows adj2T) m.bnd2cell v.bnd2cell.1 v.bnd2cell.2.1 v.bnd2cell.2.2
  bndInfo : Kept (PSer.Shows infoT) m.bndInfo v.bndInfo.1 v.bndInfo.2.1 v.bndInfo.2.2
  pbi : v.periodic = true → Kept (PSer.Shows pbiT) m.cell2nodePbi v.cell2nodePbi.1 v.cell2nodePbi.2.1 v.cell2nodePbi.2.2
  per : v.periodic = true → m.per.length = v.per.length ∧ ∀ (r : Nat) (p q : Per K), m.per[r]? = some p → v.per[r]? = some q →
    ∀ i, 1 ≤ i → i ≤ 3 → p.rot i = q.rot i ∧ p.center i = q.center i ∧ p.trans i = q.trans i

end DNDSR.PSer
