import Verif.Model.Basic

/-!
# Element tables (`src/Geom/Elements.hpp:22-650`, `src/Geom/Elements.cpp:6-71`)

The tables are transcribed entry by entry.  `std::array` initialisers shorter than the array fill it with
zeros; entries never assigned keep `invalid_index`.
-/

namespace DNDSR.Elem

/-- `enum ElemType`, `src/Geom/Elements.hpp:22-42` -/
inductive ElemType where
  | unknown | line2 | tri3 | quad4 | tet4 | hex8 | prism6 | pyramid5
  | line3 | tri6 | quad9 | tet10 | hex27 | prism18 | pyramid14
  deriving DecidableEq, Repr

/-- `enum ParamSpace`, `src/Geom/Elements.hpp:44-58` -/
inductive ParamSpace where
  | unknown | line | tri | quad | tet | hex | prism | pyramid
  deriving DecidableEq, Repr

/-- `invalid_index`, `src/Geom/Geometric.hpp:7` -/
def invalid : Int := 2147483647

/-- `Dim_Order_NVNNNF`, `src/Geom/Elements.hpp:60-91`: dimension, order, vertices, nodes, faces.  The row of
`UnknownElem` is `invalid_index` throughout. -/
def dimOrder : ElemType → Int × Int × Int × Int × Int
  | .unknown => (invalid, invalid, invalid, invalid, invalid)
  | .line2 => (1, 1, 2, 2, 0)
  | .line3 => (1, 2, 2, 3, 0)
  | .tri3 => (2, 1, 3, 3, 3)
  | .tri6 => (2, 2, 3, 6, 3)
  | .quad4 => (2, 1, 4, 4, 4)
  | .quad9 => (2, 2, 4, 9, 4)
  | .tet4 => (3, 1, 4, 4, 4)
  | .tet10 => (3, 2, 4, 10, 4)
  | .hex8 => (3, 1, 8, 8, 6)
  | .hex27 => (3, 2, 8, 27, 6)
  | .prism6 => (3, 1, 6, 6, 5)
  | .prism18 => (3, 2, 6, 18, 5)
  | .pyramid5 => (3, 1, 5, 5, 5)
  | .pyramid14 => (3, 2, 5, 14, 5)

/-- `GetDim`, `src/Geom/Elements.hpp:2195-2198` -/
def dim (t : ElemType) : Int := (dimOrder t).1
/-- `GetOrder`, `src/Geom/Elements.hpp:2200-2203` -/
def order (t : ElemType) : Int := (dimOrder t).2.1
/-- `GetNumVertices`, `src/Geom/Elements.hpp:2205-2208` -/
def numVertices (t : ElemType) : Int := (dimOrder t).2.2.1
/-- `GetNumNodes`, `src/Geom/Elements.hpp:2210-2213` -/
def numNodes (t : ElemType) : Int := (dimOrder t).2.2.2.1
/-- `GetNumFaces`, `src/Geom/Elements.hpp:2215-2218` -/
def numFaces (t : ElemType) : Int := (dimOrder t).2.2.2.2

/-- Models `ElemType_to_ParamSpace`, `src/Geom/Elements.hpp:93-110`. -/
def paramSpace : ElemType → ParamSpace
  | .line2 | .line3 => .line
  | .tri3 | .tri6 => .tri
  | .quad4 | .quad9 => .quad
  | .tet4 | .tet10 => .tet
  | .hex8 | .hex27 => .hex
  | .prism6 | .prism18 => .prism
  | .pyramid5 | .pyramid14 => .pyramid
  | .unknown => .unknown

/-- Models `GetFaceType`, `src/Geom/Elements.hpp:112-156`. -/
def faceType (t : ElemType) (iFace : Int) : ElemType :=
  match t with
  | .tri3 => .line2
  | .tri6 => .line3
  | .quad4 => .line2
  | .quad9 => .line3
  | .tet4 => .tri3
  | .tet10 => .tri6
  | .hex8 => .quad4
  | .hex27 => .quad9
  | .prism6 => if iFace < 3 then .quad4 else .tri3
  | .prism18 => if iFace < 3 then .quad9 else .tri6
  | .pyramid5 => if iFace < 1 then .quad4 else .tri3
  | .pyramid14 => if iFace < 1 then .quad9 else .tri6
  | _ => .unknown

/-- an initialiser list for a `std::array` of `n` entries -/
def fill (n : Nat) (l : List Int) : List Int := l ++ List.replicate (n - l.length) 0

/-- a row that was never assigned -/
def invalidRow (n : Nat) : List Int := List.replicate n invalid

/-- the lambda `IndexToZeroBase`, e.g. `src/Geom/Elements.hpp:184-191` -/
def toZeroBase (rows : List (List Int)) : List (List Int) :=
  rows.map (fun r => r.map (fun k => if k = invalid ∨ k = 0 then invalid else k - 1))

/-- a table of `m` rows of `n` entries with the first rows assigned -/
def table (m n : Nat) (rows : List (List Int)) : List (List Int) :=
  rows.map (fill n) ++ List.replicate (m - rows.length) (invalidRow n)

/-- `FaceNodeList`, `src/Geom/Elements.hpp:158-252` -/
def faceNodeList : ElemType → List (List Int)
  | .tri3 => table 6 10 [[0, 1], [1, 2], [2, 0]]
  | .tri6 => table 6 10 [[0, 1, 3], [1, 2, 4], [2, 0, 5]]
  | .quad4 => table 6 10 [[0, 1], [1, 2], [2, 3], [3, 0]]
  | .quad9 => table 6 10 [[0, 1, 4], [1, 2, 5], [2, 3, 6], [3, 0, 7]]
  | .tet4 => toZeroBase (table 6 10 [[1, 3, 2], [1, 2, 4], [2, 3, 4], [3, 1, 4]])
  | .tet10 => toZeroBase (table 6 10 [[1, 3, 2, 7, 6, 5], [1, 2, 4, 5, 9, 8], [2, 3, 4, 6, 10, 9], [3, 1, 4, 7, 8, 10]])
  | .hex8 => toZeroBase (table 6 10 [[1, 4, 3, 2], [1, 2, 6, 5], [2, 3, 7, 6], [3, 4, 8, 7], [1, 5, 8, 4], [5, 6, 7, 8]])
  | .hex27 => toZeroBase (table 6 10 [[1, 4, 3, 2, 12, 11, 10, 9, 21],
      [1, 2, 6, 5, 9, 14, 17, 13, 22],
      [2, 3, 7, 6, 10, 15, 18, 14, 23],
      [3, 4, 8, 7, 11, 16, 19, 15, 24],
      [1, 5, 8, 4, 13, 20, 16, 12, 25],
      [5, 6, 7, 8, 17, 18, 19, 20, 26]])
  | .prism6 => toZeroBase (table 6 10 [[1, 2, 5, 4], [2, 3, 6, 5], [3, 1, 4, 6], [1, 3, 2], [4, 5, 6]])
  | .prism18 => toZeroBase (table 6 10 [[1, 2, 5, 4, 7, 11, 13, 10, 16],
      [2, 3, 6, 5, 8, 12, 14, 11, 17],
      [3, 1, 4, 6, 9, 10, 15, 12, 18],
      [1, 3, 2, 9, 8, 7],
      [4, 5, 6, 13, 14, 15]])
  | .pyramid5 => toZeroBase (table 6 10 [[1, 4, 3, 2], [1, 2, 5], [2, 3, 5], [3, 4, 5], [4, 1, 5]])
  | .pyramid14 => toZeroBase (table 6 10 [[1, 4, 3, 2, 9, 8, 7, 6, 14],
      [1, 2, 5, 6, 11, 10],
      [2, 3, 5, 7, 12, 11],
      [3, 4, 5, 8, 13, 12],
      [4, 1, 5, 9, 10, 13]])
  | _ => table 6 10 []

/-- `ElemElevationSpan_O1O2List`, `src/Geom/Elements.hpp:254-340` -/
def elevationSpan : ElemType → List (List Int)
  | .line2 => table 28 28 [[0, 1]]
  | .tri3 => table 28 28 [[0, 1], [1, 2], [2, 0]]
  | .quad4 => table 28 28 [[0, 1], [1, 2], [2, 3], [3, 0], [0, 1, 2, 3]]
  | .tet4 => toZeroBase (table 28 28 [[1, 2], [2, 3], [3, 1], [1, 4], [2, 4], [3, 4]])
  | .hex8 => toZeroBase (table 28 28 [[1, 2],
      [2, 3],
      [3, 4],
      [4, 1],
      [1, 5],
      [2, 6],
      [3, 7],
      [4, 8],
      [5, 6],
      [6, 7],
      [7, 8],
      [8, 5],
      [1, 4, 3, 2],
      [1, 2, 6, 5],
      [2, 3, 7, 6],
      [3, 4, 8, 7],
      [1, 5, 8, 4],
      [5, 6, 7, 8],
      [1, 2, 3, 4, 5, 6, 7, 8]])
  | .prism6 => toZeroBase (table 28 28 [[1, 2],
      [2, 3],
      [3, 1],
      [1, 4],
      [2, 5],
      [3, 6],
      [4, 5],
      [5, 6],
      [6, 4],
      [1, 2, 5, 4],
      [2, 3, 6, 5],
      [3, 1, 4, 6]])
  | .pyramid5 => toZeroBase (table 28 28 [[1, 2], [2, 3], [3, 4], [4, 1], [1, 5], [2, 5], [3, 5], [4, 5], [1, 4, 3, 2]])
  | _ => table 28 28 []

/-- `ElemO2BisectElementList`, `src/Geom/Elements.hpp:342-448` -/
def bisectList : ElemType → List (List Int)
  | .line3 => table 28 28 [[0, 2], [2, 1]]
  | .tri6 => toZeroBase (table 28 28 [[1, 4, 6], [4, 2, 5], [6, 4, 5], [6, 5, 3]])
  | .quad9 => toZeroBase (table 28 28 [[1, 5, 9, 8], [5, 2, 6, 9], [8, 9, 7, 4], [9, 6, 3, 7]])
  | .tet10 => toZeroBase (table 28 28 [[1, 5, 7, 8],
      [5, 2, 6, 9],
      [7, 6, 3, 10],
      [10, 8, 9, 4],
      [5, 10, 7, 8],
      [5, 9, 10, 8],
      [5, 10, 9, 6],
      [5, 7, 10, 6],
      [1, 5, 7, 8],
      [5, 2, 6, 9],
      [7, 6, 3, 10],
      [10, 8, 9, 4],
      [6, 7, 8, 10],
      [6, 8, 9, 10],
      [6, 9, 8, 5],
      [6, 8, 7, 5],
      [1, 5, 7, 8],
      [5, 2, 6, 9],
      [7, 6, 3, 10],
      [10, 8, 9, 4],
      [7, 8, 9, 10],
      [7, 9, 6, 10],
      [7, 9, 8, 5],
      [7, 6, 9, 5]])
  | .hex27 => toZeroBase (table 28 28 [[1, 9, 21, 12, 13, 22, 27, 25],
      [9, 2, 10, 21, 22, 14, 23, 27],
      [12, 21, 11, 4, 25, 27, 24, 16],
      [21, 10, 3, 11, 27, 23, 15, 24],
      [13, 22, 27, 25, 5, 17, 26, 20],
      [22, 14, 23, 27, 17, 6, 18, 26],
      [25, 27, 24, 16, 20, 26, 19, 8],
      [27, 23, 15, 24, 26, 18, 7, 19]])
  | .prism18 => toZeroBase (table 28 28 [[1, 7, 9, 10, 16, 18],
      [7, 2, 8, 16, 11, 17],
      [9, 7, 8, 18, 16, 17],
      [9, 8, 3, 18, 17, 12],
      [10, 16, 18, 4, 13, 15],
      [16, 11, 17, 13, 5, 14],
      [18, 16, 17, 15, 13, 14],
      [18, 17, 12, 15, 14, 6]])
  | .pyramid14 => toZeroBase (table 28 28 [[1, 6, 14, 9, 10],
      [6, 2, 7, 14, 11],
      [9, 14, 8, 4, 13],
      [14, 7, 3, 8, 12],
      [13, 10, 9, 14],
      [10, 11, 6, 14],
      [11, 12, 7, 14],
      [12, 13, 8, 14],
      [10, 12, 13, 5],
      [10, 11, 12, 5],
      [10, 12, 11, 14],
      [10, 13, 12, 14],
      [1, 6, 14, 9, 10],
      [6, 2, 7, 14, 11],
      [9, 14, 8, 4, 13],
      [14, 7, 3, 8, 12],
      [13, 10, 9, 14],
      [10, 11, 6, 14],
      [11, 12, 7, 14],
      [12, 13, 8, 14],
      [11, 13, 10, 5],
      [11, 12, 13, 5],
      [11, 13, 12, 14],
      [11, 10, 13, 14]])
  | _ => table 28 28 []

/-- Models `GetElemElevation_O1O2_NumNode`, `src/Geom/Elements.hpp:470-492`. -/
def numElev : ElemType → Int
  | .line2 => 1
  | .tri3 => 3
  | .quad4 => 5
  | .tet4 => 6
  | .hex8 => 19
  | .prism6 => 12
  | .pyramid5 => 9
  | _ => -1

/-- Models `GetElemElevation_O1O2_NodeSpanType`, `src/Geom/Elements.hpp:494-530`. -/
def elevSpanType (t : ElemType) (ine : Int) : ElemType :=
  match t with
  | .line2 => .line2
  | .tri3 => .line2
  | .quad4 => if ine < 4 then .line2 else .quad4
  | .tet4 => .line2
  | .hex8 => if ine < 12 then .line2 else if ine < 18 then .quad4 else .hex8
  | .prism6 => if ine < 9 then .line2 else .quad4
  | .pyramid5 => if ine < 8 then .line2 else .quad4
  | _ => .unknown

/-- Models `GetElemElevation_O1O2_ElevatedType`, `src/Geom/Elements.hpp:532-554`. -/
def elevatedType : ElemType → ElemType
  | .line2 => .line3
  | .tri3 => .tri6
  | .quad4 => .quad9
  | .tet4 => .tet10
  | .hex8 => .hex27
  | .prism6 => .prism18
  | .pyramid5 => .pyramid14
  | _ => .unknown

/-- Models `GetElemO1`, `src/Geom/Elements.hpp:556-573`. -/
def elemO1 : ParamSpace → ElemType
  | .line => .line2
  | .tri => .tri3
  | .quad => .quad4
  | .tet => .tet4
  | .hex => .hex8
  | .prism => .prism6
  | .pyramid => .pyramid5
  | .unknown => .unknown

/-- Models `GetO2ElemBisectNum`, `src/Geom/Elements.hpp:575-586`. -/
def bisectNum : ElemType → Int
  | .line3 => 2
  | .tri6 | .quad9 => 4
  | .tet10 | .hex27 | .prism18 => 8
  | .pyramid14 => 12
  | _ => 0

/-- Models `GetO2ElemBisectElem`, `src/Geom/Elements.hpp:588-610`. -/
def bisectElem (t : ElemType) (i : Int) : ElemType :=
  match t with
  | .line3 => .line2
  | .tri6 => .tri3
  | .quad9 => .quad4
  | .tet10 => .tet4
  | .hex27 => .hex8
  | .prism18 => .prism6
  | .pyramid14 => if i < 4 then .pyramid5 else .tet4
  | _ => .unknown

/-- entry `i` of a row, as a subscript of a node list; outside of the row or of the node list is undefined
behaviour -/
def pick {α : Type} (nodes : List α) (row : List Int) (i : Nat) : Res α :=
  match row[i]? with
  | some k => if 0 ≤ k then (match nodes[k.toNat]? with | some a => .ok a | none => .ub) else .ub
  | none => .ub

/-- the loop `for (i = 0; i < n; i++) out[i] = nodes[row[i]]` -/
def pickAll {α : Type} (nodes : List α) (row : List Int) (n : Nat) : Res (List α) :=
  (List.range n).mapM (pick nodes row)

/-- row `i` of a table; outside is undefined behaviour -/
def row (tab : List (List Int)) (i : Int) : Res (List Int) :=
  if 0 ≤ i then (match tab[i.toNat]? with | some r => .ok r | none => .ub) else .ub

/-- Models `ExtractFaceNodes`, `src/Geom/Elements.hpp:2239-2245`. -/
def extractFaceNodes {α : Type} (t : ElemType) (iFace : Int) (nodes : List α) : Res (List α) := do
  Res.assert (iFace < numFaces t)
  let r ← row (faceNodeList t) iFace
  pickAll nodes r (numNodes (faceType t iFace)).toNat

/-- Models `ExtractElevNodeSpanNodes`, `src/Geom/Elements.hpp:2269-2275`. -/
def extractElevSpan {α : Type} (t : ElemType) (i : Int) (nodes : List α) : Res (List α) := do
  Res.assert (i < numElev t)
  let r ← row (elevationSpan t) i
  pickAll nodes r (numNodes (elevSpanType t i)).toNat

/-- number of variants accepted by `ExtractO2BisectElemNodes`, `src/Geom/Elements.hpp:2281-2286` -/
def bisectVariants : ElemType → Int
  | .pyramid14 => 2
  | .tet10 => 3
  | _ => 1

/-- Models `ExtractO2BisectElemNodes`, `src/Geom/Elements.hpp:2277-2289`. -/
def extractBisect {α : Type} (t : ElemType) (iSub iVariant : Int) (nodes : List α) : Res (List α) := do
  Res.assert (iSub < bisectNum t)
  Res.assert (0 ≤ iVariant ∧ iVariant < bisectVariants t)
  let r ← row (bisectList t) (iSub + bisectNum t * iVariant)
  pickAll nodes r (numNodes (bisectElem t iSub)).toNat

/-- `GetStandardCoord`, `src/Geom/Elements.cpp:6-71`: parametric coordinates of the nodes.  The values are multiples
of one half; they are given doubled. -/
def stdCoord2 : ElemType → List (Int × Int × Int)
  | .unknown => []
  | .line2 => [(-2, 0, 0), (2, 0, 0)]
  | .line3 => [(-2, 0, 0), (2, 0, 0), (0, 0, 0)]
  | .tri3 => [(0, 0, 0), (2, 0, 0), (0, 2, 0)]
  | .tri6 => [(0, 0, 0), (2, 0, 0), (0, 2, 0), (1, 0, 0), (1, 1, 0), (0, 1, 0)]
  | .quad4 => [(-2, -2, 0), (2, -2, 0), (2, 2, 0), (-2, 2, 0)]
  | .quad9 => [(-2, -2, 0), (2, -2, 0), (2, 2, 0), (-2, 2, 0), (0, -2, 0), (2, 0, 0), (0, 2, 0), (-2, 0, 0), (0, 0, 0)]
  | .tet4 => [(0, 0, 0), (2, 0, 0), (0, 2, 0), (0, 0, 2)]
  | .tet10 => [(0, 0, 0), (2, 0, 0), (0, 2, 0), (0, 0, 2), (1, 0, 0), (1, 1, 0), (0, 1, 0), (0, 0, 1), (1, 0, 1),
      (0, 1, 1)]
  | .hex8 => [(-2, -2, -2), (2, -2, -2), (2, 2, -2), (-2, 2, -2), (-2, -2, 2), (2, -2, 2), (2, 2, 2), (-2, 2, 2)]
  | .hex27 => [(-2, -2, -2), (2, -2, -2), (2, 2, -2), (-2, 2, -2), (-2, -2, 2), (2, -2, 2), (2, 2, 2), (-2, 2, 2), (0, -2, -2),
      (2, 0, -2), (0, 2, -2), (-2, 0, -2), (-2, -2, 0), (2, -2, 0), (2, 2, 0), (-2, 2, 0), (0, -2, 2), (2, 0, 2),
      (0, 2, 2), (-2, 0, 2), (0, 0, -2), (0, -2, 0), (2, 0, 0), (0, 2, 0), (-2, 0, 0), (0, 0, 2), (0, 0, 0)]
  | .prism6 => [(0, 0, -2), (2, 0, -2), (0, 2, -2), (0, 0, 2), (2, 0, 2), (0, 2, 2)]
  | .prism18 => [(0, 0, -2), (2, 0, -2), (0, 2, -2), (0, 0, 2), (2, 0, 2), (0, 2, 2), (1, 0, -2), (1, 1, -2), (0, 1, -2),
      (0, 0, 0), (2, 0, 0), (0, 2, 0), (1, 0, 2), (1, 1, 2), (0, 1, 2), (1, 0, 0), (1, 1, 0), (0, 1, 0)]
  | .pyramid5 => [(-2, -2, 0), (2, -2, 0), (2, 2, 0), (-2, 2, 0), (0, 0, 2)]
  | .pyramid14 => [(-2, -2, 0), (2, -2, 0), (2, 2, 0), (-2, 2, 0), (0, 0, 2), (0, -2, 0), (2, 0, 0), (0, 2, 0), (-2, 0, 0),
      (-1, -1, 1), (1, -1, 1), (1, 1, 1), (-1, 1, 1), (0, 0, 0)]

/-! ### mesh queries (`src/Geom/Mesh.cpp:431-485`) -/

/-- the types accepted by `IsO1`, `src/Geom/Mesh.cpp:438-445` -/
def okO1 (t : ElemType) : Bool :=
  t = .line2 || t = .tri3 || t = .quad4 || t = .tet4 || t = .hex8 || t = .prism6 || t = .pyramid5

/-- the types accepted by `IsO2`, `src/Geom/Mesh.cpp:466-473` -/
def okO2 (t : ElemType) : Bool :=
  t = .line3 || t = .tri6 || t = .quad9 || t = .tet10 || t = .hex27 || t = .prism18 || t = .pyramid14

/-- the loop setting `hasBad` -/
def hasBad (ok : ElemType → Bool) : List ElemType → Nat
  | [] => 0
  | t :: ts => if ok t then hasBad ok ts else 1

/-- Models `IsO1` on every rank (`ranks[r]`: the cell types of rank `r`, ghosts included), `src/Geom/Mesh.cpp:431-457`:
the sum over the ranks is computed, but each rank returns whether its own flag is zero. -/
def isO1 (ranks : List (List ElemType)) : List Bool :=
  let local_ := ranks.map (hasBad okO1)
  let _all := local_.sum
  local_.map (fun b => b == 0)

/-- Models `IsO2`, `src/Geom/Mesh.cpp:459-485`. -/
def isO2 (ranks : List (List ElemType)) : List Bool :=
  let local_ := ranks.map (hasBad okO2)
  let _all := local_.sum
  local_.map (fun b => b == 0)

end DNDSR.Elem
