import Mathlib.Data.List.Dedup
import Verif.Model.Basic

/-!
# Reverse Cuthill-McKee ordering

Models `src/Geom/CorrectRCM.hpp` and `ReorderSerialAdj_CorrectRCM` of `src/Geom/SerialAdjReordering.hpp`.
An exception and a failed assertion are both `abort`. Integers are unbounded, except for the one conversion to `int`
(`toInt32`). Messages to the optional stream are not modelled.
-/

namespace DNDSR.RCM

/-- The rows of neighbours, `tLocalMatStruct`. -/
abbrev Graph := List (List Int)

/-- `std::vector::at` with a signed index: out of range throws. -/
def atI {α : Type} (l : List α) (i : Int) : Res α :=
  if 0 ≤ i then
    match l[i.toNat]? with
    | some v => .ok v
    | none => .abort
  else .abort

/-- Assignment through `std::vector::at`. -/
def setI {α : Type} (l : List α) (i : Int) (v : α) : Res (List α) :=
  if 0 ≤ i ∧ i.toNat < l.length then .ok (l.set i.toNat v) else .abort

/-- `operator[]` of a vector: out of range is undefined. -/
def idxI {α : Type} (l : List α) (i : Int) : Res α :=
  if 0 ≤ i then
    match l[i.toNat]? with
    | some v => .ok v
    | none => .ub
  else .ub

/-- The directed edges of row `i`, without those that join a vertex to itself, `src/Geom/CorrectRCM.hpp:53-64`. -/
def rowEdges (i : Nat) (row : List Int) : List (Int × Int) :=
  (row.filter fun j => decide ((i : Int) ≠ j)).map fun j => ((i : Int), j)

/-- `edgesDirected`, `src/Geom/CorrectRCM.hpp:49-64`. -/
def directedEdges (g : Graph) : List (Int × Int) := (g.zipIdx.map fun x => rowEdges x.2 x.1).flatten

/-- `edges`: the same with the smaller end first, `src/Geom/CorrectRCM.hpp:60-61`. -/
def sortedEdges (g : Graph) : List (Int × Int) := (directedEdges g).map fun e => (min e.2 e.1, max e.2 e.1)

/-- Models `CheckAdj` with its default arguments, `src/Geom/CorrectRCM.hpp:47-74`. -/
def checkAdj (g : Graph) : Res Unit :=
  if (directedEdges g).all fun e => decide ((directedEdges g).count e = 1) then
    if (sortedEdges g).all fun e => decide ((sortedEdges g).count e = 2) then .ok () else .abort
  else .abort

/-- The loop over the neighbours of a vertex, `src/Geom/CorrectRCM.hpp:114-118`: `layer` and `nextLayerQueue`. -/
def scan (iLayer : Int) : List Int → List Int × List Int → Res (List Int × List Int)
  | [], st => .ok st
  | j :: js, (layer, next) => do
    let v ← atI layer j
    if v = -1 then
      let layer ← setI layer j (iLayer + 1)
      scan iLayer js (layer, next ++ [j])
    else scan iLayer js (layer, next)

/-- Insertion behind the elements that are not after `x`. -/
def insertAt (comp : Int → Int → Res Bool) (x : Int) : List Int → Res (List Int)
  | [] => .ok [x]
  | y :: ys => do
    let b ← comp x y
    if b then .ok (x :: y :: ys) else do
      let r ← insertAt comp x ys
      .ok (y :: r)

/-- `std::stable_sort`, `src/Geom/CorrectRCM.hpp:90-92`. Its result depends only on the comparison, which compares
keys that do not change during the sort, so an insertion sort stands for it. -/
def stableSort (comp : Int → Int → Res Bool) : List Int → List Int → Res (List Int)
  | [], acc => .ok acc
  | x :: xs, acc => do
    let acc ← insertAt comp x acc
    stableSort comp xs acc

/-- What a search is given: the visitor `FNode`, and `FInLayerCompare` if there is one; both may read and the visitor
may change the state `σ` that its caller captured by reference. -/
structure Visitor (σ : Type) where
  node : Int → Int → σ → Res σ
  comp : Option (σ → List Int → Int → Int → Res Bool)

/-- Models `inlayer_sort` on the part of the queue behind `n`, `src/Geom/CorrectRCM.hpp:78-93`. -/
def inlayerSort {σ : Type} (v : Visitor σ) (s : σ) (layer : List Int) (n : Nat) (next : List Int) : Res (List Int) :=
  match v.comp with
  | none => .ok next
  | some c => do
    let r ← stableSort (c s layer) (next.drop n) []
    .ok (next.take n ++ r)

/-- The loop over `curLayerQueue`, `src/Geom/CorrectRCM.hpp:110-121`: state, `layer`, `nextLayerQueue`. -/
def bfsQueue {σ : Type} (g : Graph) (v : Visitor σ) (iLayer : Int) : List Int → σ × List Int × List Int → Res (σ × List Int × List Int)
  | [], st => .ok st
  | i :: is, (s, layer, next) => do
    let s ← v.node i iLayer s
    let row ← atI g i
    let (layer, next') ← scan iLayer row (layer, next)
    let next' ← inlayerSort v s layer next.length next'
    bfsQueue g v iLayer is (s, layer, next')

/-- The loop over the layers, `src/Geom/CorrectRCM.hpp:106-124`, with `n` layers to go. -/
def bfsLoop {σ : Type} (g : Graph) (v : Visitor σ) : Nat → Int → List Int → σ × List Int → Res (σ × List Int)
  | 0, _, _, st => .ok st
  | n + 1, iLayer, cur, (s, layer) =>
    if cur.isEmpty then .ok (s, layer)
    else do
      let (s, layer, next) ← bfsQueue g v iLayer cur (s, layer, [])
      bfsLoop g v n (iLayer + 1) next (s, layer)

/-- Models `BreadthFirstSearch`, `src/Geom/CorrectRCM.hpp:95-126`: the state the visitor left, and the layers. -/
def bfs {σ : Type} (g : Graph) (v : Visitor σ) (root : Int) (s : σ) : Res (σ × List Int) :=
  if root ≥ g.length ∨ root < 0 then .abort
  else do
    let layer ← setI (List.replicate g.length (-1 : Int)) root 0
    bfsLoop g v g.length 0 [root] (s, layer)

/-- The conversion to `int` in `std::forward<TIndex>(nextRoot)`, where `TIndex` is the type of the literal `0` that
the caller passes as root, `src/Geom/CorrectRCM.hpp:155,164`, `src/Geom/SerialAdjReordering.hpp:157`. -/
def toInt32 (x : Int) : Int := (x + 2 ^ 31) % 2 ^ 32 - 2 ^ 31

/-- The state of the first search: `cRootDegree`, `cRootLayer`, `nextRoot`. -/
structure Seek where
  degree : Nat
  layer : Int
  root : Int

/-- The first search, for a root far away, `src/Geom/CorrectRCM.hpp:144-155`. -/
def seekVisitor (g : Graph) : Visitor Seek where
  node := fun i iLayer s => do
    let row ← atI g i
    let s := if iLayer > s.layer then { degree := row.length, layer := iLayer, root := i } else s
    let s := if iLayer = s.layer then (if row.length < s.degree then { s with degree := row.length, root := i } else s) else s
    .ok s
  comp := none

/-- The state of the second search: what `FFiller` writes to, `cTop`, and the ordered set `unvisited`. -/
structure Fill where
  num : List Int
  top : Int
  unvisited : List Int
  deriving DecidableEq

/-- The least number among the neighbours that the search has reached, `src/Geom/CorrectRCM.hpp:169-174`. -/
def predMin (num layer : List Int) : List Int → Int → Res Int
  | [], m => .ok m
  | j :: js, m => do
    let l ← atI layer j
    if l ≥ 0 then do
      let f ← atI num j
      predMin num layer js (min m f)
    else predMin num layer js m

/-- The second search, which numbers the vertices, `src/Geom/CorrectRCM.hpp:157-177`. -/
def fillVisitor (g : Graph) : Visitor Fill where
  node := fun i _ s => do
    let num ← setI s.num i s.top
    if i ∈ s.unvisited then .ok { num := num, top := s.top + 1, unvisited := s.unvisited.filter fun j => decide (j ≠ i) }
    else .abort
  comp := some fun s layer i j => do
    let ri ← atI g i
    let rj ← atI g j
    let pi ← predMin s.num layer ri g.length
    let pj ← predMin s.num layer rj g.length
    .ok (if pi = pj then decide (ri.length < rj.length) else decide (pi < pj))

/-- The loop over the parts, `src/Geom/CorrectRCM.hpp:142-183`, with `n` parts to go. -/
def partLoop (g : Graph) : Nat → Int → Fill → Res Fill
  | 0, _, s => .ok s
  | n + 1, nextRoot, s => do
    let row ← atI g nextRoot
    let (k, _) ← bfs g (seekVisitor g) (toInt32 nextRoot) { degree := row.length, layer := 0, root := nextRoot }
    let (s, _) ← bfs g (fillVisitor g) (toInt32 k.root) s
    match s.unvisited with
    | [] => .ok s
    | u :: _ => partLoop g n u s

/-- Models `CuthillMcKeeOrdering`, `src/Geom/CorrectRCM.hpp:129-186`, writing into `num`. -/
def cuthillMcKee (g : Graph) (root : Int) (num : List Int) : Res (List Int) := do
  let s ← partLoop g g.length root { num := num, top := 0, unvisited := (List.range g.length).map Int.ofNat }
  .ok s.num

/-- The largest difference of the numbers of neighbours, `src/Geom/SerialAdjReordering.hpp:141-143,171-174`. -/
def bandWidth (g : Graph) (num : Int → Res Int) : Res Int :=
  (directedAll g).foldlM (fun (m : Int) e => do
    let a ← num e.1
    let b ← num e.2
    .ok (max m (a - b).natAbs)) (0 : Int)
where
  /-- All pairs of a vertex and a neighbour, in order. -/
  directedAll (g : Graph) : List (Int × Int) := (g.zipIdx.map fun x => x.1.map fun j => ((x.2 : Int), j)).flatten

/-- Writes `New2Old[Old2New[iCell]] = iCell`, `src/Geom/SerialAdjReordering.hpp:167-168`; an index out of range is
undefined there. -/
def invert : List Int → Nat → List Int → Res (List Int)
  | [], _, out => .ok out
  | v :: vs, i, out => if 0 ≤ v ∧ v.toNat < out.length then invert vs (i + 1) (out.set v.toNat (i : Int)) else .ub

/-- What `ReorderSerialAdj_CorrectRCM` returns and writes to its reference arguments. -/
structure Order where
  new2Old : List Int
  old2New : List Int
  bandOld : Int
  bandNew : Int
  deriving DecidableEq, Repr

/-- Models `ReorderSerialAdj_CorrectRCM`, `src/Geom/SerialAdjReordering.hpp:126-177`. -/
def reorder (g : Graph) : Res Order := do
  let bandOld ← bandWidth g (fun i => .ok i)
  checkAdj g
  let num ← cuthillMcKee g 0 (List.replicate g.length 0)
  let old2New := num.map fun v => (g.length : Int) - 1 - v
  if old2New.all (fun v => decide (v < g.length ∧ 0 ≤ v)) then
    if old2New.dedup.length = old2New.length then do
      let new2Old ← invert old2New 0 (List.replicate g.length 0)
      if new2Old.all (fun v => decide (v < g.length ∧ 0 ≤ v)) then do
        let bandNew ← bandWidth g (idxI old2New)
        .ok { new2Old := new2Old, old2New := old2New, bandOld := bandOld, bandNew := bandNew }
      else .abort
    else .abort
  else .abort

end DNDSR.RCM
