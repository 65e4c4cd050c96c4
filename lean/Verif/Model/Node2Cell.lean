import Verif.Model.MeshAdj

/-!
# Inverting cell-to-node over all ranks (`src/Geom/Mesh.cpp:489-641`)

All ranks are modelled together, as in `Verif.Model.IndexMapping`.  `cells[r]` are the rows of
`cell2node.father` of rank `r` (the same function inverts `bnd2node`), `nodeLens[r]` the size of
`coords.father`.  `std::unordered_set` and `std::unordered_map` are lists without repetition; the order in
which they are iterated is not specified, so it is an argument (`Hash`).  Arrays are those of
`Verif.Model.Array`, and the exchange is the one of `Verif.Model.Transformer`.
-/

namespace DNDSR.N2C

open DNDSR.Arr hiding Array
open DNDSR.IMap DNDSR.Tran DNDSR.MeshAdj

/-- the type `tAdj`, `ArrayAdjacency<NonUniformSize>`, `src/Geom/Mesh.hpp:44-45` -/
def tyAdj : Ty := ⟨-2, -2⟩

/-- `std::unordered_map<index, std::unordered_set<index>>`, `src/Geom/Mesh.cpp:497` -/
abbrev Rec := List (Int × List Int)

/-- the orders in which a set and a map are iterated -/
structure Hash where
  set : List Int → List Int
  map : Rec → Rec

/-- `std::unordered_set::insert` -/
def setInsert (s : List Int) (c : Int) : List Int := if c ∈ s then s else s ++ [c]

/-- `record[k].insert(c)`, `src/Geom/Mesh.cpp:506,571` -/
def recInsert (k c : Int) : Rec → Rec
  | [] => [(k, [c])]
  | (k', s) :: m => if k' = k then (k', setInsert s c) :: m else (k', s) :: recInsert k c m

/-- `record.count(k)` and `record[k]`, `src/Geom/Mesh.cpp:521-525,593-597` -/
def recGet (m : Rec) (k : Int) : Option (List Int) :=
  match m with
  | [] => none
  | (k', s) :: m' => if k' = k then some s else recGet m' k

/-- `ghostNodesCompact` and `node2CellLocalRecord` (the set `ghostNodesCompactSet` is never read) -/
structure Scan where
  ghosts : List Int
  record : Rec
  deriving Repr, DecidableEq

/-- one node of a cell, `src/Geom/Mesh.cpp:500-507`; `toGlobal` is `CellIndexLocal2Global_NoSon(iCell)` -/
def scanNode (gn : GOM) (rank : Nat) (toGlobal : Res Int) (s : Scan) (q : Int) : Res Scan := do
  match ← gn.search q with
  | none => .abort
  | some (r, _) => do
    let c ← toGlobal
    .ok ⟨if r ≠ rank then s.ghosts ++ [q] else s.ghosts, recInsert q c s.record⟩

def scanRow (gn : GOM) (rank : Nat) (toGlobal : Res Int) (s : Scan) : List Int → Res Scan
  | [] => .ok s
  | q :: qs => do
    let s' ← scanNode gn rank toGlobal s q
    scanRow gn rank toGlobal s' qs

/-- the loop over the cells from `i` on, `src/Geom/Mesh.cpp:499-507`; `n` is the number of cells -/
def scanCells (gn gc : GOM) (rank n : Nat) (i : Nat) (s : Scan) : List (List Int) → Res Scan
  | [] => .ok s
  | row :: rows => do
    let s' ← scanRow gn rank (local2GlobalNoSon gc rank n i) s row
    scanCells gn gc rank n (i + 1) s' rows

/-- `ResizeRow(i, s.size())` and the loop assigning the elements, `src/Geom/Mesh.cpp:523-526,543-546,595-598` -/
def rowOps (i : Int) (s : List Int) : List (Op Int) :=
  .resizeRow i s.length :: s.zipIdx.map (fun x => .write i x.2 x.1)

/-- `Resize(n)` of a new array and the assignment of the given rows -/
def fill (n : Nat) (rows : List (Int × List Int)) : Res (Arr.Array Int) :=
  run 0 tyAdj Arr.Array.empty (.resize1 true n :: (rows.map (fun x => rowOps x.1 x.2)).flatten)

/-- the rows assigned by the loop over the own nodes, `src/Geom/Mesh.cpp:518-528,590-600`, from node `i` for `k` nodes
(`n` is the size of `coords.father`) -/
def ownRows (h : Hash) (gn : GOM) (rank n : Nat) (m : Rec) : Nat → Nat → Res (List (Int × List Int))
  | _, 0 => .ok []
  | i, k + 1 => do
    let q ← local2GlobalNoSon gn rank n i
    let rest ← ownRows h gn rank n m (i + 1) k
    .ok (match recGet m q with
      | some s => ((i : Int), h.set s) :: rest
      | none => rest)

/-- the rows of the son, `src/Geom/Mesh.cpp:535-549` -/
def ghostRows (h : Hash) (mp : Map) : Rec → Res (List (Int × List Int))
  | [] => .ok []
  | (k, s) :: m => do
    match ← mp.search k with
    | none => .abort
    | some (rank, val) => do
      let rest ← ghostRows h mp m
      .ok (if rank ≥ 0 then (val, h.set s) :: rest else rest)

/-- `for (auto iCell : (*node2cellPast)[i])`, `src/Geom/Mesh.cpp:570` -/
def readRow (a : Arr.Array Int) (i : Nat) : Res (List Int) := do
  let n ← rowSize tyAdj a i
  forRanks (fun j _ => atRead tyAdj a i j) 0 (List.replicate n ())

/-- the merging loop, `src/Geom/Mesh.cpp:567-572`, from row `i` for `k` rows -/
def mergePast (glob : List Int) (past : Arr.Array Int) (m : Rec) : Nat → Nat → Res Rec
  | _, 0 => .ok m
  | i, k + 1 => do
    let q ← idx glob i
    let row ← readRow past i
    mergePast glob past (row.foldl (fun m c => recInsert q c m) m) (i + 1) k

/-- Models `GeneralCell2NodeToNode2Cell` on all ranks, `src/Geom/Mesh.cpp:489-601`; the result is `node2cell.father` of
every rank.  `order` is the order in which the messages are delivered. -/
def node2Cell (h : Hash) (unique : Bool) (nodeLens : List Nat) (cells : List (List (List Int)))
    (order : List (Nat × Nat)) : Res (List (Arr.Array Int)) := do
  -- coords.father->pLGlobalMapping and cell2node.father->pLGlobalMapping, `src/Geom/Mesh.cpp:614-617,626-627`
  let gn ← setMPIAlignBcast (nodeLens.map Int.ofNat)
  let gc ← setMPIAlignBcast ((cells.map List.length).map Int.ofNat)
  let scans ← forRanks (fun r rows => scanCells gn gc r rows.length 0 ⟨[], []⟩ rows) 0 cells
  -- fill into father
  let fathers ← forRanks (fun r (x : Nat × Scan) => do
    let rows ← ownRows h gn r x.1 x.2.record 0 x.1
    fill x.1 rows) 0 (nodeLens.zip scans)
  let fatherLens := fathers.map (·.size)
  let gf ← setMPIAlignBcast (fatherLens.map Int.ofNat)
  let maps ← createPull gf fatherLens (scans.map (·.ghosts))
  -- fill into son
  let sons ← forRanks (fun _ (x : Map × Scan) => do
    let rows ← ghostRows h x.1 (h.map x.2.record)
    fill x.1.ghostIndex.length rows) 0 (maps.zip scans)
  -- the son is the father of the second exchange
  let sonLens := sons.map (·.size)
  let gs ← setMPIAlignBcast (sonLens.map Int.ofNat)
  let push := (sons.zip maps).map (fun x => ((List.range x.1.size).map Int.ofNat, x.2.ghostStart))
  let maps2 ← createPush gs sonLens push
  let (w1, types) ← createTypes 0 tyAdj unique maps2 ⟨sons, sons.map (fun _ => Arr.Array.empty)⟩
  let w2 ← pull types w1 order
  forRanks (fun r (x : (Nat × Scan) × Map × Arr.Array Int × Arr.Array Int) => do
    let mp := x.2.1
    let son := x.2.2.1
    let past := x.2.2.2
    Res.assert (mp.ghostIndex.length = son.size)
    Res.assert (mp.pushingIndexGlobal.length = past.size)
    let m ← mergePast mp.pushingIndexGlobal past x.1.2.record 0 past.size
    let rows ← ownRows h gn r x.1.1 m 0 x.1.1
    fill x.1.1 rows) 0 ((nodeLens.zip scans).zip (maps.zip (w2.fathers.zip w2.sons)))

end DNDSR.N2C
