import Verif.Model.IndexMapping

/-!
# Symbolic factorization (`src/Solver/Direct.hpp:41-254`)

One rank.  A `std::unordered_set<index>` is the duplicate-free list of its elements in insertion order;
range-for over it runs in the order `ord`, an arbitrary rearrangement, since the C++ order is unspecified.
Indices are natural numbers (the code never stores a negative one); `-1` as "not found" is kept as `Int`.
Logging and the counters it prints are left out, the assertion that compares two of them is kept.
The object is fresh: the code appends to `lowerTriStructure` and its siblings without clearing them, so a
second call on the same object is outside the model.
-/

namespace DNDSR.Direct

open DNDSR.IMap

/-- a loop whose body may stop the program -/
def foldRes {σ α : Type} (f : σ → α → Res σ) : σ → List α → Res σ
  | s, [] => .ok s
  | s, x :: xs => do
    let s' ← f s x
    foldRes f s' xs

/-- `insert` of `std::unordered_set` -/
def ins (s : List Nat) (x : Nat) : List Nat := if x ∈ s then s else s ++ [x]

/-- `sets[i].insert(x)` -/
def insAt (t : List (List Nat)) (i x : Nat) : Res (List (List Nat)) := do
  let s ← idx t i
  .ok (t.set i (ins s x))

/-- Models `FillingReorderOld2New` and `FillingReorderNew2Old`, `src/Solver/Direct.hpp:61-68`: an empty table is
the identity. -/
def reorder (table : List Nat) (v : Nat) : Res Nat := if table.isEmpty then .ok v else idx table v

/-- `std::lower_bound(row.begin(), row.end(), v)` -/
def lowerBoundNat (row : List Nat) (v : Nat) : Res Nat := lowerBound (fun x => decide (x < v)) row 0 row.length

/-- `std::sort` -/
def sortNat (l : List Nat) : List Nat := l.mergeSort (fun a b => decide (a ≤ b))

/-- the members of `SerialSymLUStructure`, `src/Solver/Direct.hpp:44-56`: `lowOld`, `uppOld` are
`lowerTriStructure`, `upperTriStructure`; `low`, `upp` are the `...New` tables; `rowPos` is
`cell2cellFaceVLocal2FullRowPos`. -/
structure LUStruct where
  n : Nat
  o2n : List Nat
  n2o : List Nat
  lowOld : List (List Nat)
  uppOld : List (List Nat)
  low : List (List Nat)
  upp : List (List Nat)
  lowInUpp : List (List Int)
  uppInLow : List (List Int)
  rowPos : List (List Int)
  deriving Repr, DecidableEq

/-- one sweep of the stencil expansion for one cell, `src/Solver/Direct.hpp:92-100` -/
def enlargeCell (ord : List Nat → List Nat) (adj : List (List Nat)) (enl : List (List Nat)) (iCell : Nat) :
    Res (List (List Nat)) := do
  let cur ← idx enl iCell
  let newN ← foldRes (fun newN iCO => do
    let row ← idx adj iCO
    .ok (row.foldl ins newN)) [] (ord cur)
  .ok (enl.set iCell ((ord newN).foldl ins cur))

/-- `iluCode` sweeps, `src/Solver/Direct.hpp:90-101` -/
def enlargeSweeps (ord : List Nat → List Nat) (adj : List (List Nat)) (n : Nat) : Nat → List (List Nat) → Res (List (List Nat))
  | 0, enl => .ok enl
  | k + 1, enl => do
    let enl' ← foldRes (enlargeCell ord adj) enl (List.range n)
    enlargeSweeps ord adj n k enl'

/-- `cell2cellFaceVEnlarged`, `src/Solver/Direct.hpp:82-104`; empty unless `iluCode > 0` -/
def enlarge (ord : List Nat → List Nat) (adj : List (List Nat)) (n : Nat) (iluCode : Int) : Res (List (List Nat)) :=
  if iluCode > 0 then do
    Res.assert (iluCode ≤ 5)
    let enl0 ← foldRes (fun t i => do
      let row ← idx adj i
      .ok (t ++ [row.foldl ins []])) [] (List.range n)
    let enl ← enlargeSweeps ord adj n iluCode.toNat enl0
    foldRes (fun t i => do
      let s ← idx t i
      .ok (t.set i (s.erase i))) enl (List.range n)
  else .ok []

/-- the initial columns `midSymMatCols`, `src/Solver/Direct.hpp:114-124` -/
def initCols (adj : List (List Nat)) (o2n n2o : List Nat) (n : Nat) : Res (List (List Nat)) :=
  foldRes (fun t iCellP => do
    let iCell ← reorder n2o iCellP
    let row ← idx adj iCell
    let s ← foldRes (fun s iOther => do
      let p ← reorder o2n iOther
      .ok (ins s p)) [iCellP] row
    .ok (t ++ [s])) [] (List.range n)

/-- the sets the column loop updates -/
structure Cols where
  mid : List (List Nat)
  low : List (List Nat)
  upp : List (List Nat)
  deriving Repr, DecidableEq

/-- whether a fill entry is kept, `src/Solver/Direct.hpp:138` -/
def allowFill (iluCode : Int) (enl : List (List Nat)) (a b : Nat) : Res Bool :=
  if iluCode < 0 then .ok true
  else if iluCode > 0 then do
    let s ← idx enl a
    .ok (decide (b ∈ s))
  else .ok false

/-- the body for one pair of entries of column `iCellP`, `src/Solver/Direct.hpp:132-142` -/
def fillPair (iluCode : Int) (enl : List (List Nat)) (n2o : List Nat) (o iOther : Nat) (mid : List (List Nat)) (oo : Nat) :
    Res (List (List Nat)) :=
  if oo > o then do
    let iOO ← reorder n2o oo
    let keep ← allowFill iluCode enl iOther iOO
    if keep then do
      let mid' ← insAt mid oo o
      insAt mid' o oo
    else .ok mid
  else .ok mid

/-- the body for one entry of column `iCellP`, `src/Solver/Direct.hpp:128-146` -/
def colEntry (ord : List Nat → List Nat) (iluCode : Int) (enl : List (List Nat)) (n2o : List Nat) (cur : List Nat) (iCellP : Nat)
    (t : Cols) (o : Nat) : Res Cols :=
  if o > iCellP then do
    let iOther ← reorder n2o o
    let mid ← foldRes (fillPair iluCode enl n2o o iOther) t.mid (ord cur)
    let low ← insAt t.low o iCellP
    let upp ← insAt t.upp iCellP o
    .ok ⟨mid, low, upp⟩
  else .ok t

/-- one column, `src/Solver/Direct.hpp:126-147`; the loops insert only into later columns, so the set they
iterate over does not change -/
def column (ord : List Nat → List Nat) (iluCode : Int) (enl : List (List Nat)) (n2o : List Nat) (t : Cols) (iCellP : Nat) : Res Cols := do
  let cur ← idx t.mid iCellP
  foldRes (colEntry ord iluCode enl n2o cur iCellP) t (ord cur)

/-- the sorted rows, `src/Solver/Direct.hpp:149-177`: new rows appended in order of `iCellP`, old rows stored at `iCell` -/
def sortedRows (ord : List Nat → List Nat) (n2o : List Nat) (rows : List (List Nat)) (n : Nat) :
    Res (List (List Nat) × List (List Nat)) :=
  foldRes (fun (t : List (List Nat) × List (List Nat)) iCellP => do
    let iCell ← reorder n2o iCellP
    let s ← idx rows iCellP
    let row := sortNat (ord s)
    let old ← forRanks (fun _ v => reorder n2o v) 0 row
    let prev ← idx t.2 iCell
    .ok (t.1 ++ [row], t.2.set iCell (prev ++ old))) ([], List.replicate n []) (List.range n)

/-- the cross positions, `src/Solver/Direct.hpp:191-207` and, with the arguments exchanged, `src/Solver/Direct.hpp:209-225` -/
def crossPos (a b : List (List Nat)) : Res (List (List Int)) :=
  forRanks (fun iP (row : List Nat) => forRanks (fun _ jP => do
    let other ← idx b jP
    let ret ← lowerBoundNat other iP
    .ok (if ret ≠ other.length then (ret : Int) else -1)) 0 row) 0 a

/-- `cell2cellFaceVLocal2FullRowPos`, `src/Solver/Direct.hpp:227-253` -/
def fullRowPos (adj : List (List Nat)) (o2n : List Nat) (low upp : List (List Nat)) (n : Nat) : Res (List (List Int)) :=
  forRanks (fun _ i => do
    let iP ← reorder o2n i
    let row ← idx adj i
    forRanks (fun _ j => do
      let jP ← reorder o2n j
      if jP < iP then do
        let r ← idx low iP
        let ret ← lowerBoundNat r jP
        Res.assert (ret ≠ r.length)
        .ok ((ret : Int) + 1)
      else if jP > iP then do
        let r ← idx upp iP
        let ret ← lowerBoundNat r jP
        Res.assert (ret ≠ r.length)
        let l ← idx low iP
        .ok ((ret : Int) + l.length + 1)
      else .ok (-1)) 0 row) 0 (List.range n)

/-- Models `ObtainSymmetricSymbolicFactorization`, `src/Solver/Direct.hpp:77-254`. -/
def symbolic (ord : List Nat → List Nat) (adj : List (List Nat)) (o2n n2o : List Nat) (n : Nat) (iluCode : Int) : Res LUStruct := do
  let enl ← enlarge ord adj n iluCode
  let mid ← initCols adj o2n n2o n
  let t ← foldRes (column ord iluCode enl n2o) ⟨mid, List.replicate n [], List.replicate n []⟩ (List.range n)
  let (low, lowOld) ← sortedRows ord n2o t.low n
  let (upp, uppOld) ← sortedRows ord n2o t.upp n
  Res.assert ((lowOld.map List.length).sum = (uppOld.map List.length).sum)
  let lowInUpp ← crossPos low upp
  let uppInLow ← crossPos upp low
  let rowPos ← fullRowPos adj o2n low upp n
  .ok ⟨n, o2n, n2o, lowOld, uppOld, low, upp, lowInUpp, uppInLow, rowPos⟩

end DNDSR.Direct
