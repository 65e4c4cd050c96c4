import Verif.Model.Transformer

/-!
# Redistribution of the mesh after partitioning (`src/Geom/Mesh.cpp:40-341`)

All ranks are modelled together, as in `Verif.Model.IndexMapping`.  `partition` holds target ranks
(`MPI_int`, signed).  Overflow of 64-bit global indices is not modelled except where the code checks it.
-/

namespace DNDSR.Part

open DNDSR.Arr hiding Array
open DNDSR.IMap DNDSR.Tran

/-- `v[r]++` without check -/
def bump (l : List Nat) (r : Int) : Res (List Nat) :=
  if 0 ≤ r ∧ r.toNat < l.length then .ok (l.modify r.toNat (· + 1)) else .ub

/-- `v[r]` without check -/
def vecAt {α : Type} (l : List α) (r : Int) : Res α := if 0 ≤ r then idx l r.toNat else .ub

/-- the counting loop of `Partition2LocalIdx`, `src/Geom/Mesh.cpp:53-57` -/
def countChecked (nproc : Nat) (sizes : List Nat) : List Int → Res (List Nat)
  | [] => .ok sizes
  | r :: rs => do
    Res.assert (r < nproc)
    let s ← bump sizes r
    countChecked nproc s rs

/-- the filling loop, `src/Geom/Mesh.cpp:62-63` -/
def fillLoop (starts : List Int) (cnt : List Nat) (push : List Int) (i : Nat) : List Int → Res (List Int)
  | [] => .ok push
  | r :: rs => do
    let st ← vecAt starts r
    let c ← vecAt cnt r
    let cnt' ← bump cnt r
    if 0 ≤ st + c ∧ (st + c).toNat < push.length then
      fillLoop starts cnt' (push.set (st + c).toNat (i : Int)) (i + 1) rs
    else .ub

/-- Models `Partition2LocalIdx`, `src/Geom/Mesh.cpp:46-65`: the local indices grouped by target rank, and where
each group starts. -/
def partition2LocalIdx (nproc : Nat) (partition : List Int) : Res (List Int × List Nat) := do
  let sizes ← countChecked nproc (List.replicate nproc 0) partition
  let starts ← Defines.accumulateRowSize 64 (sizes.map Int.ofNat)
  let total ← idx starts nproc
  Res.assert (partition.length = total.toNat)
  let push ← fillLoop starts (List.replicate nproc 0) (List.replicate total.toNat 0) 0 partition
  .ok (push, starts.map Int.toNat)

/-- the counting loop of `Partition2Serial2Global`, `src/Geom/Mesh.cpp:80-81` -/
def countPlain (sizes : List Nat) : List Int → Res (List Nat)
  | [] => .ok sizes
  | r :: rs => do
    let s ← bump sizes r
    countPlain s rs

/-- entrywise sum, the reduction of `MPI_SUM` -/
def addVec (a b : List Nat) : List Nat := List.zipWith (· + ·) a b

/-- the accumulation loop, `src/Geom/Mesh.cpp:86-88`: `numberTotalPlc` -/
def placement (cur : Nat) : List Nat → List Nat
  | [] => [cur]
  | n :: ns => cur :: placement (cur + n) ns

/-- the numbering loop, `src/Geom/Mesh.cpp:91-94` -/
def numberLoop (plc : List Nat) (prev : List Nat) (cnt : List Nat) : List Int → Res (List Int)
  | [] => .ok []
  | r :: rs => do
    let c ← vecAt cnt r
    let cnt' ← bump cnt r
    let p ← vecAt plc r
    let q ← vecAt prev r
    let rest ← numberLoop plc prev cnt' rs
    .ok (((c + p + q : Nat) : Int) :: rest)

/-- Models `Partition2Serial2Global` on all ranks, `src/Geom/Mesh.cpp:72-95`; `MPI_Allreduce` gives every rank the
entrywise sum over all ranks, `MPI_Scan` the sum over the ranks up to and including its own. -/
def partition2Serial2Global (nPart : Nat) (partitions : List (List Int)) : Res (List (List Int)) := do
  let atLocal ← forRanks (fun _ p => countPlain (List.replicate nPart 0) p) 0 partitions
  let total := atLocal.foldl addVec (List.replicate nPart 0)
  let plc := placement 0 total
  forRanks (fun r (x : List Int × List Nat) =>
    let scan := (atLocal.take (r + 1)).foldl addVec (List.replicate nPart 0)
    let prev := List.zipWith (· - ·) scan x.2
    numberLoop plc prev (List.replicate nPart 0) x.1) 0 (partitions.zip atLocal)

/-- Models `TransferDataSerial2Global` on all ranks, `src/Geom/Mesh.cpp:197-210`: `w.fathers` the serial arrays, the
sons of the result the distributed ones; `order` is the order in which the messages are delivered. -/
def transferData {α : Type} (z : α) (ty : Ty) (unique : Bool) (pushes : List (List Int × List Nat)) (w : World α)
    (order : List (Nat × Nat)) : Res (World α) := do
  let lens := w.fathers.map (·.size)
  let g ← setMPIAlignBcast (lens.map Int.ofNat)
  let maps ← createPush g lens pushes
  let (w1, types) ← createTypes z ty unique maps w
  pull types w1 order

/-! ### `ConvertAdjSerial2Global` -/

/-- `DNDS::UnInitIndex = INT64_MIN`, `src/DNDS/Defines.hpp:141` -/
def unInit : Int := -9223372036854775808

/-- the loop over one row collecting ghosts, `src/Geom/Mesh.cpp:155-167`; it stops at the first `UnInitIndex` -/
def queryRow (g : GOM) (rank : Nat) : List Int → Res (List Int)
  | [] => .ok []
  | v :: vs =>
    if v = unInit then .ok []
    else do
      match ← g.search v with
      | none => .abort
      | some (r, _) => do
        let rest ← queryRow g rank vs
        .ok (if r ≠ rank then v :: rest else rest)

def queryRows (g : GOM) (rank : Nat) : List (List Int) → Res (List Int)
  | [] => .ok []
  | row :: rows => do
    let a ← queryRow g rank row
    let b ← queryRows g rank rows
    .ok (a ++ b)

/-- the loop over one row replacing entries, `src/Geom/Mesh.cpp:177-190` -/
def convertRow (f : Int → Res Int) : List Int → Res (List Int)
  | [] => .ok []
  | v :: vs =>
    if v = unInit then .ok (v :: vs)
    else do
      let v' ← f v
      let rest ← convertRow f vs
      .ok (v' :: rest)

/-- the type `tAdj1`, `ArrayAdjacency<1>` -/
def tyOne : Ty := ⟨1, 1⟩

/-- `JSG->Resize(n)` and the assignment loop, `src/Geom/Mesh.cpp:127-129` -/
def column (vals : List Int) : Res (Arr.Array Int) :=
  run 0 tyOne Arr.Array.empty (.resize1 true vals.length :: vals.zipIdx.map (fun x => .write x.2 0 x.1))

/-- the new value of an entry, `src/Geom/Mesh.cpp:182-189` -/
def lookupNew (m : Map) (father son : Arr.Array Int) (v : Int) : Res Int := do
  match ← m.search v with
  | none => .abort
  | some (rank, val) => if rank = -1 then atRead tyOne father val 0 else atRead tyOne son val 0

/-- Models `ConvertAdjSerial2Global` on all ranks, `src/Geom/Mesh.cpp:116-192`: `adjs[r]` are the rows of rank `r`,
`s2g[r]` the new numbers of the entities rank `r` holds.  (The array holding the rows is represented by them;
assigning entries in place does not change the shape.) -/
def convertAdj (unique : Bool) (s2g : List (List Int)) (adjs : List (List (List Int))) (order : List (Nat × Nat)) :
    Res (List (List (List Int))) := do
  let jsg ← forRanks (fun _ v => column v) 0 s2g
  let lens := s2g.map List.length
  let g ← setMPIAlignBcast (lens.map Int.ofNat)
  let queries ← forRanks (fun r rows => queryRows g r rows) 0 adjs
  let maps ← createPull g lens queries
  let (w1, types) ← createTypes 0 tyOne unique maps ⟨jsg, jsg.map (fun _ => Arr.Array.empty)⟩
  let w2 ← pull types w1 order
  forRanks (fun _ (x : List (List Int) × Map × Arr.Array Int × Arr.Array Int) =>
    forRanks (fun _ row => convertRow (lookupNew x.2.1 x.2.2.1 x.2.2.2) row) 0 x.1) 0
    (adjs.zip (maps.zip (w2.fathers.zip w2.sons)))

/-! ### partition of nodes and boundaries -/

/-- the loop over the nodes of a cell, `src/Geom/Mesh.cpp:255-256` -/
def minRow (part : Int) (np : List Int) : List Int → Res (List Int)
  | [] => .ok np
  | n :: ns => do
    let old ← vecAt np n
    minRow part (np.set n.toNat (min old part)) ns

/-- Models the node partition, `src/Geom/Mesh.cpp:252-256`: the smallest target rank among the cells of the node,
`INT32_MAX` for a node of no cell. -/
def nodePartition (nNode : Nat) (cells : List (List Int × Int)) : Res (List Int) :=
  cells.foldlM (fun np c => minRow c.2 np c.1) (List.replicate nNode 2147483647)

end DNDSR.Part
