import Verif.Model.Array
import Verif.Model.IndexMapping

/-!
# Ghost communication (`src/DNDS/ArrayTransformer.hpp`)

All ranks are modelled together: `fathers`, `sons` and `maps` are lists indexed by rank.
Simplifications: one element is one MPI item (`getTypeMult() = 1`, `sizeof(T)` divided out of the
displacements); a message is delivered as a whole; delivery order is an explicit argument, a list of
(sender, receiver) pairs.  A send without matching receive or the reverse never completes, and a
message longer than its receive is an MPI error: both are the outcome `ub`.  The `AsyncOneByOne` and
buffered-send variants are not modelled.
-/

namespace DNDSR.Tran

open DNDSR.Arr hiding Array
open DNDSR.IMap

variable {α : Type}

/-- `pLGhostMapping->search(q, rank, loc)` followed by the assertion `found && rank == -1`,
`src/DNDS/ArrayTransformer.hpp:302-305`: the local row to send -/
def ownLoc (m : Map) (q : Int) : Res Int := do
  match ← m.search q with
  | some (rank, loc) => do
    Res.assert (rank = -1)
    .ok loc
  | none => .abort

/-- `father->operator[](loc) - father->operator[](0)`, `src/DNDS/ArrayTransformer.hpp:306`, in
elements.  Rows of an uncompressed CSR array are different objects, their pointers have no
difference. -/
def rowDisp (ty : Ty) (fa : Arr.Array α) (loc : Int) : Res Nat := do
  let p0 ← rowPtr ty fa 0
  let p ← rowPtr ty fa loc
  match p, p0 with
  | some x, some y => if y ≤ x then .ok (x - y) else .ub
  | _, _ => .ub

/-- One rank's `pushingDisps`, `pushingSizes`, `src/DNDS/ArrayTransformer.hpp:291-316` (for the
derived-type strategy).  The sizes are `RowSizeField(loc)` (CSR), `RowSize(loc)` (max layouts),
`RowSizeField()` (fixed layouts), all of which are `rowSize`. -/
def pushInfo (ty : Ty) (m : Map) (fa : Arr.Array α) : Res (List (Nat × Nat)) := do
  let _ ← rowPtr ty fa 0
  forRanks (fun _ q => do
    let loc ← ownLoc m q
    let d ← rowDisp ty fa loc
    let n ← Arr.rowSize ty fa loc
    .ok (d, n)) 0 m.pushingIndexGlobal

/-- The same for the in-situ-pack strategy: `pushingIndexLocal` and `pushingSizes` (the
displacements are computed but discarded, `src/DNDS/ArrayTransformer.hpp:462-466`). -/
def pushLocs (ty : Ty) (m : Map) (fa : Arr.Array α) : Res (List (Int × Nat)) := do
  let _ ← rowPtr ty fa 0
  forRanks (fun _ q => do
    let loc ← ownLoc m q
    let _ ← rowPtr ty fa loc
    let n ← Arr.rowSize ty fa loc
    .ok (loc, n)) 0 m.pushingIndexGlobal

/-- `ResizeRow(i, sizes[i])` for all rows, `src/DNDS/ArrayTransformer.hpp:362-363,368-369` -/
def resizeRows (z : α) (ty : Ty) (a : Arr.Array α) : Nat → List Nat → Res (Arr.Array α)
  | _, [] => .ok a
  | i, n :: ns => do
    let a' ← resizeRow z ty a i n
    resizeRows z ty a' (i + 1) ns

/-- Models `do_son_resizing` on rank `r`, `src/DNDS/ArrayTransformer.hpp:323-382`; `sizes` is every
rank's `pushingSizes`, `unique` whether the son is the only owner of its row-size table. -/
def sonResize (z : α) (ty : Ty) (unique : Bool) (maps : List Map) (sizes : List (List Nat)) (r : Nat)
    (m : Map) (fa so : Arr.Array α) : Res (Arr.Array α) := do
  match m.ghostStart.getLast? with
  | none => .ub
  | some n => do
    Res.assert (m.ghostStart.length = maps.length + 1)
    match ty.layout with
    | .staticFixed => resize1 z ty unique so n
    | .fixed => resize2 z ty unique so n fa.rowSizeDyn
    | .errorLayout => .ub
    | lay => do
      let so1 ← match lay with
        | .max => resize2 z ty unique so n fa.rowSizeDyn
        | .staticMax => resize1 z ty unique so n
        | _ => .ok so
      let pulling ← recvBlocks r ((sizes.zip maps).map (fun x => (x.1, x.2.pushIndexSizes, x.2.pushIndexStarts)))
        m.ghostSizes m.ghostStart 0
      match lay with
      | .csr => resizeF z ty so1 n (fun i => pulling[i]?.getD 0)
      | .max => do
        let so2 ← resize2 z ty unique so1 n fa.rowSizeDyn
        resizeRows z ty so2 0 pulling
      | _ => do
        let so2 ← resize1 z ty unique so1 n
        resizeRows z ty so2 0 pulling

/-- The two committed datatypes of a rank towards each other rank: blocks (displacement, length) in
the father, and one block in the son. -/
structure Types where
  push : List (Option (List (Nat × Nat)))
  pull : List (Option (Nat × Nat))
  deriving Repr, DecidableEq

/-- pointer difference; two null pointers differ by 0 -/
def ptrDiff : Option Nat → Option Nat → Res Int
  | some x, some y => .ok ((x : Int) - y)
  | none, none => .ok 0
  | _, _ => .ub

/-- block lengths of the send type: the max layouts send whole storage rows,
`src/DNDS/ArrayTransformer.hpp:385-389` -/
def pushBlocks (ty : Ty) (so : Arr.Array α) (info : List (Nat × Nat)) : Res (List (Nat × Nat)) :=
  match ty.layout with
  | .max | .staticMax => do
    let w ← rowSizeField ty so
    .ok (info.map (fun x => (x.1, w)))
  | _ => .ok info

/-- send type towards rank `r`, recorded if anything is sent, `src/DNDS/ArrayTransformer.hpp:397-428` -/
def pushType (m : Map) (info : List (Nat × Nat)) (r : Nat) : Res (Option (List (Nat × Nat))) := do
  let n ← idx m.pushIndexSizes r
  let b ← idx m.pushIndexStarts r
  let blk ← block info b n
  .ok (if (blk.map (·.2)).sum > 0 then some blk else none)

/-- receive type from rank `r`, `src/DNDS/ArrayTransformer.hpp:430-454` -/
def pullType (ty : Ty) (m : Map) (so : Arr.Array α) (r : Nat) : Res (Option (Nat × Nat)) := do
  let e ← idx m.ghostStart (r + 1)
  let b ← idx m.ghostStart r
  let gR ← rowPtr ty so e
  let gL ← rowPtr ty so b
  let g0 ← rowPtr ty so 0
  let span ← ptrDiff gR gL
  let start ← ptrDiff gL g0
  Res.assert (span < int32Max ∧ start < int32Max)
  .ok (if span > 0 then some (start.toNat, span.toNat) else none)

/-- Models the loop recording the datatypes of one rank, `src/DNDS/ArrayTransformer.hpp:384-458`. -/
def mkTypes (ty : Ty) (nproc : Nat) (m : Map) (info : List (Nat × Nat)) (so : Arr.Array α) : Res Types := do
  let info ← pushBlocks ty so info
  let push ← forRanks (fun r _ => pushType m info r) 0 (List.replicate nproc ())
  let pull ← forRanks (fun r _ => pullType ty m so r) 0 (List.replicate nproc ())
  .ok ⟨push, pull⟩

/-- a world: father and son of every rank -/
structure World (α : Type) where
  fathers : List (Arr.Array α)
  sons : List (Arr.Array α)

/-- Models `createMPITypes()` with the derived-type strategy, run collectively,
`src/DNDS/ArrayTransformer.hpp:277-471`. -/
def createTypes (z : α) (ty : Ty) (unique : Bool) (maps : List Map) (w : World α) :
    Res (World α × List Types) := do
  let fathers ← forRanks (fun _ fa => compress z ty fa) 0 w.fathers
  let infos ← forRanks (fun _ (x : Map × Arr.Array α) => pushInfo ty x.1 x.2) 0 (maps.zip fathers)
  let sons ← forRanks (fun r (x : Map × Arr.Array α × Arr.Array α) =>
      sonResize z ty unique maps (infos.map (fun l => l.map (·.2))) r x.1 x.2.1 x.2.2) 0
    (maps.zip (fathers.zip w.sons))
  let types ← forRanks (fun _ (x : Map × List (Nat × Nat) × Arr.Array α) =>
      mkTypes ty maps.length x.1 x.2.1 x.2.2) 0 (maps.zip (infos.zip sons))
  .ok (⟨fathers, sons⟩, types)

/-- what an hindexed send type reads -/
def gather (d : List α) : List (Nat × Nat) → Res (List α)
  | [] => .ok []
  | (p, n) :: bs => do
    let x ← block d p n
    let rest ← gather d bs
    .ok (x ++ rest)

/-- where an hindexed receive type puts a message of matching length -/
def scatter (d : List α) : List (Nat × Nat) → List α → Res (List α)
  | [], _ => .ok d
  | (p, n) :: bs, msg => do
    let d' ← memcpyAt d p (msg.take n)
    scatter d' bs (msg.drop n)

/-- the message from rank `r` to rank `s` of a pull, `src/DNDS/ArrayTransformer.hpp:548-607`:
`MPI_Send_init(father->data(), ...)` at `r`, `MPI_Recv_init(son->data(), ...)` at `s` -/
def pullMsg (types : List Types) (w : World α) (r s : Nat) : Res (World α) := do
  let tr ← idx types r
  let ts ← idx types s
  let snd ← idx tr.push s
  let rcv ← idx ts.pull r
  match snd, rcv with
  | none, none => .ok w
  | some blocks, some (start, span) => do
    let fa ← idx w.fathers r
    let so ← idx w.sons s
    let msg ← gather fa.data blocks
    if msg.length ≠ span then .ub else do
    let d ← memcpyAt so.data start msg
    .ok { w with sons := w.sons.set s { so with data := d } }
  | _, _ => .ub

/-- Models `initPersistentPull; startPersistentPull; waitPersistentPull` (`pullOnce`,
`src/DNDS/ArrayTransformer.hpp:548-607,751-771,852-893,926-932`): all messages, delivered in `order` -/
def pull (types : List Types) (w : World α) : List (Nat × Nat) → Res (World α)
  | [] => .ok w
  | (r, s) :: rest => do
    let w' ← pullMsg types w r s
    pull types w' rest

/-- the message from rank `s` back to rank `r` of a push, `src/DNDS/ArrayTransformer.hpp:481-538`:
`MPI_Send_init(son->data(), ...)` at `s`, `MPI_Recv_init(father->data(), ...)` at `r` -/
def pushMsg (types : List Types) (w : World α) (s r : Nat) : Res (World α) := do
  let tr ← idx types r
  let ts ← idx types s
  let rcv ← idx tr.push s
  let snd ← idx ts.pull r
  match snd, rcv with
  | none, none => .ok w
  | some (start, span), some blocks => do
    let fa ← idx w.fathers r
    let so ← idx w.sons s
    let msg ← block so.data start span
    if msg.length ≠ (blocks.map (·.2)).sum then .ub else do
    let d ← scatter fa.data blocks msg
    .ok { w with fathers := w.fathers.set r { fa with data := d } }
  | _, _ => .ub

/-- Models `initPersistentPush; startPersistentPush; waitPersistentPush` (`pushOnce`,
`src/DNDS/ArrayTransformer.hpp:481-538,658-672,782-810,934-940`); `order` lists (sender `s`, receiver `r`) -/
def push (types : List Types) (w : World α) : List (Nat × Nat) → Res (World α)
  | [] => .ok w
  | (s, r) :: rest => do
    let w' ← pushMsg types w s r
    push types w' rest

/-! ## the in-situ-pack strategy -/

/-- Models `createMPITypes()` with the in-situ-pack strategy,
`src/DNDS/ArrayTransformer.hpp:277-382,462-466`: the father is not compressed.  Also returns every
rank's `pushingIndexLocal`. -/
def createInSitu (z : α) (ty : Ty) (unique : Bool) (maps : List Map) (w : World α) :
    Res (World α × List (List Int)) := do
  let infos ← forRanks (fun _ (x : Map × Arr.Array α) => pushLocs ty x.1 x.2) 0 (maps.zip w.fathers)
  let sons ← forRanks (fun r (x : Map × Arr.Array α × Arr.Array α) =>
      sonResize z ty unique maps (infos.map (fun l => l.map (·.2))) r x.1 x.2.1 x.2.2) 0
    (maps.zip (w.fathers.zip w.sons))
  .ok (⟨w.fathers, sons⟩, infos.map (fun l => l.map (·.1)))

/-- `std::copy((*father)[loc], (*father)[loc] + nPush, ...)`, `src/DNDS/ArrayTransformer.hpp:733-742` -/
def packRow (ty : Ty) (fa : Arr.Array α) (loc : Int) : Res (List α) := do
  let n ← Arr.rowSize ty fa loc
  let p ← rowPtr ty fa loc
  match p with
  | some b => block fa.data b n
  | none =>
    match fa.dataU[loc.toNat]? with
    | some row => block row 0 n
    | none => .ub

def packRows (ty : Ty) (fa : Arr.Array α) : List Int → Res (List α)
  | [] => .ok []
  | l :: ls => do
    let x ← packRow ty fa l
    let rest ← packRows ty fa ls
    .ok (x ++ rest)

/-- the message from `r` to `s` of an in-situ-pack pull, `src/DNDS/ArrayTransformer.hpp:689-749`: sent
when `pushNumber > 0`, awaited when the ghost span is positive; a message shorter than the awaited
span is legal. -/
def pullMsgInSitu (ty : Ty) (maps : List Map) (locs : List (List Int)) (w : World α) (r s : Nat) :
    Res (World α) := do
  let mr ← idx maps r
  let ms ← idx maps s
  let lr ← idx locs r
  let fa ← idx w.fathers r
  let so ← idx w.sons s
  let e ← idx ms.ghostStart (r + 1)
  let b ← idx ms.ghostStart r
  let gR ← rowPtr ty so e
  let gL ← rowPtr ty so b
  let span ← ptrDiff gR gL
  let n ← idx mr.pushIndexSizes s
  let st ← idx mr.pushIndexStarts s
  if n > 0 then do
    let ls ← block lr st n
    let msg ← packRows ty fa ls
    if span > 0 then
      match gL with
      | none => .ub
      | some g =>
        if (msg.length : Int) ≤ span then do
          let d ← memcpyAt so.data g msg
          .ok { w with sons := w.sons.set s { so with data := d } }
        else .ub
    else .ub
  else if span > 0 then .ub
  else .ok w

def pullInSitu (ty : Ty) (maps : List Map) (locs : List (List Int)) (w : World α) :
    List (Nat × Nat) → Res (World α)
  | [] => .ok w
  | (r, s) :: rest => do
    let w' ← pullMsgInSitu ty maps locs w r s
    pullInSitu ty maps locs w' rest

/-- the unpacking loop of `waitPersistentPush` with in-situ packing on one rank,
`src/DNDS/ArrayTransformer.hpp:811-843`: `sizes` is `pushIndexSizes`, `nbuf` the number of receive
buffers left.  Only the control flow that can abort is kept: each rank's turn asserts that a buffer
is left, and consumes one if it has something to unpack. -/
def unpackLoop (nbuf : Nat) : List Nat → Res Nat
  | [] => .ok nbuf
  | n :: ns => do
    Res.assert (nbuf > 0)
    unpackLoop (if n > 0 then nbuf - 1 else nbuf) ns

/-- Models `pushOnce` with in-situ packing as far as its assertions go,
`src/DNDS/ArrayTransformer.hpp:934-940,811-843,899-903`: one buffer per rank with something to
receive is posted, the wait unpacks them and clears the buffer list, and `clearPersistentPush` runs
the wait again, now with no buffers. -/
def pushOnceInSituControl (sizes : List Nat) : Res Nat := do
  let _ ← unpackLoop (sizes.countP (fun n => decide (n > 0))) sizes
  unpackLoop 0 sizes

/-- all ordered pairs of ranks -/
def allPairs (n : Nat) : List (Nat × Nat) :=
  ((List.range n).map (fun r => (List.range n).map (fun s => (r, s)))).flatten

end DNDSR.Tran
