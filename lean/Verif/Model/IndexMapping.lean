import Verif.Model.Basic
import Verif.Model.Defines

/-!
# Global and ghost index mappings (`src/DNDS/IndexMapping.hpp`)

All ranks of the communicator are modelled together: a value "per rank" is a list indexed by rank,
and an MPI collective is a function on such lists.  Global indices are integers; positions, counts
and rank numbers are natural numbers.  64-bit overflow of the offsets is not modelled; the 32-bit
count arithmetic is (its checked additions abort).
-/

namespace DNDSR.IMap

/-- `std::lower_bound(begin, end, val, comp)` as libstdc++ implements it: binary search for the first
position whose element does not satisfy `p x = comp(x, val)`.  `first` and `len` are the bounds of
the range still searched.  Elements are read with `[]`; a position outside the vector is undefined. -/
def lowerBoundGo {α : Type} (p : α → Bool) (l : List α) (first len : Nat) : Res Nat :=
  if len = 0 then .ok first
  else
    let half := len / 2
    let mid := first + half
    match l[mid]? with
    | none => .ub
    | some x =>
      if p x then lowerBoundGo p l (mid + 1) (len - half - 1)
      else lowerBoundGo p l first half
termination_by len
decreasing_by
  all_goals omega

/-- `std::lower_bound` on `l[b .. e)` -/
def lowerBound {α : Type} (p : α → Bool) (l : List α) (b e : Nat) : Res Nat :=
  lowerBoundGo p l b (e - b)

/-- `operator[]` of `std::vector`: no check, outside is undefined. -/
def idx {α : Type} (l : List α) (k : Nat) : Res α :=
  match l[k]? with
  | some x => .ok x
  | none => .ub

/-- Models the data members of `GlobalOffsetsMapping`, `src/DNDS/IndexMapping.hpp:26-27`. -/
structure GOM where
  lens : List Int
  offs : List Int
  deriving Repr, DecidableEq

/-- the accumulation loop of `setMPIAlignBcast`, `src/DNDS/IndexMapping.hpp:56-60` -/
def accumOffs (cur : Int) : List Int → Res (List Int)
  | [] => .ok []
  | l :: ls => do
    let nxt := cur + l
    Res.assert (nxt ≥ 0)
    let rest ← accumOffs nxt ls
    .ok (nxt :: rest)

/-- Models `setMPIAlignBcast`, `src/DNDS/IndexMapping.hpp:42-61`: after the broadcasts every rank
holds the same vector of lengths, whose `r`-th entry is what rank `r` passed. -/
def setMPIAlignBcast (myLengths : List Int) : Res GOM := do
  let rest ← accumOffs 0 myLengths
  .ok ⟨myLengths, 0 :: rest⟩

/-- Models `globalSize()`, `src/DNDS/IndexMapping.hpp:33-39`. -/
def GOM.globalSize (g : GOM) : Int :=
  match g.offs.getLast? with
  | some x => x
  | none => 0

/-- Models `operator()(rank, val)`, `src/DNDS/IndexMapping.hpp:64-75`.  The bound on `rank` in the
assertion is the source's `rank <= RankLengths.size()`; `&&` short-circuits. -/
def GOM.apply (g : GOM) (rank : Int) (val : Int) : Res Int := do
  Res.assert (rank ≥ 0 ∧ rank ≤ g.lens.length)
  let hi ← idx g.offs (rank.toNat + 1)
  let lo ← idx g.offs rank.toNat
  Res.assert (val ≥ 0 ∧ val ≤ hi - lo)
  .ok (lo + val)

/-- Models `search(globalQuery, rank, val)`, `src/DNDS/IndexMapping.hpp:78-95`; `none` is the result
`false`. -/
def GOM.search (g : GOM) (q : Int) : Res (Option (Nat × Int)) :=
  if g.offs.isEmpty then .ok none
  else do
    let place ← lowerBound (fun x => decide (x ≤ q)) g.offs 0 g.offs.length
    if place = 0 then .ok none           -- rank = -1
    else
      let rank := place - 1
      if rank < g.lens.length then do
        let o ← idx g.offs rank
        .ok (some (rank, q - o))
      else .ok none

/-- Models the data members of `OffsetAscendIndexMapping`, `src/DNDS/IndexMapping.hpp:115-139`
(`pullingRequestLocal` is never filled). -/
structure Map where
  mainOffset : Int
  mainSize : Nat
  ghostSizes : List Nat
  ghostIndex : List Int
  ghostStart : List Nat
  pushIndexSizes : List Nat
  pushIndexStarts : List Nat
  pushingIndexGlobal : List Int
  deriving Repr, DecidableEq

/-- `std::sort` on `index` values (any correct sort gives this list). -/
def sortIdx (l : List Int) : List Int := l.mergeSort (fun a b => decide (a ≤ b))

/-- `erase(unique(begin, end), end)`: drops every element equal to its predecessor. -/
def uniqueGo (prev : Int) : List Int → List Int
  | [] => []
  | x :: xs => if x = prev then uniqueGo prev xs else x :: uniqueGo x xs

def unique : List Int → List Int
  | [] => []
  | x :: xs => x :: uniqueGo x xs

/-- first loop of the pull constructor, `src/DNDS/IndexMapping.hpp:168-176`: count per owner rank
(the `int` counter itself is taken unbounded; its overflow would need more than `INT_MAX` requested
entries of one owner, and the accumulation that follows then aborts) -/
def countGo (g : GOM) (sizes : List Nat) : List Int → Res (List Nat)
  | [] => .ok sizes
  | i :: is => do
    match ← g.search i with
    | none => .abort
    | some (rank, _) =>
      if rank < sizes.length then countGo g (sizes.modify rank (· + 1)) is else .ub

/-- `starts[i+1] = signedIntSafeAdd(starts[i], sizes[i])`, the accumulation loops at
`src/DNDS/IndexMapping.hpp:178-181` and in `AccumulateRowSize`: aborts above `INT_MAX`. -/
def startsGo (cur : Nat) : List Nat → Res (List Nat)
  | [] => .ok []
  | s :: ss => do
    let nxt := cur + s
    Res.assert ((nxt : Int) ≤ Defines.intMax 32)
    let rest ← startsGo nxt ss
    .ok (nxt :: rest)

def starts (sizes : List Nat) : Res (List Nat) := do
  let rest ← startsGo 0 sizes
  .ok (0 :: rest)

/-- the loop filling `ghostIndex`, `src/DNDS/IndexMapping.hpp:183-191` -/
def fillGo (g : GOM) : List Int → Res (List Int)
  | [] => .ok []
  | i :: is => do
    match ← g.search i with
    | none => .abort
    | some _ => do
      let rest ← fillGo g is
      .ok (i :: rest)

/-- What one rank computes before the first collective of the pull constructor,
`src/DNDS/IndexMapping.hpp:159-193`. -/
structure PullLocal where
  ghostSizes : List Nat
  ghostStart : List Nat
  ghostIndex : List Int
  deriving Repr, DecidableEq

def pullLocal (g : GOM) (nproc : Nat) (req : List Int) : Res PullLocal := do
  let pulling := unique (sortIdx req)
  let sizes ← countGo g (List.replicate nproc 0) pulling
  let st ← starts sizes
  let gi ← fillGo g pulling
  .ok ⟨sizes, st, sortIdx gi⟩

/-- `mapM` over ranks with the rank number -/
def forRanks {α β : Type} (f : Nat → α → Res β) : Nat → List α → Res (List β)
  | _, [] => .ok []
  | r, x :: xs => do
    let y ← f r x
    let ys ← forRanks f (r + 1) xs
    .ok (y :: ys)

/-- `MPI_Alltoall` with one item per rank: rank `r` receives item `r` of every rank. -/
def alltoall {α : Type} (send : List (List α)) (r : Nat) : Res (List α) :=
  forRanks (fun _ row => idx row r) 0 send

/-- the block of `buf` a rank sends or receives: `count` items from `displ` -/
def block {α : Type} (buf : List α) (displ count : Nat) : Res (List α) :=
  if displ + count ≤ buf.length then .ok ((buf.drop displ).take count) else .ub

/-- what rank `r` receives from the ranks `s, s+1, ...` in an `MPI_Alltoallv`; the senders are given
as `(buffer, counts, displs)`. The counts must match the receiver's, and the receiver's displacements
must be the running sums of its counts (they are, in every call modelled), so that the receive buffer
is the concatenation of the blocks; otherwise undefined. -/
def recvBlocks {α : Type} (r : Nat) :
    List (List α × List Nat × List Nat) → List Nat → List Nat → Nat → Res (List α)
  | [], _, _, _ => .ok []
  | (buf, counts, displs) :: rest, rc, rd, pos => do
    match rc, rd with
    | c :: rc', d :: rd' => do
      let sc ← idx counts r
      let sd ← idx displs r
      if sc ≠ c ∨ d ≠ pos then .ub else do
      let b ← block buf sd sc
      let more ← recvBlocks r rest rc' rd' (pos + c)
      .ok (b ++ more)
    | _, _ => .ub

/-- Second half of the pull constructor on rank `r`, `src/DNDS/IndexMapping.hpp:195-202`. -/
def pullFinish (locals : List PullLocal) (r : Nat) (mainOffset : Int) (mainSize : Nat)
    (me : PullLocal) : Res Map := do
  let pushSizes ← alltoall (locals.map (·.ghostSizes)) r
  let pushStarts ← starts pushSizes
  let glob ← recvBlocks r (locals.map (fun p => (p.ghostIndex, p.ghostSizes, p.ghostStart)))
    pushSizes pushStarts 0
  .ok ⟨mainOffset, mainSize, me.ghostSizes, me.ghostIndex, me.ghostStart, pushSizes, pushStarts, glob⟩

/-- Models `createGhostMapping(pullingIndexGlobal)` run collectively,
`src/DNDS/ArrayTransformer.hpp:233-247` with the pull constructor
`src/DNDS/IndexMapping.hpp:151-214`: `reqs` is what each rank asks for, `lens` the sizes of the
fathers.  Returns the mapping of every rank. -/
def createPull (g : GOM) (lens : List Nat) (reqs : List (List Int)) : Res (List Map) := do
  let locals ← forRanks (fun _ req => pullLocal g reqs.length req) 0 reqs
  forRanks (fun r (x : PullLocal × Nat) => do
    let off ← g.apply r 0
    pullFinish locals r off x.2 x.1) 0 (locals.zip lens)

/-- Models `searchInMain`, `src/DNDS/IndexMapping.hpp:286-295`. -/
def Map.searchInMain (m : Map) (q : Int) : Option Int :=
  if q ≥ m.mainOffset ∧ q < m.mainSize + m.mainOffset then some (q - m.mainOffset) else none

/-- Models `searchInAllGhost`, `src/DNDS/IndexMapping.hpp:315-331`: rank and place. -/
def Map.searchInAllGhost (m : Map) (q : Int) : Res (Option (Nat × Int)) := do
  let place ← lowerBound (fun x => decide (x < q)) m.ghostIndex 0 m.ghostIndex.length
  if place = m.ghostIndex.length then .ok none
  else do
    let x ← idx m.ghostIndex place
    if x = q then do
      let s ← lowerBound (fun y => decide (y ≤ place)) m.ghostStart 0 m.ghostStart.length
      Res.assert (s ≠ m.ghostStart.length ∧ s > 0)
      .ok (some (s - 1, place))
    else .ok none

/-- Models `searchInGhost(globalQuery, rank, val)`, `src/DNDS/IndexMapping.hpp:298-312`. -/
def Map.searchInGhost (m : Map) (q : Int) (rank : Int) : Res (Option Int) := do
  Res.assert (rank ≥ 0 ∧ rank < (m.ghostStart.length : Int) - 1)
  let b ← idx m.ghostStart rank.toNat
  let e ← idx m.ghostStart (rank.toNat + 1)
  if (e : Int) - b = 0 then .ok none
  else do
    let place ← lowerBound (fun x => decide (x < q)) m.ghostIndex b e
    if place = e then .ok none
    else do
      let x ← idx m.ghostIndex place
      .ok (if x = q then some ((place : Int) - b) else none)

/-- Models `search_indexAppend`, `src/DNDS/IndexMapping.hpp:357-371`: rank (`-1` for main) and append
index. -/
def Map.searchAppend (m : Map) (q : Int) : Res (Option (Int × Int)) :=
  match m.searchInMain q with
  | some v => .ok (some (-1, v))
  | none => do
    match ← m.searchInAllGhost q with
    | some (r, v) => .ok (some (r, v + m.mainSize))
    | none => .ok none

/-- Models `search`, `src/DNDS/IndexMapping.hpp:334-346`. -/
def Map.search (m : Map) (q : Int) : Res (Option (Int × Int)) :=
  match m.searchInMain q with
  | some v => .ok (some (-1, v))
  | none => do
    match ← m.searchInAllGhost q with
    | some (r, v) => .ok (some (r, v))
    | none => .ok none

/-- Models `search_indexRank`, `src/DNDS/IndexMapping.hpp:382-395`. -/
def Map.searchRank (m : Map) (q : Int) : Res (Option (Int × Int)) :=
  match m.searchInMain q with
  | some v => .ok (some (-1, v))
  | none => do
    match ← m.searchInAllGhost q with
    | some (r, v) => do
      let b ← idx m.ghostStart r
      .ok (some (r, v - b))
    | none => .ok none

/-- Models `operator()(rank, val)`, `src/DNDS/IndexMapping.hpp:407-427`; `ghostStart.back()` of an
empty vector is undefined, `ghostIndex.at` throws. -/
def Map.apply (m : Map) (rank val : Int) : Res Int :=
  if rank = -1 then do
    Res.assert (val ≥ 0)
    if val < m.mainSize then .ok (val + m.mainOffset)
    else
      match m.ghostStart.getLast? with
      | none => .ub
      | some back => do
        Res.assert (val - m.mainSize < back)
        match m.ghostIndex[(val - m.mainSize).toNat]? with
        | some x => .ok x
        | none => .abort
  else do
    Res.assert (rank ≥ 0 ∧ rank < (m.ghostStart.length : Int) - 1)
    let e ← idx m.ghostStart (rank.toNat + 1)
    let b ← idx m.ghostStart rank.toNat
    Res.assert (val ≥ 0 ∧ val < (e : Int) - b)
    idx m.ghostIndex (b + val.toNat)

/-! ## the push constructor -/

/-- Models the first part of the push constructor on rank `r`, `src/DNDS/IndexMapping.hpp:237-246`:
`pushIndexSizes` and `pushingIndexGlobal`.  `starts` must be nondecreasing (a negative size is
refused by MPI, here undefined). -/
def pushLocal (g : GOM) (nproc r : Nat) (loc : List Int) (starts : List Nat) :
    Res (List Nat × List Int) := do
  Res.assert (starts.length = nproc + 1)
  let last ← idx starts nproc
  Res.assert (loc.length = last)
  let sizes ← forRanks (fun _ (p : Nat × Nat) => if p.1 ≤ p.2 then .ok (p.2 - p.1) else .ub) 0
    (starts.zip starts.tail)
  let glob ← forRanks (fun _ l => g.apply r l) 0 loc
  .ok (sizes, glob)

/-- running sums without overflow check, `src/DNDS/IndexMapping.hpp:251-254` -/
def plainStarts (sizes : List Nat) : List Nat :=
  (List.range (sizes.length + 1)).map (fun i => (sizes.take i).sum)

/-- Models the push constructor run collectively, `src/DNDS/IndexMapping.hpp:228-261`: `push` gives
for each rank its CSR list of local indices and starts.  `pushIndexStarts[0]` stays `0` whatever
`starts[0]` is (`src/DNDS/IndexMapping.hpp:239-242`). -/
def createPush (g : GOM) (lens : List Nat) (push : List (List Int × List Nat)) : Res (List Map) := do
  let nproc := push.length
  let locals ← forRanks (fun r (p : List Int × List Nat) => pushLocal g nproc r p.1 p.2) 0 push
  let pst (p : List Int × List Nat) : List Nat := 0 :: p.2.tail
  let senders := (locals.zip push).map (fun x => (x.1.2, x.1.1, pst x.2))
  forRanks (fun r (x : ((List Nat × List Int) × (List Int × List Nat)) × Nat) => do
    let off ← g.apply r 0
    let ghostSizes ← alltoall (locals.map (·.1)) r
    let ghostStart := plainStarts ghostSizes
    let gi ← recvBlocks r senders ghostSizes ghostStart 0
    .ok ⟨off, x.2, ghostSizes, gi, ghostStart, x.1.1.1, pst x.1.2, x.1.1.2⟩) 0
    ((locals.zip push).zip lens)

end DNDSR.IMap
