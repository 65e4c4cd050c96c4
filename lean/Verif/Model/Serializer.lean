import Verif.Model.Basic
import Verif.Model.Defines

/-!
# Serializers (`src/DNDS/SerializerJSON.cpp`, `src/DNDS/SerializerH5.cpp`)
-/

namespace DNDSR.Ser

open DNDSR.Defines

/-! ## paths of the JSON serializer

Strings are lists of characters.  The JSON document is modelled by the set of locations at which an
object exists.  Names that the JSON pointer syntax treats specially (containing `~`, or all digits)
are not distinguished from other names. -/

/-- Models `processPath`, `src/DNDS/SerializerJSON.cpp:14-23`: the non-empty names, and whether the
path is absolute. -/
def processPath (pth : List (List Char)) : List (List Char) × Bool :=
  (pth.filter (fun v => !v.isEmpty), match pth with | [] => true | p :: _ => p.isEmpty)

/-- Models `constructPath`, `src/DNDS/SerializerJSON.cpp:25-31`. -/
def constructPath : List (List Char) → List Char
  | [] => []
  | n :: ns => '/' :: n ++ constructPath ns

/-- `cPathSplit`, `cP` and the document, `src/DNDS/SerializerJSON.hpp:11-16`; a location is the list of
its names -/
structure JSt where
  split : List (List Char)
  cP : List Char
  objects : List (List (List Char))
  deriving Repr

/-- Models `OpenFile` for writing, `src/DNDS/SerializerJSON.cpp:33-46`: the document is `null`. -/
def JSt.open : JSt := ⟨[], [], []⟩

/-- the names of a JSON pointer `"/a/b"` -/
def pointerNames (s : List Char) : List (List Char) :=
  match s with
  | [] => []
  | _ :: rest => splitSString rest '/'

/-- `jObj[json_pointer(loc)] = json::object()`: everything at or below `loc` is replaced by an empty
object, the locations above become objects if they were `null` -/
def putObject (objects : List (List (List Char))) (loc : List (List Char)) : List (List (List Char)) :=
  (List.range (loc.length + 1)).map (fun k => loc.take k) ++ objects.filter (fun o => !(loc.isPrefixOf o))

/-- Models `CreatePath`, `src/DNDS/SerializerJSON.cpp:61-71`. -/
def createPath (s : JSt) (p : List Char) : JSt :=
  let (pth, isAbs) := processPath (splitSString p '/')
  if isAbs then { s with objects := putObject s.objects (pointerNames (constructPath pth)) }
  else { s with objects := putObject s.objects (pointerNames (s.cP ++ constructPath pth)) }

/-- Models `GoToPath`, `src/DNDS/SerializerJSON.cpp:72-83`. -/
def goToPath (s : JSt) (p : List Char) : Res JSt := do
  let (pth, isAbs) := processPath (splitSString p '/')
  let split := if isAbs then pth else s.split ++ pth
  let cP := constructPath split
  Res.assert (pointerNames cP ∈ s.objects)
  .ok { s with split, cP }

/-- Models `GetCurrentPath`, `src/DNDS/SerializerJSON.cpp:84-87`. -/
def getCurrentPath (s : JSt) : List Char := s.cP

/-! ## bytes

`base64` is the encoding of RFC 4648 that `cppcodec::base64_rfc4648` implements (an external library);
bytes are numbers below 256.  zlib is external: `compress2` and `uncompress` are parameters. -/

/-- the alphabet -/
def b64Char (n : Nat) : Char :=
  "ABCDEFGHIJKLMNOPQRSTUVWXYZabcdefghijklmnopqrstuvwxyz0123456789+/".toList[n]?.getD '?'

def b64Val (c : Char) : Nat :=
  "ABCDEFGHIJKLMNOPQRSTUVWXYZabcdefghijklmnopqrstuvwxyz0123456789+/".toList.idxOf c

def b64Encode : List Nat → List Char
  | a :: b :: c :: rest =>
    b64Char (a / 4) :: b64Char (a % 4 * 16 + b / 16) :: b64Char (b % 16 * 4 + c / 64) :: b64Char (c % 64) ::
      b64Encode rest
  | [a, b] => [b64Char (a / 4), b64Char (a % 4 * 16 + b / 16), b64Char (b % 16 * 4), '=']
  | [a] => [b64Char (a / 4), b64Char (a % 4 * 16), '=', '=']
  | [] => []

/-- malformed input makes cppcodec throw -/
def b64Decode : List Char → Res (List Nat)
  | [] => .ok []
  | c0 :: c1 :: c2 :: c3 :: rest =>
    let v0 := b64Val c0
    let v1 := b64Val c1
    if v0 < 64 ∧ v1 < 64 then
      if c2 = '=' then
        if c3 = '=' ∧ rest = [] then .ok [v0 * 4 + v1 / 16] else .abort
      else
        let v2 := b64Val c2
        if v2 < 64 then
          if c3 = '=' then
            if rest = [] then .ok [v0 * 4 + v1 / 16, v1 % 16 * 16 + v2 / 4] else .abort
          else
            let v3 := b64Val c3
            if v3 < 64 then do
              let tail ← b64Decode rest
              .ok ((v0 * 4 + v1 / 16) :: (v1 % 16 * 16 + v2 / 4) :: (v2 % 4 * 64 + v3) :: tail)
            else .abort
        else .abort
    else .abort
  | _ => .abort

/-- zlib: `deflate cap x` is what `compress2` makes of `x` with an output buffer of `cap` bytes (`none` is
`Z_BUF_ERROR`), `inflate n y` what `uncompress` makes of `y` with a buffer of `n` bytes -/
structure Zlib where
  deflate : Nat → List Nat → Option (List Nat)
  inflate : Nat → List Nat → Option (List Nat)

/-- `compressBound` of zlib's manual -/
def compressBound (n : Nat) : Nat := n + n / 4096 + n / 16384 + n / 33554432 + 13

/-- `zlibCompressedSize`, `src/DNDS/SerializerJSON.cpp:249-252` -/
def zlibCompressedSize (n : Nat) : Nat := n + (n + 999) / 1000 + 12

/-- what a JSON location holds for a byte array -/
inductive JBytes where
  | plain (v : List Nat)
  | coded (size : Nat) (encoded : List Char)
  deriving Repr

/-- Models `WriteUint8Array`, `src/DNDS/SerializerJSON.cpp:247-274`. -/
def writeUint8Array (zl : Zlib) (useCodec : Bool) (data : List Nat) : Res JBytes :=
  if useCodec then
    match zl.deflate (zlibCompressedSize data.length) data with
    | some c => .ok (.coded data.length (b64Encode c))
    | none => .abort
  else .ok (.plain data)

/-- Models `ReadUint8Array` with `data = nullptr`, `src/DNDS/SerializerJSON.cpp:275-309`: the size. -/
def readUint8Size : JBytes → Nat
  | .plain v => v.length
  | .coded n _ => n

/-- Models `ReadUint8Array` into a buffer, `src/DNDS/SerializerJSON.cpp:275-309`. -/
def readUint8Array (zl : Zlib) : JBytes → Res (List Nat)
  | .plain v => .ok v
  | .coded n enc => do
    let dec ← b64Decode enc
    match zl.inflate n dec with
    | none => .abort
    | some u => do
      Res.assert (u.length = n)
      .ok u

/-! ## shared vectors of the JSON serializer -/

/-- what the document holds at the location of a shared vector -/
inductive Entry (P V : Type) where
  | arr (v : V)
  | ref (p : P)
  deriving Repr, DecidableEq

/-- document and `ptr_2_pth`, `src/DNDS/SerializerJSON.hpp:12-17`; an address is a number -/
structure WSt (P V : Type) where
  doc : List (P × Entry P V)
  ptr2pth : List (Nat × P)
  deriving Repr

/-- Models `WriteSharedIndexVector` / `WriteSharedRowsizeVector`,
`src/DNDS/SerializerJSON.cpp:125-146`, for a vector with contents `v` at address `a`, written under the
full path `p` (new in the document). -/
def writeShared {P V : Type} [DecidableEq P] (s : WSt P V) (p : P) (a : Nat) (v : V) : WSt P V :=
  match s.ptr2pth.lookup a with
  | some q => { s with doc := (p, .ref q) :: s.doc }
  | none => ⟨(p, .arr v) :: s.doc, (a, p) :: s.ptr2pth⟩

/-- Reader side: the vectors created so far, the caller's `shared_ptr` variables (`none`: not holding
anything), and `pth_2_ssp`, which remembers the caller's variable, not the vector. -/
structure RSt (P V : Type) where
  objs : List V
  vars : Nat → Option Nat
  pth2ssp : List (P × Nat)

/-- the `refPath` computed in `src/DNDS/SerializerJSON.cpp:197-206` -/
def refPathOf {P V : Type} [DecidableEq P] (doc : List (P × Entry P V)) (p : P) : P :=
  match doc.lookup p with
  | some (.ref q) => q
  | _ => p

/-- Models `ReadSharedIndexVector` / `ReadSharedRowsizeVector`, `src/DNDS/SerializerJSON.cpp:193-246`,
into variable `x`.  The remembered variable is dereferenced as it is now. -/
def readShared {P V : Type} [DecidableEq P] (doc : List (P × Entry P V)) (s : RSt P V) (x : Nat) (p : P) :
    Res (RSt P V) :=
  match s.pth2ssp.lookup (refPathOf doc p) with
  | some y => .ok { s with vars := fun z => if z = x then s.vars y else s.vars z }
  | none =>
    match doc.lookup (refPathOf doc p) with
    | some (.arr v) => .ok ⟨s.objs ++ [v], fun z => if z = x then some s.objs.length else s.vars z,
        (refPathOf doc p, x) :: s.pth2ssp⟩
    | _ => .abort

/-! ## distributed datasets of the HDF5 serializer

A dataset is a list of cells, `none` where nothing was written.  Collective-metadata options and
chunking do not influence the contents and are not modelled. -/

/-- Models the hyperslab write of `H5_WriteDataset`, `src/DNDS/SerializerH5.cpp:243-281`: HDF5 rejects a
selection outside the extent (the assertion on `herr`). -/
def writeSlab {α : Type} (ds : List (Option α)) (off : Nat) (v : List α) : Res (List (Option α)) :=
  if off + v.length ≤ ds.length then
    .ok (ds.take off ++ v.map some ++ ds.drop (off + v.length))
  else .abort

/-- Models the hyperslab read of `H5_ReadDataset`, `src/DNDS/SerializerH5.cpp:511-545`; reading a cell
nobody wrote gives the fill value, here `none`. -/
def readSlab {α : Type} (ds : List (Option α)) (off n : Nat) : Res (List (Option α)) :=
  if off + n ≤ ds.length then .ok ((ds.drop off).take n) else .abort

/-- a dataset and its companion `name::rank_offsets` -/
structure DistSet (α : Type) where
  data : List (Option α)
  offs : List (Option Nat)
  deriving Repr

/-- One rank's part of `WriteDataVector` for a distributed array, `src/DNDS/SerializerH5.cpp:338-351` (and
323-337 for `ArrayGlobalOffset_Parts`): `off` and `total` are the rank's offset and the global size. -/
def writeRank {α : Type} (nproc : Nat) (s : DistSet α) (r off total : Nat) (v : List α) : Res (DistSet α) := do
  let data ← writeSlab s.data off v
  let offs ← writeSlab s.offs r (if r = nproc - 1 then [off, total] else [off])
  .ok ⟨data, offs⟩

/-- `MPI_Scan` of the sizes minus the own size, `src/DNDS/SerializerH5.cpp:325-329` -/
def scanOffset {α : Type} (locals : List (List α)) (r : Nat) : Nat :=
  ((locals.take (r + 1)).map List.length).sum - (locals[r]?.getD []).length

/-- `MPI_Bcast` of the last rank's inclusive scan -/
def scanTotal {α : Type} (locals : List (List α)) : Nat := (locals.map List.length).sum

/-- The ranks writing one after the other in the order given (for a distributed array with the caller's
offsets, `src/DNDS/SerializerH5.cpp:338-351`). -/
def writeRanks {α : Type} (offOf : Nat → Nat) (total : Nat) (locals : List (List α)) (s : DistSet α) :
    List Nat → Res (DistSet α)
  | [] => .ok s
  | r :: rs => do
    let s' ← writeRank locals.length s r (offOf r) total (locals[r]?.getD [])
    writeRanks offOf total locals s' rs

/-- Models the collective write of a distributed array whose offsets the caller gives,
`src/DNDS/SerializerH5.cpp:338-351`, the ranks writing in any `order`. -/
def writeDist {α : Type} (offOf : Nat → Nat) (total : Nat) (locals : List (List α)) (order : List Nat) :
    Res (DistSet α) :=
  writeRanks offOf total locals ⟨List.replicate total none, List.replicate (locals.length + 1) none⟩ order

/-- Models the collective `WriteDataVector` with `ArrayGlobalOffset_Parts`,
`src/DNDS/SerializerH5.cpp:323-337`, the ranks writing in any `order`. -/
def writeParts {α : Type} (locals : List (List α)) (order : List Nat) : Res (DistSet α) :=
  writeDist (scanOffset locals) (scanTotal locals) locals order

/-- Models one rank's `ReadIndexVector` etc. with an unknown offset, `src/DNDS/SerializerH5.cpp:550-700`:
size query through `::rank_offsets`, then the slab.  Returns the data and the offset reported. -/
def readParts {α : Type} (nproc r : Nat) (s : DistSet α) : Res (List (Option α) × Nat × Nat) := do
  Res.assert (s.offs.length = nproc + 1)
  let o ← readSlab s.offs r 2
  match o with
  | [some b, some e] => do
    Res.assert (e ≥ b)
    let d ← readSlab s.data b (e - b)
    .ok (d, s.data.length, b)
  | _ => .abort

/-- Whether a rank takes part in the data transfer of a read, `src/DNDS/SerializerH5.cpp:524` (`buf !=
nullptr`; the buffer is the storage of a vector resized to the local size, which a new vector does not
have when that size is 0). -/
def joinsRead {α : Type} (locals : List (List α)) (r : Nat) : Bool := decide ((locals[r]?.getD []).length > 0)

/-! ## shared vectors of the HDF5 serializer -/

/-- the file (common) and every rank's `ptr_2_pth`, `src/DNDS/SerializerH5.hpp` -/
structure HSt (P V : Type) where
  doc : List (P × Entry P V)
  ptr2pth : List (List (Nat × P))
  deriving Repr, DecidableEq

/-- Models `WriteSharedIndexVector` / `WriteSharedRowsizeVector` of the HDF5 serializer,
`src/DNDS/SerializerH5.cpp:371-394`: `addrs` are the addresses passed by the ranks, `v` the distributed
contents.  The vector is shared only if every rank knows its address; all ranks then write the same
attribute, each with the path from its own table: HDF5 requires these to agree. -/
def h5WriteShared {P V : Type} [DecidableEq P] (s : HSt P V) (p : P) (addrs : List Nat) (v : V) :
    Res (HSt P V) :=
  let found := (s.ptr2pth.zip addrs).map (fun ta => ta.1.lookup ta.2)
  if found.all Option.isSome then
    match found with
    | some q :: rest => if rest.all (fun o => o == some q) then .ok { s with doc := (p, .ref q) :: s.doc } else .ub
    | _ => .ub
  else .ok ⟨(p, .arr v) :: s.doc, (s.ptr2pth.zip addrs).map (fun ta => (ta.2, p) :: ta.1)⟩

end DNDSR.Ser
