import Verif.Model.Array
import Verif.Model.Defines

/-!
# Writing and reading an `Array` (`src/DNDS/Array.hpp:605-808`)

The serializer is the JSON one (`IsPerRank()`); its location is a record of the entries written.
Vectors and byte arrays are stored as they are (C17, C18 treat their encoding and sharing); the
element bytes are abstracted to the elements themselves.
-/

namespace DNDSR.SerArr

open DNDSR.Defines
open DNDSR.Arr hiding Array

/-- template parameters: element size, `_row_size` and `_row_max`, alignment -/
structure STy where
  sz : Nat
  ty : Ty
  align : Int
  deriving Repr, DecidableEq

/-- decimal digits, most significant first -/
def digits (n : Nat) : List Char :=
  if n < 10 then [Char.ofNat (48 + n)] else digits (n / 10) ++ [Char.ofNat (48 + n % 10)]
decreasing_by omega

/-- Models `std::to_string` of an integer. -/
def toStr (i : Int) : List Char := if i < 0 then '-' :: digits i.natAbs else digits i.natAbs

/-- value of a digit -/
def digitVal (c : Char) : Option Nat :=
  if 48 ≤ c.toNat ∧ c.toNat ≤ 57 then some (c.toNat - 48) else none

/-- the longest prefix of digits, read as a number, starting from `acc` -/
def readDigits (acc : Nat) : List Char → Nat
  | [] => acc
  | c :: cs => match digitVal c with
    | some d => readDigits (acc * 10 + d) cs
    | none => acc

/-- Models `std::stoi`: throws if there is no digit or the value is not an `int` (leading blanks and a
leading plus sign, which it also accepts, are not modelled). -/
def stoi (s : List Char) : Res Int :=
  let (neg, t) := match s with
    | '-' :: t => (true, t)
    | t => (false, t)
  match t with
  | [] => .abort
  | c :: _ =>
    if (digitVal c).isNone then .abort
    else
      let v : Int := if neg then -(readDigits 0 t : Int) else (readDigits 0 t : Int)
      if -2147483648 ≤ v ∧ v ≤ 2147483647 then .ok v else .abort

/-- name of the layout, `src/DNDS/Array.hpp:607-617` -/
def layoutName : Layout → List Char
  | .csr => ['C', 'S', 'R']
  | .staticFixed => ['T', 'A', 'B', 'L', 'E', '_', 'S', 't', 'a', 't', 'i', 'c', 'F', 'i', 'x', 'e', 'd']
  | .fixed => ['T', 'A', 'B', 'L', 'E', '_', 'F', 'i', 'x', 'e', 'd']
  | .staticMax => ['T', 'A', 'B', 'L', 'E', '_', 'S', 't', 'a', 't', 'i', 'c', 'M', 'a', 'x']
  | .max => ['T', 'A', 'B', 'L', 'E', '_', 'M', 'a', 'x']
  | .errorLayout => []

/-- Models `GetArraySignature`, `src/DNDS/Array.hpp:605-622`. -/
def signature (t : STy) : List Char :=
  layoutName t.ty.layout ++ ['_', '_'] ++ toStr t.sz ++ ['_'] ++ toStr t.ty.rs ++ ['_'] ++
    toStr t.ty.rm ++ ['_'] ++ toStr t.align

/-- Models `ParseArraySignatureTuple`, `src/DNDS/Array.hpp:641-647`. -/
def parseSignature (s : List Char) : Res (Int × Int × Int × Int) := do
  let strings := splitSStringClean s '_'
  Res.assert (strings.length = 5 ∨ strings.length = 6)
  let n := strings.length
  let a ← stoi (strings[n - 4]?.getD [])
  let b ← stoi (strings[n - 3]?.getD [])
  let c ← stoi (strings[n - 2]?.getD [])
  let d ← stoi (strings[n - 1]?.getD [])
  .ok (a, b, c, d)

/-- Models `ArraySignatureIsCompatible`, `src/DNDS/Array.hpp:649-659`. -/
def sigCompatible (t : STy) (s : List Char) : Res Bool := do
  let (sz, rs, rm, _) ← parseSignature s
  if sz ≠ t.sz then .ok false
  else if rs ≥ 0 ∧ t.ty.rs ≥ 0 ∧ rs ≠ t.ty.rs then .ok false
  else if rm ≥ 0 ∧ t.ty.rm ≥ 0 ∧ rm ≠ t.ty.rm then .ok false
  else .ok true

/-- the entries of the location written -/
structure Doc (α : Type) where
  sig : List Char
  size : Nat
  rowSizeDyn : Nat
  pRowStart : Option (List Nat)
  pRowSizes : Option (List Nat)
  data : List α
  deriving Repr, DecidableEq

/-- `if (!this->IfCompressed()) this->Compress();`, `src/DNDS/Array.hpp:726-727` -/
def ensureCompressed {α : Type} (z : α) (t : STy) (a : Arr.Array α) : Res (Arr.Array α) :=
  if ifCompressed a then .ok a else compress z t.ty a

/-- Models `WriteSerializer`, `src/DNDS/Array.hpp:704-740`; returns the writing array too, which it
may compress.  Writing a null shared pointer dereferences it. -/
def writeArr {α : Type} (z : α) (t : STy) (a : Arr.Array α) : Res (Arr.Array α × Doc α) :=
  match t.ty.layout with
  | .csr => do
    let a' ← ensureCompressed z t a
    match a'.pRowStart with
    | none => .ub
    | some st => .ok (a', ⟨signature t, a'.size, a'.rowSizeDyn, some st, none, a'.data⟩)
  | .max | .staticMax =>
    match a.pRowSizes with
    | none => .ub
    | some sz => .ok (a, ⟨signature t, a.size, a.rowSizeDyn, none, some sz, a.data⟩)
  | _ => .ok (a, ⟨signature t, a.size, a.rowSizeDyn, none, none, a.data⟩)

/-- the adjustments of `_row_size_dynamic`, `src/DNDS/Array.hpp:768-778` -/
def adjustDyn (t : STy) (rsR rmR : Int) (dyn : Nat) : Res Nat := do
  let d1 ← (if t.ty.rs ≥ 0 then
      if rsR = DynamicSize then do
        Res.assert ((dyn : Int) = t.ty.rs)
        .ok 0
      else if rsR ≥ 0 then do
        Res.assert (rsR = t.ty.rs)
        .ok 0
      else .ok dyn
    else .ok dyn)
  let d2 := if t.ty.rs = DynamicSize ∧ rsR ≥ 0 then rsR.toNat else d1
  let d3 := if t.ty.rm = DynamicSize ∧ rmR ≥ 0 then rmR.toNat else d2
  .ok d3

/-- the `is_array` assertion of the shared reads (`src/DNDS/SerializerJSON.cpp:215,242`) -/
def need (o : Option (List Nat)) : Res (List Nat) :=
  match o with
  | some l => .ok l
  | none => .abort

/-- the layout dependent part of `ReadSerializer`, `src/DNDS/Array.hpp:781-803`: `a` already has the size and
`_row_size_dynamic` read.  The final division by the row size is the reported offset. -/
def readBody {α : Type} (t : STy) (a : Arr.Array α) (d : Doc α) : Res (Arr.Array α) :=
  match t.ty.layout with
  | .csr => do
    let st ← need d.pRowStart
    .ok { a with pRowStart := some st, data := d.data }
  | .max | .staticMax => do
    let sz ← need d.pRowSizes
    .ok { a with pRowSizes := some sz, data := d.data }
  | .fixed | .staticFixed =>
    let a' : Arr.Array α := { a with data := d.data }
    if stride t.ty a' = 0 then .ub else .ok a'
  | .errorLayout => .ub

/-- the condition of the assertion in `src/DNDS/Array.hpp:751` -/
def sigAccepted (t : STy) (s : List Char) : Res Bool :=
  if s = signature t then .ok true else sigCompatible t s

/-- Models `ReadSerializer`, `src/DNDS/Array.hpp:742-808`, into an array object in any state `a`. -/
def readArr {α : Type} (t : STy) (a : Arr.Array α) (d : Doc α) : Res (Arr.Array α) := do
  let compat ← sigAccepted t d.sig
  Res.assert (compat = true)
  let (_, rsR, rmR, _) ← parseSignature d.sig
  Res.assert (¬ (t.ty.rs ≠ rsR ∧ (t.ty.rs = NonUniformSize ∨ rsR = NonUniformSize)))
  let dyn ← adjustDyn t rsR rmR d.rowSizeDyn
  readBody t { a with size := d.size, rowSizeDyn := dyn } d

end DNDSR.SerArr
