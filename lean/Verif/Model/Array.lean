import Verif.Model.Basic

/-!
# `DNDS::Array` (`src/DNDS/Array.hpp`)

The 2D container with five storage layouts.  Simplifications, valid for the whole file:
sizes and offsets are natural numbers (negative sizes make `std::vector::resize` throw and are not
modelled; query indices `i`, `j` may be negative); 64-bit overflow of `nSize * rowSize` is not
modelled; alignment (`_align`) does not influence the element storage modelled here; the shared
row-size table is a value, with the number of its owners (`use_count() == 1`) given to the
operations that look at it (sharing itself is modelled in `Verif.Model.ArrayShare`).
-/

namespace DNDSR.Arr

/-- `DynamicSize` and `NonUniformSize`, `src/DNDS/Defines.hpp:172-173`. -/
def DynamicSize : Int := -1
def NonUniformSize : Int := -2
/-- `INT32_MAX` -/
def int32Max : Nat := 2147483647

/-- Models `enum DataLayout`, `src/DNDS/Array.hpp:20-28`. -/
inductive Layout where
  | errorLayout | staticFixed | fixed | max | staticMax | csr
  deriving Repr, DecidableEq

/-- The template parameters `_row_size`, `_row_max` of `Array`, `src/DNDS/Array.hpp:75`. -/
structure Ty where
  rs : Int
  rm : Int
  deriving Repr, DecidableEq

/-- Models `_GetDataLayout`, `src/DNDS/Array.hpp:94-113`. -/
def Ty.layout (ty : Ty) : Layout :=
  if ty.rs ≠ DynamicSize ∧ ty.rs ≠ NonUniformSize ∧ ty.rs ≥ 0 then .staticFixed
  else if ty.rs = DynamicSize then .fixed
  else if ty.rs = NonUniformSize then
    if ty.rm = NonUniformSize then .csr
    else if ty.rm = DynamicSize then .max
    else if ty.rm ≥ 0 then .staticMax
    else .errorLayout
  else .errorLayout

/-- The data members of `Array`, `src/DNDS/Array.hpp:133-139`. -/
structure Array (α : Type) where
  pRowStart : Option (List Nat)
  pRowSizes : Option (List Nat)
  data : List α
  dataU : List (List α)
  size : Nat
  rowSizeDyn : Nat
  deriving Repr, DecidableEq

/-- Models the default constructor, `src/DNDS/Array.hpp:133-146`. -/
def Array.empty {α : Type} : Array α := ⟨none, none, [], [], 0, 0⟩

/-- `std::vector::resize(n)` / `resize(n, z)`: keep a prefix, append value-initialised elements
`z`. -/
def vresize {β : Type} (z : β) (l : List β) (n : Nat) : List β :=
  l.take n ++ List.replicate (n - l.length) z

/-- `std::vector::at(k)`: throws `std::out_of_range` outside. -/
def vat {β : Type} (l : List β) (k : Nat) : Res β :=
  match l[k]? with
  | some v => .ok v
  | none => .abort

/-- row width of a TABLE layout: the stride used by every address computation,
`src/DNDS/Array.hpp:454-461,494-501` -/
def stride {α : Type} (ty : Ty) (a : Array α) : Nat :=
  match ty.layout with
  | .staticFixed => ty.rs.toNat
  | .staticMax => ty.rm.toNat
  | .fixed => a.rowSizeDyn
  | .max => a.rowSizeDyn
  | _ => 0

/-- Models `IfCompressed`, `src/DNDS/Array.hpp:225-241` (for CSR). -/
def ifCompressed {α : Type} (a : Array α) : Bool :=
  if a.size > 0 then a.pRowStart.isSome else false

/-- Models `RowSize(iRow)`, `src/DNDS/Array.hpp:171-197`. -/
def rowSize {α : Type} (ty : Ty) (a : Array α) (iRow : Int) : Res Nat :=
  match ty.layout with
  | .fixed => .ok a.rowSizeDyn
  | .staticFixed => .ok ty.rs.toNat
  | .max | .staticMax => do
    Res.assert (iRow < a.size ∧ iRow ≥ 0)
    match a.pRowSizes with
    | none => .abort
    | some sz => vat sz iRow.toNat
  | .csr => do
    Res.assert (iRow < a.size ∧ iRow ≥ 0)
    if ifCompressed a then
      match a.pRowStart with
      | none => .ub
      | some st => do
        let e ← vat st (iRow.toNat + 1)
        let b ← vat st iRow.toNat
        -- a negative difference would be cast to a negative rowsize: not representable here
        if e < b then .ub else do
        Res.assert (e - b < int32Max)
        .ok (e - b)
    else do
      let row ← vat a.dataU iRow.toNat
      .ok row.length
  | .errorLayout => .ub

/-- Models `RowSizeField()` (with `RowSize()` and `RowSizeMax()`), `src/DNDS/Array.hpp:158-169,
199-215`: the common row width, resp. the row capacity, of a TABLE layout. -/
def rowSizeField {α : Type} (ty : Ty) (a : Array α) : Res Nat :=
  match ty.layout with
  | .max => .ok a.rowSizeDyn
  | .staticMax => .ok ty.rm.toNat
  | .fixed => .ok a.rowSizeDyn
  | .staticFixed => .ok ty.rs.toNat
  | _ => .abort

/-- where an element lives -/
inductive Loc where
  /-- slot of `_data` -/
  | flat (k : Nat)
  /-- slot of `_dataUncompressed[i]` -/
  | unc (i j : Nat)
  deriving Repr, DecidableEq

/-- Models the address computation of `at`, `src/DNDS/Array.hpp:444-473`, including both range
assertions and the `std::vector::at` bound checks. -/
def addr {α : Type} (ty : Ty) (a : Array α) (iRow iCol : Int) : Res Loc := do
  Res.assert (iRow < a.size ∧ iRow ≥ 0)
  let rs ← rowSize ty a iRow
  Res.assert (iCol < rs ∧ iCol ≥ 0)
  let i := iRow.toNat
  let j := iCol.toNat
  let chk (k : Nat) : Res Loc := if k < a.data.length then .ok (.flat k) else .abort
  match ty.layout with
  | .staticFixed => chk (i * ty.rs.toNat + j)
  | .staticMax => chk (i * ty.rm.toNat + j)
  | .fixed => chk (i * a.rowSizeDyn + j)
  | .max => chk (i * a.rowSizeDyn + j)
  | .csr =>
    if ifCompressed a then
      match a.pRowStart with
      | none => .ub
      | some st => do
        let b ← vat st i
        chk (b + j)
    else do
      let row ← vat a.dataU i
      if j < row.length then .ok (.unc i j) else .abort
  | .errorLayout => .ub

/-- dereferencing a location -/
def load {α : Type} (a : Array α) : Loc → Res α
  | .flat k => match a.data[k]? with | some v => .ok v | none => .ub
  | .unc i j => match a.dataU[i]? with
    | some row => (match row[j]? with | some v => .ok v | none => .ub)
    | none => .ub

/-- assigning through a location -/
def store {α : Type} (a : Array α) (v : α) : Loc → Array α
  | .flat k => { a with data := a.data.set k v }
  | .unc i j => { a with dataU := a.dataU.modify i (fun row => row.set j v) }

/-- Models `at(i,j)` / `operator()(i,j)` as a read, `src/DNDS/Array.hpp:444-483`. -/
def atRead {α : Type} (ty : Ty) (a : Array α) (i j : Int) : Res α := do
  let l ← addr ty a i j
  load a l

/-- Models `a(i,j) = v`, `src/DNDS/Array.hpp:475-478`. -/
def atWrite {α : Type} (ty : Ty) (a : Array α) (i j : Int) (v : α) : Res (Array α) := do
  let l ← addr ty a i j
  .ok (store a v l)

/-- Models `operator[](iRow)` for layouts with flat storage: the offset of the row pointer in
`_data`, `src/DNDS/Array.hpp:491-521` (`iRow = _size`, past the end, allowed).  The uncompressed
CSR branch returns a pointer into the row's own vector and is not a flat offset: `none`. -/
def rowPtr {α : Type} (ty : Ty) (a : Array α) (iRow : Int) : Res (Option Nat) := do
  Res.assert (iRow ≤ a.size ∧ iRow ≥ 0)
  let i := iRow.toNat
  match ty.layout with
  | .staticFixed => .ok (some (i * ty.rs.toNat))
  | .staticMax => .ok (some (i * ty.rm.toNat))
  | .fixed => .ok (some (i * a.rowSizeDyn))
  | .max => .ok (some (i * a.rowSizeDyn))
  | .csr =>
    if ifCompressed a then
      match a.pRowStart with
      | none => .ub
      | some st => do
        let b ← vat st i
        .ok (some b)
    else if a.size = 0 then .ok none
    else do
      Res.assert (iRow < a.size)
      let _ ← vat a.dataU i
      .ok none
  | .errorLayout => .ub

/-- `_data.begin()+b, _data.begin()+e` as a range; out of range iterators are undefined. -/
def slice {α : Type} (d : List α) (b e : Nat) : Res (List α) :=
  if b ≤ e ∧ e ≤ d.length then .ok ((d.drop b).take (e - b)) else .ub

/-- the loop of `CSRDecompress`, `src/DNDS/Array.hpp:248-254`, from row `i` for `n` rows -/
def decompressGo {α : Type} (st : List Nat) (d : List α) : Nat → Nat → Res (List (List α))
  | _, 0 => .ok []
  | i, n + 1 => do
    let b ← vat st i
    let e ← vat st (i + 1)
    let row ← slice d b e
    let rest ← decompressGo st d (i + 1) n
    .ok (row :: rest)

/-- Models `CSRDecompress`, `src/DNDS/Array.hpp:243-257`. -/
def csrDecompress {α : Type} (a : Array α) : Res (Array α) :=
  if !ifCompressed a then .ok a
  else match a.pRowStart with
    | none => .ub
    | some st => do
      let u ← decompressGo st a.data 0 a.size
      .ok { a with dataU := u, data := [], pRowStart := none }

/-- first loop of `CSRCompress`, `src/DNDS/Array.hpp:266-272`: row starts after `cur`, for rows
`i .. i+n-1` -/
def rowStartsGo {α : Type} (u : List (List α)) : Nat → Nat → Nat → Res (List Nat)
  | _, _, 0 => .ok []
  | cur, i, n + 1 => do
    let row ← vat u i
    let nxt := cur + row.length
    let rest ← rowStartsGo u nxt (i + 1) n
    .ok (nxt :: rest)

/-- `memcpy(dst.data() + pos, src.data(), sizeof(T)*src.size())` -/
def memcpyAt {α : Type} (dst : List α) (pos : Nat) (src : List α) : Res (List α) :=
  if pos + src.length ≤ dst.length then .ok (dst.take pos ++ src ++ dst.drop (pos + src.length))
  else .ub

/-- second loop of `CSRCompress`, `src/DNDS/Array.hpp:274-285` (the assertion on line 283 after the
copy repeats the bound the copy needs) -/
def copyRowsGo {α : Type} (st : List Nat) (u : List (List α)) : List α → Nat → Nat → Res (List α)
  | d, _, 0 => .ok d
  | d, i, n + 1 => do
    let b ← vat st i
    match u[i]? with
    | none => .ub
    | some row => do
      let d' ← memcpyAt d b row
      Res.assert (b + row.length ≤ d'.length)
      copyRowsGo st u d' (i + 1) n

/-- Models `CSRCompress`, `src/DNDS/Array.hpp:259-287`. -/
def csrCompress {α : Type} (z : α) (a : Array α) : Res (Array α) :=
  if ifCompressed a then .ok a
  else do
    let rest ← rowStartsGo a.dataU 0 0 a.size
    let st := 0 :: rest
    let tot ← vat st a.size
    let d0 := vresize z a.data tot
    let d ← copyRowsGo st a.dataU d0 0 a.size
    .ok { a with pRowStart := some st, data := d, dataU := [] }

/-- the treatment of `_pRowSizes` in both `Resize` overloads, `src/DNDS/Array.hpp:340-344,366-370`:
`unique` is `use_count() == 1` -/
def resizeRowSizes (unique : Bool) (p : Option (List Nat)) (n : Nat) : Option (List Nat) :=
  match unique, p with
  | true, some sz => some (vresize 0 sz n)
  | _, _ => some (List.replicate n 0)

/-- Models `Resize(nSize, nRow_size_dynamic)`, `src/DNDS/Array.hpp:319-347`. -/
def resize2 {α : Type} (z : α) (ty : Ty) (unique : Bool) (a : Array α) (n r : Nat) : Res (Array α) :=
  match ty.layout with
  | .csr => do
    Res.assert (ifCompressed a = false)
    .ok { a with size := n, dataU := vresize [] a.dataU n }
  | .fixed => .ok { a with size := n, data := vresize z a.data (n * r), rowSizeDyn := r }
  | .max => .ok { a with size := n, data := vresize z a.data (n * r), rowSizeDyn := r,
                         pRowSizes := resizeRowSizes unique a.pRowSizes n }
  | .staticFixed => do
    Res.assert ((r : Int) = ty.rs)
    .ok { a with size := n, data := vresize z a.data (n * ty.rs.toNat) }
  | .staticMax => do
    Res.assert ((r : Int) = ty.rm)
    .ok { a with size := n, data := vresize z a.data (n * ty.rm.toNat),
                 pRowSizes := resizeRowSizes unique a.pRowSizes n }
  | .errorLayout => .ub

/-- Models `Resize(nSize)`, `src/DNDS/Array.hpp:349-376`. -/
def resize1 {α : Type} (z : α) (ty : Ty) (unique : Bool) (a : Array α) (n : Nat) : Res (Array α) :=
  match ty.layout with
  | .csr => do
    Res.assert (ifCompressed a = false)
    .ok { a with size := n, dataU := vresize [] a.dataU n }
  | .staticFixed => .ok { a with size := n, data := vresize z a.data (n * ty.rs.toNat) }
  | .staticMax => .ok { a with size := n, data := vresize z a.data (n * ty.rm.toNat),
                               pRowSizes := resizeRowSizes unique a.pRowSizes n }
  | _ => .abort

/-- running sums `(*_pRowStart)[i+1] = (*_pRowStart)[i] + FRowSize(i)`,
`src/DNDS/Array.hpp:386-388` -/
def sumsGo (f : Nat → Nat) : Nat → Nat → Nat → List Nat
  | _, _, 0 => []
  | cur, i, n + 1 => (cur + f i) :: sumsGo f (cur + f i) (i + 1) n

/-- Models `Resize(nSize, FRowSize)`, `src/DNDS/Array.hpp:378-393` (compiles for CSR only). -/
def resizeF {α : Type} (z : α) (ty : Ty) (a : Array α) (n : Nat) (f : Nat → Nat) : Res (Array α) :=
  match ty.layout with
  | .csr => do
    let st := 0 :: sumsGo f 0 0 n
    let tot ← vat st n
    .ok { a with size := n, pRowSizes := none, dataU := [], pRowStart := some st,
                 data := vresize z a.data tot }
  | _ => .abort

/-- Models `ResizeRow(iRow, nRowSize)`, `src/DNDS/Array.hpp:402-425`. -/
def resizeRow {α : Type} (z : α) (ty : Ty) (a : Array α) (iRow : Int) (n : Nat) : Res (Array α) :=
  match ty.layout with
  | .csr => do
    Res.assert (ifCompressed a = false)
    Res.assert (iRow < a.size ∧ iRow ≥ 0)
    let _ ← vat a.dataU iRow.toNat
    .ok { a with dataU := a.dataU.modify iRow.toNat (fun row => vresize z row n) }
  | .max | .staticMax => do
    Res.assert (n ≤ stride ty a)
    Res.assert (iRow < a.size ∧ iRow ≥ 0)
    match a.pRowSizes with
    | none => .abort
    | some sz => do
      let _ ← vat sz iRow.toNat
      .ok { a with pRowSizes := some (sz.set iRow.toNat n) }
  | _ => .abort

/-- Models `Compress` / `Decompress`, `src/DNDS/Array.hpp:289-298` (no-ops for TABLE layouts). -/
def compress {α : Type} (z : α) (ty : Ty) (a : Array α) : Res (Array α) :=
  match ty.layout with
  | .csr => csrCompress z a
  | _ => .ok a

def decompress {α : Type} (ty : Ty) (a : Array α) : Res (Array α) :=
  match ty.layout with
  | .csr => csrDecompress a
  | _ => .ok a

/-- Models `SwapData`, `src/DNDS/Array.hpp:582-603`; returns both arrays. -/
def swapData {α : Type} (ty : Ty) (a b : Array α) : Res (Array α × Array α) := do
  Res.assert (b.size = a.size)
  Res.assert (b.data.length = a.data.length)
  match ty.layout with
  | .csr =>
    if ifCompressed a then
      .ok ({ a with data := b.data, pRowStart := b.pRowStart },
           { b with data := a.data, pRowStart := a.pRowStart })
    else
      .ok ({ a with dataU := b.dataU, pRowSizes := b.pRowSizes },
           { b with dataU := a.dataU, pRowSizes := a.pRowSizes })
  | .errorLayout => .ub
  | _ => .ok ({ a with data := b.data }, { b with data := a.data })

/-- The public mutators. `unique` is whether the array is the only owner of its row-size table. -/
inductive Op (α : Type) where
  | resize2 (unique : Bool) (n r : Nat)
  | resize1 (unique : Bool) (n : Nat)
  | resizeF (n : Nat) (f : Nat → Nat)
  | resizeRow (i : Int) (n : Nat)
  | compress
  | decompress
  | write (i j : Int) (v : α)

def step {α : Type} (z : α) (ty : Ty) (a : Array α) : Op α → Res (Array α)
  | .resize2 u n r => resize2 z ty u a n r
  | .resize1 u n => resize1 z ty u a n
  | .resizeF n f => resizeF z ty a n f
  | .resizeRow i n => resizeRow z ty a i n
  | .compress => compress z ty a
  | .decompress => decompress ty a
  | .write i j v => atWrite ty a i j v

/-- a program: a list of mutator calls -/
def run {α : Type} (z : α) (ty : Ty) (a : Array α) : List (Op α) → Res (Array α)
  | [] => .ok a
  | op :: ops => do
    let a' ← step z ty a op
    run z ty a' ops

end DNDSR.Arr
