import Verif.Model.Array

/-!
# What a 2D array is: a list of rows

Specification for C01-C03.  A value of the array is its list of rows plus, for the tabular layouts,
the common row width (fixed layouts) or row capacity (max layouts).  `Represents` says that an array
object shows exactly that value through its public queries; `SpecStep` says how each mutator changes
the value.
-/

namespace DNDSR.Arr

structure Val (α : Type) where
  rows : List (List α)
  width : Nat

/-- element `(i,j)` of a list of rows, `none` outside -/
def lookup {α : Type} (rows : List (List α)) (i j : Int) : Option α :=
  if 0 ≤ i ∧ 0 ≤ j then (rows[i.toNat]?).bind (fun row => row[j.toNat]?) else none

/-- The array object `a` shows the value `v` through `Size`, `RowSize`, `RowSizeField` and
`operator()(i,j)`: inside the range it returns the element, outside it aborts. -/
structure Represents {α : Type} (ty : Ty) (a : Array α) (v : Val α) : Prop where
  size : a.size = v.rows.length
  rowSize : ∀ i (h : i < v.rows.length), rowSize ty a i = .ok (v.rows[i]).length
  width : ty.layout ≠ .csr → rowSizeField ty a = .ok v.width
  read : ∀ i j : Int, atRead ty a i j =
    match lookup v.rows i j with
    | some x => .ok x
    | none => .abort

/-- `l` cut or padded with `z` to length `n` -/
def padTo {α : Type} (z : α) (l : List α) (n : Nat) : List α := (l ++ List.replicate n z).take n

/-- resizing a fixed-width table: `n` rows of width `r`, holding the old elements in reading order,
cut or padded with `z` -/
def FixedResize {α : Type} (z : α) (v : Val α) (n r : Nat) (v' : Val α) : Prop :=
  v'.width = r ∧ v'.rows.length = n ∧ (∀ row ∈ v'.rows, row.length = r) ∧
  v'.rows.flatten = padTo z v.rows.flatten (n * r)

/-- resizing a max-width table: `n` rows of capacity `r`.  If the row-size table is not shared the
surviving rows keep their sizes (and, when the capacity is unchanged, their elements), all other rows
are empty. -/
def MaxResize {α : Type} (unique : Bool) (v : Val α) (n r : Nat) (v' : Val α) : Prop :=
  v'.width = r ∧ v'.rows.length = n ∧
  (∀ i, i < n → (v'.rows[i]?).map List.length =
    some (if unique then ((v.rows[i]?).map List.length).getD 0 else 0)) ∧
  (unique = true → r = v.width → ∀ i, i < n → i < v.rows.length → v'.rows[i]? = v.rows[i]?)

/-- How each mutator changes the value (when it returns). -/
def SpecStep {α : Type} (z : α) (lay : Layout) (v : Val α) (op : Op α) (v' : Val α) : Prop :=
  match op with
  | .resize2 u n r =>
    (match lay with
     | .csr => v'.rows = padTo [] v.rows n
     | .fixed | .staticFixed => FixedResize z v n r v'
     | .max | .staticMax => MaxResize u v n r v'
     | .errorLayout => False)
  | .resize1 u n =>
    (match lay with
     | .csr => v'.rows = padTo [] v.rows n
     | .staticFixed => FixedResize z v n v.width v'
     | .staticMax => MaxResize u v n v.width v'
     | _ => False)
  | .resizeF n f => lay = .csr ∧ v'.rows.length = n ∧ ∀ i, i < n → (v'.rows[i]?).map List.length = some (f i)
  | .resizeRow i n =>
    0 ≤ i ∧ i < v.rows.length ∧
    (match lay with
     | .csr => v'.rows = v.rows.modify i.toNat (fun row => padTo z row n)
     | .max | .staticMax => v'.width = v.width ∧ n ≤ v.width ∧
        ∃ row', row'.length = n ∧ v'.rows = v.rows.set i.toNat row' ∧
          (∀ row, v.rows[i.toNat]? = some row → row'.take row.length = row.take n)
     | _ => False)
  | .compress | .decompress => v' = v
  | .write i j x => v'.width = v.width ∧ (lookup v.rows i j).isSome ∧
      v'.rows = v.rows.modify i.toNat (fun row => row.set j.toNat x)

/-- Two uses the array does not survive (see the counterexamples in `Verif.Props.Array`): growing an
empty CSR array that has been compressed while empty, and shrinking the capacity of a max-width table
below the size of a surviving row. Row sizes must be below `INT32_MAX` (they are `int32_t`, and
`RowSize` asserts the strict bound). -/
def Usable {α : Type} (ty : Ty) (a : Array α) (v : Val α) (op : Op α) : Prop :=
  match op with
  | .resize2 u n r => (match ty.layout with
    | .csr => a.size = 0 → a.pRowStart = none ∨ n = 0
    | .max => u = true → ∀ i row, i < n → v.rows[i]? = some row → row.length ≤ r
    | _ => True)
  | .resize1 _ n => (match ty.layout with
    | .csr => a.size = 0 → a.pRowStart = none ∨ n = 0
    | _ => True)
  | .resizeF n f => ∀ i, i < n → f i < int32Max
  | .resizeRow _ n => n < int32Max
  | _ => True

/-- every call of the program is `Usable` in the state it is made in -/
def UsableRun {α : Type} (z : α) (ty : Ty) : Array α → List (Op α) → Prop
  | _, [] => True
  | a, op :: ops => (∀ v, Represents ty a v → Usable ty a v op) ∧
      ∀ a', step z ty a op = .ok a' → UsableRun z ty a' ops

/-- value-level execution of a program -/
inductive SpecRun {α : Type} (z : α) (lay : Layout) : Val α → List (Op α) → Val α → Prop where
  | nil (v) : SpecRun z lay v [] v
  | cons {v v' v'' op ops} : SpecStep z lay v op v' → SpecRun z lay v' ops v'' →
      SpecRun z lay v (op :: ops) v''

/-- the value of a default-constructed array -/
def emptyVal {α : Type} (ty : Ty) : Val α :=
  ⟨[], match ty.layout with
    | .staticFixed => ty.rs.toNat
    | .staticMax => ty.rm.toNat
    | _ => 0⟩

/-- which calls are accepted, given `IfCompressed()` and the value; all others abort -/
def Accepts {α : Type} (lay : Layout) (compressed : Bool) (v : Val α) : Op α → Prop
  | .resize2 _ _ r => (match lay with
    | .csr => compressed = false
    | .staticFixed | .staticMax => r = v.width
    | .fixed | .max => True
    | .errorLayout => False)
  | .resize1 _ _ => (match lay with
    | .csr => compressed = false
    | .staticFixed | .staticMax => True
    | _ => False)
  | .resizeF _ _ => lay = .csr
  | .resizeRow i n => 0 ≤ i ∧ i < v.rows.length ∧ (match lay with
    | .csr => compressed = false
    | .max | .staticMax => n ≤ v.width
    | _ => False)
  | .compress | .decompress => True
  | .write i j _ => (lookup v.rows i j).isSome

/-- the states of an array object a program can produce -/
def Reachable {α : Type} (z : α) (ty : Ty) (a : Array α) : Prop :=
  ∃ ops, run z ty Array.empty ops = .ok a ∧ UsableRun z ty Array.empty ops

/-- CSR row starts of a list of rows: total length of the first `i` rows, `i = 0 .. n` -/
def rowStarts {α : Type} (rows : List (List α)) : List Nat :=
  (List.range (rows.length + 1)).map (fun i => (rows.take i).flatten.length)

end DNDSR.Arr
