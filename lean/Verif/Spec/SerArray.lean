import Verif.Model.SerArray
import Verif.Spec.Array

/-!
# Specification for C16: which array types can read what
-/

namespace DNDSR.SerArr

open DNDSR.Arr hiding Array

/-- template parameters the compiler accepts: a layout exists, everything is an `int`, elements are at most
1 GiB (`src/DNDS/Array.hpp:86`) -/
structure Valid (t : STy) : Prop where
  lay : t.ty.layout ≠ .errorLayout
  sz : t.sz ≤ 1073741824
  rs : t.ty.rs ≤ 2147483647
  rm : -2147483648 ≤ t.ty.rm ∧ t.ty.rm ≤ 2147483647
  align : -2147483648 ≤ t.align ∧ t.align ≤ 2147483647

/-- the row maximum of a fixed-width type is left at its default, the row size -/
def Plain (t : STy) : Prop := t.ty.rs ≠ NonUniformSize → t.ty.rm = t.ty.rs

inductive Kind where
  | fixed | max | csr
  deriving DecidableEq

/-- the three kinds of arrays -/
def kind (t : STy) : Kind :=
  match t.ty.layout with
  | .csr => .csr
  | .max | .staticMax => .max
  | _ => .fixed

/-- A reader type is compatible with an array of a writer type and of row width (capacity) `w`: same element
size, same kind, and if the reader's width is static it is `w`. -/
def Compatible (W R : STy) (w : Nat) : Prop :=
  W.sz = R.sz ∧ kind W = kind R ∧ (R.ty.layout = .staticFixed → R.ty.rs = (w : Int)) ∧
    (R.ty.layout = .staticMax → R.ty.rm = (w : Int))

end DNDSR.SerArr
