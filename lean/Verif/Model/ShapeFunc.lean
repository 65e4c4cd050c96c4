import Verif.Model.Basic
import Verif.Model.Elements
import Verif.Model.Gas
import Mathlib.Analysis.Real.Sqrt

/-!
# Shape functions of the elements and their derivatives

The tables of `ShapeFunc_DiNj`, `src/Geom/Elements.hpp:639-2178`. Each entry is kept as the expression of the
source (`Ex`), so that the same text can be evaluated and examined. The arithmetic is that of the real numbers:
rounding is not modelled. Rows are dense: an entry the source does not assign is `0`, since every caller clears
the table first (`GetNj`, `GetD1Nj`, `GetDiNj`, `src/Geom/Elements.hpp:2294-2425`).
-/

namespace DNDSR.Shape

open DNDSR.Elem

/-- The expressions the tables are written in: literals, the three coordinates, arithmetic and `pow`. -/
inductive Ex where
  | lit (n : Nat)
  | var (i : Fin 3)
  | neg (a : Ex)
  | add (a b : Ex)
  | sub (a b : Ex)
  | mul (a b : Ex)
  | div (a b : Ex)
  | pow (a : Ex) (n : Nat)

instance (n : Nat) : OfNat Ex n := ⟨.lit n⟩
instance : Neg Ex := ⟨.neg⟩
instance : Add Ex := ⟨.add⟩
instance : Sub Ex := ⟨.sub⟩
instance : Mul Ex := ⟨.mul⟩
instance : Div Ex := ⟨.div⟩

/-- Models `__iipow`, `src/Geom/Elements.hpp:612-625`, for the exponents that occur in the tables (none is negative). -/
def iipow (x : ℝ) : Nat → ℝ
  | 0 => 1
  | 1 => x
  | n + 2 => x * iipow x (n + 1)

/-- The value of an expression at a point. A division by zero, which has no place in the real numbers, gives `0`
here; `Ex.Defined` tells whether one happens. -/
noncomputable def Ex.eval (p : Fin 3 → ℝ) : Ex → ℝ
  | .lit n => n
  | .var i => p i
  | .neg a => -a.eval p
  | .add a b => a.eval p + b.eval p
  | .sub a b => a.eval p - b.eval p
  | .mul a b => a.eval p * b.eval p
  | .div a b => a.eval p / b.eval p
  | .pow a n => iipow (a.eval p) n

/-- No division by zero happens in the evaluation. -/
def Ex.Defined (p : Fin 3 → ℝ) : Ex → Prop
  | .lit _ => True
  | .var _ => True
  | .neg a => a.Defined p
  | .add a b => a.Defined p ∧ b.Defined p
  | .sub a b => a.Defined p ∧ b.Defined p
  | .mul a b => a.Defined p ∧ b.Defined p
  | .div a b => a.Defined p ∧ b.Defined p ∧ b.eval p ≠ 0
  | .pow a _ => a.Defined p

section Tables

local notation "xi" => (Ex.var 0)
local notation "et" => (Ex.var 1)
local notation "zt" => (Ex.var 2)
local notation "pow" => Ex.pow

/-- A table the source leaves at zero. -/
def zeros (rows cols : Nat) : List (List Ex) := List.replicate rows (List.replicate cols (.lit 0))

/-- Models the values of `Line2`, `src/Geom/Elements.hpp:653-656`. -/
def line2_0 : List (List Ex) :=
  [[xi * ((-1) / 2) + 1 / 2, xi / 2 + 1 / 2]]

/-- Models the derivatives of order 1 of `Line2`, `src/Geom/Elements.hpp:658-661`. -/
def line2_1 : List (List Ex) :=
  [[(-1) / 2, 1 / 2]]

/-- Models the derivatives of order 2 of `Line2`, `src/Geom/Elements.hpp:663-665`. -/
def line2_2 : List (List Ex) :=
  [[0, 0]]

/-- Models the derivatives of order 3 of `Line2`, `src/Geom/Elements.hpp:667-667`. -/
def line2_3 : List (List Ex) := zeros 1 2

/-- Models the values of `Line3`, `src/Geom/Elements.hpp:675-679`. -/
def line3_0 : List (List Ex) :=
  [[xi * (xi - 1) / 2, xi * (xi + 1) / 2, (-xi) * xi + 1]]

/-- Models the derivatives of order 1 of `Line3`, `src/Geom/Elements.hpp:681-685`. -/
def line3_1 : List (List Ex) :=
  [[xi - 1 / 2, xi + 1 / 2, xi * (-2)]]

/-- Models the derivatives of order 2 of `Line3`, `src/Geom/Elements.hpp:687-689`. -/
def line3_2 : List (List Ex) :=
  [[1, 1, -2]]

/-- Models the derivatives of order 3 of `Line3`, `src/Geom/Elements.hpp:691-691`. -/
def line3_3 : List (List Ex) := zeros 1 3

/-- Models the values of `Tri3`, `src/Geom/Elements.hpp:699-703`. -/
def tri3_0 : List (List Ex) :=
  [[-et - xi + 1, xi, et]]

/-- Models the derivatives of order 1 of `Tri3`, `src/Geom/Elements.hpp:705-710`. -/
def tri3_1 : List (List Ex) :=
  [[-1, 1, 0],
   [-1, 0, 1]]

/-- Models the derivatives of order 2 of `Tri3`, `src/Geom/Elements.hpp:712-712`. -/
def tri3_2 : List (List Ex) := zeros 3 3

/-- Models the derivatives of order 3 of `Tri3`, `src/Geom/Elements.hpp:716-716`. -/
def tri3_3 : List (List Ex) := zeros 4 3

/-- Models the values of `Tri6`, `src/Geom/Elements.hpp:724-731`. -/
def tri6_0 : List (List Ex) :=
  [[(et + xi - 1) * (et + xi - 1 / 2) * 2, xi * (xi - 1 / 2) * 2, et * (et - 1 / 2) * 2, xi * (et * 2 + xi * 2 - 2) * (-2),
    et * xi * 4, et * (et + xi - 1) * (-4)]]

/-- Models the derivatives of order 1 of `Tri6`, `src/Geom/Elements.hpp:733-744`. -/
def tri6_1 : List (List Ex) :=
  [[et * 4 + xi * 4 - 3, xi * 4 - 1, 0, et * (-4) - xi * 8 + 4, et * 4, et * (-4)],
   [et * 4 + xi * 4 - 3, 0, et * 4 - 1, xi * (-4), xi * 4, et * (-8) - xi * 4 + 4]]

/-- Models the derivatives of order 2 of `Tri6`, `src/Geom/Elements.hpp:746-757`. -/
def tri6_2 : List (List Ex) :=
  [[4, 4, 0, -8, 0, 0],
   [4, 0, 0, -4, 4, -4],
   [4, 0, 4, 0, 0, -8]]

/-- Models the derivatives of order 3 of `Tri6`, `src/Geom/Elements.hpp:759-759`. -/
def tri6_3 : List (List Ex) := zeros 4 6

/-- Models the values of `Quad4`, `src/Geom/Elements.hpp:767-772`. -/
def quad4_0 : List (List Ex) :=
  [[(et / 2 - 1 / 2) * (xi / 2 - 1 / 2), (-(et / 2 - 1 / 2)) * (xi / 2 + 1 / 2), (et / 2 + 1 / 2) * (xi / 2 + 1 / 2),
    (-(et / 2 + 1 / 2)) * (xi / 2 - 1 / 2)]]

/-- Models the derivatives of order 1 of `Quad4`, `src/Geom/Elements.hpp:774-783`. -/
def quad4_1 : List (List Ex) :=
  [[et / 4 - 1 / 4, et * ((-1) / 4) + 1 / 4, et / 4 + 1 / 4, et * ((-1) / 4) - 1 / 4],
   [xi / 4 - 1 / 4, xi * ((-1) / 4) - 1 / 4, xi / 4 + 1 / 4, xi * ((-1) / 4) + 1 / 4]]

/-- Models the derivatives of order 2 of `Quad4`, `src/Geom/Elements.hpp:785-790`. -/
def quad4_2 : List (List Ex) :=
  [[0, 0, 0, 0],
   [1 / 4, (-1) / 4, 1 / 4, (-1) / 4],
   [0, 0, 0, 0]]

/-- Models the derivatives of order 3 of `Quad4`, `src/Geom/Elements.hpp:792-792`. -/
def quad4_3 : List (List Ex) := zeros 4 4

/-- Models the values of `Quad9`, `src/Geom/Elements.hpp:800-810`. -/
def quad9_0 : List (List Ex) :=
  [[et * xi * (et - 1) * (xi - 1) / 4, et * xi * (et - 1) * (xi + 1) / 4, et * xi * (et + 1) * (xi + 1) / 4,
    et * xi * (et + 1) * (xi - 1) / 4, et * (et - 1) * (xi - 1) * (xi + 1) * ((-1) / 2),
    xi * (et - 1) * (et + 1) * (xi + 1) * ((-1) / 2), et * (et + 1) * (xi - 1) * (xi + 1) * ((-1) / 2),
    xi * (et - 1) * (et + 1) * (xi - 1) * ((-1) / 2), (et - 1) * (et + 1) * (xi - 1) * (xi + 1)]]

/-- Models the derivatives of order 1 of `Quad9`, `src/Geom/Elements.hpp:812-831`. -/
def quad9_1 : List (List Ex) :=
  [[et * (xi * 2 - 1) * (et - 1) / 4, et * (xi * 2 + 1) * (et - 1) / 4, et * (xi * 2 + 1) * (et + 1) / 4,
    et * (xi * 2 - 1) * (et + 1) / 4, (-et) * xi * (et - 1), (et * et - 1) * (xi * 2 + 1) * ((-1) / 2), (-et) * xi * (et + 1),
    (et * et - 1) * (xi * 2 - 1) * ((-1) / 2), xi * (et * et - 1) * 2],
   [xi * (et * 2 - 1) * (xi - 1) / 4, xi * (et * 2 - 1) * (xi + 1) / 4, xi * (et * 2 + 1) * (xi + 1) / 4,
    xi * (et * 2 + 1) * (xi - 1) / 4, (et * 2 - 1) * (xi * xi - 1) * ((-1) / 2), (-et) * xi * (xi + 1),
    (et * 2 + 1) * (xi * xi - 1) * ((-1) / 2), (-et) * xi * (xi - 1), et * (xi * xi - 1) * 2]]

/-- Models the derivatives of order 2 of `Quad9`, `src/Geom/Elements.hpp:833-861`. -/
def quad9_2 : List (List Ex) :=
  [[et * (et - 1) / 2, et * (et - 1) / 2, et * (et + 1) / 2, et * (et + 1) / 2, (-et) * (et - 1), (-et) * et + 1, (-et) * (et + 1),
    (-et) * et + 1, et * et * 2 - 2],
   [(et * 2 - 1) * (xi * 2 - 1) / 4, (et * 2 - 1) * (xi * 2 + 1) / 4, (et * 2 + 1) * (xi * 2 + 1) / 4, (et * 2 + 1) * (xi * 2 - 1) / 4,
    (-xi) * (et * 2 - 1), (-et) * (xi * 2 + 1), (-xi) * (et * 2 + 1), (-et) * (xi * 2 - 1), et * xi * 4],
   [xi * (xi - 1) / 2, xi * (xi + 1) / 2, xi * (xi + 1) / 2, xi * (xi - 1) / 2, (-xi) * xi + 1, (-xi) * (xi + 1), (-xi) * xi + 1,
    (-xi) * (xi - 1), xi * xi * 2 - 2]]

/-- Models the derivatives of order 3 of `Quad9`, `src/Geom/Elements.hpp:863-882`. -/
def quad9_3 : List (List Ex) :=
  [[0, 0, 0, 0, 0, 0, 0, 0, 0],
   [et - 1 / 2, et - 1 / 2, et + 1 / 2, et + 1 / 2, et * (-2) + 1, et * (-2), et * (-2) - 1, et * (-2), et * 4],
   [xi - 1 / 2, xi + 1 / 2, xi + 1 / 2, xi - 1 / 2, xi * (-2), xi * (-2) - 1, xi * (-2), xi * (-2) + 1, xi * 4],
   [0, 0, 0, 0, 0, 0, 0, 0, 0]]

/-- Models the values of `Tet4`, `src/Geom/Elements.hpp:888-893`. -/
def tet4_0 : List (List Ex) :=
  [[-et - xi - zt + 1, xi, et, zt]]

/-- Models the derivatives of order 1 of `Tet4`, `src/Geom/Elements.hpp:895-902`. -/
def tet4_1 : List (List Ex) :=
  [[-1, 1, 0, 0],
   [-1, 0, 1, 0],
   [-1, 0, 0, 1]]

/-- Models the derivatives of order 2 of `Tet4`, `src/Geom/Elements.hpp:904-904`. -/
def tet4_2 : List (List Ex) := zeros 6 4

/-- Models the derivatives of order 3 of `Tet4`, `src/Geom/Elements.hpp:908-908`. -/
def tet4_3 : List (List Ex) := zeros 10 4

/-- Models the values of `Tet10`, `src/Geom/Elements.hpp:916-927`. -/
def tet10_0 : List (List Ex) :=
  [[(et + xi + zt - 1) * (et + xi + zt - 1 / 2) * 2, xi * (xi - 1 / 2) * 2, et * (et - 1 / 2) * 2, zt * (zt - 1 / 2) * 2,
    xi * (et * 2 + xi * 2 + zt * 2 - 2) * (-2), et * xi * 4, et * (et + xi + zt - 1) * (-4),
    zt * (et * 2 + xi * 2 + zt * 2 - 2) * (-2), xi * zt * 4, et * zt * 4]]

/-- Models the derivatives of order 1 of `Tet10`, `src/Geom/Elements.hpp:929-951`. -/
def tet10_1 : List (List Ex) :=
  [[et * 4 + xi * 4 + zt * 4 - 3, xi * 4 - 1, 0, 0, et * (-4) - xi * 8 - zt * 4 + 4, et * 4, et * (-4), zt * (-4), zt * 4, 0],
   [et * 4 + xi * 4 + zt * 4 - 3, 0, et * 4 - 1, 0, xi * (-4), xi * 4, et * (-8) - xi * 4 - zt * 4 + 4, zt * (-4), 0, zt * 4],
   [et * 4 + xi * 4 + zt * 4 - 3, 0, 0, zt * 4 - 1, xi * (-4), 0, et * (-4), et * (-4) - xi * 4 - zt * 8 + 4, xi * 4, et * 4]]

/-- Models the derivatives of order 2 of `Tet10`, `src/Geom/Elements.hpp:953-975`. -/
def tet10_2 : List (List Ex) :=
  [[4, 4, 0, 0, -8, 0, 0, 0, 0, 0],
   [4, 0, 4, 0, 0, 0, -8, 0, 0, 0],
   [4, 0, 0, 4, 0, 0, 0, -8, 0, 0],
   [4, 0, 0, 0, -4, 4, -4, 0, 0, 0],
   [4, 0, 0, 0, 0, 0, -4, -4, 0, 4],
   [4, 0, 0, 0, -4, 0, 0, -4, 4, 0]]

/-- Models the derivatives of order 3 of `Tet10`, `src/Geom/Elements.hpp:977-977`. -/
def tet10_3 : List (List Ex) := zeros 10 10

/-- Models the values of `Hex8`, `src/Geom/Elements.hpp:985-994`. -/
def hex8_0 : List (List Ex) :=
  [[(-(et / 2 - 1 / 2)) * (xi / 2 - 1 / 2) * (zt / 2 - 1 / 2), (et / 2 - 1 / 2) * (xi / 2 + 1 / 2) * (zt / 2 - 1 / 2),
    (-(et / 2 + 1 / 2)) * (xi / 2 + 1 / 2) * (zt / 2 - 1 / 2), (et / 2 + 1 / 2) * (xi / 2 - 1 / 2) * (zt / 2 - 1 / 2),
    (et / 2 - 1 / 2) * (xi / 2 - 1 / 2) * (zt / 2 + 1 / 2), (-(et / 2 - 1 / 2)) * (xi / 2 + 1 / 2) * (zt / 2 + 1 / 2),
    (et / 2 + 1 / 2) * (xi / 2 + 1 / 2) * (zt / 2 + 1 / 2), (-(et / 2 + 1 / 2)) * (xi / 2 - 1 / 2) * (zt / 2 + 1 / 2)]]

/-- Models the derivatives of order 1 of `Hex8`, `src/Geom/Elements.hpp:996-1021`. -/
def hex8_1 : List (List Ex) :=
  [[(et / 2 - 1 / 2) * (zt / 2 - 1 / 2) * ((-1) / 2), (et / 2 - 1 / 2) * (zt / 2 - 1 / 2) / 2,
    (et / 2 + 1 / 2) * (zt / 2 - 1 / 2) * ((-1) / 2), (et / 2 + 1 / 2) * (zt / 2 - 1 / 2) / 2, (et / 2 - 1 / 2) * (zt / 2 + 1 / 2) / 2,
    (et / 2 - 1 / 2) * (zt / 2 + 1 / 2) * ((-1) / 2), (et / 2 + 1 / 2) * (zt / 2 + 1 / 2) / 2,
    (et / 2 + 1 / 2) * (zt / 2 + 1 / 2) * ((-1) / 2)],
   [(xi / 2 - 1 / 2) * (zt / 2 - 1 / 2) * ((-1) / 2), (xi / 2 + 1 / 2) * (zt / 2 - 1 / 2) / 2,
    (xi / 2 + 1 / 2) * (zt / 2 - 1 / 2) * ((-1) / 2), (xi / 2 - 1 / 2) * (zt / 2 - 1 / 2) / 2, (xi / 2 - 1 / 2) * (zt / 2 + 1 / 2) / 2,
    (xi / 2 + 1 / 2) * (zt / 2 + 1 / 2) * ((-1) / 2), (xi / 2 + 1 / 2) * (zt / 2 + 1 / 2) / 2,
    (xi / 2 - 1 / 2) * (zt / 2 + 1 / 2) * ((-1) / 2)],
   [(et / 2 - 1 / 2) * (xi / 2 - 1 / 2) * ((-1) / 2), (et / 2 - 1 / 2) * (xi / 2 + 1 / 2) / 2,
    (et / 2 + 1 / 2) * (xi / 2 + 1 / 2) * ((-1) / 2), (et / 2 + 1 / 2) * (xi / 2 - 1 / 2) / 2, (et / 2 - 1 / 2) * (xi / 2 - 1 / 2) / 2,
    (et / 2 - 1 / 2) * (xi / 2 + 1 / 2) * ((-1) / 2), (et / 2 + 1 / 2) * (xi / 2 + 1 / 2) / 2,
    (et / 2 + 1 / 2) * (xi / 2 - 1 / 2) * ((-1) / 2)]]

/-- Models the derivatives of order 2 of `Hex8`, `src/Geom/Elements.hpp:1023-1048`. -/
def hex8_2 : List (List Ex) :=
  [[0, 0, 0, 0, 0, 0, 0, 0],
   [0, 0, 0, 0, 0, 0, 0, 0],
   [0, 0, 0, 0, 0, 0, 0, 0],
   [zt * ((-1) / 8) + 1 / 8, zt / 8 - 1 / 8, zt * ((-1) / 8) + 1 / 8, zt / 8 - 1 / 8, zt / 8 + 1 / 8, zt * ((-1) / 8) - 1 / 8,
    zt / 8 + 1 / 8, zt * ((-1) / 8) - 1 / 8],
   [xi * ((-1) / 8) + 1 / 8, xi / 8 + 1 / 8, xi * ((-1) / 8) - 1 / 8, xi / 8 - 1 / 8, xi / 8 - 1 / 8, xi * ((-1) / 8) - 1 / 8,
    xi / 8 + 1 / 8, xi * ((-1) / 8) + 1 / 8],
   [et * ((-1) / 8) + 1 / 8, et / 8 - 1 / 8, et * ((-1) / 8) - 1 / 8, et / 8 + 1 / 8, et / 8 - 1 / 8, et * ((-1) / 8) + 1 / 8,
    et / 8 + 1 / 8, et * ((-1) / 8) - 1 / 8]]

/-- Models the derivatives of order 3 of `Hex8`, `src/Geom/Elements.hpp:1050-1059`. -/
def hex8_3 : List (List Ex) :=
  [[0, 0, 0, 0, 0, 0, 0, 0],
   [0, 0, 0, 0, 0, 0, 0, 0],
   [0, 0, 0, 0, 0, 0, 0, 0],
   [0, 0, 0, 0, 0, 0, 0, 0],
   [0, 0, 0, 0, 0, 0, 0, 0],
   [0, 0, 0, 0, 0, 0, 0, 0],
   [0, 0, 0, 0, 0, 0, 0, 0],
   [0, 0, 0, 0, 0, 0, 0, 0],
   [0, 0, 0, 0, 0, 0, 0, 0],
   [(-1) / 8, 1 / 8, (-1) / 8, 1 / 8, 1 / 8, (-1) / 8, 1 / 8, (-1) / 8]]

/-- Models the values of `Hex27`, `src/Geom/Elements.hpp:1064-1092`. -/
def hex27_0 : List (List Ex) :=
  [[et * xi * zt * (et - 1) * (xi - 1) * (zt - 1) / 8, et * xi * zt * (et - 1) * (xi + 1) * (zt - 1) / 8,
    et * xi * zt * (et + 1) * (xi + 1) * (zt - 1) / 8, et * xi * zt * (et + 1) * (xi - 1) * (zt - 1) / 8,
    et * xi * zt * (et - 1) * (xi - 1) * (zt + 1) / 8, et * xi * zt * (et - 1) * (xi + 1) * (zt + 1) / 8,
    et * xi * zt * (et + 1) * (xi + 1) * (zt + 1) / 8, et * xi * zt * (et + 1) * (xi - 1) * (zt + 1) / 8,
    et * zt * (et - 1) * (xi - 1) * (xi + 1) * (zt - 1) * ((-1) / 4), xi * zt * (et - 1) * (et + 1) * (xi + 1) * (zt - 1) * ((-1) / 4),
    et * zt * (et + 1) * (xi - 1) * (xi + 1) * (zt - 1) * ((-1) / 4), xi * zt * (et - 1) * (et + 1) * (xi - 1) * (zt - 1) * ((-1) / 4),
    et * xi * (et - 1) * (xi - 1) * (zt - 1) * (zt + 1) * ((-1) / 4), et * xi * (et - 1) * (xi + 1) * (zt - 1) * (zt + 1) * ((-1) / 4),
    et * xi * (et + 1) * (xi + 1) * (zt - 1) * (zt + 1) * ((-1) / 4), et * xi * (et + 1) * (xi - 1) * (zt - 1) * (zt + 1) * ((-1) / 4),
    et * zt * (et - 1) * (xi - 1) * (xi + 1) * (zt + 1) * ((-1) / 4), xi * zt * (et - 1) * (et + 1) * (xi + 1) * (zt + 1) * ((-1) / 4),
    et * zt * (et + 1) * (xi - 1) * (xi + 1) * (zt + 1) * ((-1) / 4), xi * zt * (et - 1) * (et + 1) * (xi - 1) * (zt + 1) * ((-1) / 4),
    zt * (et - 1) * (et + 1) * (xi - 1) * (xi + 1) * (zt - 1) / 2, et * (et - 1) * (xi - 1) * (xi + 1) * (zt - 1) * (zt + 1) / 2,
    xi * (et - 1) * (et + 1) * (xi + 1) * (zt - 1) * (zt + 1) / 2, et * (et + 1) * (xi - 1) * (xi + 1) * (zt - 1) * (zt + 1) / 2,
    xi * (et - 1) * (et + 1) * (xi - 1) * (zt - 1) * (zt + 1) / 2, zt * (et - 1) * (et + 1) * (xi - 1) * (xi + 1) * (zt + 1) / 2,
    (-(et - 1)) * (et + 1) * (xi - 1) * (xi + 1) * (zt - 1) * (zt + 1)]]

/-- Models the derivatives of order 1 of `Hex27`, `src/Geom/Elements.hpp:1094-1176`. -/
def hex27_1 : List (List Ex) :=
  [[et * zt * (xi * 2 - 1) * (et - 1) * (zt - 1) / 8, et * zt * (xi * 2 + 1) * (et - 1) * (zt - 1) / 8,
    et * zt * (xi * 2 + 1) * (et + 1) * (zt - 1) / 8, et * zt * (xi * 2 - 1) * (et + 1) * (zt - 1) / 8,
    et * zt * (xi * 2 - 1) * (et - 1) * (zt + 1) / 8, et * zt * (xi * 2 + 1) * (et - 1) * (zt + 1) / 8,
    et * zt * (xi * 2 + 1) * (et + 1) * (zt + 1) / 8, et * zt * (xi * 2 - 1) * (et + 1) * (zt + 1) / 8,
    et * xi * zt * (et - 1) * (zt - 1) * ((-1) / 2), zt * (et * et - 1) * (xi * 2 + 1) * (zt - 1) * ((-1) / 4),
    et * xi * zt * (et + 1) * (zt - 1) * ((-1) / 2), zt * (et * et - 1) * (xi * 2 - 1) * (zt - 1) * ((-1) / 4),
    et * (xi * 2 - 1) * (zt * zt - 1) * (et - 1) * ((-1) / 4), et * (xi * 2 + 1) * (zt * zt - 1) * (et - 1) * ((-1) / 4),
    et * (xi * 2 + 1) * (zt * zt - 1) * (et + 1) * ((-1) / 4), et * (xi * 2 - 1) * (zt * zt - 1) * (et + 1) * ((-1) / 4),
    et * xi * zt * (et - 1) * (zt + 1) * ((-1) / 2), zt * (et * et - 1) * (xi * 2 + 1) * (zt + 1) * ((-1) / 4),
    et * xi * zt * (et + 1) * (zt + 1) * ((-1) / 2), zt * (et * et - 1) * (xi * 2 - 1) * (zt + 1) * ((-1) / 4),
    xi * zt * (et * et - 1) * (zt - 1), et * xi * (zt * zt - 1) * (et - 1), (et * et - 1) * (xi * 2 + 1) * (zt * zt - 1) / 2,
    et * xi * (zt * zt - 1) * (et + 1), (et * et - 1) * (xi * 2 - 1) * (zt * zt - 1) / 2, xi * zt * (et * et - 1) * (zt + 1),
    xi * (et * et - 1) * (zt * zt - 1) * (-2)],
   [xi * zt * (et * 2 - 1) * (xi - 1) * (zt - 1) / 8, xi * zt * (et * 2 - 1) * (xi + 1) * (zt - 1) / 8,
    xi * zt * (et * 2 + 1) * (xi + 1) * (zt - 1) / 8, xi * zt * (et * 2 + 1) * (xi - 1) * (zt - 1) / 8,
    xi * zt * (et * 2 - 1) * (xi - 1) * (zt + 1) / 8, xi * zt * (et * 2 - 1) * (xi + 1) * (zt + 1) / 8,
    xi * zt * (et * 2 + 1) * (xi + 1) * (zt + 1) / 8, xi * zt * (et * 2 + 1) * (xi - 1) * (zt + 1) / 8,
    zt * (et * 2 - 1) * (xi * xi - 1) * (zt - 1) * ((-1) / 4), et * xi * zt * (xi + 1) * (zt - 1) * ((-1) / 2),
    zt * (et * 2 + 1) * (xi * xi - 1) * (zt - 1) * ((-1) / 4), et * xi * zt * (xi - 1) * (zt - 1) * ((-1) / 2),
    xi * (et * 2 - 1) * (zt * zt - 1) * (xi - 1) * ((-1) / 4), xi * (et * 2 - 1) * (zt * zt - 1) * (xi + 1) * ((-1) / 4),
    xi * (et * 2 + 1) * (zt * zt - 1) * (xi + 1) * ((-1) / 4), xi * (et * 2 + 1) * (zt * zt - 1) * (xi - 1) * ((-1) / 4),
    zt * (et * 2 - 1) * (xi * xi - 1) * (zt + 1) * ((-1) / 4), et * xi * zt * (xi + 1) * (zt + 1) * ((-1) / 2),
    zt * (et * 2 + 1) * (xi * xi - 1) * (zt + 1) * ((-1) / 4), et * xi * zt * (xi - 1) * (zt + 1) * ((-1) / 2),
    et * zt * (xi * xi - 1) * (zt - 1), (et * 2 - 1) * (xi * xi - 1) * (zt * zt - 1) / 2, et * xi * (zt * zt - 1) * (xi + 1),
    (et * 2 + 1) * (xi * xi - 1) * (zt * zt - 1) / 2, et * xi * (zt * zt - 1) * (xi - 1), et * zt * (xi * xi - 1) * (zt + 1),
    et * (xi * xi - 1) * (zt * zt - 1) * (-2)],
   [et * xi * (zt * 2 - 1) * (et - 1) * (xi - 1) / 8, et * xi * (zt * 2 - 1) * (et - 1) * (xi + 1) / 8,
    et * xi * (zt * 2 - 1) * (et + 1) * (xi + 1) / 8, et * xi * (zt * 2 - 1) * (et + 1) * (xi - 1) / 8,
    et * xi * (zt * 2 + 1) * (et - 1) * (xi - 1) / 8, et * xi * (zt * 2 + 1) * (et - 1) * (xi + 1) / 8,
    et * xi * (zt * 2 + 1) * (et + 1) * (xi + 1) / 8, et * xi * (zt * 2 + 1) * (et + 1) * (xi - 1) / 8,
    et * (xi * xi - 1) * (zt * 2 - 1) * (et - 1) * ((-1) / 4), xi * (et * et - 1) * (zt * 2 - 1) * (xi + 1) * ((-1) / 4),
    et * (xi * xi - 1) * (zt * 2 - 1) * (et + 1) * ((-1) / 4), xi * (et * et - 1) * (zt * 2 - 1) * (xi - 1) * ((-1) / 4),
    et * xi * zt * (et - 1) * (xi - 1) * ((-1) / 2), et * xi * zt * (et - 1) * (xi + 1) * ((-1) / 2),
    et * xi * zt * (et + 1) * (xi + 1) * ((-1) / 2), et * xi * zt * (et + 1) * (xi - 1) * ((-1) / 2),
    et * (xi * xi - 1) * (zt * 2 + 1) * (et - 1) * ((-1) / 4), xi * (et * et - 1) * (zt * 2 + 1) * (xi + 1) * ((-1) / 4),
    et * (xi * xi - 1) * (zt * 2 + 1) * (et + 1) * ((-1) / 4), xi * (et * et - 1) * (zt * 2 + 1) * (xi - 1) * ((-1) / 4),
    (et * et - 1) * (xi * xi - 1) * (zt * 2 - 1) / 2, et * zt * (xi * xi - 1) * (et - 1), xi * zt * (et * et - 1) * (xi + 1),
    et * zt * (xi * xi - 1) * (et + 1), xi * zt * (et * et - 1) * (xi - 1), (et * et - 1) * (xi * xi - 1) * (zt * 2 + 1) / 2,
    zt * (et * et - 1) * (xi * xi - 1) * (-2)]]

/-- Models the derivatives of order 2 of `Hex27`, `src/Geom/Elements.hpp:1178-1341`. -/
def hex27_2 : List (List Ex) :=
  [[et * zt * (et - 1) * (zt - 1) / 4, et * zt * (et - 1) * (zt - 1) / 4, et * zt * (et + 1) * (zt - 1) / 4,
    et * zt * (et + 1) * (zt - 1) / 4, et * zt * (et - 1) * (zt + 1) / 4, et * zt * (et - 1) * (zt + 1) / 4,
    et * zt * (et + 1) * (zt + 1) / 4, et * zt * (et + 1) * (zt + 1) / 4, et * zt * (et - 1) * (zt - 1) * ((-1) / 2),
    zt * (et - 1) * (et + 1) * (zt - 1) * ((-1) / 2), et * zt * (et + 1) * (zt - 1) * ((-1) / 2),
    zt * (et - 1) * (et + 1) * (zt - 1) * ((-1) / 2), et * (et - 1) * (zt - 1) * (zt + 1) * ((-1) / 2),
    et * (et - 1) * (zt - 1) * (zt + 1) * ((-1) / 2), et * (et + 1) * (zt - 1) * (zt + 1) * ((-1) / 2),
    et * (et + 1) * (zt - 1) * (zt + 1) * ((-1) / 2), et * zt * (et - 1) * (zt + 1) * ((-1) / 2),
    zt * (et - 1) * (et + 1) * (zt + 1) * ((-1) / 2), et * zt * (et + 1) * (zt + 1) * ((-1) / 2),
    zt * (et - 1) * (et + 1) * (zt + 1) * ((-1) / 2), zt * (et - 1) * (et + 1) * (zt - 1), et * (et - 1) * (zt - 1) * (zt + 1),
    (et - 1) * (et + 1) * (zt - 1) * (zt + 1), et * (et + 1) * (zt - 1) * (zt + 1), (et - 1) * (et + 1) * (zt - 1) * (zt + 1),
    zt * (et - 1) * (et + 1) * (zt + 1), (et - 1) * (et + 1) * (zt - 1) * (zt + 1) * (-2)],
   [xi * zt * (xi - 1) * (zt - 1) / 4, xi * zt * (xi + 1) * (zt - 1) / 4, xi * zt * (xi + 1) * (zt - 1) / 4,
    xi * zt * (xi - 1) * (zt - 1) / 4, xi * zt * (xi - 1) * (zt + 1) / 4, xi * zt * (xi + 1) * (zt + 1) / 4,
    xi * zt * (xi + 1) * (zt + 1) / 4, xi * zt * (xi - 1) * (zt + 1) / 4, zt * (xi - 1) * (xi + 1) * (zt - 1) * ((-1) / 2),
    xi * zt * (xi + 1) * (zt - 1) * ((-1) / 2), zt * (xi - 1) * (xi + 1) * (zt - 1) * ((-1) / 2),
    xi * zt * (xi - 1) * (zt - 1) * ((-1) / 2), xi * (xi - 1) * (zt - 1) * (zt + 1) * ((-1) / 2),
    xi * (xi + 1) * (zt - 1) * (zt + 1) * ((-1) / 2), xi * (xi + 1) * (zt - 1) * (zt + 1) * ((-1) / 2),
    xi * (xi - 1) * (zt - 1) * (zt + 1) * ((-1) / 2), zt * (xi - 1) * (xi + 1) * (zt + 1) * ((-1) / 2),
    xi * zt * (xi + 1) * (zt + 1) * ((-1) / 2), zt * (xi - 1) * (xi + 1) * (zt + 1) * ((-1) / 2),
    xi * zt * (xi - 1) * (zt + 1) * ((-1) / 2), zt * (xi - 1) * (xi + 1) * (zt - 1), (xi - 1) * (xi + 1) * (zt - 1) * (zt + 1),
    xi * (xi + 1) * (zt - 1) * (zt + 1), (xi - 1) * (xi + 1) * (zt - 1) * (zt + 1), xi * (xi - 1) * (zt - 1) * (zt + 1),
    zt * (xi - 1) * (xi + 1) * (zt + 1), (xi - 1) * (xi + 1) * (zt - 1) * (zt + 1) * (-2)],
   [et * xi * (et - 1) * (xi - 1) / 4, et * xi * (et - 1) * (xi + 1) / 4, et * xi * (et + 1) * (xi + 1) / 4,
    et * xi * (et + 1) * (xi - 1) / 4, et * xi * (et - 1) * (xi - 1) / 4, et * xi * (et - 1) * (xi + 1) / 4,
    et * xi * (et + 1) * (xi + 1) / 4, et * xi * (et + 1) * (xi - 1) / 4, et * (et - 1) * (xi - 1) * (xi + 1) * ((-1) / 2),
    xi * (et - 1) * (et + 1) * (xi + 1) * ((-1) / 2), et * (et + 1) * (xi - 1) * (xi + 1) * ((-1) / 2),
    xi * (et - 1) * (et + 1) * (xi - 1) * ((-1) / 2), et * xi * (et - 1) * (xi - 1) * ((-1) / 2),
    et * xi * (et - 1) * (xi + 1) * ((-1) / 2), et * xi * (et + 1) * (xi + 1) * ((-1) / 2), et * xi * (et + 1) * (xi - 1) * ((-1) / 2),
    et * (et - 1) * (xi - 1) * (xi + 1) * ((-1) / 2), xi * (et - 1) * (et + 1) * (xi + 1) * ((-1) / 2),
    et * (et + 1) * (xi - 1) * (xi + 1) * ((-1) / 2), xi * (et - 1) * (et + 1) * (xi - 1) * ((-1) / 2),
    (et - 1) * (et + 1) * (xi - 1) * (xi + 1), et * (et - 1) * (xi - 1) * (xi + 1), xi * (et - 1) * (et + 1) * (xi + 1),
    et * (et + 1) * (xi - 1) * (xi + 1), xi * (et - 1) * (et + 1) * (xi - 1), (et - 1) * (et + 1) * (xi - 1) * (xi + 1),
    (et - 1) * (et + 1) * (xi - 1) * (xi + 1) * (-2)],
   [zt * (et * 2 - 1) * (xi * 2 - 1) * (zt - 1) / 8, zt * (et * 2 - 1) * (xi * 2 + 1) * (zt - 1) / 8,
    zt * (et * 2 + 1) * (xi * 2 + 1) * (zt - 1) / 8, zt * (et * 2 + 1) * (xi * 2 - 1) * (zt - 1) / 8,
    zt * (et * 2 - 1) * (xi * 2 - 1) * (zt + 1) / 8, zt * (et * 2 - 1) * (xi * 2 + 1) * (zt + 1) / 8,
    zt * (et * 2 + 1) * (xi * 2 + 1) * (zt + 1) / 8, zt * (et * 2 + 1) * (xi * 2 - 1) * (zt + 1) / 8,
    xi * zt * (et * 2 - 1) * (zt - 1) * ((-1) / 2), et * zt * (xi * 2 + 1) * (zt - 1) * ((-1) / 2),
    xi * zt * (et * 2 + 1) * (zt - 1) * ((-1) / 2), et * zt * (xi * 2 - 1) * (zt - 1) * ((-1) / 2),
    (et * 2 - 1) * (xi * 2 - 1) * (zt * zt - 1) * ((-1) / 4), (et * 2 - 1) * (xi * 2 + 1) * (zt * zt - 1) * ((-1) / 4),
    (et * 2 + 1) * (xi * 2 + 1) * (zt * zt - 1) * ((-1) / 4), (et * 2 + 1) * (xi * 2 - 1) * (zt * zt - 1) * ((-1) / 4),
    xi * zt * (et * 2 - 1) * (zt + 1) * ((-1) / 2), et * zt * (xi * 2 + 1) * (zt + 1) * ((-1) / 2),
    xi * zt * (et * 2 + 1) * (zt + 1) * ((-1) / 2), et * zt * (xi * 2 - 1) * (zt + 1) * ((-1) / 2), et * xi * zt * (zt - 1) * 2,
    xi * (et * 2 - 1) * (zt * zt - 1), et * (xi * 2 + 1) * (zt * zt - 1), xi * (et * 2 + 1) * (zt * zt - 1),
    et * (xi * 2 - 1) * (zt * zt - 1), et * xi * zt * (zt + 1) * 2, et * xi * (zt * zt - 1) * (-4)],
   [xi * (et * 2 - 1) * (zt * 2 - 1) * (xi - 1) / 8, xi * (et * 2 - 1) * (zt * 2 - 1) * (xi + 1) / 8,
    xi * (et * 2 + 1) * (zt * 2 - 1) * (xi + 1) / 8, xi * (et * 2 + 1) * (zt * 2 - 1) * (xi - 1) / 8,
    xi * (et * 2 - 1) * (zt * 2 + 1) * (xi - 1) / 8, xi * (et * 2 - 1) * (zt * 2 + 1) * (xi + 1) / 8,
    xi * (et * 2 + 1) * (zt * 2 + 1) * (xi + 1) / 8, xi * (et * 2 + 1) * (zt * 2 + 1) * (xi - 1) / 8,
    (et * 2 - 1) * (xi * xi - 1) * (zt * 2 - 1) * ((-1) / 4), et * xi * (zt * 2 - 1) * (xi + 1) * ((-1) / 2),
    (et * 2 + 1) * (xi * xi - 1) * (zt * 2 - 1) * ((-1) / 4), et * xi * (zt * 2 - 1) * (xi - 1) * ((-1) / 2),
    xi * zt * (et * 2 - 1) * (xi - 1) * ((-1) / 2), xi * zt * (et * 2 - 1) * (xi + 1) * ((-1) / 2),
    xi * zt * (et * 2 + 1) * (xi + 1) * ((-1) / 2), xi * zt * (et * 2 + 1) * (xi - 1) * ((-1) / 2),
    (et * 2 - 1) * (xi * xi - 1) * (zt * 2 + 1) * ((-1) / 4), et * xi * (zt * 2 + 1) * (xi + 1) * ((-1) / 2),
    (et * 2 + 1) * (xi * xi - 1) * (zt * 2 + 1) * ((-1) / 4), et * xi * (zt * 2 + 1) * (xi - 1) * ((-1) / 2),
    et * (xi * xi - 1) * (zt * 2 - 1), zt * (et * 2 - 1) * (xi * xi - 1), et * xi * zt * (xi + 1) * 2,
    zt * (et * 2 + 1) * (xi * xi - 1), et * xi * zt * (xi - 1) * 2, et * (xi * xi - 1) * (zt * 2 + 1), et * zt * (xi * xi - 1) * (-4)],
   [et * (xi * 2 - 1) * (zt * 2 - 1) * (et - 1) / 8, et * (xi * 2 + 1) * (zt * 2 - 1) * (et - 1) / 8,
    et * (xi * 2 + 1) * (zt * 2 - 1) * (et + 1) / 8, et * (xi * 2 - 1) * (zt * 2 - 1) * (et + 1) / 8,
    et * (xi * 2 - 1) * (zt * 2 + 1) * (et - 1) / 8, et * (xi * 2 + 1) * (zt * 2 + 1) * (et - 1) / 8,
    et * (xi * 2 + 1) * (zt * 2 + 1) * (et + 1) / 8, et * (xi * 2 - 1) * (zt * 2 + 1) * (et + 1) / 8,
    et * xi * (zt * 2 - 1) * (et - 1) * ((-1) / 2), (et * et - 1) * (xi * 2 + 1) * (zt * 2 - 1) * ((-1) / 4),
    et * xi * (zt * 2 - 1) * (et + 1) * ((-1) / 2), (et * et - 1) * (xi * 2 - 1) * (zt * 2 - 1) * ((-1) / 4),
    et * zt * (xi * 2 - 1) * (et - 1) * ((-1) / 2), et * zt * (xi * 2 + 1) * (et - 1) * ((-1) / 2),
    et * zt * (xi * 2 + 1) * (et + 1) * ((-1) / 2), et * zt * (xi * 2 - 1) * (et + 1) * ((-1) / 2),
    et * xi * (zt * 2 + 1) * (et - 1) * ((-1) / 2), (et * et - 1) * (xi * 2 + 1) * (zt * 2 + 1) * ((-1) / 4),
    et * xi * (zt * 2 + 1) * (et + 1) * ((-1) / 2), (et * et - 1) * (xi * 2 - 1) * (zt * 2 + 1) * ((-1) / 4),
    xi * (et * et - 1) * (zt * 2 - 1), et * xi * zt * (et - 1) * 2, zt * (et * et - 1) * (xi * 2 + 1), et * xi * zt * (et + 1) * 2,
    zt * (et * et - 1) * (xi * 2 - 1), xi * (et * et - 1) * (zt * 2 + 1), xi * zt * (et * et - 1) * (-4)]]

/-- Models the derivatives of order 3 of `Hex27`, `src/Geom/Elements.hpp:1343-1533`. -/
def hex27_3 : List (List Ex) :=
  [[0, 0, 0, 0, 0, 0, 0, 0, 0, 0, 0, 0, 0, 0, 0, 0, 0, 0, 0, 0, 0, 0, 0, 0, 0, 0, 0],
   [0, 0, 0, 0, 0, 0, 0, 0, 0, 0, 0, 0, 0, 0, 0, 0, 0, 0, 0, 0, 0, 0, 0, 0, 0, 0, 0],
   [0, 0, 0, 0, 0, 0, 0, 0, 0, 0, 0, 0, 0, 0, 0, 0, 0, 0, 0, 0, 0, 0, 0, 0, 0, 0, 0],
   [zt * (et * 2 - 1) * (zt - 1) / 4, zt * (et * 2 - 1) * (zt - 1) / 4, zt * (et * 2 + 1) * (zt - 1) / 4,
    zt * (et * 2 + 1) * (zt - 1) / 4, zt * (et * 2 - 1) * (zt + 1) / 4, zt * (et * 2 - 1) * (zt + 1) / 4,
    zt * (et * 2 + 1) * (zt + 1) / 4, zt * (et * 2 + 1) * (zt + 1) / 4, zt * (et * 2 - 1) * (zt - 1) * ((-1) / 2),
    (-et) * zt * (zt - 1), zt * (et * 2 + 1) * (zt - 1) * ((-1) / 2), (-et) * zt * (zt - 1), (et * 2 - 1) * (zt * zt - 1) * ((-1) / 2),
    (et * 2 - 1) * (zt * zt - 1) * ((-1) / 2), (et * 2 + 1) * (zt * zt - 1) * ((-1) / 2), (et * 2 + 1) * (zt * zt - 1) * ((-1) / 2),
    zt * (et * 2 - 1) * (zt + 1) * ((-1) / 2), (-et) * zt * (zt + 1), zt * (et * 2 + 1) * (zt + 1) * ((-1) / 2), (-et) * zt * (zt + 1),
    et * zt * (zt - 1) * 2, (et * 2 - 1) * (zt * zt - 1), et * (zt * zt - 1) * 2, (et * 2 + 1) * (zt * zt - 1), et * (zt * zt - 1) * 2,
    et * zt * (zt + 1) * 2, et * (zt * zt - 1) * (-4)],
   [zt * (xi * 2 - 1) * (zt - 1) / 4, zt * (xi * 2 + 1) * (zt - 1) / 4, zt * (xi * 2 + 1) * (zt - 1) / 4,
    zt * (xi * 2 - 1) * (zt - 1) / 4, zt * (xi * 2 - 1) * (zt + 1) / 4, zt * (xi * 2 + 1) * (zt + 1) / 4,
    zt * (xi * 2 + 1) * (zt + 1) / 4, zt * (xi * 2 - 1) * (zt + 1) / 4, (-xi) * zt * (zt - 1),
    zt * (xi * 2 + 1) * (zt - 1) * ((-1) / 2), (-xi) * zt * (zt - 1), zt * (xi * 2 - 1) * (zt - 1) * ((-1) / 2),
    (xi * 2 - 1) * (zt * zt - 1) * ((-1) / 2), (xi * 2 + 1) * (zt * zt - 1) * ((-1) / 2), (xi * 2 + 1) * (zt * zt - 1) * ((-1) / 2),
    (xi * 2 - 1) * (zt * zt - 1) * ((-1) / 2), (-xi) * zt * (zt + 1), zt * (xi * 2 + 1) * (zt + 1) * ((-1) / 2), (-xi) * zt * (zt + 1),
    zt * (xi * 2 - 1) * (zt + 1) * ((-1) / 2), xi * zt * (zt - 1) * 2, xi * (zt * zt - 1) * 2, (xi * 2 + 1) * (zt * zt - 1),
    xi * (zt * zt - 1) * 2, (xi * 2 - 1) * (zt * zt - 1), xi * zt * (zt + 1) * 2, xi * (zt * zt - 1) * (-4)],
   [xi * (zt * 2 - 1) * (xi - 1) / 4, xi * (zt * 2 - 1) * (xi + 1) / 4, xi * (zt * 2 - 1) * (xi + 1) / 4,
    xi * (zt * 2 - 1) * (xi - 1) / 4, xi * (zt * 2 + 1) * (xi - 1) / 4, xi * (zt * 2 + 1) * (xi + 1) / 4,
    xi * (zt * 2 + 1) * (xi + 1) / 4, xi * (zt * 2 + 1) * (xi - 1) / 4, (xi * xi - 1) * (zt * 2 - 1) * ((-1) / 2),
    xi * (zt * 2 - 1) * (xi + 1) * ((-1) / 2), (xi * xi - 1) * (zt * 2 - 1) * ((-1) / 2), xi * (zt * 2 - 1) * (xi - 1) * ((-1) / 2),
    (-xi) * zt * (xi - 1), (-xi) * zt * (xi + 1), (-xi) * zt * (xi + 1), (-xi) * zt * (xi - 1),
    (xi * xi - 1) * (zt * 2 + 1) * ((-1) / 2), xi * (zt * 2 + 1) * (xi + 1) * ((-1) / 2), (xi * xi - 1) * (zt * 2 + 1) * ((-1) / 2),
    xi * (zt * 2 + 1) * (xi - 1) * ((-1) / 2), (xi * xi - 1) * (zt * 2 - 1), zt * (xi * xi - 1) * 2, xi * zt * (xi + 1) * 2,
    zt * (xi * xi - 1) * 2, xi * zt * (xi - 1) * 2, (xi * xi - 1) * (zt * 2 + 1), zt * (xi * xi - 1) * (-4)],
   [xi * (et * 2 - 1) * (xi - 1) / 4, xi * (et * 2 - 1) * (xi + 1) / 4, xi * (et * 2 + 1) * (xi + 1) / 4,
    xi * (et * 2 + 1) * (xi - 1) / 4, xi * (et * 2 - 1) * (xi - 1) / 4, xi * (et * 2 - 1) * (xi + 1) / 4,
    xi * (et * 2 + 1) * (xi + 1) / 4, xi * (et * 2 + 1) * (xi - 1) / 4, (et * 2 - 1) * (xi * xi - 1) * ((-1) / 2),
    (-et) * xi * (xi + 1), (et * 2 + 1) * (xi * xi - 1) * ((-1) / 2), (-et) * xi * (xi - 1), xi * (et * 2 - 1) * (xi - 1) * ((-1) / 2),
    xi * (et * 2 - 1) * (xi + 1) * ((-1) / 2), xi * (et * 2 + 1) * (xi + 1) * ((-1) / 2), xi * (et * 2 + 1) * (xi - 1) * ((-1) / 2),
    (et * 2 - 1) * (xi * xi - 1) * ((-1) / 2), (-et) * xi * (xi + 1), (et * 2 + 1) * (xi * xi - 1) * ((-1) / 2), (-et) * xi * (xi - 1),
    et * (xi * xi - 1) * 2, (et * 2 - 1) * (xi * xi - 1), et * xi * (xi + 1) * 2, (et * 2 + 1) * (xi * xi - 1), et * xi * (xi - 1) * 2,
    et * (xi * xi - 1) * 2, et * (xi * xi - 1) * (-4)],
   [et * (xi * 2 - 1) * (et - 1) / 4, et * (xi * 2 + 1) * (et - 1) / 4, et * (xi * 2 + 1) * (et + 1) / 4,
    et * (xi * 2 - 1) * (et + 1) / 4, et * (xi * 2 - 1) * (et - 1) / 4, et * (xi * 2 + 1) * (et - 1) / 4,
    et * (xi * 2 + 1) * (et + 1) / 4, et * (xi * 2 - 1) * (et + 1) / 4, (-et) * xi * (et - 1),
    (et * et - 1) * (xi * 2 + 1) * ((-1) / 2), (-et) * xi * (et + 1), (et * et - 1) * (xi * 2 - 1) * ((-1) / 2),
    et * (xi * 2 - 1) * (et - 1) * ((-1) / 2), et * (xi * 2 + 1) * (et - 1) * ((-1) / 2), et * (xi * 2 + 1) * (et + 1) * ((-1) / 2),
    et * (xi * 2 - 1) * (et + 1) * ((-1) / 2), (-et) * xi * (et - 1), (et * et - 1) * (xi * 2 + 1) * ((-1) / 2), (-et) * xi * (et + 1),
    (et * et - 1) * (xi * 2 - 1) * ((-1) / 2), xi * (et * et - 1) * 2, et * xi * (et - 1) * 2, (et * et - 1) * (xi * 2 + 1),
    et * xi * (et + 1) * 2, (et * et - 1) * (xi * 2 - 1), xi * (et * et - 1) * 2, xi * (et * et - 1) * (-4)],
   [et * (zt * 2 - 1) * (et - 1) / 4, et * (zt * 2 - 1) * (et - 1) / 4, et * (zt * 2 - 1) * (et + 1) / 4,
    et * (zt * 2 - 1) * (et + 1) / 4, et * (zt * 2 + 1) * (et - 1) / 4, et * (zt * 2 + 1) * (et - 1) / 4,
    et * (zt * 2 + 1) * (et + 1) / 4, et * (zt * 2 + 1) * (et + 1) / 4, et * (zt * 2 - 1) * (et - 1) * ((-1) / 2),
    (et * et - 1) * (zt * 2 - 1) * ((-1) / 2), et * (zt * 2 - 1) * (et + 1) * ((-1) / 2), (et * et - 1) * (zt * 2 - 1) * ((-1) / 2),
    (-et) * zt * (et - 1), (-et) * zt * (et - 1), (-et) * zt * (et + 1), (-et) * zt * (et + 1),
    et * (zt * 2 + 1) * (et - 1) * ((-1) / 2), (et * et - 1) * (zt * 2 + 1) * ((-1) / 2), et * (zt * 2 + 1) * (et + 1) * ((-1) / 2),
    (et * et - 1) * (zt * 2 + 1) * ((-1) / 2), (et * et - 1) * (zt * 2 - 1), et * zt * (et - 1) * 2, zt * (et * et - 1) * 2,
    et * zt * (et + 1) * 2, zt * (et * et - 1) * 2, (et * et - 1) * (zt * 2 + 1), zt * (et * et - 1) * (-4)],
   [(et * 2 - 1) * (xi * 2 - 1) * (zt * 2 - 1) / 8, (et * 2 - 1) * (xi * 2 + 1) * (zt * 2 - 1) / 8,
    (et * 2 + 1) * (xi * 2 + 1) * (zt * 2 - 1) / 8, (et * 2 + 1) * (xi * 2 - 1) * (zt * 2 - 1) / 8,
    (et * 2 - 1) * (xi * 2 - 1) * (zt * 2 + 1) / 8, (et * 2 - 1) * (xi * 2 + 1) * (zt * 2 + 1) / 8,
    (et * 2 + 1) * (xi * 2 + 1) * (zt * 2 + 1) / 8, (et * 2 + 1) * (xi * 2 - 1) * (zt * 2 + 1) / 8,
    xi * (et * 2 - 1) * (zt * 2 - 1) * ((-1) / 2), et * (xi * 2 + 1) * (zt * 2 - 1) * ((-1) / 2),
    xi * (et * 2 + 1) * (zt * 2 - 1) * ((-1) / 2), et * (xi * 2 - 1) * (zt * 2 - 1) * ((-1) / 2),
    zt * (et * 2 - 1) * (xi * 2 - 1) * ((-1) / 2), zt * (et * 2 - 1) * (xi * 2 + 1) * ((-1) / 2),
    zt * (et * 2 + 1) * (xi * 2 + 1) * ((-1) / 2), zt * (et * 2 + 1) * (xi * 2 - 1) * ((-1) / 2),
    xi * (et * 2 - 1) * (zt * 2 + 1) * ((-1) / 2), et * (xi * 2 + 1) * (zt * 2 + 1) * ((-1) / 2),
    xi * (et * 2 + 1) * (zt * 2 + 1) * ((-1) / 2), et * (xi * 2 - 1) * (zt * 2 + 1) * ((-1) / 2), et * xi * (zt * 2 - 1) * 2,
    xi * zt * (et * 2 - 1) * 2, et * zt * (xi * 2 + 1) * 2, xi * zt * (et * 2 + 1) * 2, et * zt * (xi * 2 - 1) * 2,
    et * xi * (zt * 2 + 1) * 2, et * xi * zt * (-8)]]

/-- Models the values of `Prism6`, `src/Geom/Elements.hpp:1539-1546`. -/
def prism6_0 : List (List Ex) :=
  [[(zt / 2 - 1 / 2) * (et + xi - 1), xi * (zt - 1) * ((-1) / 2), et * (zt - 1) * ((-1) / 2), (-(zt / 2 + 1 / 2)) * (et + xi - 1),
    xi * (zt / 2 + 1 / 2), et * (zt / 2 + 1 / 2)]]

/-- Models the derivatives of order 1 of `Prism6`, `src/Geom/Elements.hpp:1548-1563`. -/
def prism6_1 : List (List Ex) :=
  [[zt / 2 - 1 / 2, zt * ((-1) / 2) + 1 / 2, 0, zt * ((-1) / 2) - 1 / 2, zt / 2 + 1 / 2, 0],
   [zt / 2 - 1 / 2, 0, zt * ((-1) / 2) + 1 / 2, zt * ((-1) / 2) - 1 / 2, 0, zt / 2 + 1 / 2],
   [et / 2 + xi / 2 - 1 / 2, xi * ((-1) / 2), et * ((-1) / 2), et * ((-1) / 2) - xi / 2 + 1 / 2, xi / 2, et / 2]]

/-- Models the derivatives of order 2 of `Prism6`, `src/Geom/Elements.hpp:1565-1574`. -/
def prism6_2 : List (List Ex) :=
  [[0, 0, 0, 0, 0, 0],
   [0, 0, 0, 0, 0, 0],
   [0, 0, 0, 0, 0, 0],
   [0, 0, 0, 0, 0, 0],
   [1 / 2, 0, (-1) / 2, (-1) / 2, 0, 1 / 2],
   [1 / 2, (-1) / 2, 0, (-1) / 2, 1 / 2, 0]]

/-- Models the derivatives of order 3 of `Prism6`, `src/Geom/Elements.hpp:1576-1576`. -/
def prism6_3 : List (List Ex) := zeros 10 6

/-- Models the values of `Prism18`, `src/Geom/Elements.hpp:1584-1603`. -/
def prism18_0 : List (List Ex) :=
  [[zt * (zt - 1) * (et + xi - 1) * (et + xi - 1 / 2), xi * zt * (xi - 1 / 2) * (zt - 1), et * zt * (et - 1 / 2) * (zt - 1),
    zt * (zt + 1) * (et + xi - 1) * (et + xi - 1 / 2), xi * zt * (xi - 1 / 2) * (zt + 1), et * zt * (et - 1 / 2) * (zt + 1),
    (-xi) * zt * (zt - 1) * (et * 2 + xi * 2 - 2), et * xi * zt * (zt - 1) * 2, et * zt * (zt - 1) * (et + xi - 1) * (-2),
    (zt - 1) * (zt + 1) * (et + xi - 1) * (et + xi - 1 / 2) * (-2), xi * (xi - 1 / 2) * (zt - 1) * (zt + 1) * (-2),
    et * (et - 1 / 2) * (zt - 1) * (zt + 1) * (-2), (-xi) * zt * (zt + 1) * (et * 2 + xi * 2 - 2), et * xi * zt * (zt + 1) * 2,
    et * zt * (zt + 1) * (et + xi - 1) * (-2), xi * (zt - 1) * (zt + 1) * (et * 2 + xi * 2 - 2) * 2,
    et * xi * (zt - 1) * (zt + 1) * (-4), et * (zt - 1) * (zt + 1) * (et + xi - 1) * 4]]

/-- Models the derivatives of order 1 of `Prism18`, `src/Geom/Elements.hpp:1605-1654`. -/
def prism18_1 : List (List Ex) :=
  [[zt * (zt - 1) * (et * 4 + xi * 4 - 3) / 2, zt * (xi * 4 - 1) * (zt - 1) / 2, 0, zt * (zt + 1) * (et * 4 + xi * 4 - 3) / 2,
    zt * (xi * 4 - 1) * (zt + 1) / 2, 0, zt * (zt - 1) * (et + xi * 2 - 1) * (-2), et * zt * (zt - 1) * 2, et * zt * (zt - 1) * (-2),
    (-(zt * zt - 1)) * (et * 4 + xi * 4 - 3), (-(xi * 4 - 1)) * (zt * zt - 1), 0, zt * (zt + 1) * (et + xi * 2 - 1) * (-2),
    et * zt * (zt + 1) * 2, et * zt * (zt + 1) * (-2), (zt * zt - 1) * (et + xi * 2 - 1) * 4, et * (zt - 1) * (zt + 1) * (-4),
    et * (zt - 1) * (zt + 1) * 4],
   [zt * (zt - 1) * (et * 4 + xi * 4 - 3) / 2, 0, zt * (et * 4 - 1) * (zt - 1) / 2, zt * (zt + 1) * (et * 4 + xi * 4 - 3) / 2, 0,
    zt * (et * 4 - 1) * (zt + 1) / 2, xi * zt * (zt - 1) * (-2), xi * zt * (zt - 1) * 2, zt * (zt - 1) * (et * 2 + xi - 1) * (-2),
    (-(zt * zt - 1)) * (et * 4 + xi * 4 - 3), 0, (-(et * 4 - 1)) * (zt * zt - 1), xi * zt * (zt + 1) * (-2), xi * zt * (zt + 1) * 2,
    zt * (zt + 1) * (et * 2 + xi - 1) * (-2), xi * (zt - 1) * (zt + 1) * 4, xi * (zt - 1) * (zt + 1) * (-4),
    (zt * zt - 1) * (et * 2 + xi - 1) * 4],
   [zt * (et + xi - 1) * (et + xi - 1 / 2) + (zt - 1) * (et + xi - 1) * (et + xi - 1 / 2), xi * (xi * 2 - 1) * (zt * 2 - 1) / 2,
    et * (et * 2 - 1) * (zt * 2 - 1) / 2, zt * (et + xi - 1) * (et + xi - 1 / 2) + (zt + 1) * (et + xi - 1) * (et + xi - 1 / 2),
    xi * (xi * 2 - 1) * (zt * 2 + 1) / 2, et * (et * 2 - 1) * (zt * 2 + 1) / 2, xi * (zt * 2 - 1) * (et + xi - 1) * (-2),
    et * xi * (zt * 2 - 1) * 2, et * (zt * 2 - 1) * (et + xi - 1) * (-2),
    (zt - 1) * (et + xi - 1) * (et + xi - 1 / 2) * (-2) - (zt + 1) * (et + xi - 1) * (et + xi - 1 / 2) * 2,
    xi * zt * (xi * 2 - 1) * (-2), et * zt * (et * 2 - 1) * (-2), xi * (zt * 2 + 1) * (et + xi - 1) * (-2), et * xi * (zt * 2 + 1) * 2,
    et * (zt * 2 + 1) * (et + xi - 1) * (-2), xi * zt * (et + xi - 1) * 8, et * xi * zt * (-8), et * zt * (et + xi - 1) * 8]]

/-- Models the derivatives of order 2 of `Prism18`, `src/Geom/Elements.hpp:1656-1735`. -/
def prism18_2 : List (List Ex) :=
  [[zt * (zt - 1) * 2, zt * (zt - 1) * 2, 0, zt * (zt + 1) * 2, zt * (zt + 1) * 2, 0, zt * (zt - 1) * (-4), 0, 0, zt * zt * (-4) + 4,
    zt * zt * (-4) + 4, 0, zt * (zt + 1) * (-4), 0, 0, (zt - 1) * (zt + 1) * 8, 0, 0],
   [zt * (zt - 1) * 2, 0, zt * (zt - 1) * 2, zt * (zt + 1) * 2, 0, zt * (zt + 1) * 2, 0, 0, zt * (zt - 1) * (-4), zt * zt * (-4) + 4,
    0, zt * zt * (-4) + 4, 0, 0, zt * (zt + 1) * (-4), 0, 0, (zt - 1) * (zt + 1) * 8],
   [(et + xi - 1) * (et + xi - 1 / 2) * 2, xi * (xi - 1 / 2) * 2, et * (et - 1 / 2) * 2, (et + xi - 1) * (et + xi - 1 / 2) * 2,
    xi * (xi - 1 / 2) * 2, et * (et - 1 / 2) * 2, xi * (et * 2 + xi * 2 - 2) * (-2), et * xi * 4, et * (et + xi - 1) * (-4),
    (et + xi - 1) * (et + xi - 1 / 2) * (-4), xi * (xi - 1 / 2) * (-4), et * (et - 1 / 2) * (-4), xi * (et * 2 + xi * 2 - 2) * (-2),
    et * xi * 4, et * (et + xi - 1) * (-4), xi * (et * 2 + xi * 2 - 2) * 4, et * xi * (-8), et * (et + xi - 1) * 8],
   [zt * (zt - 1) * 2, 0, 0, zt * (zt + 1) * 2, 0, 0, zt * (zt - 1) * (-2), zt * (zt - 1) * 2, zt * (zt - 1) * (-2),
    zt * zt * (-4) + 4, 0, 0, zt * (zt + 1) * (-2), zt * (zt + 1) * 2, zt * (zt + 1) * (-2), zt * zt * 4 - 4, zt * zt * (-4) + 4,
    zt * zt * 4 - 4],
   [(zt * 2 - 1) * (et * 4 + xi * 4 - 3) / 2, 0, (et * 4 - 1) * (zt * 2 - 1) / 2, (zt * 2 + 1) * (et * 4 + xi * 4 - 3) / 2, 0,
    (et * 4 - 1) * (zt * 2 + 1) / 2, xi * (zt * 2 - 1) * (-2), xi * (zt * 2 - 1) * 2, (zt * 2 - 1) * (et * 2 + xi - 1) * (-2),
    zt * (et * 4 + xi * 4 - 3) * (-2), 0, zt * (et * 4 - 1) * (-2), xi * (zt * 2 + 1) * (-2), xi * (zt * 2 + 1) * 2,
    (zt * 2 + 1) * (et * 2 + xi - 1) * (-2), xi * zt * 8, xi * zt * (-8), zt * (et * 2 + xi - 1) * 8],
   [(zt * 2 - 1) * (et * 4 + xi * 4 - 3) / 2, (xi * 4 - 1) * (zt * 2 - 1) / 2, 0, (zt * 2 + 1) * (et * 4 + xi * 4 - 3) / 2,
    (xi * 4 - 1) * (zt * 2 + 1) / 2, 0, (zt * 2 - 1) * (et + xi * 2 - 1) * (-2), et * (zt * 2 - 1) * 2, et * (zt * 2 - 1) * (-2),
    zt * (et * 4 + xi * 4 - 3) * (-2), zt * (xi * 4 - 1) * (-2), 0, (zt * 2 + 1) * (et + xi * 2 - 1) * (-2), et * (zt * 2 + 1) * 2,
    et * (zt * 2 + 1) * (-2), zt * (et + xi * 2 - 1) * 8, et * zt * (-8), et * zt * 8]]

/-- Models the derivatives of order 3 of `Prism18`, `src/Geom/Elements.hpp:1737-1798`. -/
def prism18_3 : List (List Ex) :=
  [[0, 0, 0, 0, 0, 0, 0, 0, 0, 0, 0, 0, 0, 0, 0, 0, 0, 0],
   [0, 0, 0, 0, 0, 0, 0, 0, 0, 0, 0, 0, 0, 0, 0, 0, 0, 0],
   [0, 0, 0, 0, 0, 0, 0, 0, 0, 0, 0, 0, 0, 0, 0, 0, 0, 0],
   [0, 0, 0, 0, 0, 0, 0, 0, 0, 0, 0, 0, 0, 0, 0, 0, 0, 0],
   [0, 0, 0, 0, 0, 0, 0, 0, 0, 0, 0, 0, 0, 0, 0, 0, 0, 0],
   [zt * 4 - 2, 0, zt * 4 - 2, zt * 4 + 2, 0, zt * 4 + 2, 0, 0, zt * (-8) + 4, zt * (-8), 0, zt * (-8), 0, 0, zt * (-8) - 4, 0, 0,
    zt * 16],
   [et * 4 + xi * 4 - 3, 0, et * 4 - 1, et * 4 + xi * 4 - 3, 0, et * 4 - 1, xi * (-4), xi * 4, et * (-8) - xi * 4 + 4,
    et * (-8) - xi * 8 + 6, 0, et * (-8) + 2, xi * (-4), xi * 4, et * (-8) - xi * 4 + 4, xi * 8, xi * (-8), et * 16 + xi * 8 - 8],
   [et * 4 + xi * 4 - 3, xi * 4 - 1, 0, et * 4 + xi * 4 - 3, xi * 4 - 1, 0, et * (-4) - xi * 8 + 4, et * 4, et * (-4),
    et * (-8) - xi * 8 + 6, xi * (-8) + 2, 0, et * (-4) - xi * 8 + 4, et * 4, et * (-4), et * 8 + xi * 16 - 8, et * (-8), et * 8],
   [zt * 4 - 2, zt * 4 - 2, 0, zt * 4 + 2, zt * 4 + 2, 0, zt * (-8) + 4, 0, 0, zt * (-8), zt * (-8), 0, zt * (-8) - 4, 0, 0, zt * 16,
    0, 0],
   [zt * 4 - 2, 0, 0, zt * 4 + 2, 0, 0, zt * (-4) + 2, zt * 4 - 2, zt * (-4) + 2, zt * (-8), 0, 0, zt * (-4) - 2, zt * 4 + 2,
    zt * (-4) - 2, zt * 8, zt * (-8), zt * 8]]

/-- Models the values of `Pyramid5`, `src/Geom/Elements.hpp:1807-1819`. -/
def pyramid5_0 : List (List Ex) :=
  [[(et + zt - 1) * (xi + zt - 1) * ((-1) / 4) / (zt - 1), (et + zt - 1) * (xi - zt + 1) / (zt * 4 - 4),
    (et - zt + 1) * (xi - zt + 1) * ((-1) / 4) / (zt - 1), (xi + zt - 1) * (et - zt + 1) / (zt * 4 - 4), zt]]

/-- Models the derivatives of order 1 of `Pyramid5`, `src/Geom/Elements.hpp:1821-1849`. -/
def pyramid5_1 : List (List Ex) :=
  [[(et + zt - 1) * ((-1) / 4) / (zt - 1), (et + zt - 1) / (zt * 4 - 4), (et - zt + 1) * ((-1) / 4) / (zt - 1),
    (et - zt + 1) / (zt * 4 - 4), 0],
   [(xi + zt - 1) * ((-1) / 4) / (zt - 1), (xi - zt + 1) / (zt * 4 - 4), (xi - zt + 1) * ((-1) / 4) / (zt - 1),
    (xi + zt - 1) / (zt * 4 - 4), 0],
   [1 / pow (zt - 1) 2 * (zt * 2 + et * xi - zt * zt - 1) / 4, 1 / pow (zt - 1) 2 * (zt * (-2) + et * xi + zt * zt + 1) * ((-1) / 4),
    1 / pow (zt - 1) 2 * (zt * 2 + et * xi - zt * zt - 1) / 4, 1 / pow (zt - 1) 2 * (zt * (-2) + et * xi + zt * zt + 1) * ((-1) / 4), 1]]

/-- Models the derivatives of order 2 of `Pyramid5`, `src/Geom/Elements.hpp:1851-1868`. -/
def pyramid5_2 : List (List Ex) :=
  [[0, 0, 0, 0, 0],
   [0, 0, 0, 0, 0],
   [et * xi * 1 / pow (zt - 1) 3 * ((-1) / 2), et * xi * 1 / pow (zt - 1) 3 / 2, et * xi * 1 / pow (zt - 1) 3 * ((-1) / 2),
    et * xi * 1 / pow (zt - 1) 3 / 2, 0],
   [(-1) / 4 / (zt - 1), 1 / (zt * 4 - 4), (-1) / 4 / (zt - 1), 1 / (zt * 4 - 4), 0],
   [xi * 1 / pow (zt - 1) 2 / 4, xi * 1 / pow (zt - 1) 2 * ((-1) / 4), xi * 1 / pow (zt - 1) 2 / 4,
    xi * 1 / pow (zt - 1) 2 * ((-1) / 4), 0],
   [et * 1 / pow (zt - 1) 2 / 4, et * 1 / pow (zt - 1) 2 * ((-1) / 4), et * 1 / pow (zt - 1) 2 / 4,
    et * 1 / pow (zt - 1) 2 * ((-1) / 4), 0]]

/-- Models the derivatives of order 3 of `Pyramid5`, `src/Geom/Elements.hpp:1870-1887`. -/
def pyramid5_3 : List (List Ex) :=
  [[0, 0, 0, 0, 0],
   [0, 0, 0, 0, 0],
   [et * xi * 1 / pow (zt - 1) 4 * (3 / 2), et * xi * 1 / pow (zt - 1) 4 * ((-3) / 2), et * xi * 1 / pow (zt - 1) 4 * (3 / 2),
    et * xi * 1 / pow (zt - 1) 4 * ((-3) / 2), 0],
   [0, 0, 0, 0, 0],
   [0, 0, 0, 0, 0],
   [0, 0, 0, 0, 0],
   [xi * 1 / pow (zt - 1) 3 * ((-1) / 2), xi * 1 / pow (zt - 1) 3 / 2, xi * 1 / pow (zt - 1) 3 * ((-1) / 2),
    xi * 1 / pow (zt - 1) 3 / 2, 0],
   [et * 1 / pow (zt - 1) 3 * ((-1) / 2), et * 1 / pow (zt - 1) 3 / 2, et * 1 / pow (zt - 1) 3 * ((-1) / 2),
    et * 1 / pow (zt - 1) 3 / 2, 0],
   [0, 0, 0, 0, 0],
   [1 / pow (zt - 1) 2 / 4, 1 / pow (zt - 1) 2 * ((-1) / 4), 1 / pow (zt - 1) 2 / 4, 1 / pow (zt - 1) 2 * ((-1) / 4), 0]]

/-- Models the values of `Pyramid14`, `src/Geom/Elements.hpp:1896-1926`. -/
def pyramid14_0 : List (List Ex) :=
  [[et * xi * (zt * 2 - 1) * (zt * 2 - 2) * 1 / pow (zt - 1) 4 * (et + zt - 1) * (xi + zt - 1) / 8,
    et * xi * (zt * 2 - 1) * (zt * 2 - 2) * 1 / pow (zt - 1) 4 * (et + zt - 1) * (xi - zt + 1) / 8,
    et * xi * (zt * 2 - 1) * (zt * 2 - 2) * 1 / pow (zt - 1) 4 * (et - zt + 1) * (xi - zt + 1) / 8,
    et * xi * (zt * 2 - 1) * (zt * 2 - 2) * 1 / pow (zt - 1) 4 * (xi + zt - 1) * (et - zt + 1) / 8, zt * (zt * 2 - 1),
    et * (zt * 2 - 1) * (zt * 2 - 2) * 1 / pow (zt - 1) 4 * (et + zt - 1) * (xi + zt - 1) * (xi - zt + 1) * ((-1) / 4),
    xi * (zt * 2 - 1) * (zt * 2 - 2) * 1 / pow (zt - 1) 4 * (et + zt - 1) * (et - zt + 1) * (xi - zt + 1) * ((-1) / 4),
    et * (zt * 2 - 1) * (zt * 2 - 2) * 1 / pow (zt - 1) 4 * (xi + zt - 1) * (et - zt + 1) * (xi - zt + 1) * ((-1) / 4),
    xi * (zt * 2 - 1) * (zt * 2 - 2) * 1 / pow (zt - 1) 4 * (et + zt - 1) * (xi + zt - 1) * (et - zt + 1) * ((-1) / 4),
    zt * (zt * 2 - 2) * 1 / pow (zt - 1) 2 * (et + zt - 1) * (xi + zt - 1) * ((-1) / 2),
    zt * (zt * 2 - 2) * 1 / pow (zt - 1) 2 * (et + zt - 1) * (xi - zt + 1) / 2,
    zt * (zt * 2 - 2) * 1 / pow (zt - 1) 2 * (et - zt + 1) * (xi - zt + 1) * ((-1) / 2),
    zt * (zt * 2 - 2) * 1 / pow (zt - 1) 2 * (xi + zt - 1) * (et - zt + 1) / 2,
    (zt * 2 - 1) * (zt * 2 - 2) * 1 / pow (zt - 1) 4 * (et + zt - 1) * (xi + zt - 1) * (et - zt + 1) * (xi - zt + 1) / 2]]

/-- Models the derivatives of order 1 of `Pyramid14`, `src/Geom/Elements.hpp:1928-2010`. -/
def pyramid14_1 : List (List Ex) :=
  [[et * (zt * 2 - 1) * 1 / pow (zt - 1) 3 * (et + zt - 1) * (xi * 2 + zt - 1) / 4,
    et * (zt * 2 - 1) * 1 / pow (zt - 1) 3 * (xi * 2 - zt + 1) * (et + zt - 1) / 4,
    et * (zt * 2 - 1) * 1 / pow (zt - 1) 3 * (xi * 2 - zt + 1) * (et - zt + 1) / 4,
    et * (zt * 2 - 1) * 1 / pow (zt - 1) 3 * (et - zt + 1) * (xi * 2 + zt - 1) / 4, 0,
    (-et) * xi * (zt * 2 - 1) * 1 / pow (zt - 1) 3 * (et + zt - 1),
    (zt * 2 - 1) * 1 / pow (zt - 1) 3 * (xi * 2 - zt + 1) * (zt * 2 + et * et - zt * zt - 1) * ((-1) / 2),
    (-et) * xi * (zt * 2 - 1) * 1 / pow (zt - 1) 3 * (et - zt + 1),
    (zt * 2 - 1) * 1 / pow (zt - 1) 3 * (xi * 2 + zt - 1) * (zt * 2 + et * et - zt * zt - 1) * ((-1) / 2),
    (-(zt * (et + zt - 1))) / (zt - 1), zt * (et + zt - 1) / (zt - 1), (-(zt * (et - zt + 1))) / (zt - 1),
    zt * (et - zt + 1) / (zt - 1), xi * (zt * 2 - 1) * 1 / pow (zt - 1) 3 * (zt * 2 + et * et - zt * zt - 1) * 2],
   [xi * (zt * 2 - 1) * 1 / pow (zt - 1) 3 * (xi + zt - 1) * (et * 2 + zt - 1) / 4,
    xi * (zt * 2 - 1) * 1 / pow (zt - 1) 3 * (et * 2 + zt - 1) * (xi - zt + 1) / 4,
    xi * (zt * 2 - 1) * 1 / pow (zt - 1) 3 * (xi - zt + 1) * (et * 2 - zt + 1) / 4,
    xi * (zt * 2 - 1) * 1 / pow (zt - 1) 3 * (xi + zt - 1) * (et * 2 - zt + 1) / 4, 0,
    (zt * 2 - 1) * 1 / pow (zt - 1) 3 * (et * 2 + zt - 1) * (zt * 2 + xi * xi - zt * zt - 1) * ((-1) / 2),
    (-et) * xi * (zt * 2 - 1) * 1 / pow (zt - 1) 3 * (xi - zt + 1),
    (zt * 2 - 1) * 1 / pow (zt - 1) 3 * (et * 2 - zt + 1) * (zt * 2 + xi * xi - zt * zt - 1) * ((-1) / 2),
    (-et) * xi * (zt * 2 - 1) * 1 / pow (zt - 1) 3 * (xi + zt - 1), (-(zt * (xi + zt - 1))) / (zt - 1), zt * (xi - zt + 1) / (zt - 1),
    (-(zt * (xi - zt + 1))) / (zt - 1), zt * (xi + zt - 1) / (zt - 1),
    et * (zt * 2 - 1) * 1 / pow (zt - 1) 3 * (zt * 2 + xi * xi - zt * zt - 1) * 2],
   [et * xi * 1 / pow (zt - 1) 4 * (zt * (-2) - et * xi - et * zt * 2 - xi * zt * 2 + et * (zt * zt) * 2 + xi * (zt * zt) * 2 + zt * zt + et * xi * zt * 4 + 1) * ((-1) / 4),
    et * xi * 1 / pow (zt - 1) 4 * (zt * (-2) + et * xi - et * zt * 2 + xi * zt * 2 + et * (zt * zt) * 2 - xi * (zt * zt) * 2 + zt * zt - et * xi * zt * 4 + 1) / 4,
    et * xi * 1 / pow (zt - 1) 4 * (zt * (-2) - et * xi + et * zt * 2 + xi * zt * 2 - et * (zt * zt) * 2 - xi * (zt * zt) * 2 + zt * zt + et * xi * zt * 4 + 1) * ((-1) / 4),
    et * xi * 1 / pow (zt - 1) 4 * (zt * (-2) + et * xi + et * zt * 2 - xi * zt * 2 - et * (zt * zt) * 2 + xi * (zt * zt) * 2 + zt * zt - et * xi * zt * 4 + 1) / 4,
    zt * 4 - 1,
    et * 1 / pow (zt - 1) 4 * (et + zt * 8 - xi * xi * (zt * zt) * 2 - et * zt * 2 + et * (xi * xi) + et * (zt * zt) + xi * xi * zt * 2 - zt * zt * 12 + zt * zt * zt * 8 - zt * zt * zt * zt * 2 - et * (xi * xi) * zt * 4 - 2) * ((-1) / 2),
    xi * 1 / pow (zt - 1) 4 * (xi - zt * 8 - xi * zt * 2 + et * et * xi - et * et * zt * 2 + xi * (zt * zt) + zt * zt * 12 - zt * zt * zt * 8 + zt * zt * zt * zt * 2 + et * et * (zt * zt) * 2 - et * et * xi * zt * 4 + 2) * ((-1) / 2),
    et * 1 / pow (zt - 1) 4 * (et - zt * 8 + xi * xi * (zt * zt) * 2 - et * zt * 2 + et * (xi * xi) + et * (zt * zt) - xi * xi * zt * 2 + zt * zt * 12 - zt * zt * zt * 8 + zt * zt * zt * zt * 2 - et * (xi * xi) * zt * 4 + 2) * ((-1) / 2),
    xi * 1 / pow (zt - 1) 4 * (xi + zt * 8 - xi * zt * 2 + et * et * xi + et * et * zt * 2 + xi * (zt * zt) - zt * zt * 12 + zt * zt * zt * 8 - zt * zt * zt * zt * 2 - et * et * (zt * zt) * 2 - et * et * xi * zt * 4 - 2) * ((-1) / 2),
    (-1) / pow (zt - 1) 2 * (et + xi + zt * 4 - et * xi - et * zt * 2 - xi * zt * 2 + et * (zt * zt) + xi * (zt * zt) - zt * zt * 5 + zt * zt * zt * 2 - 1),
    (-1) / pow (zt - 1) 2 * (et - xi + zt * 4 + et * xi - et * zt * 2 + xi * zt * 2 + et * (zt * zt) - xi * (zt * zt) - zt * zt * 5 + zt * zt * zt * 2 - 1),
    1 / pow (zt - 1) 2 * (et + xi - zt * 4 + et * xi - et * zt * 2 - xi * zt * 2 + et * (zt * zt) + xi * (zt * zt) + zt * zt * 5 - zt * zt * zt * 2 + 1),
    (-1) / pow (zt - 1) 2 * (-et + xi + zt * 4 + et * xi + et * zt * 2 - xi * zt * 2 - et * (zt * zt) + xi * (zt * zt) - zt * zt * 5 + zt * zt * zt * 2 - 1),
    1 / pow (zt - 1) 4 * (zt * 16 + xi * xi * (zt * zt) - et * et * zt * 2 - xi * xi * zt * 2 + et * et + xi * xi - zt * zt * 34 + zt * zt * zt * 36 - zt * zt * zt * zt * 19 + zt * zt * zt * zt * zt * 4 + et * et * (xi * xi) + et * et * (zt * zt) - et * et * (xi * xi) * zt * 4 - 3)]]

/-- Models the derivatives of order 2 of `Pyramid14`, `src/Geom/Elements.hpp:2012-2084`. -/
def pyramid14_2 : List (List Ex) :=
  [[et * (zt * 2 - 1) * (zt * 2 - 2) * 1 / pow (zt - 1) 4 * (et + zt - 1) / 4,
    et * (zt * 2 - 1) * (zt * 2 - 2) * 1 / pow (zt - 1) 4 * (et + zt - 1) / 4,
    et * (zt * 2 - 1) * (zt * 2 - 2) * 1 / pow (zt - 1) 4 * (et - zt + 1) / 4,
    et * (zt * 2 - 1) * (zt * 2 - 2) * 1 / pow (zt - 1) 4 * (et - zt + 1) / 4, 0,
    et * (zt * 2 - 1) * (zt * 2 - 2) * 1 / pow (zt - 1) 4 * (et + zt - 1) * ((-1) / 2),
    (zt * 2 - 1) * (zt * 2 - 2) * 1 / pow (zt - 1) 4 * (et + zt - 1) * (et - zt + 1) * ((-1) / 2),
    et * (zt * 2 - 1) * (zt * 2 - 2) * 1 / pow (zt - 1) 4 * (et - zt + 1) * ((-1) / 2),
    (zt * 2 - 1) * (zt * 2 - 2) * 1 / pow (zt - 1) 4 * (et + zt - 1) * (et - zt + 1) * ((-1) / 2), 0, 0, 0, 0,
    (zt * 2 - 1) * (zt * 2 - 2) * 1 / pow (zt - 1) 4 * (et + zt - 1) * (et - zt + 1)],
   [xi * (zt * 2 - 1) * (zt * 2 - 2) * 1 / pow (zt - 1) 4 * (xi + zt - 1) / 4,
    xi * (zt * 2 - 1) * (zt * 2 - 2) * 1 / pow (zt - 1) 4 * (xi - zt + 1) / 4,
    xi * (zt * 2 - 1) * (zt * 2 - 2) * 1 / pow (zt - 1) 4 * (xi - zt + 1) / 4,
    xi * (zt * 2 - 1) * (zt * 2 - 2) * 1 / pow (zt - 1) 4 * (xi + zt - 1) / 4, 0,
    (zt * 2 - 1) * (zt * 2 - 2) * 1 / pow (zt - 1) 4 * (xi + zt - 1) * (xi - zt + 1) * ((-1) / 2),
    xi * (zt * 2 - 1) * (zt * 2 - 2) * 1 / pow (zt - 1) 4 * (xi - zt + 1) * ((-1) / 2),
    (zt * 2 - 1) * (zt * 2 - 2) * 1 / pow (zt - 1) 4 * (xi + zt - 1) * (xi - zt + 1) * ((-1) / 2),
    xi * (zt * 2 - 1) * (zt * 2 - 2) * 1 / pow (zt - 1) 4 * (xi + zt - 1) * ((-1) / 2), 0, 0, 0, 0,
    (zt * 2 - 1) * (zt * 2 - 2) * 1 / pow (zt - 1) 4 * (xi + zt - 1) * (xi - zt + 1)],
   [et * xi * 1 / pow (zt - 1) 5 * (et + xi + zt * 2 + et * zt + xi * zt - et * (zt * zt) * 2 - xi * (zt * zt) * 2 - zt * zt - et * xi * zt * 6 - 1) * ((-1) / 2),
    et * xi * 1 / pow (zt - 1) 5 * (et - xi + zt * 2 + et * zt - xi * zt - et * (zt * zt) * 2 + xi * (zt * zt) * 2 - zt * zt + et * xi * zt * 6 - 1) / 2,
    et * xi * 1 / pow (zt - 1) 5 * (et + xi - zt * 2 + et * zt + xi * zt - et * (zt * zt) * 2 - xi * (zt * zt) * 2 + zt * zt + et * xi * zt * 6 + 1) / 2,
    et * xi * 1 / pow (zt - 1) 5 * (et - xi - zt * 2 + et * zt - xi * zt - et * (zt * zt) * 2 + xi * (zt * zt) * 2 + zt * zt - et * xi * zt * 6 + 1) * ((-1) / 2),
    4,
    et * 1 / pow (zt - 1) 5 * (et - xi * xi * (zt * zt) * 2 - et * zt * 2 + et * (zt * zt) + xi * xi * zt + xi * xi - et * (xi * xi) * zt * 6),
    (-xi) * 1 / pow (zt - 1) 5 * (-xi + xi * zt * 2 + et * et * zt - xi * (zt * zt) + et * et - et * et * (zt * zt) * 2 + et * et * xi * zt * 6),
    (-et) * 1 / pow (zt - 1) 5 * (-et - xi * xi * (zt * zt) * 2 + et * zt * 2 - et * (zt * zt) + xi * xi * zt + xi * xi + et * (xi * xi) * zt * 6),
    xi * 1 / pow (zt - 1) 5 * (xi - xi * zt * 2 + et * et * zt + xi * (zt * zt) + et * et - et * et * (zt * zt) * 2 - et * et * xi * zt * 6),
    1 / pow (zt - 1) 3 * (zt * 3 + et * xi - zt * zt * 3 + zt * zt * zt - 1) * (-2),
    1 / pow (zt - 1) 3 * (zt * (-3) + et * xi + zt * zt * 3 - zt * zt * zt + 1) * 2,
    1 / pow (zt - 1) 3 * (zt * 3 + et * xi - zt * zt * 3 + zt * zt * zt - 1) * (-2),
    1 / pow (zt - 1) 3 * (zt * (-3) + et * xi + zt * zt * 3 - zt * zt * zt + 1) * 2,
    1 / pow (zt - 1) 5 * (zt * (-10) + xi * xi * (zt * zt) - et * et * zt * 2 - xi * xi * zt * 2 + et * et + xi * xi + zt * zt * 20 - zt * zt * zt * 20 + zt * zt * zt * zt * 10 - zt * zt * zt * zt * zt * 2 + et * et * (zt * zt) - et * et * (xi * xi) * zt * 6 + 2) * (-2)],
   [(zt * 2 - 1) * 1 / pow (zt - 1) 3 * (et * 2 + zt - 1) * (xi * 2 + zt - 1) / 4,
    (zt * 2 - 1) * 1 / pow (zt - 1) 3 * (xi * 2 - zt + 1) * (et * 2 + zt - 1) / 4,
    (zt * 2 - 1) * 1 / pow (zt - 1) 3 * (xi * 2 - zt + 1) * (et * 2 - zt + 1) / 4,
    (zt * 2 - 1) * 1 / pow (zt - 1) 3 * (xi * 2 + zt - 1) * (et * 2 - zt + 1) / 4, 0,
    (-xi) * (zt * 2 - 1) * 1 / pow (zt - 1) 3 * (et * 2 + zt - 1), (-et) * (zt * 2 - 1) * 1 / pow (zt - 1) 3 * (xi * 2 - zt + 1),
    (-xi) * (zt * 2 - 1) * 1 / pow (zt - 1) 3 * (et * 2 - zt + 1), (-et) * (zt * 2 - 1) * 1 / pow (zt - 1) 3 * (xi * 2 + zt - 1),
    (-zt) / (zt - 1), zt / (zt - 1), (-zt) / (zt - 1), zt / (zt - 1), et * xi * (zt * 2 - 1) * 1 / pow (zt - 1) 3 * 4],
   [xi * 1 / pow (zt - 1) 4 * (zt * (-2) - et * xi * 2 - et * zt * 4 - xi * zt * 2 + et * (zt * zt) * 4 + xi * (zt * zt) * 2 + zt * zt + et * xi * zt * 8 + 1) * ((-1) / 4),
    xi * 1 / pow (zt - 1) 4 * (zt * (-2) + et * xi * 2 - et * zt * 4 + xi * zt * 2 + et * (zt * zt) * 4 - xi * (zt * zt) * 2 + zt * zt - et * xi * zt * 8 + 1) / 4,
    xi * 1 / pow (zt - 1) 4 * (zt * (-2) - et * xi * 2 + et * zt * 4 + xi * zt * 2 - et * (zt * zt) * 4 - xi * (zt * zt) * 2 + zt * zt + et * xi * zt * 8 + 1) * ((-1) / 4),
    xi * 1 / pow (zt - 1) 4 * (zt * (-2) + et * xi * 2 + et * zt * 4 - xi * zt * 2 - et * (zt * zt) * 4 + xi * (zt * zt) * 2 + zt * zt - et * xi * zt * 8 + 1) / 4,
    0,
    (-1) / pow (zt - 1) 4 * (et + zt * 4 - xi * xi * (zt * zt) - et * zt * 2 + et * (xi * xi) + et * (zt * zt) + xi * xi * zt - zt * zt * 6 + zt * zt * zt * 4 - zt * zt * zt * zt - et * (xi * xi) * zt * 4 - 1),
    (-et) * xi * 1 / pow (zt - 1) 4 * (xi - zt * 2 - xi * zt * 4 + zt * zt * 2),
    (-1) / pow (zt - 1) 4 * (et - zt * 4 + xi * xi * (zt * zt) - et * zt * 2 + et * (xi * xi) + et * (zt * zt) - xi * xi * zt + zt * zt * 6 - zt * zt * zt * 4 + zt * zt * zt * zt - et * (xi * xi) * zt * 4 + 1),
    (-et) * xi * 1 / pow (zt - 1) 4 * (xi + zt * 2 - xi * zt * 4 - zt * zt * 2), 1 / pow (zt - 1) 2 * (xi + zt * 2 - zt * zt - 1),
    (-1) / pow (zt - 1) 2 * (xi - zt * 2 + zt * zt + 1), 1 / pow (zt - 1) 2 * (xi - zt * 2 + zt * zt + 1),
    (-1) / pow (zt - 1) 2 * (xi + zt * 2 - zt * zt - 1),
    et * 1 / pow (zt - 1) 4 * (zt * (-2) - xi * xi * zt * 4 + xi * xi + zt * zt + 1) * 2],
   [et * 1 / pow (zt - 1) 4 * (zt * (-2) - et * xi * 2 - et * zt * 2 - xi * zt * 4 + et * (zt * zt) * 2 + xi * (zt * zt) * 4 + zt * zt + et * xi * zt * 8 + 1) * ((-1) / 4),
    et * 1 / pow (zt - 1) 4 * (zt * (-2) + et * xi * 2 - et * zt * 2 + xi * zt * 4 + et * (zt * zt) * 2 - xi * (zt * zt) * 4 + zt * zt - et * xi * zt * 8 + 1) / 4,
    et * 1 / pow (zt - 1) 4 * (zt * (-2) - et * xi * 2 + et * zt * 2 + xi * zt * 4 - et * (zt * zt) * 2 - xi * (zt * zt) * 4 + zt * zt + et * xi * zt * 8 + 1) * ((-1) / 4),
    et * 1 / pow (zt - 1) 4 * (zt * (-2) + et * xi * 2 + et * zt * 2 - xi * zt * 4 - et * (zt * zt) * 2 + xi * (zt * zt) * 4 + zt * zt - et * xi * zt * 8 + 1) / 4,
    0, (-et) * xi * 1 / pow (zt - 1) 4 * (et + zt * 2 - et * zt * 4 - zt * zt * 2),
    (-1) / pow (zt - 1) 4 * (xi - zt * 4 - xi * zt * 2 + et * et * xi - et * et * zt + xi * (zt * zt) + zt * zt * 6 - zt * zt * zt * 4 + zt * zt * zt * zt + et * et * (zt * zt) - et * et * xi * zt * 4 + 1),
    (-et) * xi * 1 / pow (zt - 1) 4 * (et - zt * 2 - et * zt * 4 + zt * zt * 2),
    (-1) / pow (zt - 1) 4 * (xi + zt * 4 - xi * zt * 2 + et * et * xi + et * et * zt + xi * (zt * zt) - zt * zt * 6 + zt * zt * zt * 4 - zt * zt * zt * zt - et * et * (zt * zt) - et * et * xi * zt * 4 - 1),
    1 / pow (zt - 1) 2 * (et + zt * 2 - zt * zt - 1), (-1) / pow (zt - 1) 2 * (et + zt * 2 - zt * zt - 1),
    1 / pow (zt - 1) 2 * (et - zt * 2 + zt * zt + 1), (-1) / pow (zt - 1) 2 * (et - zt * 2 + zt * zt + 1),
    xi * 1 / pow (zt - 1) 4 * (zt * (-2) - et * et * zt * 4 + et * et + zt * zt + 1) * 2]]

/-- Models the derivatives of order 3 of `Pyramid14`, `src/Geom/Elements.hpp:2086-2175`. -/
def pyramid14_3 : List (List Ex) :=
  [[0, 0, 0, 0, 0, 0, 0, 0, 0, 0, 0, 0, 0, 0],
   [0, 0, 0, 0, 0, 0, 0, 0, 0, 0, 0, 0, 0, 0],
   [et * xi * 1 / pow (zt - 1) 6 * (et * (-2) - xi * 2 - zt * 2 + et * xi * 2 + et * (zt * zt) * 2 + xi * (zt * zt) * 2 + zt * zt + et * xi * zt * 8 + 1) * ((-3) / 2),
    et * xi * 1 / pow (zt - 1) 6 * (et * 2 - xi * 2 + zt * 2 + et * xi * 2 - et * (zt * zt) * 2 + xi * (zt * zt) * 2 - zt * zt + et * xi * zt * 8 - 1) * ((-3) / 2),
    et * xi * 1 / pow (zt - 1) 6 * (et * 2 + xi * 2 - zt * 2 + et * xi * 2 - et * (zt * zt) * 2 - xi * (zt * zt) * 2 + zt * zt + et * xi * zt * 8 + 1) * ((-3) / 2),
    et * xi * 1 / pow (zt - 1) 6 * (et * (-2) + xi * 2 + zt * 2 + et * xi * 2 + et * (zt * zt) * 2 - xi * (zt * zt) * 2 - zt * zt + et * xi * zt * 8 - 1) * ((-3) / 2),
    0,
    et * 1 / pow (zt - 1) 6 * (-et + xi * xi * (zt * zt) * 2 + et * zt * 2 + et * (xi * xi) * 2 - et * (zt * zt) - xi * xi * 2 + et * (xi * xi) * zt * 8) * 3,
    xi * 1 / pow (zt - 1) 6 * (-xi + xi * zt * 2 + et * et * xi * 2 - xi * (zt * zt) + et * et * 2 - et * et * (zt * zt) * 2 + et * et * xi * zt * 8) * 3,
    et * 1 / pow (zt - 1) 6 * (-et - xi * xi * (zt * zt) * 2 + et * zt * 2 + et * (xi * xi) * 2 - et * (zt * zt) + xi * xi * 2 + et * (xi * xi) * zt * 8) * 3,
    xi * 1 / pow (zt - 1) 6 * (-xi + xi * zt * 2 + et * et * xi * 2 - xi * (zt * zt) - et * et * 2 + et * et * (zt * zt) * 2 + et * et * xi * zt * 8) * 3,
    et * xi * 1 / pow (zt - 1) 4 * 6, et * xi * 1 / pow (zt - 1) 4 * (-6), et * xi * 1 / pow (zt - 1) 4 * 6,
    et * xi * 1 / pow (zt - 1) 4 * (-6),
    1 / pow (zt - 1) 6 * (xi * xi * (zt * zt) - et * et * zt * 2 - xi * xi * zt * 2 + et * et + xi * xi - et * et * (xi * xi) * 2 + et * et * (zt * zt) - et * et * (xi * xi) * zt * 8) * 6],
   [(zt * 2 - 1) * 1 / pow (zt - 1) 3 * (et * 2 + zt - 1) / 2, (zt * 2 - 1) * 1 / pow (zt - 1) 3 * (et * 2 + zt - 1) / 2,
    (zt * 2 - 1) * 1 / pow (zt - 1) 3 * (et * 2 - zt + 1) / 2, (zt * 2 - 1) * 1 / pow (zt - 1) 3 * (et * 2 - zt + 1) / 2, 0,
    (-(zt * 2 - 1)) * 1 / pow (zt - 1) 3 * (et * 2 + zt - 1), et * (zt * 2 - 1) * 1 / pow (zt - 1) 3 * (-2),
    (-(zt * 2 - 1)) * 1 / pow (zt - 1) 3 * (et * 2 - zt + 1), et * (zt * 2 - 1) * 1 / pow (zt - 1) 3 * (-2), 0, 0, 0, 0,
    et * (zt * 2 - 1) * 1 / pow (zt - 1) 3 * 4],
   [(zt * 2 - 1) * 1 / pow (zt - 1) 3 * (xi * 2 + zt - 1) / 2, (zt * 2 - 1) * 1 / pow (zt - 1) 3 * (xi * 2 - zt + 1) / 2,
    (zt * 2 - 1) * 1 / pow (zt - 1) 3 * (xi * 2 - zt + 1) / 2, (zt * 2 - 1) * 1 / pow (zt - 1) 3 * (xi * 2 + zt - 1) / 2, 0,
    xi * (zt * 2 - 1) * 1 / pow (zt - 1) 3 * (-2), (-(zt * 2 - 1)) * 1 / pow (zt - 1) 3 * (xi * 2 - zt + 1),
    xi * (zt * 2 - 1) * 1 / pow (zt - 1) 3 * (-2), (-(zt * 2 - 1)) * 1 / pow (zt - 1) 3 * (xi * 2 + zt - 1), 0, 0, 0, 0,
    xi * (zt * 2 - 1) * 1 / pow (zt - 1) 3 * 4],
   [xi * 1 / pow (zt - 1) 4 * (xi + zt * 2 - xi * zt * 4 - zt * zt * 2) / 2,
    xi * 1 / pow (zt - 1) 4 * (xi - zt * 2 - xi * zt * 4 + zt * zt * 2) / 2,
    xi * 1 / pow (zt - 1) 4 * (xi - zt * 2 - xi * zt * 4 + zt * zt * 2) / 2,
    xi * 1 / pow (zt - 1) 4 * (xi + zt * 2 - xi * zt * 4 - zt * zt * 2) / 2, 0,
    (-1) / pow (zt - 1) 4 * (zt * (-2) - xi * xi * zt * 4 + xi * xi + zt * zt + 1),
    (-xi) * 1 / pow (zt - 1) 4 * (xi - zt * 2 - xi * zt * 4 + zt * zt * 2),
    (-1) / pow (zt - 1) 4 * (zt * (-2) - xi * xi * zt * 4 + xi * xi + zt * zt + 1),
    (-xi) * 1 / pow (zt - 1) 4 * (xi + zt * 2 - xi * zt * 4 - zt * zt * 2), 0, 0, 0, 0,
    1 / pow (zt - 1) 4 * (zt * (-2) - xi * xi * zt * 4 + xi * xi + zt * zt + 1) * 2],
   [xi * 1 / pow (zt - 1) 5 * (et * 2 + xi + zt * 2 + et * zt * 2 + xi * zt - et * (zt * zt) * 4 - xi * (zt * zt) * 2 - zt * zt - et * xi * zt * 12 - 1) * ((-1) / 2),
    xi * 1 / pow (zt - 1) 5 * (et * 2 - xi + zt * 2 + et * zt * 2 - xi * zt - et * (zt * zt) * 4 + xi * (zt * zt) * 2 - zt * zt + et * xi * zt * 12 - 1) / 2,
    xi * 1 / pow (zt - 1) 5 * (et * 2 + xi - zt * 2 + et * zt * 2 + xi * zt - et * (zt * zt) * 4 - xi * (zt * zt) * 2 + zt * zt + et * xi * zt * 12 + 1) / 2,
    xi * 1 / pow (zt - 1) 5 * (et * 2 - xi - zt * 2 + et * zt * 2 - xi * zt - et * (zt * zt) * 4 + xi * (zt * zt) * 2 + zt * zt - et * xi * zt * 12 + 1) * ((-1) / 2),
    0,
    1 / pow (zt - 1) 5 * (et * 2 - xi * xi * (zt * zt) * 2 - et * zt * 4 + et * (zt * zt) * 2 + xi * xi * zt + xi * xi - et * (xi * xi) * zt * 12),
    et * xi * 1 / pow (zt - 1) 5 * (zt + xi * zt * 6 - zt * zt * 2 + 1) * (-2),
    (-1) / pow (zt - 1) 5 * (et * (-2) - xi * xi * (zt * zt) * 2 + et * zt * 4 - et * (zt * zt) * 2 + xi * xi * zt + xi * xi + et * (xi * xi) * zt * 12),
    et * xi * 1 / pow (zt - 1) 5 * (zt - xi * zt * 6 - zt * zt * 2 + 1) * 2, xi * 1 / pow (zt - 1) 3 * (-2),
    xi * 1 / pow (zt - 1) 3 * 2, xi * 1 / pow (zt - 1) 3 * (-2), xi * 1 / pow (zt - 1) 3 * 2,
    et * 1 / pow (zt - 1) 5 * (zt * 2 + xi * xi * zt * 6 - zt * zt - 1) * 4],
   [et * 1 / pow (zt - 1) 5 * (et + xi * 2 + zt * 2 + et * zt + xi * zt * 2 - et * (zt * zt) * 2 - xi * (zt * zt) * 4 - zt * zt - et * xi * zt * 12 - 1) * ((-1) / 2),
    et * 1 / pow (zt - 1) 5 * (et - xi * 2 + zt * 2 + et * zt - xi * zt * 2 - et * (zt * zt) * 2 + xi * (zt * zt) * 4 - zt * zt + et * xi * zt * 12 - 1) / 2,
    et * 1 / pow (zt - 1) 5 * (et + xi * 2 - zt * 2 + et * zt + xi * zt * 2 - et * (zt * zt) * 2 - xi * (zt * zt) * 4 + zt * zt + et * xi * zt * 12 + 1) / 2,
    et * 1 / pow (zt - 1) 5 * (et - xi * 2 - zt * 2 + et * zt - xi * zt * 2 - et * (zt * zt) * 2 + xi * (zt * zt) * 4 + zt * zt - et * xi * zt * 12 + 1) * ((-1) / 2),
    0, et * xi * 1 / pow (zt - 1) 5 * (zt - et * zt * 6 - zt * zt * 2 + 1) * 2,
    (-1) / pow (zt - 1) 5 * (xi * (-2) + xi * zt * 4 + et * et * zt - xi * (zt * zt) * 2 + et * et - et * et * (zt * zt) * 2 + et * et * xi * zt * 12),
    et * xi * 1 / pow (zt - 1) 5 * (zt + et * zt * 6 - zt * zt * 2 + 1) * (-2),
    1 / pow (zt - 1) 5 * (xi * 2 - xi * zt * 4 + et * et * zt + xi * (zt * zt) * 2 + et * et - et * et * (zt * zt) * 2 - et * et * xi * zt * 12),
    et * 1 / pow (zt - 1) 3 * (-2), et * 1 / pow (zt - 1) 3 * 2, et * 1 / pow (zt - 1) 3 * (-2), et * 1 / pow (zt - 1) 3 * 2,
    xi * 1 / pow (zt - 1) 5 * (zt * 2 + et * et * zt * 6 - zt * zt - 1) * 4],
   [et * 1 / pow (zt - 1) 4 * (et + zt * 2 - et * zt * 4 - zt * zt * 2) / 2,
    et * 1 / pow (zt - 1) 4 * (et + zt * 2 - et * zt * 4 - zt * zt * 2) / 2,
    et * 1 / pow (zt - 1) 4 * (et - zt * 2 - et * zt * 4 + zt * zt * 2) / 2,
    et * 1 / pow (zt - 1) 4 * (et - zt * 2 - et * zt * 4 + zt * zt * 2) / 2, 0,
    (-et) * 1 / pow (zt - 1) 4 * (et + zt * 2 - et * zt * 4 - zt * zt * 2),
    (-1) / pow (zt - 1) 4 * (zt * (-2) - et * et * zt * 4 + et * et + zt * zt + 1),
    (-et) * 1 / pow (zt - 1) 4 * (et - zt * 2 - et * zt * 4 + zt * zt * 2),
    (-1) / pow (zt - 1) 4 * (zt * (-2) - et * et * zt * 4 + et * et + zt * zt + 1), 0, 0, 0, 0,
    1 / pow (zt - 1) 4 * (zt * (-2) - et * et * zt * 4 + et * et + zt * zt + 1) * 2],
   [1 / pow (zt - 1) 4 * (zt * (-2) - et * xi * 4 - et * zt * 4 - xi * zt * 4 + et * (zt * zt) * 4 + xi * (zt * zt) * 4 + zt * zt + et * xi * zt * 16 + 1) * ((-1) / 4),
    1 / pow (zt - 1) 4 * (zt * (-2) + et * xi * 4 - et * zt * 4 + xi * zt * 4 + et * (zt * zt) * 4 - xi * (zt * zt) * 4 + zt * zt - et * xi * zt * 16 + 1) / 4,
    1 / pow (zt - 1) 4 * (zt * (-2) - et * xi * 4 + et * zt * 4 + xi * zt * 4 - et * (zt * zt) * 4 - xi * (zt * zt) * 4 + zt * zt + et * xi * zt * 16 + 1) * ((-1) / 4),
    1 / pow (zt - 1) 4 * (zt * (-2) + et * xi * 4 + et * zt * 4 - xi * zt * 4 - et * (zt * zt) * 4 + xi * (zt * zt) * 4 + zt * zt - et * xi * zt * 16 + 1) / 4,
    0, xi * 1 / pow (zt - 1) 4 * (et + zt - et * zt * 4 - zt * zt) * (-2),
    et * 1 / pow (zt - 1) 4 * (xi - zt - xi * zt * 4 + zt * zt) * (-2),
    xi * 1 / pow (zt - 1) 4 * (et - zt - et * zt * 4 + zt * zt) * (-2),
    et * 1 / pow (zt - 1) 4 * (xi + zt - xi * zt * 4 - zt * zt) * (-2), 1 / pow (zt - 1) 2, (-1) / pow (zt - 1) 2, 1 / pow (zt - 1) 2,
    (-1) / pow (zt - 1) 2, et * xi * (zt * 4 - 1) * 1 / pow (zt - 1) 4 * (-4)]]

end Tables

/-- Models the choice of the table by the type and by `diffOrder`, `src/Geom/Elements.hpp:651-2174`. -/
def table : ElemType → Nat → List (List Ex)
  | .line2, 0 => line2_0
  | .line2, 1 => line2_1
  | .line2, 2 => line2_2
  | .line2, 3 => line2_3
  | .line3, 0 => line3_0
  | .line3, 1 => line3_1
  | .line3, 2 => line3_2
  | .line3, 3 => line3_3
  | .tri3, 0 => tri3_0
  | .tri3, 1 => tri3_1
  | .tri3, 2 => tri3_2
  | .tri3, 3 => tri3_3
  | .tri6, 0 => tri6_0
  | .tri6, 1 => tri6_1
  | .tri6, 2 => tri6_2
  | .tri6, 3 => tri6_3
  | .quad4, 0 => quad4_0
  | .quad4, 1 => quad4_1
  | .quad4, 2 => quad4_2
  | .quad4, 3 => quad4_3
  | .quad9, 0 => quad9_0
  | .quad9, 1 => quad9_1
  | .quad9, 2 => quad9_2
  | .quad9, 3 => quad9_3
  | .tet4, 0 => tet4_0
  | .tet4, 1 => tet4_1
  | .tet4, 2 => tet4_2
  | .tet4, 3 => tet4_3
  | .tet10, 0 => tet10_0
  | .tet10, 1 => tet10_1
  | .tet10, 2 => tet10_2
  | .tet10, 3 => tet10_3
  | .hex8, 0 => hex8_0
  | .hex8, 1 => hex8_1
  | .hex8, 2 => hex8_2
  | .hex8, 3 => hex8_3
  | .hex27, 0 => hex27_0
  | .hex27, 1 => hex27_1
  | .hex27, 2 => hex27_2
  | .hex27, 3 => hex27_3
  | .prism6, 0 => prism6_0
  | .prism6, 1 => prism6_1
  | .prism6, 2 => prism6_2
  | .prism6, 3 => prism6_3
  | .prism18, 0 => prism18_0
  | .prism18, 1 => prism18_1
  | .prism18, 2 => prism18_2
  | .prism18, 3 => prism18_3
  | .pyramid5, 0 => pyramid5_0
  | .pyramid5, 1 => pyramid5_1
  | .pyramid5, 2 => pyramid5_2
  | .pyramid5, 3 => pyramid5_3
  | .pyramid14, 0 => pyramid14_0
  | .pyramid14, 1 => pyramid14_1
  | .pyramid14, 2 => pyramid14_2
  | .pyramid14, 3 => pyramid14_3
  | _, _ => []

/-- Models the shift of the third coordinate for the pyramids, `src/Geom/Elements.hpp:1804-1806, 1893-1895`. -/
noncomputable def guardPoint (t : ElemType) (p : Fin 3 → ℝ) : Fin 3 → ℝ :=
  if (t = .pyramid5 ∨ t = .pyramid14) ∧ |1 - p 2| < 1 / 10 ^ 15 then
    Function.update p 2 (p 2 - Gas.signP (1 - p 2) * (1 / 10 ^ 15))
  else p

/-- The expression at row `r`, column `j` of the table; `0` outside. -/
def entry (t : ElemType) (diffOrder r j : Nat) : Ex := ((table t diffOrder).getD r []).getD j (.lit 0)

/-- Models `ShapeFunc_DiNj<diffOrder>`, `src/Geom/Elements.hpp:639-2178`, on a cleared table. -/
noncomputable def shapeFunc (diffOrder : Nat) (t : ElemType) (p : Fin 3 → ℝ) : Res (Nat → Nat → ℝ) :=
  if t = .unknown then .abort else .ok fun r j => (entry t diffOrder r j).eval (guardPoint t p)

/-- Models `GetNj`, `src/Geom/Elements.hpp:2294-2298`. -/
noncomputable def getNj (t : ElemType) (p : Fin 3 → ℝ) : Res (Nat → ℝ) := do
  let v ← shapeFunc 0 t p
  pure (v 0)

/-- Models `GetD1Nj`, `src/Geom/Elements.hpp:2303-2307`. -/
noncomputable def getD1Nj (t : ElemType) (p : Fin 3 → ℝ) : Res (Nat → Nat → ℝ) := shapeFunc 1 t p

/-- Models `GetD01Nj`, `src/Geom/Elements.hpp:2312-2322`: the values in row 0, the derivatives in rows 1 to 3. -/
noncomputable def getD01Nj (t : ElemType) (p : Fin 3 → ℝ) : Res (Nat → Nat → ℝ) := do
  let nj ← getNj t p
  let d1 ← getD1Nj t p
  pure fun r j => if r = 0 then nj j else d1 (r - 1) j

/-- Models `ndiffSizC2D` and `ndiffSizC`, `src/Geom/BaseFunction.hpp:15-16` and, for lines, `maxOrder + 1`,
`src/Geom/Elements.hpp:2394`. -/
def rowEnd (dim : Int) (order : Nat) : Nat :=
  if dim = 2 then [1, 3, 6, 10].getD order 0 else if dim = 3 then [1, 4, 10, 20].getD order 0 else order + 1

/-- The first row that holds derivatives of the order, `src/Geom/Elements.hpp:2332-2421`. -/
def rowStart (dim : Int) (order : Nat) : Nat := if order = 0 then 0 else rowEnd dim (order - 1)

/-- Models the loop of `GetDiNj` over the orders, from the highest down, each order filling its own rows,
`src/Geom/Elements.hpp:2332-2357, 2364-2389, 2396-2421`. Orders above three fill nothing. -/
noncomputable def fillOrders (t : ElemType) (p : Fin 3 → ℝ) (n : Nat) (v : Nat → Nat → ℝ) : Res (Nat → Nat → ℝ) := do
  let w ← if n ≤ 3 then (do
      let s ← shapeFunc n t p
      pure fun r j => if rowStart (dim t) n ≤ r ∧ r < rowEnd (dim t) n then s (r - rowStart (dim t) n) j else v r j)
    else pure v
  match n with
  | 0 => pure w
  | m + 1 => fillOrders t p m w

/-- Models `GetDiNj`, `src/Geom/Elements.hpp:2326-2423`. In two and three dimensions `.at(maxOrder)` throws above three. -/
noncomputable def getDiNj (t : ElemType) (p : Fin 3 → ℝ) (maxOrder : Nat) : Res (Nat → Nat → ℝ) :=
  if (dim t = 2 ∨ dim t = 3) ∧ 3 < maxOrder then .abort else fillOrders t p maxOrder fun _ _ => 0

/-- Models `PPhysicsCoordD01Nj`, `src/Geom/Elements.hpp:2470-2474`: `n` columns. -/
noncomputable def pPhysics (n : Nat) (cs : Fin 3 → Nat → ℝ) (d01 : Nat → Nat → ℝ) : Fin 3 → ℝ :=
  fun a => ((List.range n).map fun j => cs a j * d01 0 j).sum

/-- Models `ShapeJacobianCoordD01Nj`, `src/Geom/Elements.hpp:2464-2468`. -/
noncomputable def shapeJacobian (n : Nat) (cs : Fin 3 → Nat → ℝ) (d01 : Nat → Nat → ℝ) : Fin 3 → Fin 3 → ℝ :=
  fun a b => ((List.range n).map fun j => cs a j * d01 (b + 1) j).sum

end DNDSR.Shape
