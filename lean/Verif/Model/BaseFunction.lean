import Verif.Model.Basic
import Mathlib.Data.Real.Basic
import Mathlib.Algebra.BigOperators.Fin
import Mathlib.Data.Matrix.Mul

/-!
# Base polynomials and their derivatives

Models `src/Geom/BaseFunction.hpp` over the real numbers.
-/

namespace DNDSR.Jet

/-- Models `ndiffSizC`, `src/Geom/BaseFunction.hpp:12-25`: the number of derivatives up to an order. -/
def ndiffSiz (dim order : Nat) : Nat := if dim = 2 then [1, 3, 6, 10].getD order 0 else [1, 4, 10, 20].getD order 0

/-- Models `ndiff2order`, `src/Geom/BaseFunction.hpp:27-54`; `none` is −1. -/
def ndiff2order (dim rows : Nat) : Option Nat :=
  if dim = 2 then match rows with | 10 => some 3 | 6 => some 2 | 3 => some 1 | 1 => some 0 | _ => none
  else match rows with | 20 => some 3 | 10 => some 2 | 4 => some 1 | 1 => some 0 | _ => none

/-- Models `diffOperatorOrderList`, `src/Geom/BaseFunction.hpp:55-77`. -/
def orderList3 : List (List Nat) :=
  [[0, 0, 0], [1, 0, 0], [0, 1, 0], [0, 0, 1], [2, 0, 0], [0, 2, 0], [0, 0, 2], [1, 1, 0], [0, 1, 1], [1, 0, 1],
   [3, 0, 0], [0, 3, 0], [0, 0, 3], [2, 1, 0], [1, 2, 0], [0, 2, 1], [0, 1, 2], [1, 0, 2], [2, 0, 1], [1, 1, 1]]

/-- Models `diffOperatorOrderList2D`, `src/Geom/BaseFunction.hpp:79-91`. -/
def orderList2 : List (List Nat) :=
  [[0, 0, 0], [1, 0, 0], [0, 1, 0], [2, 0, 0], [1, 1, 0], [0, 2, 0], [3, 0, 0], [2, 1, 0], [1, 2, 0], [0, 3, 0]]

/-- Models `diffOperatorDimList`, `src/Geom/BaseFunction.hpp:93-115`; missing entries of an array are zero. -/
def dimList3 : List (List (Fin 3)) :=
  [[0, 0, 0], [0, 0, 0], [1, 0, 0], [2, 0, 0], [0, 0, 0], [1, 1, 0], [2, 2, 0], [0, 1, 0], [1, 2, 0], [0, 2, 0],
   [0, 0, 0], [1, 1, 1], [2, 2, 2], [0, 0, 1], [0, 1, 1], [1, 1, 2], [1, 2, 2], [0, 2, 2], [0, 0, 2], [0, 1, 2]]

/-- Models `diffOperatorDimList2D`, `src/Geom/BaseFunction.hpp:117-129`; missing entries of an array are zero. -/
def dimList2 : List (List (Fin 2)) :=
  [[0, 0, 0], [0, 0, 0], [1, 0, 0], [0, 0, 0], [0, 1, 0], [1, 1, 0], [0, 0, 0], [0, 0, 1], [0, 1, 1], [1, 1, 1]]

/-- Models `searchForArray3` in `__get_diffOperatorIJK2I`, `src/Geom/BaseFunction.hpp:146-154`: the last match; 0 instead of −1 if there is
none, which does not happen. -/
def searchOrder (L : List (List Nat)) (e : List Nat) : Nat :=
  (List.range L.length).foldl (fun r i => if e = L.getD i [] then i else r) 0

/-- The entry of the searches in `__get_diffOperatorIJK2I`, `src/Geom/BaseFunction.hpp:156-178`: how often each axis occurs. -/
def entryOf (ds : List Nat) : List Nat := [ds.count 0, ds.count 1, ds.count 2]

/-- Models the entry of `diffOperatorIJK2I2D` for a list of axes, `src/Geom/BaseFunction.hpp:137-189`. -/
def ijk2 (ds : List (Fin 2)) : Nat := searchOrder orderList2 (entryOf (ds.map Fin.val))

/-- Models the entry of `diffOperatorIJK2I` for a list of axes, `src/Geom/BaseFunction.hpp:137-189`. -/
def ijk3 (ds : List (Fin 3)) : Nat := searchOrder orderList3 (entryOf (ds.map Fin.val))

/-- Models `dFactorials`, `src/Geom/BaseFunction.hpp:191-195`. -/
def dFactorials (p d : Nat) : Nat := ([[1, 0, 0, 0], [1, 1, 0, 0], [1, 2, 2, 0], [1, 3, 6, 6]].getD p []).getD d 0

/-- Models `diffNCombs2D`, `src/Geom/BaseFunction.hpp:209-210`. -/
def nCombs2 : List Nat := [1, 1, 1, 1, 2, 1, 1, 3, 3, 1]

/-- Models `diffNCombs`, `src/Geom/BaseFunction.hpp:212-213`. -/
def nCombs3 : List Nat := [1, 1, 1, 1, 1, 1, 1, 2, 2, 2, 1, 1, 1, 3, 3, 3, 3, 3, 3, 6]

/-- Models `iPow`, `src/Geom/BaseFunction.hpp:215-231`. -/
noncomputable def iPow (p : Int) (x : ℝ) : ℝ :=
  if p = 0 then 1 else if p = 1 then x else if p = 2 then x * x else if p = 3 then x * x * x else 10 ^ 300

/-- Models `FPolynomial3D`, `src/Geom/BaseFunction.hpp:277-282`. -/
noncomputable def fPolynomial3D (px py pz dx dy dz : Nat) (x y z : ℝ) : ℝ :=
  let c := dFactorials px dx * dFactorials py dy * dFactorials pz dz
  if c ≠ 0 then c * iPow (px - dx) x * iPow (py - dy) y * iPow (pz - dz) z else 0

/-- Reads `a[i][j]` of a table of exponents. -/
def ord (L : List (List Nat)) (i j : Nat) : Nat := (L.getD i []).getD j 0

/-- Models the general branch of `FPolynomialFill2D`, `src/Geom/BaseFunction.hpp:422-438`. -/
noncomputable def fill2DGeneral (x y z lx ly : ℝ) (r c : Nat) : ℝ :=
  fPolynomial3D (ord orderList2 c 0) (ord orderList2 c 1) (ord orderList2 c 2)
      (ord orderList2 r 0) (ord orderList2 r 1) (ord orderList2 r 2) x y (z / 1) /
    (iPow (ord orderList2 r 0) lx * iPow (ord orderList2 r 1) ly * iPow (ord orderList2 r 2) 1)

/-- Models the general branch of `FPolynomialFill3D`, `src/Geom/BaseFunction.hpp:695-711`. -/
noncomputable def fill3DGeneral (x y z lx ly lz : ℝ) (r c : Nat) : ℝ :=
  fPolynomial3D (ord orderList3 c 0) (ord orderList3 c 1) (ord orderList3 c 2)
      (ord orderList3 r 0) (ord orderList3 r 1) (ord orderList3 r 2) x y z /
    (iPow (ord orderList3 r 0) lx * iPow (ord orderList3 r 1) ly * iPow (ord orderList3 r 2) lz)

/-- Reads an entry of a table. -/
noncomputable def cell (t : List (List ℝ)) (r c : Nat) : ℝ := (t.getD r []).getD c 0

/-- Models the assignments of `FPolynomialFill2D` for 10 rows and 10 columns, `src/Geom/BaseFunction.hpp:290-327`, written out row by row
with the zeros of `setZero`. -/
noncomputable def fill2D_10_10 (x y lx ly : ℝ) : List (List ℝ) :=
  [[1, x, y, x * x, x * y, y * y, x * x * x, (x * x) * y, x * (y * y), y * y * y],
   [0, 1 / lx, 0, (x * 2) / lx, y / lx, 0, ((x * x) * 3) / lx, (x * y * 2) / lx, (y * y) / lx, 0],
   [0, 0, 1 / ly, 0, x / ly, (y * 2) / ly, 0, (x * x) / ly, (x * y * 2) / ly, ((y * y) * 3) / ly],
   [0, 0, 0, 1 / (lx * lx) * 2, 0, 0, 1 / (lx * lx) * x * 6, 1 / (lx * lx) * y * 2, 0, 0],
   [0, 0, 0, 0, 1 / (lx * ly), 0, 0, (x * 2) / (lx * ly), (y * 2) / (lx * ly), 0],
   [0, 0, 0, 0, 0, 1 / (ly * ly) * 2, 0, 0, 1 / (ly * ly) * x * 2, 1 / (ly * ly) * y * 6],
   [0, 0, 0, 0, 0, 0, 1 / (lx * lx * lx) * 6, 0, 0, 0],
   [0, 0, 0, 0, 0, 0, 0, (1 / (lx * lx) * 2) / ly, 0, 0],
   [0, 0, 0, 0, 0, 0, 0, 0, (1 / (ly * ly) * 2) / lx, 0],
   [0, 0, 0, 0, 0, 0, 0, 0, 0, 1 / (ly * ly * ly) * 6]]

/-- Models the assignments of `FPolynomialFill2D` for 3 rows and 10 columns, `src/Geom/BaseFunction.hpp:328-352`, written out row by row
with the zeros of `setZero`. -/
noncomputable def fill2D_3_10 (x y lx ly : ℝ) : List (List ℝ) :=
  [[1, x, y, x * x, x * y, y * y, x * x * x, (x * x) * y, x * (y * y), y * y * y],
   [0, 1 / lx, 0, (x * 2) / lx, y / lx, 0, ((x * x) * 3) / lx, (x * y * 2) / lx, (y * y) / lx, 0],
   [0, 0, 1 / ly, 0, x / ly, (y * 2) / ly, 0, (x * x) / ly, (x * y * 2) / ly, ((y * y) * 3) / ly]]

/-- Models the assignments of `FPolynomialFill2D` for 1 rows and 10 columns, `src/Geom/BaseFunction.hpp:353-365`, written out row by row
with the zeros of `setZero`. -/
noncomputable def fill2D_1_10 (x y lx ly : ℝ) : List (List ℝ) :=
  [[1, x, y, x * x, x * y, y * y, x * x * x, (x * x) * y, x * (y * y), y * y * y]]

/-- Models the assignments of `FPolynomialFill2D` for 6 rows and 6 columns, `src/Geom/BaseFunction.hpp:366-383`, written out row by row
with the zeros of `setZero`. -/
noncomputable def fill2D_6_6 (x y lx ly : ℝ) : List (List ℝ) :=
  [[1, x, y, x * x, x * y, y * y],
   [0, 1 / lx, 0, (x * 2) / lx, y / lx, 0],
   [0, 0, 1 / ly, 0, x / ly, (y * 2) / ly],
   [0, 0, 0, 1 / (lx * lx) * 2, 0, 0],
   [0, 0, 0, 0, 1 / (lx * ly), 0],
   [0, 0, 0, 0, 0, 1 / (ly * ly) * 2]]

/-- Models the assignments of `FPolynomialFill2D` for 3 rows and 6 columns, `src/Geom/BaseFunction.hpp:384-398`, written out row by row
with the zeros of `setZero`. -/
noncomputable def fill2D_3_6 (x y lx ly : ℝ) : List (List ℝ) :=
  [[1, x, y, x * x, x * y, y * y],
   [0, 1 / lx, 0, (x * 2) / lx, y / lx, 0],
   [0, 0, 1 / ly, 0, x / ly, (y * 2) / ly]]

/-- Models the assignments of `FPolynomialFill2D` for 1 rows and 6 columns, `src/Geom/BaseFunction.hpp:399-407`, written out row by row
with the zeros of `setZero`. -/
noncomputable def fill2D_1_6 (x y lx ly : ℝ) : List (List ℝ) :=
  [[1, x, y, x * x, x * y, y * y]]

/-- Models the assignments of `FPolynomialFill2D` for 3 rows and 3 columns, `src/Geom/BaseFunction.hpp:408-415`, written out row by row
with the zeros of `setZero`. -/
noncomputable def fill2D_3_3 (x y lx ly : ℝ) : List (List ℝ) :=
  [[1, x, y],
   [0, 1 / lx, 0],
   [0, 0, 1 / ly]]

/-- Models the assignments of `FPolynomialFill2D` for 1 rows and 3 columns, `src/Geom/BaseFunction.hpp:416-421`, written out row by row
with the zeros of `setZero`. -/
noncomputable def fill2D_1_3 (x y lx ly : ℝ) : List (List ℝ) :=
  [[1, x, y]]

/-- Models the assignments of `FPolynomialFill3D` for 20 rows and 20 columns, `src/Geom/BaseFunction.hpp:446-532`, written out row by row
with the zeros of `setZero`. -/
noncomputable def fill3D_20_20 (x y z lx ly lz : ℝ) : List (List ℝ) :=
  [[1, x, y, z, x * x, y * y, z * z, x * y, y * z, x * z, x * x * x, y * y * y, z * z * z, (x * x) * y, x * (y * y), (y * y) * z, y * (z * z), x * (z * z), (x * x) * z, x * y * z],
   [0, 1 / lx, 0, 0, (x * 2) / lx, 0, 0, y / lx, 0, z / lx, ((x * x) * 3) / lx, 0, 0, (x * y * 2) / lx, (y * y) / lx, 0, 0, (z * z) / lx, (x * z * 2) / lx, (y * z) / lx],
   [0, 0, 1 / ly, 0, 0, (y * 2) / ly, 0, x / ly, z / ly, 0, 0, ((y * y) * 3) / ly, 0, (x * x) / ly, (x * y * 2) / ly, (y * z * 2) / ly, (z * z) / ly, 0, 0, (x * z) / ly],
   [0, 0, 0, 1 / lz, 0, 0, (z * 2) / lz, 0, y / lz, x / lz, 0, 0, ((z * z) * 3) / lz, 0, 0, (y * y) / lz, (y * z * 2) / lz, (x * z * 2) / lz, (x * x) / lz, (x * y) / lz],
   [0, 0, 0, 0, 1 / (lx * lx) * 2, 0, 0, 0, 0, 0, 1 / (lx * lx) * x * 6, 0, 0, 1 / (lx * lx) * y * 2, 0, 0, 0, 0, 1 / (lx * lx) * z * 2, 0],
   [0, 0, 0, 0, 0, 1 / (ly * ly) * 2, 0, 0, 0, 0, 0, 1 / (ly * ly) * y * 6, 0, 0, 1 / (ly * ly) * x * 2, 1 / (ly * ly) * z * 2, 0, 0, 0, 0],
   [0, 0, 0, 0, 0, 0, 1 / (lz * lz) * 2, 0, 0, 0, 0, 0, 1 / (lz * lz) * z * 6, 0, 0, 0, 1 / (lz * lz) * y * 2, 1 / (lz * lz) * x * 2, 0, 0],
   [0, 0, 0, 0, 0, 0, 0, 1 / (lx * ly), 0, 0, 0, 0, 0, (x * 2) / (lx * ly), (y * 2) / (lx * ly), 0, 0, 0, 0, z / (lx * ly)],
   [0, 0, 0, 0, 0, 0, 0, 0, 1 / (ly * lz), 0, 0, 0, 0, 0, 0, (y * 2) / (ly * lz), (z * 2) / (ly * lz), 0, 0, x / (ly * lz)],
   [0, 0, 0, 0, 0, 0, 0, 0, 0, 1 / (lx * lz), 0, 0, 0, 0, 0, 0, 0, (z * 2) / (lx * lz), (x * 2) / (lx * lz), y / (lx * lz)],
   [0, 0, 0, 0, 0, 0, 0, 0, 0, 0, 1 / (lx * lx * lx) * 6, 0, 0, 0, 0, 0, 0, 0, 0, 0],
   [0, 0, 0, 0, 0, 0, 0, 0, 0, 0, 0, 1 / (ly * ly * ly) * 6, 0, 0, 0, 0, 0, 0, 0, 0],
   [0, 0, 0, 0, 0, 0, 0, 0, 0, 0, 0, 0, 1 / (lz * lz * lz) * 6, 0, 0, 0, 0, 0, 0, 0],
   [0, 0, 0, 0, 0, 0, 0, 0, 0, 0, 0, 0, 0, (1 / (lx * lx) * 2) / ly, 0, 0, 0, 0, 0, 0],
   [0, 0, 0, 0, 0, 0, 0, 0, 0, 0, 0, 0, 0, 0, (1 / (ly * ly) * 2) / lx, 0, 0, 0, 0, 0],
   [0, 0, 0, 0, 0, 0, 0, 0, 0, 0, 0, 0, 0, 0, 0, (1 / (ly * ly) * 2) / lz, 0, 0, 0, 0],
   [0, 0, 0, 0, 0, 0, 0, 0, 0, 0, 0, 0, 0, 0, 0, 0, (1 / (lz * lz) * 2) / ly, 0, 0, 0],
   [0, 0, 0, 0, 0, 0, 0, 0, 0, 0, 0, 0, 0, 0, 0, 0, 0, (1 / (lz * lz) * 2) / lx, 0, 0],
   [0, 0, 0, 0, 0, 0, 0, 0, 0, 0, 0, 0, 0, 0, 0, 0, 0, 0, (1 / (lx * lx) * 2) / lz, 0],
   [0, 0, 0, 0, 0, 0, 0, 0, 0, 0, 0, 0, 0, 0, 0, 0, 0, 0, 0, 1 / (lx * ly * lz)]]

/-- Models the assignments of `FPolynomialFill3D` for 4 rows and 20 columns, `src/Geom/BaseFunction.hpp:533-585`, written out row by row
with the zeros of `setZero`. -/
noncomputable def fill3D_4_20 (x y z lx ly lz : ℝ) : List (List ℝ) :=
  [[1, x, y, z, x * x, y * y, z * z, x * y, y * z, x * z, x * x * x, y * y * y, z * z * z, (x * x) * y, x * (y * y), (y * y) * z, y * (z * z), x * (z * z), (x * x) * z, x * y * z],
   [0, 1 / lx, 0, 0, (x * 2) / lx, 0, 0, y / lx, 0, z / lx, ((x * x) * 3) / lx, 0, 0, (x * y * 2) / lx, (y * y) / lx, 0, 0, (z * z) / lx, (x * z * 2) / lx, (y * z) / lx],
   [0, 0, 1 / ly, 0, 0, (y * 2) / ly, 0, x / ly, z / ly, 0, 0, ((y * y) * 3) / ly, 0, (x * x) / ly, (x * y * 2) / ly, (y * z * 2) / ly, (z * z) / ly, 0, 0, (x * z) / ly],
   [0, 0, 0, 1 / lz, 0, 0, (z * 2) / lz, 0, y / lz, x / lz, 0, 0, ((z * z) * 3) / lz, 0, 0, (y * y) / lz, (y * z * 2) / lz, (x * z * 2) / lz, (x * x) / lz, (x * y) / lz]]

/-- Models the assignments of `FPolynomialFill3D` for 1 rows and 20 columns, `src/Geom/BaseFunction.hpp:586-608`, written out row by row
with the zeros of `setZero`. -/
noncomputable def fill3D_1_20 (x y z lx ly lz : ℝ) : List (List ℝ) :=
  [[1, x, y, z, x * x, y * y, z * z, x * y, y * z, x * z, x * x * x, y * y * y, z * z * z, (x * x) * y, x * (y * y), (y * y) * z, y * (z * z), x * (z * z), (x * x) * z, x * y * z]]

/-- Models the assignments of `FPolynomialFill3D` for 10 rows and 10 columns, `src/Geom/BaseFunction.hpp:609-639`, written out row by row
with the zeros of `setZero`. -/
noncomputable def fill3D_10_10 (x y z lx ly lz : ℝ) : List (List ℝ) :=
  [[1, x, y, z, x * x, y * y, z * z, x * y, y * z, x * z],
   [0, 1 / lx, 0, 0, (x * 2) / lx, 0, 0, y / lx, 0, z / lx],
   [0, 0, 1 / ly, 0, 0, (y * 2) / ly, 0, x / ly, z / ly, 0],
   [0, 0, 0, 1 / lz, 0, 0, (z * 2) / lz, 0, y / lz, x / lz],
   [0, 0, 0, 0, 1 / (lx * lx) * 2, 0, 0, 0, 0, 0],
   [0, 0, 0, 0, 0, 1 / (ly * ly) * 2, 0, 0, 0, 0],
   [0, 0, 0, 0, 0, 0, 1 / (lz * lz) * 2, 0, 0, 0],
   [0, 0, 0, 0, 0, 0, 0, 1 / (lx * ly), 0, 0],
   [0, 0, 0, 0, 0, 0, 0, 0, 1 / (ly * lz), 0],
   [0, 0, 0, 0, 0, 0, 0, 0, 0, 1 / (lx * lz)]]

/-- Models the assignments of `FPolynomialFill3D` for 4 rows and 10 columns, `src/Geom/BaseFunction.hpp:640-664`, written out row by row
with the zeros of `setZero`. -/
noncomputable def fill3D_4_10 (x y z lx ly lz : ℝ) : List (List ℝ) :=
  [[1, x, y, z, x * x, y * y, z * z, x * y, y * z, x * z],
   [0, 1 / lx, 0, 0, (x * 2) / lx, 0, 0, y / lx, 0, z / lx],
   [0, 0, 1 / ly, 0, 0, (y * 2) / ly, 0, x / ly, z / ly, 0],
   [0, 0, 0, 1 / lz, 0, 0, (z * 2) / lz, 0, y / lz, x / lz]]

/-- Models the assignments of `FPolynomialFill3D` for 1 rows and 10 columns, `src/Geom/BaseFunction.hpp:665-677`, written out row by row
with the zeros of `setZero`. -/
noncomputable def fill3D_1_10 (x y z lx ly lz : ℝ) : List (List ℝ) :=
  [[1, x, y, z, x * x, y * y, z * z, x * y, y * z, x * z]]

/-- Models the assignments of `FPolynomialFill3D` for 4 rows and 4 columns, `src/Geom/BaseFunction.hpp:678-687`, written out row by row
with the zeros of `setZero`. -/
noncomputable def fill3D_4_4 (x y z lx ly lz : ℝ) : List (List ℝ) :=
  [[1, x, y, z],
   [0, 1 / lx, 0, 0],
   [0, 0, 1 / ly, 0],
   [0, 0, 0, 1 / lz]]

/-- Models the assignments of `FPolynomialFill3D` for 1 rows and 4 columns, `src/Geom/BaseFunction.hpp:688-694`, written out row by row
with the zeros of `setZero`. -/
noncomputable def fill3D_1_4 (x y z lx ly lz : ℝ) : List (List ℝ) :=
  [[1, x, y, z]]

/-- Models the branches of `FPolynomialFill2D`, `src/Geom/BaseFunction.hpp:284-440`: the entry `(r, c)` of the table of size
`rows` x `cols`. -/
noncomputable def fill2D (x y z lx ly _lz : ℝ) (rows cols r c : Nat) : ℝ :=
  if rows = 10 ∧ cols = 10 then cell (fill2D_10_10 x y lx ly) r c
  else if rows = 3 ∧ cols = 10 then cell (fill2D_3_10 x y lx ly) r c
  else if rows = 1 ∧ cols = 10 then cell (fill2D_1_10 x y lx ly) r c
  else if rows = 6 ∧ cols = 6 then cell (fill2D_6_6 x y lx ly) r c
  else if rows = 3 ∧ cols = 6 then cell (fill2D_3_6 x y lx ly) r c
  else if rows = 1 ∧ cols = 6 then cell (fill2D_1_6 x y lx ly) r c
  else if rows = 3 ∧ cols = 3 then cell (fill2D_3_3 x y lx ly) r c
  else if rows = 1 ∧ cols = 3 then cell (fill2D_1_3 x y lx ly) r c
  else fill2DGeneral x y z lx ly r c

/-- Models the branches of `FPolynomialFill3D`, `src/Geom/BaseFunction.hpp:442-712`: the entry `(r, c)` of the table of size
`rows` x `cols`. -/
noncomputable def fill3D (x y z lx ly lz : ℝ) (rows cols r c : Nat) : ℝ :=
  if rows = 20 ∧ cols = 20 then cell (fill3D_20_20 x y z lx ly lz) r c
  else if rows = 4 ∧ cols = 20 then cell (fill3D_4_20 x y z lx ly lz) r c
  else if rows = 1 ∧ cols = 20 then cell (fill3D_1_20 x y z lx ly lz) r c
  else if rows = 10 ∧ cols = 10 then cell (fill3D_10_10 x y z lx ly lz) r c
  else if rows = 4 ∧ cols = 10 then cell (fill3D_4_10 x y z lx ly lz) r c
  else if rows = 1 ∧ cols = 10 then cell (fill3D_1_10 x y z lx ly lz) r c
  else if rows = 4 ∧ cols = 4 then cell (fill3D_4_4 x y z lx ly lz) r c
  else if rows = 1 ∧ cols = 4 then cell (fill3D_1_4 x y z lx ly lz) r c
  else fill3DGeneral x y z lx ly lz r c

end DNDSR.Jet
