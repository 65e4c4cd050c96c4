import Verif.Model.Gas

/-!
# Slope limiters

Models `src/CFV/Limiters.hpp` over the real numbers.  The elementwise limiters are functions of one entry; the norm based ones work
on one column (one variable) at a time, a vector of the coefficients in `m` rows.  The checks `hasNaN` have no counterpart: there
is no NaN in the reals.  `signP`, `verySmall` are those of `Verif.Model.Gas`.
-/

namespace DNDSR.Lim

open DNDSR.Gas

/-- Eigen's `sign`. -/
noncomputable def sgn (x : ℝ) : ℝ := if x > 0 then 1 else if x < 0 then -1 else 0

/-- Models `verySmallReal_pDiP`, `src/CFV/Limiters.hpp:346`: the fourth root of 1e-200. -/
noncomputable def guard : ℝ := 1 / 10 ^ 50

/-- Models `FMINMOD_Biway`, `src/CFV/Limiters.hpp:483-487`. -/
noncomputable def minmod (u1 u2 : ℝ) : ℝ := min |u1| |u2| * (sgn u1 + sgn u2) * (1 / 2)

/-- Models `FVanLeer_Biway`, `src/CFV/Limiters.hpp:492-496`. -/
noncomputable def vanLeer (u1 u2 : ℝ) : ℝ := (sgn u1 + sgn u2) * |u1 * u2| / (|u1 + u2| + verySmall)

/-- Models `frac`, `src/CFV/Limiters.hpp:430`, `:470` and `thetaInverse`, `:361`. -/
noncomputable def frac (u1 u2 : ℝ) : ℝ := u1 / (|u2| + guard) * sgn u2

/-- Models `FWBAP_L2_Biway`, `src/CFV/Limiters.hpp:412-461`. -/
noncomputable def wbap (n u1 u2 : ℝ) : ℝ :=
  let f := frac u1 u2
  let theta1 := f * f * f
  let theta2 := (f * f) * (f * f)
  let uOut := u1 * (n + theta1) / (n + theta2)
  uOut * |sgn u2|

/-- Models `FWBAP_L2_Cut_Biway`, `src/CFV/Limiters.hpp:463-478`. -/
noncomputable def wbapCut (n u1 u2 : ℝ) : ℝ :=
  let f := frac u1 u2
  let theta1 := f * f * f
  let theta2 := (f * f) * (f * f)
  let uOut := u1 * (n + theta1) / (n + theta2)
  uOut * (|sgn u2| * (1 / 2 * |sgn u1 + sgn u2|))

/-- Models the loop of `FWBAP_L2_Multiway`, `src/CFV/Limiters.hpp:359-365`: `uUp`, `uDown`, `uCent`. -/
noncomputable def multiLoop (u0 : ℝ) (us : List ℝ) : ℝ × ℝ × ℝ :=
  us.foldl (fun s u =>
    let t := frac u0 u
    (s.1 + t * t * t, s.2.1 + (t * t) * (t * t), s.2.2 * |sgn u|)) (0, 0, u0)

/-- Models `FWBAP_L2_Multiway`, `src/CFV/Limiters.hpp:341-407`; `u0` is `uOthers[0]`, `us` the rest. -/
noncomputable def wbapMulti (n1 u0 : ℝ) (us : List ℝ) : ℝ :=
  let s := multiLoop u0 us
  s.2.2 * (s.1 + n1) / (s.2.1 + n1)

variable {m : Nat}

/-- The weights of the squares in the norm, `src/CFV/Limiters.hpp:510-609` (and `:633-732`, `:32-56`, `:134-182`, `:191-226` for
`dim` 2); none for the combinations that abort. -/
noncomputable def weights (dim rows : Nat) : Option (List ℝ) :=
  if dim = 2 then
    if rows = 2 then some [1, 1]
    else if rows = 3 then some [1, 1 / 2, 1]
    else if rows = 4 then some [1, 1 / 3, 1 / 3, 1]
    else none
  else
    if rows = 3 then some [1, 1, 1]
    else if rows = 6 then some [1, 1, 1, 1 / 2, 1 / 2, 1 / 2]
    else if rows = 10 then some [1, 1, 1, 1 / 3, 1 / 3, 1 / 3, 1 / 3, 1 / 3, 1 / 3, 1 / 6]
    else none

/-- The coordinates multiplied in each row's basis monomial, one block per polynomial degree: `diffOperatorDimList2D`,
`src/Geom/BaseFunction.hpp:117-129` (the blocks of 2, 3 and 4 rows). -/
def monoDims2D (rows : Nat) : List (List (Fin 2)) :=
  if rows = 2 then [[0], [1]]
  else if rows = 3 then [[0, 0], [0, 1], [1, 1]]
  else if rows = 4 then [[0, 0, 0], [0, 0, 1], [0, 1, 1], [1, 1, 1]]
  else []

/-- Same for `diffOperatorDimList`, `src/Geom/BaseFunction.hpp:93-115` (the blocks of 3, 6 and 10 rows). -/
def monoDims3D (rows : Nat) : List (List (Fin 3)) :=
  if rows = 3 then [[0], [1], [2]]
  else if rows = 6 then [[0, 0], [1, 1], [2, 2], [0, 1], [1, 2], [0, 2]]
  else if rows = 10 then [[0, 0, 0], [1, 1, 1], [2, 2, 2], [0, 0, 1], [0, 1, 1], [1, 1, 2], [1, 2, 2], [0, 2, 2], [0, 0, 2], [0, 1, 2]]
  else []

/-- The weighted sum of squares, same lines as `weights`. -/
noncomputable def wnorm (w : List ℝ) (t : Fin m → ℝ) : ℝ := ∑ k, (w.getD k.val 0) * (t k * t k)

/-- `maxCoeff` of a column with positive entries. -/
noncomputable def colMax (f : Fin m → ℝ) : ℝ := (List.ofFn f).foldl max 0

/-- Models `uMax` of the two-way norm limiters, `src/CFV/Limiters.hpp:505-506`, `:628-629`, `:763-764`. -/
noncomputable def biMax (u1 u2 : Fin m → ℝ) : ℝ := colMax fun k => max |u1 k| |u2 k| + guard

/-- Models `FWBAP_L2_Biway_PolynomialNorm`, `src/CFV/Limiters.hpp:498-619`, given the weights. -/
noncomputable def wbapNormCore (w : List ℝ) (n : ℝ) (u1 u2 : Fin m → ℝ) : Fin m → ℝ :=
  let uMax := biMax u1 u2
  let theta1 := fun k => u1 k / uMax
  let theta2 := fun k => u2 k / uMax
  let u1p := wnorm w theta1 * wnorm w theta1
  let u2p := wnorm w theta2 * wnorm w theta2
  fun k => (u2 k * u1p + n * (u1 k * u2p)) / ((u1p + n * u2p) + verySmall)

/-- Models `FWBAP_L2_Biway_PolynomialNorm`, `src/CFV/Limiters.hpp:498-619`. -/
noncomputable def wbapNorm (dim : Nat) (n : ℝ) (u1 u2 : Fin m → ℝ) : Res (Fin m → ℝ) :=
  match weights dim m with
  | none => .abort
  | some w => .ok (wbapNormCore w n u1 u2)

/-- Models `FWBAP_L2_Biway_PolynomialOrth`, `src/CFV/Limiters.hpp:757-776`: all weights 1, any number of rows. -/
noncomputable def wbapOrth (n : ℝ) (u1 u2 : Fin m → ℝ) : Fin m → ℝ :=
  wbapNormCore (List.replicate m 1) n u1 u2

/-- Models `FMEMM_Biway_PolynomialNorm`, `src/CFV/Limiters.hpp:621-755`, given the weights; `replaceFactor` is what line 748
assigns. -/
noncomputable def memmCore (w : List ℝ) (u1 u2 : Fin m → ℝ) : Fin m → ℝ :=
  let uMax := biMax u1 u2
  let theta1 := fun k => u1 k / uMax
  let theta2 := fun k => u2 k / uMax
  let u1p := √(wnorm w theta1)
  let u2p := √(wnorm w theta2)
  let ifReplace := sgn (u1p - u2p) * (1 / 2) + 1 / 2
  let replaceFactor := 1 - ifReplace
  fun k => u1 k * replaceFactor + u2 k * (1 - replaceFactor)

/-- Models `FMEMM_Biway_PolynomialNorm`, `src/CFV/Limiters.hpp:621-755`. -/
noncomputable def memm (dim : Nat) (u1 u2 : Fin m → ℝ) : Res (Fin m → ℝ) :=
  match weights dim m with
  | none => .abort
  | some w => .ok (memmCore w u1 u2)

/-- Models `uMax` of the multi-way norm limiters, `src/CFV/Limiters.hpp:22-25`, `:268-271`. -/
noncomputable def multiMax (us : List (Fin m → ℝ)) : ℝ :=
  colMax fun k => us.foldl (fun s u => max s |u k|) verySmall

/-- Models the loop of the multi-way norm limiters, `src/CFV/Limiters.hpp:28-63`, `:274-285`: `uUp`, `uDown`; `exn` is the factor of
the next candidate (`n1` for the first, 1 for the others). -/
noncomputable def multiNormLoop (w : List ℝ) (uMax : ℝ) : ℝ → List (Fin m → ℝ) → (Fin m → ℝ) × ℝ → (Fin m → ℝ) × ℝ
  | _, [], s => s
  | exn, u :: us, s =>
    let theta := fun k => u k / uMax
    let thetaNorm := wnorm w theta
    let thetaNorm := thetaNorm + guard
    let thetaNorm := (thetaNorm * thetaNorm)⁻¹
    multiNormLoop w uMax 1 us (fun k => s.1 k + theta k * thetaNorm * exn, s.2 + thetaNorm * exn)

/-- Models `FWBAP_L2_Multiway_PolynomialOrth`, `src/CFV/Limiters.hpp:255-297`, and `FWBAP_L2_Multiway_Polynomial2D`, `:9-111`, given
the weights. -/
noncomputable def multiNormCore (w : List ℝ) (n1 : ℝ) (us : List (Fin m → ℝ)) : Fin m → ℝ :=
  let uMax := multiMax us
  let s := multiNormLoop w uMax n1 us (fun _ => 0, 0)
  fun k => uMax * (s.1 k / (s.2 + verySmall))

/-- Models `FWBAP_L2_Multiway_Polynomial2D`, `src/CFV/Limiters.hpp:9-111`. -/
noncomputable def multi2D (n1 : ℝ) (us : List (Fin m → ℝ)) : Res (Fin m → ℝ) :=
  match weights 2 m with
  | none => .abort
  | some w => .ok (multiNormCore w n1 us)

/-- Models `FWBAP_L2_Multiway_PolynomialOrth`, `src/CFV/Limiters.hpp:255-297`. -/
noncomputable def multiOrth (n1 : ℝ) (us : List (Fin m → ℝ)) : Fin m → ℝ :=
  multiNormCore (List.replicate m 1) n1 us

/-- Models the loop of `FMEMM_Multiway_Polynomial2D`, `src/CFV/Limiters.hpp:128-188`: `thetaMinNorm`. -/
noncomputable def memmLoop (w : List ℝ) (umax : ℝ) (tmin : Fin m → ℝ) (us : List (Fin m → ℝ)) : Fin m → ℝ :=
  us.foldl (fun tmin u =>
    let theta := fun k => u k / umax
    let selection := sgn (wnorm w theta - wnorm w tmin) * (1 / 2) + 1 / 2
    fun k => theta k * (1 - selection) + tmin k * selection) tmin

/-- Models `FMEMM_Multiway_Polynomial2D`, `src/CFV/Limiters.hpp:116-250`, given the weights. -/
noncomputable def memmMultiCore (w : List ℝ) (u : Fin m → ℝ) (us : List (Fin m → ℝ)) : Fin m → ℝ :=
  let umax := colMax (fun k => |u k|) + verySmall
  let theta0 := fun k => u k / umax
  let tmin := memmLoop w umax theta0 us
  let thetaNorm := wnorm w theta0
  let minNorm := wnorm w tmin
  let replaceLoc := max (√(thetaNorm / (minNorm + verySmall)) - 1) verySmall
  let replaceFactor := replaceLoc * 0 + 1
  let replaceFactor := (replaceFactor - 1) / replaceLoc
  let ifReplace := sgn (thetaNorm - minNorm) * (1 / 2) + 1 / 2
  let replaceFactor := ifReplace * replaceFactor + (1 - ifReplace)
  fun k => u k * replaceFactor + (tmin k * umax) * (1 - replaceFactor)

/-- Models `FMEMM_Multiway_Polynomial2D`, `src/CFV/Limiters.hpp:116-250`. -/
noncomputable def memmMulti (u : Fin m → ℝ) (us : List (Fin m → ℝ)) : Res (Fin m → ℝ) :=
  match weights 2 m with
  | none => .abort
  | some w => .ok (memmMultiCore w u us)

end DNDSR.Lim
