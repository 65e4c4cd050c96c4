import Verif.Model.Gas

/-!
# The compression ratio for positive internal energy

Models `IdealGasGetCompressionRatioPressure`, `src/Euler/Gas.hpp:1133-1245`.  Only the first `dim + 2` components of the state take
part; the function returns only the ratio.
-/

namespace DNDSR.Gas

variable {d : Nat}

/-- Models `rhoEOld`, `rhoENew`, `src/Euler/Gas.hpp:1144`, `:1146`. -/
noncomputable def rhoEInt (U : St ℝ d) : ℝ :=
  U.c4 - U.cv ⬝ᵥ U.cv / (U.c0 + verySmall) * (1 / 2)

/-- Models `alphaEst1`, `src/Euler/Gas.hpp:1147-1152`; `f` is `newrhoEinteralNew` after line 1145. -/
noncomputable def ratioConvex (eOld eNew f : ℝ) : ℝ :=
  let est := (eOld - f) / max (-eNew + eOld) verySmall
  let est := if eNew > eOld then 1 else est
  let est := min est 1
  max est 0

/-- Models the common end of both schemes, `src/Euler/Gas.hpp:1199-1201` and `:1206-1208`. -/
noncomputable def ratioSafety (alpha : ℝ) : ℝ :=
  let alpha := alpha * (1 - 1 / 10 ^ 5)
  if alpha < small then 0 else alpha

/-- Models the choice of a root, `src/Euler/Gas.hpp:1162-1198`, given the coefficients after line 1161. -/
noncomputable def ratioRoot (c0 c1 c2 : ℝ) : Res ℝ :=
  let deltaC := c1 * c1 - 4 * c0 * c2
  if deltaC ≤ -(c0 * c0) * small then .abort
  else
    let deltaC := max 0 deltaC
    let alphaL := (-√deltaC - c1) / (2 * c2)
    let alpha :=
      if |c2| < 1 / 10 ^ 10 * c0 then
        if |c1| < 1 / 10 ^ 10 * c0 then 0
        else min (-c0 / c1) 1
      else min (if c2 > 0 then alphaL else alphaL) 1
    .ok (max 0 alpha)

/-- Models the quadratic of scheme 0, `src/Euler/Gas.hpp:1158-1161`: `c0`, `c1`, `c2`. -/
noncomputable def ratioCoeffs (u inc : St ℝ d) (f : ℝ) : ℝ × ℝ × ℝ :=
  let c0 := 2 * u.c4 * u.c0 - u.cv ⬝ᵥ u.cv - 2 * u.c0 * f
  let c1 := 2 * u.c4 * inc.c0 + 2 * u.c0 * inc.c4 - 2 * (u.cv ⬝ᵥ inc.cv) - 2 * inc.c0 * f
  let c2 := 2 * inc.c4 * inc.c0 - inc.cv ⬝ᵥ inc.cv
  let c2 := c2 + signP c2 * verySmall
  (c0, c1, c2)

/-- Models the loop `src/Euler/Gas.hpp:1218-1241`; the first argument counts the remaining iterations, `ret` is the scaled
increment. -/
noncomputable def ratioLoop (u : St ℝ d) (f : ℝ) : Nat → St ℝ d → ℝ → Res ℝ
  | 0, _, _ => .abort
  | fuel + 1, ret, alpha =>
    let ek := 1 / 2 * ((u.cv + ret.cv) ⬝ᵥ (u.cv + ret.cv)) / (u.c0 + ret.c0 + verySmall)
    if ret.c4 + u.c4 - ek < f then ratioLoop u f fuel ((1 - 1 / 100 : ℝ) • ret) (alpha * (1 - 1 / 100))
    else .ok alpha

/-- Models `IdealGasGetCompressionRatioPressure`, `src/Euler/Gas.hpp:1133-1245`, for `scheme` 0 and (any other value) 1. -/
noncomputable def compressionRatio (scheme : Nat) (u inc : St ℝ d) (floor : ℝ) : Res ℝ :=
  let uNew := u + inc
  let eOld := rhoEInt u
  let f := max (small * eOld) floor
  let eNew := rhoEInt uNew
  if scheme = 0 then do
    let c := ratioCoeffs u inc f
    let alpha ← ratioRoot c.1 c.2.1 c.2.2
    let alpha := ratioSafety alpha
    ratioLoop u f 1000 (alpha • inc) alpha
  else
    let alpha := ratioSafety (ratioConvex eOld eNew f)
    ratioLoop u f 1000 (alpha • inc) alpha

end DNDSR.Gas
