import Verif.Model.ODE

/-!
# Runge-Kutta type integrators and the positivity preserving BDF step

Models the remaining integrators of `src/Solver/ODE.hpp`.  `StepNested` (`1057-1151`) is not modelled.  Simplifications as in
`Verif.Model.ODE`.
-/

namespace DNDSR.ODE

open DNDSR.IMap DNDSR.Defines

variable {σ D K V : Type}

section Field

variable [Field K] [AddCommGroup V] [Module K V]

/-! ## Diagonally implicit Runge-Kutta -/

/-- Models `butcherA`, `butcherB`, `butcherC`, `schemeC`, `src/Solver/ODE.hpp:104-110`. -/
structure Tableau (K : Type) where
  A : List (List K)
  b : List K
  c : List K
  scheme : Int

/-- Models the scheme 0 tableau as a function of the macro `_zeta`, `src/Solver/ODE.hpp:147-153`. -/
def sdirk4 (z : K) : Tableau K :=
  { A := [[z, 0, 0], [1 / 2 - z, z, 0], [2 * z, 1 - 4 * z, z]]
    b := [1 / (6 * ((2 * z - 1) * (2 * z - 1))), (4 * (z * z) - 4 * z + 2 / 3) / ((2 * z - 1) * (2 * z - 1)),
          1 / (6 * ((2 * z - 1) * (2 * z - 1)))]
    c := [z, 1 / 2, 1 - z]
    scheme := 0 }

/-- Models the value of `_zeta`, `src/Solver/ODE.hpp:142`. -/
def zeta (K : Type) [Field K] : K := 128886400515 / 10 ^ 12

/-- Models the scheme 1 tableau, `src/Solver/ODE.hpp:163-170`. -/
def esdirk4 (K : Type) [Field K] : Tableau K :=
  { A := [[1 / 10 ^ 200, 0, 0, 0, 0, 0],
          [1 / 4, 1 / 4, 0, 0, 0, 0],
          [137776 / 10 ^ 6, -55776 / 10 ^ 6, 1 / 4, 0, 0, 0],
          [1446368660269822 / 10 ^ 16, -2239319076133447 / 10 ^ 16, 4492950415863626 / 10 ^ 16, 1 / 4, 0, 0],
          [9825878328356477 / 10 ^ 17, -5915442428196704 / 10 ^ 16, 8101210205756877 / 10 ^ 16, 283164405707806 / 10 ^ 15, 1 / 4, 0],
          [1579162951616714 / 10 ^ 16, 0, 1867589405240008 / 10 ^ 16, 6805652953093346 / 10 ^ 16, -2752405309950067 / 10 ^ 16, 1 / 4]]
    b := [1579162951616714 / 10 ^ 16, 0, 1867589405240008 / 10 ^ 16, 6805652953093346 / 10 ^ 16, -2752405309950067 / 10 ^ 16, 1 / 4]
    c := [0, 1 / 2, 332 / 10 ^ 3, 62 / 10 ^ 2, 849999966747388 / 10 ^ 15, 1]
    scheme := 1 }

/-- Models the choice of the tableau in the constructor, `src/Solver/ODE.hpp:138-175`. -/
def sdirkTableau (K : Type) [Field K] (schemeCode : Int) : Res (Tableau K) :=
  if schemeCode = 0 then pure (sdirk4 (zeta K)) else if schemeCode = 1 then pure (esdirk4 K) else .abort

/-- Models `butcherA(i, j)`. -/
def Tableau.a (T : Tableau K) (i j : Nat) : Res K := do
  let r ← idx T.A i
  idx r j

/-- Models `for (jB = 0; jB < iB; jB++) rhs.addTo(rhsbuf[jB], butcherA(iB, jB))`, `src/Solver/ODE.hpp:225-226`. -/
def addStages (T : Tableau K) (rhsbuf : List V) (i : Nat) : Nat → V → Res V
  | 0, acc => pure acc
  | j + 1, acc => do
    let acc ← addStages T rhsbuf i j acc
    let k ← idx rhsbuf j
    let a ← T.a i j
    pure (acc + a • k)

/-- Models assembling the residual of stage `i`, `src/Solver/ODE.hpp:222-229`. -/
def stageResid (T : Tableau K) (rhsbuf : List V) (i : Nat) (dt : K) (xLast x f : V) : Res (V × V) := do
  let rhs := (1 / dt) • xLast
  let rhs ← addStages T rhsbuf i i rhs
  let resOther := rhs
  let rhs := rhs + (-1 / dt) • x
  let aii ← T.a i i
  pure (resOther, rhs + aii • f)

/-- Models the data members that survive a step, `src/Solver/ODE.hpp:109-126`. -/
structure Sdirk (V : Type) where
  hasLast : Bool
  rhsbuf : List V
  rhs : V

/-- Models one pass of the stage loop, `src/Solver/ODE.hpp:194-244`.  `dTau` is the content of that member on entry. -/
def sdirkStage (T : Tableau K) (cb : Callbacks σ D K V) (maxIter : Int) (dt : K) (dTau : D) (xLast xinc : V) (i : Nat)
    (o : Sdirk V) (s : σ) : Res (Sdirk V × Loop σ K V) := do
  let x := xLast
  let old ← idx o.rhsbuf i
  let c ← idx T.c i
  let l0 : Loop σ K V := { s := s, x := x, rhs := o.rhs, rhsbuf := old, xinc := xinc, iter := 1, calls := [] }
  if T.scheme = 1 ∧ i = 0 then
    if 1 ≤ maxIter then
      if o.hasLast then
        let k ← idx o.rhsbuf (T.A.length - 1)
        pure ({ o with rhsbuf := o.rhsbuf.set 0 k }, { l0 with rhsbuf := k })
      else
        let (s, k) := cb.frhs s x dTau 2147483647 c 0
        pure ({ o with rhsbuf := o.rhsbuf.set 0 k }, { l0 with s := s, rhsbuf := k })
    else
      let (s, _) := cb.fstop s 1 o.rhs (i + 1)
      pure (o, { l0 with s := s })
  else
    let aii ← T.a i i
    let l ← dualSolve cb maxIter dt aii c (i + 1) (stageResid T o.rhsbuf i dt xLast) s x o.rhs old xinc
    pure ({ o with rhsbuf := o.rhsbuf.set i l.rhsbuf, rhs := l.rhs }, l)

/-- Models the stage loop `for (iB = 0; iB < nInnerStage; iB++)`, `src/Solver/ODE.hpp:194-244`, stages `0 .. n-1`. -/
def sdirkStages (T : Tableau K) (cb : Callbacks σ D K V) (maxIter : Int) (dt : K) (dTau : D) (xLast xinc : V) :
    Nat → Sdirk V → σ → Res (Sdirk V × σ × List (Loop σ K V))
  | 0, o, s => pure (o, s, [])
  | n + 1, o, s => do
    let (o, s, ls) ← sdirkStages T cb maxIter dt dTau xLast xinc n o s
    let (o, l) ← sdirkStage T cb maxIter dt dTau xLast xinc n o s
    pure (o, l.s, ls ++ [l])

/-- Models `for (jB = 0; jB < nInnerStage; jB++) x.addTo(rhsbuf[jB], butcherB(jB) * dt)`, `src/Solver/ODE.hpp:251-253`. -/
def addFinal (T : Tableau K) (rhsbuf : List V) (dt : K) : Nat → V → Res V
  | 0, acc => pure acc
  | j + 1, acc => do
    let acc ← addFinal T rhsbuf dt j acc
    let k ← idx rhsbuf j
    let b ← idx T.b j
    pure (acc + (b * dt) • k)

/-- Models `ImplicitSDIRK4DualTimeStep::Step`, `src/Solver/ODE.hpp:190-254`: the object, the new state, the stages. -/
def sdirkStep (T : Tableau K) (cb : Callbacks σ D K V) (maxIter : Int) (dt : K) (dTau : D) (o : Sdirk V) (s : σ) (x xinc : V) :
    Res (Sdirk V × V × List (Loop σ K V)) := do
  let xLast := x
  let n := T.A.length
  let (o, _, ls) ← sdirkStages T cb maxIter dt dTau xLast xinc n o s
  if T.scheme = 1 then
    let l ← idx ls (n - 1)
    pure ({ o with hasLast := true }, l.x, ls)
  else
    let x ← addFinal T o.rhsbuf dt n xLast
    pure (o, x, ls)

/-! ## Explicit strong stability preserving Runge-Kutta -/

/-- Models `ExplicitSSPRK3TimeStepAsImplicitDualTimeStep::Step`, `src/Solver/ODE.hpp:1219-1259`; `scaleTau dTau` is
`rhs *= dTau`. -/
def ssprk3Step (cb : Callbacks σ D K V) (localDt : Bool) (scaleTau : D → V → V) (dt : K) (s : σ) (x : V) : σ × V :=
  let (s, dTau) := cb.fdt s x 1 0
  let xLast := x
  let (s, rhs) := cb.frhs s x dTau 1 (1 / 2) 0
  let rhs := if localDt then scaleTau dTau rhs else dt • rhs
  let (s, x) := cb.fincrement s x rhs 1 0
  let (s, rhs) := cb.frhs s x dTau 1 1 0
  let rhs := if localDt then scaleTau dTau rhs else dt • rhs
  let x := (1 / 4 : K) • x
  let x := x + (3 / 4 : K) • xLast
  let (s, x) := cb.fincrement s x rhs (1 / 4) 0
  let (s, rhs) := cb.frhs s x dTau 1 (1 / 4) 0
  let rhs := if localDt then scaleTau dTau rhs else dt • rhs
  let x := (2 / 3 : K) • x
  let x := x + (1 / 3 : K) • xLast
  cb.fincrement s x rhs (2 / 3) 0

/-! ## The positivity preserving BDF steps -/

/-- The two additional callbacks of `StepPP`, `src/Solver/ODE.hpp:392-405`: `falphaLimSource` changes its argument,
`fresidualIncPP` may change `crhs`, and may do so by calling `renewRhsIncPart`, here a function from `crhs` to the increment part. -/
structure PPCallbacks (σ V : Type) where
  falpha : σ → V → Int → σ × V
  fres : σ → V → V → V → (V → V) → σ × V

/-- Models the loop of `ImplicitBDFDualTimeStep::StepPP`, `src/Solver/ODE.hpp:421-476`; the increment part depends on the world
state through `falphaLimSource` without changing it. -/
def bdfPPLoop (cb : Callbacks σ D K V) (pp : PPCallbacks σ V) (coef : Int → Res K) (b : BDF K V) (dt : K) (xLast : V) :
    Nat → Loop σ K V → Res (Loop σ K V)
  | 0, l => pure l
  | n + 1, l => do
    let prevSiz := b.kBDF - 1
    let c0 ← coef 0
    let c1 ← coef 1
    let (s, dTau) := cb.fdt l.s l.x c0 0
    let (s, f) := cb.frhs s l.x dTau l.iter 1 0
    let inc := 0 + ((c1 - 1) / dt) • xLast
    let inc ← if prevSiz ≠ 0 then addPrevs coef b prevSiz dt b.cnPrev.toNat inc else pure inc
    let (s, f) := pp.fres s l.x xLast f (fun f => dt • ((pp.falpha s inc 0).2 + c0 • f))
    let rhs := 0 + ((c1 - 1) / dt) • xLast
    let rhs ← if prevSiz ≠ 0 then addPrevs coef b prevSiz dt b.cnPrev.toNat rhs else pure rhs
    let (s, rhs) := pp.falpha s rhs 0
    let rhs := rhs + (1 / dt) • xLast
    let resOther := rhs
    let rhs := rhs + (-1 / dt) • l.x
    let rhs := rhs + c0 • rhs
    let (s, xinc) := cb.fsolve s l.x rhs resOther dTau dt c0 l.iter 1 0
    let (s, x) := cb.fincrement s l.x xinc 1 0
    let (s, stop) := cb.fstop s l.iter rhs 1
    let calls := l.calls ++ [{ x := l.x, f := f, rhs := rhs, resOther := resOther, dt := dt, alpha := c0, ct := 1 }]
    let l' : Loop σ K V := { s := s, x := x, rhs := rhs, rhsbuf := f, xinc := xinc, iter := l.iter, calls := calls }
    if stop then pure l' else bdfPPLoop cb pp coef b dt xLast n { l' with iter := l.iter + 1 }

/-- Models the loop of `ImplicitVBDFDualTimeStep::StepPP`, `src/Solver/ODE.hpp:724-780`: `frhs` writes to `rhs`, which is then
overwritten; the right-hand side used is the member `rhsbuf[0]` as `fresidualIncPP` leaves it. -/
def vbdfPPLoop (cb : Callbacks σ D K V) (pp : PPCallbacks σ V) (coef : Int → Res K) (b : BDF K V) (dt : K) (xLast : V) :
    Nat → Loop σ K V → Res (Loop σ K V)
  | 0, l => pure l
  | n + 1, l => do
    let prevSiz := b.kBDF - 1
    let c0 ← coef 0
    let c1 ← coef 1
    let (s, dTau) := cb.fdt l.s l.x c0 0
    let (s, _) := cb.frhs s l.x dTau l.iter 1 0
    let xBase := 0 + ((c1 - 0) / dt) • xLast
    let xBase ← if prevSiz ≠ 0 then addPrevs coef b prevSiz dt b.cnPrev.toNat xBase else pure xBase
    let (s, f) := pp.fres s l.x xBase l.rhsbuf (fun f => dt • (0 + c0 • f))
    let rhs := xBase
    let resOther := rhs
    let rhs := rhs + (-1 / dt) • l.x
    let rhs := rhs + c0 • f
    let (s, xinc) := cb.fsolve s l.x rhs resOther dTau dt c0 l.iter 1 0
    let (s, x) := cb.fincrement s l.x xinc 1 0
    let (s, stop) := cb.fstop s l.iter rhs 1
    let calls := l.calls ++ [{ x := l.x, f := f, rhs := rhs, resOther := resOther, dt := dt, alpha := c0, ct := 1 }]
    let l' : Loop σ K V := { s := s, x := x, rhs := rhs, rhsbuf := f, xinc := xinc, iter := l.iter, calls := calls }
    if stop then pure l' else vbdfPPLoop cb pp coef b dt xLast n { l' with iter := l.iter + 1 }

end Field

section Ordered

variable [Field K] [LinearOrder K] [AddCommGroup V] [Module K V]

/-- Models `ImplicitBDFDualTimeStep::StepPP`, `src/Solver/ODE.hpp:407-486`. -/
def bdfStepPP (cb : Callbacks σ D K V) (pp : PPCallbacks σ V) (maxIter : Int) (dt : K) (b : BDF K V) (s : σ) (x xinc : V) :
    Res (BDF K V × Loop σ K V) := do
  let kCurrent := b.cnPrev + 1
  let prevSiz := b.kBDF - 1
  checkDts b prevSiz dt b.cnPrev.toNat
  let xLast := x
  let l ← bdfPPLoop cb pp (bdfCoef K (kCurrent - 1)) b dt xLast maxIter.toNat
    { s := s, x := x, rhs := b.rhs, rhsbuf := b.rhsbuf, xinc := xinc, iter := 1, calls := [] }
  let l := if maxIter < l.iter then { l with s := (cb.fstop l.s l.iter l.rhs 1).1 } else l
  let b ← bdfPush { b with rhs := l.rhs, rhsbuf := l.rhsbuf } dt xLast
  pure (b, l)

/-- Models `ImplicitVBDFDualTimeStep::StepPP`, `src/Solver/ODE.hpp:714-791`. -/
def vbdfStepPP (cb : Callbacks σ D K V) (pp : PPCallbacks σ V) (maxIter : Int) (dt : K) (b : BDF K V) (s : σ) (x xinc : V) :
    Res (BDF K V × Loop σ K V) := do
  let cs ← vbdfCoefs b dt
  let xLast := x
  let l ← vbdfPPLoop cb pp (at' cs) b dt xLast maxIter.toNat
    { s := s, x := x, rhs := b.rhs, rhsbuf := b.rhsbuf, xinc := xinc, iter := 1, calls := [] }
  let l := if maxIter < l.iter then { l with s := (cb.fstop l.s l.iter l.rhs 1).1 } else l
  let b ← bdfPush { b with rhs := l.rhs, rhsbuf := l.rhsbuf } dt xLast
  pure (b, l)

/-! ## Hermite -/

/-- Models `cInter`, `wInteg`, `maskHM3Exe`, `src/Solver/ODE.hpp:835-842`. -/
structure HermCoefs (K : Type) where
  c0 : K
  c1 : K
  c2 : K
  c3 : K
  w0 : K
  w1 : K
  w2 : K
  exe : Int

/-- Models `wInteg`, `src/Solver/ODE.hpp:935-937`, attached to interpolation coefficients. -/
def hermWith (alpha c0 c1 c2 c3 : K) (exe : Int) : HermCoefs K :=
  { c0 := c0, c1 := c1, c2 := c2, c3 := c3,
    w0 := (-1 / 6) / alpha + 1 / 2, w1 := (-1 / 6) / (alpha * (alpha - 1)), w2 := 1 / (alpha * 6 - 6) + 1 / 2, exe := exe }

/-- Models `SetCoefs`, `src/Solver/ODE.hpp:884-938`. -/
def setCoefs (alpha : K) (mask : Int) (prevSize : Int) (hR1 : K) : Res (HermCoefs K) := do
  Res.assert (0 < alpha ∧ alpha < 1)
  if mask = 0 then
    pure (hermWith alpha ((alpha * alpha) * -3 + (alpha * alpha * alpha) * 2 + 1) ((alpha * alpha) * 3 - (alpha * alpha * alpha) * 2)
      (alpha - (alpha * alpha) * 2 + alpha * alpha * alpha) (-alpha * alpha + alpha * alpha * alpha) mask)
  else if mask = 1 then
    pure (hermWith alpha (alpha * -2 + alpha * alpha + 1) (alpha * 2 - alpha * alpha) 0 (-alpha + alpha * alpha) mask)
  else if mask = 2 then
    if prevSize = 1 ∧ (hR1 < 100 ∧ 1 / 100 < hR1) then
      pure (hermWith alpha (((alpha + hR1) * (alpha - 1) ^ 2) / hR1)
        (alpha * 1 / (hR1 + 1) ^ 2 * (alpha * 3 + hR1 * 3 - alpha * (hR1 * hR1) - (alpha * alpha) * hR1 - (alpha * alpha) * 2 + (hR1 * hR1) * 2))
        (-(alpha * (alpha - 1) ^ 2 * 1 / (hR1 + 1) ^ 2) / hR1)
        ((alpha * (alpha + hR1) * (alpha - 1)) / (hR1 + 1)) mask)
    else
      let alpha : K := 1 / 4
      pure (hermWith alpha (alpha * -2 + alpha * alpha + 1) (alpha * 2 - alpha * alpha) 0 (-alpha + alpha * alpha) 1)
  else .abort

/-- Models the data members of `ImplicitHermite3SimpleJacobianDualStep` that survive a step, `src/Solver/ODE.hpp:809-848`. -/
structure Herm (K V : Type) where
  alpha : K
  mask : Int
  theta : K
  nStart : Int
  hasLast : Bool
  rhs0 : V
  rhs1 : V
  rhs2 : V
  xPrev : V
  dtPrev : K
  prevSize : Int

/-- The two solver calls of an iteration and what they are computed from (ghost): the states at the old, middle and new time,
the right-hand sides there, and the residuals handed to `fsolve`. -/
structure HermCall (K V : Type) where
  mid : Bool
  xLast : V
  xMid : V
  x : V
  f0 : V
  fMid : V
  f1 : V
  rhs : V
  ct : K

/-- the variables of the loop of `Step` -/
structure HermLoop (σ D K V : Type) where
  s : σ
  dTau : D
  x : V
  xMid : V
  rhs1 : V
  rhs2 : V
  rhsMid : V
  iter : Int
  calls : List (HermCall K V)

/-- Models assembling `rhsMid`, `src/Solver/ODE.hpp:988-1015`. -/
def hermMid (h : Herm K V) (C : HermCoefs K) (dt : K) (xLast x xMid f0 f1 f2 : V) : V :=
  if 1 ≤ h.prevSize ∧ h.mask = 2 then
    let th := h.theta
    let r := 0 + ((C.c0 + th) / dt) • xLast
    let r := r + ((C.c1 - th) / dt) • x
    let r := r + (C.c2 / dt) • h.xPrev
    let r := r + (0 + th * C.w0) • f0
    let r := r + (C.c3 + th * C.w2) • f1
    let r := r + (-1 / dt) • xMid
    r + (th * C.w1) • f2
  else
    let th := if C.exe = 1 ∧ h.mask = 2 then 1 else h.theta
    let r := 0 + ((C.c0 + th) / dt) • xLast
    let r := r + ((C.c1 - th) / dt) • x
    let r := r + (C.c2 + th * C.w0) • f0
    let r := r + (C.c3 + th * C.w2) • f1
    let r := r + (-1 / dt) • xMid
    r + (th * C.w1) • f2

/-- Models assembling `rhsFull`, `src/Solver/ODE.hpp:1022-1029`. -/
def hermFull (C : HermCoefs K) (dt : K) (xLast x f0 f1 f2 : V) : V :=
  let r := 0 + (1 / dt) • xLast
  let r := r + C.w0 • f0
  let r := r + C.w1 • f2
  let r := r + (-1 / dt) • x
  r + C.w2 • f1

/-- Models the loop of `Step`, `src/Solver/ODE.hpp:970-1047`, for `curSolveMethod == 0`.  `resOther` handed to `fsolve` is the
residual without the terms of the unknown; it is not recorded. -/
def hermLoop (cb : Callbacks σ D K V) (h : Herm K V) (C : HermCoefs K) (dt : K) (xLast f0 : V) :
    Nat → HermLoop σ D K V → HermLoop σ D K V
  | 0, l => l
  | n + 1, l =>
    if l.iter < h.nStart then
      let (s, dTau) := cb.fdt l.s l.x 1 0
      let (s, f1) := cb.frhs s l.x dTau l.iter 1 0
      let rhsFull := (1 / dt) • xLast + (-1 / dt) • l.x + f1
      let (s, _) := cb.fsolve s l.x rhsFull ((1 / dt) • xLast) dTau dt 1 l.iter 1 0
      let (s, _) := cb.fstop s l.iter l.rhsMid 1
      hermLoop cb h C dt xLast f0 n { l with s := s, dTau := dTau, rhs1 := f1, iter := l.iter + 1 }
    else
      let rhsMid := hermMid h C dt xLast l.x l.xMid f0 l.rhs1 l.rhs2
      let (s, dTau) := cb.fdt l.s l.xMid 1 1
      let th := if C.exe = 1 ∧ h.mask = 2 ∧ h.prevSize < 1 then 1 else h.theta
      let (s, xinc) := cb.fsolve s l.xMid rhsMid (rhsMid + (1 / dt) • l.xMid - (th * C.w1) • l.rhs2) dTau dt |th * C.w1| l.iter h.alpha 1
      let callMid : HermCall K V := { mid := true, xLast := xLast, xMid := l.xMid, x := l.x, f0 := f0, fMid := l.rhs2, f1 := l.rhs1, rhs := rhsMid, ct := h.alpha }
      let (s, xMid) := cb.fincrement s l.xMid xinc 1 1
      let (s, f2) := cb.frhs s xMid dTau l.iter h.alpha 1
      let rhsFull := hermFull C dt xLast l.x f0 l.rhs1 f2
      let (s, dTau) := cb.fdt s l.x 1 0
      let (s, xinc) := cb.fsolve s l.x rhsFull ((1 / dt) • xLast + C.w0 • f0 + C.w1 • f2) dTau dt C.w2 l.iter 1 0
      let callFull : HermCall K V := { mid := false, xLast := xLast, xMid := xMid, x := l.x, f0 := f0, fMid := f2, f1 := l.rhs1, rhs := rhsFull, ct := 1 }
      let (s, x) := cb.fincrement s l.x xinc 1 0
      let (s, f1) := cb.frhs s x dTau l.iter 1 0
      let (s, stop) := cb.fstop s l.iter rhsMid 1
      let l' : HermLoop σ D K V := { s := s, dTau := dTau, x := x, xMid := xMid, rhs1 := f1, rhs2 := f2, rhsMid := rhsMid, iter := l.iter, calls := l.calls ++ [callMid, callFull] }
      if stop then l' else hermLoop cb h C dt xLast f0 n { l' with iter := l.iter + 1 }

/-- Models `Step`, `src/Solver/ODE.hpp:947-1055`, for `curSolveMethod == 0`. -/
def hermStep (cb : Callbacks σ D K V) (maxIter : Int) (dt : K) (h : Herm K V) (s : σ) (x rhsMid : V) :
    Res (Herm K V × HermLoop σ D K V) := do
  let C ← setCoefs h.alpha h.mask h.prevSize (h.dtPrev / (dt + verySmallReal K))
  let xLast := x
  let (s, dTau) := cb.fdt s xLast 1 0
  let (s, f0) := if h.hasLast then (s, h.rhs1) else cb.frhs s xLast dTau 2147483647 0 0
  let l := hermLoop cb h C dt xLast f0 maxIter.toNat
    { s := s, dTau := dTau, x := x, xMid := x, rhs1 := f0, rhs2 := f0, rhsMid := rhsMid, iter := 1, calls := [] }
  let l := if maxIter < l.iter then { l with s := (cb.fstop l.s l.iter l.rhsMid 1).1 } else l
  pure ({ h with hasLast := true, rhs0 := f0, rhs1 := l.rhs1, rhs2 := l.rhs2, xPrev := xLast, dtPrev := dt, prevSize := 1 }, l)

end Ordered
end DNDSR.ODE
