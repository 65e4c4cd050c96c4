import Verif.Model.RecIter
import Verif.Model.Limiters

/-!
# The limiter procedures (`src/CFV/VariationalReconstruction_LimiterProcedure.hxx`)

The coefficients of a cell are a matrix with a row for each base function and a column for each variable, over the real numbers. All cells have
the same number `N` of base functions: the branch reserved for p-adaption (`:282`, `:490`) is left out. What a loop reads of a face is read once per
cell and not again for each order: none of it is written in between. The build is the one without OpenMP.
-/

namespace DNDSR.LimProc

open DNDSR.IMap DNDSR.Faces
open Matrix

variable {N V : Nat}

/-- the settings the procedures read: `dim`, `maxOrder`, `limiterBiwayAlter`, `normWBAP`, `WBAP_nStd`, `smoothThreshold` -/
structure Ctl where
  dim : Nat
  maxOrder : Nat
  biway : Int
  normWBAP : Bool
  nStd : ℝ
  threshold : ℝ

/-- the arguments `FM` and `FMI`: from mean values on the left and right, the normal and a batch of coefficients -/
structure Eig (V : Nat) where
  fm : (Fin V → ℝ) → (Fin V → ℝ) → (Fin 3 → ℝ) → (m : Nat) → Matrix (Fin m) (Fin V) ℝ → Matrix (Fin m) (Fin V) ℝ
  fmi : (Fin V → ℝ) → (Fin V → ℝ) → (Fin 3 → ℝ) → (m : Nat) → Matrix (Fin m) (Fin V) ℝ → Matrix (Fin m) (Fin V) ℝ

/-- `LimStart` and `LimEnd + 1`, `src/CFV/VariationalReconstruction_LimiterProcedure.hxx:226-258`, the same at `:405-437` -/
def limits (dim order : Nat) : Res (Nat × Nat) :=
  if dim = 2 then
    if order = 3 then .ok (5, 9) else if order = 2 then .ok (2, 5) else if order = 1 then .ok (0, 2) else .abort
  else
    if order = 3 then .ok (9, 19) else if order = 2 then .ok (3, 9) else if order = 1 then .ok (0, 3) else .abort

/-- `M(Eigen::seq(a, a + m - 1), Eigen::all)`; the callers test that the rows exist -/
def rowsOf (a m : Nat) (M : Matrix (Fin N) (Fin V) ℝ) : Matrix (Fin m) (Fin V) ℝ :=
  fun k v => if h : a + k.1 < N then M ⟨a + k.1, h⟩ v else 0

/-- `M(Eigen::seq(a, a + m - 1), Eigen::all) = B` -/
def writeRows (a m : Nat) (B : Matrix (Fin m) (Fin V) ℝ) (M : Matrix (Fin N) (Fin V) ℝ) : Matrix (Fin N) (Fin V) ℝ :=
  fun k v => if h : a ≤ k.1 ∧ k.1 - a < m then B ⟨k.1 - a, h.2⟩ v else M k v

/-- the two-way limiter by its code, `src/CFV/VariationalReconstruction_LimiterProcedure.hxx:324-343`, the same at `:533-552`. The norm based ones work
column by column and abort by the number of rows. -/
noncomputable def biway (c : Ctl) {m : Nat} (t o : Matrix (Fin m) (Fin V) ℝ) : Res (Matrix (Fin m) (Fin V) ℝ) :=
  if c.biway = 0 then .ok fun k v => Lim.wbap 1 (t k v) (o k v)
  else if c.biway = 1 then .ok fun k v => Lim.minmod (t k v) (o k v)
  else if c.biway = 2 then
    match Lim.weights c.dim m with
    | none => .abort
    | some w => .ok fun k v => Lim.wbapNormCore w 1 (fun k => t k v) (fun k => o k v) k
  else if c.biway = 3 then
    match Lim.weights c.dim m with
    | none => .abort
    | some w => .ok fun k v => Lim.memmCore w (fun k => t k v) (fun k => o k v) k
  else if c.biway = 4 then .ok fun k v => Lim.wbapCut 1 (t k v) (o k v)
  else .abort

/-- the multi-way limiter, `src/CFV/VariationalReconstruction_LimiterProcedure.hxx:358-362`, the same at `:567-572`; `uC` is the first candidate. The one
for `normWBAP` is that of two dimensions in both dimensions. -/
noncomputable def multiway (c : Ctl) {m : Nat} (uC : Matrix (Fin m) (Fin V) ℝ) (us : List (Matrix (Fin m) (Fin V) ℝ)) : Res (Matrix (Fin m) (Fin V) ℝ) :=
  if c.normWBAP then
    match Lim.weights 2 m with
    | none => .abort
    | some w => .ok fun k v => Lim.multiNormCore w c.nStd ((uC :: us).map fun u k => u k v) k
  else .ok fun k v => Lim.wbapMulti c.nStd (uC k v) (us.map fun u => u k v)

/-- what is read of a face with a neighbour: the two halves of `matrixSecondary`, the neighbour's coefficients, `uL`, `uR` and `unitNorm` -/
structure FaceIn (N V : Nat) where
  sec : Matrix (Fin N) (Fin N) ℝ
  secOther : Matrix (Fin N) (Fin N) ℝ
  other : Matrix (Fin N) (Fin V) ℝ
  uL : Fin V → ℝ
  uR : Fin V → ℝ
  nrm : Fin 3 → ℝ

/-- what a rank has: `NumCell()`, faces, ghost cells, `faceMeanNorm` and the two halves of `matrixSecondary` by face -/
structure Sys (N : Nat) where
  n : Nat
  faces : List Face
  c2f : List (List Int)
  ghosts : List Int
  norm : List (Fin 3 → ℝ)
  sec : List (Matrix (Fin N) (Fin N) ℝ × Matrix (Fin N) (Fin N) ℝ)

/-- `GetMatrixSecondary(iCell, iFace, -1)`, `src/CFV/VariationalReconstruction.hpp:506-516`, with `CellIsFaceBack`, `src/Geom/Mesh.hpp:526-530` -/
def getSecondary (S : Sys N) (iCell iFace : Int) : Res (Matrix (Fin N) (Fin N) ℝ) := do
  let f ← at64 S.faces iFace
  Res.assert (f.first = iCell ∨ f.second = iCell)
  let m ← at64 S.sec iFace
  .ok (if f.first = iCell then m.1 else m.2)

/-- the reads of `src/CFV/VariationalReconstruction_LimiterProcedure.hxx:273-297` and `:314-315` (`:481-505`, `:522-523`), with `CellFaceOther`,
`src/Geom/Mesh.hpp:532-537`; `x` is `uRec`, in the other procedure `uRecBuf` -/
def faceIn (S : Sys N) (u : List (Fin V → ℝ)) (x : List (Matrix (Fin N) (Fin V) ℝ)) (iCell : Nat) (iFace : Int) : Res (Option (FaceIn N V)) := do
  let f ← at64 S.faces iFace
  Res.assert (f.first = iCell ∨ f.second = iCell)
  let iCellOther := if f.first = iCell then f.second else f.first
  if iCellOther ≠ unInit then do
    let unitNorm ← at64 S.norm iFace
    let sec ← getSecondary S iCell iFace
    let secOther ← getSecondary S iCellOther iFace
    let xo ← at64 x iCellOther
    let ui ← idx u iCell
    let uo ← at64 u iCellOther
    .ok (some ⟨sec, secOther, xo, if f.first = iCell then ui else uo, if f.first = iCell then uo else ui, unitNorm⟩)
  else .ok none

/-- the candidate of a face from what the neighbour's coefficients are taken to be, `src/CFV/VariationalReconstruction_LimiterProcedure.hxx:305-346`, the
same at `:513-555` -/
noncomputable def candidate (c : Ctl) (E : Eig V) (d : FaceIn N V) (a m : Nat) (uC : Matrix (Fin m) (Fin V) ℝ) (uOtherOther : Matrix (Fin N) (Fin V) ℝ) :
    Res (Matrix (Fin m) (Fin V) ℝ) := do
  let uOtherIn := E.fm d.uL d.uR d.nrm m (rowsOf a m (d.sec * uOtherOther))
  let uThisIn := E.fm d.uL d.uR d.nrm m uC
  let uLim ← biway c uThisIn uOtherIn
  .ok (E.fmi d.uL d.uR d.nrm m uLim)

/-- `uFaces[ic2f]`: rows that have not been written hold nothing -/
abbrev Mem (N V : Nat) := Fin N → Option (Fin V → ℝ)

/-- the neighbour's coefficients with the rows from `e` on replaced, `src/CFV/VariationalReconstruction_LimiterProcedure.hxx:296-302`. Reading rows of
`uFaces[ic2f]` that have not been written is undefined. -/
def successive (d : FaceIn N V) (e : Nat) (mem : Mem N V) : Res (Matrix (Fin N) (Fin V) ℝ) :=
  if e < N then
    if ∀ k : Fin N, e ≤ k.1 → (mem k).isSome = true then
      .ok fun k v => if e ≤ k.1 then ∑ k' : Fin N, (if e ≤ k'.1 then d.secOther k k' * ((mem k').getD 0) v else 0) else d.other k v
    else .ub
  else .ok d.other

/-- one face at one order, `src/CFV/VariationalReconstruction_LimiterProcedure.hxx:271-354`: the entry of `uOthers` and the new `uFaces[ic2f]` -/
noncomputable def faceC (c : Ctl) (E : Eig V) (a m : Nat) (uC : Matrix (Fin m) (Fin V) ℝ) (d : Option (FaceIn N V)) (mem : Mem N V) :
    Res (Option (Matrix (Fin m) (Fin V) ℝ) × Mem N V) :=
  match d with
  | none => .ok (none, mem)
  | some d => do
    let oo ← successive d (a + m) mem
    let out ← candidate c E d a m uC oo
    .ok (some out, fun k => if h : a ≤ k.1 ∧ k.1 - a < m then some (out ⟨k.1 - a, h.2⟩) else mem k)

/-- the orders of one cell, `src/CFV/VariationalReconstruction_LimiterProcedure.hxx:223-369`; `xi` is `uRec[iCell]`, `new` is `uRecNew[iCell]` so far -/
noncomputable def cellC (c : Ctl) (E : Eig V) (ds : List (Option (FaceIn N V))) (xi : Matrix (Fin N) (Fin V) ℝ) :
    Nat → List (Mem N V) → Matrix (Fin N) (Fin V) ℝ → Res (Matrix (Fin N) (Fin V) ℝ)
  | 0, _, new => .ok new
  | p + 1, mems, new => do
    let l ← limits c.dim (p + 1)
    if l.2 ≤ N then do
      let uC := rowsOf l.1 (l.2 - l.1) xi
      let r ← forRanks (fun _ (y : Option (FaceIn N V) × Mem N V) => faceC c E l.1 (l.2 - l.1) uC y.1 y.2) 0 (ds.zip mems)
      let out ← multiway c uC (r.filterMap fun y => y.1)
      cellC c E ds xi p (r.map fun y => y.2) (writeRows l.1 (l.2 - l.1) out new)
    else .ub

/-- the body of the loop over cells of `DoLimiterWBAP_C`, `src/CFV/VariationalReconstruction_LimiterProcedure.hxx:203-369` -/
noncomputable def bodyC (c : Ctl) (E : Eig V) (S : Sys N) (ifAll : Bool) (u : List (Fin V → ℝ)) (x y : List (Matrix (Fin N) (Fin V) ℝ)) (si : List ℝ)
    (iCell : Nat) : Res (Matrix (Fin N) (Fin V) ℝ) := do
  let s ← idx si iCell
  let xi ← idx x iCell
  if !ifAll ∧ s < c.threshold then .ok xi
  else do
    let yi ← idx y iCell
    let c2f ← idx S.c2f iCell
    let ds ← forRanks (fun _ iFace => faceIn S u x iCell iFace) 0 c2f
    cellC c E ds xi c.maxOrder (ds.map fun _ _ => none) yi

/-- the body of the loop over cells of `DoLimiterWBAP_3` at one order, `src/CFV/VariationalReconstruction_LimiterProcedure.hxx:448-578` -/
noncomputable def body3 (c : Ctl) (E : Eig V) (S : Sys N) (ifAll : Bool) (u : List (Fin V → ℝ)) (buf y : List (Matrix (Fin N) (Fin V) ℝ)) (si : List ℝ)
    (a e : Nat) (iCell : Nat) : Res (Matrix (Fin N) (Fin V) ℝ) := do
  let s ← idx si iCell
  let yi ← idx y iCell
  if !ifAll ∧ s < c.threshold then .ok yi
  else do
    let xi ← idx buf iCell
    let c2f ← idx S.c2f iCell
    let ds ← forRanks (fun _ iFace => faceIn S u buf iCell iFace) 0 c2f
    if e ≤ N then do
      let uC := rowsOf a (e - a) xi
      let us ← forRanks (fun _ (d : FaceIn N V) => candidate c E d a (e - a) uC d.other) 0 (ds.filterMap fun d => d)
      let out ← multiway c uC us
      .ok (writeRows a (e - a) out yi)
    else .ub

/-! ## All ranks -/

/-- the vectors of a rank: `u`, `uRec`, `uRecNew`, `uRecBuf` and `si` -/
structure Rk (N V : Nat) where
  sys : Sys N
  u : List (Fin V → ℝ)
  x : List (Matrix (Fin N) (Fin V) ℝ)
  y : List (Matrix (Fin N) (Fin V) ℝ)
  buf : List (Matrix (Fin N) (Fin V) ℝ)
  si : List ℝ

/-- `uRecNew.trans.startPersistentPull(); waitPersistentPull();`: own entries stay and every ghost entry becomes the entry of the rank that owns
the cell. That the messages do this is C07. -/
def pullY (gc : GOM) (rs : List (Rk N V)) : Res (List (Rk N V)) :=
  forRanks (fun _ s => do
    let g ← forRanks (fun _ q => do
      let p ← gc.search q
      match p with
      | none => .abort
      | some p => do
        let t ← idx rs p.1
        at64 t.y p.2) 0 s.sys.ghosts
    .ok { s with y := s.y.take s.sys.n ++ g }) 0 rs

/-- the last loop, `src/CFV/VariationalReconstruction_LimiterProcedure.hxx:373-380`, `:583-587`: all cells, own and ghosts -/
def copyBack (putIntoNew : Bool) (rs : List (Rk N V)) : List (Rk N V) :=
  if !putIntoNew then rs.map fun s => { s with x := s.y } else rs

/-- `DoLimiterWBAP_C` on all ranks, `src/CFV/VariationalReconstruction_LimiterProcedure.hxx:186-381` -/
noncomputable def limiterC (gc : GOM) (c : Ctl) (E : Eig V) (ifAll putIntoNew : Bool) (rs : List (Rk N V)) : Res (List (Rk N V)) := do
  let rs ← forRanks (fun _ (s : Rk N V) => do
    let y ← RecIt.sweep (fun iCell _ => bodyC c E s.sys ifAll s.u s.x s.y s.si iCell) (List.range s.sys.n) s.y
    .ok { s with y := y }) 0 rs
  let rs ← pullY gc rs
  .ok (copyBack putIntoNew rs)

/-- one order of `DoLimiterWBAP_3` on all ranks, `src/CFV/VariationalReconstruction_LimiterProcedure.hxx:405-581` -/
noncomputable def order3 (gc : GOM) (c : Ctl) (E : Eig V) (ifAll : Bool) (order : Nat) (rs : List (Rk N V)) : Res (List (Rk N V)) := do
  let l ← limits c.dim order
  let rs ← forRanks (fun _ (s : Rk N V) => do
    let y ← RecIt.sweep (fun iCell _ => body3 c E s.sys ifAll s.u s.y s.y s.si l.1 l.2 iCell) (List.range s.sys.n) s.y
    .ok { s with buf := s.y, y := y }) 0 rs
  pullY gc rs

/-- the loop over orders -/
noncomputable def orders3 (gc : GOM) (c : Ctl) (E : Eig V) (ifAll : Bool) : Nat → List (Rk N V) → Res (List (Rk N V))
  | 0, rs => .ok rs
  | p + 1, rs => do
    let rs ← order3 gc c E ifAll (p + 1) rs
    orders3 gc c E ifAll p rs

/-- `DoLimiterWBAP_3` on all ranks, `src/CFV/VariationalReconstruction_LimiterProcedure.hxx:385-588` -/
noncomputable def limiter3 (gc : GOM) (c : Ctl) (E : Eig V) (ifAll putIntoNew : Bool) (rs : List (Rk N V)) : Res (List (Rk N V)) := do
  let rs ← orders3 gc c E ifAll c.maxOrder (rs.map fun s => { s with y := s.x })
  .ok (copyBack putIntoNew rs)

end DNDSR.LimProc
