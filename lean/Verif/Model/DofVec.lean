import Verif.Model.IndexMapping
import Mathlib.Analysis.SpecialFunctions.Pow.Real
import Mathlib.LinearAlgebra.Matrix.DotProduct

/-!
# Vectors over the cells of all ranks (`src/Euler/Euler.hpp`)

`ArrayDOFV`: every rank holds the rows of its own cells (`father`) and copies of the rows of ghost cells (`son`).  The operations of
`ArrayRECV` (`src/Euler/Euler.hpp:281-434`) that have the same names are the same loops over rows that are matrices; here a row is
the list of its entries.  Numbers are real and exact, so the order in which threads and `MPI_Allreduce` add does not show.  A pull is
modelled by what it delivers (C08).
-/

namespace DNDSR.Dof

open DNDSR.IMap
open Matrix

/-- the entries of one cell; `n` is `nVars` -/
abbrev Row (n : Nat) := Fin n → ℝ

/-- what one rank holds, `src/DNDS/ArrayPair.hpp:13-18` -/
structure Part (n : Nat) where
  father : List (Row n)
  son : List (Row n)

variable {n : Nat}

/-- `operator[]`, `src/DNDS/ArrayPair.hpp:20-34`: the own rows, then the copies -/
def Part.row (v : Part n) (i : Nat) : Res (Row n) :=
  if i < v.father.length then idx v.father i else idx v.son (i - v.father.length)

/-- the operations with a constant; the loops go over `Size()`, that is own rows and copies, `src/Euler/Euler.hpp:24-40,57-64,117-142,162-189` -/
inductive Each (n : Nat) where
  /-- `setConstant(real)` -/
  | fill (r : ℝ)
  /-- `setConstant(const TR &)` -/
  | set (x : Row n)
  /-- `*=(real)` -/
  | scale (r : ℝ)
  /-- `+=(const Eigen::Vector &)` -/
  | addRow (x : Row n)
  /-- `+=(real)` -/
  | addAll (r : ℝ)
  /-- `*=(const Eigen::Vector &)` -/
  | mulRow (x : Row n)
  /-- `setAbs` -/
  | abs
  /-- `setMaxWith` -/
  | maxWith (x : Row n)
  /-- `setMinWith` -/
  | minWith (x : Row n)

/-- the body of the loop -/
noncomputable def Each.body : Each n → Row n → Row n
  | .fill r, _ => fun _ => r
  | .set x, _ => x
  | .scale r, u => fun c => u c * r
  | .addRow x, u => fun c => u c + x c
  | .addAll r, u => fun c => u c + r
  | .mulRow x, u => fun c => u c * x c
  | .abs, u => fun c => |u c|
  | .maxWith x, u => fun c => max (u c) (x c)
  | .minWith x, u => fun c => min (u c) (x c)

/-- the operations with a second vector, `src/Euler/Euler.hpp:41-56,144-160` -/
inductive Both where
  /-- `+=` -/
  | add
  /-- `-=` -/
  | sub
  /-- `*=` of all components -/
  | mul
  /-- `/=` -/
  | div

/-- the body of the loop.  (Division by zero is a special value in the source and zero here: `div` is used with its properties only
where no entry is zero.) -/
noncomputable def Both.body : Both → Row n → Row n → Row n
  | .add, u, v => fun c => u c + v c
  | .sub, u, v => fun c => u c - v c
  | .mul, u, v => fun c => u c * v c
  | .div, u, v => fun c => u c / v c

/-- a loop over `Size()` that changes every row by itself -/
noncomputable def Part.each (f : Each n) (v : Part n) : Part n := ⟨v.father.map f.body, v.son.map f.body⟩

/-- a loop over `Size()` that reads row `i` of another vector -/
noncomputable def Part.both {m : Nat} (f : Row n → Row m → Row n) (v : Part n) (R : Part m) : Res (Part n) := do
  let fa ← forRanks (fun i x => do
    let y ← R.row i
    .ok (f x y)) 0 v.father
  let so ← forRanks (fun i x => do
    let y ← R.row i
    .ok (f x y)) v.father.length v.son
  .ok ⟨fa, so⟩

/-- `*=(const ArrayDOFV<1> &)`, `src/Euler/Euler.hpp:108-115` -/
def byFirst (u : Row n) (v : Row 1) : Row n := fun c => u c * v 0

/-- `operator=`, `src/Euler/Euler.hpp:65-74`; the raw data have the same size if there are as many rows -/
def Part.copy (v R : Part n) : Res (Part n) := do
  Res.assert (R.father.length = v.father.length)
  Res.assert (R.son.length = v.son.length)
  .ok ⟨R.father, R.son⟩

/-- `addTo`, `src/Euler/Euler.hpp:76-96` -/
noncomputable def Part.addTo (v R : Part n) (r : ℝ) : Res (Part n) := do
  Res.assert (R.father.length = v.father.length)
  let fa := List.zipWith (fun (x y : Row n) (c : Fin n) => x c + r * y c) v.father R.father
  Res.assert (R.son.length = v.son.length)
  let so := List.zipWith (fun (x y : Row n) (c : Fin n) => x c + r * y c) v.son R.son
  .ok ⟨fa, so⟩

/-- `*=(const std::vector<real> &)`, `src/Euler/Euler.hpp:98-106`: own rows only -/
noncomputable def Part.scaleRows (v : Part n) (R : List ℝ) : Res (Part n) := do
  Res.assert (v.father.length ≤ R.length)
  let fa ← forRanks (fun i x => do
    let r ← idx R i
    .ok (fun c => x c * r)) 0 v.father
  .ok ⟨fa, v.son⟩

/-- a loop over the own rows that adds what it computes from row `i` of two vectors -/
noncomputable def sumOwn (f : Row n → Row n → ℝ) (v R : Part n) : Res ℝ := do
  let l ← forRanks (fun i x => do
    let y ← R.row i
    .ok (f x y)) 0 v.father
  .ok (l.foldl (· + ·) 0)

/-- `MPI_Allreduce` with `MPI_SUM` -/
noncomputable def allSum (l : List ℝ) : ℝ := l.foldl (· + ·) 0

/-- `dot` with or without factors, `src/Euler/Euler.hpp:254-277`; every rank gets the result -/
noncomputable def dot (mL mR : Row n) (v R : List (Part n)) : Res ℝ := do
  let l ← forRanks (fun _ (x : Part n × Part n) => sumOwn (fun a b => (fun c => a c * mL c) ⬝ᵥ fun c => b c * mR c) x.1 x.2) 0 (v.zip R)
  .ok (allSum l)

/-- `norm2`, `src/Euler/Euler.hpp:209-220` -/
noncomputable def norm2 (v : List (Part n)) : ℝ := √(allSum (v.map fun p => (p.father.map fun x => x ⬝ᵥ x).foldl (· + ·) 0))

/-- `normInc` and `componentWiseNorm1`, `src/Euler/Euler.hpp:191-207,222-236`, component `c` -/
noncomputable def norm1 (v : List (Part n)) (c : Fin n) : ℝ := allSum (v.map fun p => (p.father.map fun x => |x c|).foldl (· + ·) 0)

/-- `veryLargeReal`, `src/DNDS/Defines.hpp:152` -/
noncomputable def veryLarge : ℝ := 3 * 10 ^ 200

/-- `MPI_Allreduce` with `MPI_MIN` -/
noncomputable def allMin : List ℝ → ℝ
  | [] => veryLarge
  | a :: l => l.foldl min a

/-- `min`, `src/Euler/Euler.hpp:238-252`, component `c` -/
noncomputable def minimum (v : List (Part n)) (c : Fin n) : ℝ := allMin (v.map fun p => (p.father.map fun x => x c).foldl min veryLarge)

/-- the own rows of all ranks one after the other: entry `g` is the row of the cell with global number `g`, as
`GlobalOffsetsMapping` numbers them -/
def glob (v : List (Part n)) : List (Row n) := v.flatMap (·.father)

/-- `startPersistentPull`, `waitPersistentPull`: what it delivers (C08).  `ghosts` has for every rank the global numbers of its ghost
cells, `BuildUDof`, `src/CFV/VariationalReconstruction.hpp:921-940` -/
def pull (ghosts : List (List Nat)) (v : List (Part n)) : Res (List (Part n)) :=
  forRanks (fun _ (x : Part n × List Nat) => do
    let so ← forRanks (fun _ g => idx (glob v) g) 0 x.2
    .ok (⟨x.1.father, so⟩ : Part n)) 0 (v.zip ghosts)

/-- what a solver does with its vectors, which it keeps in numbered places; numbers it computes from results of reductions, which all
ranks have, are written out -/
inductive Instr (n : Nat) where
  | each (d : Nat) (f : Each n)
  | both (d s : Nat) (f : Both)
  | copy (d s : Nat)
  | addTo (d s : Nat) (r : ℝ)
  | pull (d : Nat)
  | dot (a b : Nat) (mL mR : Row n)
  | norm2 (a : Nat)
  | norm1 (a : Nat)
  | min (a : Nat)

/-- vectors and the results of reductions so far, the latest first -/
structure Store (n : Nat) where
  vecs : List (List (Part n))
  out : List ℝ

/-- one operation on all ranks -/
noncomputable def step (ghosts : List (List Nat)) (s : Store n) : Instr n → Res (Store n)
  | .each d f => do
    let v ← idx s.vecs d
    .ok ⟨s.vecs.set d (v.map (Part.each f)), s.out⟩
  | .both d a f => do
    let v ← idx s.vecs d
    let w ← idx s.vecs a
    let u ← forRanks (fun _ (x : Part n × Part n) => Part.both f.body x.1 x.2) 0 (v.zip w)
    .ok ⟨s.vecs.set d u, s.out⟩
  | .copy d a => do
    let v ← idx s.vecs d
    let w ← idx s.vecs a
    let u ← forRanks (fun _ (x : Part n × Part n) => Part.copy x.1 x.2) 0 (v.zip w)
    .ok ⟨s.vecs.set d u, s.out⟩
  | .addTo d a r => do
    let v ← idx s.vecs d
    let w ← idx s.vecs a
    let u ← forRanks (fun _ (x : Part n × Part n) => Part.addTo x.1 x.2 r) 0 (v.zip w)
    .ok ⟨s.vecs.set d u, s.out⟩
  | .pull d => do
    let v ← idx s.vecs d
    let u ← Dof.pull ghosts v
    .ok ⟨s.vecs.set d u, s.out⟩
  | .dot a b mL mR => do
    let v ← idx s.vecs a
    let w ← idx s.vecs b
    let x ← Dof.dot mL mR v w
    .ok ⟨s.vecs, x :: s.out⟩
  | .norm2 a => do
    let v ← idx s.vecs a
    .ok ⟨s.vecs, Dof.norm2 v :: s.out⟩
  | .norm1 a => do
    let v ← idx s.vecs a
    .ok ⟨s.vecs, List.ofFn (Dof.norm1 v) ++ s.out⟩
  | .min a => do
    let v ← idx s.vecs a
    .ok ⟨s.vecs, List.ofFn (Dof.minimum v) ++ s.out⟩

/-- `k` operations; which comes next may depend on the results so far (the control flow of a solver) -/
noncomputable def run (ghosts : List (List Nat)) (prog : List ℝ → Instr n) : Nat → Store n → Res (Store n)
  | 0, s => .ok s
  | k + 1, s => do
    let s ← step ghosts s (prog s.out)
    run ghosts prog k s

/-- `TimeAverageAddition` on one rank, `src/Euler/EulerEvaluator.hxx:1113-1120`: `wAveraged` and `tCur`; `verySmallReal` is `1e-200`,
`src/DNDS/Defines.hpp:154` -/
noncomputable def timeAverage (w avg : Part n) (dt t : ℝ) : Res (Part n × ℝ) := do
  let avg := avg.each (.scale (t / (t + dt + (10 : ℝ)⁻¹ ^ 200)))
  let avg ← avg.addTo w ((dt + (10 : ℝ)⁻¹ ^ 200) / (t + dt + (10 : ℝ)⁻¹ ^ 200))
  .ok (avg, t + (dt + (10 : ℝ)⁻¹ ^ 200))

/-- `EvaluateNorm` with `P < 3`, component `c`, `src/Euler/EulerEvaluator.hxx:1155-1183`; `vol` has the volumes of the own cells.  The test for
numbers that are not finite is left out: there are none here.  `P` is 1 or 2 (0 raises to the power of infinity). -/
noncomputable def evalNormP (P : Nat) (volWise average : Bool) (rhs : List (Part n × List ℝ)) (c : Fin n) : Res ℝ := do
  let l ← forRanks (fun _ (x : Part n × List ℝ) => do
    let terms ← forRanks (fun i (u : Row n) =>
      if volWise then do
        let v ← idx x.2 i
        .ok (|u c| ^ P * v, v)
      else .ok (|u c| ^ P, (1 : ℝ))) 0 x.1.father
    .ok ((terms.map (·.1)).foldl (· + ·) 0, (terms.map (·.2)).foldl (· + ·) 0)) 0 rhs
  let res := allSum (l.map (·.1)) ^ (1 / (P : ℝ))
  if average then .ok (res * (1 / (allSum (l.map (·.2)) + (10 : ℝ)⁻¹ ^ 200))) else .ok res

/-- `MPI_Allreduce` with `MPI_MAX` -/
noncomputable def allMax : List ℝ → ℝ
  | [] => 0
  | a :: l => l.foldl max a

/-- `EvaluateNorm` with `P ≥ 3`, component `c`, `src/Euler/EulerEvaluator.hxx:1185-1198`; of `rhs[0]` only the size is used, and
`Array::operator[]` accepts 0 on an empty array (`src/DNDS/Array.hpp:491-493`) -/
noncomputable def evalNormMax (rhs : List (Part n)) (c : Fin n) : ℝ :=
  allMax (rhs.map fun x => (x.father.map fun u => |u c|).foldl max 0)

/-- `EvaluateNorm`, `src/Euler/EulerEvaluator.hxx:1151-1199`, component `c` -/
noncomputable def evaluateNorm (P : Nat) (volWise average : Bool) (rhs : List (Part n × List ℝ)) (c : Fin n) : Res ℝ :=
  if P < 3 then evalNormP P volWise average rhs c else .ok (evalNormMax (rhs.map (·.1)) c)

/-- `EvaluateRecNorm`, component `c`, `src/Euler/EulerEvaluator.hxx:1217-1269`: every own cell has at its quadrature points a weight (with the
Jacobian determinant) and the value of the reconstruction there, or its weighted difference to the field to compare with -/
noncomputable def evalRecNorm (P : Nat) (ranks : List (List (List (ℝ × Row n)))) (c : Fin n) : ℝ :=
  let l := ranks.map fun cells =>
    if P < 3 then (cells.map fun q => (q.map fun p => |p.2 c| ^ P * p.1).foldl (· + ·) 0).foldl (· + ·) 0
    else cells.foldl (fun a q => q.foldl (fun a p => max a |p.2 c|) a) 0
  if P > 3 then allMax l else allSum l ^ (1 / (P : ℝ))

end DNDSR.Dof
