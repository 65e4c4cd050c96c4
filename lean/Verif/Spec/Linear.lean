import Verif.Model.Linear
import Mathlib.LinearAlgebra.BilinearMap
import Mathlib.Algebra.BigOperators.Group.Finset.Basic
import Mathlib.Logic.Function.Iterate

/-!
# What the Krylov solvers should do
-/

namespace DNDSR.Krylov

variable {K V : Type} [Field K] [LinearOrder K] [AddCommGroup V] [Module K V]

/-- A linear system with a preconditioner: `dot` is a symmetric bilinear form, `A` and `M` are symmetric with respect to it and
non-negative, and the function the solver is given for the preconditioned residual really solves `M z = b - A x`. -/
structure System (dot : V →ₗ[K] V →ₗ[K] K) (A M : V →ₗ[K] V) (res : V → V) (b : V) : Prop where
  symm : ∀ u v, dot u v = dot v u
  A_symm : ∀ u v, dot (A u) v = dot u (A v)
  M_symm : ∀ u v, dot (M u) v = dot u (M v)
  A_nonneg : ∀ u, 0 ≤ dot u (A u)
  M_nonneg : ∀ u, 0 ≤ dot u (M u)
  res_eq : ∀ x, M (res x) = b - A x

/-- the functions handed to `solve` for such a system -/
def sysOps (dot : V →ₗ[K] V →ₗ[K] K) (A M : V →ₗ[K] V) (res : V → V) : Ops K V :=
  { FA := A, FM := M, FResPrec := res, dot := fun u v => dot u v }

/-- the square of the `A`-norm of the error, for the solution `xs` -/
def errA (dot : V →ₗ[K] V →ₗ[K] K) (A : V →ₗ[K] V) (xs x : V) : K := dot (x - xs) (A (x - xs))

/-- calls on one conjugate gradient object -/
inductive PcgOp (K : Type) where
  | solve (niter : Nat) (stop : Nat → K → K → Bool)
  | reset

/-- a history of calls; the solution vector is handed from call to call.  Returns what each `solve` returned and logged, with the
solution vector before and after it. -/
def runPcg (o : Ops K V) (eps : K) : List (PcgOp K) → PCG K V → V → List (V × V × Bool × List (Asked K V))
  | [], _, _ => []
  | .reset :: ops, c, x => runPcg o eps ops c.reset x
  | .solve niter stop :: ops, c, x =>
    match pcgSolve o eps stop niter c x with
    | (c', x', flag, log) => (x, x', flag, log) :: runPcg o eps ops c' x'

/-- `log` describes a run from `x` to `y`: what was asked about each iterate is computed from its true residual, and each step
leads to the next iterate, with `Step` holding for it. -/
def Leads (Ask : V → Asked K V → Prop) (Step : V → V → K → K → Prop) : List (Asked K V) → V → V → Prop
  | [], x, y => x = y
  | a :: l, x, y => a.x = x ∧ Ask x a ∧ match a.step with
    | none => l = [] ∧ x = y
    | some (p, alpha) => Step x p alpha a.zr ∧ Leads Ask Step l (x + alpha • p) y

/-- The least squares routine does its job: `y` minimizes `‖beta e₁ - H y‖`, for the `(j+1) × j` part `H` of `h`. -/
def IsLsq (lsq : Nat → (Nat → Nat → K) → K → (Nat → K) × Nat) : Prop :=
  ∀ (j : Nat) (h : Nat → Nat → K) (beta : K) (y : Nat → K),
    ∑ i ∈ Finset.range (j + 1), ((if i = 0 then beta else 0) - ∑ c ∈ Finset.range j, h i c * (lsq j h beta).1 c) ^ 2 ≤
    ∑ i ∈ Finset.range (j + 1), ((if i = 0 then beta else 0) - ∑ c ∈ Finset.range j, h i c * y c) ^ 2

/-- the square of the norm of the preconditioned residual `ML (b - A x)` -/
def resSq (dot : V →ₗ[K] V →ₗ[K] K) (A ML : V →ₗ[K] V) (b x : V) : K := dot (ML (b - A x)) (ML (b - A x))

/-- `y` has the least preconditioned residual in `x +` the Krylov space of dimension `j` of `ML A` and the preconditioned residual
of `x` -/
def KrylovMin (dot : V →ₗ[K] V →ₗ[K] K) (A ML : V →ₗ[K] V) (b x y : V) (j : Nat) : Prop :=
  ∀ c : Nat → K, resSq dot A ML b y ≤ resSq dot A ML b (x + ∑ i ∈ Finset.range j, c i • (fun v => ML (A v))^[i] (ML (b - A x)))

/-- each iterate comes from the one before it by such a minimization -/
def Cycles (dot : V →ₗ[K] V →ₗ[K] K) (A ML : V →ₗ[K] V) (b : V) : V → List (V × Nat) → Prop
  | _, [] => True
  | x, (y, j) :: l => 0 < j ∧ KrylovMin dot A ML b x y j ∧ Cycles dot A ML b y l

end DNDSR.Krylov
