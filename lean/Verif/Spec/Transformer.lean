import Verif.Model.Transformer
import Verif.Spec.Array
import Verif.Spec.IndexMapping

/-!
# What ghost communication has to do (C07-C09)

`lens[r]` rows are owned by rank `r`, `reqs[r]` are the global indices it asks for.  Row `q` of the
distributed array is row `q - before lens r` of the father of its owner `r`.
-/

namespace DNDSR.Tran

open DNDSR.Arr hiding Array
open DNDSR.IMap

/-- row `i` of `a` and row `k` of `b` show the same size and elements -/
def SameRow {α : Type} (ty : Ty) (a : Arr.Array α) (i : Int) (b : Arr.Array α) (k : Int) : Prop :=
  (∃ n, rowSize ty a i = .ok n ∧ rowSize ty b k = .ok n) ∧ ∀ j, atRead ty a i j = atRead ty b k j

/-- local row of global index `q` on rank `r` -/
def ownRow (lens : List Nat) (r : Nat) (q : Int) : Int := q - before lens r

/-- Fathers and sons as a program can produce them, `lens[r]` rows in father `r`, and the same row width
(resp. capacity) on all ranks: what `AssertConsistent`, `src/DNDS/ArrayTransformer.hpp:95-117`, checks. -/
structure Setup {α : Type} (z : α) (ty : Ty) (lens : List Nat) (w : World α) : Prop where
  layout : ty.layout ≠ .errorLayout
  nfathers : w.fathers.length = lens.length
  nsons : w.sons.length = lens.length
  father : ∀ (r : Nat) (fa : Arr.Array α), w.fathers[r]? = some fa → Reachable z ty fa ∧ lens[r]? = some fa.size
  son : ∀ (s : Nat) (so : Arr.Array α), w.sons[s]? = some so → Reachable z ty so
  width : ty.layout ≠ .csr → ∀ (r s : Nat) (fr fs : Arr.Array α), w.fathers[r]? = some fr →
    w.fathers[s]? = some fs → rowSizeField ty fr = rowSizeField ty fs

/-- what a program can do between `createMPITypes` calls -/
inductive Act (α : Type) where
  | writeFather (r : Nat) (i j : Int) (v : α)
  | writeSon (s : Nat) (i j : Int) (v : α)
  | pull (order : List (Nat × Nat))
  | push (order : List (Nat × Nat))

def act {α : Type} (ty : Ty) (types : List Types) (w : World α) : Act α → Res (World α)
  | .writeFather r i j v => do
    let fa ← idx w.fathers r
    let fa' ← atWrite ty fa i j v
    .ok { w with fathers := w.fathers.set r fa' }
  | .writeSon s i j v => do
    let so ← idx w.sons s
    let so' ← atWrite ty so i j v
    .ok { w with sons := w.sons.set s so' }
  | .pull order => Tran.pull types w order
  | .push order => Tran.push types w order

def runActs {α : Type} (ty : Ty) (types : List Types) (w : World α) : List (Act α) → Res (World α)
  | [] => .ok w
  | a :: as => do
    let w' ← act ty types w a
    runActs ty types w' as

/-- every pair of ranks has its message (possibly empty) delivered, in any order -/
def AllPairs (n : Nat) (order : List (Nat × Nat)) : Prop := ∀ p, p ∈ order ↔ p.1 < n ∧ p.2 < n

/-- `L q` is the number of elements of storage row `q` takes in a son: its size for CSR, the common
width otherwise -/
def IsSlotLen {α : Type} (ty : Ty) (lens : List Nat) (fathers : List (Arr.Array α)) (L : Int → Nat) : Prop :=
  ∀ (r : Nat) (fa : Arr.Array α) (q : Int), fathers[r]? = some fa → Owns lens r q →
    (if ty.layout = .csr then rowSize ty fa (ownRow lens r q) else rowSizeField ty fa) = .ok (L q)

end DNDSR.Tran
