import Verif.Model.DofVec

/-!
# What vectors over the cells of all ranks are (C88)

One vector for the whole mesh, as a list of rows.  `Whole.step` says what each operation does to it; ranks and copies do not occur.
-/

namespace DNDSR.Dof

open Matrix

variable {n : Nat}

/-- how the cells are spread: for every rank the number of its own cells and the global numbers of its ghost cells -/
abbrev Layout := List (Nat × List Nat)

/-- every ghost is the cell of some rank -/
def Layout.Ok (L : Layout) : Prop := ∀ o ∈ L, ∀ g ∈ o.2, g < (L.map (·.1)).sum

/-- `v` has a row for every own and every ghost cell -/
def Shape (L : Layout) (v : List (Part n)) : Prop := List.Forall₂ (fun p o => p.father.length = o.1 ∧ p.son.length = o.2.length) v L

/-- every copy is the row of its owner -/
def Fresh (L : Layout) (v : List (Part n)) : Prop := List.Forall₂ (fun p o => p.son.map some = o.2.map fun g => (glob v)[g]?) v L

/-- whole vectors, the results of reductions so far, and which vectors have up-to-date copies on all ranks -/
structure Whole (n : Nat) where
  vecs : List (List (Row n))
  out : List ℝ
  fresh : Nat → Prop

/-- vector `k`; none is empty -/
def Whole.vec (s : Whole n) (k : Nat) : List (Row n) := s.vecs.getD k []

/-- what the operations with a constant make of a row -/
noncomputable def Each.result : Each n → Row n → Row n
  | .fill r, _ => Function.const (Fin n) r
  | .set x, _ => x
  | .scale r, u => r • u
  | .addRow x, u => u + x
  | .addAll r, u => u + Function.const (Fin n) r
  | .mulRow x, u => u * x
  | .abs, u => |u|
  | .maxWith x, u => u ⊔ x
  | .minWith x, u => u ⊓ x

/-- what the operations with a second vector make of a row -/
noncomputable def Both.result : Both → Row n → Row n → Row n
  | .add, u, v => u + v
  | .sub, u, v => u - v
  | .mul, u, v => u * v
  | .div, u, v => u / v

/-- what an operation does -/
noncomputable def Whole.step (s : Whole n) : Instr n → Whole n
  | .each d f => { s with vecs := s.vecs.set d ((s.vec d).map f.result) }
  | .both d a f => { s with vecs := s.vecs.set d (List.zipWith f.result (s.vec d) (s.vec a)), fresh := fun k => if k = d then s.fresh d ∧ s.fresh a else s.fresh k }
  | .copy d a => { s with vecs := s.vecs.set d (s.vec a), fresh := fun k => if k = d then s.fresh a else s.fresh k }
  | .addTo d a r =>
    { s with vecs := s.vecs.set d (List.zipWith (fun u v => u + r • v) (s.vec d) (s.vec a)), fresh := fun k => if k = d then s.fresh d ∧ s.fresh a else s.fresh k }
  | .pull d => { s with fresh := fun k => k = d ∨ s.fresh k }
  | .dot a b mL mR => { s with out := (List.zipWith (fun (u v : Row n) => ∑ c, (u c * mL c) * (v c * mR c)) (s.vec a) (s.vec b)).sum :: s.out }
  | .norm2 a => { s with out := √((s.vec a).map fun u => ∑ c, u c ^ 2).sum :: s.out }
  | .norm1 a => { s with out := List.ofFn (fun c => ((s.vec a).map fun u => |u c|).sum) ++ s.out }
  | .min a => { s with out := List.ofFn (fun c => ((s.vec a).map fun u => u c).foldr min veryLarge) ++ s.out }

/-- what a program does -/
noncomputable def Whole.run (prog : List ℝ → Instr n) : Nat → Whole n → Whole n
  | 0, s => s
  | k + 1, s => run prog k (s.step (prog s.out))

/-- the operation works on vectors below `m` -/
def Instr.Uses (m : Nat) : Instr n → Prop
  | .each d _ => d < m
  | .both d a _ => d < m ∧ a < m
  | .copy d a => d < m ∧ a < m
  | .addTo d a _ => d < m ∧ a < m
  | .pull d => d < m
  | .dot a b _ _ => a < m ∧ b < m
  | .norm2 a => a < m
  | .norm1 a => a < m
  | .min a => a < m

/-- the ranks hold the vectors `w`: their own rows put together are the whole vectors, and copies are right where `w` says so -/
structure Holds (L : Layout) (s : Store n) (w : Whole n) : Prop where
  shape : ∀ v ∈ s.vecs, Shape L v
  vecs : s.vecs.map glob = w.vecs
  out : s.out = w.out
  fresh : ∀ (k : Nat) (v : List (Part n)), s.vecs[k]? = some v → w.fresh k → Fresh L v

end DNDSR.Dof
