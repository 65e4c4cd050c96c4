import Verif.Proof.DirectSym
import Verif.Proof.DirectLDLT
import Verif.Model.DirectInv
import Mathlib.Data.Matrix.Basic
import Mathlib.Data.Rat.Defs
import Mathlib.Tactic.FinCases
import Mathlib.LinearAlgebra.Matrix.Notation

/-!
# Sparse block factorization (C27, C28, C29, C30)

`symbolic` models the symbolic factorization, `decompose`/`solve`/`matMul` the LU class and `ldltDecompose`/`ldltSolve`/
`ldltMatMul` the LDLT class of `src/Solver/Direct.hpp`.  What a well formed structure, the matrix and its factors are is in
`Verif.Spec.DirectLU`.
-/

namespace DNDSR.Direct

open DNDSR.IMap DNDSR.Defines

/-! ## C27 -/

/-- C27.  For every symmetric adjacency, every pair of inverse reorderings (or none), every iteration order of the hash sets and
every fill level up to the limit, the symbolic factorization returns a well formed structure (`WF`: ascending rows, upper rows the
transpose of lower rows, cross positions at the mirrored entry, old-numbered rows alike).  Its off-diagonal pattern is exactly the
fill pattern of that level; in particular it contains every off-diagonal neighbour, and is closed under fill-in when the
factorization is complete.  `rowPos` gives, for each neighbour of a row, its place in the stored row. -/
theorem symbolic_covers (ord : List Nat → List Nat) (hord : ∀ l, (ord l).Perm l) (n : Nat) (adj : List (List Nat)) (hadj : SymAdj n adj)
    (o2n n2o : List Nat) (hre : IsReorder n o2n n2o) (iluCode : Int) (hcode : iluCode ≤ 5) :
    ∃ S, symbolic ord adj o2n n2o n iluCode = .ok S ∧ S.n = n ∧ S.o2n = o2n ∧ S.n2o = n2o ∧ WF S ∧
      (∀ i < n, ∀ j < n, i ≠ j → rename n2o j ∈ rowOf adj (rename n2o i) → InPattern S i j) ∧
      (∀ i < n, ∀ j < n, i ≠ j → (InPattern S i j ↔ Fill n adj n2o iluCode i j)) ∧
      (iluCode < 0 → Closed S) ∧
      (iluCode = 0 → ∀ i < n, ∀ j < n, i ≠ j → InPattern S i j → rename n2o j ∈ rowOf adj (rename n2o i)) ∧
      (∀ i < n, ∀ (p j : Nat), (rowOf adj i)[p]? = some j → ∃ r pos, S.rowPos[i]? = some r ∧ r[p]? = some pos ∧
        RowPosOk S.low S.upp (rename o2n i) (rename o2n j) pos) := by
  obtain ⟨S, h1, h2, h3, h4, h5, h6, h7, h8, h9⟩ := symbolic_spec hadj hre hord hcode
  have hre' := isReorder_re hre
  have hpat : ∀ i < n, ∀ j < n, i ≠ j → (InPattern S i j ↔ Fill n adj n2o iluCode i j) := by
    intro i hi j _ hij
    unfold InPattern
    rw [h6 i hi, h7 i hi]
    constructor
    · rintro (h | ⟨_, h⟩ | ⟨_, h⟩)
      · exact absurd h hij
      · exact h
      · exact h
    · intro h
      rcases Nat.lt_or_gt_of_ne hij with hlt | hgt
      · exact Or.inr (Or.inr ⟨hlt, h⟩)
      · exact Or.inr (Or.inl ⟨hgt, h⟩)
  refine ⟨S, h1, h2, h3, h4, h5, ?_, hpat, ?_, ?_, ?_⟩
  · intro i hi j hj hij he
    exact (hpat i hi j hj hij).2 (Fill.edge hi hj hij he)
  · intro hc c hcn i hi j hj hij
    rw [h2] at hcn
    have hi' := (h7 c hcn i).1 hi
    have hj' := (h7 c hcn j).1 hj
    have hin : i < n := by have := (h5.uppAbove c (by omega) i hi).2; omega
    exact (h7 i hin j).2 ⟨hij, Fill.fill hi'.1 hij hi'.2 hj'.2 (Or.inl hc)⟩
  · intro hc i hi j hj hij hp
    have hf := (hpat i hi j hj hij).1 hp
    clear hp hpat hij h1
    subst hc
    induction hf with
    | edge _ _ _ he => exact he
    | fill _ _ _ _ ha => rcases ha with ha | ha <;> omega
    | symm _ ih => exact (hadj.2 _ (hre'.newLt _ hj) _ (ih hj hi)).2
  · intro i hi p j hj
    obtain ⟨r, r1, _, r2⟩ := h9 i hi
    obtain ⟨pos, p1, p2⟩ := r2 p j hj
    exact ⟨r, pos, r1, p1, p2⟩

/-- The complete pattern is the least one: every symmetric relation that contains the neighbours and is closed under fill-in
contains it. -/
theorem complete_pattern_least (n : Nat) (adj : List (List Nat)) (n2o : List Nat) (P : Nat → Nat → Prop)
    (hsym : ∀ i j, P i j → P j i) (hclosed : ∀ c i j, c < i → i < j → P c i → P c j → P i j)
    (hedge : ∀ p < n, ∀ q < n, p ≠ q → rename n2o q ∈ rowOf adj (rename n2o p) → P p q) (i j : Nat)
    (h : Fill n adj n2o (-1) i j) : P i j := by
  induction h with
  | edge hp hq hpq he => exact hedge _ hp _ hq hpq he
  | fill h1 h2 _ _ _ ih1 ih2 => exact hclosed _ _ _ h1 h2 ih1 ih2
  | symm _ ih => exact hsym _ _ ih

/-- A fill level above five is refused. -/
theorem symbolic_limit (ord : List Nat → List Nat) (n : Nat) (adj : List (List Nat)) (o2n n2o : List Nat) (iluCode : Int)
    (hcode : 5 < iluCode) : symbolic ord adj o2n n2o n iluCode = .abort := by
  have : enlarge ord adj n iluCode = .abort := by
    have h : Res.assert (iluCode ≤ 5) = .abort := by
      rw [Res.assert, if_neg (by omega)]
    rw [enlarge, if_pos (by omega), h, Res.abort_bind]
  rw [symbolic, this, Res.abort_bind]

/-! ## C28 -/

section
variable {R M : Type} [Ring R] [AddCommGroup M] [Module R M]

/-- Decomposing never leaves the defined behaviour: it returns, or `InvertDiag` aborts. -/
theorem decompose_defined {S : LUStruct} (hS : WF S) (inv : R → Option R) (B : Blocks R) : decompose inv S B ≠ .ub :=
  (decompose_spec hS inv B).1

/-- A matrix that has a factorization on the pattern with accepted pivots is decomposed, and into exactly that factorization. -/
theorem decompose_returns {S : LUStruct} (hS : WF S) (inv : R → Option R) (hinv : Inverts inv) (B : Blocks R)
    (lo up : Nat → Nat → R) (v : Nat → R) (hf : HasLU inv S B lo up v) :
    ∃ B', decompose inv S B = .ok B' ∧ ∀ i < S.n, lowBlock S B' i = lo i ∧ uppBlock S B' i = up i ∧ inv (v i) = some (diagBlock S B' i) :=
  decompose_total hS hinv hf

/-- C28.  On a pattern closed under fill-in, after the decomposition has returned, `Solve` returns `x`, and `MatMul` of the
original blocks with that `x` returns the right-hand side. -/
theorem lu_solves {S : LUStruct} (hS : WF S) (hc : Closed S) (inv : R → Option R) (hinv : Inverts inv) (B B' : Blocks R)
    (hB : B.decomposed = false) (hd : decompose inv S B = .ok B') (b r0 r1 : Nat → M) :
    ∃ x r, solve S B' b r0 = .ok x ∧ matMul S B x r1 = .ok r ∧ ∀ i < S.n, r i = b i := by
  obtain ⟨d1, d2⟩ := (decompose_spec hS inv B).2 B' hd
  obtain ⟨x, y, h1, h2, h3⟩ := solve_spec hS B' d1 b r0
  obtain ⟨r, h4, h5⟩ := matMul_spec hS B hB x r1
  refine ⟨x, r, h1, h4, fun v hv => ?_⟩
  obtain ⟨i, hi, rfl⟩ := hS.perm.surj v hv
  rw [h5 i hi]
  refine product_solves S.n (matBlock S B) (lowBlock S B') (uppBlock S B') (pivot S B B') (diagBlock S B')
    (fun i => x (rename S.n2o i)) (fun i => y (rename S.n2o i)) (fun i => b (rename S.n2o i)) ?_ ?_ h2 h3 i hi
  · intro i hi j hj
    rw [← show tsum S B' B' i j = ∑ k ∈ Finset.range S.n, lowBlock S B' i k * uppBlock S B' k j from rfl, ← prod_eq hS B' _ hi hj]
    by_cases hp : InPattern S i j
    · rw [product_on_pattern hS inv hinv B B' d2 hi hj hp]
    · rw [product_off_pattern hS hc B' _ hi hj hp, matBlock_off hS B hp]
  · intro i hi
    exact (hinv _ _ (d2 i hi).diag).1

/-- C28 from the symbolic factorization on: complete symbolic factorization, decomposition and solve give the solution, for every
symmetric adjacency, reordering and matrix with a factorization on the pattern found. -/
theorem direct_solve (ord : List Nat → List Nat) (hord : ∀ l, (ord l).Perm l) (n : Nat) (adj : List (List Nat)) (hadj : SymAdj n adj)
    (o2n n2o : List Nat) (hre : IsReorder n o2n n2o) (iluCode : Int) (hcode : iluCode < 0) :
    ∃ S, symbolic ord adj o2n n2o n iluCode = .ok S ∧ S.n = n ∧
      ∀ (inv : R → Option R), Inverts inv → ∀ (B : Blocks R), B.decomposed = false →
      ∀ (lo up : Nat → Nat → R) (v : Nat → R), HasLU inv S B lo up v → ∀ b r0 r1 : Nat → M,
      ∃ B' x r, decompose inv S B = .ok B' ∧ solve S B' b r0 = .ok x ∧ matMul S B x r1 = .ok r ∧ ∀ i < n, r i = b i := by
  obtain ⟨S, h1, h2, h3, h4, h5, h6, h7, h8, h9⟩ := symbolic_covers ord hord n adj hadj o2n n2o hre iluCode (by omega)
  refine ⟨S, h1, h2, ?_⟩
  intro inv hinv B hB lo up v hf b r0 r1
  obtain ⟨B', hd, _⟩ := decompose_returns h5 inv hinv B lo up v hf
  obtain ⟨x, r, q1, q2, q3⟩ := lu_solves h5 (h8 hcode) inv hinv B B' hB hd b r0 r1
  exact ⟨B', x, r, hd, q1, q2, fun i hi => q3 i (by omega)⟩

/-! ## C29 -/

/-- C29.  On any pattern, closed or not, the product of the stored factors, with the inverses of the stored diagonal as pivots,
agrees with the original matrix at every entry of the pattern. -/
theorem ilu_on_pattern {S : LUStruct} (hS : WF S) (inv : R → Option R) (hinv : Inverts inv) (B B' : Blocks R)
    (hd : decompose inv S B = .ok B') :
    ∃ v : Nat → R, (∀ i < S.n, v i * diagBlock S B' i = 1 ∧ diagBlock S B' i * v i = 1) ∧
      ∀ i < S.n, ∀ j < S.n, InPattern S i j →
        (∑ k ∈ Finset.range S.n, factorL S B' i k * factorU S B' v k j) = matBlock S B i j := by
  obtain ⟨d1, d2⟩ := (decompose_spec hS inv B).2 B' hd
  exact ⟨pivot S B B', fun i hi => hinv _ _ (d2 i hi).diag, fun i hi j hj hp => product_on_pattern hS inv hinv B B' d2 hi hj hp⟩

/-! ## C30 -/

/-- The symmetric decomposition returns, or `InvertDiag` aborts. -/
theorem ldlt_defined {S : LUStruct} (hS : WF S) (inv : R → Option R) (tr : R → R) (htr : IsTranspose tr) (B : Blocks R)
    (junk : Nat → R) : ldltDecompose inv tr S B junk ≠ .ub :=
  (ldlt_spec htr hS inv B junk).1

/-- A matrix with a symmetric factorization on the pattern with accepted pivots is decomposed. -/
theorem ldlt_returns {S : LUStruct} (hS : WF S) (inv : R → Option R) (hinv : Inverts inv) (tr : R → R) (htr : IsTranspose tr)
    (B : Blocks R) (junk : Nat → R) (lo : Nat → Nat → R) (v : Nat → R) (hf : HasLDLT inv tr S B lo v) :
    ∃ B', ldltDecompose inv tr S B junk = .ok B' :=
  ldlt_total htr hS hinv junk hf

/-- C30.  For a symmetric block matrix (symmetric diagonal blocks, upper triangle the transpose of the stored lower one) on a
pattern closed under fill-in, after the decomposition has returned, `Solve` returns `x`, and `MatMul` of the original blocks with
that `x` returns the right-hand side, whatever the work array held. -/
theorem ldlt_solves {S : LUStruct} (hS : WF S) (hc : Closed S) (inv : R → Option R) (hinv : Inverts inv) (tr : R → R)
    (htr : IsTranspose tr) (B B' : Blocks R) (hsym : ∀ i < S.n, tr (B.diag i) = B.diag i) (hB : B.decomposed = false)
    (junk : Nat → R) (hd : ldltDecompose inv tr S B junk = .ok B') (b r0 r1 : Nat → M) :
    ∃ x r, ldltSolve tr S B' b r0 = .ok x ∧ ldltMatMul tr S B x r1 = .ok r ∧ ∀ i < S.n, r i = b i := by
  obtain ⟨d1, v, d2⟩ := (ldlt_spec htr hS inv B junk).2 B' hd
  obtain ⟨x, y, h1, h2, h3⟩ := ldltSolve_spec htr hS B' d1 b r0
  obtain ⟨r, h4, h5⟩ := ldltMatMul_spec htr hS B hB x r1
  refine ⟨x, r, h1, h4, fun w hw => ?_⟩
  obtain ⟨i, hi, rfl⟩ := hS.perm.surj w hw
  rw [h5 i hi]
  have hsym' : ∀ i < S.n, tr (diagBlock S B i) = diagBlock S B i := fun i hi => hsym _ (hS.perm.lt i hi)
  have hinv' : ∀ i < S.n, v (rename S.n2o i) * diagBlock S B' i = 1 ∧ diagBlock S B' i * v (rename S.n2o i) = 1 := fun i hi =>
    hinv _ _ (d2 i hi).diag
  refine product_solves S.n (symBlock tr S B) (lowBlock S B') (fun k j => v (rename S.n2o k) * tr (lowBlock S B' j k))
    (fun i => v (rename S.n2o i)) (diagBlock S B')
    (fun i => x (rename S.n2o i)) (fun i => y (rename S.n2o i)) (fun i => b (rename S.n2o i)) ?_ ?_ h2 ?_ i hi
  · intro i hi j hj
    exact ldlt_product htr hS inv hinv hc B B' v hsym' d2 hi hj
  · intro i hi; exact (hinv' i hi).1
  · intro i hi
    show x (rename S.n2o i) = _
    rw [h3 i hi, smul_sub, Finset.smul_sum]
    congr 1
    apply Finset.sum_congr rfl
    intro k _
    rw [smul_smul, ← mul_assoc, (hinv' i hi).2, one_mul]

end

/-! ## the blocks of the solver -/

open Matrix

/-- `InvertDiag` is sound: what it returns is the inverse. -/
theorem invertDiag_inverts {m : Nat} {K : Type} [Field K] : Inverts (invertDiag (m := m) (K := K)) := by
  intro v w h
  unfold invertDiag at h
  split at h
  · next hd =>
    simp only at h
    split at h
    · next hu =>
      have e := Option.some.inj h
      set D := diagonal (fun i => (v i i)⁻¹) with hD
      have hDu : D * diagonal (fun i => v i i) = 1 := by
        rw [hD, diagonal_mul_diagonal]
        rw [show (fun i => (v i i)⁻¹ * v i i) = fun _ => 1 from funext fun i => inv_mul_cancel₀ (hd i)]
        exact diagonal_one
      have hDv : diagonal (fun i => v i i) * D = 1 := by
        rw [hD, diagonal_mul_diagonal]
        rw [show (fun i => v i i * (v i i)⁻¹) = fun _ => 1 from funext fun i => mul_inv_cancel₀ (hd i)]
        exact diagonal_one
      have h1 : w * v = 1 := by
        rw [← e, Matrix.mul_assoc, Matrix.nonsing_inv_mul _ hu]
      exact ⟨mul_eq_one_comm.1 h1, h1⟩
    · cases h
  · cases h

/-- It accepts exactly the invertible blocks without a zero on the diagonal. -/
theorem invertDiag_accepts {m : Nat} {K : Type} [Field K] (v : Matrix (Fin m) (Fin m) K) :
    invertDiag v ≠ none ↔ IsUnit v.det ∧ ∀ i, v i i ≠ 0 := by
  unfold invertDiag
  by_cases hd : ∀ i, v i i ≠ 0
  · rw [if_pos hd]
    have hdet : (diagonal (fun i => (v i i)⁻¹) * v).det = (∏ i, (v i i)⁻¹) * v.det := by
      rw [det_mul, det_diagonal]
    have hp : (∏ i, (v i i)⁻¹) ≠ 0 := Finset.prod_ne_zero_iff.2 (fun i _ => inv_ne_zero (hd i))
    have hu : IsUnit (diagonal (fun i => (v i i)⁻¹) * v).det ↔ IsUnit v.det := by
      rw [hdet, isUnit_iff_ne_zero, isUnit_iff_ne_zero, mul_ne_zero_iff]
      exact ⟨fun h => h.2, fun h => ⟨hp, h⟩⟩
    by_cases hv : IsUnit v.det
    · simp only [if_pos (hu.2 hv)]
      exact ⟨fun _ => ⟨hv, hd⟩, fun _ => by simp⟩
    · simp only [if_neg (fun h => hv (hu.1 h))]
      exact ⟨fun h => absurd rfl h, fun h => absurd h.1 hv⟩
  · rw [if_neg hd]; simp [hd]

/-- The transposition of blocks used by LDLT. -/
theorem transpose_isTranspose {m : Nat} {K : Type} [Field K] : IsTranspose (Matrix.transpose : Matrix (Fin m) (Fin m) K → _) :=
  ⟨fun _ _ => transpose_add _ _, fun _ _ => transpose_mul _ _, fun _ => transpose_transpose _⟩

/-- The code is stricter than invertibility of the pivots: an invertible block with a zero on the diagonal aborts, so a matrix
that has a block factorization may be refused. -/
theorem zero_diagonal_pivot_aborts : ∃ (S : LUStruct) (B : Blocks (Matrix (Fin 2) (Fin 2) ℚ)), WF S ∧ S.n = 1 ∧
    IsUnit (diagBlock S B 0).det ∧ decompose invertDiag S B = .abort := by
  refine ⟨⟨1, [], [], [[]], [[]], [[]], [[]], [[]], [[]], [[]]⟩, ⟨fun _ => !![0, 1; 1, 0], fun _ _ => 0, fun _ _ => 0, false⟩, ?_, rfl, ?_, ?_⟩
  · refine ⟨Or.inl ⟨rfl, rfl⟩, rfl, rfl, ?_, ?_, ?_, ?_, ?_, ?_, ?_, ?_, ?_⟩ <;>
      · intro i hi
        obtain rfl : i = 0 := by simp at hi; exact hi
        simp [rowOf, rename]
  · simp [diagBlock, det_fin_two]
  · have : invertDiag (!![0, 1; 1, 0] : Matrix (Fin 2) (Fin 2) ℚ) = none := by
      by_contra hc
      exact ((invertDiag_accepts _).1 hc).2 0 (by simp)
    simp [decompose, foldRes, decomposeRow, reorder, idx, this, List.range_succ]

/-! ## the hypotheses are met -/

/-- a path of four rows with the ends exchanged: row `0` has neighbours `2` and `3` -/
example : SymAdj 4 [[2, 3], [2], [0, 1], [0]] := by
  refine ⟨rfl, ?_⟩
  intro i hi
  match i, hi with
  | 0, _ => simp [rowOf]
  | 1, _ => simp [rowOf]
  | 2, _ => simp [rowOf]
  | 3, _ => simp [rowOf]

example : IsReorder 4 [1, 0, 3, 2] [1, 0, 3, 2] := by
  refine Or.inr ⟨rfl, rfl, ?_, ?_⟩ <;>
  · intro i hi
    match i, hi with
    | 0, _ => exact ⟨1, by simp, by simp, by simp⟩
    | 1, _ => exact ⟨0, by simp, by simp, by simp⟩
    | 2, _ => exact ⟨3, by simp, by simp, by simp⟩
    | 3, _ => exact ⟨2, by simp, by simp, by simp⟩

/-- a star whose centre is eliminated first: two leaves become joined, so there is genuine fill-in -/
example : Fill 3 [[1, 2], [0], [0]] [] (-1) 1 2 ∧ rename [] 2 ∉ rowOf [[1, 2], [0], [0]] (rename [] 1) := by
  refine ⟨Fill.fill (c := 0) (by omega) (by omega) (Fill.edge (by omega) (by omega) (by omega) (by simp [rename, rowOf]))
    (Fill.edge (by omega) (by omega) (by omega) (by simp [rename, rowOf])) (Or.inl (by omega)), by simp [rename, rowOf]⟩

/-- inversion in a field, which accepts everything but zero -/
def fieldInv (v : ℚ) : Option ℚ := if v = 0 then none else some v⁻¹

theorem fieldInv_inverts : Inverts fieldInv := by
  intro v w h
  unfold fieldInv at h
  split at h
  · cases h
  · next hv =>
    cases h
    exact ⟨mul_inv_cancel₀ hv, inv_mul_cancel₀ hv⟩

/-- two coupled rows -/
def demoS : LUStruct := ⟨2, [], [], [[], [0]], [[1], []], [[], [0]], [[1], []], [[], [0]], [[0], []], [[2], [1]]⟩

theorem demoS_wf : WF demoS := by
  have two : ∀ i : Nat, i < demoS.n → i = 0 ∨ i = 1 := fun i hi => by
    have : i < 2 := hi
    omega
  refine ⟨Or.inl ⟨rfl, rfl⟩, rfl, rfl, ?_, ?_, ?_, ?_, ?_, ?_, ?_, ?_, ?_⟩
  · intro i hi; rcases two i hi with rfl | rfl <;> simp [rowOf, demoS]
  · intro i hi; rcases two i hi with rfl | rfl <;> simp [rowOf, demoS]
  · intro i hi; rcases two i hi with rfl | rfl <;> simp [rowOf, demoS]
  · intro i hi; rcases two i hi with rfl | rfl <;> simp [rowOf, demoS]
  · intro i hi j hj; rcases two i hi with rfl | rfl <;> rcases two j hj with rfl | rfl <;> simp [rowOf, demoS]
  · intro i hi; rcases two i hi with rfl | rfl <;> simp [rowOf, demoS, rename]
  · intro i hi; rcases two i hi with rfl | rfl <;> simp [rowOf, demoS, rename]
  · intro i hi
    rcases two i hi with rfl | rfl
    · exact ⟨[], by simp [demoS], by simp [rowOf, demoS], by intro p j h; simp [rowOf, demoS] at h⟩
    · refine ⟨[0], by simp [demoS], by simp [rowOf, demoS], ?_⟩
      intro p j h
      match p with
      | 0 => simp [rowOf, demoS] at h; subst h; exact ⟨0, by simp, by simp [rowOf, demoS]⟩
      | p + 1 => simp [rowOf, demoS] at h
  · intro i hi
    rcases two i hi with rfl | rfl
    · refine ⟨[0], by simp [demoS], by simp [rowOf, demoS], ?_⟩
      intro p j h
      match p with
      | 0 => simp [rowOf, demoS] at h; subst h; exact ⟨0, by simp, by simp [rowOf, demoS]⟩
      | p + 1 => simp [rowOf, demoS] at h
    · exact ⟨[], by simp [demoS], by simp [rowOf, demoS], by intro p j h; simp [rowOf, demoS] at h⟩

theorem demoS_closed : Closed demoS := by
  intro c hc i hi j hj hij
  match c, hc with
  | 0, _ => simp [rowOf, demoS] at hi hj; omega
  | 1, _ => simp [rowOf, demoS] at hi

/-- `[[2, 1], [4, 5]]` -/
def demoB : Blocks ℚ := ⟨fun i => if i = 0 then 2 else 5, fun _ _ => 4, fun _ _ => 1, false⟩

/-- it has the factors `[[1, 0], [2, 1]]` and `[[2, 1], [0, 3]]`, so `decompose_returns` and `direct_solve` apply -/
theorem demo_has : HasLU fieldInv demoS demoB (fun i k => if i = 1 ∧ k = 0 then 2 else 0) (fun k j => if k = 0 ∧ j = 1 then 1 else 0)
    (fun i => if i = 0 then 2 else 3) := by
  refine ⟨?_, ?_, ?_, ?_⟩
  · intro i hi k hk
    match i, hi with
    | 0, _ => simp
    | 1, _ => simp [rowOf, demoS] at hk; simp [hk]
  · intro i hi k hk
    match i, hi with
    | 0, _ => simp [rowOf, demoS] at hk; simp [hk]
    | 1, _ => simp
  · intro i hi j hj _
    match i, hi, j, hj with
    | 0, _, 0, _ => simp [demoS, Finset.sum_range_succ, matBlock, diagBlock, demoB, rename]
    | 0, _, 1, _ => simp [demoS, Finset.sum_range_succ, matBlock, lowBlock, uppBlock, demoB, rowOf, rename]
    | 1, _, 0, _ => simp [demoS, Finset.sum_range_succ, matBlock, lowBlock, uppBlock, demoB, rowOf, rename]; norm_num
    | 1, _, 1, _ => simp [demoS, Finset.sum_range_succ, matBlock, diagBlock, demoB, rename]; norm_num
  · intro i hi
    match i, hi with
    | 0, _ => simp [fieldInv]
    | 1, _ => simp [fieldInv]

example : ∃ B', decompose fieldInv demoS demoB = .ok B' :=
  (decompose_returns demoS_wf fieldInv fieldInv_inverts demoB _ _ _ demo_has).imp fun _ h => h.1

/-- `[[2, 4], [4, 11]]` with factors `[[1, 0], [2, 1]]` and pivots `2`, `3` -/
def demoSym : Blocks ℚ := ⟨fun i => if i = 0 then 2 else 11, fun _ _ => 4, fun _ _ => 0, false⟩

theorem demo_hasLDLT : HasLDLT fieldInv id demoS demoSym (fun i k => if i = 1 ∧ k = 0 then 2 else 0) (fun i => if i = 0 then 2 else 3) := by
  refine ⟨?_, ?_, ?_⟩
  · intro i hi k hk
    match i, hi with
    | 0, _ => simp
    | 1, _ => simp [rowOf, demoS] at hk; simp [hk]
  · intro i hi j hj hji _
    match i, hi, j, hj, hji with
    | 0, _, 0, _, _ => simp [demoS, Finset.sum_range_succ, symBlock, diagBlock, demoSym, rename]
    | 1, _, 0, _, _ => simp [demoS, Finset.sum_range_succ, symBlock, lowBlock, demoSym, rowOf, rename]; norm_num
    | 1, _, 1, _, _ => simp [demoS, Finset.sum_range_succ, symBlock, diagBlock, demoSym, rename]; norm_num
  · intro i hi
    match i, hi with
    | 0, _ => simp [fieldInv]
    | 1, _ => simp [fieldInv]

theorem id_isTranspose : IsTranspose (id : ℚ → ℚ) := ⟨fun _ _ => rfl, fun a b => by simp [mul_comm], fun _ => rfl⟩

example : ∃ B', ldltDecompose fieldInv id demoS demoSym (fun _ => 7) = .ok B' :=
  ldlt_returns demoS_wf fieldInv fieldInv_inverts id id_isTranspose demoSym _ _ _ demo_hasLDLT

example : ∀ i < demoS.n, id (demoSym.diag i) = demoSym.diag i := fun _ _ => rfl

end DNDSR.Direct
