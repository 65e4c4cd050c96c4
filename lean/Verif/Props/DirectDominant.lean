import Verif.Proof.DirectDominant
import Mathlib.Tactic.NormNum

/-!
# C79: which matrices the factorization accepts

A matrix whose rows are strictly dominated by their diagonal entries is factorized, on every pattern.
-/

namespace DNDSR.Direct

open Matrix

variable {m : Nat} {K : Type} [Field K] [LinearOrder K] [IsStrictOrderedRing K]

/-- **C79.** On every well formed pattern, closed under fill-in or not, and for every block size, a strictly diagonally dominant
matrix is factorized: no pivot is refused. -/
theorem dominant_factorizes {S : LUStruct} (hS : WF S) {B : Blocks (Matrix (Fin m) (Fin m) K)} (hdom : Dominant S B) :
    ∃ B', decompose invertDiag S B = .ok B' :=
  (decompose_dominant hS hdom).imp fun _ h => h.1

/-- **C79.** From the symbolic factorization on: with the complete factorization such a matrix is factorized and the solution of the
system is found, for every symmetric adjacency, reordering and right-hand side. -/
theorem dominant_direct_solve {M : Type} [AddCommGroup M] [Module (Matrix (Fin m) (Fin m) K) M] (ord : List Nat → List Nat) (hord : ∀ l, (ord l).Perm l) (n : Nat)
    (adj : List (List Nat)) (hadj : SymAdj n adj) (o2n n2o : List Nat) (hre : IsReorder n o2n n2o) (iluCode : Int) (hcode : iluCode < 0) :
    ∃ S, symbolic ord adj o2n n2o n iluCode = .ok S ∧ S.n = n ∧
      ∀ B : Blocks (Matrix (Fin m) (Fin m) K), B.decomposed = false → Dominant S B → ∀ b r0 r1 : Nat → M,
      ∃ B' x r, decompose invertDiag S B = .ok B' ∧ solve S B' b r0 = .ok x ∧ matMul S B x r1 = .ok r ∧ ∀ i < n, r i = b i := by
  obtain ⟨S, h1, h2, h3, h4, h5, h6, h7, h8, h9⟩ := symbolic_covers ord hord n adj hadj o2n n2o hre iluCode (by omega)
  refine ⟨S, h1, h2, fun B hB hdom b r0 r1 => ?_⟩
  obtain ⟨B', hd⟩ := dominant_factorizes h5 hdom
  obtain ⟨x, r, q1, q2, q3⟩ := lu_solves h5 (h8 hcode) invertDiag invertDiag_inverts B B' hB hd b r0 r1
  exact ⟨B', x, r, hd, q1, q2, fun i hi => q3 i (by omega)⟩

/-- two coupled block rows with blocks `[[5, 1], [0, 5]]` on the diagonal and `[[1, 1], [1, 2]]` beside it -/
def demoDom : Blocks (Matrix (Fin 2) (Fin 2) ℚ) := ⟨fun _ => !![5, 1; 0, 5], fun _ _ => !![1, 1; 1, 2], fun _ _ => !![1, 1; 1, 2], false⟩

theorem demoDom_dominant : Dominant demoS demoDom := by
  intro i hi p
  have hd : ∀ k : Nat, matBlock demoS demoDom k k = !![5, 1; 0, 5] := fun k => by rw [matBlock, if_pos rfl]; rfl
  have e0 : (Finset.univ : Finset (Fin 2)).erase 0 = {1} := by decide
  have e1 : (Finset.univ : Finset (Fin 2)).erase 1 = {0} := by decide
  match i, hi with
  | 0, _ =>
      have h1 : matBlock demoS demoDom 0 1 = !![1, 1; 1, 2] := by
        rw [matBlock, if_neg (by omega), lowBlock_zero _ (by simp [rowOf, demoS]), zero_add]
        simp [uppBlock, rowOf, demoS, demoDom]
      have e : (Finset.range demoS.n).erase 0 = {1} := by decide
      rw [e, Finset.sum_singleton, h1, hd]
      match p with
      | 0 => rw [e0]; simp; norm_num
      | 1 => rw [e1]; simp; norm_num
  | 1, _ =>
      have h1 : matBlock demoS demoDom 1 0 = !![1, 1; 1, 2] := by
        rw [matBlock, if_neg (by omega), uppBlock_zero _ (by simp [rowOf, demoS]), add_zero]
        simp [lowBlock, rowOf, demoS, demoDom]
      have e : (Finset.range demoS.n).erase 1 = {0} := by decide
      rw [e, Finset.sum_singleton, h1, hd]
      match p with
      | 0 => rw [e0]; simp; norm_num
      | 1 => rw [e1]; simp; norm_num

example : ∃ B', decompose invertDiag demoS demoDom = .ok B' := dominant_factorizes demoS_wf demoDom_dominant

/-- equality is not enough: `[[1]]` coupled with `[[1]]` by ones is refused -/
theorem weak_dominance_aborts : ∃ B : Blocks (Matrix (Fin 1) (Fin 1) ℚ),
    (∀ i < demoS.n, ∀ p, (∑ q ∈ Finset.univ.erase p, |matBlock demoS B i i p q|) + (∑ j ∈ (Finset.range demoS.n).erase i, ∑ q, |matBlock demoS B i j p q|) ≤
      |matBlock demoS B i i p p|) ∧ decompose invertDiag demoS B = .abort := by
  refine ⟨⟨fun _ => 1, fun _ _ => 1, fun _ _ => 1, false⟩, ?_, ?_⟩
  · intro i hi p
    have hd : ∀ k : Nat, matBlock demoS (⟨fun _ => 1, fun _ _ => 1, fun _ _ => 1, false⟩ : Blocks (Matrix (Fin 1) (Fin 1) ℚ)) k k = 1 := fun k => by rw [matBlock, if_pos rfl]; rfl
    have e0 : (Finset.univ : Finset (Fin 1)).erase 0 = ∅ := by decide
    obtain rfl : p = 0 := Subsingleton.elim _ _
    match i, hi with
    | 0, _ =>
        have h1 : matBlock demoS (⟨fun _ => 1, fun _ _ => 1, fun _ _ => 1, false⟩ : Blocks (Matrix (Fin 1) (Fin 1) ℚ)) 0 1 = 1 := by
          rw [matBlock, if_neg (by omega), lowBlock_zero _ (by simp [rowOf, demoS]), zero_add]
          simp [uppBlock, rowOf, demoS]
        have e : (Finset.range demoS.n).erase 0 = {1} := by decide
        rw [e, Finset.sum_singleton, h1, hd, e0]
        simp
    | 1, _ =>
        have h1 : matBlock demoS (⟨fun _ => 1, fun _ _ => 1, fun _ _ => 1, false⟩ : Blocks (Matrix (Fin 1) (Fin 1) ℚ)) 1 0 = 1 := by
          rw [matBlock, if_neg (by omega), uppBlock_zero _ (by simp [rowOf, demoS]), add_zero]
          simp [lowBlock, rowOf, demoS]
        have e : (Finset.range demoS.n).erase 1 = {0} := by decide
        rw [e, Finset.sum_singleton, h1, hd, e0]
        simp
  · cases hd : decompose invertDiag demoS (⟨fun _ => 1, fun _ _ => 1, fun _ _ => 1, false⟩ : Blocks (Matrix (Fin 1) (Fin 1) ℚ)) with
    | ub => exact absurd hd (decompose_defined demoS_wf _ _)
    | abort => rfl
    | ok B' =>
        obtain ⟨x, r, h1, h2, h3⟩ := lu_solves (M := Matrix (Fin 1) (Fin 1) ℚ) demoS_wf demoS_closed invertDiag invertDiag_inverts _ B' rfl hd (fun i => if i = 0 then 1 else 0) (fun _ => 0) (fun _ => 0)
        have hr : ∀ i < 2, r i = x 0 + x 1 := by
          intro i hi
          obtain ⟨r', h4, h5⟩ := matMul_spec demoS_wf (⟨fun _ => 1, fun _ _ => 1, fun _ _ => 1, false⟩ : Blocks (Matrix (Fin 1) (Fin 1) ℚ)) rfl x (fun _ => (0 : Matrix (Fin 1) (Fin 1) ℚ))
          rw [h2] at h4
          cases Res.ok.inj h4
          have := h5 i hi
          have hn : rename demoS.n2o i = i := rfl
          rw [hn] at this
          rw [this]
          match i, hi with
          | 0, _ => simp [demoS, Finset.sum_range_succ, matBlock, lowBlock, uppBlock, rowOf, rename, diagBlock]
          | 1, _ => simp [demoS, Finset.sum_range_succ, matBlock, lowBlock, uppBlock, rowOf, rename, diagBlock]
        have h6 := h3 0 (by decide)
        have h7 := h3 1 (by decide)
        rw [hr 0 (by omega), if_pos rfl] at h6
        rw [hr 1 (by omega), if_neg (by omega), h6] at h7
        have := congrFun (congrFun h7 0) 0
        simp at this

end DNDSR.Direct
