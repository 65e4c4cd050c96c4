import Verif.Spec.DirectDominant
import Verif.Props.DirectLU
import Mathlib.LinearAlgebra.Matrix.ToLinearEquiv
import Mathlib.Algebra.Order.BigOperators.Ring.Finset
import Mathlib.Algebra.BigOperators.Group.Finset.Basic
import Mathlib.Tactic.Linarith

/-! Helper lemmas for `Verif.Props.DirectDominant`. -/

namespace DNDSR.Direct

open DNDSR.IMap
open Matrix

variable {m : Nat} {K : Type} [Field K] [LinearOrder K] [IsStrictOrderedRing K]

/-- the sum of a row of a block -/
def rsum (A : Matrix (Fin m) (Fin m) K) (p : Fin m) : K := ∑ q, |A p q|

/-- what the diagonal entry of a row has over the rest of the row -/
def gap (A : Matrix (Fin m) (Fin m) K) (p : Fin m) : K := |A p p| - ∑ q ∈ Finset.univ.erase p, |A p q|

theorem rsum_nonneg (A : Matrix (Fin m) (Fin m) K) (p : Fin m) : 0 ≤ rsum A p := Finset.sum_nonneg fun _ _ => abs_nonneg _

theorem rsum_sub_le (A B : Matrix (Fin m) (Fin m) K) (p : Fin m) : rsum (A - B) p ≤ rsum A p + rsum B p := by
  rw [rsum, rsum, rsum, ← Finset.sum_add_distrib]
  exact Finset.sum_le_sum fun q _ => by rw [Matrix.sub_apply]; exact abs_sub _ _

theorem rsum_zero (p : Fin m) : rsum (0 : Matrix (Fin m) (Fin m) K) p = 0 := by simp [rsum]

theorem rsum_sum_le {ι : Type} (s : Finset ι) (f : ι → Matrix (Fin m) (Fin m) K) (p : Fin m) : rsum (∑ k ∈ s, f k) p ≤ ∑ k ∈ s, rsum (f k) p := by
  simp only [rsum]
  rw [Finset.sum_comm]
  refine Finset.sum_le_sum fun q _ => ?_
  rw [Matrix.sum_apply]
  exact Finset.abs_sum_le_sum_abs _ _

theorem rsum_mul_le (A B : Matrix (Fin m) (Fin m) K) (p : Fin m) : rsum (A * B) p ≤ ∑ q, |A p q| * rsum B q := by
  simp only [rsum, Finset.mul_sum]
  rw [Finset.sum_comm]
  refine Finset.sum_le_sum fun q' _ => ?_
  rw [Matrix.mul_apply]
  refine (Finset.abs_sum_le_sum_abs _ _).trans (Finset.sum_le_sum fun q _ => ?_)
  rw [abs_mul]

theorem le_rsum_mul (A V : Matrix (Fin m) (Fin m) K) (p : Fin m) : ∑ q, |A p q| * gap V q ≤ rsum (A * V) p := by
  have h1 : ∀ q', |A p q'| * |V q' q'| - ∑ q ∈ Finset.univ.erase q', |A p q| * |V q q'| ≤ |(A * V) p q'| := by
    intro q'
    rw [Matrix.mul_apply, ← Finset.add_sum_erase Finset.univ (fun q => A p q * V q q') (Finset.mem_univ q')]
    have h2 : |∑ q ∈ Finset.univ.erase q', A p q * V q q'| ≤ ∑ q ∈ Finset.univ.erase q', |A p q| * |V q q'| := by
      refine (Finset.abs_sum_le_sum_abs _ _).trans (Finset.sum_le_sum fun q _ => ?_)
      rw [abs_mul]
    have h3 := abs_sub_abs_le_abs_sub (A p q' * V q' q') (-∑ q ∈ Finset.univ.erase q', A p q * V q q')
    rw [abs_neg, sub_neg_eq_add, abs_mul] at h3
    linarith
  have h4 : ∑ q, |A p q| * gap V q = ∑ q', (|A p q'| * |V q' q'| - ∑ q ∈ Finset.univ.erase q', |A p q| * |V q q'|) := by
    simp only [gap, mul_sub, Finset.sum_sub_distrib, Finset.mul_sum]
    congr 1
    have e1 : ∀ q, ∑ q' ∈ Finset.univ.erase q, |A p q| * |V q q'| = (∑ q', |A p q| * |V q q'|) - |A p q| * |V q q| := fun q => by
      rw [← Finset.add_sum_erase Finset.univ (fun q' => |A p q| * |V q q'|) (Finset.mem_univ q)]; ring
    have e2 : ∀ q', ∑ q ∈ Finset.univ.erase q', |A p q| * |V q q'| = (∑ q, |A p q| * |V q q'|) - |A p q'| * |V q' q'| := fun q' => by
      rw [← Finset.add_sum_erase Finset.univ (fun q => |A p q| * |V q q'|) (Finset.mem_univ q')]; ring
    simp only [e1, e2, Finset.sum_sub_distrib]
    rw [Finset.sum_comm]
  rw [h4]
  exact Finset.sum_le_sum fun q' _ => h1 q'

theorem gap_sub_le (A B : Matrix (Fin m) (Fin m) K) (p : Fin m) : gap A p - rsum B p ≤ gap (A - B) p := by
  have h1 : ∑ q ∈ Finset.univ.erase p, |(A - B) p q| ≤ (∑ q ∈ Finset.univ.erase p, |A p q|) + ∑ q ∈ Finset.univ.erase p, |B p q| := by
    rw [← Finset.sum_add_distrib]
    exact Finset.sum_le_sum fun q _ => by rw [Matrix.sub_apply]; exact abs_sub _ _
  have h2 : rsum B p = |B p p| + ∑ q ∈ Finset.univ.erase p, |B p q| := (Finset.add_sum_erase Finset.univ (fun q => |B p q|) (Finset.mem_univ p)).symm
  have h3 := abs_sub_abs_le_abs_sub (A p p) (B p p)
  rw [gap, gap, h2]
  simp only [Matrix.sub_apply] at *
  linarith

/-- a block with positive gaps is accepted -/
theorem gap_accepts {A : Matrix (Fin m) (Fin m) K} (h : ∀ p, 0 < gap A p) : invertDiag A ≠ none := by
  rw [invertDiag_accepts]
  have hne : ∀ p, 0 < |A p p| := fun p => by
    have h1 := h p
    have h2 : 0 ≤ ∑ q ∈ Finset.univ.erase p, |A p q| := Finset.sum_nonneg fun _ _ => abs_nonneg _
    rw [gap] at h1
    linarith
  refine ⟨?_, fun p => abs_pos.1 (hne p)⟩
  rw [isUnit_iff_ne_zero]
  intro hdet
  obtain ⟨y, hy, hAy⟩ := Matrix.exists_mulVec_eq_zero_iff.2 hdet
  obtain ⟨k, hk⟩ := Function.ne_iff.1 hy
  obtain ⟨p, _, hp⟩ := Finset.exists_max_image Finset.univ (fun q => |y q|) ⟨k, Finset.mem_univ k⟩
  have hyp : 0 < |y p| := lt_of_lt_of_le (abs_pos.2 hk) (hp k (Finset.mem_univ k))
  have h1 := congrFun hAy p
  rw [Matrix.mulVec, dotProduct, ← Finset.add_sum_erase Finset.univ (fun q => A p q * y q) (Finset.mem_univ p)] at h1
  have h2 : |A p p| * |y p| ≤ (∑ q ∈ Finset.univ.erase p, |A p q|) * |y p| := by
    rw [← abs_mul, eq_neg_of_add_eq_zero_left h1, abs_neg, Finset.sum_mul]
    refine (Finset.abs_sum_le_sum_abs _ _).trans (Finset.sum_le_sum fun q _ => ?_)
    rw [abs_mul]
    exact mul_le_mul_of_nonneg_left (hp q (Finset.mem_univ q)) (abs_nonneg _)
  have h3 := h p
  rw [gap] at h3
  have := mul_pos h3 hyp
  rw [sub_mul] at this
  linarith

/-- eliminating a row: `w k` are the absolute multipliers, `U k j` the row sums of the upper blocks, `d k` the gaps of the pivots,
`A k` the row sums of the blocks left of the diagonal -/
theorem eliminate {n i : Nat} (hi : i < n) (w : Nat → Fin m → K) (U : Nat → Nat → Fin m → K) (d : Nat → Fin m → K) (A : Nat → K)
    (hw : ∀ k q, 0 ≤ w k q) (hw0 : ∀ k, i ≤ k → ∀ q, w k q = 0)
    (h1 : ∀ k < i, ∑ q, w k q * d k q ≤ A k + ∑ k' ∈ Finset.range n, ∑ q, w k' q * U k' k q)
    (h2 : ∀ k < i, ∀ q, ∑ j ∈ Finset.range n, U k j q ≤ d k q) :
    ∑ j ∈ Finset.Ico i n, ∑ k ∈ Finset.range n, ∑ q, w k q * U k j q ≤ ∑ k ∈ Finset.range i, A k := by
  have e0 : ∀ f : Nat → K, (∀ k, i ≤ k → f k = 0) → ∑ k ∈ Finset.range n, f k = ∑ k ∈ Finset.range i, f k := by
    intro f hf
    symm
    refine Finset.sum_subset (fun k hk => Finset.mem_range.2 (by have := Finset.mem_range.1 hk; omega)) ?_
    intro k _ hk
    exact hf k (by simpa using hk)
  have hz : ∀ j k, i ≤ k → ∑ q, w k q * U k j q = 0 := fun j k hk => Finset.sum_eq_zero fun q _ => by rw [hw0 k hk, zero_mul]
  have s1 : ∑ k ∈ Finset.range i, ∑ q, w k q * d k q ≤ ∑ k ∈ Finset.range i, A k + ∑ j ∈ Finset.range i, ∑ k ∈ Finset.range n, ∑ q, w k q * U k j q := by
    rw [← Finset.sum_add_distrib]
    exact Finset.sum_le_sum fun k hk => h1 k (Finset.mem_range.1 hk)
  have s2 : ∑ j ∈ Finset.range n, ∑ k ∈ Finset.range n, ∑ q, w k q * U k j q ≤ ∑ k ∈ Finset.range i, ∑ q, w k q * d k q := by
    rw [Finset.sum_comm, e0 _ (fun k hk => Finset.sum_eq_zero fun j _ => hz j k hk)]
    refine Finset.sum_le_sum fun k hk => ?_
    rw [Finset.sum_comm]
    refine Finset.sum_le_sum fun q _ => ?_
    rw [← Finset.mul_sum]
    exact mul_le_mul_of_nonneg_left (h2 k (Finset.mem_range.1 hk) q) (hw k q)
  have s3 := Finset.sum_range_add_sum_Ico (fun j => ∑ k ∈ Finset.range n, ∑ q, w k q * U k j q) (show i ≤ n by omega)
  linarith

/-- the gap of a pivot over the rest of its row in the upper factor -/
def RowGap (S : LUStruct) (B0 B : Blocks (Matrix (Fin m) (Fin m) K)) (k : Nat) : Prop :=
  ∀ q, ∑ j ∈ Finset.range S.n, rsum (uppBlock S B k j) q < gap (diagBlock S B0 k - tsum S B B k k) q

theorem row_gap {S : LUStruct} (hS : WF S) {B0 B X : Blocks (Matrix (Fin m) (Fin m) K)} {i : Nat} (hi : i < S.n)
    (hdom : ∀ p, (∑ q ∈ Finset.univ.erase p, |matBlock S B0 i i p q|) + (∑ j ∈ (Finset.range S.n).erase i, ∑ q, |matBlock S B0 i j p q|) < |matBlock S B0 i i p p|)
    (hdone : ∀ k < i, RowEq invertDiag S B0 B k) (hgap : ∀ k < i, RowGap S B0 B k)
    (hX : ∀ j ∈ rowOf S.low i, lowBlock S X i j = (lowBlock S B0 i j - tsum S X B i j) * diagBlock S B j) (p : Fin m) :
    ∑ j ∈ Finset.range S.n, rsum (if j ∈ rowOf S.upp i then uppBlock S B0 i j - tsum S X B i j else 0) p < gap (diagBlock S B0 i - tsum S X B i i) p := by
  have ht : ∀ j, rsum (tsum S X B i j) p ≤ ∑ k ∈ Finset.range S.n, ∑ q, |lowBlock S X i k p q| * rsum (uppBlock S B k j) q := fun j =>
    (rsum_sum_le _ _ p).trans (Finset.sum_le_sum fun k _ => rsum_mul_le _ _ p)
  have hE := eliminate (m := m) (K := K) hi (fun k q => |lowBlock S X i k p q|) (fun k j q => rsum (uppBlock S B k j) q)
    (fun k q => gap (diagBlock S B0 k - tsum S B B k k) q) (fun k => rsum (lowBlock S B0 i k) p) (fun _ _ => abs_nonneg _)
    (fun k hk q => by
      rw [lowBlock_zero X (fun hc => by have := (hS.low_lt hi hc).1; omega)]
      simp)
    (by
      intro k hk
      refine (le_rsum_mul _ _ p).trans ?_
      by_cases hkm : k ∈ rowOf S.low i
      · have hv := (invertDiag_inverts _ _ (hdone k hk).diag).2
        rw [hX k hkm, Matrix.mul_assoc, hv, Matrix.mul_one]
        exact (rsum_sub_le _ _ p).trans (by have := ht k; linarith)
      · rw [lowBlock_zero X hkm, Matrix.zero_mul, rsum_zero]
        have h1 := rsum_nonneg (lowBlock S B0 i k) p
        have h2 : 0 ≤ ∑ k' ∈ Finset.range S.n, ∑ q, |lowBlock S X i k' p q| * rsum (uppBlock S B k' k) q :=
          Finset.sum_nonneg fun _ _ => Finset.sum_nonneg fun _ _ => mul_nonneg (abs_nonneg _) (rsum_nonneg _ _)
        linarith)
    (fun k hk q => (hgap k hk q).le)
  -- the blocks right of the diagonal
  have hU : ∑ j ∈ Finset.range S.n, rsum (if j ∈ rowOf S.upp i then uppBlock S B0 i j - tsum S X B i j else 0) p ≤
      ∑ j ∈ Finset.Ico (i + 1) S.n, (rsum (uppBlock S B0 i j) p + ∑ k ∈ Finset.range S.n, ∑ q, |lowBlock S X i k p q| * rsum (uppBlock S B k j) q) := by
    have e : ∑ j ∈ Finset.Ico (i + 1) S.n, rsum (if j ∈ rowOf S.upp i then uppBlock S B0 i j - tsum S X B i j else 0) p =
        ∑ j ∈ Finset.range S.n, rsum (if j ∈ rowOf S.upp i then uppBlock S B0 i j - tsum S X B i j else 0) p := by
      refine Finset.sum_subset (fun j hj => Finset.mem_range.2 (Finset.mem_Ico.1 hj).2) ?_
      intro j hj hn
      rw [if_neg, rsum_zero]
      intro hc
      exact hn (Finset.mem_Ico.2 ⟨(hS.uppAbove i hi j hc).1, (hS.uppAbove i hi j hc).2⟩)
    rw [← e]
    refine Finset.sum_le_sum fun j _ => ?_
    have h2 : 0 ≤ ∑ k' ∈ Finset.range S.n, ∑ q, |lowBlock S X i k' p q| * rsum (uppBlock S B k' j) q :=
      Finset.sum_nonneg fun _ _ => Finset.sum_nonneg fun _ _ => mul_nonneg (abs_nonneg _) (rsum_nonneg _ _)
    split
    · exact (rsum_sub_le _ _ p).trans (by have := ht j; linarith)
    · rw [rsum_zero]
      have := rsum_nonneg (uppBlock S B0 i j) p
      linarith
  have hV := gap_sub_le (diagBlock S B0 i) (tsum S X B i i) p
  have hti := ht i
  rw [Finset.sum_eq_sum_Ico_succ_bot hi] at hE
  rw [Finset.sum_add_distrib] at hU
  -- the rest of the original row
  have hA : (∑ k ∈ Finset.range i, rsum (lowBlock S B0 i k) p) + ∑ j ∈ Finset.Ico (i + 1) S.n, rsum (uppBlock S B0 i j) p =
      ∑ j ∈ (Finset.range S.n).erase i, ∑ q, |matBlock S B0 i j p q| := by
    have e : (Finset.range S.n).erase i = Finset.range i ∪ Finset.Ico (i + 1) S.n := by
      ext j
      simp only [Finset.mem_erase, Finset.mem_range, Finset.mem_union, Finset.mem_Ico]
      omega
    rw [e, Finset.sum_union (by
      rw [Finset.disjoint_left]
      intro j h1 h2
      have := Finset.mem_range.1 h1
      have := Finset.mem_Ico.1 h2
      omega)]
    congr 1
    · refine Finset.sum_congr rfl fun j hj => ?_
      have hj := Finset.mem_range.1 hj
      rw [rsum, matBlock, if_neg (by omega), uppBlock_zero B0 (fun hc => by have := (hS.uppAbove i hi j hc).1; omega), add_zero]
    · refine Finset.sum_congr rfl fun j hj => ?_
      have hj := Finset.mem_Ico.1 hj
      rw [rsum, matBlock, if_neg (by omega), lowBlock_zero B0 (fun hc => by have := (hS.low_lt hi hc).1; omega), zero_add]
  have hd := hdom p
  rw [← hA, show matBlock S B0 i i = diagBlock S B0 i by rw [matBlock, if_pos rfl]] at hd
  rw [gap] at hV
  linarith

theorem decompose_dominant {S : LUStruct} (hS : WF S) {B0 : Blocks (Matrix (Fin m) (Fin m) K)} (hdom : Dominant S B0) :
    ∃ B, decompose invertDiag S B0 = .ok B ∧ ∀ k < S.n, RowGap S B0 B k := by
  obtain ⟨B, h1, h2, h3⟩ := foldRes_total (decomposeRow invertDiag S) (fun t B => AllInv invertDiag S B0 t B ∧ ∀ k < t, RowGap S B0 B k)
    (List.range S.n) B0 ⟨allInv_zero hS invertDiag B0, fun k hk => by omega⟩ (by
      rintro t x B hx ⟨hB, hg⟩
      obtain ⟨rfl, ht⟩ := range_get hS hx
      obtain ⟨h1, h2, h3⟩ := decomposeRow_eq hS invertDiag B ht
      have hrow : ∀ X : Blocks (Matrix (Fin m) (Fin m) K), (∀ j ∈ rowOf S.low x, lowBlock S X x j = (lowBlock S B x j - tsum S X B x j) * diagBlock S B j) → ∀ p,
          ∑ j ∈ Finset.range S.n, rsum (if j ∈ rowOf S.upp x then uppBlock S B0 x j - tsum S X B x j else 0) p < gap (diagBlock S B0 x - tsum S X B x x) p := by
        intro X hX p
        refine row_gap hS ht (hdom x ht) (fun k hk => hB.done k (by omega) hk) hg ?_ p
        rw [← hB.restL x ht (Nat.le_refl _)]
        exact hX
      cases hr : decomposeRow invertDiag S B x with
      | ub => exact absurd hr h1
      | abort =>
        obtain ⟨X, hX, hn⟩ := h3 hr
        rw [hB.restD x ht (Nat.le_refl _)] at hn
        refine absurd hn (gap_accepts fun p => ?_)
        exact lt_of_le_of_lt (Finset.sum_nonneg fun _ _ => rsum_nonneg _ _) (hrow X hX p)
      | ok B' =>
        have hR := h2 B' hr
        have hA := allInv_step hS invertDiag ht hB hR
        refine ⟨B', rfl, hA, ?_⟩
        have hne : ∀ i < S.n, i ≠ x → rename S.n2o i ≠ rename S.n2o x := fun i hi hit hc => hit (hS.perm.inj i hi x ht hc)
        have fl : ∀ i < S.n, i ≠ x → lowBlock S B' i = lowBlock S B i := fun i hi hit => by
          funext j; simp only [lowBlock, hR.otherL _ (hne i hi hit)]
        have fu : ∀ i < S.n, i ≠ x → uppBlock S B' i = uppBlock S B i := fun i hi hit => by
          funext j; simp only [uppBlock, hR.otherU _ (hne i hi hit)]
        intro k hk q
        by_cases hc : k = x
        · subst hc
          have hts : ∀ j, tsum S B' B k j = tsum S B' B' k j := fun j =>
            tsum_frame hS B' B B' ht (fun k' hk' => (fu k' (by omega) (by omega)).symm) j
          have := hrow B' hR.low q
          rw [hts] at this
          refine lt_of_eq_of_lt (Finset.sum_congr rfl fun j _ => ?_) this
          by_cases hj : j ∈ rowOf S.upp k
          · rw [if_pos hj, hR.upp j hj, hB.restU k ht (Nat.le_refl _)]
          · rw [if_neg hj, uppBlock_zero _ hj]
        · have hkx : k < x := by omega
          have := hg k hkx q
          have hts : tsum S B' B' k k = tsum S B B k k := by
            rw [tsum_frame hS B' B' B (by omega) (fun k' hk' => fu k' (by omega) (by omega)) k]
            simp only [tsum, fl k (by omega) hc]
          rw [hts, fu k (by omega) hc]
          exact this)
  rw [List.length_range] at h3
  refine ⟨{ B with decomposed := true }, by rw [decompose, h1, Res.ok_bind], fun k hk q => ?_⟩
  exact h3 k hk q

end DNDSR.Direct
