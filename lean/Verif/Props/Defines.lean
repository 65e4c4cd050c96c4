import Verif.Proof.Defines

/-!
# Properties C10, C11, C12, C13, C52: helpers of `Defines.hpp`
-/

namespace DNDSR.Defines

/-! ## C10 overflow guards -/

/-- C10. For representable operands the checked addition returns the mathematical sum when that is
representable, and otherwise aborts; it never overflows silently and is never undefined. -/
theorem safeAdd_exact (w : Nat) (v inc : Int) (hv : Fits w v) (hi : Fits w inc) :
    signedIntSafeAdd w v inc = if Fits w (v + inc) then .ok (v + inc) else .abort :=
  safeAdd_eq w v inc hv hi

/-- C10. `size_t_to_signed` returns the same value exactly when it fits and aborts otherwise. -/
theorem size_t_to_signed_exact (w v : Nat) :
    size_t_to_signed w v = if Fits w (v : Int) then .ok (v : Int) else .abort := by
  unfold size_t_to_signed Fits
  have : intMin w ≤ (v : Int) := by
    have : 0 ≤ (2 : Int) ^ (w - 1) := Int.pow_nonneg (by omega)
    unfold intMin; omega
  simp [this]

/-- C10. The 64-to-32-bit index conversion returns the same value exactly when it fits. -/
theorem checkedIndexTo32_exact (v : Int) :
    checkedIndexTo32 v = if Fits 32 v then .ok v else .abort := by
  unfold checkedIndexTo32
  by_cases h : v > intMax 32 ∨ v < intMin 32
  · rw [if_neg (by exact fun hn => hn h), if_neg (by unfold Fits; omega)]
  · rw [if_pos h, if_pos (by unfold Fits; omega)]

example : Fits 64 (2 ^ 62) ∧ Fits 64 (2 ^ 62) ∧ ¬ Fits 64 (2 ^ 62 + 2 ^ 62) := by decide
example : signedIntSafeAdd 64 (2 ^ 62) (2 ^ 62) = .abort := by decide
example : signedIntSafeAdd 64 (-(2 ^ 62)) (-(2 ^ 62)) = .ok (-(2 ^ 63)) := by decide
example : checkedIndexTo32 (2 ^ 31) = .abort ∧ checkedIndexTo32 (-(2 ^ 31)) = .ok (-(2 ^ 31)) := by
  decide

/-! ## C11 accumulation -/

/-- C11. A returned offset list has one more entry than there are row sizes and its `i`-th entry is
the sum of the first `i` sizes (so it starts at 0, consecutive differences are the sizes, and the
last entry is the total); if every prefix sum is representable the call does return, so an abort
means a prefix sum overflowed. -/
theorem accumulateRowSize_spec (w : Nat) (sizes : List Int) (hs : ∀ r ∈ sizes, Fits w r) :
    (∀ out, accumulateRowSize w sizes = .ok out →
      out.length = sizes.length + 1 ∧
      ∀ i, i ≤ sizes.length → out[i]? = some (sizes.take i).sum) ∧
    ((∀ i, i ≤ sizes.length → Fits w (sizes.take i).sum) →
      ∃ out, accumulateRowSize w sizes = .ok out) := by
  constructor
  · intro out h
    simp only [accumulateRowSize, Res.bind_ok_iff, Res.pure_eq, Res.ok.injEq] at h
    obtain ⟨rest, hrest, rfl⟩ := h
    obtain ⟨hlen, hget⟩ := accumulateGo_ok w sizes 0 rest (fits_zero w) hs hrest
    refine ⟨by simp [hlen], ?_⟩
    intro i hi
    cases i with
    | zero => simp
    | succ i => simpa using (hget i (by omega)).1
  · intro h
    obtain ⟨out, hout⟩ := accumulateGo_total w sizes 0 (fits_zero w) hs (by simpa using h)
    exact ⟨0 :: out, by simp [accumulateRowSize, hout]⟩

example : accumulateRowSize 32 [3, 0, 5] = .ok [0, 3, 3, 8] := by decide
example : accumulateRowSize 32 [2 ^ 30, 2 ^ 30] = .abort := by decide

/-- C11. Uniformity detection is true exactly for a non-empty constant list, and then reports the
common value. -/
theorem checkUniformVector_spec {α : Type} [DecidableEq α] (dat : List α) (v0 : α) :
    (checkUniformVector dat v0).1 = true ↔
      dat ≠ [] ∧ ∀ x ∈ dat, x = (checkUniformVector dat v0).2 := by
  cases dat <;> simp [checkUniformVector]

example : checkUniformVector [4, 4, 4] 0 = (true, 4) := by decide
example : (checkUniformVector ([] : List Nat) 7) = (false, 7) := by decide

/-! ## C12 integer helpers -/

/-- C12. `mod` returns the representative of `a` modulo `b` in `[0,b)`. -/
theorem cmod_spec (a b : Int) (hb : 0 < b) :
    ∃ r, cmod a b = .ok r ∧ 0 ≤ r ∧ r < b ∧ ∃ k, a = k * b + r := by
  have h0 : b ≠ 0 := by omega
  refine ⟨Int.emod a b, ?_, Int.emod_nonneg a h0, Int.emod_lt_of_pos a hb, a / b, ?_⟩
  · unfold cmod
    rw [if_neg h0]
    have h1 := Int.tmod_eq_emod (a := a) (b := b)
    have h2 := Int.emod_nonneg a h0
    have h3 := Int.emod_lt_of_pos a hb
    have h4 : (b.natAbs : Int) = b := by omega
    change Res.ok (if a.tmod b < 0 then a.tmod b + b else a.tmod b) = Res.ok (a % b)
    rw [Res.ok.injEq, h1]
    split
    · split <;> (try simp) <;> omega
    · split <;> (try simp) <;> omega
  · have := Int.mul_ediv_add_emod a b
    rw [Int.mul_comm] at this
    exact this.symm

example : cmod (-1) 3 = .ok 2 ∧ cmod 7 3 = .ok 1 := by decide

/-- C12. `divide_ceil` returns the ceiling of the quotient for a non-negative dividend: the least
`q` with `a ≤ q * b`. -/
theorem divide_ceil_spec (a b : Int) (ha : 0 ≤ a) (hb : 0 < b) :
    ∃ q, divide_ceil a b = .ok q ∧ a ≤ q * b ∧ ∀ q', a ≤ q' * b → q ≤ q' := by
  have h0 : b ≠ 0 := by omega
  obtain ⟨q, hq⟩ : ∃ q, q = Int.tdiv a b := ⟨_, rfl⟩
  obtain ⟨m, hm⟩ : ∃ m, m = Int.tmod a b := ⟨_, rfl⟩
  have hqm : b * q + m = a := by rw [hq, hm]; exact Int.mul_tdiv_add_tmod a b
  have hm0 : 0 ≤ m := by rw [hm]; exact Int.tmod_nonneg b ha
  have hmb : m < b := by rw [hm]; exact Int.tmod_lt_of_pos a hb
  refine ⟨q + (if m ≠ 0 then 1 else 0), by simp [divide_ceil, h0, hq, hm], ?_, ?_⟩
  · split
    · rw [Int.add_mul, Int.mul_comm q b]; omega
    · rw [Int.add_zero, Int.mul_comm q b]; omega
  · intro q' hq'
    have h1 : b * q ≤ q' * b := by omega
    rw [Int.mul_comm q' b] at h1
    have h2 : q ≤ q' := Int.le_of_mul_le_mul_left h1 hb
    split
    · rename_i hne
      by_cases h3 : q = q'
      · subst h3; rw [Int.mul_comm] at hq'; omega
      · omega
    · omega

/-- C12, negative dividends: `divide_ceil (-3) 2` is 0 although the ceiling of -1.5 is -1. -/
theorem divide_ceil_negative_wrong :
    divide_ceil (-3) 2 = .ok 0 ∧ (-3 : Int) ≤ (-1) * 2 := by decide

/-- C12 fails for `divCeil`: whatever the operands it returns 0 or 1 (the conditional operator binds
weaker than `+`), e.g. 1 for 23/11 whose ceiling is 3. -/
theorem divCeil_wrong :
    (∀ l r, r ≠ 0 → divCeil l r = .ok 0 ∨ divCeil l r = .ok 1) ∧
    divCeil 23 11 = .ok 1 ∧ ¬ ((23 : Int) ≤ 1 * 11) := by
  refine ⟨?_, by decide, by decide⟩
  intro l r hr
  unfold divCeil
  simp only [hr, if_false, Res.ok.injEq]
  split <;> simp

/-- C12, partial: `divCeil` is the ceiling exactly when the ceiling is at most 1 (`l ≤ r`).  Missing
for the full property: all `l > r`, where the code is wrong. -/
theorem divCeil_partial (l r : Int) (hl : 0 ≤ l) (hr : 0 < r) (h : l ≤ r) :
    ∃ q, divCeil l r = .ok q ∧ l ≤ q * r ∧ ∀ q', l ≤ q' * r → q ≤ q' := by
  have h0 : r ≠ 0 := by omega
  by_cases hz : l = 0
  · subst hz
    refine ⟨0, by simp [divCeil, h0], by simp, ?_⟩
    intro q' hq'
    by_cases hn : q' < 0
    · have := Int.mul_neg_of_neg_of_pos hn hr; omega
    · omega
  · refine ⟨1, ?_, by omega, ?_⟩
    · unfold divCeil
      rw [if_neg h0]
      congr 1
      rw [if_pos]
      intro hsum
      have h1 := Int.mul_tdiv_add_tmod l r
      have h2 := Int.tmod_nonneg r hl
      have h3 : 0 ≤ Int.tdiv l r := Int.tdiv_nonneg hl (by omega)
      have h4 : Int.tdiv l r = 0 := by omega
      have h5 : Int.tmod l r = 0 := by omega
      rw [h4, h5] at h1
      omega
    · intro q' hq'
      by_cases hn : q' ≤ 0
      · have := Int.mul_nonpos_of_nonpos_of_nonneg hn (Int.le_of_lt hr); omega
      · omega

example : (0 : Int) ≤ 3 ∧ (0 : Int) < 5 ∧ (3 : Int) ≤ 5 := by decide

/-! ## C13 sorted merge -/

/-- C13. On strictly ascending ranges, `iterateIdentical` calls the visitor on exactly the values
occurring in both ranges, in ascending order, each once and with its position in both ranges, until
the visitor asks to stop; it returns true exactly if the visitor stopped it. -/
theorem iterateIdentical_visits {σ : Type} (F : Int → Nat → Nat → σ → σ × Bool)
    (l1 l2 : List Int) (s : σ) (h1 : StrictAsc l1) (h2 : StrictAsc l2) :
    iterateIdentical F l1 l2 0 0 s = runVisits F (commonVisits l1 l2 0 0) s :=
  iterateIdentical_eq F _ l1 l2 0 0 s (Nat.le_refl _) h1 h2

/-- C13. What the visits are: a triple is visited iff the value sits at those positions of the two
ranges; visited values are strictly ascending (hence no repetition). -/
theorem commonVisits_spec (l1 l2 : List Int) (h1 : StrictAsc l1) (h2 : StrictAsc l2) :
    (∀ x i j, (x, i, j) ∈ commonVisits l1 l2 0 0 ↔ l1[i]? = some x ∧ l2[j]? = some x) ∧
    ((commonVisits l1 l2 0 0).map (·.1)).Pairwise (· < ·) := by
  constructor
  · intro x i j
    simp only [commonVisits, List.mem_filterMap, Nat.zero_add]
    constructor
    · rintro ⟨⟨y, k⟩, hyk, hif⟩
      have hyk' := List.mem_zipIdx_iff_getElem?.1 hyk
      simp only at hyk' hif
      by_cases hm : y ∈ l2
      · simp only [hm, if_true, Option.some.injEq, Prod.mk.injEq] at hif
        obtain ⟨rfl, rfl, rfl⟩ := hif
        refine ⟨hyk', ?_⟩
        have := List.idxOf_lt_length_of_mem hm
        rw [List.getElem?_eq_getElem this]
        simp
      · simp [hm] at hif
    · rintro ⟨hi, hj⟩
      refine ⟨(x, i), List.mem_zipIdx_iff_getElem?.2 hi, ?_⟩
      have hm : x ∈ l2 := List.mem_of_getElem? hj
      simp only [hm, if_true, Option.some.injEq, Prod.mk.injEq, true_and]
      have hlt := List.idxOf_lt_length_of_mem hm
      have hj' : j < l2.length := by
        rcases List.getElem?_eq_some_iff.1 hj with ⟨h, _⟩; exact h
      have e1 : l2[l2.idxOf x] = x := by simp
      have e2 : l2[j] = x := (List.getElem?_eq_some_iff.1 hj).2
      have hp := List.pairwise_iff_getElem.1 h2
      rcases Nat.lt_trichotomy (l2.idxOf x) j with h | h | h
      · have := hp _ _ hlt hj' h; omega
      · exact h
      · have := hp _ _ hj' hlt h; omega
  · have hz : l1.zipIdx.Pairwise (fun a b => a.1 < b.1) := by
      rw [List.pairwise_iff_getElem]
      intro i j hi hj hij
      simp only [List.getElem_zipIdx]
      have hp := List.pairwise_iff_getElem.1 h1
      exact hp i j (by simpa using hi) (by simpa using hj) hij
    rw [List.pairwise_map]
    unfold commonVisits
    apply List.Pairwise.filterMap _ _ hz
    intro a a' haa' b hb b' hb'
    by_cases hm : a.1 ∈ l2
    · by_cases hm' : a'.1 ∈ l2
      · simp only [hm, hm', if_true, Option.some.injEq] at hb hb'
        subst hb; subst hb'; exact haa'
      · simp [hm'] at hb'
    · simp [hm] at hb

example : StrictAsc [1, 3, 5, 8] ∧ StrictAsc [0, 3, 4, 8] ∧
    commonVisits [1, 3, 5, 8] [0, 3, 4, 8] 0 0 = [(3, 1, 1), (8, 3, 3)] := by
  refine ⟨?_, ?_, ?_⟩ <;> decide

/-! ## C52 strings -/

/-- C52. Joining the parts returned by the split restores the string, no part contains the
separator, and there is always at least one part.  (These determine the split uniquely.) -/
theorem splitSString_spec (s : List Char) (d : Char) :
    joinWith d (splitSString s d) = s ∧ (∀ p ∈ splitSString s d, d ∉ p) ∧ splitSString s d ≠ [] := by
  refine ⟨by simpa [splitSString] using splitGo_join d s [], splitGo_no_delim d s [] (by simp), splitGo_ne_nil d s []⟩

/-- C52. The clean variant returns exactly the non-empty parts, in order. -/
theorem splitSStringClean_spec (d : Char) (l : List (List Char)) (hl : l ≠ []) (h : ∀ p ∈ l, d ∉ p) :
    splitSStringClean (joinWith d l) d = l.filter (fun p => decide (p ≠ [])) := by
  unfold splitSStringClean
  rw [splitSString_unique d l hl h]
  apply List.filter_congr
  intro x _
  cases x <;> simp

/-- C52. The suffix test is exact. -/
theorem sstringHasSuffix_spec (s t : List Char) :
    sstringHasSuffix s t = true ↔ ∃ p, s = p ++ t := by
  unfold sstringHasSuffix
  by_cases h : s.length < t.length
  · simp only [h, if_true]
    constructor
    · intro h; cases h
    · rintro ⟨p, rfl⟩; simp at h; omega
  · simp only [h, if_false, decide_eq_true_eq]
    have hl : (s.drop (s.length - t.length)).take t.length = s.drop (s.length - t.length) := by
      apply List.take_of_length_le; simp; omega
    rw [hl]
    constructor
    · intro he
      refine ⟨s.take (s.length - t.length), ?_⟩
      conv => lhs; rw [← List.take_append_drop (s.length - t.length) s]
      rw [he]
    · rintro ⟨p, rfl⟩; simp

example : splitSString "a//b".toList '/' = ["a".toList, [], "b".toList] := by decide
example : splitSStringClean "/a//b".toList '/' = ["a".toList, "b".toList] := by decide
example : sstringHasSuffix "mesh.cgns".toList ".cgns".toList = true := by decide

/-! ## hash -/

/-- The vector hash is invariant under permutation of the elements: it is order-insensitive, so it
can only separate vectors as multisets (equal vectors hash equal in particular). -/
theorem hashVec_perm {α : Type} (h : α → BitVec 64) (u v : List α) (hp : u.Perm v) :
    hashVec h u = hashVec h v := by
  unfold hashVec
  apply List.Perm.foldl_eq' hp
  intro x _ y _ z
  rw [BitVec.xor_assoc, BitVec.xor_assoc, BitVec.xor_comm (h x)]

end DNDSR.Defines
