import Verif.Proof.DirectLU

/-!
# Lemmas for the block LDLT factorization
-/

namespace DNDSR.Direct

open DNDSR.IMap DNDSR.Defines

section
set_option linter.unusedSectionVars false
variable {R : Type} [Ring R]

theorem IsTranspose.zero {tr : R → R} (h : IsTranspose tr) : tr 0 = 0 := by
  have := h.add 0 0
  rw [add_zero] at this
  exact left_eq_add.1 this

theorem IsTranspose.neg {tr : R → R} (h : IsTranspose tr) (a : R) : tr (-a) = -tr a := by
  have := h.add a (-a)
  rw [add_neg_cancel, h.zero] at this
  exact (neg_eq_of_add_eq_zero_right this.symm).symm

theorem IsTranspose.sub {tr : R → R} (h : IsTranspose tr) (a b : R) : tr (a - b) = tr a - tr b := by
  rw [sub_eq_add_neg, h.add, h.neg, ← sub_eq_add_neg]

theorem IsTranspose.sum {tr : R → R} (h : IsTranspose tr) (s : Finset Nat) (f : Nat → R) :
    tr (∑ k ∈ s, f k) = ∑ k ∈ s, tr (f k) := by
  classical
  induction s using Finset.induction_on with
  | empty => simp [h.zero]
  | insert a s ha ih => rw [Finset.sum_insert ha, Finset.sum_insert ha, h.add, ih]

/-- `∑ k, L i k * v k * (L j k)ᵀ` -/
def qsum (tr : R → R) (S : LUStruct) (B B' : Blocks R) (v : Nat → R) (i j : Nat) : R :=
  ∑ k ∈ Finset.range S.n, lowBlock S B i k * v (rename S.n2o k) * tr (lowBlock S B' j k)

variable {tr : R → R} (ht : IsTranspose tr) {S : LUStruct} (h : WF S)
include h ht

theorem common_qsum (B B' : Blocks R) (v : Nat → R) {i j : Nat} (hi : i < S.n) :
    (((rowOf S.low i).filter (fun x => decide (x ∈ rowOf S.low j))).map
      (fun k => lowBlock S B i k * v (rename S.n2o k) * tr (lowBlock S B' j k))).sum = qsum tr S B B' v i j := by
  rw [list_sum_range _ ((nodup_of_sorted (h.lowSorted i hi)).filter _) S.n
    (fun x hx => (h.low_lt hi (List.mem_filter.1 hx).1).2), qsum]
  apply Finset.sum_congr rfl
  intro k _
  split
  · rfl
  · next hn =>
    rw [List.mem_filter, not_and_or] at hn
    rcases hn with hn | hn
    · rw [lowBlock_zero B hn, zero_mul, zero_mul]
    · rw [lowBlock_zero B' (fun hc => hn (by simpa using hc)), ht.zero, mul_zero]

theorem row_qsum (B B' : Blocks R) (v : Nat → R) {i : Nat} (hi : i < S.n) :
    ((rowOf S.low i).map (fun k => lowBlock S B i k * v (rename S.n2o k) * tr (lowBlock S B' i k))).sum = qsum tr S B B' v i i := by
  rw [list_sum_range _ (nodup_of_sorted (h.lowSorted i hi)) S.n (fun x hx => (h.low_lt hi hx).2), qsum]
  apply Finset.sum_congr rfl
  intro k _
  split
  · rfl
  · next hn => rw [lowBlock_zero B hn, zero_mul, zero_mul]

theorem ldlt_common (B : Blocks R) (v : Nat → R) {i t j : Nat} (hi : i < S.n) (hp : (rowOf S.low i)[t]? = some j) :
    common (fun kP => decide (kP > (j : Int) - 1)) (ldltBody tr S v (rename S.n2o i) (rename S.n2o j) t) (rowOf S.low i)
      (rowOf S.low j) B = .ok (B.setLower (rename S.n2o i) t (B.lower (rename S.n2o i) t - qsum tr S B B v i j)) := by
  have hjm := List.mem_of_getElem? hp
  obtain ⟨hji, hj⟩ := h.low_lt hi hjm
  rw [common_eq _ _ _ _ _ (h.lowSorted i hi) (h.lowSorted j hj) (by
    intro x _ hx
    have := (h.low_lt hj hx).1
    simp only [decide_eq_false_iff_not]; omega)]
  rw [← common_qsum ht h B B v hi, ← visits_sum]
  have := foldRes_acc (fun s (w : Int × Nat × Nat) => ldltBody tr S v (rename S.n2o i) (rename S.n2o j) t w.1 w.2.1 w.2.2 s)
    (fun x => B.setLower (rename S.n2o i) t x)
    (fun w => lowBlock S B i w.1.toNat * v (rename S.n2o w.1.toNat) * tr (lowBlock S B j w.1.toNat))
    (commonVisits ((rowOf S.low i).map Int.ofNat) ((rowOf S.low j).map Int.ofNat) 0 0) (by
      intro w hw x
      obtain ⟨k, e, h1, h2⟩ := visit_mem (h.lowSorted i hi) (h.lowSorted j hj) hw
      have hkj := (h.low_lt hj (List.mem_of_getElem? h2)).1
      have hk : k < S.n := by omega
      have hpt : w.2.1 ≠ t := by
        intro e'; rw [e', hp] at h1; simp at h1; omega
      have hne : rename S.n2o j ≠ rename S.n2o i := fun hc => by
        have := h.perm.inj j hj i hi hc; omega
      rw [e, Int.toNat_natCast, lowBlock_get h B hi h1, lowBlock_get h B hj h2]
      simp only [ldltBody]
      rw [Res.assert_true _ (by omega), Res.ok_bind, Int.toNat_natCast, h.perm.app k hk, Res.ok_bind, setLower_set]
      simp only [Blocks.setLower, upd_self, upd_ne _ _ hpt, upd_ne _ _ hne]) (B.lower (rename S.n2o i) t)
  rw [setLower_eq] at this
  exact this

theorem qsum_first (B B' : Blocks R) (v : Nat → R) {i j : Nat} (hi : i < S.n) (hp : (rowOf S.low i)[0]? = some j) :
    qsum tr S B B' v i j = 0 := by
  obtain ⟨hji, hj⟩ := h.low_lt hi (List.mem_of_getElem? hp)
  rw [← common_qsum ht h B B' v hi]
  have : (rowOf S.low i).filter (fun x => decide (x ∈ rowOf S.low j)) = [] := by
    rw [List.filter_eq_nil_iff]
    intro x hx
    simp only [decide_eq_true_eq]
    intro hc
    have h1 := (h.low_lt hj hc).1
    obtain ⟨p, hp', e⟩ := List.mem_iff_getElem.1 hx
    obtain ⟨h0, e0⟩ := List.getElem?_eq_some_iff.1 hp
    rcases Nat.eq_zero_or_pos p with rfl | hpos
    · omega
    · have := List.pairwise_iff_getElem.1 (h.lowSorted i hi) 0 p h0 hp' hpos
      omega
  rw [this]; rfl

theorem ldltLower_eq (B : Blocks R) (v : Nat → R) {i t j : Nat} (hi : i < S.n) (hp : (rowOf S.low i)[t]? = some j) :
    ldltLower tr S v i (rename S.n2o i) (rowOf S.low i) B (j, t) =
      .ok (B.setLower (rename S.n2o i) t ((B.lower (rename S.n2o i) t - qsum tr S B B v i j) * diagBlock S B j)) := by
  obtain ⟨hji, hj⟩ := h.low_lt hi (List.mem_of_getElem? hp)
  simp only [ldltLower]
  rw [Res.assert_true _ hji, Res.ok_bind, h.perm.app j hj, Res.ok_bind]
  by_cases h0 : t > 0
  · rw [if_pos h0, h.low_idx hj, Res.ok_bind, ldlt_common ht h B v hi hp, Res.ok_bind, setLower_set]
    simp only [Blocks.setLower, upd_self, diagBlock]
  · have : t = 0 := by omega
    subst this
    rw [if_neg h0, Res.ok_bind, qsum_first ht h B B v hi hp, sub_zero]
    rfl

/-- the state of row `i` when `t` of its lower entries are done -/
structure QInv (tr : R → R) (S : LUStruct) (B0 : Blocks R) (v : Nat → R) (i t : Nat) (B : Blocks R) : Prop where
  diag : B.diag = B0.diag
  dec : B.decomposed = B0.decomposed
  other : ∀ r, r ≠ rename S.n2o i → B.lower r = B0.lower r
  rest : ∀ p, t ≤ p → B.lower (rename S.n2o i) p = B0.lower (rename S.n2o i) p
  done : ∀ p j, p < t → (rowOf S.low i)[p]? = some j →
    B.lower (rename S.n2o i) p = (B0.lower (rename S.n2o i) p - qsum tr S B B v i j) * diagBlock S B0 j

theorem qsum_setLower (B : Blocks R) (v : Nat → R) {i t jt j : Nat} (x : R) (hi : i < S.n) (hp : (rowOf S.low i)[t]? = some jt)
    (hj : j ≤ jt) (hji : j < i) :
    qsum tr S (B.setLower (rename S.n2o i) t x) (B.setLower (rename S.n2o i) t x) v i j = qsum tr S B B v i j := by
  unfold qsum
  apply Finset.sum_congr rfl
  intro k hk
  have hk := Finset.mem_range.1 hk
  have hne : rename S.n2o j ≠ rename S.n2o i := fun hc => by
    have := h.perm.inj j (by omega) i hi hc; omega
  have e : lowBlock S (B.setLower (rename S.n2o i) t x) j k = lowBlock S B j k := by
    simp only [lowBlock, Blocks.setLower, upd_ne _ _ hne]
  rw [e]
  by_cases hkm : k ∈ rowOf S.low i
  · obtain ⟨p, hp', e⟩ := List.mem_iff_getElem.1 hkm
    have hpk : (rowOf S.low i)[p]? = some k := by rw [List.getElem?_eq_getElem hp', e]
    by_cases hpt : p = t
    · subst hpt
      have : jt = k := by rw [hp] at hpk; exact Option.some.inj hpk
      subst this
      rw [lowBlock_zero (i := j) (j := jt) B (fun hc => by have := (h.low_lt (by omega) hc).1; omega), ht.zero, mul_zero, mul_zero]
    · rw [lowBlock_get h _ hi hpk, lowBlock_get h _ hi hpk]
      simp only [Blocks.setLower, upd_self, upd_ne _ _ hpt]
  · rw [lowBlock_zero _ hkm, lowBlock_zero _ hkm]

theorem ldlt_lower_loop (B0 : Blocks R) (v : Nat → R) {i : Nat} (hi : i < S.n) :
    ∃ B, foldRes (ldltLower tr S v i (rename S.n2o i) (rowOf S.low i)) B0 (rowOf S.low i).zipIdx = .ok B ∧
      QInv tr S B0 v i (rowOf S.low i).length B := by
  have := foldRes_total (ldltLower tr S v i (rename S.n2o i) (rowOf S.low i)) (QInv tr S B0 v i) (rowOf S.low i).zipIdx B0
    ⟨rfl, rfl, fun _ _ => rfl, fun _ _ => rfl, fun p j hp => by omega⟩ (by
      rintro t ⟨j, t'⟩ B he hB
      obtain ⟨hp0, e⟩ := zipIdx_get _ _ _ he
      simp only at hp0 e
      subst e
      refine ⟨_, ldltLower_eq ht h B v hi hp0, hB.diag, hB.dec, ?_, ?_, ?_⟩
      · intro r hr
        simp only [Blocks.setLower, upd_ne _ _ hr]; exact hB.other r hr
      · intro p hp
        simp only [Blocks.setLower, upd_self]
        rw [upd_ne _ _ (by omega)]; exact hB.rest p (by omega)
      · intro p jp hp hpj
        have hle : jp ≤ j := by
          obtain ⟨a1, a2⟩ := List.getElem?_eq_some_iff.1 hpj
          obtain ⟨b1, b2⟩ := List.getElem?_eq_some_iff.1 hp0
          rcases Nat.lt_or_eq_of_le (Nat.lt_succ_iff.1 hp) with hlt | rfl
          · have := List.pairwise_iff_getElem.1 (h.lowSorted i hi) p t' a1 b1 hlt; omega
          · omega
        rw [qsum_setLower ht h _ _ _ hi hp0 hle (h.low_lt hi (List.mem_of_getElem? hpj)).1]
        by_cases hpt : p = t'
        · subst hpt
          have : j = jp := by rw [hp0] at hpj; exact Option.some.inj hpj
          subst this
          simp only [Blocks.setLower, upd_self]
          rw [hB.rest p (Nat.le_refl _), diagBlock, diagBlock, hB.diag]
        · simp only [Blocks.setLower, upd_self]
          rw [upd_ne _ _ hpt]
          exact hB.done p jp (by omega) hpj)
  rwa [List.length_zipIdx] at this

theorem ldlt_diag_loop (B : Blocks R) (v : Nat → R) {i : Nat} (hi : i < S.n) :
    foldRes (ldltDiag tr S v (rename S.n2o i)) B (rowOf S.low i).zipIdx =
      .ok (B.setDiag (rename S.n2o i) (diagBlock S B i - qsum tr S B B v i i)) := by
  have := foldRes_acc (ldltDiag tr S v (rename S.n2o i)) (fun x => B.setDiag (rename S.n2o i) x)
    (fun e => (fun (x : Nat) (_ : Nat) => lowBlock S B i x * v (rename S.n2o x) * tr (lowBlock S B i x)) e.1 e.2)
    (rowOf S.low i).zipIdx (by
      rintro ⟨k, p⟩ hv x
      obtain ⟨t, ht'⟩ := List.mem_iff_getElem?.1 hv
      obtain ⟨h1, e⟩ := zipIdx_get _ _ _ ht'
      simp only at h1 e
      subst e
      obtain ⟨hki, hk⟩ := h.low_lt hi (List.mem_of_getElem? h1)
      simp only [ldltDiag]
      rw [lowBlock_get h B hi h1, h.perm.app k hk, Res.ok_bind, setDiag_set]
      simp only [Blocks.setDiag, upd_self]) (B.diag (rename S.n2o i))
  rw [setDiag_eq, zipIdx_map_idxOf _ (nodup_of_sorted (h.lowSorted i hi))
    (fun x _ => lowBlock S B i x * v (rename S.n2o x) * tr (lowBlock S B i x)), row_qsum ht h B B v hi] at this
  exact this

/-- the equations row `i` of the factors satisfies -/
structure QRow (inv : R → Option R) (tr : R → R) (S : LUStruct) (B0 B : Blocks R) (v : Nat → R) (i : Nat) : Prop where
  low : ∀ j ∈ rowOf S.low i, lowBlock S B i j = (lowBlock S B0 i j - qsum tr S B B v i j) * diagBlock S B j
  piv : v (rename S.n2o i) = diagBlock S B0 i - qsum tr S B B v i i
  diag : inv (v (rename S.n2o i)) = some (diagBlock S B i)

/-- the state when `t` rows are done -/
structure QAll (inv : R → Option R) (tr : R → R) (S : LUStruct) (B0 : Blocks R) (t : Nat) (st : Blocks R × (Nat → R)) : Prop where
  dec : st.1.decomposed = B0.decomposed
  restD : ∀ i < S.n, t ≤ i → diagBlock S st.1 i = diagBlock S B0 i
  restL : ∀ i < S.n, t ≤ i → lowBlock S st.1 i = lowBlock S B0 i
  done : ∀ i < S.n, i < t → QRow inv tr S B0 st.1 st.2 i

theorem qsum_congr (B B' C C' : Blocks R) (v v' : Nat → R) {i j : Nat} (hi : i < S.n)
    (h1 : lowBlock S B i = lowBlock S C i) (h2 : lowBlock S B' j = lowBlock S C' j)
    (h3 : ∀ k < i, v (rename S.n2o k) = v' (rename S.n2o k)) : qsum tr S B B' v i j = qsum tr S C C' v' i j := by
  unfold qsum
  apply Finset.sum_congr rfl
  intro k _
  by_cases hk : k ∈ rowOf S.low i
  · rw [h1, h2, h3 k (h.low_lt hi hk).1]
  · rw [lowBlock_zero _ hk, lowBlock_zero _ hk]; simp only [zero_mul]

/-- the state in which row `i` stops -/
def QStop (inv : R → Option R) (tr : R → R) (S : LUStruct) (B0 : Blocks R) (v : Nat → R) (i : Nat) : Prop :=
  ∃ X : Blocks R, (∀ k < S.n, k ≠ i → lowBlock S X k = lowBlock S B0 k) ∧
    (∀ j ∈ rowOf S.low i, lowBlock S X i j = (lowBlock S B0 i j - qsum tr S X X v i j) * diagBlock S B0 j) ∧
    inv (diagBlock S B0 i - qsum tr S X X v i i) = none

theorem ldltRow_eq (inv : R → Option R) (B0 : Blocks R) (st : Blocks R × (Nat → R)) {i : Nat} (hi : i < S.n)
    (hst : QAll inv tr S B0 i st) :
    ldltRow inv tr S st i ≠ .ub ∧ (∀ st', ldltRow inv tr S st i = .ok st' → QAll inv tr S B0 (i + 1) st' ∧
      ∀ k < i, lowBlock S st'.1 k = lowBlock S st.1 k ∧ st'.2 (rename S.n2o k) = st.2 (rename S.n2o k)) ∧
      (ldltRow inv tr S st i = .abort → QStop inv tr S st.1 st.2 i) := by
  obtain ⟨B, v⟩ := st
  obtain ⟨B1, e1, l1⟩ := ldlt_lower_loop ht h B v hi
  simp only [ldltRow, h.perm.app i hi, Res.ok_bind, h.low_idx hi, e1, ldlt_diag_loop ht h B1 v hi]
  generalize hB2 : B1.setDiag (rename S.n2o i) (diagBlock S B1 i - qsum tr S B1 B1 v i i) = B2
  have hd2 : B2.diag (rename S.n2o i) = diagBlock S B1 i - qsum tr S B1 B1 v i i := by
    rw [← hB2]; simp only [Blocks.setDiag, upd_self]
  cases hinv : inv (B2.diag (rename S.n2o i)) with
  | none =>
    refine ⟨by simp, fun B hB => by simp at hB, fun _ => ⟨B1, ?_, ?_, ?_⟩⟩
    · intro k hk hki
      funext j
      simp only [lowBlock, l1.other _ (fun hc => hki (h.perm.inj k hk i hi hc))]
    · intro j hj
      obtain ⟨p, hp, e⟩ := List.mem_iff_getElem.1 hj
      have hpj : (rowOf S.low i)[p]? = some j := by rw [List.getElem?_eq_getElem hp, e]
      rw [lowBlock_get h _ hi hpj, lowBlock_get h _ hi hpj]
      exact l1.done p j hp hpj
    · rw [hd2, diagBlock, l1.diag] at hinv
      exact hinv
  | some w =>
    refine ⟨by simp, fun st' hst' => ?_, fun hB => by simp at hB⟩
    simp only [Res.ok.injEq] at hst'
    subst hst'
    have hne : ∀ k < S.n, k ≠ i → rename S.n2o k ≠ rename S.n2o i := fun k hk hki hc => hki (h.perm.inj k hk i hi hc)
    have fd : ∀ k < S.n, k ≠ i → diagBlock S (B2.setDiag (rename S.n2o i) w) k = diagBlock S B k := fun k hk hki => by
      rw [← hB2]
      simp only [diagBlock, Blocks.setDiag, upd_ne _ _ (hne k hk hki), l1.diag]
    have fl : ∀ k < S.n, k ≠ i → lowBlock S (B2.setDiag (rename S.n2o i) w) k = lowBlock S B k := fun k hk hki => by
      rw [← hB2]
      funext j
      simp only [lowBlock, Blocks.setDiag, l1.other _ (hne k hk hki)]
    have fli : lowBlock S (B2.setDiag (rename S.n2o i) w) = lowBlock S B1 := by rw [← hB2]; rfl
    have hv2 : ∀ k < S.n, k ≠ i → upd v (rename S.n2o i) (B2.diag (rename S.n2o i)) (rename S.n2o k) = v (rename S.n2o k) :=
      fun k hk hki => upd_ne _ _ (hne k hk hki)
    refine ⟨⟨?_, ?_, ?_, ?_⟩, fun k hk => ⟨fl k (by omega) (by omega), hv2 k (by omega) (by omega)⟩⟩
    · have : (B2.setDiag (rename S.n2o i) w).decomposed = B1.decomposed := by rw [← hB2]; rfl
      rw [this, l1.dec]; exact hst.dec
    · intro k hk hki; rw [fd k hk (by omega)]; exact hst.restD k hk (by omega)
    · intro k hk hki; rw [fl k hk (by omega)]; exact hst.restL k hk (by omega)
    · intro k hk hki
      by_cases hc : k = i
      · subst hc
        have hq : ∀ j, qsum tr S B1 B1 v k j = qsum tr S (B2.setDiag (rename S.n2o k) w) (B2.setDiag (rename S.n2o k) w)
            (upd v (rename S.n2o k) (B2.diag (rename S.n2o k))) k j := fun j =>
          qsum_congr ht h _ _ _ _ _ _ hk (by rw [fli]) (by rw [fli]) (fun m hm => (hv2 m (by omega) (by omega)).symm)
        have hd1 : diagBlock S B1 k = diagBlock S B0 k := by
          rw [diagBlock, l1.diag]; exact hst.restD k hk (Nat.le_refl _)
        refine ⟨?_, ?_, ?_⟩
        · intro j hj
          have hjk := (h.low_lt hk hj).1
          obtain ⟨p, hp, e⟩ := List.mem_iff_getElem.1 hj
          have hpj : (rowOf S.low k)[p]? = some j := by rw [List.getElem?_eq_getElem hp, e]
          simp only
          rw [fd j (by omega) (by omega), ← hq, ← hst.restL k hk (Nat.le_refl _), fli, lowBlock_get h _ hk hpj,
            lowBlock_get h _ hk hpj]
          exact l1.done p j hp hpj
        · simp only [upd_self]
          rw [← hq, hd2, hd1]
        · simp only [upd_self, diagBlock, Blocks.setDiag]
          exact hinv
      · have hlt : k < i := by omega
        have hd := hst.done k hk hlt
        have hq : ∀ j < S.n, j ≤ k → qsum tr S B B v k j = qsum tr S (B2.setDiag (rename S.n2o i) w)
            (B2.setDiag (rename S.n2o i) w) (upd v (rename S.n2o i) (B2.diag (rename S.n2o i))) k j := fun j hj hjk =>
          qsum_congr ht h _ _ _ _ _ _ hk (fl k hk hc).symm (fl j hj (by omega)).symm
            (fun m hm => (hv2 m (by omega) (by omega)).symm)
        refine ⟨?_, ?_, ?_⟩
        · intro j hj
          have hjk := (h.low_lt hk hj).1
          simp only
          rw [fl k hk hc, fd j (by omega) (by omega), ← hq j (by omega) (by omega)]
          exact hd.low j hj
        · simp only
          rw [hv2 k hk hc, ← hq k hk (Nat.le_refl _)]; exact hd.piv
        · simp only
          rw [hv2 k hk hc, fd k hk hc]; exact hd.diag

theorem ldlt_spec (inv : R → Option R) (B0 : Blocks R) (junk : Nat → R) :
    ldltDecompose inv tr S B0 junk ≠ .ub ∧ ∀ B, ldltDecompose inv tr S B0 junk = .ok B →
      B.decomposed = true ∧ ∃ v, ∀ i < S.n, QRow inv tr S B0 B v i := by
  have h0 : QAll inv tr S B0 0 (B0, junk) := ⟨rfl, fun _ _ _ => rfl, fun _ _ _ => rfl, fun i _ hi => by omega⟩
  constructor
  · intro hc
    simp only [ldltDecompose, Res.bind_ub_iff] at hc
    rcases hc with hc | ⟨B, _, hc⟩
    · refine foldRes_ne_ub _ (QAll inv tr S B0) _ _ h0 ?_ hc
      intro t x a hx ha
      obtain ⟨rfl, ht'⟩ := range_get h hx
      obtain ⟨r1, r2, _⟩ := ldltRow_eq ht h inv B0 a ht' ha
      exact ⟨r1, fun b hb => (r2 b hb).1⟩
    · cases hc
  · intro B hB
    simp only [ldltDecompose, Res.bind_ok_iff, Res.ok.injEq] at hB
    obtain ⟨st, h1, rfl⟩ := hB
    have := foldRes_ok _ (QAll inv tr S B0) _ _ st h0 (by
      intro t x a b hx ha hb
      obtain ⟨rfl, ht'⟩ := range_get h hx
      exact ((ldltRow_eq ht h inv B0 a ht' ha).2.1 b hb).1) h1
    rw [List.length_range] at this
    refine ⟨rfl, st.2, fun i hi => ?_⟩
    exact ⟨(this.done i hi hi).low, (this.done i hi hi).piv, (this.done i hi hi).diag⟩

/-! ### a matrix with a factorization is factorized -/

theorem q_expand (n : Nat) (lo : Nat → Nat → R) (v : Nat → R) {i j : Nat} (hi : i < n) (hj : j < n) (hji : j ≤ i)
    (hl : ∀ i < n, ∀ k, i ≤ k → lo i k = 0) :
    (∑ k ∈ Finset.range n, (if i = k then 1 else lo i k) * v k * (if j = k then 1 else tr (lo j k))) =
      (∑ k ∈ Finset.range n, lo i k * v k * tr (lo j k)) + (if i = j then v i else lo i j * v j) := by
  have h1 : ∀ k ∈ Finset.range n, (if i = k then 1 else lo i k) * v k * (if j = k then 1 else tr (lo j k)) =
      lo i k * v k * tr (lo j k) + (if k = j then (if i = j then v i else lo i j * v j) else 0) := by
    intro k hk
    have hk := Finset.mem_range.1 hk
    by_cases h1 : i = k
    · subst h1
      rw [if_pos rfl, hl i hk i (Nat.le_refl _), zero_mul, zero_mul, zero_add, one_mul]
      by_cases h2 : j = i
      · subst h2; simp
      · rw [if_neg h2, if_neg (Ne.symm h2), hl j hj i hji, ht.zero, mul_zero]
    · rw [if_neg h1]
      by_cases h2 : j = k
      · subst h2
        rw [if_pos rfl, if_pos rfl, if_neg h1, hl j hj j (Nat.le_refl _), ht.zero, mul_zero, zero_add, mul_one]
      · rw [if_neg h2, if_neg (Ne.symm h2), add_zero]
  rw [Finset.sum_congr rfl h1, Finset.sum_add_distrib, Finset.sum_ite_eq', if_pos (Finset.mem_range.2 hj)]

theorem ldlt_total {inv : R → Option R} (hinv : Inverts inv) {B0 : Blocks R} (junk : Nat → R) {lo : Nat → Nat → R} {v : Nat → R}
    (hf : HasLDLT inv tr S B0 lo v) : ∃ B, ldltDecompose inv tr S B0 junk = .ok B := by
  have hz : ∀ i < S.n, ∀ k, i ≤ k → lo i k = 0 := fun i hi k hk =>
    hf.low i hi k (fun hc => by have := (h.low_lt hi hc).1; omega)
  have hnl : ∀ i < S.n, ∀ j, i ≤ j → ∀ B : Blocks R, lowBlock S B i j = 0 := fun i hi j hij B =>
    lowBlock_zero B (fun hc => by have := (h.low_lt hi hc).1; omega)
  obtain ⟨st, h1, _⟩ := foldRes_total (ldltRow inv tr S)
    (fun t st => QAll inv tr S B0 t st ∧ ∀ i < S.n, i < t → lowBlock S st.1 i = lo i ∧ st.2 (rename S.n2o i) = v i)
    (List.range S.n) (B0, junk)
    ⟨⟨rfl, fun _ _ _ => rfl, fun _ _ _ => rfl, fun i _ hi => by omega⟩, fun i _ hi => by omega⟩ (by
      rintro t x st hx ⟨hB, hdone⟩
      obtain ⟨rfl, htn⟩ := range_get h hx
      obtain ⟨h1, h2, h3⟩ := ldltRow_eq ht h inv B0 st htn hB
      -- the lower row is the one of the given factorization
      have hun : ∀ (X : Blocks R) (u : Nat → R) (d : Nat → R), (∀ k < x, lowBlock S X k = lo k) → (∀ k < x, u (rename S.n2o k) = v k) →
          (∀ k < x, inv (v k) = some (d k)) →
          (∀ j ∈ rowOf S.low x, lowBlock S X x j = (lowBlock S B0 x j - qsum tr S X X u x j) * d j) →
          (∀ j, lowBlock S X x j = lo x j) ∧ diagBlock S B0 x - qsum tr S X X u x x = v x := by
        intro X u d hk hu hd hX
        have hq : ∀ j, (∀ k < j, lowBlock S X x k = lo x k) → j ≤ x → (j = x ∨ lowBlock S X j = lo j) →
            qsum tr S X X u x j = ∑ k ∈ Finset.range S.n, lo x k * v k * tr (lo j k) := by
          intro j hj hjx hjr
          unfold qsum
          apply Finset.sum_congr rfl
          intro k hkn
          have hkn := Finset.mem_range.1 hkn
          by_cases hkj : k < j
          · rw [hj k hkj, hu k (by omega)]
            rcases hjr with rfl | hjr
            · rw [hj k hkj]
            · rw [hjr]
          · rw [hnl j (by omega) k (by omega), hz j (by omega) k (by omega), ht.zero, mul_zero, mul_zero]
        have hlow : ∀ j, lowBlock S X x j = lo x j := by
          intro j
          induction j using Nat.strongRecOn with
          | _ j ih =>
            by_cases hj : j ∈ rowOf S.low x
            · obtain ⟨hji, hjn⟩ := h.low_lt htn hj
              have hp := hf.prod x htn j hjn (by omega) (Or.inr (Or.inl hj))
              rw [q_expand ht h S.n lo v htn hjn (by omega) hz, if_neg (by omega), symBlock, if_neg (by omega),
                hnl j hjn x (by omega), ht.zero, add_zero] at hp
              rw [hX j hj, hq j ih (by omega) (Or.inr (hk j hji)), ← hp, add_sub_cancel_left, mul_assoc,
                (hinv _ _ (hd j hji)).1, mul_one]
            · rw [lowBlock_zero X hj, hf.low x htn j hj]
        refine ⟨hlow, ?_⟩
        have hp := hf.prod x htn x htn (Nat.le_refl _) (Or.inl rfl)
        rw [q_expand ht h S.n lo v htn htn (Nat.le_refl _) hz, if_pos rfl, symBlock, if_pos rfl] at hp
        rw [hq x (fun k _ => hlow k) (Nat.le_refl _) (Or.inl rfl), ← hp, add_sub_cancel_left]
      have hd : ∀ k < x, inv (v k) = some (diagBlock S st.1 k) := fun k hk => by
        rw [← (hdone k (by omega) hk).2]; exact (hB.done k (by omega) hk).diag
      cases hr : ldltRow inv tr S st x with
      | ub => exact absurd hr h1
      | abort =>
        obtain ⟨X, x1, x2, x3⟩ := h3 hr
        have := (hun X st.2 (diagBlock S st.1) (fun k hk => (x1 k (by omega) (by omega)).trans (hdone k (by omega) hk).1)
          (fun k hk => (hdone k (by omega) hk).2) hd (fun j hj => by
            rw [← hB.restL x htn (Nat.le_refl _)]; exact x2 j hj)).2
        rw [hB.restD x htn (Nat.le_refl _), this] at x3
        exact absurd x3 (hf.piv x htn)
      | ok st' =>
        obtain ⟨q1, q2⟩ := h2 st' hr
        refine ⟨st', rfl, q1, ?_⟩
        have hrow := q1.done x htn (by omega)
        have := hun st'.1 st'.2 (diagBlock S st'.1) (fun k hk => (q2 k hk).1.trans (hdone k (by omega) hk).1)
          (fun k hk => (q2 k hk).2.trans (hdone k (by omega) hk).2) (fun k hk => by
            have := (q1.done k (by omega) (by omega)).diag
            rwa [(q2 k hk).2, (hdone k (by omega) hk).2] at this) hrow.low
        intro i hi hix
        by_cases hc : i = x
        · subst hc
          exact ⟨funext this.1, by rw [hrow.piv, this.2]⟩
        · exact ⟨(q2 i (by omega)).1.trans (hdone i hi (by omega)).1, (q2 i (by omega)).2.trans (hdone i hi (by omega)).2⟩)
  exact ⟨_, by rw [ldltDecompose, h1, Res.ok_bind]⟩

/-! ### the symmetric matrix -/

theorem pivot_sym (inv : R → Option R) (B0 B : Blocks R) (v : Nat → R) (hsym : ∀ i < S.n, tr (diagBlock S B0 i) = diagBlock S B0 i)
    (hr : ∀ i < S.n, QRow inv tr S B0 B v i) : ∀ i < S.n, tr (v (rename S.n2o i)) = v (rename S.n2o i) := by
  intro i
  induction i using Nat.strongRecOn with
  | _ i ih =>
    intro hi
    rw [(hr i hi).piv, ht.sub, hsym i hi]
    congr 1
    unfold qsum
    rw [ht.sum]
    apply Finset.sum_congr rfl
    intro k hk
    by_cases hkm : k ∈ rowOf S.low i
    · have := h.low_lt hi hkm
      rw [ht.mul, ht.mul, ht.inv, ih k this.1 this.2, mul_assoc]
    · rw [lowBlock_zero B hkm]; simp only [ht.zero, zero_mul, mul_zero]

/-- the product of the factors is the matrix -/
theorem ldlt_product (inv : R → Option R) (hinv : Inverts inv) (hc : Closed S) (B0 B : Blocks R) (v : Nat → R)
    (hsym : ∀ i < S.n, tr (diagBlock S B0 i) = diagBlock S B0 i) (hr : ∀ i < S.n, QRow inv tr S B0 B v i)
    {i j : Nat} (hi : i < S.n) (hj : j < S.n) :
    symBlock tr S B0 i j = (∑ k ∈ Finset.range S.n, lowBlock S B i k * (v (rename S.n2o k) * tr (lowBlock S B j k))) +
      lowBlock S B i j * v (rename S.n2o j) + v (rename S.n2o i) * tr (lowBlock S B j i) +
        (if i = j then v (rename S.n2o i) else 0) := by
  have hps := pivot_sym ht h inv B0 B v hsym hr
  have hq : (∑ k ∈ Finset.range S.n, lowBlock S B i k * (v (rename S.n2o k) * tr (lowBlock S B j k))) = qsum tr S B B v i j := by
    unfold qsum; apply Finset.sum_congr rfl; intro k _; rw [mul_assoc]
  have hqt : ∀ i j, tr (qsum tr S B B v i j) = qsum tr S B B v j i := by
    intro i j
    unfold qsum
    rw [ht.sum]
    apply Finset.sum_congr rfl
    intro k hk
    rw [ht.mul, ht.mul, ht.inv, hps k (Finset.mem_range.1 hk), mul_assoc]
  have hlow : ∀ i < S.n, ∀ j < S.n, j < i → lowBlock S B0 i j = qsum tr S B B v i j + lowBlock S B i j * v (rename S.n2o j) := by
    intro i hi j hj hji
    by_cases hm : j ∈ rowOf S.low i
    · rw [(hr i hi).low j hm, mul_assoc, (hinv _ _ (hr j hj).diag).2, mul_one]; abel
    · rw [lowBlock_zero _ hm, lowBlock_zero _ hm, zero_mul, add_zero]
      unfold qsum
      symm
      apply Finset.sum_eq_zero
      intro k hk
      have hk := Finset.mem_range.1 hk
      by_cases h1 : k ∈ rowOf S.low i
      · by_cases h2 : k ∈ rowOf S.low j
        · exfalso
          have h3 := (h.transposed i hi k hk).1 h1
          have h4 := (h.transposed j hj k hk).1 h2
          exact hm ((h.transposed i hi j hj).2 (hc k hk j h4 i h3 hji))
        · rw [lowBlock_zero (i := j) B h2, ht.zero, mul_zero]
      · rw [lowBlock_zero B h1]; simp only [zero_mul]
  have hnl : ∀ i < S.n, ∀ j, i ≤ j → ∀ B : Blocks R, lowBlock S B i j = 0 := fun i hi j hij B =>
    lowBlock_zero B (fun hc => by have := (h.low_lt hi hc).1; omega)
  rw [hq, symBlock]
  rcases Nat.lt_trichotomy i j with hlt | rfl | hgt
  · rw [if_neg (by omega), if_neg (by omega), hnl i hi j (by omega), hnl i hi j (by omega), hlow j hj i hi hlt, ht.add, hqt, ht.mul,
      hps i hi]
    noncomm_ring
  · rw [if_pos rfl, if_pos rfl, hnl i hi i (Nat.le_refl _), ht.zero]
    have := (hr i hi).piv
    rw [this]; noncomm_ring
  · rw [if_neg (by omega), if_neg (by omega), hnl j hj i (by omega), hnl j hj i (by omega), ht.zero, hlow i hi j hj hgt]
    noncomm_ring

variable {M : Type} [AddCommGroup M] [Module R M]

omit h ht in
theorem scatter_eq (f : Nat → R) (row : List (Nat × Nat)) (x : M) (y : Nat → M) (c : Nat) :
    (row.foldl (fun result e => upd result e.1 (result e.1 + f e.2 • x)) y) c =
      y c + (row.map (fun e => if e.1 = c then f e.2 • x else 0)).sum := by
  induction row generalizing y with
  | nil => simp
  | cons e es ih =>
    rw [List.foldl_cons, ih, List.map_cons, List.sum_cons, ← add_assoc]
    congr 1
    by_cases hc : e.1 = c
    · rw [← hc, upd_self, if_pos rfl]
    · rw [upd_ne _ _ (Ne.symm hc), if_neg hc, add_zero]

/-- a sum over the columns of the transpose -/
theorem scatter_sum (B : Blocks R) (z : M) {i c : Nat} (hi : i < S.n) (hcn : c < S.n) :
    ((((rowOf S.low i).map (rename S.n2o)).zipIdx).map (fun e => if e.1 = rename S.n2o c then tr (B.lower (rename S.n2o i) e.2) • z else 0)).sum =
      tr (lowBlock S B i c) • z := by
  have hs := nodup_of_sorted (h.lowSorted i hi)
  have h1 : (((rowOf S.low i).map (rename S.n2o)).zipIdx).map (fun e => if e.1 = rename S.n2o c then tr (B.lower (rename S.n2o i) e.2) • z else 0) =
      (rowOf S.low i).zipIdx.map (fun e => if rename S.n2o e.1 = rename S.n2o c then tr (B.lower (rename S.n2o i) e.2) • z else 0) := by
    rw [List.zipIdx_map, List.map_map]; rfl
  rw [h1, zipIdx_map_idxOf _ hs (fun x p => if rename S.n2o x = rename S.n2o c then tr (B.lower (rename S.n2o i) p) • z else 0),
    list_sum_range _ hs S.n (fun j hj => (h.low_lt hi hj).2)]
  have h2 : ∀ k ∈ Finset.range S.n, (if k ∈ rowOf S.low i then (if rename S.n2o k = rename S.n2o c then
      tr (B.lower (rename S.n2o i) ((rowOf S.low i).idxOf k)) • z else 0) else 0) = if k = c then tr (lowBlock S B i c) • z else 0 := by
    intro k hk
    by_cases hkc : k = c
    · subst hkc
      rw [if_pos rfl, if_pos rfl, lowBlock]
      split
      · rfl
      · rw [ht.zero, zero_smul]
    · rw [if_neg hkc, if_neg (fun e => hkc (h.perm.inj k (Finset.mem_range.1 hk) c hcn e))]
      split <;> rfl
  rw [Finset.sum_congr rfl h2, Finset.sum_ite_eq', if_pos (Finset.mem_range.2 hcn)]

/-- a sum over old rows is a sum over new rows -/
theorem sum_old_new (f : Nat → M) : (∑ i ∈ Finset.range S.n, f i) = ∑ i ∈ Finset.range S.n, f (rename S.n2o i) := by
  symm
  apply Finset.sum_bij (fun i _ => rename S.n2o i)
  · intro i hi; exact Finset.mem_range.2 (h.perm.lt i (Finset.mem_range.1 hi))
  · intro i hi j hj e; exact h.perm.inj i (Finset.mem_range.1 hi) j (Finset.mem_range.1 hj) e
  · intro v hv
    obtain ⟨i, hi, e⟩ := h.perm.surj v (Finset.mem_range.1 hv)
    exact ⟨i, Finset.mem_range.2 hi, e⟩
  · intro i _; rfl

theorem ldltMatMul_spec (B : Blocks R) (hd : B.decomposed = false) (x r0 : Nat → M) :
    ∃ r, ldltMatMul tr S B x r0 = .ok r ∧
      ∀ i < S.n, r (rename S.n2o i) = ∑ j ∈ Finset.range S.n, symBlock tr S B i j • x (rename S.n2o j) := by
  have first := foldRes_total (fun (result : Nat → M) i => do
      let lo ← idx S.lowOld i
      Res.ok (upd result i (addRow (B.lower i) lo x (B.diag i • x i))))
    (fun t r => ∀ i < S.n, rename S.n2o i < t → r (rename S.n2o i) = diagBlock S B i • x (rename S.n2o i) +
      ∑ j ∈ Finset.range S.n, lowBlock S B i j • x (rename S.n2o j))
    (List.range S.n) r0 (fun _ _ hc => by omega) (by
      intro t v a hx ha
      obtain ⟨rfl, ht'⟩ := range_get h hx
      obtain ⟨i, hi, e⟩ := h.perm.surj v ht'
      subst e
      rw [lowOld_idx h hi, Res.ok_bind]
      refine ⟨_, rfl, ?_⟩
      intro i' hi' hlt
      by_cases hc : rename S.n2o i' = rename S.n2o i
      · have := h.perm.inj i' hi' i hi hc
        subst this
        rw [upd_self, addRow_eq, low_row_sum h B x hi]
        rfl
      · rw [upd_ne _ _ hc]
        exact ha i' hi' (by omega))
  obtain ⟨y, h1, h2⟩ := first
  rw [List.length_range] at h2
  have h2' : ∀ i < S.n, y (rename S.n2o i) = diagBlock S B i • x (rename S.n2o i) +
      ∑ j ∈ Finset.range S.n, lowBlock S B i j • x (rename S.n2o j) := fun i hi => h2 i hi (h.perm.lt i hi)
  -- what the rows before `t` scatter into column `c`
  have second := foldRes_total (fun (result : Nat → M) i => do
      let lo ← idx S.lowOld i
      Res.ok (lo.zipIdx.foldl (fun result e => upd result e.1 (result e.1 + tr (B.lower i e.2) • x i)) result))
    (fun t r => ∀ c < S.n, r (rename S.n2o c) = y (rename S.n2o c) + ∑ v ∈ Finset.range t,
      (match S.lowOld[v]? with
        | some row => (row.zipIdx.map (fun e => if e.1 = rename S.n2o c then tr (B.lower v e.2) • x v else 0)).sum
        | none => 0))
    (List.range S.n) y (fun c _ => by simp) (by
      intro t v a hx ha
      obtain ⟨rfl, ht'⟩ := range_get h hx
      obtain ⟨i, hi, e⟩ := h.perm.surj v ht'
      have hrow : S.lowOld[v]? = some ((rowOf S.low i).map (rename S.n2o)) := by rw [← e]; exact h.lowOld i hi
      rw [idx, hrow]
      refine ⟨_, rfl, ?_⟩
      intro c hc
      rw [scatter_eq (fun p => tr (B.lower v p)), ha c hc, Finset.sum_range_succ, hrow, add_assoc])
  obtain ⟨r, h3, h4⟩ := second
  rw [List.length_range] at h4
  refine ⟨r, ?_, ?_⟩
  · rw [ldltMatMul, Res.assert_true _ (by simp [hd]), Res.ok_bind, h1, Res.ok_bind]; exact h3
  · intro c hc
    rw [h4 c hc, h2' c hc, sum_old_new ht h (fun v => (match S.lowOld[v]? with
        | some row => (row.zipIdx.map (fun (e : Nat × Nat) => if e.1 = rename S.n2o c then tr (B.lower v e.2) • x v else 0)).sum
        | none => 0 : M))]
    have h5 : ∀ i ∈ Finset.range S.n, (match S.lowOld[rename S.n2o i]? with
        | some row => (row.zipIdx.map (fun e => if e.1 = rename S.n2o c then tr (B.lower (rename S.n2o i) e.2) • x (rename S.n2o i) else 0)).sum
        | none => 0) = tr (lowBlock S B i c) • x (rename S.n2o i) := by
      intro i hi
      have hi := Finset.mem_range.1 hi
      rw [h.lowOld i hi]
      exact scatter_sum ht h B _ hi hc
    rw [Finset.sum_congr rfl h5]
    have hm : ∀ j ∈ Finset.range S.n, symBlock tr S B c j • x (rename S.n2o j) =
        (if j = c then diagBlock S B c • x (rename S.n2o j) else 0) + lowBlock S B c j • x (rename S.n2o j) +
          tr (lowBlock S B j c) • x (rename S.n2o j) := by
      intro j _
      unfold symBlock
      by_cases hij : c = j
      · subst hij
        rw [if_pos rfl, if_pos rfl, lowBlock_self h B hc, ht.zero, zero_smul]; simp
      · rw [if_neg hij, if_neg (Ne.symm hij), add_smul, zero_add]
    rw [Finset.sum_congr rfl hm, Finset.sum_add_distrib, Finset.sum_add_distrib, Finset.sum_ite_eq',
      if_pos (Finset.mem_range.2 hc)]

theorem upp_low_sum (B : Blocks R) (z : Nat → M) {i : Nat} (hi : i < S.n) :
    ((rowOf S.upp i).map (fun j => tr (lowBlock S B j i) • z (rename S.n2o j))).sum =
      ∑ j ∈ Finset.range S.n, tr (lowBlock S B j i) • z (rename S.n2o j) := by
  rw [list_sum_range _ (nodup_of_sorted (h.uppSorted i hi)) S.n (fun j hj => (h.uppAbove i hi j hj).2)]
  apply Finset.sum_congr rfl
  intro j hj
  split
  · rfl
  · next hn =>
    rw [lowBlock_zero B (fun hc => hn ((h.transposed j (Finset.mem_range.1 hj) i hi).1 hc)), ht.zero, zero_smul]

theorem ldltSolve_spec (B : Blocks R) (hd : B.decomposed = true) (b r0 : Nat → M) :
    ∃ x y : Nat → M, ldltSolve tr S B b r0 = .ok x ∧
      (∀ i < S.n, y (rename S.n2o i) = b (rename S.n2o i) - ∑ k ∈ Finset.range S.n, lowBlock S B i k • y (rename S.n2o k)) ∧
      (∀ i < S.n, x (rename S.n2o i) = diagBlock S B i • y (rename S.n2o i) -
        ∑ k ∈ Finset.range S.n, tr (lowBlock S B k i) • x (rename S.n2o k)) := by
  obtain ⟨y, h1, h2⟩ := forward_spec h B b r0
  have mid := foldRes_total (fun (result : Nat → M) i => Res.ok (upd result i (B.diag i • result i)))
    (fun t z => ∀ i < S.n, z (rename S.n2o i) = if rename S.n2o i < t then diagBlock S B i • y (rename S.n2o i) else y (rename S.n2o i))
    (List.range S.n) y (fun i _ => by simp) (by
      intro t v a hx ha
      obtain ⟨rfl, ht'⟩ := range_get h hx
      refine ⟨_, rfl, ?_⟩
      intro i hi
      by_cases hc : rename S.n2o i = v
      · rw [hc, upd_self, if_pos (by omega)]
        have := ha i hi
        rw [hc, if_neg (by omega)] at this
        rw [this, diagBlock, hc]
      · rw [upd_ne _ _ hc, ha i hi]
        by_cases hl : rename S.n2o i < v
        · rw [if_pos hl, if_pos (by omega)]
        · rw [if_neg hl, if_neg (by omega)])
  obtain ⟨z, h3, h4⟩ := mid
  rw [List.length_range] at h4
  have h4' : ∀ i < S.n, z (rename S.n2o i) = diagBlock S B i • y (rename S.n2o i) := fun i hi => by
    rw [h4 i hi, if_pos (h.perm.lt i hi)]
  have last := foldRes_total (fun (result : Nat → M) iP => do
      let i ← reorder S.n2o iP
      let row ← idx S.upp iP
      foldRes (ldltBack tr S B iP i) result row.zipIdx)
    (fun t x => (∀ i < S.n, i + t < S.n → x (rename S.n2o i) = z (rename S.n2o i)) ∧
      ∀ i < S.n, S.n ≤ i + t → x (rename S.n2o i) = z (rename S.n2o i) -
        ∑ k ∈ Finset.range S.n, tr (lowBlock S B k i) • x (rename S.n2o k))
    (List.range S.n).reverse z ⟨fun _ _ _ => rfl, fun _ _ hc => by omega⟩ (by
      intro t v a hx ha
      obtain ⟨hv, ht'⟩ := rev_range_get h hx
      have hvn : v < S.n := by omega
      rw [h.perm.app v hvn, Res.ok_bind, h.upp_idx hvn, Res.ok_bind]
      have hne : ∀ k < S.n, k ≠ v → rename S.n2o k ≠ rename S.n2o v := fun k hk hkv hc => hkv (h.perm.inj k hk v hvn hc)
      have hrow : foldRes (ldltBack tr S B v (rename S.n2o v)) a (rowOf S.upp v).zipIdx =
          .ok (upd a (rename S.n2o v) (a (rename S.n2o v) - ∑ j ∈ Finset.range S.n, tr (lowBlock S B j v) • a (rename S.n2o j))) := by
        have := foldRes_acc (ldltBack tr S B v (rename S.n2o v)) (fun w => upd a (rename S.n2o v) w)
          (fun e => (fun (j : Nat) (_ : Nat) => tr (lowBlock S B j v) • a (rename S.n2o j)) e.1 e.2) (rowOf S.upp v).zipIdx (by
            rintro ⟨j, p⟩ he w
            obtain ⟨q, hq⟩ := List.mem_iff_getElem?.1 he
            obtain ⟨g1, e⟩ := zipIdx_get _ _ _ hq
            simp only at g1 e
            subst e
            obtain ⟨hvj, hj⟩ := h.uppAbove v hvn j (List.mem_of_getElem? g1)
            obtain ⟨r, c1, c2, c3⟩ := h.uppCross v hvn
            obtain ⟨q, c4, c5⟩ := c3 p j g1
            simp only [ldltBack]
            rw [h.perm.app j hj, Res.ok_bind]
            have i1 : idx S.uppInLow v = .ok r := by rw [idx, c1]
            have i2 : idx r p = .ok (q : Int) := by rw [idx, c4]
            rw [i1, Res.ok_bind, i2, Res.ok_bind, Res.assert_true _ (by omega), Res.ok_bind, if_neg (by omega),
              Int.toNat_natCast, upd_self, upd_upd, upd_ne _ _ (hne j hj (by omega)), lowBlock_get h B hj c5])
          (a (rename S.n2o v))
        rw [upd_eq, zipIdx_map_idxOf _ (nodup_of_sorted (h.uppSorted v hvn))
          (fun j _ => tr (lowBlock S B j v) • a (rename S.n2o j)), upp_low_sum ht h B a hvn] at this
        exact this
      rw [hrow]
      refine ⟨_, rfl, ?_⟩
      have hsum : ∀ (z z' : Nat → M) (i : Nat), i < S.n → (∀ k < S.n, i < k → z (rename S.n2o k) = z' (rename S.n2o k)) →
          (∑ k ∈ Finset.range S.n, tr (lowBlock S B k i) • z (rename S.n2o k)) =
            ∑ k ∈ Finset.range S.n, tr (lowBlock S B k i) • z' (rename S.n2o k) := by
        intro z z' i hi hz
        apply Finset.sum_congr rfl
        intro k hk
        have hk := Finset.mem_range.1 hk
        by_cases hm : i ∈ rowOf S.low k
        · rw [hz k hk (h.low_lt hk hm).1]
        · rw [lowBlock_zero B hm, ht.zero, zero_smul, zero_smul]
      refine ⟨?_, ?_⟩
      · intro i hi hit
        rw [upd_ne _ _ (hne i hi (by omega))]
        exact ha.1 i hi (by omega)
      · intro i hi hit
        by_cases hc : i = v
        · subst hc
          rw [upd_self, ha.1 i hi (by omega)]
          congr 1
          apply hsum _ _ _ hi
          intro k hk hik
          rw [upd_ne _ _ (hne k hk (by omega))]
        · rw [upd_ne _ _ (hne i hi hc), ha.2 i hi (by omega)]
          congr 1
          apply hsum _ _ _ hi
          intro k hk hik
          rw [upd_ne _ _ (hne k hk (by omega))])
  obtain ⟨x, h5, _, h6⟩ := last
  refine ⟨x, y, ?_, h2, fun i hi => ?_⟩
  · rw [ldltSolve, Res.assert_true _ hd, Res.ok_bind, h1, Res.ok_bind, h3, Res.ok_bind]
    exact h5
  · rw [h6 i hi (by rw [List.length_reverse, List.length_range]; omega), h4' i hi]

end

end DNDSR.Direct
