import Verif.Proof.Bits

/-!
# C21 periodic marks, C50 bit fields and matrix batches
-/

namespace DNDSR.Bits

/-! ### C21 -/

/-- C21. Marks form a commutative group under xor with every mark its own inverse. -/
theorem marks_xor_group (a b c : Mark) :
    mxor (mxor a b) c = mxor a (mxor b c) ∧ mxor a b = mxor b a ∧ mxor a 0#8 = a ∧ mxor a a = 0#8 := by
  unfold mxor
  exact ⟨BitVec.xor_assoc a b c, BitVec.xor_comm a b, BitVec.xor_zero, BitVec.xor_self⟩

/-- C21. Reading a flag is reading the bit of the mark; setting one sets it and leaves all other bits. -/
theorem marks_set_get (v : Mark) :
    (getP1 v = v.getLsbD 0 ∧ getP2 v = v.getLsbD 1 ∧ getP3 v = v.getLsbD 2) ∧
    (∀ i, i < 8 → (setP1True v).getLsbD i = if i = 0 then true else v.getLsbD i) ∧
    (∀ i, i < 8 → (setP2True v).getLsbD i = if i = 1 then true else v.getLsbD i) ∧
    (∀ i, i < 8 → (setP3True v).getLsbD i = if i = 2 then true else v.getLsbD i) := by
  refine ⟨⟨getP1_eq v, getP2_eq v, getP3_eq v⟩, ?_, ?_, ?_⟩
  · intro i _
    unfold setP1True
    rw [BitVec.getLsbD_or, mask1]
    by_cases h : i = 0 <;> simp [h]
  · intro i _
    unfold setP2True
    rw [BitVec.getLsbD_or, mask2]
    by_cases h : i = 1 <;> simp [h]
  · intro i _
    unfold setP3True
    rw [BitVec.getLsbD_or, mask4]
    by_cases h : i = 2 <;> simp [h]

/-- C21. The flags of a xor are the exclusive or of the flags, of an and the conjunction. -/
theorem marks_flags (a b : Mark) :
    (getP1 (mxor a b) = (getP1 a ^^ getP1 b) ∧ getP2 (mxor a b) = (getP2 a ^^ getP2 b) ∧
      getP3 (mxor a b) = (getP3 a ^^ getP3 b)) ∧
    (getP1 (mand a b) = (getP1 a && getP1 b) ∧ getP2 (mand a b) = (getP2 a && getP2 b) ∧
      getP3 (mand a b) = (getP3 a && getP3 b)) := by
  simp [getP1_eq, getP2_eq, getP3_eq, mxor, mand]

/-- C21. Two rows of marks are collaborative exactly when one mark maps every entry of one to the entry of the
other; rows of different lengths abort. -/
theorem collaborative_iff (a b : List Mark) :
    (a.length ≠ b.length → isCollaborative a b = .abort) ∧
    (a.length = b.length → ∃ r, isCollaborative a b = .ok r ∧
      (r = true ↔ ∃ v : Mark, ∀ (i : Nat) (x y : Mark), a[i]? = some x → b[i]? = some y → y = x ^^^ v)) := by
  have flip : ∀ x y v : Mark, x ^^^ y = v ↔ y = x ^^^ v := by
    intro x y v
    constructor
    · intro h; rw [← h, ← BitVec.xor_assoc, BitVec.xor_self, BitVec.zero_xor]
    · intro h; rw [h, ← BitVec.xor_assoc, BitVec.xor_self, BitVec.zero_xor]
  constructor
  · intro h
    unfold isCollaborative
    simp only [Res.assert, if_neg h, Res.abort_bind]
  · intro h
    unfold isCollaborative
    rw [Res.assert_true _ h, Res.ok_bind]
    match a, b, h with
    | [], [], _ => exact ⟨true, rfl, by simp⟩
    | x :: xs, y :: ys, h =>
      refine ⟨_, rfl, ?_⟩
      rw [collabLoop_iff _ _ _ (by simpa using h)]
      constructor
      · intro H
        refine ⟨mxor x y, ?_⟩
        intro i x' y' h1 h2
        rw [← flip]
        match i with
        | 0 => simp at h1 h2; subst h1; subst h2; rfl
        | i + 1 => exact H i x' y' (by simpa using h1) (by simpa using h2)
      · rintro ⟨v, H⟩ i x' y' h1 h2
        have h0 := (flip _ _ _).2 (H 0 x y rfl rfl)
        rw [mxor, h0]
        exact (flip _ _ _).2 (H (i + 1) x' y' (by simpa using h1) (by simpa using h2))

/-- C21. The reduction of a row has a flag exactly when all entries have it, and no other bits. -/
theorem bitandReduce_spec (row : List Mark) (i : Nat) :
    (bitandReduce row).getLsbD i = true ↔ i < 3 ∧ ∀ v ∈ row, v.getLsbD i = true := by
  have gen : ∀ (row : List Mark) (acc : Mark), (row.foldl mand acc).getLsbD i = true ↔
      acc.getLsbD i = true ∧ ∀ v ∈ row, v.getLsbD i = true := by
    intro row
    induction row with
    | nil => simp
    | cons v row ih =>
      intro acc
      rw [List.foldl_cons, ih, mand, BitVec.getLsbD_and, Bool.and_eq_true]
      simp only [List.mem_cons, forall_eq_or_imp]
      exact and_assoc
  unfold bitandReduce
  rw [gen]
  have : (setP3True (setP2True (setP1True 0x00#8))).getLsbD i = true ↔ i < 3 := by
    match i with
    | 0 | 1 | 2 | 3 | 4 | 5 | 6 | 7 => decide
    | i + 8 => simp
  rw [this]

example : isCollaborative [1#8, 3#8] [2#8, 0#8] = .ok true ∧ isCollaborative [1#8, 3#8] [2#8, 1#8] = .ok false := by
  decide
example : bitandReduce [3#8, 7#8, 2#8] = 2#8 ∧ bitandReduce [] = 7#8 := by decide

/-! ### C50 -/

theorem field_bit (d : Word) (lo w i : Nat) : (field d lo w).testBit i = (decide (i < w) && d.getLsbD (lo + i)) := by
  unfold field
  rw [Nat.testBit_mod_two_pow, Nat.testBit_div_two_pow, BitVec.testBit_toNat, Nat.add_comm i lo]

/-- C50. Each getter returns its bits of the word as a number. -/
theorem get_is_field (d : Word) :
    (getM d).toNat = field d 0 32 ∧ (getN d).toNat = field d 32 32 ∧
    (getA d).toNat = field d 0 16 ∧ (getB d).toNat = field d 16 16 ∧
    (getC d).toNat = field d 32 16 ∧ (getD d).toNat = field d 48 16 := by
  refine ⟨?_, ?_, ?_, ?_, ?_, ?_⟩ <;>
    (apply Nat.eq_of_testBit_eq; intro i; rw [BitVec.testBit_toNat, field_bit]) <;>
    simp only [getM_bit, getN_bit, getA_bit, getB_bit, getC_bit, getD_bit, Nat.zero_add]

/-- C50. Pair of 32-bit fields: what is written is read, the other half is untouched. -/
theorem pair_fields (d : Word) (v : BitVec 32) :
    getM (setM d v) = v ∧ getN (setM d v) = getN d ∧ getN (setN d v) = v ∧ getM (setN d v) = getM d := by
  refine ⟨?_, ?_, ?_, ?_⟩ <;> (apply eq_of_bits; intro i hi) <;>
    simp only [getM_bit, getN_bit, decide_eq_true hi, Bool.true_and]
  · rw [setM_bit _ _ _ (by omega), if_pos hi]
  · rw [setM_bit _ _ _ (by omega), if_neg (by omega)]
  · rw [setN_bit _ _ _ (by omega), if_neg (by omega)]; congr 1; omega
  · rw [setN_bit _ _ _ (by omega), if_pos hi]

/-- C50. Four 16-bit fields: what is written is read, the other three are untouched. -/
theorem quad_fields (d : Word) (v : BitVec 16) :
    (getA (setA d v) = v ∧ getB (setA d v) = getB d ∧ getC (setA d v) = getC d ∧ getD (setA d v) = getD d) ∧
    (getA (setB d v) = getA d ∧ getB (setB d v) = v ∧ getC (setB d v) = getC d ∧ getD (setB d v) = getD d) ∧
    (getA (setC d v) = getA d ∧ getB (setC d v) = getB d ∧ getC (setC d v) = v ∧ getD (setC d v) = getD d) ∧
    (getA (setD d v) = getA d ∧ getB (setD d v) = getB d ∧ getC (setD d v) = getC d ∧ getD (setD d v) = v) := by
  refine ⟨⟨?_, ?_, ?_, ?_⟩, ⟨?_, ?_, ?_, ?_⟩, ⟨?_, ?_, ?_, ?_⟩, ⟨?_, ?_, ?_, ?_⟩⟩ <;>
    (apply eq_of_bits; intro i hi) <;>
    simp only [getA_bit, getB_bit, getC_bit, getD_bit, decide_eq_true hi, Bool.true_and]
  · rw [setA_bit _ _ _ (by omega), if_pos (by omega)]
  · rw [setA_bit _ _ _ (by omega), if_neg (by omega)]
  · rw [setA_bit _ _ _ (by omega), if_neg (by omega)]
  · rw [setA_bit _ _ _ (by omega), if_neg (by omega)]
  · rw [setB_bit _ _ _ (by omega), if_neg (by omega)]
  · rw [setB_bit _ _ _ (by omega), if_pos (by omega)]; congr 1; omega
  · rw [setB_bit _ _ _ (by omega), if_neg (by omega)]
  · rw [setB_bit _ _ _ (by omega), if_neg (by omega)]
  · rw [setC_bit _ _ _ (by omega), if_neg (by omega)]
  · rw [setC_bit _ _ _ (by omega), if_neg (by omega)]
  · rw [setC_bit _ _ _ (by omega), if_pos (by omega)]; congr 1; omega
  · rw [setC_bit _ _ _ (by omega), if_neg (by omega)]
  · rw [setD_bit _ _ _ (by omega), if_neg (by omega)]
  · rw [setD_bit _ _ _ (by omega), if_neg (by omega)]
  · rw [setD_bit _ _ _ (by omega), if_neg (by omega)]
  · rw [setD_bit _ _ _ (by omega), if_pos (by omega)]; congr 1; omega

/-- C50. Compressing matrices into a buffer with any previous content, and reading: matrix `k` comes back with its
dimensions and coefficients, anything beyond the last matrix aborts, and the call succeeds exactly when the buffer
is large enough and the sizes are within the stated limits. -/
theorem batch_roundtrip (buf : List Word) (ms : List Mat) (hwf : ∀ m ∈ ms, WF m) :
    ((∃ b, compressIn buf ms = .ok b) ↔
      ms.length < rowsizeMax ∧ (∀ m ∈ ms, m.rows < 65535 ∧ m.cols < 65535) ∧
      (ms ≠ [] → ms.length + 1 + total ms < rowsizeMax) ∧ ms.length + 1 + total ms ≤ buf.length) ∧
    ∀ b, compressIn buf ms = .ok b → b.length = buf.length ∧
      (∀ (k : Nat) (m : Mat), ms[k]? = some m → readMat b k = .ok m) ∧
      (∀ k, ms.length ≤ k → readMat b k = .abort) := by
  have main : (ms.length < rowsizeMax ∧ (∀ m ∈ ms, m.rows < 65535 ∧ m.cols < 65535) ∧
      (ms ≠ [] → ms.length + 1 + total ms < rowsizeMax) ∧ ms.length + 1 + total ms ≤ buf.length) →
      ∃ b, compressIn buf ms = .ok b ∧ b.length = buf.length ∧
        (∀ (k : Nat) (m : Mat), ms[k]? = some m → readMat b k = .ok m) ∧
        (∀ k, ms.length ≤ k → readMat b k = .abort) := by
    rintro ⟨h1, h2, h3, h4⟩
    have hb : getBufSize ms = .ok (ms.length + 1 + total ms) := by
      unfold getBufSize
      rw [Res.assert_true _ h1, Res.ok_bind]
      exact (bufSizeLoop_ok_iff ms _ _).2 ⟨rfl, h2, h3⟩
    unfold compressIn
    rw [hb, Res.ok_bind, Res.assert_true _ h4, Res.ok_bind]
    unfold rowsizeMax at h1 h3
    have hn64 : ms.length < 2 ^ 64 := by omega
    have ho : (BitVec.ofNat 32 (BitVec.ofNat 64 ms.length).toNat + 1 : BitVec 32).toNat = ms.length + 1 := by
      rw [BitVec.toNat_add, BitVec.toNat_ofNat, BitVec.toNat_ofNat, Nat.mod_eq_of_lt hn64]
      show (ms.length % 2 ^ 32 + 1 % 2 ^ 32) % 2 ^ 32 = _
      omega
    have htot : ms = [] → total ms = 0 := fun h => by subst h; rfl
    have hlim : ms.length + 1 + total ms ≤ rowsizeMax := by
      unfold rowsizeMax
      by_cases hm : ms = []
      · have := htot hm; omega
      · have := h3 hm; omega
    have h0 : (buf.set 0 (BitVec.ofNat 64 ms.length))[0]? = some (BitVec.ofNat 64 ms.length) :=
      List.getElem?_set_self (by omega)
    obtain ⟨b, e, l, b0, _, _, _, hk⟩ := compressLoop_spec ms (buf.set 0 (BitVec.ofNat 64 ms.length)) 0
      (BitVec.ofNat 32 (BitVec.ofNat 64 ms.length).toNat + 1) ms.length hwf h2 (by omega)
      (by rw [List.length_set]; omega) (by omega) (by omega) hn64 h0
    refine ⟨b, e, by rw [l, List.length_set], ?_, ?_⟩
    · intro k m hm
      have := hk k m hm
      rwa [Nat.zero_add] at this
    · intro k hk
      unfold readMat view
      rw [batchSize_ok b _ b0, Res.ok_bind]
      have : ¬ (k < (BitVec.ofNat 64 ms.length).toNat) := by
        rw [BitVec.toNat_ofNat, Nat.mod_eq_of_lt hn64]; omega
      simp only [Res.assert, if_neg this, Res.abort_bind]
  have conv : (∃ b, compressIn buf ms = .ok b) → ms.length < rowsizeMax ∧
      (∀ m ∈ ms, m.rows < 65535 ∧ m.cols < 65535) ∧
      (ms ≠ [] → ms.length + 1 + total ms < rowsizeMax) ∧ ms.length + 1 + total ms ≤ buf.length := by
    rintro ⟨b, hb⟩
    unfold compressIn at hb
    obtain ⟨n, hn, hb⟩ := (Res.bind_ok_iff _ _ _).1 hb
    unfold getBufSize at hn
    obtain ⟨_, h1, hn⟩ := (Res.bind_ok_iff _ _ _).1 hn
    rw [Res.assert_ok_iff] at h1
    obtain ⟨e, h2, h3⟩ := (bufSizeLoop_ok_iff ms _ _).1 hn
    obtain ⟨_, h4, _⟩ := (Res.bind_ok_iff _ _ _).1 hb
    rw [Res.assert_ok_iff] at h4
    exact ⟨h1, h2, h3, by omega⟩
  refine ⟨⟨conv, fun h => ?_⟩, ?_⟩
  · obtain ⟨b, hb, _⟩ := main h
    exact ⟨b, hb⟩
  · intro b hb
    obtain ⟨b', hb', h⟩ := main (conv ⟨b, hb⟩)
    rw [hb] at hb'
    injection hb' with hb'
    subst hb'
    exact h

/-- a batch of a 2×1 and a 1×1 matrix in a buffer with previous content -/
example : ∃ b, compressIn (List.replicate 6 0xDEADBEEFDEADBEEF#64) [⟨2, 1, [5#64, 6#64]⟩, ⟨1, 1, [7#64]⟩] = .ok b ∧
    readMat b 1 = .ok ⟨1, 1, [7#64]⟩ ∧ readMat b 2 = .abort := by
  have hwf : ∀ m ∈ [(⟨2, 1, [5#64, 6#64]⟩ : Mat), ⟨1, 1, [7#64]⟩], WF m := by unfold WF; decide
  obtain ⟨h1, h2⟩ := batch_roundtrip (List.replicate 6 0xDEADBEEFDEADBEEF#64) _ hwf
  obtain ⟨b, hb⟩ := h1.2 (by decide)
  obtain ⟨_, h3, h4⟩ := h2 b hb
  exact ⟨b, hb, h3 1 _ rfl, h4 2 (by decide)⟩

end DNDSR.Bits
