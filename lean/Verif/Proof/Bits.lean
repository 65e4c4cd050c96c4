import Verif.Spec.Bits

namespace DNDSR.Bits

/-! ### the masks, bit by bit -/

theorem mask_lo32 (i : Nat) : (0x00000000FFFFFFFF#64).getLsbD i = decide (i < 32) := by
  have e : 0x00000000FFFFFFFF#64 = (BitVec.allOnes 32).setWidth 64 := by decide
  rw [e, Bool.eq_iff_iff]
  simp only [BitVec.getLsbD_setWidth, BitVec.getLsbD_allOnes, BitVec.getLsbD_shiftLeft, Bool.and_eq_true,
    decide_eq_true_eq, Bool.not_eq_true', decide_eq_false_iff_not]
  omega

theorem mask_hi32 (i : Nat) : (0xFFFFFFFF00000000#64).getLsbD i = decide (32 ≤ i ∧ i < 64) := by
  have e : 0xFFFFFFFF00000000#64 = (BitVec.allOnes 32).setWidth 64 <<< 32 := by decide
  rw [e, Bool.eq_iff_iff]
  simp only [BitVec.getLsbD_setWidth, BitVec.getLsbD_allOnes, BitVec.getLsbD_shiftLeft, Bool.and_eq_true,
    decide_eq_true_eq, Bool.not_eq_true', decide_eq_false_iff_not]
  omega

theorem mask_a (i : Nat) : (0x000000000000FFFF#64).getLsbD i = decide (i < 16) := by
  have e : 0x000000000000FFFF#64 = (BitVec.allOnes 16).setWidth 64 := by decide
  rw [e, Bool.eq_iff_iff]
  simp only [BitVec.getLsbD_setWidth, BitVec.getLsbD_allOnes, BitVec.getLsbD_shiftLeft, Bool.and_eq_true,
    decide_eq_true_eq, Bool.not_eq_true', decide_eq_false_iff_not]
  omega

theorem mask_b (i : Nat) : (0x00000000FFFF0000#64).getLsbD i = decide (16 ≤ i ∧ i < 32) := by
  have e : 0x00000000FFFF0000#64 = (BitVec.allOnes 16).setWidth 64 <<< 16 := by decide
  rw [e, Bool.eq_iff_iff]
  simp only [BitVec.getLsbD_setWidth, BitVec.getLsbD_allOnes, BitVec.getLsbD_shiftLeft, Bool.and_eq_true,
    decide_eq_true_eq, Bool.not_eq_true', decide_eq_false_iff_not]
  omega

theorem mask_c (i : Nat) : (0x0000FFFF00000000#64).getLsbD i = decide (32 ≤ i ∧ i < 48) := by
  have e : 0x0000FFFF00000000#64 = (BitVec.allOnes 16).setWidth 64 <<< 32 := by decide
  rw [e, Bool.eq_iff_iff]
  simp only [BitVec.getLsbD_setWidth, BitVec.getLsbD_allOnes, BitVec.getLsbD_shiftLeft, Bool.and_eq_true,
    decide_eq_true_eq, Bool.not_eq_true', decide_eq_false_iff_not]
  omega

theorem mask_d (i : Nat) : (0xFFFF000000000000#64).getLsbD i = decide (48 ≤ i ∧ i < 64) := by
  have e : 0xFFFF000000000000#64 = (BitVec.allOnes 16).setWidth 64 <<< 48 := by decide
  rw [e, Bool.eq_iff_iff]
  simp only [BitVec.getLsbD_setWidth, BitVec.getLsbD_allOnes, BitVec.getLsbD_shiftLeft, Bool.and_eq_true,
    decide_eq_true_eq, Bool.not_eq_true', decide_eq_false_iff_not]
  omega

/-! ### each accessor, bit by bit -/

theorem getM_bit (d : Word) (i : Nat) : (getM d).getLsbD i = (decide (i < 32) && d.getLsbD i) := by
  unfold getM
  rw [BitVec.getLsbD_setWidth, BitVec.getLsbD_and, mask_lo32]
  by_cases h : i < 32 <;> simp [h]

theorem getN_bit (d : Word) (i : Nat) : (getN d).getLsbD i = (decide (i < 32) && d.getLsbD (32 + i)) := by
  unfold getN
  rw [BitVec.getLsbD_setWidth, BitVec.getLsbD_ushiftRight]

theorem setM_bit (d : Word) (v : BitVec 32) (i : Nat) (hi : i < 64) :
    (setM d v).getLsbD i = if i < 32 then v.getLsbD i else d.getLsbD i := by
  unfold setM
  rw [BitVec.getLsbD_or, BitVec.getLsbD_and, mask_hi32, BitVec.getLsbD_setWidth]
  by_cases h : i < 32
  · have h' : ¬ (32 ≤ i ∧ i < 64) := by omega
    rw [decide_eq_false h', if_pos h, decide_eq_true hi]; simp
  · have h' : 32 ≤ i ∧ i < 64 := by omega
    have : v.getLsbD i = false := BitVec.getLsbD_of_ge v i (by omega)
    simp [h, h', this]

theorem setN_bit (d : Word) (v : BitVec 32) (i : Nat) (hi : i < 64) :
    (setN d v).getLsbD i = if i < 32 then d.getLsbD i else v.getLsbD (i - 32) := by
  unfold setN
  rw [BitVec.getLsbD_or, BitVec.getLsbD_and, mask_lo32, BitVec.getLsbD_shiftLeft, BitVec.getLsbD_setWidth]
  by_cases h : i < 32
  · simp [h]
  · have h2 : i - 32 < 64 := by omega
    simp [h, hi, h2]

theorem getA_bit (d : Word) (i : Nat) : (getA d).getLsbD i = (decide (i < 16) && d.getLsbD i) := by
  unfold getA
  rw [BitVec.getLsbD_setWidth, BitVec.getLsbD_ushiftRight, BitVec.getLsbD_and, mask_a]
  by_cases h : i < 16 <;> simp [h]

theorem getB_bit (d : Word) (i : Nat) : (getB d).getLsbD i = (decide (i < 16) && d.getLsbD (16 + i)) := by
  unfold getB
  rw [BitVec.getLsbD_setWidth, BitVec.getLsbD_ushiftRight, BitVec.getLsbD_and, mask_b]
  by_cases h : i < 16
  · have : 16 ≤ 16 + i ∧ 16 + i < 32 := by omega
    simp [h, this]
  · simp [h]

theorem getC_bit (d : Word) (i : Nat) : (getC d).getLsbD i = (decide (i < 16) && d.getLsbD (32 + i)) := by
  unfold getC
  rw [BitVec.getLsbD_setWidth, BitVec.getLsbD_ushiftRight, BitVec.getLsbD_and, mask_c]
  by_cases h : i < 16
  · have : 32 ≤ 32 + i ∧ 32 + i < 48 := by omega
    simp [h, this]
  · simp [h]

theorem getD_bit (d : Word) (i : Nat) : (getD d).getLsbD i = (decide (i < 16) && d.getLsbD (48 + i)) := by
  unfold getD
  rw [BitVec.getLsbD_setWidth, BitVec.getLsbD_ushiftRight, BitVec.getLsbD_and, mask_d]
  by_cases h : i < 16
  · have : 48 ≤ 48 + i ∧ 48 + i < 64 := by omega
    simp [h, this]
  · simp [h]

theorem setA_bit (d : Word) (v : BitVec 16) (i : Nat) (hi : i < 64) :
    (setA d v).getLsbD i = if i < 16 then v.getLsbD i else d.getLsbD i := by
  unfold setA
  rw [BitVec.getLsbD_or, BitVec.getLsbD_and, BitVec.getLsbD_not, mask_a, BitVec.getLsbD_shiftLeft,
    BitVec.getLsbD_setWidth]
  by_cases h : i < 16
  · simp [h, hi]
  · have : v.getLsbD i = false := BitVec.getLsbD_of_ge v i (by omega)
    simp [h, hi, this]

theorem setB_bit (d : Word) (v : BitVec 16) (i : Nat) (hi : i < 64) :
    (setB d v).getLsbD i = if 16 ≤ i ∧ i < 32 then v.getLsbD (i - 16) else d.getLsbD i := by
  unfold setB
  rw [BitVec.getLsbD_or, BitVec.getLsbD_and, BitVec.getLsbD_not, mask_b, BitVec.getLsbD_shiftLeft,
    BitVec.getLsbD_setWidth]
  by_cases h1 : i < 16
  · have : ¬ (16 ≤ i ∧ i < 32) := by omega
    simp [h1, hi, this]
  · have h3 : i - 16 < 64 := by omega
    by_cases h2 : i < 32
    · have : 16 ≤ i ∧ i < 32 := by omega
      simp [h1, hi, this, h3]
    · have hn : ¬ (16 ≤ i ∧ i < 32) := by omega
      have : v.getLsbD (i - 16) = false := BitVec.getLsbD_of_ge v _ (by omega)
      rw [if_neg hn]
      simp [hi, this, h2]

theorem setC_bit (d : Word) (v : BitVec 16) (i : Nat) (hi : i < 64) :
    (setC d v).getLsbD i = if 32 ≤ i ∧ i < 48 then v.getLsbD (i - 32) else d.getLsbD i := by
  unfold setC
  rw [BitVec.getLsbD_or, BitVec.getLsbD_and, BitVec.getLsbD_not, mask_c, BitVec.getLsbD_shiftLeft,
    BitVec.getLsbD_setWidth]
  by_cases h1 : i < 32
  · have : ¬ (32 ≤ i ∧ i < 48) := by omega
    simp [h1, hi, this]
  · have h3 : i - 32 < 64 := by omega
    by_cases h2 : i < 48
    · have : 32 ≤ i ∧ i < 48 := by omega
      simp [h1, hi, this, h3]
    · have hn : ¬ (32 ≤ i ∧ i < 48) := by omega
      have : v.getLsbD (i - 32) = false := BitVec.getLsbD_of_ge v _ (by omega)
      rw [if_neg hn]
      simp [hi, this, h2]

theorem setD_bit (d : Word) (v : BitVec 16) (i : Nat) (hi : i < 64) :
    (setD d v).getLsbD i = if 48 ≤ i then v.getLsbD (i - 48) else d.getLsbD i := by
  unfold setD
  rw [BitVec.getLsbD_or, BitVec.getLsbD_and, BitVec.getLsbD_not, mask_d, BitVec.getLsbD_shiftLeft,
    BitVec.getLsbD_setWidth]
  by_cases h1 : i < 48
  · have : ¬ (48 ≤ i) := by omega
    simp [h1, hi, this]
  · have h3 : i - 48 < 64 := by omega
    have : 48 ≤ i ∧ i < 64 := by omega
    simp [h1, hi, this, h3]

/-! ### marks -/

theorem mask1 (i : Nat) : (0x01#8).getLsbD i = decide (i = 0) := by
  have e : 0x01#8 = (1#8) <<< 0 := by decide
  rw [e, Bool.eq_iff_iff]
  match i with
  | 0 | 1 | 2 | 3 | 4 | 5 | 6 | 7 => decide
  | i + 8 => simp

theorem mask2 (i : Nat) : (0x02#8).getLsbD i = decide (i = 1) := by
  rw [Bool.eq_iff_iff]
  match i with
  | 0 | 1 | 2 | 3 | 4 | 5 | 6 | 7 => decide
  | i + 8 => simp

theorem mask4 (i : Nat) : (0x04#8).getLsbD i = decide (i = 2) := by
  rw [Bool.eq_iff_iff]
  match i with
  | 0 | 1 | 2 | 3 | 4 | 5 | 6 | 7 => decide
  | i + 8 => simp

theorem and_ne_zero_bit (v m : Mark) (k : Nat) (hk : k < 8) (hm : ∀ i, m.getLsbD i = decide (i = k)) :
    ((v &&& m) != 0#8) = v.getLsbD k := by
  cases hb : v.getLsbD k with
  | true =>
    rw [bne_iff_ne]
    intro h
    have : (v &&& m).getLsbD k = (0#8).getLsbD k := by rw [h]
    rw [BitVec.getLsbD_and, hb, hm] at this
    simp at this
  | false =>
    rw [bne_eq_false_iff_eq]
    apply BitVec.eq_of_getLsbD_eq
    intro i hi
    rw [BitVec.getLsbD_and, hm]
    by_cases h : i = k
    · subst h; simp [hb]
    · simp [h]

theorem getP1_eq (v : Mark) : getP1 v = v.getLsbD 0 := and_ne_zero_bit v _ 0 (by omega) mask1
theorem getP2_eq (v : Mark) : getP2 v = v.getLsbD 1 := and_ne_zero_bit v _ 1 (by omega) mask2
theorem getP3_eq (v : Mark) : getP3 v = v.getLsbD 2 := and_ne_zero_bit v _ 2 (by omega) mask4

theorem collabLoop_iff (v0 : Mark) (a b : List Mark) (h : a.length = b.length) :
    collabLoop v0 a b = true ↔ ∀ (i : Nat) (x y : Mark), a[i]? = some x → b[i]? = some y → x ^^^ y = v0 := by
  induction a generalizing b with
  | nil => simp [collabLoop]
  | cons x xs ih =>
    match b, h with
    | y :: ys, h =>
      unfold collabLoop mxor
      by_cases hx : x ^^^ y = v0
      · rw [if_neg (by simpa using hx), ih ys (by simpa using h)]
        constructor
        · intro H i x' y' h1 h2
          match i with
          | 0 => simp at h1 h2; subst h1; subst h2; exact hx
          | i + 1 => exact H i x' y' (by simpa using h1) (by simpa using h2)
        · intro H i x' y' h1 h2
          exact H (i + 1) x' y' (by simpa using h1) (by simpa using h2)
      · rw [if_pos hx]
        constructor
        · intro h; cases h
        · intro H; exact absurd (H 0 x y rfl rfl) hx

/-! ### the batch -/

theorem bufSizeLoop_ok_iff (ms : List Mat) (acc n : Nat) : bufSizeLoop acc ms = .ok n ↔
    n = acc + total ms ∧ (∀ m ∈ ms, m.rows < 65535 ∧ m.cols < 65535) ∧ (ms ≠ [] → acc + total ms < rowsizeMax) := by
  induction ms generalizing acc with
  | nil =>
    simp [bufSizeLoop, total]
    exact eq_comm
  | cons m ms ih =>
    unfold bufSizeLoop
    have ht : total (m :: ms) = m.rows * m.cols + total ms := by simp [total]
    by_cases hc : m.rows * m.cols + acc < rowsizeMax ∧ m.rows < 65535 ∧ m.cols < 65535
    · rw [Res.assert_true _ hc, Res.ok_bind, ih, ht]
      constructor
      · rintro ⟨h1, h2, h3⟩
        refine ⟨by omega, ?_, fun _ => ?_⟩
        · intro x hx
          rcases List.mem_cons.1 hx with hx' | hx'
          · subst hx'; exact hc.2
          · exact h2 x hx'
        · by_cases hm : ms = []
          · subst hm; simp [total]; omega
          · have := h3 hm; omega
      · rintro ⟨h1, h2, h3⟩
        refine ⟨by omega, fun x hx => h2 x (List.mem_cons_of_mem _ hx), fun _ => ?_⟩
        have := h3 (by simp); omega
    · simp only [Res.assert, if_neg hc, Res.abort_bind]
      constructor
      · intro h; cases h
      · rintro ⟨_, h2, h3⟩
        exfalso
        apply hc
        have h4 := h3 (by simp)
        rw [ht] at h4
        have h5 := h2 m (by simp)
        exact ⟨by omega, h5⟩

theorem modWord_ok (buf : List Word) (k : Nat) (f : Word → Word) (w : Word) (h : buf[k + 1]? = some w) :
    modWord buf k f = .ok (buf.set (k + 1) (f w)) := by
  have hk : k + 1 < buf.length := (List.getElem?_eq_some_iff.1 h).1
  unfold modWord
  rw [Res.assert_true _ hk, Res.ok_bind, h]

theorem header_ok (buf : List Word) (k : Nat) (w : Word) (h : buf[k + 1]? = some w) : header buf k = .ok w := by
  have hk : k + 1 < buf.length := (List.getElem?_eq_some_iff.1 h).1
  unfold header
  rw [Res.assert_true _ hk, Res.ok_bind, h]

theorem batchSize_ok (buf : List Word) (w : Word) (h : buf[0]? = some w) : batchSize buf = .ok w.toNat := by
  have hk : 0 < buf.length := (List.getElem?_eq_some_iff.1 h).1
  unfold batchSize
  rw [Res.assert_true _ hk, Res.ok_bind, h]

theorem store_ok (buf : List Word) (off : Nat) (data : List Word) (h : off + data.length ≤ buf.length) :
    ∃ b, store buf off data = .ok b ∧ b.length = buf.length ∧ (b.drop off).take data.length = data ∧
      ∀ p, (p < off ∨ off + data.length ≤ p) → b[p]? = buf[p]? := by
  refine ⟨_, by unfold store; rw [if_pos h], ?_, ?_, ?_⟩
  · simp; omega
  · have hl : (buf.take off).length = off := by rw [List.length_take]; omega
    rw [List.append_assoc, List.drop_append, hl, Nat.sub_self, List.drop_zero,
      List.drop_of_length_le (by omega), List.nil_append, List.take_append_of_le_length (Nat.le_refl _),
      List.take_length]
  · intro p hp
    have hl : (buf.take off).length = off := by rw [List.length_take]; omega
    rcases hp with hp | hp
    · rw [List.append_assoc, List.getElem?_append_left (by omega), List.getElem?_take, if_pos hp]
    · rw [List.getElem?_append_right (by rw [List.length_append]; omega), List.getElem?_drop, List.length_append, hl]
      congr 1; omega

/-- the descriptor word written for a matrix -/
def desc (w : Word) (r c : BitVec 16) (off : BitVec 32) : Word := setN (setB (setA w r) c) off

theorem eq_of_bits {n : Nat} (x y : BitVec n) (h : ∀ i, i < n → x.getLsbD i = y.getLsbD i) : x = y :=
  BitVec.eq_of_getLsbD_eq (fun i hi => h i hi)

theorem getA_desc (w : Word) (r c : BitVec 16) (off : BitVec 32) : getA (desc w r c off) = r := by
  apply eq_of_bits
  intro i hi
  unfold desc
  rw [getA_bit, setN_bit _ _ _ (by omega), if_pos (by omega), setB_bit _ _ _ (by omega), if_neg (by omega),
    setA_bit _ _ _ (by omega), if_pos (by omega)]
  simp [hi]

theorem getB_desc (w : Word) (r c : BitVec 16) (off : BitVec 32) : getB (desc w r c off) = c := by
  apply eq_of_bits
  intro i hi
  unfold desc
  rw [getB_bit, setN_bit _ _ _ (by omega), if_pos (by omega), setB_bit _ _ _ (by omega), if_pos (by omega)]
  simp [hi]

theorem getN_desc (w : Word) (r c : BitVec 16) (off : BitVec 32) : getN (desc w r c off) = off := by
  apply eq_of_bits
  intro i hi
  unfold desc
  rw [getN_bit, setN_bit _ _ _ (by omega), if_neg (by omega)]
  simp [hi]

theorem drop_take_congr (b b' : List Word) (off n : Nat) (hl : b'.length = b.length)
    (h : ∀ p, off ≤ p → p < off + n → b'[p]? = b[p]?) : (b'.drop off).take n = (b.drop off).take n := by
  apply List.ext_getElem?
  intro p
  rw [List.getElem?_take, List.getElem?_take]
  split
  · rw [List.getElem?_drop, List.getElem?_drop]; exact h _ (by omega) (by omega)
  · rfl

theorem readMat_congr (b b' : List Word) (k : Nat) (w0 w : Word) (hl : b'.length = b.length) (h0 : b[0]? = some w0)
    (h0' : b'[0]? = some w0) (hw : b[k + 1]? = some w) (hw' : b'[k + 1]? = some w)
    (h : ∀ p, (getN w).toNat ≤ p → p < (getN w).toNat + (getA w).toNat * (getB w).toNat → b'[p]? = b[p]?) :
    readMat b' k = readMat b k := by
  have hv : ∀ c : List Word, c[0]? = some w0 → c[k + 1]? = some w → view c k =
      (Res.assert (k < w0.toNat) >>= fun _ => .ok ((getN w).toNat, (getA w).toNat, (getB w).toNat)) := by
    intro c c0 c1
    unfold view
    rw [batchSize_ok c w0 c0, Res.ok_bind]
    rw [header_ok c k w c1]; rfl
  unfold readMat
  rw [hv b h0 hw, hv b' h0' hw']
  by_cases hk : k < w0.toNat
  · rw [Res.assert_true _ hk]
    simp only [Res.ok_bind, hl]
    rw [drop_take_congr b b' _ _ hl h]
  · simp only [Res.assert, if_neg hk, Res.abort_bind]

theorem compressLoop_spec (ms : List Mat) (buf : List Word) (i : Nat) (off : BitVec 32) (n : Nat)
    (hwf : ∀ m ∈ ms, WF m) (hdim : ∀ m ∈ ms, m.rows < 65535 ∧ m.cols < 65535)
    (hi : i + 1 + ms.length ≤ off.toNat) (htot : off.toNat + total ms ≤ buf.length)
    (hlim : off.toNat + total ms ≤ rowsizeMax) (hn : i + ms.length ≤ n) (hn64 : n < 2 ^ 64)
    (h0 : buf[0]? = some (BitVec.ofNat 64 n)) :
    ∃ b, compressLoop buf i off ms = .ok b ∧ b.length = buf.length ∧ b[0]? = some (BitVec.ofNat 64 n) ∧
      (∀ p, p ≤ i → b[p]? = buf[p]?) ∧
      (∀ p, i + 1 + ms.length ≤ p → p < off.toNat → b[p]? = buf[p]?) ∧
      (∀ p, off.toNat + total ms ≤ p → b[p]? = buf[p]?) ∧
      (∀ (k : Nat) (m : Mat), ms[k]? = some m → readMat b (i + k) = .ok m) := by
  induction ms generalizing buf i off with
  | nil =>
    exact ⟨buf, rfl, rfl, h0, fun _ _ => rfl, fun _ _ _ => rfl, fun _ _ => rfl, fun k m h => by simp at h⟩
  | cons m ms ih =>
    have hmw : m.data.length = m.rows * m.cols := hwf m (by simp)
    obtain ⟨hmr, hmc⟩ := hdim m (by simp)
    have ht : total (m :: ms) = m.rows * m.cols + total ms := by simp [total]
    rw [ht] at htot hlim
    rw [List.length_cons] at hi hn
    have hi1 : i + 1 < buf.length := by omega
    unfold compressLoop
    have hold : buf[i + 1]? = some buf[i + 1] := List.getElem?_eq_getElem hi1
    generalize buf[i + 1] = w0 at hold
    rw [modWord_ok buf i _ w0 hold, Res.ok_bind, modWord_ok _ i _ _ (List.getElem?_set_self hi1), Res.ok_bind,
      List.set_set, modWord_ok _ i _ _ (List.getElem?_set_self hi1), Res.ok_bind, List.set_set]
    generalize hw : setN (setB (setA w0 (BitVec.ofNat 16 m.rows)) (BitVec.ofNat 16 m.cols)) off = w
    change desc w0 (BitVec.ofNat 16 m.rows) (BitVec.ofNat 16 m.cols) off = w at hw
    have wA : (getA w).toNat = m.rows := by
      rw [← hw, getA_desc, BitVec.toNat_ofNat]; apply Nat.mod_eq_of_lt; omega
    have wB : (getB w).toNat = m.cols := by
      rw [← hw, getB_desc, BitVec.toNat_ofNat]; apply Nat.mod_eq_of_lt; omega
    have wN : getN w = off := by rw [← hw, getN_desc]
    generalize hb : buf.set (i + 1) w = b3
    have hl3 : b3.length = buf.length := by rw [← hb, List.length_set]
    have h30 : b3[0]? = some (BitVec.ofNat 64 n) := by
      rw [← hb, List.getElem?_set_ne (by omega)]; exact h0
    have h3i : b3[i + 1]? = some w := by rw [← hb, List.getElem?_set_self hi1]
    have h3o : ∀ p, p ≠ i + 1 → b3[p]? = buf[p]? := by
      intro p hp
      rw [← hb, List.getElem?_set_ne (fun e => hp e.symm)]
    have hin : i < (BitVec.ofNat 64 n).toNat := by
      rw [BitVec.toNat_ofNat, Nat.mod_eq_of_lt hn64]; omega
    have hview : view b3 i = .ok (off.toNat, m.rows, m.cols) := by
      unfold view
      rw [batchSize_ok b3 _ h30, Res.ok_bind, Res.assert_true _ hin, Res.ok_bind, header_ok b3 i w h3i, Res.ok_bind,
        wA, wB, wN]
    rw [hview]
    simp only [Res.ok_bind]
    rw [Res.assert_true _ ⟨trivial, trivial⟩, Res.ok_bind]
    obtain ⟨b4, e4, l4, d4, o4⟩ := store_ok b3 off.toNat m.data (by rw [hl3, hmw]; omega)
    rw [e4, Res.ok_bind]
    have hoff : (off + BitVec.ofNat 32 m.data.length).toNat = off.toNat + m.rows * m.cols := by
      rw [BitVec.toNat_add, BitVec.toNat_ofNat, hmw]
      unfold rowsizeMax at hlim
      rw [Nat.mod_eq_of_lt (a := m.rows * m.cols) (by omega)]
      apply Nat.mod_eq_of_lt; omega
    have h40 : b4[0]? = some (BitVec.ofNat 64 n) := by
      rw [o4 0 (Or.inl (by omega))]; exact h30
    obtain ⟨b, eb, lb, b0, bp1, bp2, bp3, bk⟩ := ih b4 (i + 1) (off + BitVec.ofNat 32 m.data.length)
      (fun x hx => hwf x (List.mem_cons_of_mem _ hx)) (fun x hx => hdim x (List.mem_cons_of_mem _ hx))
      (by omega) (by omega) (by omega) (by omega) h40
    rw [hoff] at bp2 bp3
    refine ⟨b, eb, by omega, b0, ?_, ?_, ?_, ?_⟩
    · intro p hp
      rw [bp1 p (by omega), o4 p (Or.inl (by omega)), h3o p (by omega)]
    · intro p hp1 hp2
      rw [List.length_cons] at hp1
      rw [bp2 p (by omega) (by omega), o4 p (Or.inl hp2), h3o p (by omega)]
    · intro p hp
      rw [ht] at hp
      rw [bp3 p (by omega), o4 p (Or.inr (by rw [hmw]; omega)), h3o p (by omega)]
    · intro k m' hk
      match k with
      | 0 =>
        simp at hk
        subst hk
        have h4i : b4[i + 1]? = some w := by rw [o4 (i + 1) (Or.inl (by omega))]; exact h3i
        have hr4 : readMat b4 i = .ok m := by
          have hv4 : view b4 i = .ok (off.toNat, m.rows, m.cols) := by
            unfold view
            rw [batchSize_ok b4 _ h40, Res.ok_bind, Res.assert_true _ hin, Res.ok_bind, header_ok b4 i w h4i,
              Res.ok_bind, wA, wB, wN]
          unfold readMat
          rw [hv4]
          simp only [Res.ok_bind]
          rw [if_pos (by omega), ← hmw, d4]
        rw [Nat.add_zero, readMat_congr b4 b i _ w lb h40 b0 h4i (by rw [bp1 (i + 1) (by omega)]; exact h4i)]
        · exact hr4
        · intro p hp1 hp2
          rw [wN] at hp1
          rw [wN, wA, wB] at hp2
          exact bp2 p (by omega) (by omega)
      | k + 1 =>
        have := bk k m' (by simpa using hk)
        rw [← this]; congr 1; omega

end DNDSR.Bits
