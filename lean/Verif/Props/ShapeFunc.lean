import Verif.Proof.ShapeSound
import Verif.Props.BaseValue
import Mathlib.Tactic.IntervalCases
import Mathlib.Tactic.NormNum
import Mathlib.Data.List.GetD

/-!
# Shape functions interpolate (C47), reproduce polynomials (C67), agree on faces (C68)
-/

namespace DNDSR.Shape

open DNDSR.Elem

variable {t : ElemType} {p : Fin 3 → ℝ}

theorem eps_pos : (0 : ℝ) < 1 / 10 ^ 15 := by positivity

theorem guard_away (h : Away t p) : guardPoint t p = p := by
  unfold guardPoint
  rw [if_neg]
  rintro ⟨h1, h2⟩
  exact absurd h2 (not_lt.mpr (h h1))

theorem guard_ne (t : ElemType) (p : Fin 3 → ℝ) : Pyramid t → guardPoint t p 2 ≠ 1 := by
  intro ht
  have he := eps_pos
  unfold guardPoint
  split
  · rename_i h
    rw [Function.update_self]
    unfold Gas.signP
    split
    · intro h'; linarith
    · rename_i h1; intro h'; push Not at h1; linarith
  · rename_i h
    intro h1
    apply h
    refine ⟨ht, ?_⟩
    rw [h1]
    simp

/-- The shift moves the third coordinate by at most `10⁻¹⁵`, and nothing else. -/
theorem guard_near (t : ElemType) (p : Fin 3 → ℝ) : ∀ a, |guardPoint t p a - p a| ≤ 1 / 10 ^ 15 := by
  intro a
  have he := eps_pos
  unfold guardPoint
  split
  · by_cases ha : a = 2
    · subst ha
      rw [Function.update_self]
      unfold Gas.signP
      split
      · rw [one_mul, sub_sub_cancel_left, abs_neg, abs_of_pos he]
      · rw [neg_one_mul, sub_neg_eq_add, add_sub_cancel_left, abs_of_pos he]
    · rw [Function.update_of_ne ha, sub_self, abs_zero]; exact he.le
  · rw [sub_self, abs_zero]; exact he.le

theorem guard_steady (h : Steady t p) : ∃ a : Fin 3 → ℝ, ∀ᶠ q in nhds p, guardPoint t q = q - a := by
  by_cases ht : Pyramid t
  · obtain ⟨h1, h2⟩ := h ht
    have hc : ContinuousAt (fun q : Fin 3 → ℝ => 1 - q 2) p := (continuous_const.sub (continuous_apply (2 : Fin 3))).continuousAt
    have hc' : ContinuousAt (fun q : Fin 3 → ℝ => |1 - q 2|) p := hc.abs
    rcases lt_or_gt_of_ne h2 with h3 | h3
    · have hlt : ∀ᶠ q in nhds p, |1 - q 2| < 1 / 10 ^ 15 := hc'.eventually_lt_const h3
      refine ⟨Pi.single 2 (Gas.signP (1 - p 2) * (1 / 10 ^ 15)), ?_⟩
      have hs : ∀ᶠ q in nhds p, Gas.signP (1 - q 2) = Gas.signP (1 - p 2) := by
        unfold Gas.signP
        rcases lt_or_gt_of_ne h1 with h4 | h4
        · have : ∀ᶠ q in nhds p, 0 < 1 - q 2 := hc.eventually_const_lt (by linarith)
          filter_upwards [this] with q hq
          rw [if_pos hq.le, if_pos (by linarith)]
        · have : ∀ᶠ q in nhds p, 1 - q 2 < 0 := hc.eventually_lt_const (by linarith)
          filter_upwards [this] with q hq
          rw [if_neg (not_le.mpr hq), if_neg (by push Not; linarith)]
      filter_upwards [hlt, hs] with q hq hq'
      unfold guardPoint
      rw [if_pos ⟨ht, hq⟩, hq']
      funext a
      by_cases ha : a = 2
      · subst ha
        simp
      · simp [Function.update_of_ne ha, Pi.single_eq_of_ne ha]
    · have hgt : ∀ᶠ q in nhds p, 1 / 10 ^ 15 < |1 - q 2| := hc'.eventually_const_lt h3
      refine ⟨0, ?_⟩
      filter_upwards [hgt] with q hq
      rw [guard_away (fun _ => hq.le), sub_zero]
  · refine ⟨0, Filter.Eventually.of_forall fun q => ?_⟩
    rw [guard_away (fun h => absurd h ht), sub_zero]

theorem shapeFunc_eq (ht : t ≠ .unknown) (k : Nat) (p : Fin 3 → ℝ) :
    shapeFunc k t p = .ok fun r j => (entry t k r j).eval (guardPoint t p) := by
  unfold shapeFunc
  rw [if_neg ht]

theorem getNj_eq (ht : t ≠ .unknown) (p : Fin 3 → ℝ) : getNj t p = .ok fun j => (entry t 0 0 j).eval (guardPoint t p) := by
  unfold getNj
  rw [shapeFunc_eq ht, Res.ok_bind, Res.pure_eq]

theorem value_eq (ht : t ≠ .unknown) (j : Nat) (p : Fin 3 → ℝ) : value t j p = (entry t 0 0 j).eval (guardPoint t p) := by
  unfold value
  rw [getNj_eq ht]

/-- The derivatives of the function that `GetNj` computes, from those of the table entry. -/
theorem pdL_value (ht : t ≠ .unknown) (j : Nat) (l : List (Fin 3)) (hs : Steady t p) :
    Jet.pdL l (value t j) p = Jet.pdL l (fun q => (entry t 0 0 j).eval q) (guardPoint t p) := by
  obtain ⟨a, ha⟩ := guard_steady hs
  have e : value t j =ᶠ[nhds p] fun q => (fun q => (entry t 0 0 j).eval q) (q - a) := by
    filter_upwards [ha] with q hq
    rw [value_eq ht, hq]
  rw [(Fr.pdL_eventuallyEq l e).eq_of_nhds, Jet.pdL_translate (fun q => (entry t 0 0 j).eval q) a l, ha.self_of_nhds]

theorem tab_entry (ht : t ≠ .unknown) {k r j : Nat} (hk : k < 4) (hj : j < nodes t) (hr : r < rowEnd (dim t) k - rowStart (dim t) k) :
    entryCheck t k r j ((rowsOf (dim t)).getD (rowStart (dim t) k + r) []) = true := by
  have h := tab_ok t ht k hk
  unfold tabCheck at h
  exact List.all_eq_true.mp (List.all_eq_true.mp h j (List.mem_range.mpr hj)) r (List.mem_range.mpr hr)

theorem fillOrders_spec (ht : t ≠ .unknown) (p : Fin 3 → ℝ) : ∀ n ≤ 3, ∀ v, ∃ w, fillOrders t p n v = .ok w ∧ ∀ r j,
    (∀ k ≤ n, rowStart (dim t) k ≤ r → r < rowEnd (dim t) k → w r j = (entry t k (r - rowStart (dim t) k) j).eval (guardPoint t p)) ∧
    (rowEnd (dim t) n ≤ r → w r j = v r j) := by
  intro n
  induction n with
  | zero =>
    intro _ v
    refine ⟨_, by rw [fillOrders]; simp only [Nat.zero_le, if_true, shapeFunc_eq ht, Res.ok_bind, Res.pure_eq]; rfl, ?_⟩
    intro r j
    constructor
    · intro k hk h1 h2
      obtain rfl : k = 0 := by omega
      exact if_pos ⟨h1, h2⟩
    · intro h
      exact if_neg (by omega)
  | succ m ih =>
    intro hm v
    obtain ⟨w, hw, hs⟩ := ih (by omega) (fun r j => if rowStart (dim t) (m + 1) ≤ r ∧ r < rowEnd (dim t) (m + 1) then
      (entry t (m + 1) (r - rowStart (dim t) (m + 1)) j).eval (guardPoint t p) else v r j)
    refine ⟨w, ?_, ?_⟩
    · rw [fillOrders]
      simp only [hm, if_true, shapeFunc_eq ht, Res.ok_bind, Res.pure_eq]
      exact hw
    · intro r j
      have hst : rowStart (dim t) (m + 1) = rowEnd (dim t) m := rfl
      constructor
      · intro k hk h1 h2
        rcases Nat.lt_or_ge k (m + 1) with h | h
        · exact (hs r j).1 k (by omega) h1 h2
        · obtain rfl : k = m + 1 := by omega
          rw [(hs r j).2 (by rw [← hst]; exact h1)]
          exact if_pos ⟨h1, h2⟩
      · intro h
        have hle : rowEnd (dim t) m ≤ rowEnd (dim t) (m + 1) := by
          unfold rowEnd
          have hm2 : m ≤ 2 := by omega
          interval_cases m <;> (repeat' split) <;> simp
        rw [(hs r j).2 (by omega)]
        exact if_neg (by omega)

theorem row_order (d : Int) (n r : Nat) (h : r < rowEnd d n) : ∃ k ≤ n, rowStart d k ≤ r ∧ r < rowEnd d k := by
  induction n with
  | zero => exact ⟨0, Nat.le_refl _, Nat.zero_le _, h⟩
  | succ m ih =>
    by_cases h' : r < rowEnd d m
    · obtain ⟨k, h1, h2⟩ := ih h'
      exact ⟨k, by omega, h2⟩
    · exact ⟨m + 1, Nat.le_refl _, Nat.le_of_not_lt h', h⟩

theorem derivs_rowEnd (ht : t ≠ .unknown) {n : Nat} (hn : n ≤ 3) : derivs (dim t) n = rowEnd (dim t) n := by
  cases t <;> first | exact absurd rfl ht | (interval_cases n <;> rfl)

/-- **C47** (derivatives). `GetDiNj` lists, in its order, the derivatives of the functions `GetNj` computes, up to the
order asked for, of each shape function of each element, at every point where those functions are smooth. -/
theorem getDiNj_jet (ht : t ≠ .unknown) (hs : Steady t p) {n : Nat} (hn : n ≤ 3) :
    ∃ v, getDiNj t p n = .ok v ∧ ∀ j < nodes t, Jet.IsJet (rowsOf (dim t)) (derivs (dim t) n) (value t j) p fun r => v r j := by
  obtain ⟨w, hw, hws⟩ := fillOrders_spec ht p n hn (fun _ _ => 0)
  refine ⟨w, ?_, ?_⟩
  · unfold getDiNj
    rw [if_neg (by omega)]
    exact hw
  · intro j hj r hr
    rw [derivs_rowEnd ht hn] at hr
    obtain ⟨k, h1, h2, h3⟩ := row_order _ _ _ hr
    show w r j = _
    rw [(hws r j).1 k h1 h2 h3, pdL_value ht j _ hs]
    have hc := tab_entry ht (k := k) (r := r - rowStart (dim t) k) (by omega) hj (by omega)
    rw [Nat.add_sub_cancel' h2] at hc
    exact (entry_derivative hc (guard_ne t p)).1

/-- **C47** (first derivatives). Row 0 of `GetD01Nj` holds the values of `GetNj` and the rows 1 to 3 their derivatives in the
three coordinates (which are zero in the directions the element does not have). -/
theorem getD01Nj_jet (ht : t ≠ .unknown) (hs : Steady t p) :
    ∃ v, getD01Nj t p = .ok v ∧ ∀ j < nodes t, v 0 j = value t j p ∧ ∀ a : Fin 3, v (a + 1) j = Jet.pd a (value t j) p := by
  refine ⟨fun r j => if r = 0 then (entry t 0 0 j).eval (guardPoint t p) else (entry t 1 (r - 1) j).eval (guardPoint t p),
    by unfold getD01Nj getD1Nj; rw [getNj_eq ht, shapeFunc_eq ht]; rfl, ?_⟩
  intro j hj
  refine ⟨?_, ?_⟩
  · rw [value_eq ht]
    exact if_pos rfl
  · intro a
    have h := first_ok t ht
    unfold firstCheck at h
    have hc : entryCheck t 1 a j [a] = true := by
      refine List.all_eq_true.mp (List.all_eq_true.mp h j (List.mem_range.mpr hj)) a ?_
      fin_cases a <;> simp
    have h2 := (entry_derivative hc (guard_ne t p)).1
    rw [← pdL_value ht j [a] hs] at h2
    show (if (a : Nat) + 1 = 0 then _ else _) = _
    rw [if_neg (Nat.succ_ne_zero _)]
    exact h2

/-- **C47** (divisions). No entry of a table divides by zero, at any point. -/
theorem shapeFunc_defined (ht : t ≠ .unknown) {k r j : Nat} (hk : k ≤ 3) (p : Fin 3 → ℝ) (hj : j < nodes t)
    (hr : r < rowEnd (dim t) k - rowStart (dim t) k) : (entry t k r j).Defined (guardPoint t p) :=
  (entry_derivative (tab_entry ht (by omega) hj hr) (guard_ne t p)).2

theorem reproduces_at (ht : t ≠ .unknown) {a b c : Nat} (hd : a + b + c ≤ degree t) (hb : dim t ≤ 1 → b = 0) (hc : dim t ≤ 2 → c = 0)
    (p : Fin 3 → ℝ) : ((List.range (nodes t)).map fun j => (nodeAt t j 0 ^ a * nodeAt t j 1 ^ b * nodeAt t j 2 ^ c) * value t j p).sum =
      guardPoint t p 0 ^ a * guardPoint t p 1 ^ b * guardPoint t p 2 ^ c := by
  have h := rep_ok t ht
  unfold repAll at h
  have h := List.all_eq_true.mp (List.all_eq_true.mp (List.all_eq_true.mp h a (List.mem_range.mpr (by omega))) b (List.mem_range.mpr (by omega)))
    c (List.mem_range.mpr (by omega))
  have h : repCheck t a b c = true := by
    simp only [Bool.or_eq_true, Bool.and_eq_true, decide_eq_true_eq, bne_iff_ne] at h
    rcases h with (h | h) | h
    · exact absurd (hb h.1) h.2
    · exact absurd (hc h.1) h.2
    · exact h
  unfold repCheck at h
  split at h
  · rename_i f hf
    simp only [Bool.and_eq_true] at h
    obtain ⟨h1, h2⟩ := h
    have of := fine_ok (p := guardPoint t p) h2 (guard_ne t p)
    have r1 := sumFr_sound _ hf of
    have r2 : Fr.Rep (guardPoint t p) (2 ^ (a + b + c) * (guardPoint t p 0 ^ a * guardPoint t p 1 ^ b * guardPoint t p 2 ^ c))
        ⟨[(a, b, c, 2 ^ (a + b + c))], 1, 0⟩ := by
      refine ⟨?_, one_ne_zero⟩
      simp [P.fn, P.ev, P.tev]
    have e := Fr.eq_sound h1 r1 r2 of (Or.inr rfl)
    have h2p : (2 : ℝ) ^ (a + b + c) ≠ 0 := by positivity
    apply mul_left_cancel₀ h2p
    rw [← e, ← List.sum_map_mul_left, List.map_map]
    congr 1
    apply List.map_congr_left
    intro j _
    simp only [Function.comp, value_eq ht, nodeAt, coord2, pow_add]
    simp [div_pow]
    field_simp
  · exact absurd h (by simp)

/-- **C47** (sum). The shape functions sum to one at every point. -/
theorem getNj_sum (ht : t ≠ .unknown) (p : Fin 3 → ℝ) :
    ∃ v, getNj t p = .ok v ∧ ((List.range (nodes t)).map v).sum = 1 := by
  refine ⟨_, getNj_eq ht p, ?_⟩
  have h := reproduces_at ht (a := 0) (b := 0) (c := 0) (Nat.zero_le _) (fun _ => rfl) (fun _ => rfl) p
  simpa [value_eq ht] using h

/-- **C67**. Interpolating a monomial through its values at the nodes gives it back, at every point, up to the order of the
element (up to the first order on `Pyramid14`, see `pyramid14_not_quadratic`). -/
theorem getNj_reproduces_partial (ht : t ≠ .unknown) {a b c : Nat} (hd : ((a + b + c : Nat) : Int) ≤ if t = .pyramid14 then 1 else order t)
    (hb : dim t ≤ 1 → b = 0) (hc : dim t ≤ 2 → c = 0) (hp : Away t p) :
    ((List.range (nodes t)).map fun j => (nodeAt t j 0 ^ a * nodeAt t j 1 ^ b * nodeAt t j 2 ^ c) * value t j p).sum =
      p 0 ^ a * p 1 ^ b * p 2 ^ c := by
  have h := reproduces_at ht (a := a) (b := b) (c := c) (by
    unfold degree
    split at hd <;> rename_i h1
    · rw [if_pos h1]; omega
    · rw [if_neg h1]; omega) hb hc p
  rw [h, guard_away hp]

theorem nodeAt_coord2 (t : ElemType) (j : Nat) (a : Fin 3) : nodeAt t j a = ((half (coord2 t j a) : ℚ) : ℝ) := by
  match a with
  | 0 => simp [nodeAt, coord2, half]
  | 1 => simp [nodeAt, coord2, half]
  | 2 => simp [nodeAt, coord2, half]

theorem apex_only {i : Nat} (ht : Pyramid t) (hi : i < nodes t) : coord2 t i 2 = 2 ↔ i = 4 := by
  rcases ht with rfl | rfl
  · exact (by decide : ∀ i < 5, coord2 .pyramid5 i 2 = 2 ↔ i = 4) i hi
  · exact (by decide : ∀ i < 14, coord2 .pyramid14 i 2 = 2 ↔ i = 4) i hi

theorem node_away {i : Nat} (hi : i < nodes t) (h4 : Pyramid t → i ≠ 4) : Away t (nodeAt t i) := by
  intro hp
  have h : coord2 t i 2 ≠ 2 := fun h => h4 hp ((apex_only hp hi).mp h)
  rw [nodeAt_coord2]
  unfold half
  push_cast
  have h1 : (1 : ℝ) ≤ |2 - (coord2 t i 2 : ℝ)| := by
    have : (1 : Int) ≤ |2 - coord2 t i 2| := Int.one_le_abs (by omega)
    exact_mod_cast this
  have h2 : 1 - (coord2 t i 2 : ℝ) / 2 = (2 - (coord2 t i 2 : ℝ)) / 2 := by ring
  rw [h2, abs_div, abs_of_pos (by norm_num : (0 : ℝ) < 2)]
  have h3 : (1 : ℝ) / 10 ^ 15 ≤ 1 / 2 := by norm_num
  linarith

/-- **C47** (nodes). A shape function is one at its own node and zero at the others. (The apex of a pyramid, where its
shape functions have no value, is in `getNj_apex`.) -/
theorem getNj_nodes_partial (ht : t ≠ .unknown) {i j : Nat} (hi : i < nodes t) (hj : j < nodes t) (h4 : Pyramid t → i ≠ 4) :
    value t j (nodeAt t i) = if i = j then 1 else 0 := by
  have haw := node_away hi h4
  rw [value_eq ht, guard_away haw]
  have h := kron_ok t ht
  unfold kronAll at h
  have h := List.all_eq_true.mp h i (List.mem_range.mpr hi)
  rw [Bool.or_eq_true] at h
  have hk : kronCheck t i j = true := by
    rcases h with h | h
    · simp only [isPyr, Bool.and_eq_true, Bool.or_eq_true, beq_iff_eq] at h
      exact absurd ((apex_only h.1 hi).mp h.2) (h4 h.1)
    · exact List.all_eq_true.mp h j (List.mem_range.mpr hj)
  unfold kronCheck at hk
  split at hk
  · rename_i f hf
    simp only [Bool.and_eq_true, decide_eq_true_eq] at hk
    obtain ⟨h1, h2⟩ := hk
    have hne : Pyramid t → nodeAt t i 2 ≠ 1 := by
      intro hp h
      have := haw hp
      rw [h, sub_self, abs_zero] at this
      exact absurd this (not_le.mpr eps_pos)
    have of := fine_ok (p := nodeAt t i) h2 hne
    obtain ⟨⟨r1, r2⟩, _⟩ := Fr.norm_sound _ hf of
    have hpow := of.pow_ne
    have h1' := congrArg (fun x : ℚ => (x : ℝ)) h1
    beta_reduce at h1'
    rw [P.evQ_cast] at h1'
    unfold P.fn at r1
    rw [nodeAt_coord2, nodeAt_coord2, nodeAt_coord2, h1'] at r1
    rw [nodeAt_coord2] at hpow
    push_cast at r1
    have hite : (((if i = j then (1 : ℚ) else 0) : ℚ) : ℝ) = if i = j then 1 else 0 := by split <;> simp
    rw [hite] at r1
    have hden : (f.den : ℝ) ≠ 0 := Nat.cast_ne_zero.mpr r2
    exact mul_right_cancel₀ (mul_ne_zero hden hpow) r1
  · exact absurd hk (by simp)

/-- **C47** (apex). At the apex of a pyramid, which the code moves down by `10⁻¹⁵`, the values are one and zero up to `3·10⁻¹⁵`. -/
theorem getNj_apex (hp : Pyramid t) {j : Nat} (hj : j < nodes t) : |value t j (nodeAt t 4) - if j = 4 then 1 else 0| ≤ 3 / 10 ^ 15 := by
  have ht : t ≠ .unknown := by rintro rfl; rcases hp with h | h <;> cases h
  have hg : guardPoint t (nodeAt t 4) = fun a => (((![0, 0, 1 - 1 / 10 ^ 15] : Fin 3 → ℚ) a : ℚ) : ℝ) := by
    have hn : nodeAt t 4 = ![0, 0, 1] := by
      rcases hp with rfl | rfl <;> (funext a; match a with
        | 0 => simp [nodeAt, stdCoord2]
        | 1 => simp [nodeAt, stdCoord2]
        | 2 => simp [nodeAt, stdCoord2])
    unfold guardPoint
    rw [hn, if_pos ⟨hp, by simp⟩]
    funext a
    match a with
    | 0 => simp
    | 1 => simp
    | 2 => simp [Gas.signP]
  have h : apexCheck t j = true := by
    rcases hp with rfl | rfl
    · exact pyramid5_apex j hj
    · exact pyramid14_apex j hj
  rw [value_eq ht]
  unfold apexCheck at h
  split at h
  · rename_i f hf
    have h := of_decide_eq_true h
    have hz : guardPoint t (nodeAt t 4) 2 = 1 - 1 / 10 ^ 15 := by rw [hg]; simp
    have of : Fr.Ok (guardPoint t (nodeAt t 4)) f := by
      refine Or.inl ?_
      rw [hz]
      norm_num
    obtain ⟨⟨r1, r2⟩, _⟩ := Fr.norm_sound _ hf of
    have hpow := of.pow_ne
    have hden : (f.den : ℝ) ≠ 0 := Nat.cast_ne_zero.mpr r2
    have hu : guardPoint t (nodeAt t 4) 2 - 1 = ((-1 : ℚ) / 10 ^ 15 : ℚ) := by rw [hz]; norm_num
    have hfn : P.fn f.num (guardPoint t (nodeAt t 4)) = ((P.evQ 0 0 (1 - 1 / 10 ^ 15) f.num : ℚ) : ℝ) := by
      rw [P.evQ_cast, hg]
      simp [P.fn]
    rw [hu] at r1 hpow
    rw [hfn] at r1
    have h' : ((|P.evQ 0 0 (1 - 1 / 10 ^ 15) f.num - (if j = 4 then 1 else 0) * ((f.den : ℚ) * ((-1 : ℚ) / 10 ^ 15) ^ f.k)| : ℚ) : ℝ)
        ≤ ((3 / 10 ^ 15 * |(f.den : ℚ) * ((-1 : ℚ) / 10 ^ 15) ^ f.k| : ℚ) : ℝ) := by exact_mod_cast h
    generalize hD : ((f.den : ℚ) * ((-1 : ℚ) / 10 ^ 15) ^ f.k) = D at h'
    have hD' : ((D : ℚ) : ℝ) = (f.den : ℝ) * ((((-1 : ℚ) / 10 ^ 15 : ℚ) : ℝ)) ^ f.k := by rw [← hD]; push_cast; rfl
    have hDne : ((D : ℚ) : ℝ) ≠ 0 := by rw [hD']; exact mul_ne_zero hden hpow
    rw [← hD'] at r1
    generalize P.evQ 0 0 (1 - 1 / 10 ^ 15) f.num = w at h' r1
    generalize Ex.eval (guardPoint t (nodeAt t 4)) (entry t 0 0 j) = v at r1
    have habs : 0 < |(D : ℝ)| := abs_pos.mpr hDne
    rw [Rat.cast_abs, Rat.cast_sub, ← r1, Rat.cast_mul, Rat.cast_mul, Rat.cast_abs] at h'
    have e2 : v * (D : ℝ) - (((if j = 4 then 1 else 0 : ℚ)) : ℝ) * (D : ℝ) = (v - if j = 4 then 1 else 0) * (D : ℝ) := by
      split <;> push_cast <;> ring
    rw [e2, abs_mul] at h'
    have h3 := le_of_mul_le_mul_right h' habs
    refine h3.trans (le_of_eq ?_)
    norm_num
  · exact absurd h (by simp)

theorem faceType_known (ht : t ≠ .unknown) {i : Nat} (hi : (i : Int) < numFaces t) : faceType t i ≠ .unknown ∧ ¬ Pyramid (faceType t i) := by
  cases t with
  | unknown => exact absurd rfl ht
  | line2 => simp [numFaces, dimOrder] at hi; omega
  | line3 => simp [numFaces, dimOrder] at hi; omega
  | tri3 => exact ⟨by simp [faceType], by simp [faceType, Pyramid]⟩
  | tri6 => exact ⟨by simp [faceType], by simp [faceType, Pyramid]⟩
  | quad4 => exact ⟨by simp [faceType], by simp [faceType, Pyramid]⟩
  | quad9 => exact ⟨by simp [faceType], by simp [faceType, Pyramid]⟩
  | tet4 => exact ⟨by simp [faceType], by simp [faceType, Pyramid]⟩
  | tet10 => exact ⟨by simp [faceType], by simp [faceType, Pyramid]⟩
  | hex8 => exact ⟨by simp [faceType], by simp [faceType, Pyramid]⟩
  | hex27 => exact ⟨by simp [faceType], by simp [faceType, Pyramid]⟩
  | prism6 => unfold faceType; simp only; split <;> exact ⟨by simp, by simp [Pyramid]⟩
  | prism18 => unfold faceType; simp only; split <;> exact ⟨by simp, by simp [Pyramid]⟩
  | pyramid5 => unfold faceType; simp only; split <;> exact ⟨by simp, by simp [Pyramid]⟩
  | pyramid14 => unfold faceType; simp only; split <;> exact ⟨by simp, by simp [Pyramid]⟩

theorem faceCoord_rep {i : Nat} {s : Fin 3 → ℝ} (hk : faceType t i ≠ .unknown) (hnp : ¬ Pyramid (faceType t i)) {a : Fin 3} {f : Fr}
    (hf : faceCoord t i a = some f) (h0 : f.k = 0) : Fr.Rep s (facePoint t i s a) f := by
  unfold faceCoord at hf
  split at hf
  · rename_i g hg
    obtain rfl := Option.some.inj hf
    obtain ⟨r1, r2⟩ := sumFr_sound (p := s) _ hg (Or.inr h0)
    refine ⟨?_, Nat.mul_ne_zero r2 two_ne_zero⟩
    show _ = P.fn g.num s
    rw [← r1]
    have e : facePoint t i s a * 2 = ((((List.range (nodes (faceType t i))).map fun k =>
        (coord2 t ((faceNodes t i).getD k 0) a, entry (faceType t i) 0 0 k))).map fun x => (x.1 : ℝ) * x.2.eval s).sum := by
      unfold facePoint
      rw [← List.sum_map_mul_right, List.map_map]
      congr 1
      apply List.map_congr_left
      intro k _
      simp only [Function.comp]
      rw [value_eq hk, guard_away (fun h => absurd h hnp), nodeAt_coord2]
      unfold half
      push_cast
      ring
    rw [← e]
    push_cast
    ring
  · exact absurd hf (by simp)

theorem face_value (ht : t ≠ .unknown) {i : Nat} (hi : (i : Int) < numFaces t) (h14 : t = .pyramid14 → i = 0) (s : Fin 3 → ℝ)
    (haw : Away t (facePoint t i s)) {j : Nat} (hj : j < nodes t) : value t j (facePoint t i s) = (faceWant t i j).eval s := by
  obtain ⟨hk, hnp⟩ := faceType_known ht hi
  have h := face_ok t ht i hi h14
  unfold faceCheck at h
  split at h
  · rename_i fa fb fc ha hb hc
    simp only [Bool.and_eq_true, beq_iff_eq] at h
    obtain ⟨⟨⟨ka, kb⟩, kc⟩, h⟩ := h
    have h := List.all_eq_true.mp h j (List.mem_range.mpr hj)
    split at h
    · rename_i f g hf hg
      simp only [Bool.and_eq_true, beq_iff_eq] at h
      obtain ⟨⟨h1, h2⟩, h3⟩ := h
      have hne : Pyramid t → facePoint t i s 2 ≠ 1 := by
        intro hp h
        have := haw hp
        rw [h, sub_self, abs_zero] at this
        exact absurd this (not_le.mpr eps_pos)
      have of := fine_ok (p := facePoint t i s) h1 hne
      obtain ⟨⟨r1, r2⟩, _⟩ := Fr.norm_sound _ hf of
      obtain ⟨rg, _⟩ := Fr.norm_sound (p := s) _ hg (Or.inr h2)
      have ra := faceCoord_rep (s := s) hk hnp ha ka
      have rb := faceCoord_rep (s := s) hk hnp hb kb
      have rc := faceCoord_rep (s := s) hk hnp hc kc
      have rs := substFr_rep ra rb rc f.num
      have ru := Fr.rep_mul rg (Fr.rep_mul (Fr.rep_const (p := s) f.den) (Fr.rep_pow (Fr.rep_add rc (Fr.rep_const (p := s) (-1))) f.k))
      have pw : ∀ (f : Fr) n, f.k = 0 → (Fr.pow f n).k = 0 := by
        intro f n h
        rw [Fr.pow, Fr.mkF_eq]
        show f.k * n = 0
        rw [h, Nat.zero_mul]
      have ml : ∀ f g : Fr, f.k = 0 → g.k = 0 → (Fr.mul f g).k = 0 := by
        intro f g h h'
        rw [Fr.mul, Fr.mkF_eq]
        show f.k + g.k = 0
        omega
      have ad : ∀ f g : Fr, f.k = 0 → g.k = 0 → (Fr.add f g).k = 0 := by
        intro f g h h'
        rw [Fr.add]
        split
        · exact h
        · rw [Fr.mkF_eq]
          show max f.k g.k = 0
          omega
      have ks : ∀ n : P, (P.substFr fa fb fc n).k = 0 := by
        intro n
        induction n with
        | nil => rfl
        | cons m n ih => exact ad _ _ (ml _ _ rfl (ml _ _ (ml _ _ (pw _ _ ka) (pw _ _ kb)) (pw _ _ kc))) ih
      have e := Fr.eq_sound h3 rs ru (Or.inr (ks _)) (Or.inr (ml _ _ h2 (ml _ _ rfl (pw _ _ (ad _ _ kc rfl)))))
      rw [value_eq ht, guard_away haw]
      have hden : (f.den : ℝ) ≠ 0 := Nat.cast_ne_zero.mpr r2
      have e2 : P.ev (facePoint t i s 0) (facePoint t i s 1) (facePoint t i s 2) f.num =
          (faceWant t i j).eval s * (f.den * (facePoint t i s 2 - 1) ^ f.k) := by
        rw [e]
        push_cast
        ring
      unfold P.fn at r1
      rw [e2] at r1
      exact mul_right_cancel₀ (mul_ne_zero hden of.pow_ne) r1
    · exact absurd h (by simp)
  · exact absurd h (by simp)

theorem faceNodes_facts (ht : t ≠ .unknown) {i : Nat} (hi : (i : Int) < numFaces t) :
    (faceNodes t i).Nodup ∧ (faceNodes t i).length = nodes (faceType t i) ∧ ∀ j ∈ faceNodes t i, j < nodes t := by
  have key : ∀ t ∈ [ElemType.tri3, .tri6, .quad4, .quad9, .tet4, .tet10, .hex8, .hex27, .prism6, .prism18, .pyramid5, .pyramid14],
      ∀ i < (numFaces t).toNat, (faceNodes t i).Nodup ∧ (faceNodes t i).length = nodes (faceType t i) ∧ ∀ j ∈ faceNodes t i, j < nodes t := by
    decide +kernel
  refine key t ?_ i (by omega)
  cases t <;> first | exact absurd rfl ht | (simp [numFaces, dimOrder] at hi; omega) | simp

/-- **C68**. On a face, the shape functions of the nodes of the face are the shape functions of the face element, and those of
the other nodes vanish: whatever element lies on the other side, what is interpolated on the face is the same. (Not so on the
triangular faces of `Pyramid14`, see `pyramid14_not_conforming`.) -/
theorem face_conforming_partial (ht : t ≠ .unknown) {i : Nat} (hi : (i : Int) < numFaces t) (h14 : t = .pyramid14 → i = 0) (s : Fin 3 → ℝ)
    (haw : Away t (facePoint t i s)) :
    (∀ k < nodes (faceType t i), value t ((faceNodes t i).getD k 0) (facePoint t i s) = value (faceType t i) k s) ∧
    (∀ j < nodes t, j ∉ faceNodes t i → value t j (facePoint t i s) = 0) := by
  obtain ⟨hk, hnp⟩ := faceType_known ht hi
  obtain ⟨hnd, hlen, hlt⟩ := faceNodes_facts ht hi
  constructor
  · intro k hk'
    have hkl : k < (faceNodes t i).length := by rw [hlen]; exact hk'
    have hmem : (faceNodes t i).getD k 0 ∈ faceNodes t i := by
      rw [List.getD_eq_getElem _ _ hkl]
      exact List.getElem_mem _
    rw [face_value ht hi h14 s haw (hlt _ hmem), value_eq hk, guard_away (fun h => absurd h hnp)]
    unfold faceWant
    rw [if_pos hmem]
    congr 2
    rw [List.getD_eq_getElem _ _ hkl]
    exact List.Nodup.idxOf_getElem hnd k hkl
  · intro j hj hn
    rw [face_value ht hi h14 s haw hj]
    unfold faceWant
    rw [if_neg hn]
    simp [Ex.eval]

theorem val_differentiableAt {f : Fr} (hd : f.den ≠ 0) {q : Fin 3 → ℝ} (ho : Fr.Ok q f) : DifferentiableAt ℝ (Fr.val f) q := by
  have h1 : DifferentiableAt ℝ (fun q : Fin 3 → ℝ => (f.den : ℝ) * (q 2 - 1) ^ f.k) q := by fun_prop
  have h2 : (fun q : Fin 3 → ℝ => (f.den : ℝ) * (q 2 - 1) ^ f.k) q ≠ 0 := mul_ne_zero (Nat.cast_ne_zero.mpr hd) ho.pow_ne
  have h3 := (P.fn_differentiable f.num q).mul (h1.inv h2)
  have e : Fr.val f = P.fn f.num * (fun q : Fin 3 → ℝ => (f.den : ℝ) * (q 2 - 1) ^ f.k)⁻¹ := by
    funext q'
    simp [Fr.val, div_eq_mul_inv]
  rw [e]
  exact h3

theorem value_differentiableAt (ht : t ≠ .unknown) {j : Nat} (hj : j < nodes t) (hs : Steady t p) : DifferentiableAt ℝ (value t j) p := by
  obtain ⟨a, ha⟩ := guard_steady hs
  have hc := tab_entry ht (k := 0) (r := 0) (by omega) hj (by
    cases t <;> first | exact absurd rfl ht | decide)
  unfold entryCheck at hc
  split at hc
  · rename_i f g hf hg
    simp only [Bool.and_eq_true] at hc
    have of := fine_ok (p := guardPoint t p) hc.2.1 (guard_ne t p)
    have hd : f.den ≠ 0 := (Fr.norm_sound _ hf of).1.2
    have e : value t j =ᶠ[nhds p] fun q => Fr.val f (q - a) := by
      filter_upwards [ha] with q hq
      have oq := fine_ok (p := guardPoint t q) hc.2.1 (guard_ne t q)
      rw [value_eq ht, ← hq]
      exact (Fr.norm_sound _ hf oq).1.val oq
    refine DifferentiableAt.congr_of_eventuallyEq ?_ e
    have h1 := val_differentiableAt hd of
    rw [ha.self_of_nhds] at h1
    have h2 : DifferentiableAt ℝ (fun q : Fin 3 → ℝ => q - a) p := by fun_prop
    exact DifferentiableAt.comp p h1 h2
  · exact absurd hc (by simp)

/-- The physical place of the point `q` of an element whose nodes are at `cs`, as computed through `GetD01Nj`. -/
noncomputable def physical (t : ElemType) (cs : Fin 3 → Nat → ℝ) (a : Fin 3) (q : Fin 3 → ℝ) : ℝ :=
  match getD01Nj t q with
  | .ok v => pPhysics (nodes t) cs v a
  | _ => 0

/-- **C47** (Jacobian). The Jacobian that `ShapeJacobianCoordD01Nj` computes is the derivative of the place that
`PPhysicsCoordD01Nj` computes, for any coordinates of the nodes. -/
theorem jacobian_derivative (ht : t ≠ .unknown) (hs : Steady t p) (cs : Fin 3 → Nat → ℝ) (a b : Fin 3) :
    ∃ v, getD01Nj t p = .ok v ∧ shapeJacobian (nodes t) cs v a b = Jet.pd b (physical t cs a) p := by
  obtain ⟨v, hv, h⟩ := getD01Nj_jet ht hs
  refine ⟨v, hv, ?_⟩
  have e : physical t cs a = fun q => ((List.range (nodes t)).map fun j => cs a j * value t j q).sum := by
    funext q
    unfold physical
    have hq : getD01Nj t q = .ok fun r j => if r = 0 then (entry t 0 0 j).eval (guardPoint t q) else (entry t 1 (r - 1) j).eval (guardPoint t q) := by
      unfold getD01Nj getD1Nj; rw [getNj_eq ht, shapeFunc_eq ht]; rfl
    rw [hq]
    simp only [pPhysics, value_eq ht, if_true]
  have key : ∀ l : List Nat, (∀ j ∈ l, j < nodes t) → HasDerivAt (fun x => ((l.map fun j => cs a j * value t j (Function.update p b x)).sum))
      ((l.map fun j => cs a j * v (b + 1) j).sum) (p b) := by
    intro l
    induction l with
    | nil => intro _; simpa using hasDerivAt_const (p b) (0 : ℝ)
    | cons j l ih =>
      intro hl
      have hj := hl j (List.mem_cons_self ..)
      simp only [List.map_cons, List.sum_cons]
      refine HasDerivAt.add ?_ (ih fun j h => hl j (List.mem_cons_of_mem _ h))
      refine HasDerivAt.const_mul (cs a j) ?_
      rw [(h j hj).2 b]
      have h1 : DifferentiableAt ℝ (fun x => Function.update p b x) (p b) := (hasDerivAt_update p b (p b)).differentiableAt
      have h2 : DifferentiableAt ℝ (value t j) (Function.update p b (p b)) := by
        rw [Function.update_eq_self]
        exact value_differentiableAt ht hj hs
      exact (DifferentiableAt.comp (p b) h2 h1).hasDerivAt
  rw [e]
  exact (key (List.range (nodes t)) fun j hj => List.mem_range.mp hj).deriv.symm

/-- **C68** (places). The physical place of a point of a face is the same whether computed through the element or through
the face element with the coordinates of its own nodes. -/
theorem face_place_partial (ht : t ≠ .unknown) {i : Nat} (hi : (i : Int) < numFaces t) (h14 : t = .pyramid14 → i = 0) (s : Fin 3 → ℝ)
    (haw : Away t (facePoint t i s)) (x : Nat → ℝ) :
    ((List.range (nodes t)).map fun j => x j * value t j (facePoint t i s)).sum =
      ((List.range (nodes (faceType t i))).map fun k => x ((faceNodes t i).getD k 0) * value (faceType t i) k s).sum := by
  obtain ⟨h1, h2⟩ := face_conforming_partial ht hi h14 s haw
  obtain ⟨hnd, hlen, hlt⟩ := faceNodes_facts ht hi
  set g : Nat → ℝ := fun j => x j * value t j (facePoint t i s) with hg
  have e1 : ((List.range (nodes (faceType t i))).map fun k => x ((faceNodes t i).getD k 0) * value (faceType t i) k s) =
      (faceNodes t i).map g := by
    apply List.ext_getElem
    · simp [hlen]
    · intro k hk1 hk2
      simp only [List.length_map, List.length_range] at hk1
      simp only [List.getElem_map, List.getElem_range]
      rw [← h1 k hk1, List.getD_eq_getElem _ _ (by rw [hlen]; exact hk1)]
  rw [e1]
  have e2 : ((List.range (nodes t)).map g).sum = ∑ j ∈ Finset.range (nodes t), g j := rfl
  have e3 : ((faceNodes t i).map g).sum = ∑ j ∈ (faceNodes t i).toFinset, g j := (List.sum_toFinset g hnd).symm
  rw [e2, e3]
  symm
  apply Finset.sum_subset
  · intro j hj
    exact Finset.mem_range.mpr (hlt j (List.mem_toFinset.mp hj))
  · intro j hj hn
    simp only [hg]
    rw [h2 j (Finset.mem_range.mp hj) (fun h => hn (List.mem_toFinset.mpr h)), mul_zero]

/-! ## The second order pyramid -/

/-- The value of an entry at a rational point. -/
def evalCheck (e : Ex) (x y z v : ℚ) : Bool :=
  match Fr.norm e with
  | some f => decide (z ≠ 1 ∧ P.evQ x y z f.num = v * (f.den * (z - 1) ^ f.k))
  | none => false

theorem evalCheck_sound {e : Ex} {x y z v : ℚ} (h : evalCheck e x y z v = true) (hp : p = ![(x : ℝ), (y : ℝ), (z : ℝ)]) : e.eval p = v := by
  unfold evalCheck at h
  split at h
  · rename_i f hf
    obtain ⟨h1, h2⟩ := of_decide_eq_true h
    have hz : p 2 - 1 ≠ 0 := by
      rw [hp]
      show ((z : ℚ) : ℝ) - 1 ≠ 0
      intro h
      apply h1
      have : ((z : ℚ) : ℝ) = 1 := by linarith
      exact_mod_cast this
    have of : Fr.Ok p f := Or.inl hz
    obtain ⟨⟨r1, r2⟩, _⟩ := Fr.norm_sound _ hf of
    have hn : P.fn f.num p = ((P.evQ x y z f.num : ℚ) : ℝ) := by
      rw [P.evQ_cast, hp]
      simp [P.fn]
    have hz2 : p 2 = z := by rw [hp]; rfl
    rw [hn, h2, hz2] at r1
    rw [hz2] at hz
    push_cast at r1
    exact mul_right_cancel₀ (mul_ne_zero (Nat.cast_ne_zero.mpr r2) (pow_ne_zero _ hz)) r1
  · exact absurd h (by simp)

theorem away_quarter (t : ElemType) (x y : ℝ) : Away t ![x, y, 1 / 4] := by
  intro _
  show (1 : ℝ) / 10 ^ 15 ≤ |1 - 1 / 4|
  rw [abs_of_pos (by norm_num)]
  norm_num

/-- **C67**, refuted for `Pyramid14`: it is of second order, but does not reproduce `ξ²`. At `(1/4, 0, 1/4)`, a point inside,
it gives `11/48` in place of `1/16`. -/
theorem pyramid14_not_quadratic : order .pyramid14 = 2 ∧ Away .pyramid14 ![1 / 4, 0, 1 / 4] ∧
    ((List.range (nodes .pyramid14)).map fun j => nodeAt .pyramid14 j 0 ^ 2 * value .pyramid14 j ![1 / 4, 0, 1 / 4]).sum = 11 / 48 := by
  refine ⟨rfl, away_quarter _ _ _, ?_⟩
  have ht : ElemType.pyramid14 ≠ .unknown := by decide
  let w : Nat → ℚ := fun j => [0, 0, 0, 0, -1 / 8, 0, 1 / 12, 0, -1 / 24, 1 / 8, 1 / 4, 1 / 4, 1 / 8, 1 / 3].getD j 0
  have hw : ∀ j < 14, evalCheck (entry .pyramid14 0 0 j) (1 / 4) 0 (1 / 4) (w j) = true := by decide +kernel
  have hv : ∀ j < 14, value .pyramid14 j ![1 / 4, 0, 1 / 4] = w j := by
    intro j hj
    rw [value_eq ht, guard_away (away_quarter _ _ _)]
    exact evalCheck_sound (hw j hj) (by norm_num)
  have e : ((List.range (nodes .pyramid14)).map fun j => nodeAt .pyramid14 j 0 ^ 2 * value .pyramid14 j ![1 / 4, 0, 1 / 4]) =
      (List.range 14).map fun j => (((half (coord2 .pyramid14 j 0)) ^ 2 * w j : ℚ) : ℝ) := by
    apply List.map_congr_left
    intro j hj
    rw [hv j (List.mem_range.mp hj), nodeAt_coord2]
    push_cast
    rfl
  have hq : (((List.range 14).map fun j => (half (coord2 .pyramid14 j 0)) ^ 2 * w j).sum : ℚ) = 11 / 48 := by decide +kernel
  rw [e]
  have hc : ∀ (l : List Nat) (f : Nat → ℚ), (l.map fun j => ((f j : ℚ) : ℝ)).sum = (((l.map f).sum : ℚ) : ℝ) := by
    intro l f
    induction l with
    | nil => simp
    | cons a l ih => simp [ih]
  rw [hc _ fun j => (half (coord2 .pyramid14 j 0)) ^ 2 * w j, hq]
  norm_num

/-- **C68**, refuted for `Pyramid14`: on its face 1, at the point with the parameters `(1/4, 1/4)`, the shape function of the
first node of the face is `1/12`, while that of the face element is `0`. A `Tet10` or `Prism18` on the other side of the face
has the value of the face element, so the two interpolations of the same nodal values part on the face. -/
theorem pyramid14_not_conforming : faceType .pyramid14 1 = .tri6 ∧ (faceNodes .pyramid14 1).getD 0 0 = 0 ∧
    facePoint .pyramid14 1 ![1 / 4, 1 / 4, 0] = ![-1 / 4, -3 / 4, 1 / 4] ∧
    value .pyramid14 0 ![-1 / 4, -3 / 4, 1 / 4] = 1 / 12 ∧ value .tri6 0 ![1 / 4, 1 / 4, 0] = 0 := by
  have h6 : ElemType.tri6 ≠ .unknown := by decide
  have h6p : ¬ Pyramid .tri6 := by simp [Pyramid]
  let w : Nat → ℚ := fun j => [0, -1 / 8, -1 / 8, 1 / 2, 1 / 4, 1 / 2].getD j 0
  have hw : ∀ j < 6, evalCheck (entry .tri6 0 0 j) (1 / 4) (1 / 4) 0 (w j) = true := by decide +kernel
  have hv : ∀ j < 6, value .tri6 j ![1 / 4, 1 / 4, 0] = w j := by
    intro j hj
    rw [value_eq h6, guard_away (fun h => absurd h h6p)]
    exact evalCheck_sound (hw j hj) (by norm_num)
  refine ⟨rfl, rfl, ?_, ?_, ?_⟩
  · have hc : ∀ (l : List Nat) (f : Nat → ℚ), (l.map fun j => ((f j : ℚ) : ℝ)).sum = (((l.map f).sum : ℚ) : ℝ) := by
      intro l f
      induction l with
      | nil => simp
      | cons a l ih => simp [ih]
    have e : ∀ a, facePoint .pyramid14 1 ![1 / 4, 1 / 4, 0] a =
        ((((List.range 6).map fun k => half (coord2 .pyramid14 ((faceNodes .pyramid14 1).getD k 0) a) * w k).sum : ℚ) : ℝ) := by
      intro a
      rw [← hc]
      show ((List.range 6).map fun k => nodeAt .pyramid14 ((faceNodes .pyramid14 1).getD k 0) a * value .tri6 k ![1 / 4, 1 / 4, 0]).sum = _
      congr 1
      apply List.map_congr_left
      intro k hk
      rw [hv k (List.mem_range.mp hk), nodeAt_coord2]
      push_cast
      rfl
    have q : ∀ a : Fin 3, ((List.range 6).map fun k => half (coord2 .pyramid14 ((faceNodes .pyramid14 1).getD k 0) a) * w k).sum =
        (![-1 / 4, -3 / 4, 1 / 4] : Fin 3 → ℚ) a := by decide +kernel
    funext a
    rw [e a, q a]
    match a with
    | 0 => norm_num
    | 1 => norm_num
    | 2 => show ((1 / 4 : ℚ) : ℝ) = 1 / 4; norm_num
  · rw [value_eq (by decide), guard_away (away_quarter _ _ _)]
    have h : evalCheck (entry .pyramid14 0 0 0) (-1 / 4) (-3 / 4) (1 / 4) (1 / 12) = true := by decide +kernel
    rw [evalCheck_sound h (by norm_num)]
    norm_num
  · rw [hv 0 (by decide)]
    norm_num [w]

/-! ## The hypotheses are met -/

/-- Interior points of a pyramid are steady and away from the apex. -/
example : Steady .pyramid14 ![1 / 4, 0, 1 / 4] ∧ Away .pyramid5 ![1 / 4, 0, 1 / 4] := by
  refine ⟨fun _ => ?_, away_quarter _ _ _⟩
  show (1 / 4 : ℝ) ≠ 1 ∧ |1 - (1 / 4 : ℝ)| ≠ 1 / 10 ^ 15
  rw [abs_of_pos (by norm_num)]
  norm_num

/-- Every point of an element that is not a pyramid is. -/
example (p : Fin 3 → ℝ) : Steady .hex27 p ∧ Away .hex27 p :=
  ⟨fun h => by simp [Pyramid] at h, fun h => by simp [Pyramid] at h⟩

/-- A mixed second derivative of a `Quad4` function: the third row after the value and the gradient. -/
example (p : Fin 3 → ℝ) : ∃ v, getDiNj .quad4 p 2 = .ok v ∧ v 4 2 = Jet.pdL [0, 1] (value .quad4 2) p := by
  obtain ⟨v, h1, h2⟩ := getDiNj_jet (t := .quad4) (p := p) (by decide) (fun h => by simp [Pyramid] at h) (n := 2) (by decide)
  exact ⟨v, h1, h2 2 (by decide) 4 (by decide)⟩

/-- A face of a hexahedron, at any of its points. -/
example (s : Fin 3 → ℝ) : value .hex27 26 (facePoint .hex27 3 s) = 0 :=
  (face_conforming_partial (t := .hex27) (by decide) (i := 3) (by decide) (by decide) s (fun h => by simp [Pyramid] at h)).2 26 (by decide) (by decide)

end DNDSR.Shape
