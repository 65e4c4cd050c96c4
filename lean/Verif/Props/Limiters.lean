import Verif.Model.Limiters
import Verif.Spec.Limiters
import Mathlib.Tactic.FieldSimp
import Mathlib.Tactic.Ring
import Mathlib.Tactic.LinearCombination
import Mathlib.Tactic.Linarith
import Mathlib.Tactic.Positivity
import Mathlib.Tactic.NormNum
import Mathlib.Algebra.BigOperators.Field
import Mathlib.Algebra.Order.BigOperators.Ring.Finset

/-!
# Limiters (C45, C46, C61)
-/

namespace DNDSR.Lim

open DNDSR.Gas

theorem sgn_pos {x : ℝ} (h : 0 < x) : sgn x = 1 := if_pos h
theorem sgn_neg {x : ℝ} (h : x < 0) : sgn x = -1 := by rw [sgn, if_neg (by linarith), if_pos h]
theorem sgn_zero : sgn 0 = 0 := by simp [sgn]
theorem sgn_mul_abs (x : ℝ) : sgn x * |x| = x := by
  rcases lt_trichotomy x 0 with h | h | h
  · rw [sgn_neg h, abs_of_neg h]; ring
  · rw [h, sgn_zero]; ring
  · rw [sgn_pos h, abs_of_pos h]; ring
theorem sgn_neg' (x : ℝ) : sgn (-x) = -sgn x := by
  rcases lt_trichotomy x 0 with h | h | h
  · rw [sgn_neg h, sgn_pos (by linarith)]; ring
  · rw [h, neg_zero, sgn_zero, neg_zero]
  · rw [sgn_pos h, sgn_neg (by linarith)]
theorem sgn_sq {x : ℝ} (h : x ≠ 0) : sgn x * sgn x = 1 := by
  rcases lt_or_gt_of_ne h with h | h
  · rw [sgn_neg h]; ring
  · rw [sgn_pos h]; ring
theorem abs_sgn {x : ℝ} (h : x ≠ 0) : |sgn x| = 1 := by
  rcases lt_or_gt_of_ne h with h | h
  · rw [sgn_neg h]; simp
  · rw [sgn_pos h]; simp
theorem guard_pos : 0 < guard := by unfold guard; positivity
theorem verySmall_pos : 0 < verySmall := by unfold verySmall; positivity

/-- **C45** (minmod) The smaller of two values of one sign, zero when the signs differ. -/
theorem minmod_spec (u1 u2 : ℝ) :
    (0 ≤ u1 → 0 ≤ u2 → minmod u1 u2 = min u1 u2) ∧ (u1 ≤ 0 → u2 ≤ 0 → minmod u1 u2 = max u1 u2) ∧ (u1 * u2 ≤ 0 → minmod u1 u2 = 0) := by
  have key : ∀ a b : ℝ, 0 ≤ a → 0 ≤ b → minmod a b = min a b := by
    intro a b ha hb
    rcases ha.lt_or_eq with ha' | ha'
    · rcases hb.lt_or_eq with hb' | hb'
      · rw [minmod, sgn_pos ha', sgn_pos hb', abs_of_pos ha', abs_of_pos hb']; ring
      · rw [minmod, ← hb', abs_zero, min_eq_right (abs_nonneg a), min_eq_right ha]; ring
    · rw [minmod, ← ha', abs_zero, min_eq_left (abs_nonneg b), min_eq_left hb]; ring
  refine ⟨key u1 u2, fun h1 h2 => ?_, fun h => ?_⟩
  · have := key (-u1) (-u2) (by linarith) (by linarith)
    rw [min_neg_neg] at this
    simp only [minmod, abs_neg, sgn_neg'] at this ⊢
    linarith
  · rcases lt_trichotomy u1 0 with h1 | h1 | h1
    · rcases lt_trichotomy u2 0 with h2 | h2 | h2
      · nlinarith [mul_pos_of_neg_of_neg h1 h2]
      · rw [minmod, h2, abs_zero, min_eq_right (abs_nonneg _)]; ring
      · rw [minmod, sgn_neg h1, sgn_pos h2]; ring
    · rw [minmod, h1, abs_zero, min_eq_left (abs_nonneg _)]; ring
    · rcases lt_trichotomy u2 0 with h2 | h2 | h2
      · rw [minmod, sgn_pos h1, sgn_neg h2]; ring
      · rw [minmod, h2, abs_zero, min_eq_right (abs_nonneg _)]; ring
      · nlinarith [mul_pos h1 h2]

/-- **C45** (van Leer) Zero when the signs differ; between the two values (below by at most half of the guard 1e-200) when they agree,
and at most their harmonic mean. -/
theorem vanLeer_spec (u1 u2 : ℝ) :
    (0 < u1 → 0 < u2 → min u1 u2 - 1 / 10 ^ 200 / 2 ≤ vanLeer u1 u2 ∧ vanLeer u1 u2 ≤ 2 * u1 * u2 / (u1 + u2) ∧ vanLeer u1 u2 ≤ max u1 u2) ∧
    vanLeer (-u1) (-u2) = -vanLeer u1 u2 ∧ (u1 * u2 ≤ 0 → vanLeer u1 u2 = 0) := by
  have hv := verySmall_pos
  refine ⟨fun h1 h2 => ?_, ?_, fun h => ?_⟩
  · have e : vanLeer u1 u2 = 2 * u1 * u2 / (u1 + u2 + verySmall) := by
      rw [vanLeer, sgn_pos h1, sgn_pos h2, abs_of_pos (mul_pos h1 h2), abs_of_pos (add_pos h1 h2)]
      ring
    have hd : 0 < u1 + u2 + verySmall := by linarith
    have hharm : 2 * u1 * u2 / (u1 + u2) ≤ max u1 u2 := by
      rw [div_le_iff₀ (by linarith)]
      rcases le_total u1 u2 with hle | hle
      · rw [max_eq_right hle]; nlinarith
      · rw [max_eq_left hle]; nlinarith
    have hle1 : 2 * u1 * u2 / (u1 + u2 + verySmall) ≤ 2 * u1 * u2 / (u1 + u2) :=
      div_le_div_of_nonneg_left (by positivity) (by linarith) (by linarith)
    rw [e]
    refine ⟨?_, hle1, hle1.trans hharm⟩
    rw [le_div_iff₀ hd]
    show (min u1 u2 - verySmall / 2) * (u1 + u2 + verySmall) ≤ 2 * u1 * u2
    rcases le_total u1 u2 with hle | hle
    · rw [min_eq_left hle]; nlinarith
    · rw [min_eq_right hle]; nlinarith
  · simp only [vanLeer, sgn_neg', neg_mul_neg]
    rw [← neg_add, ← neg_add, abs_neg]
    ring
  · rcases lt_trichotomy u1 0 with h1 | h1 | h1
    · rcases lt_trichotomy u2 0 with h2 | h2 | h2
      · nlinarith [mul_pos_of_neg_of_neg h1 h2]
      · rw [vanLeer, h2]; simp
      · rw [vanLeer, sgn_neg h1, sgn_pos h2]; simp
    · rw [vanLeer, h1]; simp
    · rcases lt_trichotomy u2 0 with h2 | h2 | h2
      · rw [vanLeer, sgn_pos h1, sgn_neg h2]; simp
      · rw [vanLeer, h2]; simp
      · nlinarith [mul_pos h1 h2]

/-- `frac` times the guarded other value is the first value -/
theorem frac_mul {u1 u2 : ℝ} (h : u2 ≠ 0) : frac u1 u2 * (u2 + sgn u2 * guard) = u1 := by
  have hp : 0 < |u2| + guard := by linarith [abs_nonneg u2, guard_pos]
  have e : u2 + sgn u2 * guard = sgn u2 * (|u2| + guard) := by
    have := sgn_mul_abs u2
    linear_combination -this
  rw [frac, e]
  have := sgn_sq h
  field_simp
  linear_combination u1 * this

/-- the two-way WBAP value is the average of the first value with weight `n` and the guarded second value with weight `frac⁴` -/
theorem wbap_average {n u1 u2 : ℝ} (h : u2 ≠ 0) :
    u1 * (n + frac u1 u2 * frac u1 u2 * frac u1 u2) = n * u1 + frac u1 u2 * frac u1 u2 * (frac u1 u2 * frac u1 u2) * (u2 + sgn u2 * guard) := by
  have := frac_mul (u1 := u1) h
  linear_combination -(frac u1 u2) ^ 3 * this

theorem between_average {n t a b x : ℝ} (hn : 0 ≤ n) (ht : 0 ≤ t) (hs : 0 < n + t) (hx : x = (n * a + t * b) / (n + t)) : Between a b x := by
  constructor
  · rw [hx, le_div_iff₀ hs]
    nlinarith [min_le_left a b, min_le_right a b]
  · rw [hx, div_le_iff₀ hs]
    nlinarith [le_max_left a b, le_max_right a b]

/-- **C45** (WBAP) With a positive parameter the result lies between the two values, the second moved away from zero by the guard
1e-50; it is zero when one of them is zero.  (In particular for equal inputs it is that input up to the guard.) -/
theorem wbap_spec {n : ℝ} (hn : 0 < n) (u1 u2 : ℝ) :
    (0 < u2 → Between u1 (u2 + 1 / 10 ^ 50) (wbap n u1 u2)) ∧ (u2 < 0 → Between u1 (u2 - 1 / 10 ^ 50) (wbap n u1 u2)) ∧
    (u1 * u2 = 0 → wbap n u1 u2 = 0) := by
  have key : u2 ≠ 0 → Between u1 (u2 + sgn u2 * guard) (wbap n u1 u2) := fun h => by
    have ht : 0 ≤ frac u1 u2 * frac u1 u2 * (frac u1 u2 * frac u1 u2) := mul_self_nonneg _
    refine between_average hn.le ht (by linarith) ?_
    simp only [wbap, abs_sgn h, mul_one]
    rw [wbap_average h]
  refine ⟨fun h => ?_, fun h => ?_, fun h => ?_⟩
  · have := key h.ne'
    rwa [sgn_pos h, one_mul] at this
  · have := key h.ne
    rwa [sgn_neg h, neg_one_mul, ← sub_eq_add_neg] at this
  · rcases mul_eq_zero.mp h with h | h
    · rw [wbap, h]; simp
    · rw [wbap, h, sgn_zero]; simp

/-- **C45** (WBAP with cut) As `wbap_spec` when the signs agree, and zero when they do not. -/
theorem wbapCut_spec {n : ℝ} (hn : 0 < n) (u1 u2 : ℝ) :
    (0 < u1 → 0 < u2 → Between u1 (u2 + 1 / 10 ^ 50) (wbapCut n u1 u2)) ∧
    (u1 < 0 → u2 < 0 → Between u1 (u2 - 1 / 10 ^ 50) (wbapCut n u1 u2)) ∧ (u1 * u2 ≤ 0 → wbapCut n u1 u2 = 0) := by
  have e : wbapCut n u1 u2 = wbap n u1 u2 * (1 / 2 * |sgn u1 + sgn u2|) := by
    simp only [wbapCut, wbap]
    ring
  refine ⟨fun h1 h2 => ?_, fun h1 h2 => ?_, fun h => ?_⟩
  · have e1 : (1 : ℝ) / 2 * |1 + 1| = 1 := by norm_num
    rw [e, sgn_pos h1, sgn_pos h2, e1, mul_one]
    exact (wbap_spec hn u1 u2).1 h2
  · have e1 : (1 : ℝ) / 2 * |(-1) + (-1)| = 1 := by norm_num
    rw [e, sgn_neg h1, sgn_neg h2, e1, mul_one]
    exact (wbap_spec hn u1 u2).2.1 h2
  · rcases h.lt_or_eq with h | h
    · rcases mul_neg_iff.mp h with ⟨h1, h2⟩ | ⟨h1, h2⟩
      · rw [e, sgn_pos h1, sgn_neg h2]; simp
      · rw [e, sgn_neg h1, sgn_pos h2]; simp
    · rw [e, (wbap_spec hn u1 u2).2.2 h, zero_mul]

/-- non-vacuity: opposite signs do occur, and then the limiter without cut need not vanish. -/
example : wbapCut 1 1 (-1) = 0 ∧ minmod 1 (-1) = 0 ∧ vanLeer 1 (-1) = 0 ∧ minmod 3 2 = 2 :=
  ⟨(wbapCut_spec one_pos 1 (-1)).2.2 (by norm_num), (minmod_spec 1 (-1)).2.2 (by norm_num), (vanLeer_spec 1 (-1)).2.2 (by norm_num),
    by rw [(minmod_spec 3 2).1 (by norm_num) (by norm_num)]; norm_num⟩

/-! ### the multi-way limiter -/

theorem multiLoop_eq (u0 : ℝ) (us : List ℝ) (h : ∀ u ∈ us, u ≠ 0) : ∀ s : ℝ × ℝ × ℝ,
    us.foldl (fun s u => (s.1 + frac u0 u * frac u0 u * frac u0 u, s.2.1 + (frac u0 u * frac u0 u) * (frac u0 u * frac u0 u), s.2.2 * |sgn u|)) s =
      (s.1 + (us.map fun u => frac u0 u ^ 3).sum, s.2.1 + (us.map fun u => frac u0 u ^ 4).sum, s.2.2) := by
  induction us with
  | nil => intro s; simp
  | cons u us ih =>
    intro s
    rw [List.foldl_cons, ih (fun v hv => h v (List.mem_cons_of_mem _ hv)), abs_sgn (h u List.mem_cons_self)]
    simp only [List.map_cons, List.sum_cons, mul_one, Prod.mk.injEq, and_true]
    constructor <;> ring

theorem multiLoop_cent_zero (u0 : ℝ) (us : List ℝ) : ∀ s : ℝ × ℝ × ℝ, (s.2.2 = 0 ∨ 0 ∈ us) →
    (us.foldl (fun s u => (s.1 + frac u0 u * frac u0 u * frac u0 u, s.2.1 + (frac u0 u * frac u0 u) * (frac u0 u * frac u0 u), s.2.2 * |sgn u|)) s).2.2 = 0 := by
  induction us with
  | nil => intro s h; simpa using h
  | cons u us ih =>
    intro s h
    rw [List.foldl_cons]
    refine ih _ ?_
    rcases h with h | h
    · exact Or.inl (by simp [h])
    · rcases List.mem_cons.mp h with h | h
      · exact Or.inl (by simp [← h, sgn_zero])
      · exact Or.inr h

/-- **C46** (zero) If the centre value or any candidate is zero the result is zero. -/
theorem multi_zero (n1 u0 : ℝ) (us : List ℝ) (h : u0 = 0 ∨ 0 ∈ us) : wbapMulti n1 u0 us = 0 := by
  have := multiLoop_cent_zero u0 us (0, 0, u0) h
  simp only [wbapMulti, multiLoop]
  rw [this]
  ring

theorem pow4_nonneg (x : ℝ) : 0 ≤ x ^ 4 := by positivity

theorem sum_pow4_nonneg (u0 : ℝ) (us : List ℝ) : 0 ≤ (us.map fun u => frac u0 u ^ 4).sum := by
  refine List.sum_nonneg fun x hx => ?_
  obtain ⟨u, _, rfl⟩ := List.mem_map.mp hx
  exact pow4_nonneg _

theorem multi_formula {n1 u0 : ℝ} {us : List ℝ} (hus : ∀ u ∈ us, u ≠ 0) :
    wbapMulti n1 u0 us = (n1 * u0 + (us.map fun u => frac u0 u ^ 4 * (u + sgn u * guard)).sum) / (n1 + (us.map fun u => frac u0 u ^ 4).sum) := by
  simp only [wbapMulti, multiLoop]
  rw [multiLoop_eq u0 us hus]
  simp only [zero_add]
  rw [add_comm _ n1, add_comm _ n1]
  congr 1
  rw [mul_add, mul_comm]
  congr 1
  clear * - hus
  induction us with
  | nil => simp
  | cons u us ih =>
    simp only [List.map_cons, List.sum_cons]
    rw [mul_add, ih fun v hv => hus v (List.mem_cons_of_mem _ hv)]
    congr 1
    have := frac_mul (u1 := u0) (hus u List.mem_cons_self)
    linear_combination -(frac u0 u) ^ 3 * this

/-- **C46** (bounds) The result lies in every interval that contains the centre value and all candidates, the candidates moved away from
zero by the guard 1e-50. -/
theorem multi_bounds {n1 : ℝ} (hn : 0 < n1) {u0 : ℝ} {us : List ℝ} (hus : ∀ u ∈ us, u ≠ 0) {lo hi : ℝ} (h0 : lo ≤ u0 ∧ u0 ≤ hi)
    (h : ∀ u ∈ us, (0 < u → lo ≤ u + 1 / 10 ^ 50 ∧ u + 1 / 10 ^ 50 ≤ hi) ∧ (u < 0 → lo ≤ u - 1 / 10 ^ 50 ∧ u - 1 / 10 ^ 50 ≤ hi)) :
    lo ≤ wbapMulti n1 u0 us ∧ wbapMulti n1 u0 us ≤ hi := by
  rw [multi_formula hus]
  have hS := sum_pow4_nonneg u0 us
  have hb : ∀ u ∈ us, lo ≤ u + sgn u * guard ∧ u + sgn u * guard ≤ hi := fun u hu => by
    rcases lt_or_gt_of_ne (hus u hu) with h1 | h1
    · rw [sgn_neg h1, neg_one_mul, ← sub_eq_add_neg]
      exact (h u hu).2 h1
    · rw [sgn_pos h1, one_mul]
      exact (h u hu).1 h1
  have hsum : lo * (us.map fun u => frac u0 u ^ 4).sum ≤ (us.map fun u => frac u0 u ^ 4 * (u + sgn u * guard)).sum ∧
      (us.map fun u => frac u0 u ^ 4 * (u + sgn u * guard)).sum ≤ hi * (us.map fun u => frac u0 u ^ 4).sum := by
    clear * - hb
    induction us with
    | nil => simp
    | cons u us ih =>
      obtain ⟨p, q⟩ := ih fun v hv => hb v (List.mem_cons_of_mem _ hv)
      obtain ⟨r, s⟩ := hb u List.mem_cons_self
      simp only [List.map_cons, List.sum_cons]
      have h4 := pow4_nonneg (frac u0 u)
      have a := mul_le_mul_of_nonneg_left r h4
      have b := mul_le_mul_of_nonneg_left s h4
      constructor <;> linarith
  constructor
  · rw [le_div_iff₀ (by linarith)]
    nlinarith [hsum.1]
  · rw [div_le_iff₀ (by linarith)]
    nlinarith [hsum.2]

/-- **C46** (agreement) When all candidates equal the centre value, the result is that value up to the guard. -/
theorem multi_agree {n1 : ℝ} (hn : 0 < n1) (u0 : ℝ) (N : Nat) :
    |wbapMulti n1 u0 (List.replicate N u0) - u0| ≤ 1 / 10 ^ 50 := by
  have hg : (0 : ℝ) < 1 / 10 ^ 50 := by positivity
  rcases lt_trichotomy u0 0 with h | h | h
  · obtain ⟨p, q⟩ := multi_bounds hn (u0 := u0) (us := List.replicate N u0) (lo := u0 - 1 / 10 ^ 50) (hi := u0)
      (fun u hu => by rw [List.eq_of_mem_replicate hu]; exact h.ne) ⟨by linarith, le_rfl⟩
      (fun u hu => by
        rw [List.eq_of_mem_replicate hu]
        exact ⟨fun h' => absurd h (not_lt.mpr h'.le), fun _ => ⟨le_rfl, by linarith⟩⟩)
    rw [abs_le]
    constructor <;> linarith
  · rw [multi_zero n1 u0 _ (Or.inl h), h, sub_zero, abs_zero]
    exact hg.le
  · obtain ⟨p, q⟩ := multi_bounds hn (u0 := u0) (us := List.replicate N u0) (lo := u0) (hi := u0 + 1 / 10 ^ 50)
      (fun u hu => by rw [List.eq_of_mem_replicate hu]; exact h.ne') ⟨le_rfl, by linarith⟩
      (fun u hu => by
        rw [List.eq_of_mem_replicate hu]
        exact ⟨fun _ => ⟨by linarith, le_rfl⟩, fun h' => absurd h (not_lt.mpr h'.le)⟩)
    rw [abs_le]
    constructor <;> linarith

theorem frac_neg (a b : ℝ) : frac (-a) (-b) = frac a b := by
  simp only [frac, abs_neg, sgn_neg']
  ring

/-- **C46** (odd) Reversing all signs reverses the result. -/
theorem multi_neg (n1 u0 : ℝ) (us : List ℝ) : wbapMulti n1 (-u0) (us.map fun u => -u) = -wbapMulti n1 u0 us := by
  by_cases hz : 0 ∈ us
  · rw [multi_zero n1 u0 us (Or.inr hz), multi_zero n1 (-u0) _ (Or.inr (List.mem_map.mpr ⟨0, hz, neg_zero⟩)), neg_zero]
  · have hus : ∀ u ∈ us, u ≠ 0 := fun u hu e => hz (e ▸ hu)
    rw [multi_formula hus, multi_formula (by
      intro u hu
      obtain ⟨v, hv, rfl⟩ := List.mem_map.mp hu
      exact neg_ne_zero.mpr (hus v hv)), ← neg_div]
    simp only [List.map_map, Function.comp_def, frac_neg, sgn_neg']
    congr 1
    have : (us.map fun u => frac u0 u ^ 4 * (-u + -sgn u * guard)).sum = -(us.map fun u => frac u0 u ^ 4 * (u + sgn u * guard)).sum := by
      clear * -
      induction us with
      | nil => simp
      | cons u us ih =>
        simp only [List.map_cons, List.sum_cons, ih]
        ring
    rw [this]
    ring

/-- non-vacuity: three positive values meet the hypotheses of `multi_bounds`. -/
example : 1 ≤ wbapMulti 1 2 [1, 3] ∧ wbapMulti 1 2 [1, 3] ≤ 4 := by
  refine multi_bounds one_pos (by simp) ⟨by norm_num, by norm_num⟩ fun u hu => ?_
  rcases List.mem_cons.mp hu with rfl | hu
  · exact ⟨fun _ => by norm_num, fun h => by norm_num at h⟩
  · rw [List.mem_singleton.mp hu]
    exact ⟨fun _ => by norm_num, fun h => by norm_num at h⟩

end DNDSR.Lim
