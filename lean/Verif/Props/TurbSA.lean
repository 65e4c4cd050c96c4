import Verif.Model.TurbSA
import Verif.Props.TurbKOmega

/-! # C114: the source of the Spalart-Allmaras model -/

namespace DNDSR.Turb

open Finset

variable {d : Nat}

theorem vorticity_nonneg (G : Fin d → Fin d → ℝ) : 0 ≤ vorticity G := by unfold vorticity; positivity

theorem saCw1_pos : 0 < saCw1 := by unfold saCw1; norm_num

/-- **C114** (negative values)  For every state with a negative turbulent variable, whatever the gradients of velocity and of the variable and with or without the correction for rotation:
where density does not change in space the source is positive, so that the variable rises towards zero, at least at the rate of `cw1` times the square of the variable over the distance to the wall. -/
theorem negative_recovers {u : St d} {g : Gr d} {muRef muf dist : ℝ} (hr : 0 < u.rho) (hk : u.k < 0) (hm : 0 < muRef) (hd : 0 < dist) (hg : ∀ i, g.rho i = 0) (rotCor : Bool) :
    saCw1 * muRef * u.k ^ 2 / (u.rho * dist ^ 2) ≤ saSource 0 rotCor u g muRef muf dist ∧ 0 < saSource 0 rotCor u g muRef muf dist := by
  have hc := saCw1_pos
  have hnu : u.k * muRef / u.rho < 0 := div_neg_of_neg_of_pos (mul_neg_of_neg_of_pos hk hm) hr
  have key : saCw1 * muRef * u.k ^ 2 / (u.rho * dist ^ 2) ≤ saSource 0 rotCor u g muRef muf dist := by
    unfold saSource
    simp only [if_true, hk, decide_true, hg, zero_mul, Finset.sum_const_zero, mul_zero, zero_div, sub_zero]
    set nuh := u.k * muRef / u.rho with hnuh
    set P := saP rotCor true (u.k * muRef / muf) nuh (vorticity (veloGrad u g)) (saStrain (veloGrad u g))
      (saSh (vorticity (veloGrad u g)) (saSbar (u.k * muRef / muf) nuh dist)) with hP
    have hS := vorticity_nonneg (veloGrad u g)
    have hP0 : 0 ≤ P := by
      rw [hP]
      unfold saP
      rw [if_pos rfl]
      split_ifs
      · have := abs_nonneg (vorticity (veloGrad u g) + 1 * min 0 (saStrain (veloGrad u g) - vorticity (veloGrad u g)))
        nlinarith [mul_nonneg this (neg_nonneg.2 hnu.le)]
      · nlinarith [mul_nonneg hS (neg_nonneg.2 hnu.le)]
    have hQ : 0 ≤ (∑ i, (g.k i * muRef / u.rho) ^ 2) * (622 / 1000) / (2 / 3) := by
      have : 0 ≤ ∑ i, (g.k i * muRef / u.rho) ^ 2 := Finset.sum_nonneg fun i _ => sq_nonneg _
      positivity
    unfold saD
    simp only [if_true]
    have e : saCw1 * muRef * u.k ^ 2 / (u.rho * dist ^ 2) = u.rho * (saCw1 * (nuh / dist) ^ 2) / muRef := by
      rw [hnuh]
      field_simp
    rw [e]
    refine div_le_div_of_nonneg_right (mul_le_mul_of_nonneg_left ?_ hr.le) hm.le
    linarith
  refine ⟨key, lt_of_lt_of_le ?_ key⟩
  have : 0 < u.k ^ 2 := by nlinarith
  positivity

/-- **C114** (negative values, uniform)  Where the turbulent variable per mass is uniform, density may change in space as it likes: a negative value rises at that rate too. -/
theorem negative_recovers_uniform {u : St d} {g : Gr d} {muRef muf dist : ℝ} (hr : 0 < u.rho) (hk : u.k < 0) (hm : 0 < muRef) (hd : 0 < dist)
    (hg : ∀ i, g.k i = u.k / u.rho * g.rho i) (rotCor : Bool) : saCw1 * muRef * u.k ^ 2 / (u.rho * dist ^ 2) ≤ saSource 0 rotCor u g muRef muf dist := by
  have hc := saCw1_pos
  have hnu : u.k * muRef / u.rho < 0 := div_neg_of_neg_of_pos (mul_neg_of_neg_of_pos hk hm) hr
  have hz : ∀ i, (g.k i * muRef - u.k * muRef / u.rho * g.rho i) / u.rho = 0 := by
    intro i
    rw [hg i]
    have : u.k / u.rho * g.rho i * muRef - u.k * muRef / u.rho * g.rho i = 0 := by ring
    rw [this, zero_div]
  unfold saSource
  simp only [if_true, hk, decide_true, hz, Finset.sum_const_zero, mul_zero, zero_div, sub_zero, ne_eq, OfNat.ofNat_ne_zero, not_false_eq_true, zero_pow, zero_mul, add_zero]
  set nuh := u.k * muRef / u.rho with hnuh
  set P := saP rotCor true (u.k * muRef / muf) nuh (vorticity (veloGrad u g)) (saStrain (veloGrad u g))
    (saSh (vorticity (veloGrad u g)) (saSbar (u.k * muRef / muf) nuh dist)) with hP
  have hS := vorticity_nonneg (veloGrad u g)
  have hP0 : 0 ≤ P := by
    rw [hP]
    unfold saP
    rw [if_pos rfl]
    split_ifs
    · have := abs_nonneg (vorticity (veloGrad u g) + 1 * min 0 (saStrain (veloGrad u g) - vorticity (veloGrad u g)))
      nlinarith [mul_nonneg this (neg_nonneg.2 hnu.le)]
    · nlinarith [mul_nonneg hS (neg_nonneg.2 hnu.le)]
  unfold saD
  simp only [if_true]
  have e : saCw1 * muRef * u.k ^ 2 / (u.rho * dist ^ 2) = u.rho * (saCw1 * (nuh / dist) ^ 2) / muRef := by
    rw [hnuh]
    field_simp
  rw [e]
  refine div_le_div_of_nonneg_right (mul_le_mul_of_nonneg_left ?_ hr.le) hm.le
  linarith

/-- **C114** (diffusion)  The coefficient with which the variable diffuses is positive, for negative values too. -/
theorem sa_diffusion {nut muRef muf : ℝ} (hf : 0 < muf) (hm : 0 < muRef) : 0 < nut * saFn (decide (nut < 0)) (nut * muRef / muf) * muRef + muf := by
  unfold saFn
  by_cases h : nut < 0
  · simp only [h, decide_true, if_true]
    obtain ⟨x, hx⟩ : ∃ x, x = -(nut * muRef / muf) := ⟨_, rfl⟩
    have hx0 : 0 < x := by
      rw [hx, neg_pos]
      exact div_neg_of_neg_of_pos (mul_neg_of_neg_of_pos h hm) hf
    have hc : nut * muRef / muf = -x := by linarith
    have hn : nut * muRef = -x * muf := by rw [← hc]; field_simp
    rw [hc]
    have hden : 0 < 16 - (-x) ^ 3 := by nlinarith [pow_pos hx0 3]
    have e : nut * ((16 + (-x) ^ 3) / (16 - (-x) ^ 3)) * muRef + muf = muf * (x ^ 4 + x ^ 3 - 16 * x + 16) / (16 - (-x) ^ 3) := by
      rw [show nut * ((16 + (-x) ^ 3) / (16 - (-x) ^ 3)) * muRef = nut * muRef * ((16 + (-x) ^ 3) / (16 - (-x) ^ 3)) by ring, hn]
      rw [eq_div_iff hden.ne', add_mul, mul_assoc, div_mul_cancel₀ _ hden.ne']
      ring
    rw [e]
    have hq : 0 < x ^ 4 + x ^ 3 - 16 * x + 16 := by
      nlinarith [sq_nonneg (x ^ 2 + x / 2 - 256 / 100), sq_nonneg (x - 138 / 100)]
    positivity
  · simp only [h, decide_false, Bool.false_eq_true, if_false]
    have : 0 ≤ nut * 1 * muRef := by
      have := not_lt.1 h
      positivity
    linarith

/-- **C114** (laminar flow)  Where the turbulent variable vanishes with its gradient, it has no source. -/
theorem laminar_stays {u : St d} {g : Gr d} (hk : u.k = 0) (hg : ∀ i, g.k i = 0) (rotCor : Bool) (muRef muf dist : ℝ) : saSource 0 rotCor u g muRef muf dist = 0 := by
  unfold saSource
  simp only [if_true, hk, hg]
  cases rotCor <;> simp [saP, saD]

/-- **C114** (rotation)  The modified rotation that production uses is at least a tenth of the rotation, whatever the turbulent variable. -/
theorem saSh_ge {S : ℝ} (hS : 0 ≤ S) (Sbar : ℝ) : S / 10 ≤ saSh S Sbar := by
  unfold saSh
  split_ifs with h
  · have hden : 0 < (9 / 10 - 2 * (7 / 10)) * S - Sbar ∨ S = 0 := by
      rcases hS.lt_or_eq with h0 | h0
      · left; linarith
      · right; exact h0.symm
    rcases hden with hden | h0
    · have : S + S * ((7 / 10) ^ 2 * S + 9 / 10 * Sbar) / ((9 / 10 - 2 * (7 / 10)) * S - Sbar) - S / 10 = S * (S * (4 / 100)) / ((9 / 10 - 2 * (7 / 10)) * S - Sbar) := by
        rw [eq_div_iff hden.ne']
        rw [sub_mul, add_mul, div_mul_cancel₀ _ hden.ne']
        ring
      have h2 : 0 ≤ S * (S * (4 / 100)) / ((9 / 10 - 2 * (7 / 10)) * S - Sbar) := by positivity
      linarith
    · subst h0; simp
  · linarith [not_lt.1 h]

/-- **C114** (rotation, branches)  Both branches of the modified rotation meet where the code changes over, and for a positive sum the modified rotation is below the rotation exactly when the correction is negative. -/
theorem saSh_lt {S Sbar : ℝ} (hS : 0 < S) : saSh S Sbar < S ↔ Sbar < 0 := by
  unfold saSh
  split_ifs with h
  · have hden : 0 < (9 / 10 - 2 * (7 / 10)) * S - Sbar := by linarith
    have hn : S * ((7 / 10) ^ 2 * S + 9 / 10 * Sbar) < 0 := mul_neg_of_pos_of_neg hS (by linarith)
    have := div_neg_of_neg_of_pos hn hden
    constructor
    · intro _; linarith
    · intro _; linarith
  · constructor <;> intro h' <;> linarith

/-- the branches meet -/
theorem saSh_meet {S : ℝ} (hS : 0 < S) :
    S + S * ((7 / 10) ^ 2 * S + 9 / 10 * (-(7 / 10) * S)) / ((9 / 10 - 2 * (7 / 10)) * S - -(7 / 10) * S) = saSh S (-(7 / 10) * S) := by
  unfold saSh
  rw [if_neg (lt_irrefl _)]
  have : (9 / 10 - 2 * (7 / 10)) * S - -(7 / 10) * S = S * (2 / 10) := by ring
  rw [this]
  field_simp
  ring

/-- **C114** (production)  Without the correction for rotation, once the turbulent variable reaches the viscosity of the gas production is not negative, whatever the velocity gradient. -/
theorem production_nonneg {chi nuh S : ℝ} (hc : 1 ≤ chi) (hn : 0 ≤ nuh) (hS : 0 ≤ S) (SS Sbar : ℝ) : 0 ≤ saP false false chi nuh S SS (saSh S Sbar) := by
  have hf : saFt2 chi ≤ 1 := by
    unfold saFt2
    have h1 : Real.exp (-(5 / 10) * chi ^ 2) ≤ Real.exp (-(5 / 10)) := Real.exp_le_exp.2 (by nlinarith)
    have h2 : Real.exp (-(5 / 10 : ℝ)) ≤ 1 / (1 + 5 / 10) := by
      rw [Real.exp_neg, ← one_div]
      refine one_div_le_one_div_of_le (by norm_num) ?_
      linarith [Real.add_one_le_exp (5 / 10 : ℝ)]
    linarith
  have := saSh_ge hS Sbar
  unfold saP
  simp only [Bool.false_eq_true, if_false]
  have h1 : 0 ≤ 1 - saFt2 chi := by linarith
  have h2 : 0 ≤ saSh S Sbar := by linarith
  positivity

/-- **C114 fails** for the correction for rotation, of which the code says that its factor avoids negative production: in a flow that rotates without strain production is negative for every rotation and distance, when the turbulent variable is
twice the viscosity of the gas. -/
theorem rotation_negative {nuh S dist : ℝ} (hn : 0 < nuh) (hS : 0 < S) (hd : 0 < dist) : saP true false 2 nuh S 0 (saSh S (saSbar 2 nuh dist)) < 0 := by
  have hb : saSbar 2 nuh dist < 0 := by
    unfold saSbar
    have : 0 < nuh / ((41 / 100) ^ 2 * dist ^ 2) := by positivity
    refine mul_neg_of_pos_of_neg this ?_
    norm_num
  have hlt := (saSh_lt hS).2 hb
  have hf : saFt2 2 < 1 := by
    unfold saFt2
    have h2 : Real.exp (-(5 / 10) * 2 ^ 2 : ℝ) ≤ 1 / (1 + 2) := by
      rw [show (-(5 / 10) * 2 ^ 2 : ℝ) = -2 by norm_num, Real.exp_neg, ← one_div]
      refine one_div_le_one_div_of_le (by norm_num) ?_
      linarith [Real.add_one_le_exp (2 : ℝ)]
    linarith
  unfold saP
  simp only [Bool.false_eq_true, if_false, if_true]
  rw [min_eq_right (by linarith)]
  have h1 : 0 < 1 - saFt2 2 := by linarith
  have h2 : saSh S (saSbar 2 nuh dist) + 1 * (0 - S) < 0 := by linarith
  have h3 : 1355 / 10000 * (1 - saFt2 2) * (saSh S (saSbar 2 nuh dist) + 1 * (0 - S)) < 0 := mul_neg_of_pos_of_neg (by positivity) h2
  exact mul_neg_of_neg_of_pos h3 hn

/-- **C114** (destruction)  The wall function is not negative and at most the sixth root of 65, and one where production balances. -/
theorem saFw_bounds {nuh Sh dist : ℝ} (hn : 0 ≤ nuh) (hS : 0 ≤ Sh) : 0 ≤ saFw nuh Sh dist ∧ saFw nuh Sh dist ≤ 65 ^ (1 / 6 : ℝ) := by
  unfold saFw
  simp only
  set r := min (nuh / (Sh * (41 / 100 * dist) ^ 2 + 1 / 10 ^ 200)) 10 with hr
  have hr0 : 0 ≤ r := le_min (by positivity) (by norm_num)
  set g := r + 3 / 10 * (r ^ 6 - r) with hg
  have hg0 : 0 ≤ g := by
    have : 0 ≤ r ^ 6 := by positivity
    linarith
  refine ⟨by positivity, ?_⟩
  have hgr : g = (g ^ 6) ^ (1 / 6 : ℝ) := by
    rw [← Real.rpow_natCast, ← Real.rpow_mul hg0]; norm_num
  have : g * ((1 + 2 ^ 6) / (g ^ 6 + 2 ^ 6)) ^ (1 / 6 : ℝ) = (g ^ 6 * ((1 + 2 ^ 6) / (g ^ 6 + 2 ^ 6))) ^ (1 / 6 : ℝ) := by
    rw [Real.mul_rpow (by positivity) (by positivity), ← hgr]
  rw [this]
  refine Real.rpow_le_rpow (by positivity) ?_ (by norm_num)
  rw [← mul_div_assoc, div_le_iff₀ (by positivity)]
  nlinarith [pow_nonneg hg0 6]

/-- **C114** (rates)  What is handed to the implicit scheme is positive for every state. -/
theorem sa_rate (rotCor : Bool) (u : St d) (g : Gr d) (muRef muf dist : ℝ) : 1 / 10 ^ 200 ≤ saSource 1 rotCor u g muRef muf dist := by
  unfold saSource
  simp only [one_ne_zero, if_false]
  have := min_le_right (u.rho * (saP rotCor (decide (u.k < 0)) (u.k * muRef / muf) (u.k * muRef / u.rho) (vorticity (veloGrad u g)) (saStrain (veloGrad u g))
    (saSh (vorticity (veloGrad u g)) (saSbar (u.k * muRef / muf) (u.k * muRef / u.rho) dist)) * 0 -
    saD (decide (u.k < 0)) (u.k * muRef / muf) (u.k * muRef / u.rho) (saSh (vorticity (veloGrad u g)) (saSbar (u.k * muRef / muf) (u.k * muRef / u.rho) dist)) dist * 2) / muRef / (u.k + 1 / 10 ^ 200)) (-(1 / 10 ^ 200))
  linarith

/-- **C114** (frames)  The source is the same in every frame that moves with constant velocity. -/
theorem sa_boost {u : St d} (hr : u.rho ≠ 0) (g : Gr d) (w : Fin d → ℝ) (mode : Int) (rotCor : Bool) (muRef muf dist : ℝ) :
    saSource mode rotCor (u.boost w) (g.boost w) muRef muf dist = saSource mode rotCor u g muRef muf dist := by
  unfold saSource
  rw [veloGrad_boost hr]
  rfl

/-- a flow that rotates without strain, as in `rotation_negative` -/
example : saStrain (fun i j : Fin 2 => if i = j then 0 else if i = 0 then (1 : ℝ) else -1) = 0 ∧ 0 < vorticity (fun i j : Fin 2 => if i = j then 0 else if i = 0 then (1 : ℝ) else -1) := by
  constructor
  · simp [saStrain, Fin.sum_univ_two]
  · unfold vorticity
    have : 0 < ∑ i : Fin 2, ∑ j : Fin 2, (((if j = i then 0 else if j = 0 then (1 : ℝ) else -1) - (if i = j then 0 else if i = 0 then (1 : ℝ) else -1)) * (1 / 2)) ^ 2 := by
      simp [Fin.sum_univ_two]
      norm_num
    positivity

/-- a state that meets the hypotheses of `negative_recovers` -/
example : 0 < saSource (d := 2) 0 true ⟨1, fun _ => 1, -1, 0⟩ ⟨fun _ => 0, fun i _ => i, fun _ => 3, fun _ => 0⟩ 1 1 1 :=
  (negative_recovers (by norm_num) (by norm_num) (by norm_num) (by norm_num) (fun _ => rfl) true).2

end DNDSR.Turb
