import Verif.Props.Wall

/-!
# HLLC seen from the two sides of a face (C58)

The solver picks the flux of the left state when the left wave goes to the right, and only then asks about the right wave.  Both can
point inwards when two streams collide faster than sound; then the flux depends on which side is called left.  It also depends on it
when the contact stands still and the means have other velocities than the states.  In all other cases it does not.
-/

namespace DNDSR.Gas

open DNDSR.BC

variable {d : Nat} {gamma : ℝ}

theorem hllcSpeeds_mirror (ULm URm : St ℝ d) (vg n : Fin d → ℝ) :
    hllcSpeeds gamma URm ULm vg (-n) = (-(hllcSpeeds gamma ULm URm vg n).2, -(hllcSpeeds gamma ULm URm vg n).1) := by
  simp only [hllcSpeeds, roeAverage_comm ULm URm, dotProduct_neg]
  have e : ∀ x y : ℝ, -y - -x = x - y := fun x y => by ring
  rw [e, add_comm (side gamma URm).p]
  refine Prod.ext ?_ ?_ <;> simp only [] <;> ring

theorem hllcContact_mirror (UL UR : St ℝ d) (vg n : Fin d → ℝ) (SL SR uL uR : ℝ) :
    hllcContact gamma UR UL vg (-n) (-SR) (-SL) (-uR) (-uL) = -hllcContact gamma UL UR vg n SL SR uL uR := by
  have e : UR.c0 * (-SR - -uR) - UL.c0 * (-SL - -uL) = UL.c0 * (SL - uL) - UR.c0 * (SR - uR) := by ring
  simp only [hllcContact, e, dotProduct_neg]
  split
  · rw [← neg_div]
    congr 1
    ring
  · rw [neg_zero]

theorem hllcBehind_mirror (U : St ℝ d) (vg n : Fin d → ℝ) (S SS u : ℝ) :
    hllcBehind gamma U vg (-n) (-S) (-SS) (-u) = -hllcBehind gamma U vg n S SS u := by
  have e : -S - -SS = -(S - SS) := by ring
  simp only [hllcBehind, e, abs_neg, physFlux_neg]
  split
  · rfl
  · rw [inv_neg]
    refine Prod.ext ?_ (Prod.ext ?_ ?_)
    · simp only [Prod.fst_neg, Prod.smul_fst, Prod.fst_add, Prod.fst_sub, smul_eq_mul]
      ring
    · simp only [Prod.fst_neg, Prod.snd_neg, Prod.smul_fst, Prod.smul_snd, Prod.fst_add, Prod.snd_add, Prod.fst_sub, Prod.snd_sub]
      have e2 : -S - -u = -(S - u) := by ring
      have e3 : -SS - -u = -(SS - u) := by ring
      rw [e2, e3]
      module
    · simp only [Prod.snd_neg, Prod.smul_snd, Prod.snd_add, Prod.snd_sub, smul_eq_mul]
      ring

/-- the choice of the flux -/
theorem hllcSelect_mirror (UL UR : St ℝ d) (vg n : Fin d → ℝ) {SL SR uL uR : ℝ} (h1 : ¬ (0 ≤ SL ∧ SR ≤ 0))
    (h2 : SL < 0 → 0 < SR → hllcContact gamma UL UR vg n SL SR uL uR = 0 →
      hllcBehind gamma UL vg n SL 0 uL = hllcBehind gamma UR vg n SR 0 uR) :
    hllcSelect gamma UR UL vg (-n) (-SR) (-SL) (-uR) (-uL) = -hllcSelect gamma UL UR vg n SL SR uL uR := by
  simp only [hllcSelect, hllcContact_mirror, physFlux_neg, Left.nonneg_neg_iff, Left.neg_nonpos_iff, ge_iff_le]
  by_cases a : 0 ≤ SL
  · rw [if_neg (fun h => h1 ⟨a, h⟩), if_pos a, if_pos a]
  · by_cases b : SR ≤ 0
    · rw [if_pos b, if_neg a, if_pos b]
    · rw [if_neg b, if_neg a, if_neg a, if_neg b]
      rcases lt_trichotomy (hllcContact gamma UL UR vg n SL SR uL uR) 0 with c | c | c
      · rw [if_pos c.le, if_neg (not_le.2 c), hllcBehind_mirror]
      · rw [c, if_pos le_rfl, if_pos le_rfl, h2 (not_le.1 a) (not_le.1 b) c, ← neg_zero, hllcBehind_mirror, neg_zero]
      · rw [if_neg (not_le.2 c), if_pos c.le, hllcBehind_mirror]

/-- the whole solver, from the choice of the flux -/
theorem hllcFlux_mirror (UL UR ULm URm : St ℝ d) (vg n : Fin d → ℝ)
    (h : 0 < UL.c0 → 0 < UR.c0 → 0 < (roeAverage gamma ULm URm).asqr →
      hllcSelect gamma UR UL vg (-n) (-(hllcSpeeds gamma ULm URm vg n).2) (-(hllcSpeeds gamma ULm URm vg n).1)
        (-(((side gamma URm).velo - vg) ⬝ᵥ n)) (-(((side gamma ULm).velo - vg) ⬝ᵥ n)) =
      -hllcSelect gamma UL UR vg n (hllcSpeeds gamma ULm URm vg n).1 (hllcSpeeds gamma ULm URm vg n).2
        (((side gamma ULm).velo - vg) ⬝ᵥ n) (((side gamma URm).velo - vg) ⬝ᵥ n)) (dLambda : ℝ) :
    flux .hllc gamma UR UL URm ULm vg (-n) dLambda =
      (flux .hllc gamma UL UR ULm URm vg n dLambda >>= fun r => .ok (-r.1, ⟨r.2.l4, r.2.l123, r.2.l0⟩)) := by
  show hllcFlux gamma UR UL URm ULm vg (-n) = (hllcFlux gamma UL UR ULm URm vg n >>= _)
  by_cases h0 : 0 < UL.c0 ∧ 0 < UR.c0
  swap
  · rw [hllcFlux, hllcFlux, if_pos (by tauto), if_pos h0]
    rfl
  by_cases h1 : 0 < (roeAverage gamma ULm URm).asqr
  swap
  · simp only [hllcFlux, roeAverage_comm ULm URm, h0.1, h0.2, h1, and_self, not_true, not_false_iff, if_true, if_false]
    rfl
  simp only [hllcFlux, roeAverage_comm ULm URm, h0.1, h0.2, h1, and_self, not_true, if_false, hllcSpeeds_mirror, dotProduct_neg,
    h h0.1 h0.2 h1, Res.ok_bind]
  refine congrArg Res.ok (Prod.ext rfl ?_)
  have e : -((roeAverage gamma ULm URm).velo ⬝ᵥ n) - -(vg ⬝ᵥ n) = -((roeAverage gamma ULm URm).velo ⬝ᵥ n - vg ⬝ᵥ n) := by ring
  simp only [e, abs_neg_sub_add, abs_neg_add_sub, abs_neg]

/-- what the solver returns when it does not abort -/
theorem hllcFlux_ok {UL UR ULm URm : St ℝ d} (vg n : Fin d → ℝ) (h0 : 0 < UL.c0 ∧ 0 < UR.c0) (h1 : 0 < (roeAverage gamma ULm URm).asqr) (dLambda : ℝ) :
    ∃ l, flux .hllc gamma UL UR ULm URm vg n dLambda = .ok (hllcSelect gamma UL UR vg n (hllcSpeeds gamma ULm URm vg n).1
      (hllcSpeeds gamma ULm URm vg n).2 (((side gamma ULm).velo - vg) ⬝ᵥ n) (((side gamma URm).velo - vg) ⬝ᵥ n), l) :=
  ⟨_, (if_neg (not_not.2 h0)).trans (if_neg (not_not.2 h1))⟩

theorem one_le_hllcQ (hg : 1 < gamma) {p pS : ℝ} (hp : 0 < p) : 1 ≤ hllcQ gamma p pS := by
  unfold hllcQ
  split
  · exact le_refl _
  · rename_i hlt
    rw [Real.one_le_sqrt]
    have : 1 ≤ pS / p := by rw [one_le_div hp]; exact (not_le.1 hlt).le
    have h0 : 0 ≤ (gamma + 1) / 2 / gamma := by have : 0 < gamma := by linarith
                                                positivity
    nlinarith

/-- the outer waves are at least as fast as sound -/
theorem hllcSpeeds_le (hg : 1 < gamma) {ULm URm : St ℝ d} (vg n : Fin d → ℝ) {rL pL rR pR : ℝ} {vL vR : Fin d → ℝ} (hL : IsGas gamma rL pL vL ULm)
    (hR : IsGas gamma rR pR vR URm) (hrL : 0 < rL) (hpL : 0 < pL) (hrR : 0 < rR) (hpR : 0 < pR) :
    (hllcSpeeds gamma ULm URm vg n).1 ≤ (vL - vg) ⬝ᵥ n - √(gamma * pL / rL) ∧
      (vR - vg) ⬝ᵥ n + √(gamma * pR / rR) ≤ (hllcSpeeds gamma ULm URm vg n).2 := by
  obtain ⟨l1, l2, l3, -⟩ := side_of_gas hL hrL.ne' hg
  obtain ⟨r1, r2, r3, -⟩ := side_of_gas hR hrR.ne' hg
  simp only [hllcSpeeds, l1, l2, l3, r1, r2, r3]
  have a := Real.sqrt_nonneg (gamma * pL / rL)
  have b := Real.sqrt_nonneg (gamma * pR / rR)
  generalize max (0 : ℝ) _ = pS
  have c := one_le_hllcQ hg (pS := pS) hpL
  have e := one_le_hllcQ hg (pS := pS) hpR
  constructor <;> nlinarith

/-- **C58** (HLLC, moving contact) Exchanging the two sides and reversing the normal reverses the flux and exchanges the outer wave speeds, unless
the mean streams collide faster than sound or the solver finds that the contact stands still.

Missing: those two cases, in which it is false (`hllc_collision_mirror_wrong`, `hllc_contact_mirror_wrong`); a standing contact between states
with the velocities of the means is in `hllc_mirror_mean`. -/
theorem hllc_mirror_partial (hg : 1 < gamma) (UL UR : St ℝ d) {ULm URm : St ℝ d} (vg n : Fin d → ℝ) {rL pL rR pR : ℝ} {vL vR : Fin d → ℝ}
    (hL : IsGas gamma rL pL vL ULm) (hR : IsGas gamma rR pR vR URm) (hrL : 0 < rL) (hpL : 0 < pL) (hrR : 0 < rR) (hpR : 0 < pR)
    (hslow : (vL - vg) ⬝ᵥ n < √(gamma * pL / rL) ∨ -√(gamma * pR / rR) < (vR - vg) ⬝ᵥ n)
    (hmove : hllcContact gamma UL UR vg n (hllcSpeeds gamma ULm URm vg n).1 (hllcSpeeds gamma ULm URm vg n).2 ((vL - vg) ⬝ᵥ n)
      ((vR - vg) ⬝ᵥ n) ≠ 0) (dLambda : ℝ) :
    flux .hllc gamma UR UL URm ULm vg (-n) dLambda =
      (flux .hllc gamma UL UR ULm URm vg n dLambda >>= fun r => .ok (-r.1, ⟨r.2.l4, r.2.l123, r.2.l0⟩)) := by
  obtain ⟨s1, s2⟩ := hllcSpeeds_le hg vg n hL hR hrL hpL hrR hpR
  obtain ⟨l1, -⟩ := side_of_gas hL hrL.ne' hg
  obtain ⟨r1, -⟩ := side_of_gas hR hrR.ne' hg
  refine hllcFlux_mirror _ _ _ _ _ _ (fun _ _ _ => ?_) dLambda
  rw [l1, r1]
  refine hllcSelect_mirror _ _ _ _ (fun h => ?_) (fun _ _ c => absurd c hmove)
  rcases hslow with a | a
  · linarith [h.1]
  · linarith [h.2]

/-- **C58** (HLLC, first order) The same when the states have the velocities of the means along the normal and both mean streams are slower than
sound, whether the contact moves or not.  The tiny number is the guard of the code against division by zero. -/
theorem hllc_mirror_mean (hg : 1 < gamma) {UL UR ULm URm : St ℝ d} (vg n : Fin d → ℝ) {rL pL rR pR rL' pL' rR' pR' : ℝ} {vL vR vL' vR' : Fin d → ℝ}
    (hLm : IsGas gamma rL' pL' vL' ULm) (hRm : IsGas gamma rR' pR' vR' URm) (hrL' : 0 < rL') (hpL' : 0 < pL') (hrR' : 0 < rR') (hpR' : 0 < pR')
    (hL : IsGas gamma rL pL vL UL) (hR : IsGas gamma rR pR vR UR) (hrL : 0 < rL) (hrR : 0 < rR)
    (hvL : vL ⬝ᵥ n = vL' ⬝ᵥ n) (hvR : vR ⬝ᵥ n = vR' ⬝ᵥ n)
    (hslowL : (vL' - vg) ⬝ᵥ n + 1 / 10 ^ 200 ≤ √(gamma * pL' / rL')) (hslowR : 1 / 10 ^ 200 - √(gamma * pR' / rR') ≤ (vR' - vg) ⬝ᵥ n)
    (hbig : 1 / 10 ^ 200 < rL * √(gamma * pL' / rL') + rR * √(gamma * pR' / rR')) (dLambda : ℝ) :
    flux .hllc gamma UR UL URm ULm vg (-n) dLambda =
      (flux .hllc gamma UL UR ULm URm vg n dLambda >>= fun r => .ok (-r.1, ⟨r.2.l4, r.2.l123, r.2.l0⟩)) := by
  obtain ⟨s1, s2⟩ := hllcSpeeds_le hg vg n hLm hRm hrL' hpL' hrR' hpR'
  obtain ⟨lm1, -⟩ := side_of_gas hLm hrL'.ne' hg
  obtain ⟨rm1, -⟩ := side_of_gas hRm hrR'.ne' hg
  obtain ⟨l1, l2, -⟩ := side_of_gas hL hrL.ne' hg
  obtain ⟨r1, r2, -⟩ := side_of_gas hR hrR.ne' hg
  have hv : verySmall = 1 / 10 ^ 200 := by unfold verySmall; norm_num
  have hvp : 0 < verySmall := by rw [hv]; norm_num
  rw [← hv] at hslowL hslowR hbig
  refine hllcFlux_mirror _ _ _ _ _ _ (fun _ _ _ => ?_) dLambda
  rw [lm1, rm1]
  generalize (hllcSpeeds gamma ULm URm vg n).1 = SL at *
  generalize (hllcSpeeds gamma ULm URm vg n).2 = SR at *
  refine hllcSelect_mirror _ _ _ _ (fun h => by linarith [h.1]) (fun hSL hSR c => ?_)
  have eL : UL.c0 = rL := hL.mass
  have eR : UR.c0 = rR := hR.mass
  have hmL : UL.cv ⬝ᵥ n - (vg ⬝ᵥ n) * rL = rL * ((vL' - vg) ⬝ᵥ n) := by
    rw [show UL.cv = rL • vL from gas_mom hL, smul_dotProduct, sub_dotProduct, smul_eq_mul, hvL]; ring
  have hmR : UR.cv ⬝ᵥ n - (vg ⬝ᵥ n) * rR = rR * ((vR' - vg) ⬝ᵥ n) := by
    rw [show UR.cv = rR • vR from gas_mom hR, smul_dotProduct, sub_dotProduct, smul_eq_mul, hvR]; ring
  simp only [hllcContact, eL, eR, hmL, hmR, l2, r2] at c
  generalize (vL' - vg) ⬝ᵥ n = uL at *
  generalize (vR' - vg) ⬝ᵥ n = uR at *
  generalize √(gamma * pL' / rL') = aL at *
  generalize √(gamma * pR' / rR') = aR at *
  have hdiv : rL * (SL - uL) - rR * (SR - uR) < -verySmall := by nlinarith
  rw [if_pos (by rw [abs_of_neg (by linarith)]; linarith), div_eq_zero_iff, or_iff_left (by linarith)] at c
  have hp : pL + rL * (SL - uL) * (0 - uL) = pR + rR * (SR - uR) * (0 - uR) := by linarith
  simp only [hllcBehind, sub_zero, zero_smul, zero_add, eL, eR, l2, r2]
  rw [if_neg (by rw [abs_of_neg hSL]; linarith), if_neg (by rw [abs_of_pos hSR]; linarith), hp, smul_smul, smul_smul]
  have hSL0 : SL ≠ 0 := hSL.ne
  have hSR0 : SR ≠ 0 := hSR.ne'
  congr 1
  rw [mul_comm _ SL, ← mul_assoc, inv_mul_cancel₀ hSL0, mul_comm _ SR, ← mul_assoc, inv_mul_cancel₀ hSR0]

/-- **C58 is false for HLLC** when streams collide faster than sound: air of Mach number 2 from both sides.  Whichever side is called left wins:
the solver carries mass to the right, and seen from the other side it carries as much to the left. -/
theorem hllc_collision_mirror_wrong : ∃ F l F' l', flux .hllc (7 / 5) (jet 2) (jet (-2)) (jet 2) (jet (-2)) 0 ![1, 0] 0 = .ok (F, l) ∧
    flux .hllc (7 / 5) (jet (-2)) (jet 2) (jet (-2)) (jet 2) 0 (-![1, 0]) 0 = .ok (F', l') ∧ F.1 = 14 / 5 ∧ -F'.1 = -(14 / 5) := by
  obtain ⟨F, l, -, h, hF⟩ := hllc_wall_leaks
  obtain ⟨a1, a2, a3⟩ := jet_side 2
  obtain ⟨b1, b2, b3⟩ := jet_side (-2)
  have hpos : 0 < (roeAverage (7 / 5) (jet (-2)) (jet 2)).asqr := by rw [roeAverage_comm]; exact lt_of_lt_of_le one_pos (jet_avg 2).2
  have e : 0 < (jet (-2)).c0 ∧ 0 < (jet 2).c0 := by constructor <;> norm_num [jet, St.c0]
  obtain ⟨l', h'⟩ := hllcFlux_ok 0 (-![1, 0]) e hpos 0
  refine ⟨F, l, _, l', h, h', hF, ?_⟩
  · have hSL : (hllcSpeeds (7 / 5) (jet (-2)) (jet 2) 0 (-![1, 0])).1 = 1 := by
      simp only [hllcSpeeds, a1, a2, b1, b2, b3, sub_zero, Real.sqrt_one]
      have hr : 0 ≤ (roeAverage (7 / 5) (jet (-2)) (jet 2)).rho * √(roeAverage (7 / 5) (jet (-2)) (jet 2)).asqr :=
        mul_nonneg (mul_nonneg (Real.sqrt_nonneg _) (Real.sqrt_nonneg _)) (Real.sqrt_nonneg _)
      rw [hllcQ, if_pos]
      · simp [dotProduct, Fin.sum_univ_two]; norm_num
      · refine max_le zero_le_one ?_
        have q1 : ![(-2 : ℝ), 0] ⬝ᵥ -![1, 0] = 2 := by simp [dotProduct, Fin.sum_univ_two]
        have q2 : ![(2 : ℝ), 0] ⬝ᵥ -![1, 0] = -2 := by simp [dotProduct, Fin.sum_univ_two]
        rw [q1, q2]
        nlinarith
    simp only [hSL]
    rw [hllcSelect, if_pos zero_le_one, physFlux_gas (jet_gas (-2)) (by norm_num) (by norm_num)]
    simp [dotProduct, Fin.sum_univ_two]
    norm_num

/-- **C58 is false for HLLC** when the contact stands still and the means move: air at rest on both sides of the face, in cells whose mean velocity is
half the speed of sound.  The solver gives the pressure 17/10 on one side and 3/10 on the other, where it is 1. -/
theorem hllc_contact_mirror_wrong : ∃ F l F' l', flux .hllc (7 / 5) (jet 0) (jet 0) (jet (1 / 2)) (jet (1 / 2)) 0 ![1, 0] 0 = .ok (F, l) ∧
    flux .hllc (7 / 5) (jet 0) (jet 0) (jet (1 / 2)) (jet (1 / 2)) 0 (-![1, 0]) 0 = .ok (F', l') ∧ F = (0, ![17 / 10, 0], 0) ∧
      -F' = (0, ![3 / 10, 0], 0) := by
  have hg : (1 : ℝ) < 7 / 5 := by norm_num
  obtain ⟨a1, a2, a3⟩ := jet_side (1 / 2)
  obtain ⟨z1, z2, -⟩ := jet_side 0
  have hph : Physical (7 / 5) (jet (1 / 2)) := ⟨by norm_num [jet], by rw [← side_p (by norm_num [jet]), a2]; norm_num⟩
  have hpos := roe_asqr_pos hg hph hph
  have e : 0 < (jet 0).c0 ∧ 0 < (jet 0).c0 := by constructor <;> norm_num [jet, St.c0]
  have hm : ∀ n : Fin 2 → ℝ, (jet 0).cv ⬝ᵥ n = 0 := fun n => by simp [jet, St.cv, dotProduct, Fin.sum_univ_two]
  have hc : (jet 0).c0 = 7 / 5 := rfl
  have key : ∀ n : Fin 2 → ℝ, ∀ u : ℝ, ![(1 / 2 : ℝ), 0] ⬝ᵥ n = u → u * u = 1 / 4 → ∃ l, flux .hllc (7 / 5) (jet 0) (jet 0) (jet (1 / 2)) (jet (1 / 2)) 0 n 0 =
      .ok (((1 : ℝ) + 7 / 5 * u) • ((0, n, 0) : St ℝ 2), l) := by
    intro n u hu huu
    have hlt : -1 < u ∧ u < 1 := ⟨by nlinarith, by nlinarith⟩
    obtain ⟨l, hl⟩ := hllcFlux_ok 0 n e hpos 0
    refine ⟨l, hl.trans ?_⟩
    · rw [hllcSpeeds_self hg 0 n hph]
      simp only [a1, a3, sub_zero, hu, Real.sqrt_one]
      refine congrArg Res.ok (Prod.ext ?_ rfl)
      have h0 : hllcContact (7 / 5) (jet 0) (jet 0) 0 n (u - 1) (u + 1) u u = 0 := by
        simp only [hllcContact, hm, zero_dotProduct, sub_self, zero_mul, add_zero, zero_div, ite_self]
      simp only [hllcSelect, h0, ge_iff_le, le_refl, if_true]
      rw [if_neg (by linarith), if_neg (by linarith)]
      simp only [hllcBehind, sub_zero, zero_smul, zero_add, z2, hc]
      have hne : u - 1 ≠ 0 := by linarith
      rw [if_neg (by rw [abs_of_neg (by linarith)]; have : verySmall < 1 / 100 := by norm_num [verySmall]
                     nlinarith), smul_smul]
      congr 1
      field_simp
      ring
  obtain ⟨l, hl⟩ := key ![1, 0] (1 / 2) (by simp [dotProduct, Fin.sum_univ_two]) (by norm_num)
  obtain ⟨l', hl'⟩ := key (-![1, 0]) (-(1 / 2)) (by simp [dotProduct, Fin.sum_univ_two]) (by norm_num)
  refine ⟨_, l, _, l', hl, hl', ?_, ?_⟩
  · refine Prod.ext (by simp) (Prod.ext ?_ (by simp))
    funext i
    fin_cases i <;> norm_num
  · refine Prod.ext (by simp) (Prod.ext ?_ (by simp))
    funext i
    fin_cases i <;> norm_num

/-- non-vacuity of `hllc_mirror_mean`: air of half the speed of sound behind air at rest -/
example : ∃ F l F' l', flux .hllc (7 / 5) (jet (1 / 2)) (jet 0) (jet (1 / 2)) (jet 0) 0 ![1, 0] 0 = .ok (F, l) ∧
    flux .hllc (7 / 5) (jet 0) (jet (1 / 2)) (jet 0) (jet (1 / 2)) 0 (-![1, 0]) 0 = .ok (F', l') ∧ F' = -F := by
  have hs : √((7 / 5 : ℝ) * 1 / (7 / 5)) = 1 := by rw [show (7 / 5 : ℝ) * 1 / (7 / 5) = 1 by norm_num, Real.sqrt_one]
  have h := hllc_mirror_mean (gamma := 7 / 5) (by norm_num) 0 ![1, 0] (jet_gas (1 / 2)) (jet_gas 0) (by norm_num) one_pos (by norm_num) one_pos (jet_gas (1 / 2))
    (jet_gas 0) (by norm_num) (by norm_num) rfl rfl (by rw [hs]; simp [dotProduct, Fin.sum_univ_two]; norm_num)
    (by rw [hs]; simp [dotProduct, Fin.sum_univ_two]; norm_num) (by rw [hs]; norm_num) 0
  have hg : (1 : ℝ) < 7 / 5 := by norm_num
  have hph : ∀ x, Physical (7 / 5) (jet x) := fun x => ⟨by norm_num [jet], by rw [← side_p (by norm_num [jet]), (jet_side x).2.1]; norm_num⟩
  have hpos := roe_asqr_pos hg (hph (1 / 2)) (hph 0)
  have e : 0 < (jet (1 / 2)).c0 ∧ 0 < (jet 0).c0 := by constructor <;> norm_num [jet, St.c0]
  obtain ⟨l, h1⟩ := hllcFlux_ok 0 ![1, 0] e hpos 0
  rw [h1, Res.ok_bind] at h
  exact ⟨_, l, _, _, h1, h, rfl⟩

/-- non-vacuity of `hllc_mirror_partial`: air of half the speed of sound -/
example : (1 : ℝ) < 7 / 5 ∧ IsGas (7 / 5) (7 / 5) 1 ![1 / 2, 0] (jet (1 / 2)) ∧ (![(1 / 2 : ℝ), 0] - 0) ⬝ᵥ ![1, 0] < √((7 / 5 : ℝ) * 1 / (7 / 5)) ∧
    hllcContact (7 / 5) (jet (1 / 2)) (jet (1 / 2)) 0 ![1, 0] (hllcSpeeds (7 / 5) (jet (1 / 2)) (jet (1 / 2)) 0 ![1, 0]).1
      (hllcSpeeds (7 / 5) (jet (1 / 2)) (jet (1 / 2)) 0 ![1, 0]).2 ((![(1 / 2 : ℝ), 0] - 0) ⬝ᵥ ![1, 0]) ((![(1 / 2 : ℝ), 0] - 0) ⬝ᵥ ![1, 0]) ≠ 0 := by
  have hg : (1 : ℝ) < 7 / 5 := by norm_num
  have hs : √((7 / 5 : ℝ) * 1 / (7 / 5)) = 1 := by rw [show (7 / 5 : ℝ) * 1 / (7 / 5) = 1 by norm_num, Real.sqrt_one]
  obtain ⟨a1, a2, a3⟩ := jet_side (1 / 2)
  have hu : (![(1 / 2 : ℝ), 0] - 0) ⬝ᵥ ![1, 0] = 1 / 2 := by simp [dotProduct, Fin.sum_univ_two]
  have hph : Physical (7 / 5) (jet (1 / 2)) := ⟨by norm_num [jet], by rw [← side_p (by norm_num [jet]), a2]; norm_num⟩
  refine ⟨hg, jet_gas _, by rw [hs, hu]; norm_num, ?_⟩
  rw [hllcSpeeds_self hg 0 _ hph, a1, a3, Real.sqrt_one, hu, hllcContact_self _ _ hph.rho (by rw [a1, hu]) one_pos (by norm_num [jet, verySmall])]
  norm_num

end DNDSR.Gas
