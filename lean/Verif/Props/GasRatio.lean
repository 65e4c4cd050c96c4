import Verif.Model.GasRatio
import Verif.Spec.GasRatio
import Mathlib.Tactic.FieldSimp
import Mathlib.Tactic.Ring
import Mathlib.Tactic.LinearCombination
import Mathlib.Tactic.Linarith
import Mathlib.Tactic.Positivity
import Mathlib.Tactic.NormNum
import Mathlib.Tactic.Module
import Mathlib.Algebra.BigOperators.Field
import Mathlib.Algebra.Order.BigOperators.Ring.Finset

/-!
# The compression ratio keeps the internal energy above the floor (C43)
-/

namespace DNDSR.Gas

variable {d : Nat}

theorem verySmall_pos : 0 < verySmall := by unfold verySmall; positivity

theorem rhoEInt_eq (U : St ℝ d) : rhoEInt U = internalG verySmall U := by
  simp only [rhoEInt, internalG, St.c0, St.cv, St.c4, dotProduct]
  have : (2 * (U.1 + verySmall))⁻¹ = (U.1 + verySmall)⁻¹ * (1 / 2) := by rw [mul_inv]; ring
  rw [div_eq_mul_inv, div_eq_mul_inv _ (2 * _), this]
  ring

/-- what the loop tests is the guarded internal energy of the scaled update -/
theorem loop_test (u ret : St ℝ d) :
    ret.c4 + u.c4 - 1 / 2 * ((u.cv + ret.cv) ⬝ᵥ (u.cv + ret.cv)) / (u.c0 + ret.c0 + verySmall) = internalG verySmall (u + ret) := by
  rw [← rhoEInt_eq]
  simp only [rhoEInt, St.c0, St.cv, St.c4, Prod.fst_add, Prod.snd_add]
  ring

theorem loop_spec (u inc : St ℝ d) (f : ℝ) : ∀ (fuel : Nat) (alpha : ℝ), 0 ≤ alpha → alpha ≤ 1 → ∀ b,
    ratioLoop u f fuel (alpha • inc) alpha = .ok b → 0 ≤ b ∧ b ≤ alpha ∧ f ≤ internalG verySmall (u + b • inc)
  | 0, alpha, h0, h1, b, h => by simp [ratioLoop] at h
  | fuel + 1, alpha, h0, h1, b, h => by
    simp only [ratioLoop] at h
    rw [loop_test] at h
    by_cases hc : internalG verySmall (u + alpha • inc) < f
    · rw [if_pos hc, smul_smul, mul_comm (1 - 1 / 100 : ℝ)] at h
      obtain ⟨p, q, r⟩ := loop_spec u inc f fuel (alpha * (1 - 1 / 100)) (by nlinarith) (by nlinarith) b h
      exact ⟨p, by nlinarith, r⟩
    · rw [if_neg hc] at h
      obtain e := Res.ok.inj h
      subst e
      exact ⟨h0, le_rfl, not_lt.mp hc⟩

theorem loop_immediate (u inc : St ℝ d) {f alpha : ℝ} (fuel : Nat) (h : f ≤ internalG verySmall (u + alpha • inc)) :
    ratioLoop u f (fuel + 1) (alpha • inc) alpha = .ok alpha := by
  simp only [ratioLoop]
  rw [loop_test, if_neg (not_lt.mpr h)]

theorem safety_bounds {a : ℝ} (h0 : 0 ≤ a) (h1 : a ≤ 1) :
    0 ≤ ratioSafety a ∧ ratioSafety a ≤ 1 := by
  simp only [ratioSafety]
  split
  · exact ⟨le_rfl, zero_le_one⟩
  · constructor <;> nlinarith

theorem convex_bounds (eOld eNew f : ℝ) : 0 ≤ ratioConvex eOld eNew f ∧ ratioConvex eOld eNew f ≤ 1 := by
  simp only [ratioConvex]
  exact ⟨le_max_right _ _, max_le (min_le_right _ _) zero_le_one⟩

theorem root_bounds {c0 c1 c2 a : ℝ} (h : ratioRoot c0 c1 c2 = .ok a) : 0 ≤ a ∧ a ≤ 1 := by
  simp only [ratioRoot] at h
  split at h
  · exact absurd h (by simp)
  · obtain e := Res.ok.inj h
    subst e
    refine ⟨le_max_left _ _, max_le zero_le_one ?_⟩
    split
    · split
      · exact zero_le_one
      · exact min_le_right _ _
    · exact min_le_right _ _

/-- **C43** Whatever the state, the increment and the floor: if the function returns, the ratio lies in `[0, 1]`, and the internal
energy of the update scaled by it is at least the floor (and at least 1e-10 of the old one); the alternative is that the program
aborts.  Internal energy is computed here as in the code, with 1e-200 added to the density. -/
theorem ratio_floor (scheme : Nat) (u inc : St ℝ d) (floor alpha : ℝ) (h : compressionRatio scheme u inc floor = .ok alpha) :
    0 ≤ alpha ∧ alpha ≤ 1 ∧ floor ≤ internalG (1 / 10 ^ 200) (u + alpha • inc) ∧
      1 / 10 ^ 10 * internalG (1 / 10 ^ 200) u ≤ internalG (1 / 10 ^ 200) (u + alpha • inc) := by
  have key : ∀ a, 0 ≤ a → a ≤ 1 → ratioLoop u (max (small * rhoEInt u) floor) 1000 (a • inc) a = .ok alpha →
      0 ≤ alpha ∧ alpha ≤ 1 ∧ floor ≤ internalG (1 / 10 ^ 200) (u + alpha • inc) ∧
        1 / 10 ^ 10 * internalG (1 / 10 ^ 200) u ≤ internalG (1 / 10 ^ 200) (u + alpha • inc) := by
    intro a h0 h1 hl
    obtain ⟨p, q, r⟩ := loop_spec u inc _ 1000 a h0 h1 alpha hl
    rw [rhoEInt_eq] at r
    exact ⟨p, q.trans h1, (le_max_right _ _).trans r, (le_max_left _ _).trans r⟩
  simp only [compressionRatio] at h
  by_cases hs : scheme = 0
  · rw [if_pos hs] at h
    rw [Res.bind_ok_iff] at h
    obtain ⟨a, ha, hl⟩ := h
    obtain ⟨p, q⟩ := root_bounds ha
    obtain ⟨p, q⟩ := safety_bounds p q
    exact key _ p q hl
  · rw [if_neg hs] at h
    obtain ⟨p, q⟩ := convex_bounds (rhoEInt u) (rhoEInt (u + inc)) (max (small * rhoEInt u) floor)
    obtain ⟨p, q⟩ := safety_bounds p q
    exact key _ p q h

/-- convexity of `x ↦ x² / r` -/
theorem sq_div_convex {a b r s t : ℝ} (hr : 0 < r) (hs : 0 < s) (h0 : 0 ≤ t) (h1 : t ≤ 1) :
    (a + t * (b - a)) * (a + t * (b - a)) / (r + t * (s - r)) ≤ (1 - t) * (a * a / r) + t * (b * b / s) := by
  have hd : 0 < r + t * (s - r) := by
    rcases h0.lt_or_eq with h | h
    · nlinarith [mul_pos h hs, mul_nonneg (sub_nonneg.mpr h1) hr.le]
    · rw [← h, zero_mul, add_zero]
      exact hr
  have e : (1 - t) * (a * a / r) + t * (b * b / s) - (a + t * (b - a)) * (a + t * (b - a)) / (r + t * (s - r)) =
      t * (1 - t) * (a * s - b * r) ^ 2 / (r * s * (r + t * (s - r))) := by
    field_simp
    ring
  have : 0 ≤ t * (1 - t) * (a * s - b * r) ^ 2 / (r * s * (r + t * (s - r))) :=
    div_nonneg (mul_nonneg (mul_nonneg h0 (by linarith)) (sq_nonneg _)) (by positivity)
  linarith

/-- the guarded internal energy is concave along the update -/
theorem internalG_concave {eps : ℝ} (u inc : St ℝ d) (hr : 0 < u.1 + eps) (hs : 0 < u.1 + inc.1 + eps) {t : ℝ} (h0 : 0 ≤ t) (h1 : t ≤ 1) :
    (1 - t) * internalG eps u + t * internalG eps (u + inc) ≤ internalG eps (u + t • inc) := by
  simp only [internalG, Prod.fst_add, Prod.snd_add, Prod.smul_fst, Prod.smul_snd, Pi.add_apply, Pi.smul_apply, smul_eq_mul]
  have hsum : (∑ i, (u.2.1 i + t * inc.2.1 i) * (u.2.1 i + t * inc.2.1 i)) / (u.1 + t * inc.1 + eps) ≤
      (1 - t) * ((∑ i, u.2.1 i * u.2.1 i) / (u.1 + eps)) +
        t * ((∑ i, (u.2.1 i + inc.2.1 i) * (u.2.1 i + inc.2.1 i)) / (u.1 + inc.1 + eps)) := by
    rw [Finset.sum_div, Finset.sum_div, Finset.sum_div, Finset.mul_sum, Finset.mul_sum, ← Finset.sum_add_distrib]
    refine Finset.sum_le_sum fun i _ => ?_
    have h := sq_div_convex (a := u.2.1 i) (b := u.2.1 i + inc.2.1 i) hr hs h0 h1
    rw [show u.2.1 i + t * (u.2.1 i + inc.2.1 i - u.2.1 i) = u.2.1 i + t * inc.2.1 i by ring,
      show u.1 + eps + t * (u.1 + inc.1 + eps - (u.1 + eps)) = u.1 + t * inc.1 + eps by ring] at h
    exact h
  have e : ∀ x y : ℝ, x / (2 * y) = x / y / 2 := fun x y => by rw [mul_comm, div_div]
  rw [e, e, e]
  linarith

/-- **C43** (the convex estimate never aborts) If the density stays positive and the old internal energy is not below the floor,
the ratio computed by the convex estimate is returned at once. -/
theorem ratio_convex_total (scheme : Nat) (hs : scheme ≠ 0) (u inc : St ℝ d) (floor : ℝ) (hr : 0 < u.1) (hr' : 0 < u.1 + inc.1)
    (he : 0 ≤ internalG (1 / 10 ^ 200) u) (hf : floor ≤ internalG (1 / 10 ^ 200) u) :
    ∃ alpha, compressionRatio scheme u inc floor = .ok alpha := by
  have hv := verySmall_pos
  simp only [compressionRatio, if_neg hs]
  set eOld := rhoEInt u with heO
  set eNew := rhoEInt (u + inc) with heN
  set f := max (small * eOld) floor with hfd
  set a := ratioSafety (ratioConvex eOld eNew f) with had
  have heO0 : 0 ≤ eOld := by rw [heO, rhoEInt_eq]; exact he
  have hfe : f ≤ eOld := by
    refine max_le ?_ (by rw [heO, rhoEInt_eq]; exact hf)
    have : small ≤ 1 := by unfold small; norm_num
    nlinarith
  refine ⟨a, loop_immediate u inc 999 ?_⟩
  have hcb := convex_bounds eOld eNew f
  have hb := safety_bounds hcb.1 hcb.2
  have hle : a ≤ ratioConvex eOld eNew f := by
    rw [had]
    simp only [ratioSafety]
    split
    · exact hcb.1
    · nlinarith [hcb.1]
  have hcc := internalG_concave u inc (by linarith : 0 < u.1 + verySmall) (by linarith) hb.1 hb.2
  rw [← rhoEInt_eq, ← rhoEInt_eq] at hcc
  refine le_trans ?_ hcc
  show f ≤ (1 - a) * eOld + a * eNew
  by_cases hgt : eOld ≤ eNew
  · nlinarith [hb.1]
  · rw [not_le] at hgt
    have hpos : 0 < max (-eNew + eOld) verySmall := lt_max_of_lt_right hv
    have h1 : ratioConvex eOld eNew f ≤ (eOld - f) / max (-eNew + eOld) verySmall := by
      simp only [ratioConvex]
      rw [if_neg (not_lt.mpr hgt.le)]
      exact max_le (min_le_left _ _) (div_nonneg (by linarith) hpos.le)
    have h2 : a * max (-eNew + eOld) verySmall ≤ eOld - f := by
      rw [← le_div_iff₀ hpos]
      exact hle.trans h1
    have h3 : a * (-eNew + eOld) ≤ a * max (-eNew + eOld) verySmall := mul_le_mul_of_nonneg_left (le_max_left _ _) hb.1
    nlinarith

/-- **C43** (the convex estimate does not limit what needs no limiting) If the full update keeps the floor, by more than a rounding
guard, the ratio is the safety factor `1 - 1e-5`. -/
theorem ratio_convex_keeps (scheme : Nat) (hs : scheme ≠ 0) (u inc : St ℝ d) (floor : ℝ) (hr : 0 < u.1) (hr' : 0 < u.1 + inc.1)
    (he : 0 ≤ internalG (1 / 10 ^ 200) u) (hf : floor ≤ internalG (1 / 10 ^ 200) u)
    (hgap : 1 / 10 ^ 200 ≤ internalG (1 / 10 ^ 200) u - max (1 / 10 ^ 10 * internalG (1 / 10 ^ 200) u) floor)
    (hnew : max (1 / 10 ^ 10 * internalG (1 / 10 ^ 200) u) floor ≤ internalG (1 / 10 ^ 200) (u + inc)) :
    compressionRatio scheme u inc floor = .ok (1 - 1 / 10 ^ 5) := by
  obtain ⟨alpha, h⟩ := ratio_convex_total scheme hs u inc floor hr hr' he hf
  have h2 := h
  simp only [compressionRatio, if_neg hs] at h2
  have hone : ratioConvex (rhoEInt u) (rhoEInt (u + inc)) (max (small * rhoEInt u) floor) = 1 := by
    rw [rhoEInt_eq, rhoEInt_eq]
    simp only [ratioConvex]
    have hpos : 0 < max (-internalG verySmall (u + inc) + internalG verySmall u) verySmall := lt_max_of_lt_right verySmall_pos
    have : min (if internalG verySmall (u + inc) > internalG verySmall u then 1
        else (internalG verySmall u - max (small * internalG verySmall u) floor) /
          max (-internalG verySmall (u + inc) + internalG verySmall u) verySmall) 1 = 1 := by
      refine min_eq_right ?_
      split
      · exact le_rfl
      · rw [le_div_iff₀ hpos, one_mul]
        refine max_le ?_ hgap
        have : max (small * internalG verySmall u) floor ≤ internalG verySmall (u + inc) := hnew
        linarith
    rw [this]
    exact max_eq_left zero_le_one
  have hsaf : ratioSafety 1 = 1 - 1 / 10 ^ 5 := by
    simp only [ratioSafety, small]
    norm_num
  rw [hone, hsaf] at h2
  have hl := loop_spec u inc _ 1000 (1 - 1 / 10 ^ 5) (by norm_num) (by norm_num) alpha h2
  simp only [compressionRatio, if_neg hs]
  rw [hone, hsaf]
  refine loop_immediate u inc 999 ?_
  have hcc := internalG_concave u inc (by linarith [verySmall_pos] : 0 < u.1 + verySmall) (by linarith [verySmall_pos])
    (t := 1 - 1 / 10 ^ 5) (by norm_num) (by norm_num)
  have hA : max (small * rhoEInt u) floor ≤ internalG verySmall (u + inc) := by rw [rhoEInt_eq]; exact hnew
  have hB : max (small * rhoEInt u) floor ≤ internalG verySmall u := by
    have : max (1 / 10 ^ 10 * internalG (1 / 10 ^ 200) u) floor ≤ internalG (1 / 10 ^ 200) u := by
      have : (0 : ℝ) ≤ 1 / 10 ^ 200 := by positivity
      linarith
    rw [rhoEInt_eq]
    exact this
  refine le_trans ?_ hcc
  nlinarith

/-- the discriminant is not negative: a quadratic form of Lorentz type -/
theorem disc_nonneg {c0 c1 c2 : ℝ} (h0 : 0 < c0) (t : ℝ) (h : c0 * t ^ 2 + c1 * t + c2 ≤ 0) : 0 ≤ c1 * c1 - 4 * c0 * c2 := by
  nlinarith [sq_nonneg (2 * c0 * t + c1)]

theorem quad_nonneg {c0 c1 c2 c2' a : ℝ} (hc0 : 1 / 10 ^ 150 ≤ c0) (hc2 : c2' = c2 + signP c2 * verySmall)
    (ha : ratioRoot c0 c1 c2' = .ok a) : 0 ≤ c0 + c1 * ratioSafety a + c2 * ratioSafety a ^ 2 := by
  have hb := root_bounds ha
  have hc0p : 0 < c0 := lt_of_lt_of_le (by positivity) hc0
  have hv : 0 < verySmall ∧ verySmall * 10 ^ 30 ≤ 1 / 10 ^ 150 := by
    unfold verySmall
    constructor
    · positivity
    · norm_num
  by_cases hz : ratioSafety a = 0
  · rw [hz]
    nlinarith
  have has : ratioSafety a = a * (1 - 1 / 10 ^ 5) := by
    simp only [ratioSafety] at hz ⊢
    split
    · rename_i h
      exact absurd (if_pos h) hz
    · rfl
  have ha0 : 0 < a := by
    rcases hb.1.lt_or_eq with h | h
    · exact h
    · exfalso
      exact hz (has.trans (by rw [← h, zero_mul]))
  set al := ratioSafety a with hal
  have hal0 : 0 ≤ al := by rw [has]; nlinarith
  have hal1 : al ≤ 1 := by rw [has]; nlinarith [hb.2]
  simp only [ratioRoot] at ha
  split at ha
  · exact absurd ha (by simp)
  obtain e := Res.ok.inj ha
  have hax : a = (if |c2'| < 1 / 10 ^ 10 * c0 then if |c1| < 1 / 10 ^ 10 * c0 then 0 else min (-c0 / c1) 1
      else min (if c2' > 0 then (-√(max 0 (c1 * c1 - 4 * c0 * c2')) - c1) / (2 * c2')
        else (-√(max 0 (c1 * c1 - 4 * c0 * c2')) - c1) / (2 * c2')) 1) := by
    rcases max_choice 0 (if |c2'| < 1 / 10 ^ 10 * c0 then if |c1| < 1 / 10 ^ 10 * c0 then 0 else min (-c0 / c1) 1
      else min (if c2' > 0 then (-√(max 0 (c1 * c1 - 4 * c0 * c2')) - c1) / (2 * c2')
        else (-√(max 0 (c1 * c1 - 4 * c0 * c2')) - c1) / (2 * c2')) 1) with h | h
    · rw [h] at e
      exact absurd e ha0.ne
    · rw [h] at e
      exact e.symm
  clear e ha
  have hsq : al ^ 2 ≤ 1 := by nlinarith
  have hsq0 : 0 ≤ al ^ 2 := sq_nonneg _
  have hdiff : |c2 - c2'| ≤ verySmall := by
    rw [hc2, signP]
    split
    · rw [show c2 - (c2 + 1 * verySmall) = -verySmall by ring, abs_neg, abs_of_pos hv.1]
    · rw [show c2 - (c2 + -1 * verySmall) = verySmall by ring, abs_of_pos hv.1]
  by_cases h1 : |c2'| < 1 / 10 ^ 10 * c0
  · rw [if_pos h1] at hax
    by_cases h2 : |c1| < 1 / 10 ^ 10 * c0
    · rw [if_pos h2] at hax
      exact absurd hax ha0.ne'
    · rw [if_neg h2] at hax
      have hx : 0 < -c0 / c1 := lt_of_lt_of_le (hax ▸ ha0) (min_le_left _ _)
      have hc1 : c1 < 0 := by
        by_contra hcc
        rw [not_lt] at hcc
        exact absurd hx (not_lt.mpr (div_nonpos_of_nonpos_of_nonneg (by linarith) hcc))
      have hle : a ≤ -c0 / c1 := hax ▸ min_le_left _ _
      have hm : -c0 ≤ a * c1 := by rwa [le_div_iff_of_neg hc1] at hle
      have hlow : -(1 / 10 ^ 10 * c0 + verySmall) ≤ c2 := by
        have p := abs_lt.mp h1
        have q := abs_le.mp hdiff
        linarith [p.1, q.1]
      have hneg : -(1 / 10 ^ 10 * c0 + verySmall) ≤ c2 * al ^ 2 := by
        have : -(1 / 10 ^ 10 * c0 + verySmall) * al ^ 2 ≤ c2 * al ^ 2 := mul_le_mul_of_nonneg_right hlow hsq0
        have hp : 0 ≤ 1 / 10 ^ 10 * c0 + verySmall := by linarith [hv.1]
        nlinarith
      have hc1al : -c0 * (1 - 1 / 10 ^ 5) ≤ c1 * al := by
        rw [has]
        nlinarith
      linarith [hv.1, hv.2]
  · rw [if_neg h1, ite_self] at hax
    have hxle : a ≤ (-√(max 0 (c1 * c1 - 4 * c0 * c2')) - c1) / (2 * c2') := hax ▸ min_le_left _ _
    set D := max 0 (c1 * c1 - 4 * c0 * c2') with hD
    have hD0 : 0 ≤ D := le_max_left _ _
    have hr0 := Real.sqrt_nonneg D
    have hrr : √D * √D = D := Real.mul_self_sqrt hD0
    rcases le_or_gt 0 c2 with hpos | hneg
    · rw [signP, if_pos hpos, one_mul] at hc2
      have hc2p : 0 < c2' := by linarith [hv.1]
      rw [le_div_iff₀ (by linarith)] at hxle
      rw [abs_of_pos hc2p, not_lt] at h1
      have hw : √D + (1 / 10 ^ 5) * (2 * c2' * a) ≤ -(2 * c2' * al + c1) := by
        rw [has]
        nlinarith
      have hsq2 : D + ((1 / 10 ^ 5) * (2 * c2' * a)) ^ 2 ≤ (2 * c2' * al + c1) ^ 2 := by
        have hp : 0 ≤ (1 / 10 ^ 5) * (2 * c2' * a) := by positivity
        nlinarith
      have hDge : c1 * c1 - 4 * c0 * c2' ≤ D := le_max_right _ _
      have hq : (1 / 10 ^ 10) * c2' * a ^ 2 ≤ c0 + c1 * al + c2' * al ^ 2 := by
        have : 4 * c2' * ((1 / 10 ^ 10) * c2' * a ^ 2) ≤ 4 * c2' * (c0 + c1 * al + c2' * al ^ 2) := by nlinarith
        exact le_of_mul_le_mul_left this (by linarith)
      have hale : al ^ 2 ≤ a ^ 2 := by
        rw [has]
        nlinarith [sq_nonneg a]
      have hbig : verySmall ≤ (1 / 10 ^ 10) * c2' := by linarith [hv.2]
      have : verySmall * al ^ 2 ≤ (1 / 10 ^ 10) * c2' * a ^ 2 := mul_le_mul hbig hale hsq0 (by positivity)
      have e2 : c2' * al ^ 2 = c2 * al ^ 2 + verySmall * al ^ 2 := by rw [hc2]; ring
      linarith
    · rw [signP, if_neg (not_le.mpr hneg)] at hc2
      have hc2n : c2' < 0 := by linarith [hv.1]
      rw [le_div_iff_of_neg (by linarith)] at hxle
      have hDe : D = c1 * c1 - 4 * c0 * c2' := max_eq_right (by have := mul_pos_of_neg_of_neg hc2n (neg_lt_zero.mpr hc0p); linarith [mul_self_nonneg c1])
      have hDc : |c1| ≤ √D := by
        refine Real.abs_le_sqrt ?_
        rw [hDe, pow_two]
        have := mul_pos_of_neg_of_neg hc2n (neg_lt_zero.mpr hc0p)
        linarith
      have hup : 2 * c2' * al + c1 ≤ √D := by
        have := le_abs_self c1
        have := mul_nonpos_of_nonpos_of_nonneg hc2n.le hal0
        linarith
      have hlo : -√D ≤ 2 * c2' * al + c1 := by
        have hala : al ≤ a := by
          rw [has]
          linarith
        have : a * (2 * c2') ≤ al * (2 * c2') := mul_le_mul_of_nonpos_right hala (by linarith)
        linarith
      have hsq2 : (2 * c2' * al + c1) ^ 2 ≤ D := by
        have := sq_le_sq' hlo hup
        rwa [Real.sq_sqrt hD0] at this
      rw [hDe] at hsq2
      have hq : 0 ≤ c0 + c1 * al + c2' * al ^ 2 := by
        have h4 : 4 * c2' * (c0 + c1 * al + c2' * al ^ 2) ≤ 0 := by linarith
        by_contra hcc
        rw [not_le] at hcc
        have := mul_pos_of_neg_of_neg (by linarith : 4 * c2' < 0) hcc
        linarith
      have e2 : c2 * al ^ 2 = c2' * al ^ 2 + verySmall * al ^ 2 := by rw [hc2]; ring
      have := mul_nonneg hv.1.le hsq0
      linarith

/-- the quadratic of the code is that of the scaled update -/
theorem coeffs_eval (u inc : St ℝ d) (f t : ℝ) :
    (ratioCoeffs u inc f).1 + (ratioCoeffs u inc f).2.1 * t + (2 * inc.c4 * inc.c0 - inc.cv ⬝ᵥ inc.cv) * t ^ 2 =
      2 * (u + t • inc).1 * ((u + t • inc).2.2 - f) - ∑ i, (u + t • inc).2.1 i * (u + t • inc).2.1 i := by
  have e : ∑ i, (u + t • inc).2.1 i * (u + t • inc).2.1 i = u.cv ⬝ᵥ u.cv + 2 * t * (u.cv ⬝ᵥ inc.cv) + t ^ 2 * (inc.cv ⬝ᵥ inc.cv) := by
    simp only [dotProduct, Finset.mul_sum, ← Finset.sum_add_distrib]
    refine Finset.sum_congr rfl fun i _ => ?_
    simp only [St.cv, Prod.fst_add, Prod.snd_add, Prod.smul_fst, Prod.smul_snd, Pi.add_apply, Pi.smul_apply, smul_eq_mul]
    ring
  rw [e]
  simp only [ratioCoeffs, St.c0, St.cv, St.c4, Prod.fst_add, Prod.snd_add, Prod.smul_fst, Prod.smul_snd, smul_eq_mul]
  ring

theorem root_total {c0 c1 c2 c2' : ℝ} (hc0 : 1 / 10 ^ 150 ≤ c0) (hc2 : c2' = c2 + signP c2 * verySmall)
    (hd : 0 ≤ c1 * c1 - 4 * c0 * c2) : ∃ a, ratioRoot c0 c1 c2' = .ok a := by
  have hc0p : 0 < c0 := lt_of_lt_of_le (by positivity) hc0
  have hv : 0 < verySmall ∧ verySmall * 10 ^ 30 ≤ 1 / 10 ^ 150 := by
    unfold verySmall
    constructor
    · positivity
    · norm_num
  have hle : c2' ≤ c2 + verySmall := by
    rw [hc2, signP]
    split <;> linarith [hv.1]
  have : ¬ c1 * c1 - 4 * c0 * c2' ≤ -(c0 * c0) * small := by
    rw [not_le]
    have h1 : c0 * c2' ≤ c0 * (c2 + verySmall) := mul_le_mul_of_nonneg_left hle hc0p.le
    have h2 : 4 * verySmall < c0 * small := by
      unfold small
      linarith [hv.1, hv.2]
    have h3 : c0 * (4 * verySmall) < c0 * (c0 * small) := mul_lt_mul_of_pos_left h2 hc0p
    nlinarith
  exact ⟨_, if_neg this⟩

/-- **C43** (the exact root never aborts) If the density stays positive and the old internal energy is above the floor by more than
a rounding guard, the ratio computed from the quadratic is returned at once, and the exact internal energy of the scaled update is
at least the floor. -/
theorem ratio_root_total (u inc : St ℝ d) (floor : ℝ) (hr : 0 < u.1) (hr' : 0 < u.1 + inc.1)
    (hgap : 1 / 10 ^ 150 ≤ 2 * u.1 * (internal u - max (1 / 10 ^ 10 * internalG (1 / 10 ^ 200) u) floor)) :
    ∃ alpha, compressionRatio 0 u inc floor = .ok alpha ∧ floor ≤ internal (u + alpha • inc) := by
  have hv := verySmall_pos
  simp only [compressionRatio, if_true]
  set f := max (small * rhoEInt u) floor with hf
  have hfe : f = max (1 / 10 ^ 10 * internalG (1 / 10 ^ 200) u) floor := by rw [hf, rhoEInt_eq]; rfl
  have hc0 : 1 / 10 ^ 150 ≤ (ratioCoeffs u inc f).1 := by
    refine hgap.trans_eq ?_
    rw [← hfe]
    simp only [internal, ratioCoeffs, St.c0, St.cv, St.c4, dotProduct]
    field_simp
  have hdisc : 0 ≤ (ratioCoeffs u inc f).2.1 * (ratioCoeffs u inc f).2.1 - 4 * (ratioCoeffs u inc f).1 *
      (2 * inc.c4 * inc.c0 - inc.cv ⬝ᵥ inc.cv) := by
    have hc0p : 0 < (ratioCoeffs u inc f).1 := lt_of_lt_of_le (by positivity) hc0
    refine disc_nonneg hc0p (-(inc.c0 / u.c0)) ?_
    have e : (ratioCoeffs u inc f).1 * (-(inc.c0 / u.c0)) ^ 2 + (ratioCoeffs u inc f).2.1 * (-(inc.c0 / u.c0)) +
        (2 * inc.c4 * inc.c0 - inc.cv ⬝ᵥ inc.cv) = -((inc.cv - (inc.c0 / u.c0) • u.cv) ⬝ᵥ (inc.cv - (inc.c0 / u.c0) • u.cv)) := by
      have hr2 : u.c0 ≠ 0 := hr.ne'
      simp only [ratioCoeffs, sub_dotProduct, dotProduct_sub, smul_dotProduct, dotProduct_smul, smul_eq_mul, dotProduct_comm inc.cv u.cv]
      field_simp
      ring
    rw [e]
    have : 0 ≤ (inc.cv - (inc.c0 / u.c0) • u.cv) ⬝ᵥ (inc.cv - (inc.c0 / u.c0) • u.cv) :=
      Finset.sum_nonneg fun i _ => mul_self_nonneg _
    linarith
  obtain ⟨a, ha⟩ := root_total (c2' := (ratioCoeffs u inc f).2.2) hc0 rfl hdisc
  have hb := root_bounds ha
  have hb' := safety_bounds hb.1 hb.2
  have hq := quad_nonneg hc0 rfl ha
  rw [coeffs_eval] at hq
  have hrho : 0 < (u + ratioSafety a • inc).1 := by
    simp only [Prod.fst_add, Prod.smul_fst, smul_eq_mul]
    rcases hb'.1.lt_or_eq with h | h
    · nlinarith [mul_pos h hr', mul_nonneg (sub_nonneg.mpr hb'.2) hr.le]
    · rw [← h, zero_mul, add_zero]
      exact hr
  have hint : f ≤ internal (u + ratioSafety a • inc) := by
    rw [internal, le_sub_iff_add_le, ← le_sub_iff_add_le', div_le_iff₀ (by linarith)]
    linarith
  have hintG : f ≤ internalG verySmall (u + ratioSafety a • inc) := by
    refine hint.trans ?_
    have : (∑ i, (u + ratioSafety a • inc).2.1 i * (u + ratioSafety a • inc).2.1 i) / (2 * ((u + ratioSafety a • inc).1 + verySmall)) ≤
        (∑ i, (u + ratioSafety a • inc).2.1 i * (u + ratioSafety a • inc).2.1 i) / (2 * (u + ratioSafety a • inc).1) :=
      div_le_div_of_nonneg_left (Finset.sum_nonneg fun i _ => mul_self_nonneg _) (by linarith) (by linarith)
    simp only [internal, internalG]
    linarith
  refine ⟨ratioSafety a, ?_, (le_max_right _ _).trans hint⟩
  rw [ha]
  exact loop_immediate u inc 999 hintG

/-- gas at rest with density 1 and internal energy 1 -/
noncomputable def still : St ℝ 1 := (1, ![0], 1)

theorem still_internalG : internalG (1 / 10 ^ 200) still = 1 := by
  simp [internalG, still]

/-- **A shortcoming of the root formula**: adding to a gas at rest as much again, which doubles its internal energy, is not allowed
at all; the ratio returned is 0. -/
theorem ratio_rejects_increase : compressionRatio 0 still still 0 = .ok 0 ∧ internal (still + still) = 2 := by
  have he : rhoEInt still = 1 := by rw [rhoEInt_eq]; exact still_internalG
  refine ⟨?_, ?_⟩
  · simp only [compressionRatio, if_true, he]
    have hf : max (small * 1) 0 = 1 / 10 ^ 10 := by
      rw [mul_one, small]
      exact max_eq_left (by positivity)
    rw [hf]
    have hroot : ratioRoot (ratioCoeffs still still (1 / 10 ^ 10)).1 (ratioCoeffs still still (1 / 10 ^ 10)).2.1
        (ratioCoeffs still still (1 / 10 ^ 10)).2.2 = .ok 0 := by
      have hdot : (![0] : Fin 1 → ℝ) ⬝ᵥ ![0] = 0 := by simp [dotProduct]
      have hv : 0 < verySmall ∧ verySmall < 1 / 10 ^ 20 := by
        constructor <;> norm_num [verySmall]
      have h0 : (ratioCoeffs still still (1 / 10 ^ 10)).1 = 2 - 2 / 10 ^ 10 := by
        simp only [ratioCoeffs, still, St.c0, St.cv, St.c4, hdot]
        norm_num
      have h1 : (ratioCoeffs still still (1 / 10 ^ 10)).2.1 = 4 - 2 / 10 ^ 10 := by
        simp only [ratioCoeffs, still, St.c0, St.cv, St.c4, hdot]
        norm_num
      have h2 : (ratioCoeffs still still (1 / 10 ^ 10)).2.2 = 2 + verySmall := by
        simp only [ratioCoeffs, still, St.c0, St.cv, St.c4, hdot, signP]
        norm_num
      rw [h0, h1, h2]
      have hnot : ¬ ((4 - 2 / 10 ^ 10 : ℝ) * (4 - 2 / 10 ^ 10) - 4 * (2 - 2 / 10 ^ 10) * (2 + verySmall) ≤
          -((2 - 2 / 10 ^ 10) * (2 - 2 / 10 ^ 10)) * small) := by
        rw [not_le, small]
        linarith [hv.1, hv.2]
      simp only [ratioRoot]
      rw [if_neg hnot, if_neg (by rw [abs_of_pos (by linarith [hv.1])]; linarith [hv.1]), ite_self]
      congr 1
      refine max_eq_left ((min_le_left _ _).trans ?_)
      refine div_nonpos_of_nonpos_of_nonneg ?_ (by linarith [hv.1])
      have := Real.sqrt_nonneg (max 0 ((4 - 2 / 10 ^ 10 : ℝ) * (4 - 2 / 10 ^ 10) - 4 * (2 - 2 / 10 ^ 10) * (2 + verySmall)))
      linarith
    rw [hroot]
    have hs : ratioSafety 0 = 0 := by simp [ratioSafety]
    show ratioLoop still (1 / 10 ^ 10) 1000 (ratioSafety 0 • still) (ratioSafety 0) = .ok 0
    rw [hs]
    refine loop_immediate still still 999 ?_
    rw [zero_smul, add_zero]
    refine le_trans ?_ still_internalG.ge
    norm_num
  · simp [internal, still]
    norm_num

/-- non-vacuity: the gas at rest, and an increment that removes half of its density and energy, meet the hypotheses above. -/
example : 0 < still.1 ∧ 0 < still.1 + ((-1 / 2 : ℝ) • still).1 ∧ 0 ≤ internalG (1 / 10 ^ 200) still ∧ (1 / 4 : ℝ) ≤ internalG (1 / 10 ^ 200) still ∧
    1 / 10 ^ 200 ≤ internalG (1 / 10 ^ 200) still - max (1 / 10 ^ 10 * internalG (1 / 10 ^ 200) still) (1 / 4) ∧
    max (1 / 10 ^ 10 * internalG (1 / 10 ^ 200) still) (1 / 4) ≤ internalG (1 / 10 ^ 200) (still + (-1 / 2 : ℝ) • still) ∧
    1 / 10 ^ 150 ≤ 2 * still.1 * (internal still - max (1 / 10 ^ 10 * internalG (1 / 10 ^ 200) still) (1 / 4)) := by
  have h1 : max (1 / 10 ^ 10 * internalG (1 / 10 ^ 200) still) (1 / 4) = 1 / 4 := by
    rw [still_internalG]
    norm_num
  have h2 : internal still = 1 := by simp [internal, still]
  have h3 : internalG (1 / 10 ^ 200) (still + (-1 / 2 : ℝ) • still) = 1 / 2 := by
    simp [internalG, still]
    norm_num
  rw [h1, h2, h3, still_internalG]
  norm_num [still]

end DNDSR.Gas
