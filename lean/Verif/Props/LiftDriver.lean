import Verif.Proof.LiftDriver
import Mathlib.Analysis.Real.Pi.Bounds
import Mathlib.Tactic.FieldSimp
import Mathlib.Tactic.Ring
import Mathlib.Tactic.NormNum
import Mathlib.Tactic.Tauto
import Mathlib.Tactic.Positivity

/-!
# The driver of the angle of attack (C104)
-/

namespace DNDSR.Lift

theorem standard_pos : 0 < standard := by unfold standard; positivity

theorem clSlope_bounds {lastCL cl : ℝ} {lastAOA aoa : Option ℝ} {k : ℝ} (h : clSlope lastCL lastAOA cl aoa = some k) :
    9 / 10 * standard ≤ k ∧ k ≤ 10 * standard := by
  have hp := standard_pos
  simp only [clSlope, bounded] at h
  split at h <;> cases h
  · exact ⟨le_max_right _ _, max_le (min_le_right _ _) (by linarith)⟩
  · exact ⟨le_max_right _ _, max_le le_rfl (by linarith)⟩
  · exact ⟨le_rfl, by linarith⟩

/-- **C104** (when) After any calls, the next call changes the angle exactly when the driver has been started, enough lifts have been given since the last change, and the
last ones are steady. -/
theorem moves_iff {s : Settings} (hs : Sane s) {st : State} (h : construct s = .ok st) (xs : List (Int × ℝ)) (iter : Int) (x : ℝ) :
    (update s (run s st xs).1 iter x).2.isSome ↔
      s.startDrive ≤ iter ∧ s.window ≤ ((since (run s st xs).2).length + 1 : Nat) ∧ s.convergeMin ≤ ((since (run s st xs).2).length + 1 : Nat) ∧
        Steady s (run s st xs).2 ((x :: since (run s st xs).2).take s.window.toNat) := by
  classical
  rw [(update_eq hs (run_inv hs h xs) iter x).1]
  change _ ↔ Moves s _ iter x
  split <;> simp_all

/-- **C104** (the angle) `GetAOA` is the angle of the last message, the initial one before the first. -/
theorem angle_spec {s : Settings} (hs : Sane s) {st : State} (h : construct s = .ok st) (xs : List (Int × ℝ)) :
    (run s st xs).1.aoa = angle s (run s st xs).2 := (run_inv hs h xs).aoa

/-- **C104** (where to) The message of a change has the mean of the last lifts.  The new angle is the old one plus the missing lift over a slope that is between nine tenths
and ten times that of a flat plate, times the relaxation: it lies on the side of the target, and is not further than the missing lift allows. -/
theorem move_spec {s : Settings} (hs : Sane s) {st : State} (h : construct s = .ok st) (xs : List (Int × ℝ)) (iter : Int) (x : ℝ) {m : Msg}
    (hm : (update s (run s st xs).1 iter x).2 = some m) :
    m.iter = iter ∧ m.cl = mean ((x :: since (run s st xs).2).take s.window.toNat) ∧
    (∀ k, m.slope = some k → 9 / 10 * (Real.pi ^ 2 / 90) ≤ k ∧ k ≤ 10 * (Real.pi ^ 2 / 90) ∧
      ∀ a, angle s (run s st xs).2 = some a → ∃ a', m.aoa = some a' ∧ a' = a + (s.targetCL - x) / k * s.relax ∧
        (0 ≤ s.relax → 0 ≤ (a' - a) * (s.targetCL - x) ∧ |a' - a| ≤ s.relax * |s.targetCL - x| / (9 / 10 * (Real.pi ^ 2 / 90)))) := by
  classical
  have hI := run_inv hs h xs
  rw [(update_eq hs hI iter x).1] at hm
  split at hm <;> cases hm
  refine ⟨rfl, rfl, fun k hk => ?_⟩
  have hk' : clSlope (run s st xs).1.lastCL (run s st xs).1.lastAOA x (run s st xs).1.aoa = some k := hk
  have hb := clSlope_bounds hk'
  have hp := standard_pos
  refine ⟨hb.1, hb.2, fun a ha => ⟨a + (s.targetCL - x) / k * s.relax, ?_, rfl, fun hr => ?_⟩⟩
  · show newAngle s (run s st xs).1.aoa x _ = _
    rw [hk', hI.aoa, ha]
    rfl
  · have hk0 : 0 < k := by linarith [hb.1]
    change 9 / 10 * standard ≤ k ∧ _ at hb
    have e : a + (s.targetCL - x) / k * s.relax - a = (s.targetCL - x) * (s.relax / k) := by field_simp; ring
    rw [e]
    constructor
    · have : (s.targetCL - x) * (s.relax / k) * (s.targetCL - x) = (s.targetCL - x) ^ 2 * (s.relax / k) := by ring
      rw [this]
      positivity
    · rw [abs_mul, abs_of_nonneg (by positivity : 0 ≤ s.relax / k), mul_comm s.relax, ← mul_div_assoc]
      exact div_le_div_of_nonneg_left (by positivity) (by positivity) hb.1

/-- **C104** (the slope) At the first change the slope is that of a flat plate.  Later it is that of the line through the last change and now, if the angles differ; a negative
one is replaced by that of a flat plate, and it is kept between nine tenths and ten times of it.  There is no slope only if neither the angle nor the lift has
changed since, or an angle was not a number. -/
theorem slope_spec {s : Settings} (hs : Sane s) {st : State} (h : construct s = .ok st) (xs : List (Int × ℝ)) (iter : Int) (x : ℝ) {m : Msg}
    (hm : (update s (run s st xs).1 iter x).2 = some m) :
    (lastMsg (run s st xs).2 = none → m.slope = some (Real.pi ^ 2 / 90)) ∧
    (∀ l, lastMsg (run s st xs).2 = some l → ∀ a b, angle s (run s st xs).2 = some a → angle s (before (run s st xs).2) = some b →
      l.cl ≠ 3 * 10 ^ 200 → b ≠ 3 * 10 ^ 200 →
      (b ≠ a → m.slope = some (max (min (if (l.cl - x) / (b - a) < 0 then Real.pi ^ 2 / 90 else (l.cl - x) / (b - a)) (10 * (Real.pi ^ 2 / 90)))
        (9 / 10 * (Real.pi ^ 2 / 90)))) ∧
      (m.slope = none ↔ b = a ∧ l.cl = x)) := by
  classical
  have hI := run_inv hs h xs
  rw [(update_eq hs hI iter x).1] at hm
  have hp := standard_pos
  split at hm <;> cases hm
  show (_ → clSlope _ _ _ _ = some standard) ∧ _
  constructor
  · intro hn
    have h1 := hI.lastCL
    rw [hn] at h1
    unfold clSlope
    rw [if_pos (Or.inl h1)]
    simp only [bounded, Ext.neg, not_lt.2 hp.le, if_false]
    rw [min_eq_left (by linarith), max_eq_left (by linarith)]
  · intro l hl a b ha hb hlv hbv
    have h1 := hI.lastCL
    have h2 := hI.lastAOA
    rw [hl] at h1 h2
    have h1' : (run s st xs).1.lastCL = l.cl := h1
    have h2' : (run s st xs).1.lastAOA = some b := by rw [h2]; exact hb
    have h3 : (run s st xs).1.aoa = some a := by rw [hI.aoa, ha]
    have hsent : ¬ (l.cl = veryLarge ∨ some b = some veryLarge) := by
      rintro (e | e)
      · exact hlv e
      · exact hbv (Option.some.inj e)
    have hcl : clSlope (run s st xs).1.lastCL (run s st xs).1.lastAOA x (run s st xs).1.aoa = bounded (quotient (l.cl - x) (some (b - a))) := by
      rw [h1', h2', h3]
      unfold clSlope
      rw [if_neg hsent]
      rfl
    show (_ → clSlope _ _ _ _ = _) ∧ (clSlope _ _ _ _ = none ↔ _)
    rw [hcl]
    refine ⟨fun hne => ?_, ?_⟩
    · have hd : b - a ≠ 0 := sub_ne_zero.2 hne
      simp only [bounded, quotient, ne_eq, hd, not_false_iff, if_true, Ext.neg]
      by_cases hneg : (l.cl - x) / (b - a) < 0
      · rw [if_pos hneg, if_pos hneg]; rfl
      · rw [if_neg hneg, if_neg hneg]; rfl
    · by_cases hd : b - a = 0
      · simp only [bounded, quotient, hd, ne_eq, not_true, if_false]
        by_cases hx : l.cl - x = 0
        · simp only [hx, if_true, Ext.neg, if_false, true_iff]
          exact ⟨sub_eq_zero.1 hd, sub_eq_zero.1 hx⟩
        · have hx' : ¬ (b = a ∧ l.cl = x) := fun e => hx (sub_eq_zero.2 e.2)
          simp only [hx, if_false, hx', iff_false]
          by_cases hpos : 0 < l.cl - x
          · simp [hpos, Ext.neg]
          · simp [hpos, Ext.neg]
      · have hx' : ¬ (b = a ∧ l.cl = x) := fun e => hd (sub_eq_zero.2 e.1)
        simp only [bounded, quotient, ne_eq, hd, not_false_iff, if_true, hx', iff_false, Ext.neg]
        by_cases hneg : (l.cl - x) / (b - a) < 0
        · simp [hneg]
        · simp [hneg]

/-- **C104** (the end) The driver reports that the target is reached when the last calls, as many as configured and all after the last change of the angle, were given lifts no
further from the target than `longThreshold`. -/
theorem converged_iff {s : Settings} (hs : Sane s) {st : State} (h : construct s = .ok st) (xs : List (Int × ℝ)) :
    converged s (run s st xs).1 = true ↔
      ∀ i : Nat, (i : Int) < s.longWindow → ∃ e, (run s st xs).2[i]? = some e ∧ e.2 = none ∧ |s.targetCL - e.1| ≤ (s.longThreshold : ℝ) := by
  classical
  have hacc := (run_inv hs h xs).acc
  simp only [converged, hacc, ge_iff_le, decide_eq_true_eq]
  generalize (run s st xs).2 = log
  have key : ∀ (log : List Entry) (n : Nat), n ≤ atTarget s log ↔ ∀ i, i < n → ∃ e, log[i]? = some e ∧ e.2 = none ∧ |s.targetCL - e.1| ≤ (s.longThreshold : ℝ) := by
    intro log
    induction log with
    | nil =>
      intro n
      simp only [atTarget, List.takeWhile_nil, List.length_nil, Nat.le_zero]
      constructor
      · rintro rfl i hi; omega
      · intro hh
        by_contra hn
        obtain ⟨e, he, -⟩ := hh 0 (by omega)
        simp at he
    | cons e log ih =>
      intro n
      rcases e with ⟨x, o⟩
      cases n with
      | zero => simp
      | succ n =>
        have step : (∀ i, i < n + 1 → ∃ e, ((x, o) :: log)[i]? = some e ∧ e.2 = none ∧ |s.targetCL - e.1| ≤ (s.longThreshold : ℝ)) ↔
            (o = none ∧ |s.targetCL - x| ≤ (s.longThreshold : ℝ)) ∧ ∀ i, i < n → ∃ e, log[i]? = some e ∧ e.2 = none ∧ |s.targetCL - e.1| ≤ (s.longThreshold : ℝ) := by
          constructor
          · intro hh
            refine ⟨?_, fun i hi => ?_⟩
            · obtain ⟨e, he, h1, h2⟩ := hh 0 (by omega)
              simp at he
              subst he
              exact ⟨h1, h2⟩
            · obtain ⟨e, he, h1⟩ := hh (i + 1) (by omega)
              exact ⟨e, by simpa using he, h1⟩
          · rintro ⟨⟨h1, h2⟩, hh⟩ i hi
            cases i with
            | zero => exact ⟨(x, o), by simp, h1, h2⟩
            | succ i =>
              obtain ⟨e, he, h3⟩ := hh i (by omega)
              exact ⟨e, by simpa using he, h3⟩
        rw [step, ← ih n]
        cases o with
        | some m => rw [atTarget_some]; simp
        | none =>
          rw [atTarget_none]
          split <;> rename_i hx <;> simp [hx]
  constructor
  · intro hle i hi
    exact (key log (i + 1)).1 (by omega) i (by omega)
  · intro hh
    by_contra hn
    have := (key log (s.longWindow.toNat)).2 (fun i hi => hh i (by omega))
    omega

/-- **C104 fails** for thresholds below one: the variable that takes `CLconvergeLongThreshold` is an integer, so that the configured number is cut to zero, and the inner iterations
never stop on convergence unless the lift hits the target exactly. -/
theorem never_stops {s : Settings} (hs : Sane s) {st : State} (h : construct s = .ok st) {tau : ℝ} (h0 : 0 ≤ tau) (h1 : tau < 1)
    (hread : s.longThreshold = toIndex tau) (hl : 1 ≤ s.longWindow) (xs : List (Int × ℝ)) (hx : ∀ y ∈ xs, y.2 ≠ s.targetCL) (small : Bool) (iter iterMin : Int) :
    stop s (run s st xs).1 small iter iterMin = false := by
  have hz : s.longThreshold = 0 := by
    rw [hread, toIndex, if_pos h0, Int.floor_eq_zero_iff]
    exact ⟨h0, h1⟩
  have hc : converged s (run s st xs).1 = false := by
    by_contra hn
    obtain ⟨e, he, -, h3⟩ := (converged_iff hs h xs).1 (by simpa using hn) 0 (by simpa using (by omega : (0 : Int) < s.longWindow))
    rw [hz, Int.cast_zero, abs_nonpos_iff, sub_eq_zero] at h3
    cases xs with
    | nil => simp [run] at he
    | cons y ys =>
      simp only [run, List.getElem?_cons_zero, Option.some.injEq] at he
      subst he
      exact hx y List.mem_cons_self h3.symm
  simp [stop, hc]

end DNDSR.Lift
