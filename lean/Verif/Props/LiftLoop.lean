import Verif.Props.LiftDriver
import Mathlib.Tactic.NormNum
import Mathlib.Data.Matrix.Basic

/-!
# The driver of the angle of attack in its loop (C104)
-/

namespace DNDSR.Lift

open DNDSR.Rot Matrix

/-- how many calls the driver waits before it changes the angle of a steady lift -/
def period (s : Settings) : Nat := (max s.window s.convergeMin).toNat

/-- the error of the lift after so many changes of the angle, for a lift that is linear in the angle with slope `k` -/
noncomputable def errorAfter (s : Settings) (k e0 : ℝ) : Nat → ℝ
  | 0 => e0
  | j + 1 => (1 - s.relax) ^ j * (1 - s.relax * k / (Real.pi ^ 2 / 90)) * e0

/-- the calls of a flow whose lift is linear in the angle that the driver has chosen -/
def Follows (s : Settings) (st : State) (c0 k : ℝ) : List (Int × ℝ) → Prop
  | [] => True
  | y :: ys => Follows s st c0 k ys ∧ s.startDrive ≤ y.1 ∧ ∀ a, angle s (run s st ys).2 = some a → y.2 = c0 + k * a

theorem mean_replicate {n : Nat} (h : 0 < n) (c : ℝ) : mean (List.replicate n c) = c := by
  have : (n : ℝ) ≠ 0 := by exact_mod_cast h.ne'
  simp only [mean, List.sum_replicate, List.length_replicate, nsmul_eq_mul]
  field_simp

theorem period_pos {s : Settings} (hs : Sane s) : 2 ≤ period s := by
  have := hs.window
  unfold period
  omega

theorem quiet {s : Settings} {log : List Entry} {iter : Int} {x : ℝ} {r : Nat} (hr : (since log).length = r) (hp : r + 1 < period s) : ¬ Moves s log iter x := by
  rintro ⟨-, h1, h2, -⟩
  unfold period at hp
  omega

theorem moves {s : Settings} (hs : Sane s) (ht : 0 ≤ s.threshold) (hq : 0 ≤ s.ratio) {log : List Entry} {iter : Int} {x : ℝ} {r : Nat}
    (hr : since log = List.replicate r x) (hp : r + 1 = period s) (hi : s.startDrive ≤ iter) :
    Moves s log iter x ∧ mean ((x :: since log).take s.window.toNat) = x := by
  have hw := hs.window
  have hw' : s.window.toNat ≤ r + 1 := by unfold period at hp; omega
  have e : (x :: since log).take s.window.toNat = List.replicate s.window.toNat x := by
    rw [hr, ← List.replicate_succ, List.take_replicate, min_eq_left hw']
  have hm : mean (List.replicate s.window.toNat x) = x := mean_replicate (by omega) x
  refine ⟨⟨hi, ?_, ?_, ?_⟩, by rw [e, hm]⟩
  · rw [hr, List.length_replicate]; omega
  · rw [hr, List.length_replicate]; unfold period at hp; omega
  · rw [e]
    intro y hy
    rw [List.eq_of_mem_replicate hy, hm, sub_self, abs_zero]
    exact ⟨ht, fun m _ => by positivity⟩

open Classical in
theorem run_quiet {s : Settings} (hs : Sane s) {st : State} (h : construct s = .ok st) {xs : List (Int × ℝ)} {y : Int × ℝ} (hn : ¬ Moves s (run s st xs).2 y.1 y.2) :
    (run s st (y :: xs)).2 = (y.2, none) :: (run s st xs).2 := by
  simp only [run]
  rw [(update_eq hs (run_inv hs h xs) y.1 y.2).1, if_neg hn]

open Classical in
theorem run_move {s : Settings} (hs : Sane s) {st : State} (h : construct s = .ok st) {xs : List (Int × ℝ)} {y : Int × ℝ} (hn : Moves s (run s st xs).2 y.1 y.2) :
    ∃ m, (update s (run s st xs).1 y.1 y.2).2 = some m ∧ (run s st (y :: xs)).2 = (y.2, some m) :: (run s st xs).2 ∧
      m.aoa = newAngle s (angle s (run s st xs).2) y.2 m.slope := by
  have h1 := (update_eq hs (run_inv hs h xs) y.1 y.2).1
  rw [if_pos hn] at h1
  refine ⟨_, h1, ?_, ?_⟩
  · simp only [run]; rw [h1]
  · simp only [(run_inv hs h xs).aoa]

/-- **C104 fails** at the target: when every lift that the driver is given is the target itself, the second change of the angle divides zero by zero, and the angle is not a number
from then on. -/
theorem at_target_nan {s : Settings} (hs : Sane s) (ht : 0 ≤ s.threshold) (hq : 0 ≤ s.ratio) {st : State} (h : construct s = .ok st) (hb : |s.targetCL| ≤ 10 ^ 100)
    (hai : |s.aoaInit| ≤ 10 ^ 100) (xs : List (Int × ℝ)) (hx : ∀ y ∈ xs, s.startDrive ≤ y.1 ∧ y.2 = s.targetCL) :
    (run s st xs).1.aoa = if xs.length < 2 * period s then some s.aoaInit else none := by
  have hP := period_pos hs
  have big : ∀ x : ℝ, |x| ≤ 10 ^ 100 → x ≠ 3 * 10 ^ 200 := by
    intro x hx e
    rw [e, abs_of_pos (by positivity)] at hx
    norm_num at hx
  have key : ∃ j r : Nat, xs.length = period s * j + r ∧ r < period s ∧ since (run s st xs).2 = List.replicate r s.targetCL ∧
      angle s (run s st xs).2 = (if j < 2 then some s.aoaInit else none) ∧ (j = 0 → lastMsg (run s st xs).2 = none) ∧
      (j = 1 → ∃ l, lastMsg (run s st xs).2 = some l ∧ l.cl = s.targetCL ∧ angle s (before (run s st xs).2) = some s.aoaInit) := by
    induction xs with
    | nil => exact ⟨0, 0, by simp, by omega, by simp [run, since], by simp [run, angle, lastMsg], fun _ => by simp [run, lastMsg], fun h => by omega⟩
    | cons y ys ih =>
      obtain ⟨j, r, h1, h2, h3, h4, h5, h6⟩ := ih (fun z hz => hx z (List.mem_cons_of_mem _ hz))
      obtain ⟨hy1, hy2⟩ := hx y List.mem_cons_self
      by_cases hr : r + 1 < period s
      · have e := run_quiet hs h (y := y) (quiet (by rw [h3]; simp) hr)
        refine ⟨j, r + 1, by simp [h1]; omega, hr, ?_, ?_, ?_, ?_⟩
        · rw [e, since_none, h3, hy2]; rfl
        · rw [e, angle_none, h4]
        · intro hj; rw [e, lastMsg_none, h5 hj]
        · intro hj; rw [e, lastMsg_none, before_none]; exact h6 hj
      · have hr' : r + 1 = period s := by omega
        rw [← hy2] at h3
        obtain ⟨hmv, hmean⟩ := moves hs ht hq h3 hr' hy1
        obtain ⟨m, hm, e, ha⟩ := run_move hs h hmv
        have hms := (move_spec hs h ys y.1 y.2 hm).2.1
        have hsl := slope_spec hs h ys y.1 y.2 hm
        rw [h3] at hmean hms
        rw [hmean] at hms
        refine ⟨j + 1, 0, ?_, by omega, by rw [e, since_some]; rfl, ?_, fun hj => by omega, ?_⟩
        · rw [List.length_cons, h1, Nat.mul_add, mul_one, add_assoc, hr', add_zero]
        · rw [e, angle_some, ha, h4]
          by_cases hj0 : j = 0
          · subst hj0
            rw [hsl.1 (h5 rfl)]
            simp [newAngle, hy2]
          · by_cases hj1 : j = 1
            · subst hj1
              obtain ⟨l, hl, hlc, hba⟩ := h6 rfl
              have := (hsl.2 l hl s.aoaInit s.aoaInit (by rw [h4]; rfl) hba (by rw [hlc]; exact big _ hb) (big _ hai)).2.2 ⟨rfl, by rw [hlc, hy2]⟩
              rw [this]
              simp [newAngle]
            · rw [if_neg (by omega), if_neg (by omega)]
              rfl
        · intro hj
          have hj0 : j = 0 := by omega
          refine ⟨m, by rw [e, lastMsg_some], by rw [hms, hy2], ?_⟩
          rw [e, before_some, h4, if_pos (by omega)]
  obtain ⟨j, r, h1, h2, -, h4, -⟩ := key
  rw [angle_spec hs h, h4]
  have : j < 2 ↔ xs.length < 2 * period s := by
    rw [h1]
    constructor
    · intro hj
      have : period s * j ≤ period s * 1 := Nat.mul_le_mul_left _ (by omega)
      omega
    · intro hh
      by_contra hj
      have : period s * 2 ≤ period s * j := Nat.mul_le_mul_left _ (by omega)
      omega
  simp only [this]

/-- **C104** (convergence) For a flow whose lift is linear in the angle, with a slope in the range that the driver accepts, the error of the lift after `n` calls is that of the
start times a constant, times `1 - relax` for every period of calls after the first: it tends to zero, and the angle stays a number.  The relaxation and the start
must not hit the target exactly. -/
theorem linear_converges_partial {s : Settings} (hs : Sane s) (ht : 0 ≤ s.threshold) (hq : 0 ≤ s.ratio) {st : State} (h : construct s = .ok st) {c0 k : ℝ}
    (hk1 : 9 / 10 * (Real.pi ^ 2 / 90) ≤ k) (hk2 : k ≤ 10 * (Real.pi ^ 2 / 90)) (hr0 : 0 < s.relax) (hr1 : s.relax < 1)
    (hrk : s.relax * k ≠ Real.pi ^ 2 / 90) (he : s.targetCL ≠ c0 + k * s.aoaInit) (hb : |s.targetCL| ≤ 10 ^ 100) (hai : |s.aoaInit| ≤ 10 ^ 100) (hc : |c0| ≤ 10 ^ 100)
    (xs : List (Int × ℝ)) (hx : Follows s st c0 k xs) :
    ∃ a, (run s st xs).1.aoa = some a ∧ s.targetCL - (c0 + k * a) = errorAfter s k (s.targetCL - (c0 + k * s.aoaInit)) (xs.length / period s) := by
  have hP := period_pos hs
  set e0 := s.targetCL - (c0 + k * s.aoaInit) with he0
  have hS : (0 : ℝ) < Real.pi ^ 2 / 90 := standard_pos
  have hk0 : 0 < k := by linarith
  have hne0 : e0 ≠ 0 := sub_ne_zero.2 he
  have hfac : 1 - s.relax * k / (Real.pi ^ 2 / 90) ≠ 0 := by
    intro e
    apply hrk
    have : s.relax * k / (Real.pi ^ 2 / 90) = 1 := by linarith
    rwa [div_eq_one_iff_eq hS.ne'] at this
  have hEne : ∀ j, errorAfter s k e0 j ≠ 0 := by
    intro j
    cases j with
    | zero => exact hne0
    | succ j => exact mul_ne_zero (mul_ne_zero (pow_ne_zero _ (by linarith)) hfac) hne0
  have hpi := Real.pi_gt_three
  have hpi2 := Real.pi_lt_d2
  have hSlo : (1 : ℝ) / 10 ≤ Real.pi ^ 2 / 90 := by nlinarith
  have hShi : Real.pi ^ 2 / 90 ≤ 2 / 10 := by nlinarith
  have habsE0 : |e0| ≤ 4 * 10 ^ 100 := by
    rw [he0]
    have h1 : |k * s.aoaInit| ≤ 2 * 10 ^ 100 := by
      rw [abs_mul, abs_of_pos hk0]
      exact mul_le_mul (by linarith) hai (abs_nonneg _) (by norm_num)
    rw [abs_le] at *
    constructor <;> linarith [h1.1, h1.2, hb.1, hb.2, hc.1, hc.2]
  have habsE : ∀ j, |errorAfter s k e0 j| ≤ 40 * 10 ^ 100 := by
    intro j
    cases j with
    | zero => exact habsE0.trans (by norm_num)
    | succ j =>
      have h1 : |(1 - s.relax) ^ j| ≤ 1 := by
        rw [abs_of_nonneg (pow_nonneg (by linarith) _)]
        exact pow_le_one₀ (by linarith) (by linarith)
      have h2 : |1 - s.relax * k / (Real.pi ^ 2 / 90)| ≤ 10 := by
        have h3 : s.relax * k / (Real.pi ^ 2 / 90) ≤ 10 := by
          rw [div_le_iff₀ hS]
          nlinarith
        have h4 : 0 ≤ s.relax * k / (Real.pi ^ 2 / 90) := by positivity
        rw [abs_le]
        constructor <;> linarith
      show |(1 - s.relax) ^ j * (1 - s.relax * k / (Real.pi ^ 2 / 90)) * e0| ≤ _
      rw [abs_mul, abs_mul]
      calc _ ≤ 1 * 10 * (4 * 10 ^ 100 : ℝ) := by gcongr
        _ = _ := by norm_num
  have hangle : ∀ j a, s.targetCL - (c0 + k * a) = errorAfter s k e0 j → c0 + k * a ≠ 3 * 10 ^ 200 ∧ a ≠ 3 * 10 ^ 200 := by
    intro j a hj
    have hE := abs_le.1 (habsE j)
    have ht' := abs_le.1 hb
    have hc' := abs_le.1 hc
    constructor
    · intro e
      rw [e] at hj
      rw [← hj] at hE
      have : (42 : ℝ) * 10 ^ 100 < 3 * 10 ^ 200 := by norm_num
      linarith [hE.1]
    · intro e
      rw [e] at hj
      rw [← hj] at hE
      have h5 : (1 / 20 : ℝ) * (3 * 10 ^ 200) ≤ k * (3 * 10 ^ 200) := by
        apply mul_le_mul_of_nonneg_right _ (by positivity)
        linarith
      have : (42 : ℝ) * 10 ^ 100 < 1 / 20 * (3 * 10 ^ 200) := by norm_num
      linarith [hE.1]
  have key : ∃ j r : Nat, ∃ a : ℝ, xs.length = period s * j + r ∧ r < period s ∧ since (run s st xs).2 = List.replicate r (c0 + k * a) ∧
      angle s (run s st xs).2 = some a ∧ s.targetCL - (c0 + k * a) = errorAfter s k e0 j ∧ (j = 0 → lastMsg (run s st xs).2 = none) ∧
      (∀ i, j = i + 1 → ∃ l b, lastMsg (run s st xs).2 = some l ∧ l.cl = c0 + k * b ∧ angle s (before (run s st xs).2) = some b ∧
        s.targetCL - (c0 + k * b) = errorAfter s k e0 i ∧ a ≠ b) := by
    induction xs with
    | nil => exact ⟨0, 0, s.aoaInit, by simp, by omega, by simp [run, since], by simp [run, angle, lastMsg], rfl, fun _ => by simp [run, lastMsg], fun i h => by omega⟩
    | cons y ys ih =>
      obtain ⟨hf, hy1, hy2⟩ := hx
      obtain ⟨j, r, a, h1, h2, h3, h4, h7, h5, h6⟩ := ih hf
      have hy2 := hy2 a h4
      by_cases hr : r + 1 < period s
      · have e := run_quiet hs h (y := y) (quiet (by rw [h3]; simp) hr)
        refine ⟨j, r + 1, a, by simp [h1]; omega, hr, ?_, ?_, h7, ?_, ?_⟩
        · rw [e, since_none, h3, hy2]; rfl
        · rw [e, angle_none, h4]
        · intro hj; rw [e, lastMsg_none, h5 hj]
        · intro i hj; rw [e, lastMsg_none, before_none]; exact h6 i hj
      · have hr' : r + 1 = period s := by omega
        rw [← hy2] at h3
        obtain ⟨hmv, hmean⟩ := moves hs ht hq h3 hr' hy1
        obtain ⟨m, hm, e, ha⟩ := run_move hs h hmv
        have hms := (move_spec hs h ys y.1 y.2 hm).2.1
        have hsl := slope_spec hs h ys y.1 y.2 hm
        rw [h3] at hmean hms
        rw [hmean] at hms
        -- the slope
        obtain ⟨q, hq1, hq0, hq2⟩ : ∃ q, m.slope = some q ∧ 0 < q ∧ (1 - s.relax * k / q) * errorAfter s k e0 j = errorAfter s k e0 (j + 1) := by
          cases j with
          | zero =>
            refine ⟨_, hsl.1 (h5 rfl), hS, ?_⟩
            simp [errorAfter]
          | succ i =>
            obtain ⟨l, b, hl, hlc, hba, hbe, hab⟩ := h6 i rfl
            have hbig := hangle i b hbe
            have hs1 := (hsl.2 l hl a b h4 hba (by rw [hlc]; exact hbig.1) hbig.2).1 (Ne.symm hab)
            have hquot : (l.cl - y.2) / (b - a) = k := by
              rw [hlc, hy2]
              have : b - a ≠ 0 := sub_ne_zero.2 (Ne.symm hab)
              field_simp
              ring
            rw [hquot, if_neg (by linarith), min_eq_left hk2, max_eq_left hk1] at hs1
            refine ⟨k, hs1, hk0, ?_⟩
            rw [mul_div_assoc, div_self hk0.ne', mul_one]
            simp only [errorAfter, pow_succ]
            ring
        have hnew : m.aoa = some (a + (s.targetCL - y.2) / q * s.relax) := by
          rw [ha, h4, hq1]; rfl
        refine ⟨j + 1, 0, a + (s.targetCL - y.2) / q * s.relax, ?_, by omega, by rw [e, since_some]; rfl, by rw [e, angle_some, hnew], ?_, fun hj => by omega, ?_⟩
        · rw [List.length_cons, h1, Nat.mul_add, mul_one, add_assoc, hr', add_zero]
        · rw [← hq2, hy2, h7]
          have : s.targetCL - (c0 + k * (a + errorAfter s k e0 j / q * s.relax)) = (s.targetCL - (c0 + k * a)) - s.relax * k / q * errorAfter s k e0 j := by
            field_simp; ring
          rw [this, h7]; ring
        · intro i hi
          have hij : i = j := by omega
          subst hij
          refine ⟨m, a, by rw [e, lastMsg_some], by rw [hms, hy2], by rw [e, before_some, h4], h7, ?_⟩
          intro hcon
          have h8 : (s.targetCL - y.2) / q * s.relax = 0 := by linarith
          rw [hy2, h7] at h8
          exact mul_ne_zero (div_ne_zero (hEne i) hq0.ne') hr0.ne' h8
  obtain ⟨j, r, a, h1, h2, -, h4, h7, -⟩ := key
  refine ⟨a, by rw [angle_spec hs h, h4], ?_⟩
  have : xs.length / period s = j := by
    rw [h1, Nat.mul_add_div (by omega), Nat.div_eq_of_lt h2, add_zero]
  rw [this, h7]

/-- **C104** (directions) With the rotation about `z` and the lift along `y`, or about `y` and the lift along `z`, the inflow turns from the `x` axis towards the lift axis by the angle of
attack, and the coefficients are the components of the force along the inflow and across it, over area and dynamic pressure. -/
theorem coefficients_spec {s : Settings} (a : ℝ) (f : V3) (hd : s.cd0Axis = "x") :
    (s.aoaAxis = "z" → s.cl0Axis = "y" →
      ∃ R, rotation s a = .ok R ∧ mulVec R ![1, 0, 0] = ![Real.cos (a * (Real.pi / 180)), Real.sin (a * (Real.pi / 180)), 0] ∧
      coefficients s a f = .ok ((f 1 * Real.cos (a * (Real.pi / 180)) - f 0 * Real.sin (a * (Real.pi / 180))) / (s.refArea * s.refDynamicPressure),
        (f 0 * Real.cos (a * (Real.pi / 180)) + f 1 * Real.sin (a * (Real.pi / 180))) / (s.refArea * s.refDynamicPressure))) ∧
    (s.aoaAxis = "y" → s.cl0Axis = "z" →
      ∃ R, rotation s a = .ok R ∧ mulVec R ![1, 0, 0] = ![Real.cos (a * (Real.pi / 180)), 0, Real.sin (a * (Real.pi / 180))] ∧
      coefficients s a f = .ok ((f 2 * Real.cos (a * (Real.pi / 180)) - f 0 * Real.sin (a * (Real.pi / 180))) / (s.refArea * s.refDynamicPressure),
        (f 0 * Real.cos (a * (Real.pi / 180)) + f 2 * Real.sin (a * (Real.pi / 180))) / (s.refArea * s.refDynamicPressure))) := by
  constructor
  · intro h1 h2
    have hR : rotation s a = .ok (rotZ a) := by simp [rotation, h1]
    refine ⟨_, hR, ?_, ?_⟩
    · ext i
      fin_cases i <;> simp [rotZ, mulVec, dotProduct, Fin.sum_univ_three]
    · simp only [coefficients, hR, liftDir, dragDir, h2, hd, if_true, Res.ok_bind, coeffRatio]
      refine congrArg Res.ok (Prod.ext ?_ ?_)
      · simp [rotZ, mulVec, dotProduct, Fin.sum_univ_three, Matrix.transpose]
        ring
      · simp [rotZ, mulVec, dotProduct, Fin.sum_univ_three, Matrix.transpose]
        ring
  · intro h1 h2
    have hR : rotation s a = .ok (rotY (-a)) := by
      simp [rotation, h1]
    have hl : liftDir s = .ok ![0, 0, 1] := by
      simp [liftDir, h2]
    refine ⟨_, hR, ?_, ?_⟩
    · ext i
      fin_cases i <;> simp [rotY, mulVec, dotProduct, Fin.sum_univ_three]
    · simp only [coefficients, hR, hl, dragDir, hd, if_true, Res.ok_bind, coeffRatio]
      refine congrArg Res.ok (Prod.ext ?_ ?_)
      · simp [rotY, mulVec, dotProduct, Fin.sum_univ_three, Matrix.transpose]
        ring
      · simp [rotY, mulVec, dotProduct, Fin.sum_univ_three, Matrix.transpose]
        ring

/-- settings of an aerofoil in the plane -/
noncomputable def demo (aoaAxis cl0Axis : String) (target : ℝ) : Settings where
  aoaInit := 0
  aoaAxis := aoaAxis
  cl0Axis := cl0Axis
  cd0Axis := "x"
  refArea := 1
  refDynamicPressure := 1 / 2
  targetCL := target
  relax := 1 / 2
  ratio := 1 / 10
  startDrive := 0
  convergeMin := 3
  threshold := 1 / 1000
  window := 2
  longWindow := 2
  longThreshold := toIndex (1 / 10000)

theorem demo_sane (a l : String) {t : ℝ} (h : |t| ≤ 1) : Sane (demo a l t) := by
  refine ⟨by norm_num [demo], ?_⟩
  show (1 : ℝ) / 1000 ≤ |t - 3 * 10 ^ 200| * (1 / 10)
  have := abs_le.1 h
  rw [abs_sub_comm, abs_of_nonneg (by linarith [show (1 : ℝ) ≤ 3 * 10 ^ 200 by norm_num])]
  have : (2 : ℝ) ≤ 3 * 10 ^ 200 := by norm_num
  linarith

theorem demo_construct {a l : String} (ha : a = "x" ∨ a = "y" ∨ a = "z") (hl : l = "x" ∨ l = "y" ∨ l = "z") (t : ℝ) : ∃ st, construct (demo a l t) = .ok st := by
  have h1 : axisOk (demo a l t).aoaAxis = true := by rcases ha with rfl | rfl | rfl <;> simp [axisOk, demo, String.length]
  have h2 : axisOk (demo a l t).cl0Axis = true := by rcases hl with rfl | rfl | rfl <;> simp [axisOk, demo, String.length]
  have h3 : axisOk (demo a l t).cd0Axis = true := by simp [axisOk, demo, String.length]
  simp only [construct, Res.assert_true _ h1, Res.assert_true _ h2, Res.assert_true _ h3, Res.assert_true _ (show (demo a l t).window ≥ 2 by norm_num [demo]), Res.ok_bind]
  exact ⟨_, rfl⟩

/-- **C104 fails** for axes that the constructor accepts: with the lift along the axis of rotation the coefficient does not depend on the angle, and with the rotation about `x` the first use
of the driver aborts. -/
theorem axes_accepted : (∃ st, construct (demo "z" "z" 0) = .ok st) ∧ (∃ st, construct (demo "x" "z" 0) = .ok st) ∧
    (∀ a f, ∃ d, coefficients (demo "z" "z" 0) a f = .ok (2 * f 2, d)) ∧ (∀ a f, coefficients (demo "x" "z" 0) a f = .abort) := by
  refine ⟨demo_construct (by simp) (by simp) _, demo_construct (by simp) (by simp) _, fun a f => ?_, fun a f => rfl⟩
  have hR : rotation (demo "z" "z" 0) a = .ok (rotZ a) := by simp [rotation, demo]
  have hl : liftDir (demo "z" "z" 0) = .ok ![0, 0, 1] := by simp [liftDir, demo]
  simp only [coefficients, hR, hl, dragDir, Res.ok_bind]
  refine ⟨_, congrArg Res.ok (Prod.ext ?_ rfl)⟩
  simp [rotZ, mulVec, dotProduct, Fin.sum_univ_three, Matrix.transpose, coeffRatio, demo]
  ring

/-- a symmetric aerofoil that shall have no lift: the angle is not a number after six calls -/
example : ∃ st, construct (demo "z" "y" 0) = .ok st ∧ (run (demo "z" "y" 0) st (List.replicate 5 (7, 0))).1.aoa = some 0 ∧
    (run (demo "z" "y" 0) st (List.replicate 6 (7, 0))).1.aoa = none := by
  obtain ⟨st, hst⟩ := demo_construct (a := "z") (l := "y") (by simp) (by simp) 0
  have hs := demo_sane "z" "y" (t := 0) (by norm_num)
  have hp : period (demo "z" "y" 0) = 3 := rfl
  have hall : ∀ n, ∀ y ∈ List.replicate n ((7, 0) : Int × ℝ), (demo "z" "y" 0).startDrive ≤ y.1 ∧ y.2 = (demo "z" "y" 0).targetCL := by
    intro n y hy
    rw [List.eq_of_mem_replicate hy]
    exact ⟨by norm_num [demo], rfl⟩
  refine ⟨st, hst, ?_, ?_⟩
  · rw [at_target_nan hs (by norm_num [demo]) (by norm_num [demo]) hst (by norm_num [demo]) (by norm_num [demo]) _ (hall 5), hp]
    simp [demo]
  · rw [at_target_nan hs (by norm_num [demo]) (by norm_num [demo]) hst (by norm_num [demo]) (by norm_num [demo]) _ (hall 6), hp]
    simp

/-- the calls of a flow with a given lift curve exist, as many as wanted -/
theorem follows_exists (s : Settings) (st : State) (c0 k : ℝ) (n : Nat) : ∃ xs, Follows s st c0 k xs ∧ xs.length = n := by
  induction n with
  | zero => exact ⟨[], trivial, rfl⟩
  | succ n ih =>
    obtain ⟨xs, hx, hn⟩ := ih
    cases ha : angle s (run s st xs).2 with
    | none => exact ⟨(s.startDrive, 0) :: xs, ⟨hx, le_rfl, fun a h => by rw [ha] at h; cases h⟩, by simp [hn]⟩
    | some a => exact ⟨(s.startDrive, c0 + k * a) :: xs, ⟨hx, le_rfl, fun b h => by rw [ha] at h; cases h; rfl⟩, by simp [hn]⟩

/-- a flat plate that shall have the lift `1 / 2`: the error is `2 ^ (-(j + 1))` of it after `3 (j + 1)` calls -/
example (j : Nat) : ∃ st xs a, construct (demo "z" "y" (1 / 2)) = .ok st ∧ Follows (demo "z" "y" (1 / 2)) st 0 (Real.pi ^ 2 / 90) xs ∧ xs.length = 3 * (j + 1) ∧
    (run (demo "z" "y" (1 / 2)) st xs).1.aoa = some a ∧ 1 / 2 - Real.pi ^ 2 / 90 * a = (1 / 2) ^ (j + 1) * (1 / 2) := by
  obtain ⟨st, hst⟩ := demo_construct (a := "z") (l := "y") (by simp) (by simp) (1 / 2)
  have hs := demo_sane "z" "y" (t := 1 / 2) (by rw [abs_of_pos] <;> norm_num)
  obtain ⟨xs, hx, hn⟩ := follows_exists (demo "z" "y" (1 / 2)) st 0 (Real.pi ^ 2 / 90) (3 * (j + 1))
  have hS : (0 : ℝ) < Real.pi ^ 2 / 90 := standard_pos
  obtain ⟨a, ha, he⟩ := linear_converges_partial hs (by norm_num [demo]) (by norm_num [demo]) hst (by linarith) (by linarith) (by norm_num [demo]) (by norm_num [demo])
    (by show 1 / 2 * (Real.pi ^ 2 / 90) ≠ _; intro e; linarith) (by norm_num [demo]) (by show |(1 / 2 : ℝ)| ≤ _; rw [abs_of_pos] <;> norm_num) (by norm_num [demo]) (by norm_num) xs hx
  refine ⟨st, xs, a, hst, hx, hn, ha, ?_⟩
  have hp : period (demo "z" "y" (1 / 2)) = 3 := rfl
  rw [hn, hp, Nat.mul_div_cancel_left _ (by norm_num)] at he
  simp only [errorAfter, demo, zero_add, mul_zero, sub_zero] at he
  rw [he, mul_div_assoc, div_self hS.ne', pow_succ]
  ring

end DNDSR.Lift
