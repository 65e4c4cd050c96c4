import Verif.Props.PositivityInc

/-!
# C84: whole increments, histories of increments, and cases
-/

namespace DNDSR.Pos

open DNDSR.Gas
open Classical

variable {d : Nat} {c : Cfg}

/-! ## Further variables -/

/-- what a step leaves of a further variable with value `u` before it, where the proposal leads to `m`: `m` if that is not negative, otherwise something between zero and the larger of `u` and a floor -/
def Moved (floor u m w : ℝ) : Prop := (0 ≤ m → w = m) ∧ (m < 0 → 0 ≤ w ∧ w ≤ max floor u)

theorem fixVar_spec (bottom : Option ℝ) (hb : ∀ m, bottom = some m → 0 ≤ m) {u : ℝ} (ret : ℝ) (hu : 0 ≤ u) :
    ∃ r, fixVar bottom u ret = .ok r ∧ 0 ≤ u + r ∧ (0 ≤ u + ret → r = ret) ∧ Moved (bottom.getD 0) u (u + ret) (u + r) := by
  unfold fixVar
  by_cases h : u + ret < 0
  · rw [if_pos h, Res.assert_true _ hu]
    have he : 0 ≤ u * Real.exp (ret / (u + 1 / 10 ^ 6)) := mul_nonneg hu (Real.exp_pos _).le
    have hle : u * Real.exp (ret / (u + 1 / 10 ^ 6)) ≤ u :=
      mul_le_of_le_one_right hu (Real.exp_le_one_iff.mpr (div_nonpos_of_nonpos_of_nonneg (by linarith) (by positivity)))
    cases bottom with
    | none =>
      refine ⟨_, rfl, by linarith, fun h' => absurd h (not_lt.mpr h'), fun h' => absurd h (not_lt.mpr h'), fun _ => ⟨by linarith, ?_⟩⟩
      rw [add_sub_cancel]
      exact hle.trans (le_max_right _ _)
    | some m =>
      have h0 := he.trans (le_max_right m _)
      refine ⟨_, rfl, by linarith, fun h' => absurd h (not_lt.mpr h'), fun h' => absurd h (not_lt.mpr h'), fun _ => ⟨by linarith, ?_⟩⟩
      rw [add_sub_cancel]
      exact max_le_max le_rfl hle
  · rw [if_neg h]
    exact ⟨ret, rfl, not_lt.mp h, fun _ => rfl, fun _ => rfl, fun h' => absurd h' h⟩

/-- what is asked of the further variables of a mean, by the kind of model -/
def TurbOk (kind : Kind) (v : ℝ × ℝ) : Prop :=
  match kind with
  | .plain => True
  | .sa => 0 ≤ v.1
  | .twoEq => 0 ≤ v.1 ∧ 0 ≤ v.2

/-- what a step leaves of the further variables, `u` before it, where the proposal leads to `m` -/
def TurbMoved (kind : Kind) (u m w : ℝ × ℝ) : Prop :=
  match kind with
  | .plain => w = m
  | .sa => Moved (1 / 10 ^ 6) u.1 m.1 w.1 ∧ w.2 = m.2
  | .twoEq => Moved 0 u.1 m.1 w.1 ∧ Moved 0 u.2 m.2 w.2

/-! ## `CompressInc` after the factor -/

/-- where the increment keeps the cell valid, `CompressInc` leaves at most that increment, and the further variables not negative -/
theorem compressInc_spec (hs : c.Sane) (hg2 : c.gamma < 2) (hr : c.relaxed = false) (u inc : TU d) (hu : Valid c u.1) (hinc : ∀ s : ℝ, 0 ≤ s → s ≤ 1 → Valid c (u + s • inc).1)
    (ht : TurbOk c.kind u.2) :
    ∃ ret, ∃ s : ℝ, compressInc c u inc = .ok ret ∧ 0 ≤ s ∧ s ≤ 1 ∧ ret.1 = s • inc.1 ∧ TurbOk c.kind (u.2 + ret.2) ∧ TurbMoved c.kind u.2 (u.2 + s • inc.2) (u.2 + ret.2) ∧
      (c.rhoLow < (u + inc).1.1 → s = 1 ∧ (TurbOk c.kind (u.2 + inc.2) → ret = inc)) := by
  have hv := verySmall_pos
  have g := hs.gamma
  have pl := pLow_pos hs hr
  have rl := rhoLow_pos hs hr
  have eR : (if c.relaxed then c.rhoEps * verySmall else c.rhoEps) = c.rhoLow := by
    unfold Cfg.rhoLow
    simp only [hr, Bool.false_eq_true, if_false]
  have eP : (if c.relaxed then c.pEps * verySmall else c.pEps) = c.pLow := by
    unfold Cfg.pLow
    simp only [hr, Bool.false_eq_true, if_false]
  have hint : ∀ w : St ℝ d, Valid c w → c.pLow < internalG verySmall w := by
    rintro w ⟨h0, -, h2⟩
    have h1 := internal_le_guard w h0
    simp only [pressure] at h2
    have : 0 < internal w := by
      by_contra hc
      nlinarith [not_lt.mp hc]
    nlinarith
  simp only [compressInc, eR, eP]
  rw [Res.assert_true (u.1.c0 > 0) hu.1, Res.ok_bind]
  -- the density
  have hret : ∃ s : ℝ, 0 ≤ s ∧ s ≤ 1 ∧ (if u.1.c0 + inc.1.c0 ≤ c.rhoLow then ((c.rhoLow - u.1.c0) / (inc.1.c0 - verySmall)) • inc else inc) = s • inc ∧
      (c.rhoLow < (u + inc).1.1 → s = 1) := by
    by_cases h : u.1.c0 + inc.1.c0 ≤ c.rhoLow
    · rw [if_pos h]
      have h' : u.1.1 + inc.1.1 ≤ c.rhoLow := h
      have hur := hu.2.1
      refine ⟨_, ?_, ?_, rfl, fun h2 => absurd h (not_le.mpr h2)⟩
      · exact div_nonneg_of_nonpos (by simp only [St.c0]; linarith) (by simp only [St.c0]; linarith)
      · simp only [St.c0]
        rw [div_le_one_of_neg (by linarith)]
        linarith
    · rw [if_neg h]
      exact ⟨1, zero_le_one, le_rfl, (one_smul ℝ _).symm, fun _ => rfl⟩
  obtain ⟨s, s0, s1, es, h1⟩ := hret
  rw [es]
  have eOld : u.1.c4 - 1 / 2 * (u.1.cv ⬝ᵥ u.1.cv) / (u.1.c0 + verySmall) = internalG verySmall u.1 := by
    rw [← rhoEInt_eq, rhoEInt]
    ring
  rw [eOld, Res.assert_true _ (pl.trans (hint _ hu)), Res.ok_bind]
  have hen : compressEnergy c c.pLow u (s • inc) = .ok (s • inc) := by
    unfold compressEnergy
    refine if_neg (not_le.mpr ?_)
    have := hint _ (hinc s s0 s1)
    have e : u.1.c4 + (s • inc).1.c4 - 1 / 2 * ((u.1.cv + (s • inc).1.cv) ⬝ᵥ (u.1.cv + (s • inc).1.cv)) / (u.1.c0 + (s • inc).1.c0 + verySmall) =
        internalG verySmall (u.1 + (s • inc).1) := by
      rw [← loop_test]
      ring
    rw [e]
    exact this
  rw [hen, Res.ok_bind]
  have hone : s = 1 → s • inc = inc := fun h => by rw [h, one_smul]
  cases hk : c.kind with
  | plain =>
    refine ⟨s • inc, s, rfl, s0, s1, rfl, trivial, rfl, fun h => ⟨h1 h, fun _ => hone (h1 h)⟩⟩
  | sa =>
    have ht' : 0 ≤ u.2.1 := by rw [hk] at ht; exact ht
    obtain ⟨r1, e1, p1, q1, m1⟩ := fixVar_spec (some (1 / 10 ^ 6)) (fun m hm => by rw [← Option.some.inj hm]; positivity) (s • inc).2.1 ht'
    refine ⟨((s • inc).1, r1, (s • inc).2.2), s, ?_, s0, s1, rfl, p1, ⟨m1, rfl⟩, fun h => ⟨h1 h, fun h2 => ?_⟩⟩
    · rw [e1]
      rfl
    · rw [q1 (by rw [hone (h1 h)]; exact h2), hone (h1 h)]
  | twoEq =>
    have ht' : 0 ≤ u.2.1 ∧ 0 ≤ u.2.2 := by rw [hk] at ht; exact ht
    obtain ⟨r1, e1, p1, q1, m1⟩ := fixVar_spec none (fun m hm => by cases hm) (s • inc).2.1 ht'.1
    obtain ⟨r2, e2, p2, q2, m2⟩ := fixVar_spec none (fun m hm => by cases hm) (s • inc).2.2 ht'.2
    refine ⟨((s • inc).1, r1, r2), s, ?_, s0, s1, rfl, ⟨p1, p2⟩, ⟨m1, m2⟩, fun h => ⟨h1 h, fun h2 => ?_⟩⟩
    · show (fixVar none u.2.1 (s • inc).2.1 >>= fun r1 => fixVar none u.2.2 (s • inc).2.2 >>= fun r2 => Res.ok ((s • inc).1, r1, r2)) = _
      rw [e1, Res.ok_bind, e2, Res.ok_bind]
    · rw [q1 (by rw [hone (h1 h)]; exact h2.1), q2 (by rw [hone (h1 h)]; exact h2.2), hone (h1 h)]

/-- **C84, a step** Whatever the increment the solver proposes: from a valid mean the step returns a valid mean, with density, momentum and energy moved by a fraction of the proposal. The variables of the turbulence
model stay not negative: each moves by that fraction too where this leaves it not negative, and otherwise does not exceed its value before (or a floor). -/
theorem increment_keeps (hs : c.Sane) (hg2 : c.gamma < 2) (hr : c.relaxed = false) (hpow : 1 ≤ c.alphaPower) {relax ransRelax alpha : ℝ} (hx0 : 0 ≤ relax) (hx1 : relax ≤ 1)
    (hrans : ransRelax = 1 ∨ c.kind ≠ .twoEq) (ha0 : 0 ≤ alpha) (ha1 : alpha ≤ 1) (u inc : TU d) (hu : Valid c u.1) (ht : TurbOk c.kind u.2)
    (hroom : Room (left c.pLow relax (pressure c u.1) / (c.gamma - 1)) u.1) :
    ∃ w, ∃ t : ℝ, increment c relax ransRelax alpha u inc = .ok w ∧ Valid c w.1 ∧ TurbOk c.kind w.2 ∧ 0 ≤ t ∧ t ≤ alpha ∧ w.1 = u.1 + t • inc.1 ∧
      ∃ v, TurbMoved c.kind u.2 (u.2 + t • inc.2) v ∧ w.2 = match c.kind, c.bottom with
        | .twoEq, some m => (v.1, max v.2 m)
        | _, _ => v := by
  obtain ⟨a, n, ea, a0, a1, -, hsafe, -⟩ := alpha_safe hs hx0 hx1 (fun h => by rw [hr] at h; cases h) (compress := 2) (by omega) u inc hu hroom
  have hvalid : ∀ s, 0 ≤ s → s ≤ a → Valid c (u + s • inc).1 :=
    fun s s0 s1 => valid_of_left hs hx1 (fun h => by rw [hr] at h; cases h) hu (hsafe s s0 s1)
  simp only [increment]
  rw [ea, Res.ok_bind, if_neg (by rintro ⟨h1, h2⟩; exact hrans.elim h2 fun h => h h1)]
  obtain ⟨ret, s, er, s0, s1, e1, htr, hmv, -⟩ := compressInc_spec hs hg2 hr u (alpha • a • inc) hu (by
    intro s s0 s1
    rw [smul_smul alpha a, smul_smul]
    refine hvalid (s * (alpha * a)) (mul_nonneg s0 (mul_nonneg ha0 a0)) ?_
    have : alpha * a ≤ a := by nlinarith
    nlinarith [mul_nonneg ha0 a0]) ht
  rw [show s • (alpha • a • inc).2 = (s * (alpha * a)) • inc.2 by rw [mul_smul, mul_smul]; rfl] at hmv
  have hw : ∃ w, addFixed c alpha u (a • inc) = .ok w ∧ w.1 = u.1 + (s * (alpha * a)) • inc.1 ∧ TurbOk c.kind w.2 ∧
      ∃ v, TurbMoved c.kind u.2 (u.2 + (s * (alpha * a)) • inc.2) v ∧ w.2 = match c.kind, c.bottom with
        | .twoEq, some m => (v.1, max v.2 m)
        | _, _ => v := by
    have em : (u + ret).1 = u.1 + (s * (alpha * a)) • inc.1 := by
      rw [Prod.fst_add, e1, mul_smul, mul_smul]
      rfl
    simp only [addFixed]
    rw [er, Res.ok_bind]
    cases hk : c.kind with
    | plain =>
      rw [hk] at hmv
      exact ⟨u + ret, rfl, em, trivial, _, hmv, rfl⟩
    | sa =>
      rw [hk] at htr hmv
      exact ⟨u + ret, rfl, em, htr, _, hmv, rfl⟩
    | twoEq =>
      rw [hk] at htr hmv
      cases hb : c.bottom with
      | none => exact ⟨u + ret, rfl, em, htr, _, hmv, rfl⟩
      | some m => exact ⟨_, rfl, em, ⟨htr.1, htr.2.trans (le_max_left _ _)⟩, _, hmv, rfl⟩
  obtain ⟨w, ew, w1, w2, w3⟩ := hw
  rw [ew, Res.ok_bind]
  have hsa : s * (alpha * a) ≤ a := by
    have : alpha * a ≤ a := by nlinarith
    nlinarith [mul_nonneg ha0 a0]
  have hsal : s * (alpha * a) ≤ alpha := by
    have : alpha * a ≤ alpha := by nlinarith
    nlinarith [mul_nonneg ha0 a0]
  have hwv : Valid c w.1 := by
    rw [w1]
    exact hvalid (s * (alpha * a)) (mul_nonneg s0 (mul_nonneg ha0 a0)) hsa
  have hmg : meanGood c w := by
    have l1 : (if c.relaxed then c.rhoEps * 0 else c.rhoEps) = c.rhoLow := by unfold Cfg.rhoLow; rw [mul_zero]
    have l2 : (if c.relaxed then c.pEps * 0 else c.pEps) = c.pLow := by unfold Cfg.pLow; rw [mul_zero]
    unfold meanGood
    rw [l1, l2, eInt_eq]
    refine ⟨not_lt.mpr hwv.2.1, not_lt.mpr ?_⟩
    rw [div_le_iff₀ (by linarith [hs.gamma]), mul_comm]
    exact hwv.2.2
  rw [Res.assert_true _ hmg, Res.ok_bind]
  exact ⟨w, _, rfl, hwv, w2, mul_nonneg s0 (mul_nonneg ha0 a0), hsal, w1, w3⟩

/-- the mean of a cell after a list of increments -/
noncomputable def run (c : Cfg) (relax ransRelax alpha : ℝ) (u : TU d) (hist : List (TU d)) : Res (TU d) :=
  hist.foldlM (fun u inc => increment c relax ransRelax alpha u inc) u

/-- **C84, histories** After any number of steps with any proposals, the mean is valid and the variables of the turbulence model are not negative, so no check of the solver stops it; as long as the means on the way
are not so near the floor that the guards of the divisions matter. -/
theorem history_keeps (hs : c.Sane) (hg2 : c.gamma < 2) (hr : c.relaxed = false) (hpow : 1 ≤ c.alphaPower) {relax ransRelax alpha : ℝ} (hx0 : 0 ≤ relax) (hx1 : relax ≤ 1)
    (hrans : ransRelax = 1 ∨ c.kind ≠ .twoEq) (ha0 : 0 ≤ alpha) (ha1 : alpha ≤ 1) : ∀ (hist : List (TU d)) (u : TU d), Valid c u.1 → TurbOk c.kind u.2 →
    (∀ k < hist.length, ∀ w, run c relax ransRelax alpha u (hist.take k) = .ok w → Room (left c.pLow relax (pressure c w.1) / (c.gamma - 1)) w.1) →
    ∃ w, run c relax ransRelax alpha u hist = .ok w ∧ Valid c w.1 ∧ TurbOk c.kind w.2
  | [], u, hu, ht, _ => ⟨u, rfl, hu, ht⟩
  | inc :: hist, u, hu, ht, hroom => by
    obtain ⟨w, t, e, hw, hwt, -⟩ := increment_keeps hs hg2 hr hpow hx0 hx1 hrans ha0 ha1 u inc hu ht (hroom 0 (by simp) u rfl)
    have step : ∀ l : List (TU d), run c relax ransRelax alpha u (inc :: l) = run c relax ransRelax alpha w l := by
      intro l
      unfold run
      rw [List.foldlM_cons, e, Res.ok_bind]
    rw [step]
    refine history_keeps hs hg2 hr hpow hx0 hx1 hrans ha0 ha1 hist w hw hwt fun k hk v hv => ?_
    refine hroom (k + 1) (by simpa using hk) v ?_
    rw [List.take_succ_cons, step]
    exact hv

/-! ## `CompressRecPart` -/

/-- **C84, values at points** What the fluxes use of a reconstruction has density and (guarded) internal energy not negative if the mean has, is the reconstruction where that is so already, and otherwise
takes from the mean; in a two-equation model the further variables are then not negative either. -/
theorem recPart_valid (kind : Kind) (umean inc : TU d) (h0 : 0 ≤ umean.1.1) (he : 0 ≤ internalG (1 / 10 ^ 200) umean.1) (ht : kind = .twoEq → 0 ≤ umean.2.1 ∧ 0 ≤ umean.2.2) :
    (0 ≤ (compressRecPart kind umean inc).1.1.1 ∧ 0 ≤ internalG (1 / 10 ^ 200) (compressRecPart kind umean inc).1.1) ∧
      (kind = .twoEq → 0 ≤ (compressRecPart kind umean inc).1.2.1 ∧ 0 ≤ (compressRecPart kind umean inc).1.2.2) ∧
      ((compressRecPart kind umean inc).1.1 = (umean + inc).1 ∨ (compressRecPart kind umean inc).1.1 = umean.1) ∧
      ((compressRecPart kind umean inc).2 = false ↔ 0 ≤ (umean + inc).1.1 ∧ 0 ≤ internalG (1 / 10 ^ 200) (umean + inc).1 ∧
        (kind = .twoEq → 0 ≤ (umean + inc).2.1 ∧ 0 ≤ (umean + inc).2.2)) ∧
      ((compressRecPart kind umean inc).2 = false → (compressRecPart kind umean inc).1 = umean + inc) := by
  have eG : ∀ w : TU d, w.1.c4 - w.1.cv ⬝ᵥ w.1.cv * (1 / 2) / (verySmall + w.1.c0) = internalG (1 / 10 ^ 200) w.1 := by
    intro w
    have := rhoEInt_eq w.1
    rw [show (1 : ℝ) / 10 ^ 200 = verySmall from rfl, ← this, rhoEInt, add_comm verySmall]
    ring
  -- the first two tests
  have hr : ∃ r : TU d × Bool, (r = (umean, true) ∧ ¬ (0 ≤ (umean + inc).1.1 ∧ 0 ≤ internalG (1 / 10 ^ 200) (umean + inc).1) ∨
      (r = (umean + inc, false) ∧ 0 ≤ (umean + inc).1.1 ∧ 0 ≤ internalG (1 / 10 ^ 200) (umean + inc).1)) ∧
      compressRecPart kind umean inc = match kind with
        | .twoEq =>
          let r : TU d × Bool := if r.1.2.1 < 0 then ((r.1.1, umean.2.1, r.1.2.2), true) else r
          if r.1.2.2 < 0 then ((r.1.1, r.1.2.1, umean.2.2), true) else r
        | _ => r := by
    simp only [compressRecPart, eG]
    by_cases hd : (umean + inc).1.c0 < 0
    · rw [if_pos hd]
      dsimp only
      rw [if_neg (not_lt.mpr he)]
      exact ⟨_, Or.inl ⟨rfl, fun h => absurd h.1 (not_le.mpr hd)⟩, by cases kind <;> rfl⟩
    · rw [if_neg hd]
      dsimp only
      by_cases hE : internalG (1 / 10 ^ 200) (umean + inc).1 < 0
      · rw [if_pos hE]
        exact ⟨_, Or.inl ⟨rfl, fun h => absurd h.2 (not_le.mpr hE)⟩, by cases kind <;> rfl⟩
      · rw [if_neg hE]
        exact ⟨_, Or.inr ⟨rfl, not_lt.mp hd, not_lt.mp hE⟩, by cases kind <;> rfl⟩
  obtain ⟨r, hcase, e⟩ := hr
  rw [e]
  have hr1 : 0 ≤ r.1.1.1 ∧ 0 ≤ internalG (1 / 10 ^ 200) r.1.1 := by
    rcases hcase with ⟨rfl, -⟩ | ⟨rfl, h1, h2⟩
    · exact ⟨h0, he⟩
    · exact ⟨h1, h2⟩
  have hr2 : r.1.1 = (umean + inc).1 ∨ r.1.1 = umean.1 := by
    rcases hcase with ⟨rfl, -⟩ | ⟨rfl, -⟩
    · exact Or.inr rfl
    · exact Or.inl rfl
  have hr3 : r.2 = false ↔ 0 ≤ (umean + inc).1.1 ∧ 0 ≤ internalG (1 / 10 ^ 200) (umean + inc).1 := by
    rcases hcase with ⟨rfl, h⟩ | ⟨rfl, h⟩
    · exact ⟨fun h' => (by cases h'), fun h' => absurd h' h⟩
    · exact ⟨fun _ => h, fun _ => rfl⟩
  have hr4 : r.2 = false → r.1 = umean + inc := by
    rcases hcase with ⟨rfl, h⟩ | ⟨rfl, h⟩
    · exact fun h' => (by cases h')
    · exact fun _ => rfl
  have hr5 : r.2 = true → r.1 = umean := by
    rcases hcase with ⟨rfl, h⟩ | ⟨rfl, h⟩
    · exact fun _ => rfl
    · exact fun h' => (by cases h')
  cases kind with
  | plain => exact ⟨hr1, fun h => (by cases h), hr2, ⟨fun h => ⟨(hr3.mp h).1, (hr3.mp h).2, fun h => (by cases h)⟩, fun h => hr3.mpr ⟨h.1, h.2.1⟩⟩, hr4⟩
  | sa => exact ⟨hr1, fun h => (by cases h), hr2, ⟨fun h => ⟨(hr3.mp h).1, (hr3.mp h).2, fun h => (by cases h)⟩, fun h => hr3.mpr ⟨h.1, h.2.1⟩⟩, hr4⟩
  | twoEq =>
    obtain ⟨t1, t2⟩ := ht rfl
    obtain ⟨⟨rm, r1, r2⟩, fl⟩ := r
    dsimp only at hr1 hr2 hr3 hr4 hr5 ⊢
    by_cases c1 : r1 < 0
    · rw [if_pos c1]
      dsimp only
      have hfl : fl = false := by
        by_contra h
        have := hr5 (by simpa using h)
        rw [← this] at t1
        exact absurd t1 (not_le.mpr c1)
      have h1 : ¬ 0 ≤ (umean + inc).2.1 := by
        rw [← hr4 hfl]
        exact not_le.mpr c1
      by_cases c2 : r2 < 0
      · rw [if_pos c2]
        exact ⟨hr1, fun _ => ⟨t1, t2⟩, hr2, ⟨fun h => (by cases h), fun h => absurd (h.2.2 rfl).1 h1⟩, fun h => (by cases h)⟩
      · rw [if_neg c2]
        exact ⟨hr1, fun _ => ⟨t1, not_lt.mp c2⟩, hr2, ⟨fun h => (by cases h), fun h => absurd (h.2.2 rfl).1 h1⟩, fun h => (by cases h)⟩
    · rw [if_neg c1]
      dsimp only
      by_cases c2 : r2 < 0
      · rw [if_pos c2]
        have hfl : fl = false := by
          by_contra h
          have := hr5 (by simpa using h)
          rw [← this] at t2
          exact absurd t2 (not_le.mpr c2)
        have h1 : ¬ 0 ≤ (umean + inc).2.2 := by
          rw [← hr4 hfl]
          exact not_le.mpr c2
        exact ⟨hr1, fun _ => ⟨not_lt.mp c1, t2⟩, hr2, ⟨fun h => (by cases h), fun h => absurd (h.2.2 rfl).2 h1⟩, fun h => (by cases h)⟩
      · rw [if_neg c2]
        refine ⟨hr1, fun _ => ⟨not_lt.mp c1, not_lt.mp c2⟩, hr2, ⟨fun h => ⟨(hr3.mp h).1, (hr3.mp h).2, fun _ => ?_⟩, fun h => hr3.mpr ⟨h.1, h.2.1⟩⟩, hr4⟩
        rw [← hr4 h]
        exact ⟨not_lt.mp c1, not_lt.mp c2⟩

/-! ## Cases -/

theorem demo_sane (kind : Kind) : (demoCfg kind).Sane := ⟨by norm_num [demoCfg], by norm_num [demoCfg], by norm_num [demoCfg]⟩

theorem demo_low (kind : Kind) : (demoCfg kind).rhoLow = 1 / 10 ^ 11 ∧ (demoCfg kind).pLow = 1 / 10 ^ 11 := by
  constructor
  · simp [Cfg.rhoLow, Cfg.rhoEps, demoCfg, small]
    norm_num
  · simp [Cfg.pLow, Cfg.pEps, demoCfg, small]
    norm_num

theorem demo_valid (kind : Kind) : Valid (demoCfg kind) restU.1 := by
  refine ⟨by norm_num [restU], ?_, ?_⟩
  · rw [(demo_low kind).1]
    norm_num [restU]
  · rw [(demo_low kind).2, pressure, rest_internal]
    norm_num [demoCfg]

theorem demo_room (kind : Kind) : Room (left (demoCfg kind).pLow (9 / 10) (pressure (demoCfg kind) restU.1) / ((demoCfg kind).gamma - 1)) restU.1 := by
  refine rest_room ?_
  rw [(demo_low kind).2, pressure, rest_internal]
  norm_num [demoCfg, left]

/-- `increment_keeps` on an increment that would take away five times the density -/
example : ∃ w, ∃ t : ℝ, increment (demoCfg .twoEq) (9 / 10) 1 1 restU ((-5, 0, 0), -5, -5) = .ok w ∧ Valid (demoCfg .twoEq) w.1 ∧ TurbOk .twoEq w.2 ∧ 0 ≤ t ∧ t ≤ 1 ∧
    w.1 = restU.1 + t • ((-5, 0, 0) : St ℝ 2) := by
  obtain ⟨w, t, h1, h2, h3, h4, h5, h6, -⟩ := increment_keeps (demo_sane .twoEq) (by norm_num [demoCfg]) rfl (by simp [demoCfg]) (by norm_num) (by norm_num) (Or.inl rfl) zero_le_one le_rfl restU ((-5, 0, 0), -5, -5)
    (demo_valid .twoEq) ⟨by norm_num [restU], by norm_num [restU]⟩ (demo_room .twoEq)
  exact ⟨w, t, h1, h2, h3, h4, h5, h6⟩

/-- `history_keeps` on an increment that would take away five times the density -/
example : ∃ w, run (demoCfg .twoEq) (9 / 10) 1 1 restU [((-5, 0, 0), -5, -5)] = .ok w ∧ Valid (demoCfg .twoEq) w.1 ∧ TurbOk .twoEq w.2 :=
  history_keeps (demo_sane .twoEq) (by norm_num [demoCfg]) rfl (by simp [demoCfg]) (by norm_num) (by norm_num) (Or.inl rfl) zero_le_one le_rfl _ restU
    (demo_valid .twoEq) ⟨by norm_num [restU], by norm_num [restU]⟩ (by
      intro k hk w hw
      obtain rfl : k = 0 := by simpa using hk
      rw [← Res.ok.inj hw]
      exact demo_room .twoEq)

/-- `alpha_all` on two ranks, one of them with a cell that must be reduced -/
example : ∃ al nLim alphaMin, alphaAll (demoCfg .plain) (9 / 10) 2 false true [[(restU, ((-5, 0, 0), 0, 0))], [(restU, 0)]] = .ok (al, nLim, alphaMin) ∧
    ∀ cs ∈ al, ∀ a ∈ cs, a = alphaMin := by
  obtain ⟨al, n, m, e, -, -, -, -, h, -⟩ := alpha_all (demo_sane .plain) (relax := 9 / 10) (by norm_num) (by norm_num) (fun h => by cases h) (compress := 2) (by simp [demoCfg]) false true
    [[(restU, ((-5, 0, 0), 0, 0))], [(restU, 0)]] (by
      intro cs hcs q hq
      have : q.1 = restU := by
        rcases List.mem_cons.mp hcs with rfl | hcs
        · rw [List.mem_singleton.mp hq]
        · rw [List.mem_singleton.mp hcs] at hq
          rw [List.mem_singleton.mp hq]
      rw [this]
      exact demo_valid .plain) (by
      intro cs hcs q hq
      have : q.1 = restU := by
        rcases List.mem_cons.mp hcs with rfl | hcs
        · rw [List.mem_singleton.mp hq]
        · rw [List.mem_singleton.mp hcs] at hq
          rw [List.mem_singleton.mp hq]
      rw [this]
      exact demo_room .plain)
  exact ⟨al, n, m, e, h rfl⟩

/-- **A shortcoming**: with `uRecAlphaCompressPower` below one half, which is rounded to the power 0, the factor of every reduced cell becomes 0.99999, whatever is needed: here the density ends negative. -/
theorem power_zero_unsafe : ∃ inc : TU 2, cellAlpha { demoCfg .plain with alphaPower := 0 } (9 / 10) 2 restU inc = .ok (safety, true) ∧ (restU + safety • inc).1.1 < 0 := by
  let k : Cfg := { demoCfg .plain with alphaPower := 0 }
  have hk : ∀ inc : TU 2, ∀ r, cellAlpha (demoCfg .plain) (9 / 10) 2 restU inc = .ok (r, true) → cellAlpha k (9 / 10) 2 restU inc = .ok (safety, true) := by
    intro inc r h
    have e1 : k.rhoEps = (demoCfg .plain).rhoEps := rfl
    have e2 : k.pEps = (demoCfg .plain).pEps := rfl
    simp only [cellAlpha, e1, e2] at h ⊢
    rw [Res.bind_ok_iff] at h
    obtain ⟨_, h1, h⟩ := h
    rw [Res.bind_ok_iff] at h
    obtain ⟨_, h2, h⟩ := h
    rw [Res.bind_ok_iff] at h
    obtain ⟨_, h3, h⟩ := h
    rw [Res.bind_ok_iff] at h
    obtain ⟨aP, h4, h⟩ := h
    rw [show k.relaxed = (demoCfg .plain).relaxed from rfl, show k.gamma = (demoCfg .plain).gamma from rfl, h1, Res.ok_bind, h2, Res.ok_bind, h3, Res.ok_bind, h4, Res.ok_bind]
    replace h := Res.ok.inj h
    show Res.ok (alphaOf (2 * 0) _) = _
    unfold alphaOf at h ⊢
    rw [Nat.mul_zero, pow_zero, one_mul]
    refine congrArg Res.ok (if_pos ?_)
    by_contra hc
    rw [if_neg hc] at h
    cases h
  obtain ⟨a, n, e, a0, a1, hn, hsafe, -⟩ := alpha_safe (demo_sane .plain) (relax := 9 / 10) (by norm_num) (by norm_num) (fun h => by cases h) (compress := 2) (by simp [demoCfg])
    restU ((-5, 0, 0), 0, 0) (demo_valid .plain) (demo_room .plain)
  have hlt : a < 1 := by
    by_contra hc
    have := (hsafe 1 zero_le_one (not_lt.mp hc)).1
    rw [(demo_low .plain).1] at this
    norm_num [left, restU] at this
  rw [hn.mpr hlt] at e
  refine ⟨((-5, 0, 0), 0, 0), hk _ a e, ?_⟩
  show (1 : ℝ) + safety * (-5) < 0
  norm_num [safety]

/-- **A shortcoming**: with `RANSRelax` one half in a two-equation model the step halves the increments of the energy and of the first further variable and not those of both further variables: the indices are
one too low. -/
theorem ransRelax_scales_energy : increment (demoCfg .twoEq) (9 / 10) (1 / 2) 1 restU ((0, 0, 1), 1, 1) = .ok (((1, 0, 3 / 2), 3 / 2, 2) : TU 2) := by
  have hsane := demo_sane .twoEq
  obtain ⟨a, n, e, -, -, -, -, h1⟩ := alpha_safe hsane (relax := 9 / 10) (by norm_num) (by norm_num) (fun h => by cases h) (compress := 2) (by simp [demoCfg])
    restU ((0, 0, 1), 1, 1) (demo_valid .twoEq) (demo_room .twoEq)
  have hi : ∀ E : ℝ, internal ((1, 0, E) : St ℝ 2) = E := by
    intro E
    simp [internal]
  have ha : a = 1 := by
    refine h1 (Or.inl le_rfl) ?_
    have : (restU + ((0, 0, 1), 1, 1) : TU 2).1 = (1, 0, 2) := by
      simp [restU]
      norm_num
    rw [this, (demo_low .twoEq).2, pressure, pressure, rest_internal, hi]
    norm_num [demoCfg, left]
  subst ha
  simp only [increment]
  rw [e, Res.ok_bind, if_pos ⟨rfl, by norm_num⟩]
  have et : (1 : ℝ) • ((((1 : ℝ) • (((0, 0, 1), 1, 1) : TU 2)).1.c0, ((1 : ℝ) • (((0, 0, 1), 1, 1) : TU 2)).1.cv, ((1 : ℝ) • (((0, 0, 1), 1, 1) : TU 2)).1.c4 * (1 / 2)),
      ((1 : ℝ) • (((0, 0, 1), 1, 1) : TU 2)).2.1 * (1 / 2), ((1 : ℝ) • (((0, 0, 1), 1, 1) : TU 2)).2.2) = (((0, 0, 1 / 2), 1 / 2, 1) : TU 2) := by
    simp [St.c0, St.cv, St.c4]
  obtain ⟨ret, s, er, -, -, -, -, -, hone⟩ := compressInc_spec hsane (by norm_num [demoCfg]) rfl restU ((0, 0, 1 / 2), 1 / 2, 1) (demo_valid .twoEq) (by
      intro s s0 _
      have : (restU + s • (((0, 0, 1 / 2), 1 / 2, 1) : TU 2)).1 = ((1, 0, 1 + s * (1 / 2)) : St ℝ 2) := by simp [restU]
      rw [this]
      refine ⟨by norm_num, ?_, ?_⟩
      · rw [(demo_low .twoEq).1]
        norm_num
      · rw [(demo_low .twoEq).2, pressure, hi]
        have : (1 : ℝ) / 10 ^ 11 ≤ 2 / 5 := by norm_num
        show _ ≤ ((7 : ℝ) / 5 - 1) * _
        linarith)
    ⟨by norm_num [restU], by norm_num [restU]⟩
  have eret : ret = ((0, 0, 1 / 2), 1 / 2, 1) := (hone (by
    rw [(demo_low .twoEq).1]
    norm_num [restU])).2 ⟨by norm_num [restU], by norm_num [restU]⟩
  have hadd : addFixed (demoCfg .twoEq) 1 restU ((((1 : ℝ) • (((0, 0, 1), 1, 1) : TU 2)).1.c0, ((1 : ℝ) • (((0, 0, 1), 1, 1) : TU 2)).1.cv, ((1 : ℝ) • (((0, 0, 1), 1, 1) : TU 2)).1.c4 * (1 / 2)),
      ((1 : ℝ) • (((0, 0, 1), 1, 1) : TU 2)).2.1 * (1 / 2), ((1 : ℝ) • (((0, 0, 1), 1, 1) : TU 2)).2.2) = .ok (((1, 0, 3 / 2), 3 / 2, 2) : TU 2) := by
    simp only [addFixed]
    rw [et, er, Res.ok_bind, eret]
    show Res.ok (restU + ((0, 0, 1 / 2), 1 / 2, 1)) = _
    congr 1
    simp [restU]
    norm_num
  rw [hadd, Res.ok_bind, Res.assert_true _ (by
    unfold meanGood
    rw [eInt_eq, hi]
    norm_num [demoCfg, St.c0, Cfg.rhoEps, Cfg.pEps, small]), Res.ok_bind]

/-- `recPart_valid` where the reconstruction takes away more density than there is -/
example : (compressRecPart .plain restU ((-3, 0, 0), 0, 0)).2 = true := by
  obtain ⟨-, -, -, h, -⟩ := recPart_valid .plain restU ((-3, 0, 0), 0, 0) (by norm_num [restU]) (by simp [internalG, restU]) (fun h => by cases h)
  by_contra hc
  have := (h.mp (by simpa using hc)).1
  norm_num [restU] at this

end DNDSR.Pos
