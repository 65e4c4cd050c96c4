import Verif.Props.PositivityAll

/-!
# C84: increments keep density and pressure positive
-/

namespace DNDSR.Pos

open DNDSR.Gas DNDSR.IMap

variable {d : Nat}

/-- the floor of the density in the limiter of increments -/
noncomputable def Cfg.rhoLow (c : Cfg) : ℝ := if c.relaxed then 0 else c.rhoEps

/-- the floor of the pressure in the limiter of increments -/
noncomputable def Cfg.pLow (c : Cfg) : ℝ := if c.relaxed then 0 else c.pEps

/-- pressure of an ideal gas -/
noncomputable def pressure (c : Cfg) (U : St ℝ d) : ℝ := (c.gamma - 1) * internal U

/-- settings with positive references and a gas that has a pressure -/
structure Cfg.Sane (c : Cfg) : Prop where
  ref0 : 0 < c.ref0
  refP : 0 < c.refP
  gamma : 1 < c.gamma

/-- density and pressure are positive and not below the floors -/
def Valid (c : Cfg) (U : St ℝ d) : Prop := 0 < U.1 ∧ c.rhoLow ≤ U.1 ∧ c.pLow ≤ pressure c U

/-- what is left of the way to a floor `low` after the fraction `relax` of it: no increment may go below -/
noncomputable def left (low relax now : ℝ) : ℝ := low + (now - low) * (1 - relax)

variable {c : Cfg}

theorem rhoLow_nonneg (hs : c.Sane) : 0 ≤ c.rhoLow := by
  unfold Cfg.rhoLow
  split
  · exact le_rfl
  · unfold Cfg.rhoEps small
    have := hs.ref0
    positivity

theorem pLow_nonneg (hs : c.Sane) : 0 ≤ c.pLow := by
  unfold Cfg.pLow
  split
  · exact le_rfl
  · unfold Cfg.pEps small
    have := hs.refP
    positivity

theorem rhoLow_pos (hs : c.Sane) (h : c.relaxed = false) : 0 < c.rhoLow := by
  unfold Cfg.rhoLow Cfg.rhoEps small
  have := hs.ref0
  simp only [h, Bool.false_eq_true, if_false]
  positivity

theorem pLow_pos (hs : c.Sane) (h : c.relaxed = false) : 0 < c.pLow := by
  unfold Cfg.pLow Cfg.pEps small
  have := hs.refP
  simp only [h, Bool.false_eq_true, if_false]
  positivity

/-- the power of the last factor, if it is at least one -/
theorem alpha_power {t : ℝ} (h0 : 0 ≤ t) (h1 : t < 1) {n : Nat} (hn : 1 ≤ n) : 0 ≤ t ^ n * safety ∧ t ^ n * safety ≤ t := by
  obtain ⟨m, rfl⟩ : ∃ m, n = m + 1 := ⟨n - 1, by omega⟩
  obtain ⟨a, b⟩ := power_le h0 h1.le m
  rw [pow_succ, mul_comm (t ^ m), mul_assoc]
  exact ⟨a, b⟩

/-- **C84, one cell** Whatever the increment of a cell with valid mean: the factor is found, lies in `[0, 1]`, and with it, or any smaller one, the density and the pressure keep at least what `relax` leaves
of their distances to the floors. An increment that does so by itself is not reduced. -/
theorem alpha_safe (hs : c.Sane) {relax : ℝ} (hx0 : 0 ≤ relax) (hx1 : relax ≤ 1) (hx : c.relaxed = true → relax < 1) {compress : Nat} (hpow : 1 ≤ compress * c.alphaPower)
    (u inc : TU d) (hu : Valid c u.1) (hroom : Room (left c.pLow relax (pressure c u.1) / (c.gamma - 1)) u.1) :
    ∃ a n, cellAlpha c relax compress u inc = .ok (a, n) ∧ 0 ≤ a ∧ a ≤ 1 ∧ (n = true ↔ a < 1) ∧
      (∀ s, 0 ≤ s → s ≤ a → left c.rhoLow relax u.1.1 ≤ (u + s • inc).1.1 ∧ left c.pLow relax (pressure c u.1) ≤ pressure c (u + s • inc).1) ∧
      ((0 ≤ inc.1.1 ∨ -inc.1.1 * (1 + 1 / 10 ^ 10) ≤ relax * (u.1.1 - c.rhoLow)) → left c.pLow relax (pressure c u.1) ≤ pressure c (u + inc).1 → a = 1) := by
  obtain ⟨hu0, hur, hup⟩ := hu
  have g := hs.gamma
  have g' : 0 < c.gamma - 1 := by linarith
  have rl0 := rhoLow_nonneg hs
  have eR : (if c.relaxed then c.rhoEps * 0 else c.rhoEps) = c.rhoLow := by unfold Cfg.rhoLow; rw [mul_zero]
  have eP : (if c.relaxed then c.pEps * 0 else c.pEps) = c.pLow := by unfold Cfg.pLow; rw [mul_zero]
  have hsm : 0 < small := by unfold small; positivity
  simp only [cellAlpha, eR, eP]
  rw [Res.assert_true _ hx, Res.ok_bind, Res.assert_true (u.1.c0 ≥ c.rhoLow) hur, Res.ok_bind]
  have eL : c.rhoLow * relax + u.1.c0 * (1 - relax) = left c.rhoLow relax u.1.1 := by
    simp only [left, St.c0]
    ring
  rw [eL]
  have hleft : left c.rhoLow relax u.1.1 ≤ u.1.1 := by
    simp only [left]
    nlinarith
  have hleft0 : 0 < left c.rhoLow relax u.1.1 := by
    simp only [left]
    by_cases hr : c.relaxed = true
    · have : c.rhoLow = 0 := by unfold Cfg.rhoLow; rw [if_pos hr]
      rw [this]
      nlinarith [mul_pos hu0 (sub_pos.mpr (hx hr))]
    · have := rhoLow_pos hs (by simpa using hr)
      nlinarith [mul_nonneg (sub_nonneg.mpr hur) (sub_nonneg.mpr hx1)]
  -- the density
  generalize haR : (if inc.1.c0 < 0 then min 1 ((u.1.c0 - left c.rhoLow relax u.1.1) / (-inc.1.c0 - small * inc.1.c0)) else 1) = aR
  replace haR : (if inc.1.1 < 0 then min 1 ((u.1.1 - left c.rhoLow relax u.1.1) / (-inc.1.1 - small * inc.1.1)) else 1) = aR := haR
  have hR : 0 ≤ aR ∧ aR ≤ 1 ∧ left c.rhoLow relax u.1.1 ≤ u.1.1 + aR * inc.1.1 := by
    rw [← haR]
    by_cases hn : inc.1.1 < 0
    · rw [if_pos hn]
      have hden : 0 < -inc.1.1 - small * inc.1.1 := by nlinarith
      refine ⟨le_min zero_le_one (div_nonneg (by linarith) hden.le), min_le_left _ _, ?_⟩
      have h1 := min_le_right (1 : ℝ) ((u.1.1 - left c.rhoLow relax u.1.1) / (-inc.1.1 - small * inc.1.1))
      have h0 : 0 ≤ min (1 : ℝ) ((u.1.1 - left c.rhoLow relax u.1.1) / (-inc.1.1 - small * inc.1.1)) := le_min zero_le_one (div_nonneg (by linarith) hden.le)
      rw [le_div_iff₀ hden] at h1
      nlinarith [mul_nonneg h0 (mul_nonneg hsm.le (neg_nonneg.mpr hn.le))]
    · rw [if_neg hn]
      exact ⟨zero_le_one, le_rfl, by linarith [not_lt.mp hn]⟩
  obtain ⟨R0, R1, R2⟩ := hR
  rw [Res.assert_true _ ⟨R0, R1⟩, Res.ok_bind]
  have hdens : ∀ s, 0 ≤ s → s ≤ aR → left c.rhoLow relax u.1.1 ≤ u.1.1 + s * inc.1.1 := fun s s0 s1 => dens_between s0 s1 hleft R2
  -- the pressure
  have ePN : eInt (u + aR • inc).1 * (c.gamma - 1) = pressure c (u + aR • inc).1 := by rw [eInt_eq, mul_comm]; rfl
  have ePO : eInt u.1 * (c.gamma - 1) = pressure c u.1 := by rw [eInt_eq, mul_comm]; rfl
  rw [ePN, ePO]
  have hleftP : left c.pLow relax (pressure c u.1) ≤ pressure c u.1 := by
    simp only [left]
    nlinarith
  have hlowP : c.pLow ≤ left c.pLow relax (pressure c u.1) := by
    simp only [left]
    nlinarith [mul_nonneg (sub_nonneg.mpr hup) (sub_nonneg.mpr hx1)]
  set L := left c.pLow relax (pressure c u.1) with hL
  have hpr : ∀ s t, 0 ≤ s → s ≤ t → t ≤ aR → L ≤ pressure c (u + t • inc).1 → L ≤ pressure c (u + s • inc).1 := by
    intro s t s0 s1 t1 h
    simp only [pressure] at h hleftP ⊢
    have hq : ∀ v : ℝ, L ≤ (c.gamma - 1) * v ↔ L / (c.gamma - 1) ≤ v := by
      intro v
      rw [div_le_iff₀ g', mul_comm]
    rw [hq] at h hleftP ⊢
    exact internal_between u.1 inc.1 hu0 (lt_of_lt_of_le hleft0 (hdens t (s0.trans s1) t1)) s0 s1 hleftP h
  have hP : ∃ aP, alphaP c.gamma u.1 (aR • inc).1 (pressure c (u + aR • inc).1)
      (if pressure c (u + aR • inc).1 < pressure c u.1 then c.pLow + (pressure c u.1 - c.pLow) * (1 - relax) else c.pLow) = .ok aP ∧
      0 ≤ aP ∧ aP ≤ 1 ∧ L ≤ pressure c (u + (aP * aR) • inc).1 ∧ (L ≤ pressure c (u + aR • inc).1 → aP = 1) := by
    unfold alphaP
    by_cases hc : pressure c (u + aR • inc).1 < pressure c u.1
    · rw [if_pos hc]
      change ∃ aP, (if _ < L then _ else _) = _ ∧ _
      by_cases hl : pressure c (u + aR • inc).1 < L
      · rw [if_pos hl]
        obtain ⟨a, ha, hfl⟩ := ratio_root_total u.1 (aR • inc).1 (L / (c.gamma - 1)) hu0 (lt_of_lt_of_le hleft0 (hdens aR R0 le_rfl)) hroom
        obtain ⟨a0, a1, -, -⟩ := ratio_floor 0 _ _ _ a ha
        show ∃ aP, (compressionRatio 0 u.1 (aR • inc).1 (L / (c.gamma - 1)) >>= fun alphaC => Res.ok (min 1 alphaC)) = _ ∧ _
        rw [ha, Res.ok_bind, min_eq_right a1]
        refine ⟨a, rfl, a0, a1, ?_, fun h => absurd hl (not_lt.mpr h)⟩
        rw [div_le_iff₀ g'] at hfl
        have : (u + (a * aR) • inc).1 = u.1 + a • (aR • inc).1 := by
          rw [mul_smul]
          rfl
        rw [pressure, this, mul_comm]
        exact hfl
      · rw [if_neg hl]
        exact ⟨1, rfl, zero_le_one, le_rfl, by rw [one_mul]; exact not_lt.mp hl, fun _ => rfl⟩
    · rw [if_neg hc, if_neg (not_lt.mpr (hup.trans (not_lt.mp hc)))]
      exact ⟨1, rfl, zero_le_one, le_rfl, by rw [one_mul]; exact hleftP.trans (not_lt.mp hc), fun _ => rfl⟩
  obtain ⟨aP, haP, P0, P1, P2, P3⟩ := hP
  rw [haP, Res.ok_bind]
  have t0 : 0 ≤ aR * aP := mul_nonneg R0 P0
  have tR : aR * aP ≤ aR := by nlinarith
  have safe : ∀ a, a ≤ aR * aP → ∀ s, 0 ≤ s → s ≤ a → left c.rhoLow relax u.1.1 ≤ (u + s • inc).1.1 ∧ L ≤ pressure c (u + s • inc).1 := by
    intro a ha s s0 s1
    refine ⟨hdens s s0 ((s1.trans ha).trans tR), hpr s (aR * aP) s0 (s1.trans ha) tR ?_⟩
    rw [mul_comm]
    exact P2
  have one : (0 ≤ inc.1.1 ∨ -inc.1.1 * (1 + 1 / 10 ^ 10) ≤ relax * (u.1.1 - c.rhoLow)) → L ≤ pressure c (u + inc).1 → aR * aP = 1 := by
    intro h1 h2
    have : aR = 1 := by
      rw [← haR]
      by_cases hn : inc.1.1 < 0
      · rw [if_pos hn]
        refine min_eq_left ?_
        have hden : 0 < -inc.1.1 - small * inc.1.1 := by nlinarith
        rw [le_div_iff₀ hden]
        have := h1.resolve_left (not_le.mpr hn)
        simp only [left, small] at this ⊢
        linarith
      · rw [if_neg hn]
    rw [this, one_smul] at P3
    rw [this, P3 h2, one_mul]
  unfold alphaOf
  by_cases ht : aR * aP < 1
  · rw [if_pos ht]
    obtain ⟨b0, b1⟩ := alpha_power t0 ht hpow
    refine ⟨_, _, rfl, b0, b1.trans ht.le, by simp [lt_of_le_of_lt b1 ht], safe _ b1, fun h1 h2 => absurd (one h1 h2) ht.ne⟩
  · rw [if_neg ht]
    exact ⟨_, _, rfl, t0, tR.trans R1, by simp [ht], safe _ le_rfl, one⟩

/-- what is left lies above the floors -/
theorem valid_of_left (hs : c.Sane) {relax : ℝ} (hx1 : relax ≤ 1) (hx : c.relaxed = true → relax < 1) {u w : St ℝ d} (hu : Valid c u)
    (h : left c.rhoLow relax u.1 ≤ w.1 ∧ left c.pLow relax (pressure c u) ≤ pressure c w) : Valid c w := by
  obtain ⟨h0, h1, h2⟩ := hu
  have e1 : c.rhoLow ≤ left c.rhoLow relax u.1 := by
    simp only [left]
    nlinarith [mul_nonneg (sub_nonneg.mpr h1) (sub_nonneg.mpr hx1)]
  have e2 : c.pLow ≤ left c.pLow relax (pressure c u) := by
    simp only [left]
    nlinarith [mul_nonneg (sub_nonneg.mpr h2) (sub_nonneg.mpr hx1)]
  refine ⟨?_, e1.trans h.1, e2.trans h.2⟩
  refine lt_of_lt_of_le ?_ h.1
  by_cases hr : c.relaxed = true
  · have : c.rhoLow = 0 := by unfold Cfg.rhoLow; rw [if_pos hr]
    simp only [left, this]
    nlinarith [mul_pos h0 (sub_pos.mpr (hx hr))]
  · exact lt_of_lt_of_le (rhoLow_pos hs (by simpa using hr)) e1

/-! ## All ranks -/

/-- **C84, all ranks** For any number of ranks, with any cells and increments, and with either flag for the least factor: the factors are found; each lies in `[0, 1]` and keeps its cell valid; all ranks
learn how many cells were reduced and the least factor; with `MIN_ALL` all cells of all ranks get that one. -/
theorem alpha_all (hs : c.Sane) {relax : ℝ} (hx0 : 0 ≤ relax) (hx1 : relax ≤ 1) (hx : c.relaxed = true → relax < 1) {compress : Nat} (hpow : 1 ≤ compress * c.alphaPower)
    (minIfNotOne minAll : Bool) (rs : List (List (TU d × TU d))) (hu : ∀ cs ∈ rs, ∀ q ∈ cs, Valid c q.1.1)
    (hroom : ∀ cs ∈ rs, ∀ q ∈ cs, Room (left c.pLow relax (pressure c q.1.1) / (c.gamma - 1)) q.1.1) :
    ∃ al nLim alphaMin, alphaAll c relax compress minIfNotOne minAll rs = .ok (al, nLim, alphaMin) ∧
      List.Forall₂ (List.Forall₂ fun (q : TU d × TU d) a => 0 ≤ a ∧ a ≤ 1 ∧ Valid c (q.1 + a • q.2).1) rs al ∧
      0 ≤ alphaMin ∧ alphaMin ≤ 1 ∧ (∀ cs ∈ al, ∀ a ∈ cs, alphaMin ≤ a) ∧ (minAll = true → ∀ cs ∈ al, ∀ a ∈ cs, a = alphaMin) ∧
      (minAll = false → nLim = (al.map fun cs => (cs.filter fun a => decide (a < 1)).length).sum ∧ (alphaMin = 1 ∨ ∃ cs ∈ al, alphaMin ∈ cs)) := by
  obtain ⟨out, hout, hall⟩ := forRanks_forall2
    (f := fun cs => forRanks (fun _ (q : TU d × TU d) => cellAlpha c relax compress q.1 q.2) 0 cs)
    (P := List.Forall₂ fun (q : TU d × TU d) (a : ℝ × Bool) => 0 ≤ a.1 ∧ a.1 ≤ 1 ∧ (a.2 = true ↔ a.1 < 1) ∧ ∀ s, 0 ≤ s → s ≤ a.1 → Valid c (q.1 + s • q.2).1) rs 0 (by
      intro cs hcs
      exact forRanks_forall2 cs 0 (by
        intro q hq
        obtain ⟨a, n, e, a0, a1, an, sf, -⟩ := alpha_safe hs hx0 hx1 hx hpow q.1 q.2 (hu cs hcs q hq) (hroom cs hcs q hq)
        exact ⟨(a, n), e, a0, a1, an, fun s s0 s1 => valid_of_left hs hx1 hx (hu cs hcs q hq) (sf s s0 s1)⟩))
  have hmem : ∀ cs ∈ out, ∀ a ∈ cs, 0 ≤ a.1 ∧ a.1 ≤ 1 ∧ (a.2 = true ↔ a.1 < 1) := by
    intro cs hcs a ha
    obtain ⟨i, hi, rfl⟩ := List.mem_iff_getElem.mp hcs
    have h1 := hall.get (by rw [hall.length_eq]; exact hi) hi
    obtain ⟨j, hj, rfl⟩ := List.mem_iff_getElem.mp ha
    have h2 := h1.get (by rw [h1.length_eq]; exact hj) hj
    exact ⟨h2.1, h2.2.1, h2.2.2.1⟩
  -- the least factor
  have hmin : ∃ m, reduceMin 1 (out.map fun cs => reduceMin 1 ((cs.filter (·.2)).map (·.1))) = m ∧ 0 ≤ m ∧ m ≤ 1 ∧ (∀ cs ∈ out, ∀ a ∈ cs, m ≤ a.1) ∧
      (m = 1 ∨ ∃ cs ∈ out, ∃ a ∈ cs, m = a.1) := by
    have e : (out.map fun cs => reduceMin 1 ((cs.filter (·.2)).map (·.1))) = (out.map fun cs => cs.filter (·.2)).map fun cs => reduceMin 1 (cs.map (·.1)) := by
      rw [List.map_map]
      rfl
    rw [e]
    obtain ⟨h1, h2, h3⟩ := reduceMin_ranks 1 (fun a : ℝ × Bool => a.1) (out.map fun cs => cs.filter (·.2))
    refine ⟨_, rfl, ?_, h1, ?_, ?_⟩
    · rcases h3 with h | ⟨cs, hcs, a, ha, h⟩
      · rw [h]; exact zero_le_one
      · obtain ⟨cs', hcs', rfl⟩ := List.mem_map.mp hcs
        rw [h]
        exact (hmem cs' hcs' a (List.mem_filter.mp ha).1).1
    · intro cs hcs a ha
      by_cases hl : a.2 = true
      · exact h2 _ (List.mem_map_of_mem hcs) a (List.mem_filter.mpr ⟨ha, hl⟩)
      · have := hmem cs hcs a ha
        refine h1.trans (not_lt.mp fun h => hl (this.2.2.mpr h))
    · rcases h3 with h | ⟨cs, hcs, a, ha, h⟩
      · exact Or.inl h
      · obtain ⟨cs', hcs', rfl⟩ := List.mem_map.mp hcs
        exact Or.inr ⟨cs', hcs', a, (List.mem_filter.mp ha).1, h⟩
  obtain ⟨m, em, m0, m1, m2, m3⟩ := hmin
  -- what a cell gets
  let fin : ℝ → ℝ := fun a => if minAll then m else if minIfNotOne then (if a < 1 then m else a) else a
  have hfin : ∀ cs ∈ out, ∀ a ∈ cs, m ≤ fin a.1 ∧ fin a.1 ≤ a.1 ∧ (minAll = false → (fin a.1 < 1 ↔ a.1 < 1)) := by
    intro cs hcs a ha
    have hm := m2 cs hcs a ha
    simp only [fin]
    cases minAll with
    | true => exact ⟨le_rfl, hm, by simp⟩
    | false =>
      simp only [Bool.false_eq_true, if_false]
      cases minIfNotOne with
      | false => exact ⟨hm, le_rfl, fun _ => Iff.rfl⟩
      | true =>
        simp only [if_true]
        by_cases h : a.1 < 1
        · rw [if_pos h]
          exact ⟨le_rfl, hm, fun _ => ⟨fun _ => h, fun _ => lt_of_le_of_lt hm h⟩⟩
        · rw [if_neg h]
          exact ⟨hm, le_rfl, fun _ => Iff.rfl⟩
  refine ⟨out.map fun cs => cs.map fun a => fin a.1, reduceSum (out.map fun cs => (cs.filter (·.2)).length), m, ?_, ?_, m0, m1, ?_, ?_, ?_⟩
  · simp only [alphaAll]
    rw [hout, Res.ok_bind, em]
    congr 2
    simp only [fin]
    cases minAll <;> cases minIfNotOne <;> simp [List.map_map, Function.comp_def]
  · rw [List.forall₂_map_right_iff]
    have hz : List.Forall₂ (fun cs (os : List (ℝ × Bool)) => os ∈ out ∧ List.Forall₂ (fun (q : TU d × TU d) (a : ℝ × Bool) => 0 ≤ a.1 ∧ a.1 ≤ 1 ∧ (a.2 = true ↔ a.1 < 1) ∧
        ∀ s, 0 ≤ s → s ≤ a.1 → Valid c (q.1 + s • q.2).1) cs os) rs out :=
      List.forall₂_iff_get.mpr ⟨hall.length_eq, fun i h1 h2 => ⟨List.getElem_mem _, hall.get h1 h2⟩⟩
    refine hz.imp fun cs os ⟨hos, h⟩ => ?_
    rw [List.forall₂_map_right_iff]
    have hz' : List.Forall₂ (fun (q : TU d × TU d) (a : ℝ × Bool) => a ∈ os ∧ 0 ≤ a.1 ∧ a.1 ≤ 1 ∧ (a.2 = true ↔ a.1 < 1) ∧
        ∀ s, 0 ≤ s → s ≤ a.1 → Valid c (q.1 + s • q.2).1) cs os :=
      List.forall₂_iff_get.mpr ⟨h.length_eq, fun i h1 h2 => ⟨List.getElem_mem _, h.get h1 h2⟩⟩
    refine hz'.imp fun q a ⟨ha, a0, a1, _, sf⟩ => ?_
    obtain ⟨f1, f2, -⟩ := hfin os hos a ha
    exact ⟨m0.trans f1, f2.trans a1, sf _ (m0.trans f1) f2⟩
  · intro cs hcs a ha
    obtain ⟨os, hos, rfl⟩ := List.mem_map.mp hcs
    obtain ⟨b, hb, rfl⟩ := List.mem_map.mp ha
    exact (hfin os hos b hb).1
  · intro h cs hcs a ha
    obtain ⟨os, hos, rfl⟩ := List.mem_map.mp hcs
    obtain ⟨b, hb, rfl⟩ := List.mem_map.mp ha
    simp only [fin, h, if_true]
  · intro h
    constructor
    · rw [reduceSum, foldl_add, Nat.zero_add, List.map_map]
      congr 1
      refine List.map_congr_left fun os hos => ?_
      simp only [Function.comp_apply, List.filter_map, List.length_map]
      congr 1
      refine List.filter_congr fun a ha => ?_
      have h1 := (hfin os hos a ha).2.2 h
      have h2 := (hmem os hos a ha).2.2
      simp only [Function.comp_apply]
      by_cases hl : a.1 < 1
      · rw [decide_eq_true (h1.mpr hl), h2.mpr hl]
      · rw [decide_eq_false fun h' => hl (h1.mp h')]
        exact Bool.eq_false_iff.mpr fun h' => hl (h2.mp h')
    · rcases m3 with h3 | ⟨os, hos, a, ha, h3⟩
      · exact Or.inl h3
      · refine Or.inr ⟨_, List.mem_map_of_mem hos, List.mem_map.mpr ⟨a, ha, ?_⟩⟩
        simp only [fin, h, Bool.false_eq_true, if_false]
        rw [h3]
        split
        · split <;> rfl
        · rfl

end DNDSR.Pos
