import Verif.Spec.Boundary
import Verif.Props.Gas
import Mathlib.Tactic.Abel
import Mathlib.Tactic.FinCases

/-!
# C94: boundary values
-/

namespace DNDSR.BC

open DNDSR.Gas

variable {d m : Nat} {E : Env d m} {z : Zone d m}

/-! ### frames -/

theorem energy_dot {gamma rho p : ℝ} {v : Fin d → ℝ} : energy gamma rho p v = p / (gamma - 1) + rho * (v ⬝ᵥ v) / 2 := rfl

theorem gas_mom {gamma rho p : ℝ} {v : Fin d → ℝ} {U : St ℝ d} (h : IsGas gamma rho p v U) : U.2.1 = rho • v := funext h.momentum

theorem gas_unique {gamma rho p : ℝ} {v : Fin d → ℝ} {U W : St ℝ d} (h : IsGas gamma rho p v U) (h' : IsGas gamma rho p v W) : U = W :=
  Prod.ext (h.mass.trans h'.mass.symm) (Prod.ext ((gas_mom h).trans (gas_mom h').symm) (h.energy.trans h'.energy.symm))

theorem shift_gas {gamma rho p : ℝ} {v w : Fin d → ℝ} {U : Vars d m} (h : IsGas gamma rho p v U.1) (hr : rho ≠ 0) (dir : ℝ) :
    IsGas gamma rho p (v + dir • w) (shiftFrame w U dir).1 := by
  have hm : U.1.cv = rho • v := gas_mom h
  have h0 : U.1.c0 = rho := h.mass
  have h4 : U.1.c4 = p / (gamma - 1) + rho * (v ⬝ᵥ v) / 2 := h.energy
  have hv : rho • v + (dir * rho) • w = rho • (v + dir • w) := by rw [smul_add, smul_smul, mul_comm]
  refine ⟨h0, fun i => ?_, ?_⟩
  · show (U.1.cv + (dir * U.1.c0) • w) i = _
    rw [hm, h0, hv]; rfl
  · show U.1.c4 - U.1.cv ⬝ᵥ U.1.cv / (2 * U.1.c0) + (U.1.cv + (dir * U.1.c0) • w) ⬝ᵥ (U.1.cv + (dir * U.1.c0) • w) / (2 * U.1.c0) = _
    rw [hm, h0, hv, h4, energy_dot, dot_smul_self, dot_smul_self]
    field_simp
    ring

theorem toStatic_gas {U : Vars d m} {g : Local d m} (h : E.Has U g) (hr : g.rho ≠ 0) :
    IsGas E.gamma g.rho g.p g.V (E.toStatic U 1).1 ∧ (E.toStatic U 1).2 = U.2 := by
  have hg := h.gas
  unfold Env.toStatic
  unfold Env.frame at hg
  cases ha : E.absVelo <;> cases hrot : E.rotating
  · rw [ha, hrot] at hg; simpa using hg
  · rw [ha, hrot] at hg
    simp only [Bool.false_eq_true, if_false, if_true] at hg
    refine ⟨?_, rfl⟩
    have := shift_gas (w := E.w) hg hr 1
    rw [one_smul, sub_add_cancel] at this
    simpa using this
  · rw [ha] at hg; simpa using hg
  · rw [ha] at hg; simpa using hg

theorem static_has {U : Vars d m} {g : Local d m} (h : IsGas E.gamma g.rho g.p g.V U.1) (ht : U.2 = g.rho • g.s) (hr : g.rho ≠ 0) :
    E.Has (E.toStatic U (-1)) g := by
  unfold Env.toStatic
  cases ha : E.absVelo <;> cases hrot : E.rotating
  · exact ⟨by simpa [Env.frame, ha, hrot] using h, by simpa using ht⟩
  · refine ⟨?_, by simpa [shiftFrame] using ht⟩
    have := shift_gas (w := E.w) h hr (-1)
    simpa [Env.frame, ha, hrot, sub_eq_add_neg] using this
  · exact ⟨by simpa [Env.frame, ha, hrot] using h, by simpa using ht⟩
  · exact ⟨by simpa [Env.frame, ha, hrot] using h, by simpa using ht⟩

theorem toAbs_gas {U : Vars d m} {g : Local d m} (h : E.Has U g) (hr : g.rho ≠ 0) :
    IsGas E.gamma g.rho g.p (g.V - E.frame) (E.toAbs U (-1)).1 ∧ (E.toAbs U (-1)).2 = U.2 := by
  have hg := h.gas
  unfold Env.toAbs
  cases ha : E.absVelo <;> cases hrot : E.rotating
  · rw [ha] at hg; simpa [Env.frame, hrot] using hg
  · rw [ha] at hg; simpa [Env.frame, hrot] using hg
  · rw [ha] at hg; simpa [Env.frame, hrot] using hg
  · rw [ha] at hg
    simp only [if_true] at hg
    have := shift_gas (w := E.w) hg hr (-1)
    exact ⟨by simpa [Env.frame, hrot, sub_eq_add_neg] using this, rfl⟩

theorem abs_has {U : Vars d m} {g : Local d m} (h : IsGas E.gamma g.rho g.p (g.V - E.frame) U.1) (ht : U.2 = g.rho • g.s) (hr : g.rho ≠ 0) :
    E.Has (E.toAbs U 1) g := by
  unfold Env.toAbs
  cases ha : E.absVelo <;> cases hrot : E.rotating
  · exact ⟨by simpa [Env.frame, ha, hrot] using h, by simpa using ht⟩
  · exact ⟨by simpa [Env.frame, ha, hrot] using h, by simpa using ht⟩
  · exact ⟨by simpa [Env.frame, ha, hrot] using h, by simpa using ht⟩
  · refine ⟨?_, by simpa [shiftFrame] using ht⟩
    have := shift_gas (w := E.w) h hr 1
    simpa [Env.frame, ha, hrot] using this

theorem Env.Has.unique {U W : Vars d m} {g : Local d m} (h : E.Has U g) (h' : E.Has W g) : U = W :=
  Prod.ext (gas_unique h.gas h'.gas) (h.turb.trans h'.turb.symm)

/-- turning the momentum of a gas turns its velocity -/
theorem setV_gas {gamma rho p : ℝ} {v v' : Fin d → ℝ} {U : Vars d m} (h : IsGas gamma rho p v U.1) (hv : v' ⬝ᵥ v' = v ⬝ᵥ v) :
    IsGas gamma rho p v' (setV U (rho • v')).1 := by
  refine ⟨h.mass, fun i => rfl, ?_⟩
  show U.1.2.2 = _
  rw [h.energy, energy_dot, energy_dot, hv]

theorem rot_dot {M : Matrix (Fin d) (Fin d) ℝ} (h : M.transpose * M = 1) (v : Fin d → ℝ) : M.mulVec v ⬝ᵥ M.mulVec v = v ⬝ᵥ v := by
  rw [Matrix.dotProduct_mulVec, Matrix.vecMul_mulVec, h]
  simp

theorem turn_gas (hT : E.Turns) {rho p : ℝ} {v : Fin d → ℝ} {U : Vars d m} (h : IsGas E.gamma rho p v U.1) :
    IsGas E.gamma rho p ((E.aoa.getD 1).mulVec v) (E.turn U).1 ∧ (E.turn U).2 = U.2 := by
  unfold Env.turn
  cases ha : E.aoa with
  | none => simpa using h
  | some M =>
    have hm : U.1.cv = rho • v := gas_mom h
    refine ⟨?_, rfl⟩
    simp only [Option.getD_some, hm, Matrix.mulVec_smul]
    exact setV_gas h (rot_dot (hT.aoa M ha) v)

theorem far_gas (hT : E.Turns) {F : Local d m} (h : E.Prescribes z F) :
    IsGas E.gamma F.rho F.p F.V (E.farValue z).1 ∧ (E.farValue z).2 = F.rho • F.s := by
  obtain ⟨V0, h1, h2, h3⟩ := h.value
  obtain ⟨t1, t2⟩ := turn_gas hT h1
  unfold Env.farValue
  by_cases hk : z.kind = .far ∧ E.rotating = true ∧ z.frameOpt ≠ 0
  · rw [if_pos hk] at h3 ⊢
    have hm : (E.turn z.value).1.cv = F.rho • _ := gas_mom t1
    refine ⟨?_, t2.trans h2⟩
    rw [hm, Matrix.mulVec_smul, ← h3]
    exact setV_gas t1 (by rw [h3, rot_dot hT.spin])
  · rw [if_neg hk] at h3 ⊢
    rw [Matrix.one_mulVec] at h3
    rw [h3]
    exact ⟨t1, t2.trans h2⟩

/-! ### far field -/

theorem has_un (n : Fin d → ℝ) {U : Vars d m} {g : Local d m} (h : E.Has U g) (hr : g.rho ≠ 0) :
    U.1.cv ⬝ᵥ n / U.1.c0 - E.vGrid ⬝ᵥ n = (g.V - E.frame) ⬝ᵥ n := by
  have hm : U.1.cv = g.rho • _ := gas_mom h.gas
  have h0 : U.1.c0 = g.rho := h.gas.mass
  rw [hm, h0, smul_dotProduct, smul_eq_mul, mul_div_cancel_left₀ _ hr]
  unfold Env.vGrid Env.frame
  cases E.absVelo <;> cases E.rotating <;> simp [sub_dotProduct]

theorem has_thermal {gamma rho p : ℝ} {v : Fin d → ℝ} {U : St ℝ d} (h : IsGas gamma rho p v U) (hr : rho ≠ 0) (hg : gamma ≠ 1) :
    thermal U.c4 U.c0 ((U.c0⁻¹ • U.cv) ⬝ᵥ (U.c0⁻¹ • U.cv)) gamma =
      (p, gamma * p / rho, gamma / (gamma - 1) * (p / rho) + (∑ i, v i * v i) / 2) := by
  have hm : U.cv = rho • v := gas_mom h
  have h0 : U.c0 = rho := h.mass
  have : U.c0⁻¹ • U.cv = v := by rw [hm, h0, smul_smul, inv_mul_cancel₀ hr, one_smul]
  rw [this]
  exact thermal_gas h hr hg

theorem prim2cons_has {gamma : ℝ} {rho p : ℝ} {v : Fin d → ℝ} {s : Fin m → ℝ} (hr : 0 < rho) :
    ∃ U : Vars d m, prim2cons gamma ((rho, v, p) : St ℝ d) s = .ok U ∧ IsGas gamma rho p v U.1 ∧ U.2 = rho • s := by
  obtain ⟨U, e, h1, h2, h3⟩ := (prim2cons_gas gamma ((rho, v, p) : St ℝ d) s).1 hr
  exact ⟨(U, e), h1, h2, funext h3⟩

theorem outPressure_eq {L : Local d m} {U : Vars d m} (hL : E.Has U L) (hLo : L.Ok) (hg : 1 < E.gamma) {pA : ℝ} (hA : E.AnchorPressure L pA) (pFar : ℝ) :
    E.outPressure z U L.p pFar = .ok (outPressure z L.p pFar pA (E.profile.getD 0)) := by
  have hm : ∀ x, pFar + max x (-(95 / 100) * pFar) = max (pFar + x) (pFar / 20) := fun x => by
    rw [← max_add_add_left]; congr 1; ring
  unfold Env.outPressure outPressure
  by_cases h1 : z.kind = .outP ∧ z.anchorOpt = 1
  · rw [if_pos h1, if_pos h1]
    have : ∃ rho v e, cons2prim E.gamma (E.anchor.getD U).1 (E.anchor.getD U).2 = .ok ((rho, v, pA), e) := by
      cases ha : E.anchor with
      | none =>
        rw [hA.1 ha]
        exact ⟨_, _, _, cons2prim_gas _ hL.gas hLo.rho hg.ne'⟩
      | some A =>
        obtain ⟨rho, v, hr, hgA⟩ := hA.2 A ha
        exact ⟨_, _, _, cons2prim_gas _ hgA hr hg.ne'⟩
    obtain ⟨rho, v, e, he⟩ := this
    simp only [he, Res.bind, ← hm]
    rfl
  · rw [if_neg h1, if_neg h1]
    by_cases h2 : z.kind = .outP ∧ z.anchorOpt = 2
    · rw [if_pos h2, if_pos h2, hm]
    · rw [if_neg h2, if_neg h2]

theorem outPressure_pos {pL pFar pA incr : ℝ} (h : 0 < pFar) : 0 < outPressure z pL pFar pA incr := by
  unfold outPressure
  split
  · exact lt_max_of_lt_right (by positivity)
  · split
    · exact lt_max_of_lt_right (by positivity)
    · exact h

theorem farState_ok {L F : Local d m} (hL : L.Ok) (hF : F.Ok) {pOut : ℝ} (h : 0 < pOut) (un a : ℝ) : (farState L F pOut un a).Ok := by
  unfold farState
  split
  · exact hL
  · split
    · exact ⟨hL.rho, h⟩
    · split
      · exact ⟨hF.rho, hL.p⟩
      · exact hF

/-- **C94** (far field and pressure outlet) The outer state is the inner one where the gas leaves the face (as it moves with the
frame) faster than sound and the prescribed one where it enters faster than sound; slower gas that leaves gets the prescribed
pressure, which an anchor or a profile may move but not below a twentieth, and slower gas that enters keeps the inner pressure.  The
outer state has positive density and pressure, and the inner state is not changed. -/
theorem far_state (hk : z.kind = .far ∨ z.kind = .outP) (hg : 1 < E.gamma) (hT : E.Turns) {L F : Local d m} {UL : Vars d m} (hL : E.Has UL L)
    (hLo : L.Ok) (hF : E.Prescribes z F) (hFo : F.Ok) {pA : ℝ} (hA : E.AnchorPressure L pA) (fixUL : Bool) (n : Fin d → ℝ) (UM : Vars d m) :
    ∃ UR, boundary E z fixUL n UL UM = .ok (UR, UL) ∧
      E.Has UR (farState L F (outPressure z L.p F.p pA (E.profile.getD 0)) ((L.V - E.frame) ⬝ᵥ n) (L.sound E.gamma)) ∧
      (farState L F (outPressure z L.p F.p pA (E.profile.getD 0)) ((L.V - E.frame) ⬝ᵥ n) (L.sound E.gamma)).Ok := by
  have hpo := outPressure_pos (z := z) (pL := L.p) (pA := pA) (incr := E.profile.getD 0) hFo.p
  suffices h : ∃ UR, E.farBnd z n UL = .ok UR ∧
      E.Has UR (farState L F (outPressure z L.p F.p pA (E.profile.getD 0)) ((L.V - E.frame) ⬝ᵥ n) (L.sound E.gamma)) by
    obtain ⟨UR, h1, h2⟩ := h
    refine ⟨UR, ?_, h2, farState_ok hLo hFo hpo _ _⟩
    unfold boundary
    rcases hk with hk | hk <;> rw [hk] <;> simp only [h1, Res.ok_bind]
  obtain ⟨s1, s2⟩ := toStatic_gas hL hLo.rho.ne'
  obtain ⟨f1, f2⟩ := far_gas hT hF
  have hun := has_un n hL hLo.rho.ne'
  have hth := has_thermal s1 hLo.rho.ne' hg.ne'
  have h0 : UL.1.c0 = L.rho := hL.gas.mass
  have hcF := cons2prim_gas (E.farValue z).2 f1 hFo.rho hg.ne'
  have hcL := cons2prim_gas (E.toStatic UL 1).2 s1 hLo.rho hg.ne'
  have hdF : (fun k => (E.farValue z).2 k / F.rho) = F.s := by
    funext k; rw [f2, Pi.smul_apply, smul_eq_mul, mul_div_cancel_left₀ _ hFo.rho.ne']
  have hdL : (fun k => (E.toStatic UL 1).2 k / L.rho) = L.s := by
    funext k; rw [s2, hL.turb, Pi.smul_apply, smul_eq_mul, mul_div_cancel_left₀ _ hLo.rho.ne']
  rw [hdF] at hcF
  rw [hdL] at hcL
  have ha2 : 0 ≤ E.gamma * L.p / L.rho := div_nonneg (mul_nonneg (by linarith) hLo.p.le) hLo.rho.le
  unfold Env.farBnd
  have e1 : UL.1.c0 > 0 := by rw [h0]; exact hLo.rho
  simp only [Res.assert_true _ e1, Res.ok_bind, hth, Res.assert_true _ ha2, hun, hcF, hcL]
  unfold farState
  rw [← Local.sound]
  by_cases c1 : L.sound E.gamma < (L.V - E.frame) ⬝ᵥ n
  · rw [if_pos (sub_pos.2 c1), if_pos c1]
    exact ⟨_, rfl, static_has s1 (s2.trans hL.turb) hLo.rho.ne'⟩
  rw [if_neg (fun h => c1 (sub_pos.1 h)), if_neg c1]
  by_cases c2 : 0 < (L.V - E.frame) ⬝ᵥ n
  · rw [if_pos c2, if_pos c2]
    simp only [St.c4, outPressure_eq hL hLo hg hA, Res.ok_bind, setP]
    obtain ⟨U, u1, u2, u3⟩ := prim2cons_has (gamma := E.gamma) (p := outPressure z L.p F.p pA (E.profile.getD 0)) (v := L.V) (s := L.s) hLo.rho
    refine ⟨E.toStatic U (-1), ?_, static_has u2 u3 hLo.rho.ne'⟩
    simp only [St.c0, St.cv, u1, Res.ok_bind]
  rw [if_neg c2, if_neg c2]
  by_cases c3 : -(L.sound E.gamma) < (L.V - E.frame) ⬝ᵥ n
  · rw [if_pos (show (L.V - E.frame) ⬝ᵥ n + L.sound E.gamma > 0 by linarith), if_pos c3]
    simp only [setP]
    obtain ⟨U, u1, u2, u3⟩ := prim2cons_has (gamma := E.gamma) (p := L.p) (v := F.V) (s := F.s) hFo.rho
    refine ⟨E.toStatic U (-1), ?_, static_has (g := { F with p := L.p }) u2 u3 hFo.rho.ne'⟩
    simp only [St.c0, St.cv, St.c4, u1, Res.ok_bind]
  · rw [if_neg (by intro h; apply c3; linarith), if_neg c3]
    exact ⟨_, rfl, static_has f1 f2 hFo.rho.ne'⟩

/-- **C94** (free stream) Where the gas already is what the far field prescribes the outer state is the inner one, whatever the
direction of the face and the rotation of the frame. -/
theorem far_freestream (hk : z.kind = .far ∨ z.kind = .outP ∧ z.anchorOpt = 0) (hg : 1 < E.gamma) (hT : E.Turns) {F : Local d m} {UL : Vars d m} (hL : E.Has UL F)
    (hF : E.Prescribes z F) (hFo : F.Ok) {pA : ℝ} (hA : E.AnchorPressure F pA) (fixUL : Bool) (n : Fin d → ℝ) (UM : Vars d m) :
    boundary E z fixUL n UL UM = .ok (UL, UL) := by
  obtain ⟨UR, h1, h2, -⟩ := far_state (hk.imp id And.left) hg hT hL hFo hF hFo hA fixUL n UM
  have hp : outPressure z F.p F.p pA (E.profile.getD 0) = F.p := by
    unfold outPressure
    rcases hk with hk | ⟨hk, hk'⟩
    · simp [hk]
    · simp [hk']
  have : farState F F F.p ((F.V - E.frame) ⬝ᵥ n) (F.sound E.gamma) = F := by
    unfold farState
    split_ifs <;> rfl
  rw [hp, this] at h2
  rw [h1, h2.unique hL]

/-! ### walls -/

/-- **C94** (slip walls and symmetry planes) The outer state is the inner one with the velocity relative to the frame mirrored at the
face: density, pressure and turbulence variables stay. -/
theorem slip_state (hk : z.kind = .wallInvis ∨ z.kind = .sym) {L : Local d m} {UL : Vars d m} (hL : E.Has UL L) (hr : L.rho ≠ 0) (fixUL : Bool) {n : Fin d → ℝ}
    (hn : n ⬝ᵥ n = 1) (UM : Vars d m) :
    ∃ UR, boundary E z fixUL n UL UM = .ok (UR, UL) ∧ E.Has UR { L with V := L.V - (2 * ((L.V - E.frame) ⬝ᵥ n)) • n } := by
  refine ⟨E.slip n UL, ?_, ?_⟩
  · unfold boundary
    rcases hk with hk | hk <;> rw [hk]
  obtain ⟨a1, a2⟩ := toAbs_gas hL hr
  have hm : (E.toAbs UL (-1)).1.cv = L.rho • _ := gas_mom a1
  unfold Env.slip
  simp only [hm]
  generalize hu : L.V - E.frame = u at *
  have hv : L.rho • u - (2 * (L.rho • u ⬝ᵥ n)) • n = L.rho • (u - (2 * (u ⬝ᵥ n)) • n) := by
    rw [smul_dotProduct, smul_sub, smul_smul]; congr 2; simp only [smul_eq_mul]; ring
  rw [hv]
  refine abs_has ?_ (a2.trans hL.turb) hr
  have : L.V - (2 * (u ⬝ᵥ n)) • n - E.frame = u - (2 * (u ⬝ᵥ n)) • n := by rw [← hu]; abel
  rw [this]
  refine setV_gas a1 ?_
  simp only [sub_dotProduct, dotProduct_sub, smul_dotProduct, dotProduct_smul, smul_eq_mul, hn, dotProduct_comm n u]
  ring

theorem wallMu_eq {UM : Vars d m} {M : Local d m} (hM : E.Has UM M) (hr : M.rho ≠ 0) (hg : 1 < E.gamma) :
    E.wallMu UM = E.muEff UM (M.temp ((E.gamma - 1) / E.gamma * E.Cp)) := by
  unfold Env.wallMu
  have h0 : UM.1.c0 = M.rho := hM.gas.mass
  rw [has_thermal hM.gas hr hg.ne', h0, Local.temp, mul_comm M.rho]

theorem wallTurb_mean (fixUL : Bool) {L M : Local d m} {UL UM : Vars d m} (hL : E.Has UL L) (hM : E.Has UM M) (hr : M.rho ≠ 0)
    (hg : 1 < E.gamma) {k : ℝ} (hk : ∀ h : 0 < m, k = M.s ⟨0, h⟩) (i : Fin m) :
    ((E.wallTurb fixUL UL UM).1 i + (E.wallTurb fixUL UL UM).2 i) / 2 = (E.atWall L.rho UM M k i).getD (UL.2 i) := by
  have hmu := wallMu_eq hM hr hg
  have hm : 0 < m := lt_of_le_of_lt (Nat.zero_le _) i.2
  have hL0 : UL.1.c0 = L.rho := hL.gas.mass
  have hM0 : UM.1.c0 = M.rho := hM.gas.mass
  have hM1 : UM.2 ⟨0, hm⟩ / M.rho = k := by
    rw [hM.turb, Pi.smul_apply, smul_eq_mul, mul_div_cancel_left₀ _ hr, hk hm]
  unfold Env.wallTurb Env.atWall
  rw [hmu, hL0, hM0, dif_pos hm, hM1]
  obtain ⟨i, hi⟩ := i
  rcases i with _ | _ | i
  · cases E.turb <;> cases fixUL <;> simp
  · cases E.turb <;> cases fixUL <;> simp <;> ring
  · cases E.turb <;> cases fixUL <;> simp

/-- **C94** (no-slip walls) The outer state has the density and pressure of the inner one, and the mean of the two velocities is
that of the wall, which turns with the frame or, with the option, stands still.  The mean of the two turbulence variables is what
the model has at a wall.  The inner state is changed only for Spalart-Allmaras and only if asked for: its variable becomes zero. -/
theorem noSlip_state (hk : z.kind = .wall) (hg : 1 < E.gamma) {L M : Local d m} {UL UM : Vars d m} (hL : E.Has UL L) (hr : L.rho ≠ 0) (hM : E.Has UM M)
    (hrM : M.rho ≠ 0) (fixUL : Bool) (n : Fin d → ℝ) :
    ∃ UR UL', boundary E z fixUL n UL UM = .ok (UR, UL') ∧
      E.Has (UR.1, UL.2) { L with V := (2 : ℝ) • (if z.frameOpt = 0 then E.frame else 0) - L.V } ∧
      (∀ k, (∀ h : 0 < m, k = M.s ⟨0, h⟩) → ∀ i : Fin m, (UR.2 i + UL'.2 i) / 2 = (E.atWall L.rho UM M k i).getD (UL.2 i)) ∧
      UL'.1 = UL.1 ∧ (¬ (fixUL = true ∧ E.turb = .sa) → UL' = UL) ∧
      (fixUL = true → E.turb = .sa → ∀ h : 0 < m, UL'.2 ⟨0, h⟩ = 0) := by
  refine ⟨(E.noSlip z fixUL UL UM).1, (E.noSlip z fixUL UL UM).2, ?_, ?_, fun k hk i => wallTurb_mean fixUL hL hM hrM hg hk i, rfl, ?_, ?_⟩
  · unfold boundary; rw [hk]
  · suffices h : E.Has (if z.frameOpt = 0 then E.toAbs (setV (if z.frameOpt = 0 then E.toAbs UL (-1) else E.toStatic UL 1)
        (-(if z.frameOpt = 0 then E.toAbs UL (-1) else E.toStatic UL 1).1.cv)) 1 else
        E.toStatic (setV (if z.frameOpt = 0 then E.toAbs UL (-1) else E.toStatic UL 1)
        (-(if z.frameOpt = 0 then E.toAbs UL (-1) else E.toStatic UL 1).1.cv)) (-1)) { L with V := (2 : ℝ) • (if z.frameOpt = 0 then E.frame else 0) - L.V } from
      ⟨h.gas, hL.turb⟩
    by_cases hf : z.frameOpt = 0
    · simp only [if_pos hf]
      obtain ⟨a1, a2⟩ := toAbs_gas hL hr
      have hm : (E.toAbs UL (-1)).1.cv = L.rho • _ := gas_mom a1
      rw [hm, ← smul_neg]
      refine abs_has ?_ (a2.trans hL.turb) hr
      have : (2 : ℝ) • E.frame - L.V - E.frame = -(L.V - E.frame) := by rw [two_smul]; abel
      show IsGas _ _ _ ((2 : ℝ) • E.frame - L.V - E.frame) _
      rw [this]
      exact setV_gas a1 (by rw [neg_dotProduct, dotProduct_neg, neg_neg])
    · simp only [if_neg hf]
      obtain ⟨a1, a2⟩ := toStatic_gas hL hr
      have hm : (E.toStatic UL 1).1.cv = L.rho • _ := gas_mom a1
      rw [hm, ← smul_neg]
      refine static_has ?_ (a2.trans hL.turb) hr
      show IsGas _ _ _ ((2 : ℝ) • (0 : Fin d → ℝ) - L.V) _
      rw [smul_zero, zero_sub]
      exact setV_gas a1 (by simp)
  · intro h
    refine Prod.ext rfl ?_
    show (E.wallTurb fixUL UL UM).2 = UL.2
    unfold Env.wallTurb
    cases ht : E.turb <;> cases hf : fixUL <;> simp_all
  · intro hf ht h
    show (E.wallTurb fixUL UL UM).2 _ = 0
    unfold Env.wallTurb
    rw [hf, ht]
    simp

/-! ### outlets and inlets -/

/-- **C94** (outlet) The outer state is the inner one. -/
theorem out_state (hk : z.kind = .out) (fixUL : Bool) (n : Fin d → ℝ) (UL UM : Vars d m) : boundary E z fixUL n UL UM = .ok (UL, UL) := by
  unfold boundary; rw [hk]

/-- **C94** (inlet) The outer state is the prescribed one. -/
theorem in_state (hk : z.kind = .inn) (hT : E.Turns) {F : Local d m} (hF : E.Prescribes z F) (hr : F.rho ≠ 0) (fixUL : Bool) (n : Fin d → ℝ) (UL UM : Vars d m) :
    ∃ UR, boundary E z fixUL n UL UM = .ok (UR, UL) ∧ E.Has UR F := by
  refine ⟨E.toStatic (E.turn z.value) (-1), by unfold boundary; rw [hk], ?_⟩
  have h := far_gas hT hF
  have : E.farValue z = E.turn z.value := by simp [Env.farValue, hk]
  rw [this] at h
  exact static_has h.1 h.2 hr

/-- **C94** (inlet of total pressure and temperature) The outer state has the total pressure, total temperature and direction
prescribed, and the speed of the inner state, as far as the total temperature allows it. -/
theorem inlet_state (hk : z.kind = .inPsTs) (hg : 1 < E.gamma) (hCp : 0 < E.Cp) (hR : 0 < E.Rgas) (hT : E.Turns) {L : Local d m} {UL : Vars d m} (hL : E.Has UL L)
    (hr : 0 < L.rho) {pTot tTot : ℝ} {dir : Fin d → ℝ} (hz : z.Inlet pTot tTot dir) (hp : 0 < pTot) (ht : 0 < tTot) (hd : dir ≠ 0)
    (fixUL : Bool) (n : Fin d → ℝ) (UM : Vars d m) :
    ∃ UR G, boundary E z fixUL n UL UM = .ok (UR, UL) ∧ E.Has UR G ∧ G.Ok ∧
      G.total E.Rgas E.Cp = tTot ∧ G.totalP E.gamma E.Rgas E.Cp = pTot ∧
      (∃ c : ℝ, 0 ≤ c ∧ G.V = c • (E.aoa.getD 1).mulVec dir) ∧
      G.V ⬝ᵥ G.V = min (L.V ⬝ᵥ L.V) (19 / 10 * E.Cp * tTot) ∧ G.s = z.value.2 := by
  have hd0 : 0 < d := by
    rcases Nat.eq_zero_or_pos d with h | h
    · subst h; exact absurd (funext fun i => i.elim0) hd
    · exact h
  have hdir : dirOf z.value = dir := by
    funext i
    rw [← hz.dir i]
    rfl
  have htt : z.value.1.cv ⟨0, hd0⟩ = tTot := by
    rw [← hz.t]; simp [entry, hd0, St.cv]
  have hdd : 0 < dir ⬝ᵥ dir := by
    obtain ⟨i, hi⟩ := Function.ne_iff.1 hd
    exact Finset.sum_pos' (fun i _ => mul_self_nonneg (dir i)) ⟨i, Finset.mem_univ i, mul_self_pos.2 hi⟩
  obtain ⟨s1, s2⟩ := toStatic_gas hL hr.ne'
  have hm : (E.toStatic UL 1).1.cv = L.rho • _ := gas_mom s1
  have h0 : (E.toStatic UL 1).1.c0 = L.rho := s1.mass
  have hv : (E.toStatic UL 1).1.c0⁻¹ • (E.toStatic UL 1).1.cv = L.V := by rw [hm, h0, smul_smul, inv_mul_cancel₀ hr.ne', one_smul]
  have hcL := cons2prim_gas (E.toStatic UL 1).2 s1 hr hg.ne'
  have hVV : 0 ≤ L.V ⬝ᵥ L.V := Finset.sum_nonneg fun i _ => mul_self_nonneg (L.V i)
  obtain ⟨q, hq⟩ : ∃ q, min (L.V ⬝ᵥ L.V) (tTot * 2 * E.Cp * (95 / 100)) = q := ⟨_, rfl⟩
  have hq' : min (L.V ⬝ᵥ L.V) (19 / 10 * E.Cp * tTot) = q := by rw [← hq]; congr 1; ring
  have hq0 : 0 ≤ q := by rw [← hq]; exact le_min hVV (by positivity)
  have hq1 : q ≤ tTot * 2 * E.Cp * (95 / 100) := by rw [← hq]; exact min_le_right _ _
  obtain ⟨T, hTd⟩ : ∃ T, tTot - 1 / 2 * q / E.Cp = T := ⟨_, rfl⟩
  have hT0 : 0 < T := by
    rw [← hTd, sub_pos, div_lt_iff₀ hCp]
    nlinarith [mul_pos ht hCp]
  obtain ⟨P, hPd⟩ : ∃ P, pTot * (T / tTot) ^ (E.gamma / (E.gamma - 1)) = P := ⟨_, rfl⟩
  have hP0 : 0 < P := by rw [← hPd]; exact mul_pos hp (Real.rpow_pos_of_pos (div_pos hT0 ht) _)
  have hrho : 0 < P / (E.Rgas * T) := by positivity
  obtain ⟨U, u1, u2, u3⟩ := prim2cons_has (gamma := E.gamma) (p := P) (v := √q • normalized dir) (s := z.value.2) hrho
  obtain ⟨t1, t2⟩ := turn_gas hT u2
  have hnd : normalized dir ⬝ᵥ normalized dir = 1 := by
    rw [normalized, if_pos hdd, dot_smul_self, ← mul_inv, Real.mul_self_sqrt hdd.le, inv_mul_cancel₀ hdd.ne']
  have hMM : ∀ v : Fin d → ℝ, (E.aoa.getD 1).mulVec v ⬝ᵥ (E.aoa.getD 1).mulVec v = v ⬝ᵥ v := by
    intro v
    cases ha : E.aoa with
    | none => simp
    | some M => exact rot_dot (hT.aoa M ha) v
  have hGV : (E.aoa.getD 1).mulVec (√q • normalized dir) ⬝ᵥ (E.aoa.getD 1).mulVec (√q • normalized dir) = q := by
    rw [hMM, dot_smul_self, hnd, Real.mul_self_sqrt hq0, mul_one]
  have hTe : P / (P / (E.Rgas * T) * E.Rgas) = T := by field_simp
  have htot : T + q / (2 * E.Cp) = tTot := by rw [← hTd]; field_simp; ring
  refine ⟨E.toStatic (E.turn U) (-1), ⟨P / (E.Rgas * T), P, (E.aoa.getD 1).mulVec (√q • normalized dir), z.value.2⟩, ?_,
    static_has t1 (t2.trans u3) hrho.ne', ⟨hrho, hP0⟩, ?_, ?_, ?_, ?_, rfl⟩
  · unfold boundary
    rw [hk]
    simp only [Env.inlet, hcL, Res.ok_bind, hv, dif_pos hd0, htt, hdir, hq, hTd]
    rw [show z.value.1.c0 = pTot from hz.p]
    simp only [hPd, u1, Res.ok_bind]
  · show P / (P / (E.Rgas * T) * E.Rgas) + _ / (2 * E.Cp) = _
    rw [hGV, hTe, htot]
  · show P * ((P / (P / (E.Rgas * T) * E.Rgas) + _ / (2 * E.Cp)) / (P / (P / (E.Rgas * T) * E.Rgas))) ^ (E.gamma / (E.gamma - 1)) = _
    rw [hGV, hTe, htot, ← hPd, mul_assoc, ← Real.mul_rpow (div_pos hT0 ht).le (div_pos ht hT0).le, div_mul_div_cancel₀ ht.ne', div_self hT0.ne', Real.one_rpow, mul_one]
  · refine ⟨√q * (√(dir ⬝ᵥ dir))⁻¹, by positivity, ?_⟩
    rw [normalized, if_pos hdd, smul_smul, Matrix.mulVec_smul]
  · rw [hq']; exact hGV

/-! ### non-vacuity: a rotating frame, a turned angle of attack, Spalart-Allmaras -/

section Sample

/-- air in a frame that moves with velocity (0, 1) at the point; the angle of attack is a quarter turn -/
noncomputable def air : Env 2 1 where
  gamma := 7 / 5
  Cp := 7 / 2
  Rgas := 1
  muEff := fun _ T => T
  turb := .sa
  absVelo := true
  rotating := true
  w := ![0, 1]
  spin := 1
  aoa := some !![0, -1; 1, 0]
  anchor := none
  profile := none
  dWall := 1

theorem air_turns : air.Turns := by
  refine ⟨by simp [air], fun M h => ?_⟩
  simp only [air, Option.some.injEq] at h
  subst h
  ext i j
  fin_cases i <;> fin_cases j <;> simp [Matrix.mul_apply, Fin.sum_univ_two]

/-- gas of density 2, pressure 3, velocity (1, 5), with 7 per mass -/
noncomputable def gasIn : Local 2 1 := ⟨2, 3, ![1, 5], ![7]⟩
noncomputable def gasFar : Local 2 1 := ⟨1, 1, ![0, 1], ![2]⟩

theorem gasIn_ok : gasIn.Ok := ⟨by norm_num [gasIn], by norm_num [gasIn]⟩
theorem gasFar_ok : gasFar.Ok := ⟨by norm_num [gasFar], by norm_num [gasFar]⟩

theorem exists_has (g : Local d m) : ∃ U, E.Has U g :=
  ⟨((g.rho, g.rho • (if E.absVelo = true then g.V else g.V - E.frame),
    energy E.gamma g.rho g.p (if E.absVelo = true then g.V else g.V - E.frame)), g.rho • g.s), ⟨rfl, fun _ => rfl, rfl⟩, rfl⟩

noncomputable def zoneOf (k : Kind) : Zone 2 1 := ⟨k, ((1, ![1, 0], 3), ![2]), 0, 0⟩

theorem zone_prescribes (k : Kind) : air.Prescribes (zoneOf k) gasFar := by
  refine ⟨![1, 0], ⟨rfl, fun i => ?_, ?_⟩, ?_, ?_⟩
  · fin_cases i <;> simp [zoneOf, gasFar]
  · simp only [zoneOf, gasFar, air, energy, Fin.sum_univ_two]; norm_num
  · funext i; fin_cases i; simp [zoneOf, gasFar]
  · rw [if_neg (by simp [zoneOf])]
    rw [Matrix.one_mulVec]
    funext i
    fin_cases i <;> simp [air, gasFar, Matrix.mulVec, dotProduct, Fin.sum_univ_two]

theorem anchor_air (L : Local 2 1) : air.AnchorPressure L L.p := ⟨fun _ => rfl, fun A h => by simp [air] at h⟩

/-- gas that leaves through a face with normal (1, 0) slower than sound gets the pressure outside -/
example : ∃ UL UR, air.Has UL gasIn ∧ boundary air (zoneOf .far) true ![1, 0] UL UL = .ok (UR, UL) ∧ air.Has UR { gasIn with p := 1 } := by
  obtain ⟨UL, hUL⟩ := exists_has (E := air) gasIn
  obtain ⟨UR, h1, h2, -⟩ := far_state (z := zoneOf .far) (.inl rfl) (by norm_num [air]) air_turns hUL gasIn_ok (zone_prescribes _) gasFar_ok
    (anchor_air _) true ![1, 0] UL
  refine ⟨UL, UR, hUL, h1, ?_⟩
  have hun : (gasIn.V - air.frame) ⬝ᵥ ![1, 0] = 1 := by simp [gasIn, air, Env.frame, dotProduct, Fin.sum_univ_two]
  have hs : 1 < gasIn.sound air.gamma := by
    rw [Local.sound, Real.lt_sqrt (by norm_num)]
    norm_num [gasIn, air]
  rw [hun, farState, if_neg hs.not_gt, if_pos one_pos, outPressure, if_neg (by simp [zoneOf]), if_neg (by simp [zoneOf])] at h2
  exact h2

example : ∃ UL, air.Has UL gasFar ∧ boundary air (zoneOf .far) false ![1, 0] UL UL = .ok (UL, UL) := by
  obtain ⟨UL, hUL⟩ := exists_has (E := air) gasFar
  exact ⟨UL, hUL, far_freestream (.inl rfl) (by norm_num [air]) air_turns hUL (zone_prescribes _) gasFar_ok (anchor_air _) false _ UL⟩

/-- at a wall that turns with the frame the velocity (1, 5) becomes (-1, -3): the mean is (0, 1) -/
example : ∃ UL UR UL', air.Has UL gasIn ∧ boundary air (zoneOf .wall) true ![1, 0] UL UL = .ok (UR, UL') ∧
    UR.1.2.1 = ![-2, -6] ∧ UL'.2 0 = 0 ∧ UR.2 0 = 0 := by
  obtain ⟨UL, hUL⟩ := exists_has (E := air) gasIn
  obtain ⟨UR, UL', h1, h2, h3, h4, h5, h6⟩ := noSlip_state (z := zoneOf .wall) rfl (by norm_num [air]) hUL gasIn_ok.rho.ne' hUL gasIn_ok.rho.ne' true ![1, 0]
  refine ⟨UL, UR, UL', hUL, h1, ?_, h6 rfl rfl one_pos, ?_⟩
  · have := gas_mom h2.gas
    rw [this]
    funext i
    fin_cases i <;> simp [air, gasIn, zoneOf, Env.frame] <;> norm_num
  · have h7 := h3 7 (fun _ => rfl) 0
    have h8 : UL'.2 0 = 0 := h6 rfl rfl one_pos
    rw [h8] at h7
    simpa [Env.atWall, air] using h7

example : ∃ UL UR, air.Has UL gasIn ∧ boundary air (zoneOf .sym) true ![1, 0] UL UL = .ok (UR, UL) ∧ UR.1.2.1 = ![-2, 10] := by
  obtain ⟨UL, hUL⟩ := exists_has (E := air) gasIn
  obtain ⟨UR, h1, h2⟩ := slip_state (z := zoneOf .sym) (.inr rfl) hUL gasIn_ok.rho.ne' true (n := ![1, 0]) (by simp [dotProduct, Fin.sum_univ_two]) UL
  refine ⟨UL, UR, hUL, h1, ?_⟩
  have := gas_mom h2.gas
  rw [this]
  funext i
  fin_cases i <;> simp [air, gasIn, Env.frame, dotProduct, Fin.sum_univ_two] <;> norm_num

/-- total pressure 10, total temperature 20, direction (3, 4), turned by the angle of attack -/
example : ∃ UL UR G, air.Has UL gasIn ∧ boundary air ⟨.inPsTs, ((10, ![20, 3], 4), ![5]), 0, 0⟩ true ![1, 0] UL UL = .ok (UR, UL) ∧
    air.Has UR G ∧ G.total 1 (7 / 2) = 20 ∧ G.V ⬝ᵥ G.V = 26 := by
  obtain ⟨UL, hUL⟩ := exists_has (E := air) gasIn
  obtain ⟨UR, G, h1, h2, -, h3, -, -, h4, -⟩ := inlet_state (E := air) (z := ⟨.inPsTs, ((10, ![20, 3], 4), ![5]), 0, 0⟩) rfl
    (by norm_num [air]) (by norm_num [air]) (by norm_num [air]) air_turns hUL gasIn_ok.rho
    (pTot := 10) (tTot := 20) (dir := ![3, 4]) ⟨rfl, by simp [entry], fun i => by fin_cases i <;> simp [entry]⟩
    (by norm_num) (by norm_num) (fun h => by simpa using congrFun h 0) true ![1, 0] UL
  refine ⟨UL, UR, G, hUL, h1, h2, h3, h4.trans ?_⟩
  norm_num [gasIn, air, dotProduct, Fin.sum_univ_two]

end Sample

end DNDSR.BC
