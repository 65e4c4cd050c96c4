import Verif.Spec.Wall
import Verif.Props.Boundary
import Verif.Props.Roe

/-!
# C95: walls let nothing through
-/

namespace DNDSR.BC

open DNDSR.Gas

variable {d m : Nat} {gamma : ℝ}

theorem side_of_gas {rho p : ℝ} {v : Fin d → ℝ} {U : St ℝ d} (h : IsGas gamma rho p v U) (hr : rho ≠ 0) (hg : 1 < gamma) :
    (side gamma U).velo = v ∧ (side gamma U).p = p ∧ (side gamma U).asqr = gamma * p / rho ∧
      (side gamma U).H = gamma / (gamma - 1) * (p / rho) + (v ⬝ᵥ v) / 2 := by
  have hm : U.cv = rho • v := gas_mom h
  have h0 : U.c0 = rho := h.mass
  have hv : U.c0⁻¹ • U.cv = v := by rw [hm, h0, smul_smul, inv_mul_cancel₀ hr, one_smul]
  have ht := has_thermal h hr hg.ne'
  unfold side
  simp only [ht]
  exact ⟨hv, trivial, trivial, rfl⟩

theorem physical_of_gas {rho p : ℝ} {v : Fin d → ℝ} {U : St ℝ d} (h : IsGas gamma rho p v U) (hr : 0 < rho) (hp : 0 < p) (hg : 1 < gamma) : Physical gamma U := by
  have h0 : 0 < U.1 := by rw [h.mass]; exact hr
  refine ⟨h0, ?_⟩
  rw [← side_p h0.ne', (side_of_gas h hr.ne' hg).2.1]
  exact hp

/-- a state and its mirror image at a wall of velocity `W` -/
structure Pair (gamma : ℝ) (vg n W : Fin d → ℝ) (rho p : ℝ) (v v' : Fin d → ℝ) (UL UR : St ℝ d) : Prop where
  pos : 0 < rho
  pres : 0 < p
  left : IsGas gamma rho p v UL
  right : IsGas gamma rho p v' UR
  normal : (v' - vg) ⬝ᵥ n = -((v - vg) ⬝ᵥ n)
  mid : (v' - v) ⬝ᵥ (v' + v) = 2 * ((v' - v) ⬝ᵥ W)

theorem avg_velo (hg : 1 < gamma) {vg n W : Fin d → ℝ} {rho p : ℝ} {v v' : Fin d → ℝ} {UL UR : St ℝ d} (h : Pair gamma vg n W rho p v v' UL UR) :
    (roeAverage gamma UL UR).velo = (1 / 2 : ℝ) • (v + v') := by
  have l := (side_of_gas h.left h.pos.ne' hg).1
  have r := (side_of_gas h.right h.pos.ne' hg).1
  have hs : 0 < √rho := Real.sqrt_pos.2 h.pos
  show (√UL.1 + √UR.1)⁻¹ • (√UL.1 • (side gamma UL).velo + √UR.1 • (side gamma UR).velo) = _
  rw [l, r, h.left.mass, h.right.mass, ← smul_add, smul_smul]
  congr 1
  field_simp
  norm_num

/-- the wave speeds of mirrored means are symmetric -/
theorem speeds_wall (pick : Nat → ℝ → ℝ → ℝ → ℝ → ℝ → ℝ → ℝ → ℝ → Lam)
    (hpick : ∀ s sp u a uL uR aL aR dL, 0 ≤ a → 0 ≤ aL → 0 ≤ aR → pick s sp (-u) a (-uR) (-uL) aR aL dL = (pick s sp u a uL uR aL aR dL).swap)
    (scheme : Nat) (hg : 1 < gamma) {vg n W : Fin d → ℝ} {rho p : ℝ} {v v' : Fin d → ℝ} {UL UR : St ℝ d} (h : Pair gamma vg n W rho p v v' UL UR) (dLambda : ℝ) :
    (roeSpeeds pick scheme gamma UL UR vg n dLambda).l0 = (roeSpeeds pick scheme gamma UL UR vg n dLambda).l4 := by
  obtain ⟨l1, -, l3, -⟩ := side_of_gas h.left h.pos.ne' hg
  obtain ⟨r1, -, r3, -⟩ := side_of_gas h.right h.pos.ne' hg
  have hn := h.normal
  have hu : (roeAverage gamma UL UR).velo ⬝ᵥ n - vg ⬝ᵥ n = 0 := by
    rw [avg_velo hg h, smul_dotProduct, add_dotProduct, smul_eq_mul]
    simp only [sub_dotProduct] at hn
    linarith
  unfold roeSpeeds
  simp only [hu, l1, r1, l3, r3]
  split
  · rfl
  · have := hpick scheme (√(roeAverage gamma UL UR).vsqr) 0 (√(roeAverage gamma UL UR).asqr) ((v - vg) ⬝ᵥ n) ((v' - vg) ⬝ᵥ n) (√(gamma * p / rho))
      (√(gamma * p / rho)) dLambda (Real.sqrt_nonneg _) (Real.sqrt_nonneg _) (Real.sqrt_nonneg _)
    rw [hn, neg_neg, neg_zero] at this
    rw [hn]
    exact congrArg Lam.l0 this

theorem physFlux_gas {rho p : ℝ} {v : Fin d → ℝ} {U : St ℝ d} (h : IsGas gamma rho p v U) (hr : rho ≠ 0) (hg : 1 < gamma) (vg n : Fin d → ℝ) :
    physFlux gamma U vg n = (((v - vg) ⬝ᵥ n) * rho, (((v - vg) ⬝ᵥ n) * rho) • v + p • n,
      ((v - vg) ⬝ᵥ n) * (p / (gamma - 1) + rho * (v ⬝ᵥ v) / 2) + (v ⬝ᵥ n) * p) := by
  obtain ⟨l1, l2, -, -⟩ := side_of_gas h hr hg
  have hm := gas_mom h
  have h0 := h.mass
  have h4 : U.2.2 = p / (gamma - 1) + rho * (v ⬝ᵥ v) / 2 := h.energy
  simp only [physFlux, fluxXY, St.c0, St.cv, St.c4, Prod.smul_fst, Prod.smul_snd, smul_eq_mul, l1, l2, hm, h0, h4, smul_smul]

/-- the jump and the waves between mirror images -/
theorem waves_wall {vg n W : Fin d → ℝ} {rho p : ℝ} {v v' : Fin d → ℝ} {UL UR : St ℝ d} (h : Pair gamma vg n W rho p v v' UL UR) (A : Avg d) (ha : 0 < A.asqr)
    (hAW : (v' - v) ⬝ᵥ A.velo = (v' - v) ⬝ᵥ W) {u : ℝ} (hu : (v - vg) ⬝ᵥ n = u) :
    UR - UL = (0, rho • (v' - v), rho * ((v' - v) ⬝ᵥ W)) ∧ (v' - v) ⬝ᵥ n = -2 * u ∧
    waves gamma A (√A.asqr) (A.velo ⬝ᵥ n) n (UR - UL) =
      ⟨rho * u / √A.asqr, 0, rho • (v' - v) + (2 * rho * u) • n, -(rho * u / √A.asqr)⟩ := by
  have hn := h.normal
  have hmid := h.mid
  have hinc : UR - UL = (0, rho • (v' - v), rho * ((v' - v) ⬝ᵥ W)) := by
    have e1 : UR.2.2 = p / (gamma - 1) + rho * (v' ⬝ᵥ v') / 2 := h.right.energy
    have e2 : UL.2.2 = p / (gamma - 1) + rho * (v ⬝ᵥ v) / 2 := h.left.energy
    refine Prod.ext ?_ (Prod.ext ?_ ?_)
    · show UR.1 - UL.1 = 0
      rw [h.right.mass, h.left.mass, sub_self]
    · show UR.2.1 - UL.2.1 = _
      rw [gas_mom h.right, gas_mom h.left, smul_sub]
    · show UR.2.2 - UL.2.2 = _
      simp only [sub_dotProduct, dotProduct_add, dotProduct_comm v v'] at hmid ⊢
      rw [e1, e2]
      linear_combination rho / 2 * hmid
  have hvn : (v' - v) ⬝ᵥ n = -2 * u := by
    rw [← hu]
    simp only [sub_dotProduct] at hn ⊢
    linarith
  have a0 : √A.asqr ≠ 0 := (Real.sqrt_pos.2 ha).ne'
  refine ⟨hinc, hvn, ?_⟩
  have h1 : (waves gamma A (√A.asqr) (A.velo ⬝ᵥ n) n (UR - UL)).aT = rho • (v' - v) + (2 * rho * u) • n := by
    simp only [waves, hinc, St.c0, St.cv, zero_smul, sub_zero, smul_dotProduct, hvn, smul_eq_mul]
    rw [sub_eq_add_neg, ← neg_smul]
    congr 2
    ring
  have h2 : (waves gamma A (√A.asqr) (A.velo ⬝ᵥ n) n (UR - UL)).a1 = 0 := by
    have : (waves gamma A (√A.asqr) (A.velo ⬝ᵥ n) n (UR - UL)).a1 = (gamma - 1) / A.asqr * ((UR - UL).c0 * (A.H - A.velo ⬝ᵥ n * (A.velo ⬝ᵥ n)) +
      A.velo ⬝ᵥ n * ((UR - UL).cv ⬝ᵥ n) - ((UR - UL).c4 - (waves gamma A (√A.asqr) (A.velo ⬝ᵥ n) n (UR - UL)).aT ⬝ᵥ A.velo)) := rfl
    rw [this, h1, hinc]
    simp only [St.c0, St.cv, St.c4, smul_dotProduct, add_dotProduct, hvn, hAW, smul_eq_mul, dotProduct_comm n A.velo]
    ring
  have h3 : (waves gamma A (√A.asqr) (A.velo ⬝ᵥ n) n (UR - UL)).a0 = rho * u / √A.asqr := by
    have : (waves gamma A (√A.asqr) (A.velo ⬝ᵥ n) n (UR - UL)).a0 = ((UR - UL).c0 * (A.velo ⬝ᵥ n + √A.asqr) - (UR - UL).cv ⬝ᵥ n -
      √A.asqr * (waves gamma A (√A.asqr) (A.velo ⬝ᵥ n) n (UR - UL)).a1) / (2 * √A.asqr) := rfl
    rw [this, h2, hinc]
    simp only [St.c0, St.cv, smul_dotProduct, hvn, smul_eq_mul]
    field_simp
    ring
  have h4 : (waves gamma A (√A.asqr) (A.velo ⬝ᵥ n) n (UR - UL)).a4 = -(rho * u / √A.asqr) := by
    have : (waves gamma A (√A.asqr) (A.velo ⬝ᵥ n) n (UR - UL)).a4 = (UR - UL).c0 - ((waves gamma A (√A.asqr) (A.velo ⬝ᵥ n) n (UR - UL)).a0 +
      (waves gamma A (√A.asqr) (A.velo ⬝ᵥ n) n (UR - UL)).a1) := rfl
    rw [this, h2, h3, hinc]
    simp [St.c0]
  exact congr (congr (congr (congrArg Waves.mk h3) h2) h1) h4

/-- the flux that the Roe solvers put together, at a wall -/
theorem combine_wall (scheme : Nat) (hg : 1 < gamma) {vg n W : Fin d → ℝ} {rho p : ℝ} {v v' : Fin d → ℝ} {UL UR : St ℝ d}
    (h : Pair gamma vg n W rho p v v' UL UR) (A : Avg d) (l : Lam) (hl : l.l0 = l.l4) (ha : 0 < A.asqr) (hA : A.velo ⬝ᵥ n = vg ⬝ᵥ n) (hW : W ⬝ᵥ n = vg ⬝ᵥ n)
    (hAW : (v' - v) ⬝ᵥ A.velo = (v' - v) ⬝ᵥ W) :
    Tight W (roeCombine scheme gamma UL UR vg n A (A.velo ⬝ᵥ n) l) ∧
    ((∃ c : ℝ, v' - v = c • n) → n ⬝ᵥ n = 1 → ∃ P : ℝ, (roeCombine scheme gamma UL UR vg n A (A.velo ⬝ᵥ n) l).2.1 = P • n) := by
  have hfl := physFlux_gas h.left h.pos.ne' hg vg n
  have hfr := physFlux_gas h.right h.pos.ne' hg vg n
  have hn := h.normal
  have hmid := h.mid
  obtain ⟨u, hu⟩ : ∃ u, (v - vg) ⬝ᵥ n = u := ⟨_, rfl⟩
  obtain ⟨hinc, hvn, hw⟩ := waves_wall h A ha hAW hu
  rw [hn, hu] at hfr
  rw [hu] at hfl
  have a0 : √A.asqr ≠ 0 := (Real.sqrt_pos.2 ha).ne'
  have hWn : n ⬝ᵥ W = vg ⬝ᵥ n := by rw [dotProduct_comm, hW]
  have hAn : n ⬝ᵥ A.velo = vg ⬝ᵥ n := by rw [dotProduct_comm, hA]
  have hvW : v' ⬝ᵥ W = (v' - v) ⬝ᵥ W + v ⬝ᵥ W := by rw [sub_dotProduct]; ring
  have hv1 : v ⬝ᵥ n = u + vg ⬝ᵥ n := by rw [← hu, sub_dotProduct]; ring
  have hv2 : v' ⬝ᵥ n = -u + vg ⬝ᵥ n := by
    have := hvn
    rw [sub_dotProduct, hv1] at this
    linarith
  have hsq : v' ⬝ᵥ v' - v ⬝ᵥ v = 2 * ((v' - v) ⬝ᵥ W) := by
    rw [← hmid]; simp only [sub_dotProduct, dotProduct_add, dotProduct_comm v v']; ring
  have hsub : (v' - v) ⬝ᵥ W = v' ⬝ᵥ W - v ⬝ᵥ W := sub_dotProduct _ _ _
  unfold roeCombine
  by_cases h2 : scheme = 2
  · simp only [if_pos h2, hfl, hfr, hinc]
    refine ⟨⟨?_, ?_⟩, ?_⟩
    · simp only [Prod.fst_sub, Prod.smul_fst, Prod.fst_add, smul_eq_mul]; ring
    · simp only [Prod.snd_sub, Prod.smul_snd, Prod.snd_add, Prod.fst_sub, Prod.smul_fst, Prod.fst_add, smul_eq_mul, sub_dotProduct, dotProduct_sub, dotProduct_add,
        dotProduct_smul, dotProduct_comm W v, dotProduct_comm W v', hW, hv1, hv2]
      linear_combination (-(1 / 4) * u * rho) * hsq + (-(1 / 2) * u * rho) * hsub
    · rintro ⟨c, hc⟩ -
      have hv' : v' = v + c • n := by rw [← hc]; abel
      refine ⟨p + (-(1 / 2) * u * rho * c) - 1 / 2 * l.l0 * rho * c, ?_⟩
      simp only [Prod.snd_sub, Prod.smul_snd, Prod.snd_add, Prod.fst_sub, Prod.smul_fst, Prod.fst_add, hc]
      rw [hv']
      module
  · simp only [if_neg h2, hfl, hfr, hw, waveSum, ← hl]
    refine ⟨⟨?_, ?_⟩, ?_⟩
    · simp only [Prod.fst_sub, Prod.smul_fst, Prod.fst_add, smul_eq_mul]; ring
    · have hAW' : v' ⬝ᵥ A.velo - v ⬝ᵥ A.velo = v' ⬝ᵥ W - v ⬝ᵥ W := by simpa only [sub_dotProduct] using hAW
      simp only [Prod.snd_sub, Prod.smul_snd, Prod.snd_add, Prod.fst_sub, Prod.smul_fst, Prod.fst_add, smul_eq_mul, sub_dotProduct, add_dotProduct, smul_dotProduct,
        dotProduct_sub, dotProduct_add, dotProduct_smul, dotProduct_comm W v, dotProduct_comm W v', hW, hv1, hv2, hAn, hA, zero_mul]
      field_simp
      linear_combination (-(u * rho * √A.asqr)) * hsq - (2 * u * rho * √A.asqr) * hsub - (2 * rho * √A.asqr * l.l123) * hAW'
    · rintro ⟨c, hc⟩ hnn
      have hcu : c = -2 * u := by
        rw [hc, smul_dotProduct, hnn, smul_eq_mul, mul_one] at hvn
        exact hvn
      have hv' : v' = v + c • n := by rw [← hc]; abel
      refine ⟨p + (-(1 / 2) * u * rho * c) + rho * u * l.l0, ?_⟩
      simp only [Prod.snd_sub, Prod.smul_snd, Prod.snd_add, Prod.fst_sub, Prod.smul_fst, Prod.fst_add, hc, hcu]
      rw [hv', hcu]
      have e : rho * u / √A.asqr * l.l0 * √A.asqr = rho * u * l.l0 := by field_simp
      have e2 : (rho * u / √A.asqr * l.l0) • (A.velo - √A.asqr • n) + (-(rho * u / √A.asqr) * l.l0) • (A.velo + √A.asqr • n) = (-2 * (rho * u * l.l0)) • n := by
        rw [← e]; module
      rw [e2]
      module

theorem pair_of {slip : Bool} {vg n W v v' : Fin d → ℝ} (h : Mirrors slip vg n W v v') (hn : n ⬝ᵥ n = 1) (hW : W ⬝ᵥ n = vg ⬝ᵥ n) :
    (v' - vg) ⬝ᵥ n = -((v - vg) ⬝ᵥ n) ∧ (v' - v) ⬝ᵥ (v' + v) = 2 * ((v' - v) ⬝ᵥ W) := by
  unfold Mirrors at h
  cases slip with
  | true =>
    rw [if_pos rfl] at h
    subst h
    have hWn : n ⬝ᵥ W = vg ⬝ᵥ n := by rw [dotProduct_comm, hW]
    simp only [sub_dotProduct, dotProduct_sub, dotProduct_add, smul_dotProduct, dotProduct_smul, smul_eq_mul, hn, hWn, dotProduct_comm n v]
    constructor <;> ring
  | false =>
    rw [if_neg (by simp)] at h
    subst h
    simp only [sub_dotProduct, dotProduct_sub, dotProduct_add, smul_dotProduct, dotProduct_smul, smul_eq_mul, hW, dotProduct_comm v W]
    constructor <;> ring

theorem avg_wall (hg : 1 < gamma) {slip : Bool} {vg n W v v' vm vm' : Fin d → ℝ} {rho p : ℝ} {UL UR : St ℝ d} (h : Mirrors slip vg n W v v')
    (hm : Mirrors slip vg n W vm vm') (hn : n ⬝ᵥ n = 1) (hW : W ⬝ᵥ n = vg ⬝ᵥ n) (hP : Pair gamma vg n W rho p vm vm' UL UR) :
    (roeAverage gamma UL UR).velo ⬝ᵥ n = vg ⬝ᵥ n ∧ (v' - v) ⬝ᵥ (roeAverage gamma UL UR).velo = (v' - v) ⬝ᵥ W := by
  rw [avg_velo hg hP]
  unfold Mirrors at h hm
  cases slip with
  | true =>
    rw [if_pos rfl] at h hm
    subst h
    have hWn : n ⬝ᵥ W = vg ⬝ᵥ n := by rw [dotProduct_comm, hW]
    subst hm
    simp only [sub_dotProduct, dotProduct_sub, dotProduct_add, add_dotProduct, smul_dotProduct, dotProduct_smul, smul_eq_mul, hn, hWn, dotProduct_comm n vm]
    constructor <;> ring
  | false =>
    rw [if_neg (by simp)] at h hm
    have : (1 / 2 : ℝ) • (vm + vm') = W := by rw [hm]; module
    rw [this]
    exact ⟨hW, rfl⟩

/-- **C95** (Roe solvers)  At a wall, with the states on both sides mirror images, all six variants of the Roe solver give a flux: no
mass, and of energy exactly the work of the force on the wall.  The force of a slip wall is normal to it. -/
theorem roe_wall (scheme : Nat) (hs : scheme ≤ 5) (hg : 1 < gamma) {slip : Bool} {vg n W : Fin d → ℝ} {UL UR ULm URm : St ℝ d}
    (h : AtWall gamma slip vg n W UL UR ULm URm) (dLambda : ℝ) :
    ∃ F l, roeFlux scheme gamma UL UR ULm URm vg n dLambda = .ok (F, l) ∧ Tight W F ∧ (slip = true → ∃ P : ℝ, F.2.1 = P • n) := by
  obtain ⟨rho, p, v, v', h1, h2, h3, h4, h5⟩ := h.state
  obtain ⟨rhom, pm, vm, vm', m1, m2, m3, m4, m5⟩ := h.mean
  obtain ⟨q1, q2⟩ := pair_of h5 h.unit h.wall
  obtain ⟨qm1, qm2⟩ := pair_of m5 h.unit h.wall
  have hP : Pair gamma vg n W rho p v v' UL UR := ⟨h1, h2, h3, h4, q1, q2⟩
  have hPm : Pair gamma vg n W rhom pm vm vm' ULm URm := ⟨m1, m2, m3, m4, qm1, qm2⟩
  have hpos := roe_asqr_pos hg (physical_of_gas m3 m1 m2 hg) (physical_of_gas m4 m1 m2 hg)
  obtain ⟨w1, w2⟩ := avg_wall hg h5 m5 h.unit h.wall hPm
  have hsp := speeds_wall roeLam (fun s sp u a uL uR aL aR dL h1 h2 h3 => roeLam_mirror s h1 h2 h3) scheme hg hPm dLambda
  obtain ⟨c1, c2⟩ := combine_wall scheme hg hP (roeAverage gamma ULm URm) (roeSpeeds roeLam scheme gamma ULm URm vg n dLambda) hsp hpos w1 h.wall w2
  refine ⟨_, roeSpeeds roeLam scheme gamma ULm URm vg n dLambda, ?_, c1, fun hsl => c2 ?_ h.unit⟩
  · have e1 : 0 < UL.c0 := by rw [show UL.c0 = rho from h3.mass]; exact h1
    have e2 : 0 < UR.c0 := by rw [show UR.c0 = rho from h4.mass]; exact h1
    rw [roeFlux, if_neg (not_not.2 ⟨e1, e2⟩), if_neg (not_not.2 hpos), if_neg (by omega)]
  · rw [hsl, Mirrors, if_pos rfl] at h5
    exact ⟨-(2 * ((v - vg) ⬝ᵥ n)), by rw [h5, neg_smul]; abel⟩

theorem roeLamBatch_mirror (scheme : Nat) {speed u a uL uR aL aR dLambda : ℝ} (ha : 0 ≤ a) (hL : 0 ≤ aL) (hR : 0 ≤ aR) :
    roeLamBatch scheme speed (-u) a (-uR) (-uL) aR aL dLambda = (roeLamBatch scheme speed u a uL uR aL aR dLambda).swap := by
  unfold roeLamBatch
  by_cases h1 : scheme = 1
  · simp only [if_pos h1, Lam.swap, abs_neg_sub_add, abs_neg_add_sub, abs_neg]
    rw [max_comm, max_comm |uR|, max_comm (|uR - aR|)]
  · rw [if_neg h1, if_neg h1, roeLam_mirror scheme ha hL hR]

/-- **C95** (Roe solver for all points of a face)  The same when the fluxes of all points of a face are computed at once, for a flat
face of which all points move alike. -/
theorem batch_wall (scheme : Nat) (hs : scheme ≤ 5) (hg : 1 < gamma) {slip : Bool} {vg n W : Fin d → ℝ} {pts : List (Pt d)} {ULm URm : St ℝ d} (hne : pts ≠ [])
    (h : ∀ q ∈ pts, q.vg = vg ∧ q.n = n ∧ AtWall gamma slip vg n W q.UL q.UR ULm URm) (dLambda : ℝ) :
    ∃ Fs l, roeFluxBatch scheme gamma pts ULm URm vg n dLambda = .ok (Fs, l) ∧ Fs.length = pts.length ∧
      ∀ F ∈ Fs, Tight W F ∧ (slip = true → ∃ P : ℝ, F.2.1 = P • n) := by
  obtain ⟨q0, hq0⟩ := List.exists_mem_of_ne_nil pts hne
  obtain ⟨rhom, pm, vm, vm', m1, m2, m3, m4, m5⟩ := (h q0 hq0).2.2.mean
  have hn := (h q0 hq0).2.2.unit
  have hW := (h q0 hq0).2.2.wall
  obtain ⟨qm1, qm2⟩ := pair_of m5 hn hW
  have hPm : Pair gamma vg n W rhom pm vm vm' ULm URm := ⟨m1, m2, m3, m4, qm1, qm2⟩
  have hpos := roe_asqr_pos hg (physical_of_gas m3 m1 m2 hg) (physical_of_gas m4 m1 m2 hg)
  have hsp := speeds_wall roeLamBatch (fun s sp u a uL uR aL aR dL h1 h2 h3 => roeLamBatch_mirror s h1 h2 h3) scheme hg hPm dLambda
  refine ⟨pts.map fun q => roeCombine scheme gamma q.UL q.UR q.vg q.n (roeAverage gamma ULm URm)
      ((roeAverage gamma ULm URm).velo ⬝ᵥ n) (roeSpeeds roeLamBatch scheme gamma ULm URm vg n dLambda),
    roeSpeeds roeLamBatch scheme gamma ULm URm vg n dLambda, ?_, ?_⟩
  · rw [roeFluxBatch, if_neg (not_not.2 ?_), if_neg (not_not.2 hpos), if_neg (by omega)]
    intro q hq
    obtain ⟨-, -, hA⟩ := h q hq
    obtain ⟨rho, p, v, v', h1, h2, h3, h4, h5⟩ := hA.state
    exact ⟨by rw [show q.UL.c0 = rho from h3.mass]; exact h1, by rw [show q.UR.c0 = rho from h4.mass]; exact h1⟩
  · refine ⟨List.length_map _, fun F hF => ?_⟩
    obtain ⟨q, hq, rfl⟩ := List.mem_map.1 hF
    obtain ⟨e1, e2, hA⟩ := h q hq
    obtain ⟨rho, p, v, v', h1, h2, h3, h4, h5⟩ := hA.state
    obtain ⟨q1, q2⟩ := pair_of h5 hn hW
    obtain ⟨w1, w2⟩ := avg_wall hg h5 m5 hn hW hPm
    rw [e1, e2]
    obtain ⟨c1, c2⟩ := combine_wall scheme hg ⟨h1, h2, h3, h4, q1, q2⟩ (roeAverage gamma ULm URm) _ hsp hpos w1 hW w2
    refine ⟨c1, fun hsl => c2 ?_ hn⟩
    rw [hsl, Mirrors, if_pos rfl] at h5
    exact ⟨-(2 * ((v - vg) ⬝ᵥ n)), by rw [h5, neg_smul]; abel⟩

/-- **C95** (HLLC, impact slower than sound)  No mass goes through the wall, its force is normal to it, and no energy goes through if the
face does not move towards its normal.  Missing: faster impacts (`hllc_wall_leaks`) and faces that move (`hllc_moving_mesh_wrong`: the
energy flux of HLLC is wrong there). -/
theorem hllc_wall_partial (hg : 1 < gamma) {slip : Bool} {vg n W : Fin d → ℝ} {UL UR ULm URm : St ℝ d} (h : AtWall gamma slip vg n W UL UR ULm URm)
    (hsub : ((side gamma ULm).velo - vg) ⬝ᵥ n + verySmall ≤ √(side gamma ULm).asqr) (hden : verySmall < 2 * UL.1 * √(side gamma ULm).asqr) :
    ∃ F l, hllcFlux gamma UL UR ULm URm vg n = .ok (F, l) ∧ F.1 = 0 ∧ (∃ P : ℝ, F.2.1 = P • n) ∧ (vg ⬝ᵥ n = 0 → Tight W F) := by
  obtain ⟨rho, p, v, v', h1, h2, h3, h4, h5⟩ := h.state
  obtain ⟨rhom, pm, vm, vm', m1, m2, m3, m4, m5⟩ := h.mean
  obtain ⟨q1, q2⟩ := pair_of h5 h.unit h.wall
  obtain ⟨qm1, qm2⟩ := pair_of m5 h.unit h.wall
  have hpos := roe_asqr_pos hg (physical_of_gas m3 m1 m2 hg) (physical_of_gas m4 m1 m2 hg)
  obtain ⟨l1, l2, l3, -⟩ := side_of_gas h3 h1.ne' hg
  obtain ⟨r1, r2, r3, -⟩ := side_of_gas h4 h1.ne' hg
  obtain ⟨lm1, lm2, lm3, -⟩ := side_of_gas m3 m1.ne' hg
  obtain ⟨rm1, rm2, rm3, -⟩ := side_of_gas m4 m1.ne' hg
  have e1 : UL.c0 = rho := h3.mass
  have e2 : UR.c0 = rho := h4.mass
  rw [lm1, lm3] at hsub
  rw [lm3, show UL.1 = rho from e1] at hden
  unfold hllcFlux
  rw [if_neg (not_not.2 ⟨by rw [e1]; exact h1, by rw [e2]; exact h1⟩), if_neg (not_not.2 hpos)]
  refine ⟨_, _, rfl, ?_⟩
  have ha : 0 < √(gamma * pm / rhom) := Real.sqrt_pos.2 (div_pos (mul_pos (by linarith) m2) m1)
  obtain ⟨a, had⟩ : ∃ a, √(gamma * pm / rhom) = a := ⟨_, rfl⟩
  obtain ⟨u, hu⟩ : ∃ u, (vm - vg) ⬝ᵥ n = u := ⟨_, rfl⟩
  obtain ⟨ul, hul⟩ : ∃ u, (v - vg) ⬝ᵥ n = u := ⟨_, rfl⟩
  rw [had] at ha hsub hden
  rw [hu] at hsub qm1
  rw [hul] at q1
  obtain ⟨q, hq, hsp⟩ : ∃ q, 1 ≤ q ∧ hllcSpeeds gamma ULm URm vg n = (u - a * q, -u + a * q) := by
    refine ⟨hllcQ gamma pm (max 0 (1 / 2 * (pm + pm) - 1 / 2 * (u - -u) * (roeAverage gamma ULm URm).rho * √(roeAverage gamma ULm URm).asqr)), ?_, ?_⟩
    · unfold hllcQ
      split
      · exact le_refl _
      · rename_i hlt
        rw [Real.one_le_sqrt]
        have : 1 ≤ max 0 (1 / 2 * (pm + pm) - 1 / 2 * (u - -u) * (roeAverage gamma ULm URm).rho * √(roeAverage gamma ULm URm).asqr) / pm := by
          rw [one_le_div m2]; exact (not_le.1 hlt).le
        have h0 : 0 ≤ (gamma + 1) / 2 / gamma := by positivity
        nlinarith
    · simp only [hllcSpeeds, lm1, lm2, lm3, rm1, rm2, rm3, qm1, hu, had]
  simp only [hsp, lm1, rm1, qm1, hu]
  have hSL : u - a * q ≤ -verySmall := by nlinarith
  have hvs := verySmall_pos
  have hmL : UL.cv ⬝ᵥ n - (vg ⬝ᵥ n) * rho = rho * ul := by
    rw [show UL.cv = rho • v from gas_mom h3, ← hul, smul_dotProduct, sub_dotProduct, smul_eq_mul]; ring
  have hmR : UR.cv ⬝ᵥ n - (vg ⬝ᵥ n) * rho = rho * -ul := by
    rw [show UR.cv = rho • v' from gas_mom h4, ← q1, smul_dotProduct, sub_dotProduct, smul_eq_mul]; ring
  have hSS : hllcContact gamma UL UR vg n (u - a * q) (-u + a * q) u (-u) = 0 := by
    unfold hllcContact
    simp only [e1, e2, hmL, hmR, l2, r2]
    split
    · rw [div_eq_zero_iff]; left; ring
    · rfl
  have hsel : hllcSelect gamma UL UR vg n (u - a * q) (-u + a * q) u (-u) = hllcBehind gamma UL vg n (u - a * q) 0 u := by
    unfold hllcSelect
    rw [if_neg (by linarith), if_neg (by linarith)]
    simp only [hSS]
    rw [if_pos (le_refl _)]
  rw [hsel]
  have hb : hllcBehind gamma UL vg n (u - a * q) 0 u = (0, (p + rho * (u - a * q - u) * (0 - u)) • n, 0) := by
    unfold hllcBehind
    simp only [sub_zero]
    rw [if_neg (by rw [not_lt, abs_of_neg (by linarith)]; linarith), zero_smul, zero_add, smul_smul, l2, e1]
    have hne : u - a * q ≠ 0 := by linarith
    rw [mul_comm _ (u - a * q), ← mul_assoc, inv_mul_cancel₀ hne, one_mul]
    refine Prod.ext ?_ (Prod.ext ?_ ?_)
    · show _ * (0 : ℝ) = 0; ring
    · rfl
    · show _ * (0 : ℝ) = 0; ring
  rw [hb]
  refine ⟨rfl, ⟨_, rfl⟩, fun h0 => ⟨rfl, ?_⟩⟩
  show (0 : ℝ) = W ⬝ᵥ _
  rw [dotProduct_smul, h.wall, h0, smul_zero]

/-! ### together with the boundary values -/

theorem kept (E : Env d m) (V : Fin d → ℝ) : (if E.absVelo = true then V else V - E.frame) - E.vGrid = V - E.frame := by
  unfold Env.vGrid Env.frame
  cases E.absVelo <;> cases E.rotating <;> simp

theorem mirror_boundary {E : Env d m} {z : Zone d m} (hk : z.kind = .wall ∨ z.kind = .wallInvis ∨ z.kind = .sym) (hg : 1 < E.gamma) {L M : Local d m} {UL UM : Vars d m}
    (hL : E.Has UL L) (hLo : L.Ok) (hM : E.Has UM M) (hMo : M.Ok) (fixUL : Bool) {n : Fin d → ℝ} (hn : n ⬝ᵥ n = 1) :
    ∃ UR UL' v v', boundary E z fixUL n UL UM = .ok (UR, UL') ∧ (fixUL = false → UL' = UL) ∧ IsGas E.gamma L.rho L.p v UL'.1 ∧ IsGas E.gamma L.rho L.p v' UR.1 ∧
      Mirrors (z.kind ≠ .wall) E.vGrid n (wallVelo E z) v v' := by
  by_cases hw : z.kind = .wall
  · obtain ⟨UR, UL', h1, h2, -, h3, h4, -⟩ := noSlip_state hw hg hL hLo.rho.ne' hM hMo.rho.ne' fixUL n
    refine ⟨UR, UL', _, _, h1, fun hf => h4 (by simp [hf]), by rw [h3]; exact hL.gas, h2.gas, ?_⟩
    rw [Mirrors, if_neg (by simp [hw])]
    have e := kept E L.V
    have e0 : ∀ x : Fin d → ℝ, (if E.absVelo = true then x else x - E.frame) = x - E.frame + E.vGrid := fun x => sub_eq_iff_eq_add.1 (kept E x)
    rw [e0, e0, wallVelo]
    by_cases hf : z.frameOpt = 0
    · simp only [hf, ne_eq, not_true_eq_false, and_false, if_false, if_true]; module
    · simp only [hf, hw, ne_eq, not_false_eq_true, and_self, if_true, if_false]; module
  · obtain ⟨UR, h1, h2⟩ := slip_state (hk.resolve_left hw) hL hLo.rho.ne' fixUL hn UM
    refine ⟨UR, UL, _, _, h1, fun _ => rfl, hL.gas, h2.gas, ?_⟩
    rw [Mirrors, if_pos (by simp [hw]), kept E L.V]
    cases E.absVelo
    · simp only [Bool.false_eq_true, if_false]; abel
    · simp

/-- **C95** (walls)  Gas of positive density and pressure at a face of a no-slip, a slip or a symmetry zone: the outer states that the
program makes, at a point and of the means, give a Roe flux that carries no mass through the face, and of energy only the work of the
force on the wall.  A no-slip wall at rest in the inertial frame (`frameOpt`) must not have the rotating mesh move through it.
Missing: the other solvers, of which HLLC and HLLEP let gas through (`hllc_wall_leaks`, `hllep_wall_leaks`). -/
theorem wall_tight_partial {E : Env d m} {z : Zone d m} (hk : z.kind = .wall ∨ z.kind = .wallInvis ∨ z.kind = .sym) (hg : 1 < E.gamma) {L M : Local d m} {UL UM : Vars d m}
    (hL : E.Has UL L) (hLo : L.Ok) (hM : E.Has UM M) (hMo : M.Ok) (fixUL : Bool) {n : Fin d → ℝ} (hn : n ⬝ᵥ n = 1)
    (hz : z.kind = .wall → z.frameOpt ≠ 0 → E.frame ⬝ᵥ n = 0) (scheme : Nat) (hs : scheme ≤ 5) (dLambda : ℝ) :
    ∃ UR UL' URm F l, boundary E z fixUL n UL UM = .ok (UR, UL') ∧ boundary E z false n UM UM = .ok (URm, UM) ∧
      roeFlux scheme E.gamma UL'.1 UR.1 UM.1 URm.1 E.vGrid n dLambda = .ok (F, l) ∧ Tight (wallVelo E z) F := by
  obtain ⟨UR, UL', v, v', a1, -, a3, a4, a5⟩ := mirror_boundary hk hg hL hLo hM hMo fixUL hn
  obtain ⟨URm, UM', vm, vm', b1, b2, b3, b4, b5⟩ := mirror_boundary hk hg hM hMo hM hMo false hn
  rw [b2 rfl] at b1 b3
  have hW : wallVelo E z ⬝ᵥ n = E.vGrid ⬝ᵥ n := by
    unfold wallVelo
    split
    · rename_i h
      rw [sub_dotProduct, hz h.1 h.2, sub_zero]
    · rfl
  obtain ⟨F, l, c1, c2, -⟩ := roe_wall scheme hs hg (slip := z.kind ≠ .wall)
    ⟨hn, hW, ⟨_, _, v, v', hLo.rho, hLo.p, a3, a4, a5⟩, ⟨_, _, vm, vm', hMo.rho, hMo.p, b3, b4, b5⟩⟩ dLambda
  exact ⟨UR, UL', URm, F, l, a1, b1, c1, c2⟩

example : ∃ UL UM, air.Has UL gasIn ∧ air.Has UM gasFar ∧ ∀ scheme ≤ 5, ∃ UR UL' URm F l, boundary air (zoneOf .wall) true ![1, 0] UL UM = .ok (UR, UL') ∧
    boundary air (zoneOf .wall) false ![1, 0] UM UM = .ok (URm, UM) ∧
    roeFlux scheme (7 / 5) UL'.1 UR.1 UM.1 URm.1 ![0, 1] ![1, 0] 0 = .ok (F, l) ∧ F.1 = 0 := by
  obtain ⟨UL, hUL⟩ := exists_has (E := air) gasIn
  obtain ⟨UM, hUM⟩ := exists_has (E := air) gasFar
  refine ⟨UL, UM, hUL, hUM, fun scheme hs => ?_⟩
  obtain ⟨UR, UL', URm, F, l, h1, h2, h3, h4⟩ := wall_tight_partial (E := air) (z := zoneOf .wall) (.inl rfl) (by norm_num [air]) hUL gasIn_ok hUM gasFar_ok true
    (n := ![1, 0]) (by simp [dotProduct, Fin.sum_univ_two]) (fun _ h => absurd rfl h) scheme hs 0
  refine ⟨UR, UL', URm, F, l, h1, h2, ?_, h4.mass⟩
  simpa [Env.vGrid, air] using h3

/-! ### solvers that let mass through -/

section Sample

/-- air of density 7/5 and pressure 1, whose speed of sound is 1, with velocity `(x, 0)` -/
noncomputable def jet (x : ℝ) : St ℝ 2 := (7 / 5, (7 / 5 : ℝ) • ![x, 0], energy (7 / 5) (7 / 5) 1 ![x, 0])

theorem jet_gas (x : ℝ) : IsGas (7 / 5) (7 / 5) 1 ![x, 0] (jet x) := ⟨rfl, fun _ => rfl, rfl⟩

theorem jet_wall (slip : Bool) (x : ℝ) : AtWall (7 / 5) slip 0 ![1, 0] 0 (jet x) (jet (-x)) (jet x) (jet (-x)) := by
  have hm : Mirrors slip (0 : Fin 2 → ℝ) ![1, 0] 0 ![x, 0] ![-x, 0] := by
    unfold Mirrors
    split
    · funext i
      fin_cases i <;> simp [dotProduct, Fin.sum_univ_two]
      ring
    · funext i
      fin_cases i <;> simp
  exact ⟨by simp [dotProduct, Fin.sum_univ_two], rfl, ⟨_, _, _, _, by norm_num, one_pos, jet_gas x, jet_gas (-x), hm⟩,
    ⟨_, _, _, _, by norm_num, one_pos, jet_gas x, jet_gas (-x), hm⟩⟩

theorem jet_side (x : ℝ) : (side (7 / 5) (jet x)).velo = ![x, 0] ∧ (side (7 / 5) (jet x)).p = 1 ∧ (side (7 / 5) (jet x)).asqr = 1 := by
  obtain ⟨h1, h2, h3, -⟩ := side_of_gas (jet_gas x) (by norm_num) (by norm_num)
  exact ⟨h1, h2, h3.trans (by norm_num)⟩

theorem jet_pair (x : ℝ) : Pair (7 / 5) 0 ![1, 0] 0 (7 / 5) 1 ![x, 0] ![-x, 0] (jet x) (jet (-x)) := by
  refine ⟨by norm_num, one_pos, jet_gas x, jet_gas (-x), ?_, ?_⟩ <;> simp [dotProduct, Fin.sum_univ_two]

theorem jet_avg (x : ℝ) : (roeAverage (7 / 5) (jet x) (jet (-x))).velo = 0 ∧ 1 ≤ (roeAverage (7 / 5) (jet x) (jet (-x))).asqr := by
  have hv : (roeAverage (7 / 5) (jet x) (jet (-x))).velo = 0 := by
    rw [avg_velo (by norm_num) (jet_pair x)]
    funext i
    fin_cases i <;> simp
  refine ⟨hv, ?_⟩
  have h1 := (side_of_gas (jet_gas x) (by norm_num) (by norm_num : (1 : ℝ) < 7 / 5)).2.2.2
  have h2 := (side_of_gas (jet_gas (-x)) (by norm_num) (by norm_num : (1 : ℝ) < 7 / 5)).2.2.2
  have e : (roeAverage (7 / 5) (jet x) (jet (-x))).asqr = (7 / 5 - 1) * ((√(7 / 5) * (side (7 / 5) (jet x)).H + √(7 / 5) * (side (7 / 5) (jet (-x))).H) /
    (√(7 / 5) + √(7 / 5)) - 1 / 2 * ((roeAverage (7 / 5) (jet x) (jet (-x))).velo ⬝ᵥ (roeAverage (7 / 5) (jet x) (jet (-x))).velo)) := rfl
  rw [e, hv, h1, h2]
  have hs : (0 : ℝ) < √(7 / 5) := by positivity
  simp only [dotProduct, Fin.sum_univ_two, Matrix.cons_val_zero, Matrix.cons_val_one, Pi.zero_apply]
  have : (√(7 / 5) * (7 / 5 / (7 / 5 - 1) * (1 / (7 / 5)) + (x * x + 0 * 0) / 2) + √(7 / 5) * (7 / 5 / (7 / 5 - 1) * (1 / (7 / 5)) + (-x * -x + 0 * 0) / 2)) /
      (√(7 / 5) + √(7 / 5)) = 5 / 2 + x * x / 2 := by
    field_simp
    ring
  rw [this]
  nlinarith [mul_self_nonneg x]

/-- **C95 is false for HLLC** when the gas hits the wall faster than sound: air of Mach number 2 goes through. -/
theorem hllc_wall_leaks : ∃ F l, AtWall (7 / 5) true 0 ![1, 0] 0 (jet 2) (jet (-2)) (jet 2) (jet (-2)) ∧
    hllcFlux (7 / 5) (jet 2) (jet (-2)) (jet 2) (jet (-2)) 0 ![1, 0] = .ok (F, l) ∧ F.1 = 14 / 5 := by
  obtain ⟨a1, a2, a3⟩ := jet_side 2
  obtain ⟨b1, b2, b3⟩ := jet_side (-2)
  have hpos : 0 < (roeAverage (7 / 5) (jet 2) (jet (-2))).asqr := lt_of_lt_of_le one_pos (jet_avg 2).2
  unfold hllcFlux
  have e : 0 < (jet 2).c0 ∧ 0 < (jet (-2)).c0 := by constructor <;> norm_num [jet, St.c0]
  rw [if_neg (not_not.2 e), if_neg (not_not.2 hpos)]
  refine ⟨_, _, jet_wall true 2, rfl, ?_⟩
  have hSL : (hllcSpeeds (7 / 5) (jet 2) (jet (-2)) 0 ![1, 0]).1 = 1 := by
    simp only [hllcSpeeds, a1, a2, a3, b1, b2, sub_zero, Real.sqrt_one]
    have hr : 0 ≤ (roeAverage (7 / 5) (jet 2) (jet (-2))).rho * √(roeAverage (7 / 5) (jet 2) (jet (-2))).asqr :=
      mul_nonneg (mul_nonneg (Real.sqrt_nonneg _) (Real.sqrt_nonneg _)) (Real.sqrt_nonneg _)
    rw [hllcQ, if_pos]
    · simp [dotProduct, Fin.sum_univ_two]; norm_num
    · refine max_le zero_le_one ?_
      simp only [dotProduct, Fin.sum_univ_two, Matrix.cons_val_zero, Matrix.cons_val_one]
      nlinarith
  rw [hSL, hllcSelect, if_pos zero_le_one, physFlux_gas (jet_gas 2) (by norm_num) (by norm_num)]
  simp [dotProduct, Fin.sum_univ_two]
  norm_num

/-- **C95 is false for HLLEP**, both variants: air that moves towards the wall with half the speed of sound goes through. -/
theorem hllep_wall_leaks (v1 : Bool) : ∃ F l, AtWall (7 / 5) true 0 ![1, 0] 0 (jet (1 / 2)) (jet (-(1 / 2))) (jet (1 / 2)) (jet (-(1 / 2))) ∧
    hllepFlux v1 (7 / 5) (jet (1 / 2)) (jet (-(1 / 2))) (jet (1 / 2)) (jet (-(1 / 2))) 0 ![1, 0] = .ok (F, l) ∧ 0 < F.1 := by
  obtain ⟨a1, a2, a3⟩ := jet_side (1 / 2)
  obtain ⟨b1, b2, b3⟩ := jet_side (-(1 / 2))
  obtain ⟨hv, hone⟩ := jet_avg (1 / 2)
  have hpos : 0 < (roeAverage (7 / 5) (jet (1 / 2)) (jet (-(1 / 2)))).asqr := lt_of_lt_of_le one_pos hone
  have hfl := physFlux_gas (jet_gas (1 / 2)) (by norm_num) (by norm_num) 0 ![1, 0]
  have hfr := physFlux_gas (jet_gas (-(1 / 2))) (by norm_num) (by norm_num) 0 ![1, 0]
  obtain ⟨hinc, -, hw⟩ := waves_wall (jet_pair (1 / 2)) (roeAverage (7 / 5) (jet (1 / 2)) (jet (-(1 / 2)))) hpos (by rw [hv]) (u := 1 / 2)
    (by simp [dotProduct, Fin.sum_univ_two])
  have ha1 : 1 ≤ √(roeAverage (7 / 5) (jet (1 / 2)) (jet (-(1 / 2)))).asqr := Real.one_le_sqrt.2 hone
  have e : 0 < (jet (1 / 2)).c0 ∧ 0 < (jet (-(1 / 2))).c0 := by constructor <;> norm_num [jet, St.c0]
  unfold hllepFlux
  rw [if_neg (not_not.2 e), if_neg (not_not.2 hpos)]
  refine ⟨(hllepCombine v1 (7 / 5) (jet (1 / 2)) (jet (-(1 / 2))) (jet (1 / 2)) (jet (-(1 / 2))) 0 ![1, 0]).1,
    (hllepCombine v1 (7 / 5) (jet (1 / 2)) (jet (-(1 / 2))) (jet (1 / 2)) (jet (-(1 / 2))) 0 ![1, 0]).2, jet_wall true (1 / 2), rfl, ?_⟩
  unfold hllepCombine
  simp only [hw]
  simp only [a1, a3, b1, b3, hv, hfl, hfr, hinc]
  generalize √(roeAverage (7 / 5) (jet (1 / 2)) (jet (-(1 / 2)))).asqr = a at *
  have d1 : (![1 / 2, 0] - (0 : Fin 2 → ℝ)) ⬝ᵥ ![1, 0] = 1 / 2 := by simp [dotProduct, Fin.sum_univ_two]
  have d2 : (![-(1 / 2), 0] - (0 : Fin 2 → ℝ)) ⬝ᵥ ![1, 0] = -(1 / 2) := by simp [dotProduct, Fin.sum_univ_two]
  have s1 : |(0 : ℝ) - 0 - a| = a := by rw [sub_zero, zero_sub, abs_neg, abs_of_pos (by linarith)]
  have s4 : |(0 : ℝ) - 0 + a| = a := by rw [sub_zero, zero_add, abs_of_pos (by linarith)]
  have m1 : min a (1 / 2 - 1) = -(1 / 2 : ℝ) := by rw [min_eq_right (by linarith)]; norm_num
  have m2 : max a (-(1 / 2) + 1) = a := max_eq_left (by linarith)
  have m3 : max a 0 = a := max_eq_left (by linarith)
  have m4 : min (-(1 / 2 : ℝ)) 0 = -(1 / 2) := min_eq_left (by norm_num)
  have sp : signP (a - -(1 / 2)) = 1 := by rw [signP, if_pos]; show (0 : ℝ) ≤ _; linarith
  have hvs := verySmall_pos
  simp only [zero_dotProduct, d1, d2, s1, s4, Real.sqrt_one, m1, m2, m3, m4, sp]
  cases v1 with
  | false =>
    rw [if_pos rfl]
    simp only [Prod.fst_add, Prod.smul_fst, Prod.fst_sub, smul_eq_mul, mul_zero, zero_mul, sub_zero, add_zero]
    refine mul_pos (inv_pos.2 (by linarith)) ?_
    nlinarith
  | true =>
    rw [if_neg (by simp)]
    simp only [Prod.fst_add, Prod.smul_fst, Prod.fst_sub, smul_eq_mul, waveSum, zero_mul, add_zero]
    have : 0 < a := by linarith
    have h2 : 0 < a + 1 / 2 := by linarith
    have h3 : a - -(1 / 2) = a + 1 / 2 := by ring
    have : (1 / 2 : ℝ) * (1 / 2 * (7 / 5) + -(1 / 2) * (7 / 5)) - 1 / 2 * (7 / 5 * (1 / 2) / a *
        (((a + -(1 / 2)) * (0 - 0 - a) - 2 * (1 - 0) * (a * -(1 / 2))) / (a - -(1 / 2))) + -(7 / 5 * (1 / 2) / a) *
        (((a + -(1 / 2)) * (0 - 0 + a) - 2 * (1 - 0) * (a * -(1 / 2))) / (a - -(1 / 2)))) = 7 / 10 * (a - 1 / 2) / (a + 1 / 2) := by
      rw [h3]
      field_simp
      ring
    rw [this]
    have : 0 < a - 1 / 2 := by linarith
    positivity

/-- non-vacuity of `roe_wall`, `batch_wall` and `hllc_wall_partial`: gas of half the speed of sound towards a slip and a no-slip wall -/
example (slip : Bool) (scheme : Nat) (hs : scheme ≤ 5) :
    (∃ F l, roeFlux scheme (7 / 5) (jet (1 / 2)) (jet (-(1 / 2))) (jet (1 / 2)) (jet (-(1 / 2))) 0 ![1, 0] 0 = .ok (F, l) ∧ F.1 = 0) ∧
    (∃ Fs l, roeFluxBatch scheme (7 / 5) [⟨jet (1 / 2), jet (-(1 / 2)), 0, ![1, 0]⟩] (jet (1 / 2)) (jet (-(1 / 2))) 0 ![1, 0] 0 = .ok (Fs, l) ∧
      Fs.length = 1 ∧ ∀ F ∈ Fs, F.1 = 0) ∧
    (∃ F l, hllcFlux (7 / 5) (jet (1 / 2)) (jet (-(1 / 2))) (jet (1 / 2)) (jet (-(1 / 2))) 0 ![1, 0] = .ok (F, l) ∧ F.1 = 0) := by
  have hg : (1 : ℝ) < 7 / 5 := by norm_num
  have hvs : verySmall < 1 / 2 := by norm_num [verySmall]
  refine ⟨?_, ?_, ?_⟩
  · obtain ⟨F, l, h1, h2, -⟩ := roe_wall scheme hs hg (jet_wall slip (1 / 2)) 0
    exact ⟨F, l, h1, h2.mass⟩
  · obtain ⟨Fs, l, h1, h2, h3⟩ := batch_wall scheme hs hg (slip := slip) (vg := 0) (n := ![1, 0]) (W := 0) (pts := [⟨jet (1 / 2), jet (-(1 / 2)), 0, ![1, 0]⟩])
      (ULm := jet (1 / 2)) (URm := jet (-(1 / 2))) (by simp) (fun q hq => by
        rw [List.mem_singleton] at hq; subst hq; exact ⟨rfl, rfl, jet_wall slip (1 / 2)⟩) 0
    exact ⟨Fs, l, h1, h2, fun F hF => (h3 F hF).1.mass⟩
  · obtain ⟨a1, a2, a3⟩ := jet_side (1 / 2)
    obtain ⟨F, l, h1, h2, -⟩ := hllc_wall_partial hg (jet_wall slip (1 / 2)) (by
      rw [a1, a3, Real.sqrt_one]
      simp only [dotProduct, Fin.sum_univ_two, sub_zero, Matrix.cons_val_zero, Matrix.cons_val_one]
      linarith) (by
      rw [a3, Real.sqrt_one]
      norm_num [jet]
      linarith)
    exact ⟨F, l, h1, h2⟩

end Sample

end DNDSR.BC
