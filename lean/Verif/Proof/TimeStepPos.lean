import Verif.Proof.TimeStep
import Verif.Spec.GasRatio
import Verif.Props.Roe
import Mathlib.Tactic.LinearCombination

/-! Helper lemmas for `Verif.Props.TimeStep`: states with positive density and pressure. -/

namespace DNDSR.Dt

open DNDSR.Gas (St St.c0 St.cv St.c4 side Physical primOf internal physFlux fluxXY)
open Matrix

variable {d : Nat} {gamma : ℝ}

theorem physical_iff (hg : 1 < gamma) (U : St ℝ d) : Physical gamma U ↔ 0 < U.1 ∧ 0 < internal U := by
  have : (primOf gamma U).2.2 = (gamma - 1) * internal U := rfl
  constructor
  · intro h
    refine ⟨h.rho, ?_⟩
    have := h.p
    rw [‹(primOf gamma U).2.2 = _›] at this
    exact (mul_pos_iff_of_pos_left (by linarith)).1 this
  · rintro ⟨h1, h2⟩
    exact ⟨h1, by rw [this]; exact mul_pos (by linarith) h2⟩

theorem titu {a b x y : ℝ} (hx : 0 < x) (hy : 0 < y) : (a + b) * (a + b) / (2 * (x + y)) ≤ a * a / (2 * x) + b * b / (2 * y) := by
  rw [div_add_div _ _ (by positivity) (by positivity), div_le_div_iff₀ (by positivity) (by positivity)]
  nlinarith [mul_nonneg (add_pos hx hy).le (sq_nonneg (a * y - b * x)), sq_nonneg (a * y - b * x), mul_pos hx hy]

theorem internal_add {U V : St ℝ d} (hU : 0 < U.1) (hV : 0 < V.1) : internal U + internal V ≤ internal (U + V) := by
  have : (∑ k, (U + V).2.1 k * (U + V).2.1 k) / (2 * (U + V).1) ≤ (∑ k, U.2.1 k * U.2.1 k) / (2 * U.1) + (∑ k, V.2.1 k * V.2.1 k) / (2 * V.1) := by
    rw [Finset.sum_div, Finset.sum_div, Finset.sum_div, ← Finset.sum_add_distrib]
    exact Finset.sum_le_sum fun k _ => titu hU hV
  have h2 : (U + V).2.2 = U.2.2 + V.2.2 := rfl
  simp only [internal]
  linarith

theorem internal_smul {t : ℝ} (ht : 0 < t) (U : St ℝ d) : internal (t • U) = t * internal U := by
  have : ∑ k, (t • U).2.1 k * (t • U).2.1 k = t * t * ∑ k, U.2.1 k * U.2.1 k := by
    rw [Finset.mul_sum]
    refine Finset.sum_congr rfl fun k _ => ?_
    show t * U.2.1 k * (t * U.2.1 k) = _
    ring
  have h1 : (t • U).1 = t * U.1 := rfl
  have h2 : (t • U).2.2 = t * U.2.2 := rfl
  rw [internal, this, h1, h2, internal]
  by_cases hr : U.1 = 0
  · simp [hr]
  · field_simp

theorem physical_add (hg : 1 < gamma) {U V : St ℝ d} (hU : Physical gamma U) (hV : Physical gamma V) : Physical gamma (U + V) := by
  rw [physical_iff hg] at *
  exact ⟨add_pos hU.1 hV.1, by have := internal_add hU.1 hV.1; linarith [hU.2, hV.2]⟩

theorem physical_smul (hg : 1 < gamma) {U : St ℝ d} (hU : Physical gamma U) {t : ℝ} (ht : 0 < t) : Physical gamma (t • U) := by
  rw [physical_iff hg] at *
  exact ⟨mul_pos ht hU.1, by rw [internal_smul ht]; exact mul_pos ht hU.2⟩

theorem physical_add_smul (hg : 1 < gamma) {U V : St ℝ d} (hU : Physical gamma U) (hV : Physical gamma V) {t : ℝ} (ht : 0 ≤ t) :
    Physical gamma (U + t • V) := by
  rcases ht.eq_or_lt with h | h
  · rw [← h, zero_smul, add_zero]; exact hU
  · exact physical_add hg hU (physical_smul hg hV h)

theorem physical_sum (hg : 1 < gamma) {U : St ℝ d} (hU : Physical gamma U) (w : Nat → St ℝ d) (t : Nat → ℝ) : ∀ n : Nat,
    (∀ j < n, Physical gamma (w j) ∧ 0 ≤ t j) → Physical gamma (U + ∑ j ∈ Finset.range n, t j • w j) := by
  intro n
  induction n with
  | zero => intro _; simpa using hU
  | succ n ih =>
      intro h
      rw [Finset.sum_range_succ, ← add_assoc]
      exact physical_add_smul hg (ih fun j hj => h j (by omega)) (h n (by omega)).1 (h n (by omega)).2

/-- a state minus what it sends through a face, at a speed that is not slower than its waves -/
theorem physical_sub (hg : 1 < gamma) {w : St ℝ d} (hw : Physical gamma w) {vg n : Fin d → ℝ} (hn : n ⬝ᵥ n = 1) {lam : ℝ}
    (hl : fastest gamma vg n w ≤ lam) : Physical gamma (lam • w - physFlux gamma w vg n) := by
  have hr := hw.rho
  have ha := sound_pos hg hw
  have ha2 : sound gamma w ^ 2 = gamma * (primOf gamma w).2.2 / w.1 := by
    rw [sound_sq hg hw, Gas.side_asqr, Gas.side_p hr.ne']
  have hp := hw.p
  have hpd : (primOf gamma w).2.2 = (gamma - 1) * internal w := rfl
  have hv : (side gamma w).velo = fun k => w.2.1 k / w.1 := Gas.side_velo w
  have hpp : (side gamma w).p = (primOf gamma w).2.2 := Gas.side_p hr.ne'
  set p := (primOf gamma w).2.2 with hpdef
  have hq : ((side gamma w).velo - vg) ⬝ᵥ n = through vg n w := by rw [sub_dotProduct, through_eq]
  set s := lam - through vg n w with hs
  have hsa : sound gamma w ≤ s := by
    have := le_abs_self (through vg n w)
    rw [fastest] at hl
    rw [hs]; linarith
  have hs0 : 0 < s := lt_of_lt_of_le ha hsa
  have e1 : (lam • w - physFlux gamma w vg n).1 = s * w.1 := by
    show lam * w.1 - ((side gamma w).velo - vg) ⬝ᵥ n * w.1 = _
    rw [hq, hs]; ring
  have e2 : ∀ k, (lam • w - physFlux gamma w vg n).2.1 k = s * w.2.1 k - p * n k := by
    intro k
    show lam * w.2.1 k - (((side gamma w).velo - vg) ⬝ᵥ n * w.2.1 k + (side gamma w).p * n k) = _
    rw [hq, hs, hpp]; ring
  have e4 : (lam • w - physFlux gamma w vg n).2.2 = s * w.2.2 - p * (∑ k, w.2.1 k * n k) / w.1 := by
    show lam * w.2.2 - (((side gamma w).velo - vg) ⬝ᵥ n * w.2.2 + (side gamma w).velo ⬝ᵥ n * (side gamma w).p) = _
    have : (side gamma w).velo ⬝ᵥ n = (∑ k, w.2.1 k * n k) / w.1 := by
      rw [hv, dotProduct, Finset.sum_div]
      exact Finset.sum_congr rfl fun k _ => by ring
    rw [hq, hs, hpp, this]; ring
  rw [physical_iff hg]
  refine ⟨by rw [e1]; positivity, ?_⟩
  have hn' : ∑ k, n k * n k = 1 := hn
  have e5 : ∑ k, (lam • w - physFlux gamma w vg n).2.1 k * (lam • w - physFlux gamma w vg n).2.1 k =
      s * s * (∑ k, w.2.1 k * w.2.1 k) - 2 * s * p * (∑ k, w.2.1 k * n k) + p * p := by
    simp only [e2]
    have : ∀ k, (s * w.2.1 k - p * n k) * (s * w.2.1 k - p * n k) = s * s * (w.2.1 k * w.2.1 k) - 2 * s * p * (w.2.1 k * n k) + p * p * (n k * n k) :=
      fun k => by ring
    simp only [this, Finset.sum_add_distrib, Finset.sum_sub_distrib, ← Finset.mul_sum, hn']
    ring
  have e6 : internal (lam • w - physFlux gamma w vg n) = s * internal w - p * p / (2 * (s * w.1)) := by
    rw [internal, e5, e4, e1, internal]
    field_simp
    ring
  rw [e6, sub_pos, div_lt_iff₀ (by positivity)]
  -- `p² < 2 s² ρ e`
  have h1 : gamma * p / w.1 ≤ s ^ 2 := by
    rw [← ha2]; exact pow_le_pow_left₀ ha.le hsa 2
  rw [div_le_iff₀ hr] at h1
  have he : 0 < internal w := ((physical_iff hg w).1 hw).2
  nlinarith [mul_le_mul_of_nonneg_right h1 he.le, mul_pos hp he, hpd, mul_pos hp hp]

/-- one cell: what its faces bring, over a step that is not too long -/
theorem cell_physical (hg : 1 < gamma) {u : St ℝ d} (hu : Physical gamma u) (n : Nat) (A lam : Nat → ℝ) (nu vg : Nat → Fin d → ℝ) (w : Nat → St ℝ d)
    (hA : ∀ j < n, 0 ≤ A j) (hn : ∀ j < n, nu j ⬝ᵥ nu j = 1) (hw : ∀ j < n, Physical gamma (w j))
    (hl : ∀ j < n, fastest gamma (vg j) (nu j) (w j) ≤ lam j) (hc : ∀ k, ∑ j ∈ Finset.range n, A j * nu j k = 0)
    (hv : ∑ j ∈ Finset.range n, A j * (vg j ⬝ᵥ nu j) = 0) {t : ℝ} (ht : 0 ≤ t) (ht1 : t * ∑ j ∈ Finset.range n, A j * lam j < 2) :
    Physical gamma (u + t • ∑ j ∈ Finset.range n,
      (-A j) • ((1 / 2 : ℝ) • (physFlux gamma u (vg j) (nu j) + physFlux gamma (w j) (vg j) (nu j)) - (1 / 2 * lam j) • (w j - u))) := by
  have h0 : ∑ j ∈ Finset.range n, A j • physFlux gamma u (vg j) (nu j) = 0 := by
    have hd : ∀ v : Fin d → ℝ, ∑ j ∈ Finset.range n, A j * (v ⬝ᵥ nu j) = 0 := by
      intro v
      have : ∀ j, A j * (v ⬝ᵥ nu j) = ∑ k, v k * (A j * nu j k) := by
        intro j
        rw [dotProduct, Finset.mul_sum]
        exact Finset.sum_congr rfl fun k _ => by ring
      simp only [this]
      rw [Finset.sum_comm]
      refine Finset.sum_eq_zero fun k _ => ?_
      rw [← Finset.mul_sum, hc k, mul_zero]
    have hd2 : ∑ j ∈ Finset.range n, A j * (((side gamma u).velo - vg j) ⬝ᵥ nu j) = 0 := by
      simp only [sub_dotProduct, mul_sub, Finset.sum_sub_distrib, hd, hv, sub_zero]
    have hf : ∀ j, A j • physFlux gamma u (vg j) (nu j) =
        (A j * (((side gamma u).velo - vg j) ⬝ᵥ nu j)) • u + ((0, (side gamma u).p • (A j • nu j), (A j * ((side gamma u).velo ⬝ᵥ nu j)) * (side gamma u).p) : St ℝ d) := by
      intro j
      refine Prod.ext ?_ (Prod.ext ?_ ?_)
      · show A j * (((side gamma u).velo - vg j) ⬝ᵥ nu j * u.1) = A j * (((side gamma u).velo - vg j) ⬝ᵥ nu j) * u.1 + 0
        ring
      · funext k
        show A j * (((side gamma u).velo - vg j) ⬝ᵥ nu j * u.2.1 k + (side gamma u).p * nu j k) =
          A j * (((side gamma u).velo - vg j) ⬝ᵥ nu j) * u.2.1 k + (side gamma u).p * (A j * nu j k)
        ring
      · show A j * (((side gamma u).velo - vg j) ⬝ᵥ nu j * u.2.2 + (side gamma u).velo ⬝ᵥ nu j * (side gamma u).p) =
          A j * (((side gamma u).velo - vg j) ⬝ᵥ nu j) * u.2.2 + (A j * ((side gamma u).velo ⬝ᵥ nu j)) * (side gamma u).p
        ring
    simp only [hf, Finset.sum_add_distrib, ← Finset.sum_smul, hd2, zero_smul, zero_add]
    refine Prod.ext ?_ (Prod.ext ?_ ?_)
    · rw [Prod.fst_sum]; simp
    · rw [Prod.snd_sum, Prod.fst_sum]
      funext k
      rw [Finset.sum_apply]
      show ∑ j ∈ Finset.range n, (side gamma u).p * (A j * nu j k) = 0
      rw [← Finset.mul_sum, hc k, mul_zero]
    · rw [Prod.snd_sum, Prod.snd_sum]
      show ∑ j ∈ Finset.range n, (A j * ((side gamma u).velo ⬝ᵥ nu j)) * (side gamma u).p = 0
      rw [← Finset.sum_mul, hd, zero_mul]
  have hsum : u + t • ∑ j ∈ Finset.range n,
      (-A j) • ((1 / 2 : ℝ) • (physFlux gamma u (vg j) (nu j) + physFlux gamma (w j) (vg j) (nu j)) - (1 / 2 * lam j) • (w j - u)) =
      (1 - t / 2 * ∑ j ∈ Finset.range n, A j * lam j) • u +
        ∑ j ∈ Finset.range n, (t / 2 * A j) • (lam j • w j - physFlux gamma (w j) (vg j) (nu j)) := by
    have hj : ∀ j, (-A j) • ((1 / 2 : ℝ) • (physFlux gamma u (vg j) (nu j) + physFlux gamma (w j) (vg j) (nu j)) - (1 / 2 * lam j) • (w j - u)) =
        -((1 / 2 : ℝ) • (A j • physFlux gamma u (vg j) (nu j))) + ((A j / 2) • (lam j • w j - physFlux gamma (w j) (vg j) (nu j)) - (A j * lam j) • ((1 / 2 : ℝ) • u)) := by
      intro j; module
    simp only [hj, Finset.sum_add_distrib, Finset.sum_sub_distrib, Finset.sum_neg_distrib, ← Finset.smul_sum, h0, smul_zero, neg_zero, zero_add, ← Finset.sum_smul]
    have hk : ∀ j, (t / 2 * A j) • (lam j • w j - physFlux gamma (w j) (vg j) (nu j)) = t • ((A j / 2) • (lam j • w j - physFlux gamma (w j) (vg j) (nu j))) := by
      intro j; module
    simp only [hk, ← Finset.smul_sum]
    module
  rw [hsum]
  refine physical_sum hg (physical_smul hg hu (by linarith)) _ _ n fun j hj => ⟨physical_sub hg (hw j hj) (hn j hj) (hl j hj), ?_⟩
  have := hA j hj
  positivity

/-! ## Speeds -/

section Speeds

open DNDSR.Elem DNDSR.IMap DNDSR.MeshAdj DNDSR.Faces
open DNDSR.Flux (Frame)

variable {cl nl : List Nat} {gc : GOM} {ranks : List RankIn} {outs : List RankOut} {rs : List (Rk d)} {P : Prob d} {c : Conf}
  {M : Int → Matrix (Fin d) (Fin d) ℝ}

theorem near_physical (hO : OnMesh cl nl gc ranks outs rs P) (hU : ∀ i < P.G.length, Physical c.gamma (P.U i)) {q : Int}
    (hq : Global (outs.map (·.nFaces)) q) : Physical c.gamma (P.near q) := hU _ (first_lt hO hq)

theorem far_physical (hM : Rotates P.fr M) (hO : OnMesh cl nl gc ranks outs rs P) (hU : ∀ i < P.G.length, Physical c.gamma (P.U i)) {q : Int}
    (hq : Global (outs.map (·.nFaces)) q) {w : St ℝ d} (h : P.far q = some w) : Physical c.gamma w := by
  rw [far_turn, Option.map_eq_some_iff] at h
  obtain ⟨i', hm, rfl⟩ := h
  obtain ⟨_, a, ha⟩ := hO.orient.slot q hq
  rw [turnIn_rot hM]
  exact rot_physical (inMat_orth hM _) (hU _ (mate_lt hO ha hm))

theorem far'_physical (hM : Rotates P.fr M) (hO : OnMesh cl nl gc ranks outs rs P) (hU : ∀ i < P.G.length, Physical c.gamma (P.U i)) {q : Int}
    (hq : Global (outs.map (·.nFaces)) q) : Physical c.gamma (P.far' q) := by
  rw [Prob.far']
  cases h : P.far q with
  | none => exact near_physical hO hU hq
  | some w => exact far_physical hM hO hU hq h

theorem fastest_pos (hg : 1 < c.gamma) {vg n : Fin d → ℝ} {U : St ℝ d} (hU : Physical c.gamma U) : 0 < fastest c.gamma vg n U :=
  add_pos_of_nonneg_of_pos (abs_nonneg _) (sound_pos hg hU)

theorem visc_nonneg (hM : Rotates P.fr M) (hO : OnMesh cl nl gc ranks outs rs P)
    (hU : ∀ i < P.G.length, Physical c.gamma (P.U i)) (hvol : ∀ i < P.G.length, 0 < P.vol i)
    (hgeo : ∀ q, Global (outs.map (·.nFaces)) q → 0 ≤ (P.geo q).area ∧ ∀ u p, 0 ≤ (P.geo q).mu u p) {q : Int}
    (hq : Global (outs.map (·.nFaces)) q) : 0 ≤ P.visc c q := by
  obtain ⟨hA, hmu⟩ := hgeo q hq
  have h1 := (near_physical hO hU hq).rho
  have h2 := (far'_physical hM hO hU hq).rho
  have hm : 0 < ((1 / 2 : ℝ) • (P.near q + P.far' q)).1 := by
    show 0 < 1 / 2 * ((P.near q).1 + (P.far' q).1)
    linarith
  have hv1 := hvol _ (first_lt hO hq)
  have hv2 : 0 < P.volFar q := by
    rw [Prob.volFar]
    cases h : P.mate (P.E q).1 (P.E q).2 with
    | none => exact hv1
    | some i' =>
        obtain ⟨_, a, ha⟩ := hO.orient.slot q hq
        exact hvol _ (mate_lt hO ha h)
  have hmx : (0 : ℝ) ≤ max (4 / 3) (c.gamma / c.pr) := le_trans (by norm_num) (le_max_left _ _)
  have := hmu ((1 / 2 : ℝ) • (P.near q + P.far' q)) (1 / 2 * ((primOf c.gamma (P.near q)).2.2 + (primOf c.gamma (P.far' q)).2.2))
  simp only [Prob.visc]
  exact mul_nonneg (mul_nonneg (mul_nonneg (div_nonneg this hm.le) hmx) hA) (by positivity)

theorem speed_pos (hg : 1 < c.gamma) (hM : Rotates P.fr M) (hO : OnMesh cl nl gc ranks outs rs P)
    (hU : ∀ i < P.G.length, Physical c.gamma (P.U i)) (hvol : ∀ i < P.G.length, 0 < P.vol i)
    (hgeo : ∀ q, Global (outs.map (·.nFaces)) q → 0 ≤ (P.geo q).area ∧ ∀ u p, 0 ≤ (P.geo q).mu u p) {q : Int}
    (hq : Global (outs.map (·.nFaces)) q) : 0 < P.speed c q :=
  add_pos_of_pos_of_nonneg (lt_of_lt_of_le (fastest_pos hg (near_physical hO hU hq)) (le_max_left _ _)) (visc_nonneg hM hO hU hvol hgeo hq)

end Speeds

/-! ## One face seen from a cell -/

section Slot

open DNDSR.Elem DNDSR.IMap DNDSR.MeshAdj DNDSR.Faces
open DNDSR.Flux (Frame firstSide)

variable {cl nl : List Nat} {gc : GOM} {ranks : List RankIn} {outs : List RankOut} {rs : List (Rk d)} {P : Prob d} {c : Conf}
  {M : Int → Matrix (Fin d) (Fin d) ℝ}

theorem toBehind_eq (z : Int) : P.toBehind M z = (inMat P.fr M z)ᵀ := by
  simp only [Prob.toBehind, inMat]
  split
  · rw [transpose_transpose]
  · split
    · rfl
    · simp

theorem rot_smul (A : Matrix (Fin d) (Fin d) ℝ) (t : ℝ) (U : St ℝ d) : rot A (t • U) = t • rot A U :=
  Prod.ext rfl (Prod.ext (mulVec_smul A t U.2.1) rfl)

theorem rot_add (A : Matrix (Fin d) (Fin d) ℝ) (U V : St ℝ d) : rot A (U + V) = rot A U + rot A V :=
  Prod.ext rfl (Prod.ext (mulVec_add A U.2.1 V.2.1) rfl)

theorem rot_neg (A : Matrix (Fin d) (Fin d) ℝ) (U : St ℝ d) : rot A (-U) = -rot A U :=
  Prod.ext rfl (Prod.ext (mulVec_neg U.2.1 A) rfl)

theorem rot_sub (A : Matrix (Fin d) (Fin d) ℝ) (U V : St ℝ d) : rot A (U - V) = rot A U - rot A V :=
  Prod.ext rfl (Prod.ext (mulVec_sub A U.2.1 V.2.1) rfl)

theorem rot_rot {A B : Matrix (Fin d) (Fin d) ℝ} (h : A * B = 1) (U : St ℝ d) : rot A (rot B U) = U :=
  Prod.ext rfl (Prod.ext (by show A *ᵥ (B *ᵥ U.2.1) = U.2.1; rw [mulVec_mulVec, h, one_mulVec]) rfl)

theorem rot_velo (A : Matrix (Fin d) (Fin d) ℝ) (U : St ℝ d) : (side gamma (rot A U)).velo = A *ᵥ (side gamma U).velo := by
  show U.1⁻¹ • (A *ᵥ U.2.1) = A *ᵥ (U.1⁻¹ • U.2.1)
  rw [mulVec_smul]

theorem rot_through {A : Matrix (Fin d) (Fin d) ℝ} (hA : Aᵀ * A = 1) (vg n : Fin d → ℝ) (U : St ℝ d) :
    through (A *ᵥ vg) (A *ᵥ n) (rot A U) = through vg n U := by
  rw [← through_eq (gamma := 2), ← through_eq (gamma := 2), rot_velo, rot_dot hA, rot_dot hA]

theorem rot_fastest {A : Matrix (Fin d) (Fin d) ℝ} (hA : Aᵀ * A = 1) (vg n : Fin d → ℝ) (U : St ℝ d) :
    fastest gamma (A *ᵥ vg) (A *ᵥ n) (rot A U) = fastest gamma vg n U := by
  rw [fastest, fastest, rot_through hA, sound, sound, rot_prim hA]; rfl

theorem fastest_neg (vg n : Fin d → ℝ) (U : St ℝ d) : fastest gamma vg (-n) U = fastest gamma vg n U := by
  have : through vg (-n) U = -through vg n U := by
    rw [← through_eq (gamma := 2), ← through_eq (gamma := 2), dotProduct_neg, dotProduct_neg]; ring
  rw [fastest, fastest, this, abs_neg]

theorem rot_flux {A : Matrix (Fin d) (Fin d) ℝ} (hA : Aᵀ * A = 1) {U : St ℝ d} (hU : Physical gamma U) (vg n : Fin d → ℝ) :
    rot A (physFlux gamma U vg n) = physFlux gamma (rot A U) (A *ᵥ vg) (A *ᵥ n) := by
  have hp : (side gamma (rot A U)).p = (side gamma U).p := by
    rw [Gas.side_p (rot_physical hA hU).rho.ne', Gas.side_p hU.rho.ne', rot_prim hA]
  have hd : ((side gamma (rot A U)).velo - A *ᵥ vg) ⬝ᵥ (A *ᵥ n) = ((side gamma U).velo - vg) ⬝ᵥ n := by
    rw [rot_velo, ← mulVec_sub, rot_dot hA]
  have hd2 : (side gamma (rot A U)).velo ⬝ᵥ (A *ᵥ n) = (side gamma U).velo ⬝ᵥ n := by rw [rot_velo, rot_dot hA]
  simp only [physFlux, fluxXY, hp, hd, hd2]
  refine Prod.ext rfl (Prod.ext ?_ rfl)
  show A *ᵥ ((((side gamma U).velo - vg) ⬝ᵥ n) • U.2.1 + (side gamma U).p • n) = (((side gamma U).velo - vg) ⬝ᵥ n) • (A *ᵥ U.2.1) + (side gamma U).p • (A *ᵥ n)
  rw [mulVec_add, mulVec_smul, mulVec_smul]

/-- the flux of `Roe_M2` -/
theorem rusanov (hg : 1 < gamma) {L R : St ℝ d} (hL : Physical gamma L) (hR : Physical gamma R) (vg n : Fin d → ℝ) {dl : ℝ} {N : St ℝ d} {l : Gas.Lam}
    (h : Gas.flux .roeM2 gamma L R L R vg n dl = .ok (N, l)) :
    N = (1 / 2 : ℝ) • (physFlux gamma L vg n + physFlux gamma R vg n) -
      (1 / 2 * max (fastest gamma vg n L) (fastest gamma vg n R)) • (R - L) := by
  have h1 : ((side gamma L).velo - vg) ⬝ᵥ n = through vg n L := by rw [sub_dotProduct, through_eq]
  have h2 : ((side gamma R).velo - vg) ⬝ᵥ n = through vg n R := by rw [sub_dotProduct, through_eq]
  have hs : (Gas.roeSpeeds Gas.roeLam 2 gamma L R vg n dl).l0 = max (fastest gamma vg n L) (fastest gamma vg n R) := by
    simp only [Gas.roeSpeeds, if_true, h1, h2, sound_eq hL, sound_eq hR, fastest]
  simp only [Gas.flux, Gas.roeFlux] at h
  rw [if_neg (by rw [not_not]; exact ⟨hL.rho, hR.rho⟩), if_neg (by rw [not_not]; exact Gas.roe_asqr_pos hg hL hR), if_neg (by omega)] at h
  have : _ = N := congrArg Prod.fst (Res.ok.inj h)
  rw [← this, ← hs]
  simp only [Gas.roeCombine, if_true]

theorem rusanov_exists (hg : 1 < gamma) {L R : St ℝ d} (hL : Physical gamma L) (hR : Physical gamma R) (vg n : Fin d → ℝ) (dl : ℝ) :
    ∃ N l, Gas.flux .roeM2 gamma L R L R vg n dl = .ok (N, l) := by
  simp only [Gas.flux, Gas.roeFlux]
  rw [if_neg (by rw [not_not]; exact ⟨hL.rho, hR.rho⟩), if_neg (by rw [not_not]; exact Gas.roe_asqr_pos hg hL hR), if_neg (by omega)]
  exact ⟨_, _, rfl⟩

/-- the state beyond face `j` of cell `i`, in the frame of the cell -/
noncomputable def beyond (P : Prob d) (M : Int → Matrix (Fin d) (Fin d) ℝ) (bnd : Int → St ℝ d) (i j : Nat) : St ℝ d :=
  if firstSide P.E P.F i j then P.behind bnd (P.F i j) else rot (P.toBehind M (P.geo (P.F i j)).zone) (P.near (P.F i j))

/-- the speed in the flux -/
noncomputable def fluxSpeed (P : Prob d) (c : Conf) (bnd : Int → St ℝ d) (q : Int) : ℝ :=
  max (fastest c.gamma (P.geo q).vg (P.geo q).norm (P.near q)) (fastest c.gamma (P.geo q).vg (P.geo q).norm (P.behind bnd q))

theorem second_side (hO : OnMesh cl nl gc ranks outs rs P) {i j : Nat} {a : Slot} (ha : IsSlot P.per P.G i j a)
    (h : firstSide P.E P.F i j = false) : P.mate (P.E (P.F i j)).1 (P.E (P.F i j)).2 = some i := by
  have hq := hO.num.range i j a ha
  obtain ⟨hs, b, hb⟩ := hO.orient.slot _ hq
  refine (hO.mates _ _ b hb i).2 ⟨j, a, ha, hs.symm, ?_⟩
  intro e
  simp only [firstSide, decide_eq_false_iff_not] at h
  exact h e.symm

theorem slot_term (hg : 1 < c.gamma) (hM : Rotates P.fr M) (hO : OnMesh cl nl gc ranks outs rs P)
    (hU : ∀ i < P.G.length, Physical c.gamma (P.U i)) {bnd : Int → St ℝ d} (hb : ∀ q, Physical c.gamma (bnd q)) {i j : Nat} {a : Slot}
    (ha : IsSlot P.per P.G i j a) {f : St ℝ d} (hf : P.FirstOrder c bnd (P.F i j) f) :
    Physical c.gamma (beyond P M bnd i j) ∧
    fastest c.gamma (P.faceVelo M i j) (P.outward M i j) (beyond P M bnd i j) ≤ fluxSpeed P c bnd (P.F i j) ∧
    (if firstSide P.E P.F i j then f else Flux.turn P.fr (P.geo (P.F i j)).zone (-f)) =
      (-(P.geo (P.F i j)).area) • ((1 / 2 : ℝ) • (physFlux c.gamma (P.U i) (P.faceVelo M i j) (P.outward M i j) +
        physFlux c.gamma (beyond P M bnd i j) (P.faceVelo M i j) (P.outward M i j)) -
        (1 / 2 * fluxSpeed P c bnd (P.F i j)) • (beyond P M bnd i j - P.U i)) := by
  have hq := hO.num.range i j a ha
  have hN := near_physical hO hU hq
  have hB : Physical c.gamma (P.behind bnd (P.F i j)) := by
    rw [Prob.behind]
    cases h : P.far (P.F i j) with
    | none => exact hb _
    | some w => exact far_physical hM hO hU hq h
  obtain ⟨N, l, dl, h1, rfl⟩ := hf
  have h2 := rusanov hg hN hB _ _ h1
  cases hs : firstSide P.E P.F i j with
  | true =>
      have hE : P.E (P.F i j) = (i, j) := by simpa [firstSide] using hs
      have hn : P.near (P.F i j) = P.U i := by rw [Prob.near, hE]
      simp only [beyond, hs, if_true, Prob.outward, Prob.faceVelo]
      refine ⟨hB, le_max_right _ _, ?_⟩
      rw [neg_smul, h2, hn, fluxSpeed, hn]
  | false =>
      have hm := second_side hO ha hs
      have hfar : P.behind bnd (P.F i j) = rot (inMat P.fr M (P.geo (P.F i j)).zone) (P.U i) := by
        rw [Prob.behind, far_turn, hm, Option.map_some, Option.getD_some, turnIn_rot hM]
      set B := (inMat P.fr M (P.geo (P.F i j)).zone) with hBdef
      have horth := inMat_orth hM (P.geo (P.F i j)).zone
      rw [← hBdef] at horth
      have hBt : Bᵀᵀ * Bᵀ = 1 := by rw [transpose_transpose, mul_eq_one_comm]; exact horth
      have hback : rot Bᵀ (P.behind bnd (P.F i j)) = P.U i := by rw [hfar, rot_rot horth]
      simp only [beyond, hs, Prob.outward, Prob.faceVelo, Bool.false_eq_true, if_false, toBehind_eq, ← hBdef]
      refine ⟨rot_physical hBt hN, ?_, ?_⟩
      · rw [fastest_neg, rot_fastest hBt]; exact le_max_left _ _
      · rw [turn_rot hM, ← hBdef, neg_neg, rot_smul, h2, rot_sub, rot_smul, rot_smul, rot_add, rot_sub, rot_flux hBt hN, rot_flux hBt hB, hback,
          Gas.physFlux_neg, Gas.physFlux_neg, fluxSpeed]
        module

theorem outward_unit (hM : Rotates P.fr M) {i j : Nat} (h : (P.geo (P.F i j)).norm ⬝ᵥ (P.geo (P.F i j)).norm = 1) :
    P.outward M i j ⬝ᵥ P.outward M i j = 1 := by
  simp only [Prob.outward]
  split
  · exact h
  · rw [toBehind_eq, neg_dotProduct_neg, rot_dot, h]
    rw [transpose_transpose, mul_eq_one_comm]; exact inMat_orth hM _

end Slot

end DNDSR.Dt
