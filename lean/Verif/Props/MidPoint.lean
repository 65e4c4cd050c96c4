import Verif.Model.MidPoint
import Verif.Spec.MidPoint
import Verif.Props.RotFrame
import Mathlib.Tactic.Linarith
import Mathlib.Tactic.Ring
import Mathlib.Tactic.FieldSimp
import Mathlib.Tactic.NormNum
import Mathlib.Tactic.FinCases
import Mathlib.Tactic.Module

/-!
# C108: points in the middle of curved edges and faces
-/

namespace DNDSR.Mid

open DNDSR.Rot Matrix

theorem norm_sq (v : V3) : Rot.norm v ^ 2 = v ⬝ᵥ v := by
  unfold Rot.norm
  rw [Real.sq_sqrt (by positivity), dotProduct, Fin.sum_univ_three]; ring

theorem norm_nonneg (v : V3) : 0 ≤ Rot.norm v := Real.sqrt_nonneg _

theorem norm_eq_zero (v : V3) : Rot.norm v = 0 ↔ v = 0 := by
  constructor
  · intro h
    have h1 := norm_sq v
    rw [h, dotProduct, Fin.sum_univ_three] at h1
    ext i
    fin_cases i
    · show v 0 = 0; nlinarith [sq_nonneg (v 0), sq_nonneg (v 1), sq_nonneg (v 2)]
    · show v 1 = 0; nlinarith [sq_nonneg (v 0), sq_nonneg (v 1), sq_nonneg (v 2)]
    · show v 2 = 0; nlinarith [sq_nonneg (v 0), sq_nonneg (v 1), sq_nonneg (v 2)]
  · rintro rfl; simp [Rot.norm]

theorem norm_smul (a : ℝ) (v : V3) : Rot.norm (a • v) = |a| * Rot.norm v := by
  unfold Rot.norm
  rw [← Real.sqrt_sq_eq_abs, ← Real.sqrt_mul (sq_nonneg a)]
  congr 1
  simp only [Pi.smul_apply, smul_eq_mul]; ring

theorem norm_neg (v : V3) : Rot.norm (-v) = Rot.norm v := by
  unfold Rot.norm; congr 1; simp only [Pi.neg_apply]; ring

theorem normalized_zero : Frame.normalized (0 : V3) = 0 := by
  unfold Frame.normalized; split <;> simp

theorem normalized_neg (v : V3) : Frame.normalized (-v) = -Frame.normalized v := by
  unfold Frame.normalized
  rw [norm_neg]
  split <;> simp

/-- a positive factor does not change the direction -/
theorem normalized_smul (a : ℝ) (ha : 0 < a) (v : V3) : Frame.normalized (a • v) = Frame.normalized v := by
  unfold Frame.normalized
  rw [norm_smul, abs_of_pos ha]
  by_cases h : 0 < Rot.norm v
  · rw [if_pos (mul_pos ha h), if_pos h, smul_smul]
    congr 1
    field_simp
  · have : v = 0 := (norm_eq_zero v).mp (le_antisymm (not_lt.mp h) (norm_nonneg v))
    subst this
    simp

/-- the part of the chord orthogonal to the normal, times the square of the normal -/
def ortho (c n : V3) : V3 := (n ⬝ᵥ n) • c - (c ⬝ᵥ n) • n

theorem double_cross (u n : V3) : crossProduct (-(crossProduct u n)) n = ortho u n := by
  ext i
  simp only [ortho, cross_apply, Pi.sub_apply, Pi.smul_apply, smul_eq_mul, dotProduct, Fin.sum_univ_three, Pi.neg_apply]
  fin_cases i <;> simp <;> ring

theorem ortho_smul (a : ℝ) (c n : V3) : ortho (a • c) n = a • ortho c n := by
  simp only [ortho, smul_dotProduct, smul_eq_mul]
  module

/-- the tangent in closed form -/
theorem tangent_eq (c0 c1 n : V3) : tangent c0 c1 n = Rot.norm (c1 - c0) • Frame.normalized (ortho (c1 - c0) n) := by
  unfold tangent
  simp only [double_cross]
  congr 1
  by_cases h : 0 < Rot.norm (c1 - c0)
  · have : Frame.normalized (c1 - c0) = (1 / Rot.norm (c1 - c0)) • (c1 - c0) := if_pos h
    rw [this, ortho_smul, normalized_smul _ (by positivity)]
  · have : Frame.normalized (c1 - c0) = c1 - c0 := if_neg h
    rw [this]

/-- **C108** Where the normal is not along the chord there is exactly one tangent. -/
theorem tangent_spec (c0 c1 n : V3) (h : ortho (c1 - c0) n ≠ 0) (t : V3) : IsTangent c0 c1 n t ↔ t = tangent c0 c1 n := by
  rw [tangent_eq]
  generalize hc : c1 - c0 = c at *
  have hw : 0 < Rot.norm (ortho c n) := lt_of_le_of_ne (norm_nonneg _) fun e => h ((norm_eq_zero _).mp e.symm)
  have hnn : 0 < n ⬝ᵥ n := by
    rw [← norm_sq]
    have : Rot.norm n ≠ 0 := fun e => h (by rw [(norm_eq_zero n).mp e]; simp [ortho])
    positivity
  have hcn : Rot.norm c ≠ 0 := fun e => h (by rw [(norm_eq_zero c).mp e]; simp [ortho])
  have hc0 : 0 < Rot.norm c := lt_of_le_of_ne (norm_nonneg _) (Ne.symm hcn)
  have o1 : ortho c n ⬝ᵥ n = 0 := by simp only [ortho, sub_dotProduct, smul_dotProduct, smul_eq_mul]; ring
  have o2 : ortho c n ⬝ᵥ ortho c n = (n ⬝ᵥ n) * (ortho c n ⬝ᵥ c) := by
    conv_lhs => rw [show ortho c n ⬝ᵥ ortho c n = ortho c n ⬝ᵥ ((n ⬝ᵥ n) • c - (c ⬝ᵥ n) • n) from rfl]
    rw [dotProduct_sub, dotProduct_smul, dotProduct_smul, o1]; simp
  have o3 : 0 < ortho c n ⬝ᵥ c := by
    have : 0 < ortho c n ⬝ᵥ ortho c n := by rw [← norm_sq]; positivity
    rw [o2] at this
    exact (mul_pos_iff_of_pos_left hnn).mp this
  have hN : Frame.normalized (ortho c n) = (1 / Rot.norm (ortho c n)) • ortho c n := if_pos hw
  rw [hN]
  constructor
  · rintro ⟨h1, ⟨a, b, hab⟩, h3, h4⟩
    rw [hc] at hab h3 h4
    have hb : b * (n ⬝ᵥ n) = -(a * (c ⬝ᵥ n)) := by
      rw [hab, add_dotProduct, smul_dotProduct, smul_dotProduct, smul_eq_mul, smul_eq_mul] at h1
      linarith
    obtain ⟨k, hk⟩ : ∃ k : ℝ, k = a / (n ⬝ᵥ n) := ⟨_, rfl⟩
    have ht : t = k • ortho c n := by
      have hb' : b = -(k * (c ⬝ᵥ n)) := by
        rw [hk]; field_simp; linarith
      have ha' : a = k * (n ⬝ᵥ n) := by rw [hk]; field_simp
      rw [hab, hb', ha', ortho]
      module
    have hkp : 0 < k := by
      rw [ht, smul_dotProduct, smul_eq_mul] at h3
      exact (mul_pos_iff_of_pos_right o3).mp h3
    have hlen : (k * Rot.norm (ortho c n)) ^ 2 = Rot.norm c ^ 2 := by
      rw [norm_sq c, ← h4, ht, smul_dotProduct, dotProduct_smul, mul_pow, norm_sq]
      simp only [smul_eq_mul]; ring
    have hkl : k * Rot.norm (ortho c n) = Rot.norm c := by
      exact (sq_eq_sq₀ (by positivity) hc0.le).mp hlen
    rw [ht, smul_smul]
    congr 1
    rw [← hkl]; field_simp
  · rintro rfl
    refine ⟨?_, ?_, ?_, ?_⟩
    · rw [smul_dotProduct, smul_dotProduct, o1]; simp
    · rw [hc]
      refine ⟨Rot.norm c * (1 / Rot.norm (ortho c n)) * (n ⬝ᵥ n), -(Rot.norm c * (1 / Rot.norm (ortho c n)) * (c ⬝ᵥ n)), ?_⟩
      generalize 1 / Rot.norm (ortho c n) = r
      rw [ortho]
      module
    · rw [hc, smul_dotProduct, smul_dotProduct, smul_eq_mul, smul_eq_mul]; positivity
    · rw [hc, smul_dotProduct, smul_dotProduct, dotProduct_smul, dotProduct_smul, ← norm_sq, ← norm_sq]
      simp only [smul_eq_mul]
      field_simp

theorem ne_of_ortho {c n : V3} (h : ortho c n ≠ 0) : Rot.norm n ≠ 0 := fun e => h (by rw [(norm_eq_zero n).mp e]; simp [ortho])

theorem isTangent_ortho {c0 c1 n t : V3} (hn : n ≠ 0) (h : IsTangent c0 c1 n t) : ortho (c1 - c0) n ≠ 0 := by
  intro h0
  obtain ⟨h1, ⟨a, b, hab⟩, h3, -⟩ := h
  have h5 : t ⬝ᵥ ortho (c1 - c0) n = (n ⬝ᵥ n) * (t ⬝ᵥ (c1 - c0)) := by
    rw [ortho, dotProduct_sub, dotProduct_smul, dotProduct_smul, h1]; simp
  rw [h0, dotProduct_zero] at h5
  have : 0 < n ⬝ᵥ n := by
    rw [← norm_sq]
    have : Rot.norm n ≠ 0 := fun e => hn ((norm_eq_zero n).mp e)
    positivity
  have := mul_pos this h3
  linarith

/-- **C108** With a normal at both ends the point is the middle of the cubic curve through the ends with their tangents. -/
theorem midLine_cubic (c0 c1 n0 n1 t0 t1 : V3) (hn0 : n0 ≠ 0) (hn1 : n1 ≠ 0) (h0 : IsTangent c0 c1 n0 t0) (h1 : IsTangent c0 c1 n1 t1) (a b c d : V3)
    (e0 : cubic a b c d 0 = c0) (e1 : cubic a b c d 1 = c1) (s0 : cubic' b c d 0 = t0) (s1 : cubic' b c d 1 = t1) :
    midLine c0 c1 n0 n1 = cubic a b c d (1 / 2) := by
  have w0 := isTangent_ortho hn0 h0
  have w1 := isTangent_ortho hn1 h1
  have z0 := ne_of_ortho w0
  have z1 := ne_of_ortho w1
  rw [tangent_spec _ _ _ w0] at h0
  rw [tangent_spec _ _ _ w1] at h1
  unfold midLine
  simp only [z0, z1, false_and, and_false, if_false, ← h0, ← h1]
  rw [← s0, ← s1, ← e0, ← e1]
  simp only [cubic, cubic']
  module

/-- **C108** With a normal at one end only, it is the middle of the quadratic curve with the tangent at that end. -/
theorem midLine_quadratic (c0 c1 n t a b c : V3) (hn : n ≠ 0) (h : IsTangent c0 c1 n t) (e0 : cubic a b c 0 0 = c0) (e1 : cubic a b c 0 1 = c1) :
    (cubic' b c 0 0 = t → midLine c0 c1 n 0 = cubic a b c 0 (1 / 2)) ∧ (cubic' b c 0 1 = t → midLine c0 c1 0 n = cubic a b c 0 (1 / 2)) := by
  have w := isTangent_ortho hn h
  have z := ne_of_ortho w
  have z0 : Rot.norm (0 : V3) = 0 := (norm_eq_zero 0).mpr rfl
  rw [tangent_spec _ _ _ w] at h
  constructor
  · intro s
    unfold midLine
    simp only [z, z0, ne_eq, not_true, not_false_iff, false_and, and_self, if_false, if_true, ← h]
    rw [← s, ← e0, ← e1]
    simp only [cubic, cubic']
    module
  · intro s
    unfold midLine
    simp only [z, z0, ne_eq, not_false_iff, and_self, if_true, ← h]
    rw [← s, ← e0, ← e1]
    simp only [cubic, cubic']
    module

/-- **C108** Without normals it is the middle of the chord. -/
theorem midLine_none (c0 c1 : V3) : midLine c0 c1 0 0 = (1 / 2 : ℝ) • (c0 + c1) := by
  have z0 : Rot.norm (0 : V3) = 0 := (norm_eq_zero 0).mpr rfl
  unfold midLine
  simp only [z0, ne_eq, not_true, false_and, and_false, if_false, and_self, if_true]
  module

theorem tangent_swap (c0 c1 n : V3) : tangent c1 c0 n = -tangent c0 c1 n := by
  have e : c0 - c1 = -(c1 - c0) := by abel
  have o : ortho (-(c1 - c0)) n = -ortho (c1 - c0) n := by
    simp only [ortho, neg_dotProduct]; module
  rw [tangent_eq, tangent_eq, e, norm_neg, o, normalized_neg, smul_neg]

/-- **C108** The point does not depend on the direction in which the edge is read, so faces that share it agree. -/
theorem midLine_swap (c0 c1 n0 n1 : V3) : midLine c1 c0 n1 n0 = midLine c0 c1 n0 n1 := by
  unfold midLine
  simp only [tangent_swap c0 c1]
  by_cases h0 : Rot.norm n0 = 0 <;> by_cases h1 : Rot.norm n1 = 0 <;>
    simp only [h0, h1, ne_eq, not_true, not_false_iff, false_and, and_false, and_self, if_false, if_true] <;> module

theorem tangent_scale (c0 c1 n : V3) (a : ℝ) (ha : a ≠ 0) : tangent c0 c1 (a • n) = tangent c0 c1 n := by
  have o : ortho (c1 - c0) (a • n) = (a ^ 2) • ortho (c1 - c0) n := by
    simp only [ortho, smul_dotProduct, dotProduct_smul, smul_eq_mul]; module
  rw [tangent_eq, tangent_eq, o, normalized_smul _ (by positivity)]

/-- **C108** The length and the side of the normals do not matter. -/
theorem midLine_scale (c0 c1 n0 n1 : V3) (a b : ℝ) (ha : a ≠ 0) (hb : b ≠ 0) : midLine c0 c1 (a • n0) (b • n1) = midLine c0 c1 n0 n1 := by
  have ea : Rot.norm (a • n0) = 0 ↔ Rot.norm n0 = 0 := by rw [norm_smul]; simp [ha]
  have eb : Rot.norm (b • n1) = 0 ↔ Rot.norm n1 = 0 := by rw [norm_smul]; simp [hb]
  unfold midLine
  simp only [tangent_scale _ _ _ _ ha, tangent_scale _ _ _ _ hb, ne_eq, ea, eb]

/-- the chord is the tangent where the normal is orthogonal to it -/
theorem tangent_flat (c0 c1 n : V3) (hn : n ≠ 0) (h : (c1 - c0) ⬝ᵥ n = 0) : tangent c0 c1 n = c1 - c0 := by
  have hnn : 0 < n ⬝ᵥ n := by
    rw [← norm_sq]
    have : Rot.norm n ≠ 0 := fun e => hn ((norm_eq_zero n).mp e)
    positivity
  rw [tangent_eq, ortho, h, zero_smul, sub_zero, normalized_smul _ hnn]
  by_cases hc : 0 < Rot.norm (c1 - c0)
  · rw [show Frame.normalized (c1 - c0) = (1 / Rot.norm (c1 - c0)) • (c1 - c0) from if_pos hc, smul_smul, mul_one_div, div_self hc.ne', one_smul]
  · have : c1 - c0 = 0 := (norm_eq_zero _).mp (le_antisymm (not_lt.mp hc) (norm_nonneg _))
    rw [this, normalized_zero, smul_zero]

/-- **C108** An edge in a flat surface stays straight. -/
theorem midLine_flat (c0 c1 n0 n1 : V3) (h0 : (c1 - c0) ⬝ᵥ n0 = 0) (h1 : (c1 - c0) ⬝ᵥ n1 = 0) : midLine c0 c1 n0 n1 = (1 / 2 : ℝ) • (c0 + c1) := by
  unfold midLine
  by_cases z0 : Rot.norm n0 = 0 <;> by_cases z1 : Rot.norm n1 = 0 <;>
    simp only [z0, z1, ne_eq, not_true, not_false_iff, false_and, and_false, and_self, if_false, if_true]
  · module
  · rw [tangent_flat _ _ _ (fun e => z1 ((norm_eq_zero _).mpr e)) h1]; module
  · rw [tangent_flat _ _ _ (fun e => z0 ((norm_eq_zero _).mpr e)) h0]; module
  · rw [tangent_flat _ _ _ (fun e => z1 ((norm_eq_zero _).mpr e)) h1, tangent_flat _ _ _ (fun e => z0 ((norm_eq_zero _).mpr e)) h0]; module

theorem dot_mulVec (Q : M3) (hQ : Qᵀ * Q = 1) (a b : V3) : (Q *ᵥ a) ⬝ᵥ (Q *ᵥ b) = a ⬝ᵥ b := by
  rw [dotProduct_mulVec, ← mulVec_transpose, mulVec_mulVec, hQ, one_mulVec]

theorem norm_mulVec (Q : M3) (hQ : Qᵀ * Q = 1) (a : V3) : Rot.norm (Q *ᵥ a) = Rot.norm a := by
  have : Rot.norm (Q *ᵥ a) ^ 2 = Rot.norm a ^ 2 := by rw [norm_sq, norm_sq, dot_mulVec Q hQ]
  exact (sq_eq_sq₀ (norm_nonneg _) (norm_nonneg _)).mp this

theorem tangent_move (Q : M3) (hQ : Qᵀ * Q = 1) (v c0 c1 n : V3) : tangent (v + Q *ᵥ c0) (v + Q *ᵥ c1) (Q *ᵥ n) = Q *ᵥ tangent c0 c1 n := by
  have e : v + Q *ᵥ c1 - (v + Q *ᵥ c0) = Q *ᵥ (c1 - c0) := by rw [mulVec_sub]; abel
  have o : ortho (Q *ᵥ (c1 - c0)) (Q *ᵥ n) = Q *ᵥ ortho (c1 - c0) n := by
    generalize c1 - c0 = c
    rw [ortho, ortho, dot_mulVec Q hQ, dot_mulVec Q hQ, mulVec_sub, mulVec_smul, mulVec_smul]
  have hN : ∀ w, Frame.normalized (Q *ᵥ w) = Q *ᵥ Frame.normalized w := by
    intro w
    unfold Frame.normalized
    rw [norm_mulVec Q hQ]
    split
    · rw [mulVec_smul]
    · rfl
  rw [tangent_eq, tangent_eq, e, o, hN, norm_mulVec Q hQ, mulVec_smul]

/-- **C108** Turning, reflecting or shifting the surface takes the point along. -/
theorem midLine_move (Q : M3) (hQ : Qᵀ * Q = 1) (v c0 c1 n0 n1 : V3) :
    midLine (v + Q *ᵥ c0) (v + Q *ᵥ c1) (Q *ᵥ n0) (Q *ᵥ n1) = v + Q *ᵥ midLine c0 c1 n0 n1 := by
  unfold midLine
  simp only [tangent_move Q hQ, norm_mulVec Q hQ]
  by_cases h0 : Rot.norm n0 = 0 <;> by_cases h1 : Rot.norm n1 = 0 <;>
    simp only [h0, h1, ne_eq, not_true, not_false_iff, false_and, and_false, and_self, if_false, if_true, mulVec_add, mulVec_sub, mulVec_smul] <;> module

/-- **C108** The point in the middle of a face does not depend on the corner at which the face starts, nor on its orientation. -/
theorem midQuad_turn (c0 c1 c2 c3 n0 n1 n2 n3 : V3) : midQuad c1 c2 c3 c0 n1 n2 n3 n0 = midQuad c0 c1 c2 c3 n0 n1 n2 n3 ∧
    midQuad c3 c2 c1 c0 n3 n2 n1 n0 = midQuad c0 c1 c2 c3 n0 n1 n2 n3 := by
  constructor
  · unfold midQuad; module
  · unfold midQuad
    rw [midLine_swap c2 c3, midLine_swap c1 c2, midLine_swap c0 c1, midLine_swap c3 c0]
    module

/-- **C108** In a flat face with straight edges it is the mean of the corners. -/
theorem midQuad_flat (c : Fin 4 → V3) (n : Fin 4 → V3) (h : ∀ i j k, (c i - c j) ⬝ᵥ n k = 0) :
    midQuad (c 0) (c 1) (c 2) (c 3) (n 0) (n 1) (n 2) (n 3) = (1 / 4 : ℝ) • (c 0 + c 1 + c 2 + c 3) := by
  unfold midQuad
  simp only [midLine_flat _ _ _ _ (h _ _ _) (h _ _ _)]
  module

/-- a quarter of a circle: both tangents exist, and the point leaves the chord -/
example : IsTangent ![1, 0, 0] ![0, 1, 0] ![1, 0, 0] ![0, Real.sqrt 2, 0] ∧ IsTangent ![1, 0, 0] ![0, 1, 0] ![0, 1, 0] ![-Real.sqrt 2, 0, 0] ∧
    midLine ![1, 0, 0] ![0, 1, 0] ![1, 0, 0] ![0, 1, 0] = ![1 / 2 + Real.sqrt 2 / 8, 1 / 2 + Real.sqrt 2 / 8, 0] := by
  have h2 : Real.sqrt 2 * Real.sqrt 2 = 2 := Real.mul_self_sqrt (by norm_num)
  have hp : 0 < Real.sqrt 2 := Real.sqrt_pos.mpr (by norm_num)
  have t0 : IsTangent ![1, 0, 0] ![0, 1, 0] ![1, 0, 0] ![0, Real.sqrt 2, 0] := by
    refine ⟨by simp [dotProduct, Fin.sum_univ_three], ⟨Real.sqrt 2, Real.sqrt 2, by ext i; fin_cases i <;> simp⟩,
      by simp [dotProduct, Fin.sum_univ_three], ?_⟩
    simp [dotProduct, Fin.sum_univ_three]; norm_num
  have t1 : IsTangent ![1, 0, 0] ![0, 1, 0] ![0, 1, 0] ![-Real.sqrt 2, 0, 0] := by
    refine ⟨by simp [dotProduct, Fin.sum_univ_three], ⟨Real.sqrt 2, -Real.sqrt 2, by ext i; fin_cases i <;> simp⟩,
      by simp [dotProduct, Fin.sum_univ_three], ?_⟩
    simp [dotProduct, Fin.sum_univ_three]; norm_num
  refine ⟨t0, t1, ?_⟩
  have n0 : (![1, 0, 0] : V3) ≠ 0 := fun e => by simpa using congrFun e 0
  have n1 : (![0, 1, 0] : V3) ≠ 0 := fun e => by simpa using congrFun e 1
  have hn0 : Rot.norm ![1, 0, 0] ≠ 0 := fun e => n0 ((norm_eq_zero _).mp e)
  have hn1 : Rot.norm ![0, 1, 0] ≠ 0 := fun e => n1 ((norm_eq_zero _).mp e)
  unfold midLine
  simp only [← (tangent_spec _ _ _ (isTangent_ortho n0 t0) _).mp t0, ← (tangent_spec _ _ _ (isTangent_ortho n1 t1) _).mp t1, hn0, hn1, false_and,
    and_false, if_false]
  ext i
  fin_cases i <;> simp <;> ring

end DNDSR.Mid
