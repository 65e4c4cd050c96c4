import Verif.Model.Rotation
import Verif.Spec.Periodic
import Mathlib.LinearAlgebra.Matrix.Determinant.Basic
import Mathlib.LinearAlgebra.CrossProduct
import Mathlib.Analysis.Real.Pi.Bounds
import Mathlib.Tactic.Module
import Mathlib.Tactic.LinearCombination
import Mathlib.Tactic.FinCases
import Mathlib.Tactic.Linarith
import Mathlib.Tactic.FieldSimp
import Mathlib.Tactic.NormNum

/-!
# Rotation matrices (C105)
-/

namespace DNDSR.Rot

open Matrix DNDSR.Per

/-- a proper rotation: orthogonal with determinant one -/
def Proper (R : M3) : Prop := Rigid R ∧ R.det = 1

theorem Proper.mul {A B : M3} (ha : Proper A) (hb : Proper B) : Proper (A * B) := by
  refine ⟨⟨?_, ?_⟩, by rw [det_mul, ha.2, hb.2, one_mul]⟩
  · rw [transpose_mul, Matrix.mul_assoc, ← Matrix.mul_assoc Aᵀ, ha.1.1, Matrix.one_mul, hb.1.1]
  · rw [transpose_mul, Matrix.mul_assoc, ← Matrix.mul_assoc B, hb.1.2, Matrix.one_mul, ha.1.2]

theorem Proper.of_left {A : M3} (h : Aᵀ * A = 1) (hd : A.det = 1) : Proper A := ⟨⟨h, mul_eq_one_comm.1 h⟩, hd⟩

/-- **C105** (axes) The rotations about the axes of the coordinates are proper, and keep their axis. -/
theorem rot_axes (t : ℝ) : Proper (rotX t) ∧ Proper (rotY t) ∧ Proper (rotZ t) ∧
    rotX t *ᵥ ![1, 0, 0] = ![1, 0, 0] ∧ rotY t *ᵥ ![0, 1, 0] = ![0, 1, 0] ∧ rotZ t *ᵥ ![0, 0, 1] = ![0, 0, 1] := by
  have h := Real.sin_sq_add_cos_sq (t * (Real.pi / 180))
  refine ⟨Proper.of_left ?_ ?_, Proper.of_left ?_ ?_, Proper.of_left ?_ ?_, ?_, ?_, ?_⟩
  · ext i j
    fin_cases i <;> fin_cases j <;> simp [rotX, Matrix.mul_apply, Fin.sum_univ_three] <;> first | linear_combination h | ring
  · simp [rotX, det_fin_three]; linear_combination h
  · ext i j
    fin_cases i <;> fin_cases j <;> simp [rotY, Matrix.mul_apply, Fin.sum_univ_three] <;> first | linear_combination h | ring
  · simp [rotY, det_fin_three]; linear_combination h
  · ext i j
    fin_cases i <;> fin_cases j <;> simp [rotZ, Matrix.mul_apply, Fin.sum_univ_three] <;> first | linear_combination h | ring
  · simp [rotZ, det_fin_three]; linear_combination h
  · ext i; fin_cases i <;> simp [rotX, mulVec, dotProduct, Fin.sum_univ_three]
  · ext i; fin_cases i <;> simp [rotY, mulVec, dotProduct, Fin.sum_univ_three]
  · ext i; fin_cases i <;> simp [rotZ, mulVec, dotProduct, Fin.sum_univ_three]

/-- **C105** (cross products) The matrix of a vector multiplies as the cross product, and the vector is read back from it; every antisymmetric matrix is that of the vector read from it. -/
theorem cross_spec (a v : V3) (m : M3) : crossVecToMat a *ᵥ v = crossProduct a v ∧ crossMatToVec (crossVecToMat a) = a ∧
    (mᵀ = -m → crossVecToMat (crossMatToVec m) = m) := by
  refine ⟨?_, ?_, fun h => ?_⟩
  · ext i
    fin_cases i <;> simp [crossVecToMat, mulVec, dotProduct, Fin.sum_univ_three, cross_apply] <;> ring
  · ext i; fin_cases i <;> simp [crossVecToMat, crossMatToVec]
  · have hh : ∀ i j, m j i = -m i j := fun i j => congrFun (congrFun h i) j
    have h0 := hh 0 0
    have h1 := hh 1 1
    have h2 := hh 2 2
    ext i j
    fin_cases i <;> fin_cases j <;> simp [crossVecToMat, crossMatToVec] <;> linarith [hh 0 1, hh 0 2, hh 1 2]

section turn
variable {n : V3}

/-- the matrix of the cross product with the axis -/
abbrev omegaM (n : V3) : M3 := crossVecToMat n

theorem turn_eq (n : V3) (s c : ℝ) : turn n s c = vecMulVec n n + s • omegaM n - c • (omegaM n * omegaM n) := rfl

theorem omega_sq (h : n 0 ^ 2 + n 1 ^ 2 + n 2 ^ 2 = 1) : omegaM n * omegaM n = vecMulVec n n - 1 := by
  ext i j
  fin_cases i <;> fin_cases j <;> simp [omegaM, crossVecToMat, Matrix.mul_apply, Fin.sum_univ_three, vecMulVec_apply] <;> first | linear_combination -h | ring

theorem omega_vec (n : V3) : omegaM n * vecMulVec n n = 0 := by
  ext i j
  fin_cases i <;> fin_cases j <;> simp [omegaM, crossVecToMat, Matrix.mul_apply, Fin.sum_univ_three, vecMulVec_apply] <;> ring

theorem vec_omega (n : V3) : vecMulVec n n * omegaM n = 0 := by
  ext i j
  fin_cases i <;> fin_cases j <;> simp [omegaM, crossVecToMat, Matrix.mul_apply, Fin.sum_univ_three, vecMulVec_apply] <;> ring

theorem vec_vec (h : n 0 ^ 2 + n 1 ^ 2 + n 2 ^ 2 = 1) : vecMulVec n n * vecMulVec n n = vecMulVec n n := by
  ext i j
  simp only [Matrix.mul_apply, Fin.sum_univ_three, vecMulVec_apply]
  linear_combination n i * n j * h

theorem turn_form (h : n 0 ^ 2 + n 1 ^ 2 + n 2 ^ 2 = 1) (s c : ℝ) : turn n s c = (1 - c) • vecMulVec n n + s • omegaM n + c • 1 := by
  rw [turn_eq, omega_sq h]
  module

theorem turn_mul (h : n 0 ^ 2 + n 1 ^ 2 + n 2 ^ 2 = 1) (s c s' c' : ℝ) : turn n s c * turn n s' c' = turn n (s * c' + c * s') (c * c' - s * s') := by
  rw [turn_form h, turn_form h, turn_form h]
  simp only [add_mul, mul_add, smul_mul_assoc, mul_smul_comm, vec_vec h, omega_vec, vec_omega, omega_sq h, one_mul, mul_one]
  module

theorem turn_one (h : n 0 ^ 2 + n 1 ^ 2 + n 2 ^ 2 = 1) : turn n 0 1 = 1 := by
  rw [turn_form h]; module

theorem turn_transpose (n : V3) (s c : ℝ) : (turn n s c)ᵀ = turn n (-s) c := by
  ext i j
  fin_cases i <;> fin_cases j <;> simp [turn, Matrix.mul_apply, Fin.sum_univ_three, vecMulVec_apply] <;> ring

theorem turn_rigid (h : n 0 ^ 2 + n 1 ^ 2 + n 2 ^ 2 = 1) {s c : ℝ} (hsc : s ^ 2 + c ^ 2 = 1) : Rigid (turn n s c) := by
  constructor
  · rw [turn_transpose, turn_mul h, ← turn_one h]
    congr 1
    · ring
    · linear_combination hsc
  · rw [turn_transpose, turn_mul h, ← turn_one h]
    congr 1
    · ring
    · linear_combination hsc

theorem turn_proper (h : n 0 ^ 2 + n 1 ^ 2 + n 2 ^ 2 = 1) (t : ℝ) : Proper (turn n (Real.sin t) (Real.cos t)) := by
  refine ⟨turn_rigid h (Real.sin_sq_add_cos_sq t), ?_⟩
  have e : turn n (Real.sin t) (Real.cos t) = turn n (Real.sin (t / 2)) (Real.cos (t / 2)) * turn n (Real.sin (t / 2)) (Real.cos (t / 2)) := by
    rw [turn_mul h, ← Real.sin_add, ← Real.cos_add, add_halves]
  have hr := (turn_rigid h (Real.sin_sq_add_cos_sq (t / 2))).1
  have hd := congrArg det hr
  rw [det_mul, det_transpose, det_one] at hd
  rw [e, det_mul, hd]

end turn

theorem norm_unit {a : V3} (h : smallReal ≤ norm a) : ((1 / norm a) • a) 0 ^ 2 + ((1 / norm a) • a) 1 ^ 2 + ((1 / norm a) • a) 2 ^ 2 = 1 := by
  have hp : 0 < norm a := lt_of_lt_of_le (by unfold smallReal; positivity) h
  have hs : norm a ^ 2 = a 0 ^ 2 + a 1 ^ 2 + a 2 ^ 2 := Real.sq_sqrt (by positivity)
  simp only [Pi.smul_apply, smul_eq_mul]
  field_simp
  linarith

theorem rotateAxis_eq {a : V3} (h : smallReal ≤ norm a) : rotateAxis a = turn ((1 / norm a) • a) (Real.sin (norm a)) (Real.cos (norm a)) := by
  unfold rotateAxis
  exact if_neg (not_lt.2 h)

/-- **C105** (any axis) The rotation about a vector is proper.  For a vector that is not tiny it keeps the vector, and turns every vector across it by the length of the vector, in the sense of
the right hand. -/
theorem rotateAxis_spec (a : V3) : Proper (rotateAxis a) ∧ rotateAxis a *ᵥ a = a ∧
    (1 / 10 ^ 10 ≤ Real.sqrt (a 0 ^ 2 + a 1 ^ 2 + a 2 ^ 2) → ∀ v, a ⬝ᵥ v = 0 →
      rotateAxis a *ᵥ v = Real.cos (Real.sqrt (a 0 ^ 2 + a 1 ^ 2 + a 2 ^ 2)) • v +
        (Real.sin (Real.sqrt (a 0 ^ 2 + a 1 ^ 2 + a 2 ^ 2)) / Real.sqrt (a 0 ^ 2 + a 1 ^ 2 + a 2 ^ 2)) • crossProduct a v) := by
  by_cases h : norm a < smallReal
  · have e : rotateAxis a = 1 := by unfold rotateAxis; exact if_pos h
    rw [e]
    refine ⟨⟨⟨by simp, by simp⟩, by simp⟩, by simp, fun hh => absurd h (not_lt.2 hh)⟩
  · have h := not_lt.1 h
    have hp : 0 < norm a := lt_of_lt_of_le (by unfold smallReal; positivity) h
    have hu := norm_unit h
    have hs : norm a ^ 2 = a 0 ^ 2 + a 1 ^ 2 + a 2 ^ 2 := Real.sq_sqrt (by positivity)
    rw [rotateAxis_eq h]
    have act : ∀ v, turn ((1 / norm a) • a) (Real.sin (norm a)) (Real.cos (norm a)) *ᵥ v =
        ((1 - Real.cos (norm a)) * (a ⬝ᵥ v) / norm a ^ 2) • a + (Real.sin (norm a) / norm a) • crossProduct a v + Real.cos (norm a) • v := by
      intro v
      have e1 : vecMulVec ((1 / norm a) • a) ((1 / norm a) • a) *ᵥ v = ((a ⬝ᵥ v) / norm a ^ 2) • a := by
        ext i
        simp only [mulVec, dotProduct, Fin.sum_univ_three, vecMulVec_apply, Pi.smul_apply, smul_eq_mul]
        field_simp
      have e2 : omegaM ((1 / norm a) • a) *ᵥ v = (1 / norm a) • crossProduct a v := by
        rw [(cross_spec _ v 0).1, map_smul]
        rfl
      rw [turn_form hu, add_mulVec, add_mulVec, smul_mulVec, smul_mulVec, smul_mulVec, one_mulVec, e1, e2, smul_smul, smul_smul]
      congr 3
      · ring
      · ring
    refine ⟨turn_proper hu _, ?_, fun _ v hv => ?_⟩
    · rw [act]
      have : a ⬝ᵥ a = norm a ^ 2 := by rw [hs]; simp [dotProduct, Fin.sum_univ_three]; ring
      rw [this, cross_self, smul_zero, add_zero, mul_div_assoc, div_self (by positivity), mul_one, ← add_smul]
      simp
    · rw [act, hv]
      simp only [mul_zero, zero_div, zero_smul, zero_add]
      rw [add_comm]
      rfl

theorem norm_smul_axis (n : V3) (h : n 0 ^ 2 + n 1 ^ 2 + n 2 ^ 2 = 1) {t : ℝ} (ht : 0 ≤ t) : norm (t • n) = t := by
  unfold norm
  have : (t • n) 0 ^ 2 + (t • n) 1 ^ 2 + (t • n) 2 ^ 2 = t ^ 2 := by
    simp only [Pi.smul_apply, smul_eq_mul]
    linear_combination t ^ 2 * h
  rw [this, Real.sqrt_sq ht]

/-- a rotation about a unit axis, by an angle of any sign that is not tiny -/
theorem rotateAxis_unit {n : V3} (h : n 0 ^ 2 + n 1 ^ 2 + n 2 ^ 2 = 1) {t : ℝ} (ht : smallReal ≤ |t|) : rotateAxis (t • n) = turn n (Real.sin t) (Real.cos t) := by
  have hp : 0 < |t| := lt_of_lt_of_le (by unfold smallReal; positivity) ht
  rcases le_or_gt 0 t with h0 | h0
  · rw [abs_of_nonneg h0] at ht hp
    have e := norm_smul_axis n h h0
    rw [rotateAxis_eq (by rw [e]; exact ht), e, smul_smul, one_div, inv_mul_cancel₀ hp.ne', one_smul]
  · rw [abs_of_neg h0] at ht hp
    have hn : (-n) 0 ^ 2 + (-n) 1 ^ 2 + (-n) 2 ^ 2 = 1 := by simpa using h
    have e := norm_smul_axis (-n) hn hp.le
    have e2 : t • n = (-t) • (-n) := by simp
    rw [e2, rotateAxis_eq (by rw [e]; exact ht), e, smul_smul, one_div, inv_mul_cancel₀ hp.ne', one_smul, Real.sin_neg, Real.cos_neg, turn_form hn, turn_form h]
    ext i j
    fin_cases i <;> fin_cases j <;> simp [vecMulVec_apply, omegaM, crossVecToMat]

/-- **C105** (time) Rotations about the same axis add their angles, so that the rotation of the far field at a time is undone by that of the opposite time, as long as no angle is tiny. -/
theorem rotateAxis_add {n : V3} (h : n 0 ^ 2 + n 1 ^ 2 + n 2 ^ 2 = 1) {s t : ℝ} (hs : 1 / 10 ^ 10 ≤ |s|) (ht : 1 / 10 ^ 10 ≤ |t|) :
    (1 / 10 ^ 10 ≤ |s + t| → rotateAxis (s • n) * rotateAxis (t • n) = rotateAxis ((s + t) • n)) ∧ rotateAxis (t • n) * rotateAxis ((-t) • n) = 1 := by
  constructor
  · intro hst
    rw [rotateAxis_unit h hs, rotateAxis_unit h ht, rotateAxis_unit h hst, turn_mul h, Real.sin_add, Real.cos_add]
  · rw [rotateAxis_unit h ht, rotateAxis_unit h (by rwa [abs_neg]), turn_mul h, ← turn_one h, Real.sin_neg, Real.cos_neg]
    congr 1
    · ring
    · linear_combination Real.sin_sq_add_cos_sq t

/-- **C105** (agreement) About an axis of the coordinates it is the rotation in degrees. -/
theorem rotateAxis_axes {t : ℝ} (ht : 1 / 10 ^ 10 ≤ |t|) :
    rotateAxis (t • ![1, 0, 0]) = rotX (t * (180 / Real.pi)) ∧ rotateAxis (t • ![0, 1, 0]) = rotY (t * (180 / Real.pi)) ∧
    rotateAxis (t • ![0, 0, 1]) = rotZ (t * (180 / Real.pi)) := by
  have hpi := Real.pi_ne_zero
  have e : t * (180 / Real.pi) * (Real.pi / 180) = t := by field_simp
  refine ⟨?_, ?_, ?_⟩
  · rw [rotateAxis_unit (by simp) ht, turn_form (by simp)]
    ext i j
    simp only [Matrix.add_apply, Matrix.smul_apply, vecMulVec_apply]
    fin_cases i <;> fin_cases j <;> simp [omegaM, crossVecToMat, rotX, e]
  · rw [rotateAxis_unit (by simp) ht, turn_form (by simp)]
    ext i j
    simp only [Matrix.add_apply, Matrix.smul_apply, vecMulVec_apply]
    fin_cases i <;> fin_cases j <;> simp [omegaM, crossVecToMat, rotY, e]
  · rw [rotateAxis_unit (by simp) ht, turn_form (by simp)]
    ext i j
    simp only [Matrix.add_apply, Matrix.smul_apply, vecMulVec_apply]
    fin_cases i <;> fin_cases j <;> simp [omegaM, crossVecToMat, rotZ, e]

/-- a quarter turn about the diagonal of the first two axes -/
example : (1 : ℝ) / 10 ^ 10 ≤ |Real.pi / 2| ∧ (![3 / 5, 4 / 5, 0] : V3) 0 ^ 2 + (![3 / 5, 4 / 5, 0] : V3) 1 ^ 2 + (![3 / 5, 4 / 5, 0] : V3) 2 ^ 2 = 1 := by
  constructor
  · rw [abs_of_pos (by positivity)]
    have := Real.pi_gt_three
    have h2 : (1 : ℝ) / 10 ^ 10 ≤ 1 := by norm_num
    linarith
  · show (3 / 5 : ℝ) ^ 2 + (4 / 5) ^ 2 + 0 ^ 2 = 1
    norm_num

end DNDSR.Rot
