import Verif.Model.Rbf
import Verif.Spec.Rbf
import Mathlib.LinearAlgebra.Matrix.NonsingularInverse
import Mathlib.Tactic.Linarith
import Mathlib.Tactic.Ring
import Mathlib.Tactic.FieldSimp
import Mathlib.Tactic.NormNum
import Mathlib.Tactic.FinCases

/-!
# C107: nodes inside the mesh follow the boundary
-/

namespace DNDSR.Rbf

open DNDSR DNDSR.Rot Matrix

/-- what is asked of the solver of linear systems -/
def Solver.Correct (S : Solver) : Prop :=
  ∀ {ι : Type} [Fintype ι] [DecidableEq ι] (A : Matrix ι ι ℝ) (b : Matrix ι (Fin 3) ℝ), IsUnit A.det → A * S.solve A b = b

/-- the radial function of a kernel of radius `R` -/
noncomputable def radial (o : Info) (d : ℝ) : ℝ := phi o.kernel (d / o.radius)

theorem basis_apply {ι κ : Type} (o : Info) (cent : ι → V3) (xs : κ → V3) (i : ι) (j : κ) :
    basis o.kernel o.radius cent xs i j = radial o (Rot.norm (xs j - cent i)) := by
  simp [basis, radial, div_eq_mul_inv]

theorem norm_sub_comm (a b : V3) : Rot.norm (a - b) = Rot.norm (b - a) := by
  simp only [Rot.norm, Pi.sub_apply]; congr 1; ring

theorem norm_nonneg (a : V3) : 0 ≤ Rot.norm a := Real.sqrt_nonneg _

theorem basis_symm {n : Nat} (o : Info) (xs : Fin n → V3) : (basis o.kernel o.radius xs xs)ᵀ = basis o.kernel o.radius xs xs := by
  ext i j
  rw [transpose_apply, basis_apply, basis_apply, norm_sub_comm]

/-- the solvability of the interpolation is the regularity of its matrix -/
theorem solvable_iff {n : Nat} (o : Info) (xs : Fin n → V3) :
    Solvable (radial o) xs ↔ IsUnit (basis o.kernel o.radius xs xs).det := by
  constructor
  · intro h
    rw [← Matrix.isUnit_iff_isUnit_det]
    -- a right inverse, column by column
    have hc : ∀ j : Fin n, ∃ a : Fin n → ℝ, basis o.kernel o.radius xs xs *ᵥ a = Pi.single j 1 := by
      intro j
      obtain ⟨u, ⟨a, ha⟩, hu⟩ := h (fun i _ => if i = j then 1 else 0)
      refine ⟨fun i => a i 0, ?_⟩
      ext i
      have h1 := congrFun (hu i) 0
      rw [ha] at h1
      rw [← basis_symm]
      simp only [mulVec, dotProduct, transpose_apply, basis_apply]
      simp only [Finset.sum_apply, Pi.smul_apply, smul_eq_mul] at h1
      rw [h1, Pi.single_apply]
    choose a ha using hc
    have hm : basis o.kernel o.radius xs xs * Matrix.of (fun i j => a j i) = 1 := by
      ext i j
      have := congrFun (ha j) i
      simp only [mulVec, dotProduct] at this
      rw [mul_apply]
      simp only [of_apply]
      rw [this, one_apply, Pi.single_apply]
    exact (Matrix.isUnit_iff_isUnit_det _).mpr (Matrix.isUnit_det_of_right_inverse hm)
  · intro h ds
    have hs := Matrix.mul_nonsing_inv _ h
    refine ⟨fun x => ∑ i, radial o (Rot.norm (x - xs i)) • ((basis o.kernel o.radius xs xs)⁻¹ * Matrix.of ds) i, ⟨_, fun x => rfl⟩, ?_⟩
    intro j
    ext k
    have h1 : (basis o.kernel o.radius xs xs * ((basis o.kernel o.radius xs xs)⁻¹ * Matrix.of ds)) j k = ds j k := by
      rw [← Matrix.mul_assoc, hs, Matrix.one_mul]; rfl
    rw [← h1, mul_apply]
    simp only [Finset.sum_apply, Pi.smul_apply, smul_eq_mul]
    refine Finset.sum_congr rfl fun i _ => ?_
    rw [basis_apply, norm_sub_comm]

/-- **C107** Where any values can be met there is exactly one interpolation. -/
theorem interpolation_unique {n : Nat} (o : Info) (xs ds : Fin n → V3) (hs : Solvable (radial o) xs) (u v : V3 → V3)
    (hu : Interpolates (radial o) xs ds u) (hv : Interpolates (radial o) xs ds v) : u = v := by
  have hd := (solvable_iff o xs).mp hs
  obtain ⟨⟨a, ha⟩, hu⟩ := hu
  obtain ⟨⟨b, hb⟩, hv⟩ := hv
  have hab : Matrix.of a = Matrix.of b := by
    have h1 : ∀ c : Fin n → V3, (∀ j, ∑ i, radial o (Rot.norm (xs j - xs i)) • c i = ds j) →
        basis o.kernel o.radius xs xs * Matrix.of c = Matrix.of ds := by
      intro c hc
      ext j k
      have := congrFun (hc j) k
      simp only [Finset.sum_apply, Pi.smul_apply, smul_eq_mul] at this
      rw [mul_apply]
      simp only [of_apply, basis_apply]
      rw [← this]
      exact Finset.sum_congr rfl fun i _ => by rw [norm_sub_comm]
    have e1 := h1 a fun j => by rw [← ha, hu]
    have e2 := h1 b fun j => by rw [← hb, hv]
    have h2 := congrArg (fun m => (basis o.kernel o.radius xs xs)⁻¹ * m) (e1.trans e2.symm)
    simpa [← Matrix.mul_assoc, Matrix.nonsing_inv_mul _ hd] using h2
  have hab' : a = b := hab
  funext x
  rw [ha, hb, hab']

/-- the value without polynomial is a sum of radial functions -/
theorem value_noPoly {n : Nat} (S : Solver) (o : Info) (xs ds : Fin n → V3) (q : V3) :
    value o.kernel o.radius xs (solveNoPoly S o.kernel o.radius xs ds) q =
      ∑ i, radial o (Rot.norm (q - xs i)) • S.solve (basis o.kernel o.radius xs xs) (Matrix.of ds) i := by
  ext k
  simp [value, solveNoPoly, basis_apply, Finset.sum_apply]

theorem basis_shift {n : Nat} (k : Kernel) (R : ℝ) (xs : Fin n → V3) (c : V3) :
    basis k R (fun i => xs i - c) (fun i => xs i - c) = basis k R xs xs := by
  ext i j; simp [basis]

theorem rMin_lt_iff {n : Nat} (h : 0 < n) (xs : Fin n → V3) (x : V3) (b : ℝ) :
    rMin h xs x < b ↔ ∃ i, Rot.norm (x - xs i) < b := by
  have e : ∀ i, Rot.norm (x - xs i) = Real.sqrt ((xs i 0 - x 0) ^ 2 + (xs i 1 - x 1) ^ 2 + (xs i 2 - x 2) ^ 2) := by
    intro i
    simp only [Rot.norm, Pi.sub_apply]
    congr 1; ring
  unfold rMin
  constructor
  · intro hb
    obtain ⟨i, -, hi⟩ := Finset.exists_mem_eq_inf' (Finset.univ_nonempty_iff.mpr ⟨(⟨0, h⟩ : Fin n)⟩)
      fun i => (xs i 0 - x 0) ^ 2 + (xs i 1 - x 1) ^ 2 + (xs i 2 - x 2) ^ 2
    rw [hi] at hb
    exact ⟨i, by rw [e]; exact hb⟩
  · rintro ⟨i, hi⟩
    rw [e] at hi
    exact lt_of_le_of_lt (Real.sqrt_le_sqrt (Finset.inf'_le _ (Finset.mem_univ i))) hi

/-- **C107** A node is moved by the interpolation of the displacements of the points found, where any displacements could be met, if one of them is nearer than the
bound; otherwise it stays. -/
theorem smoothDisp_spec {n : Nat} (S : Solver) (hS : S.Correct) (o : Info) (hk : o.kernel ≠ .unknown) (h : 0 < n) (xs ds : Fin n → V3)
    (hs : Solvable (radial o) xs) (u : V3 → V3) (hu : Interpolates (radial o) xs ds u) (x : V3) :
    ((∃ i, Rot.norm (x - xs i) < o.bound) → smoothDisp S o xs ds x = .ok (u x)) ∧
      ((∀ i, o.bound ≤ Rot.norm (x - xs i)) → smoothDisp S o xs ds x = .ok 0) := by
  constructor
  · intro hb
    unfold smoothDisp
    rw [dif_pos h, if_pos ((rMin_lt_iff h xs x _).mpr hb), if_neg hk]
    refine congrArg Res.ok ?_
    have hd := (solvable_iff o xs).mp hs
    have hv : Interpolates (radial o) xs ds
        (fun y => value o.kernel o.radius (fun i => xs i - mean xs) (solveNoPoly S o.kernel o.radius (fun i => xs i - mean xs) ds) (y - mean xs)) := by
      refine ⟨⟨S.solve (basis o.kernel o.radius xs xs) (Matrix.of ds), fun y => ?_⟩, fun j => ?_⟩
      · show value _ _ _ _ _ = _
        rw [value_noPoly, basis_shift]
        refine Finset.sum_congr rfl fun i _ => ?_
        rw [sub_sub_sub_cancel_right]
      · show value _ _ _ _ _ = _
        rw [value_noPoly, basis_shift]
        have := hS (basis o.kernel o.radius xs xs) (Matrix.of ds) hd
        ext k
        have h1 := congrFun (congrFun this j) k
        rw [mul_apply] at h1
        simp only [of_apply, basis_apply] at h1
        rw [← h1]
        simp only [Finset.sum_apply, Pi.smul_apply, smul_eq_mul]
        refine Finset.sum_congr rfl fun i _ => ?_
        rw [sub_sub_sub_cancel_right, norm_sub_comm]
    exact congrFun (interpolation_unique o xs ds hs _ _ hv hu) x
  · intro hb
    unfold smoothDisp
    rw [dif_pos h, if_neg]
    rw [rMin_lt_iff]
    push Not
    exact hb

end DNDSR.Rbf
