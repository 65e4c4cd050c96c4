import Verif.Spec.Recon
import Verif.Props.BaseValue
import Verif.Props.DiffMaps
import Mathlib.Algebra.BigOperators.Group.Finset.Basic
import Mathlib.Algebra.BigOperators.Ring.Finset
import Mathlib.Algebra.Order.BigOperators.Group.Finset
import Mathlib.Tactic.Positivity
import Mathlib.Tactic.Ring
import Mathlib.Tactic.Linarith

namespace DNDSR.Rec

open Matrix Jet

variable {d : Nat}

/-! ## The contraction is a scalar product -/

theorem contract_comm (k : Nat) (f g : (Fin d → ℝ) → ℝ) (p : Fin d → ℝ) : contract k f g p = contract k g f p := by
  induction k generalizing f g with
  | zero => exact mul_comm _ _
  | succ k ih => exact Finset.sum_congr rfl fun i _ => ih _ _

theorem contract_self (k : Nat) (f : (Fin d → ℝ) → ℝ) (p : Fin d → ℝ) : 0 ≤ contract k f f p := by
  induction k generalizing f with
  | zero => exact mul_self_nonneg _
  | succ k ih => exact Finset.sum_nonneg fun i _ => ih _

theorem Smooth.lin {f g : (Fin d → ℝ) → ℝ} (hf : Smooth f) (hg : Smooth g) (a b : ℝ) : Smooth fun z => a * f z + b * g z :=
  ContDiff.add (contDiff_const.mul hf) (contDiff_const.mul hg)

theorem pd_lin {f g : (Fin d → ℝ) → ℝ} (hf : Smooth f) (hg : Smooth g) (a b : ℝ) (i : Fin d) :
    pd i (fun z => a * f z + b * g z) = fun z => a * pd i f z + b * pd i g z := by
  have h1 : Smooth fun z => a * f z := contDiff_const.mul hf
  have h2 : Smooth fun z => b * g z := contDiff_const.mul hg
  rw [pd_add h1.differentiable h2.differentiable, pd_const_mul, pd_const_mul]

theorem contract_lin (k : Nat) {f g h : (Fin d → ℝ) → ℝ} (hf : Smooth f) (hg : Smooth g) (a b : ℝ) (p : Fin d → ℝ) :
    contract k (fun z => a * f z + b * g z) h p = a * contract k f h p + b * contract k g h p := by
  induction k generalizing f g h with
  | zero => simp only [contract]; ring
  | succ k ih =>
    simp only [contract]
    rw [Finset.mul_sum, Finset.mul_sum, ← Finset.sum_add_distrib]
    exact Finset.sum_congr rfl fun i _ => by rw [pd_lin hf hg, ih (hf.pd i) (hg.pd i)]

/-- a constant has no derivatives -/
theorem pd_const (i : Fin d) (c : ℝ) : pd i (fun _ : Fin d → ℝ => c) = fun _ => 0 := by
  funext x
  unfold pd
  exact deriv_const _ _

theorem contract_zero_left (k : Nat) (h : (Fin d → ℝ) → ℝ) (p : Fin d → ℝ) : contract k (fun _ => 0) h p = 0 := by
  induction k generalizing h with
  | zero => simp [contract]
  | succ k ih =>
    simp only [contract]
    exact Finset.sum_eq_zero fun i _ => by rw [pd_const, ih]

theorem contract_const (k : Nat) (f : (Fin d → ℝ) → ℝ) (c : ℝ) (p : Fin d → ℝ) :
    contract k f (fun _ => c) p = if k = 0 then f p * c else 0 := by
  cases k with
  | zero => rfl
  | succ k =>
    simp only [contract]
    rw [if_neg (Nat.succ_ne_zero k)]
    exact Finset.sum_eq_zero fun i _ => by rw [pd_const, contract_comm, contract_zero_left]

/-! ## The scalar product of a face -/

/-- the scalar product that belongs to `facePenalty` -/
noncomputable def ip (S : Space) (Fr : Frame d) (F : FaceFn) (m : Nat) (f g : (Fin d → ℝ) → ℝ) (p : Fin d → ℝ) : ℝ :=
  if F.anisotropic then ∑ k ∈ Finset.range (m + 1), F.weight k ^ 2 * 1 ^ (2 * k) *
    contract k (fun y => f (affine (Fr.block (coordTrans S F)) p y)) (fun y => g (affine (Fr.block (coordTrans S F)) p y)) 0
  else ∑ k ∈ Finset.range (m + 1), F.weight k ^ 2 * faceL S F ^ (2 * k) * contract k f g p

variable {S : Space} {Fr : Frame d} {F : FaceFn} {m : Nat} {p : Fin d → ℝ}

theorem ip_self_eq (f : (Fin d → ℝ) → ℝ) : ip S Fr F m f f p = facePenalty S Fr F m f p := rfl

theorem ip_comm (f g : (Fin d → ℝ) → ℝ) : ip S Fr F m f g p = ip S Fr F m g f p := by
  unfold ip
  split <;> exact Finset.sum_congr rfl fun k _ => by rw [contract_comm]

theorem ip_nonneg (f : (Fin d → ℝ) → ℝ) : 0 ≤ ip S Fr F m f f p := by
  unfold ip
  have h : ∀ k (L : ℝ), 0 ≤ L ^ (2 * k) := fun k L => by rw [pow_mul]; positivity
  split
  · exact Finset.sum_nonneg fun k _ => mul_nonneg (mul_nonneg (sq_nonneg _) (h _ _)) (contract_self _ _ _)
  · exact Finset.sum_nonneg fun k _ => mul_nonneg (mul_nonneg (sq_nonneg _) (h _ _)) (contract_self _ _ _)

theorem ip_lin {f g : (Fin d → ℝ) → ℝ} (hf : Smooth f) (hg : Smooth g) (h : (Fin d → ℝ) → ℝ) (a b : ℝ) :
    ip S Fr F m (fun z => a * f z + b * g z) h p = a * ip S Fr F m f h p + b * ip S Fr F m g h p := by
  unfold ip
  split
  · have hf' : Smooth fun y => f (affine (Fr.block (coordTrans S F)) p y) := hf.comp (affine_smooth _ _)
    have hg' : Smooth fun y => g (affine (Fr.block (coordTrans S F)) p y) := hg.comp (affine_smooth _ _)
    rw [Finset.mul_sum, Finset.mul_sum, ← Finset.sum_add_distrib]
    exact Finset.sum_congr rfl fun k _ => by rw [contract_lin k hf' hg']; ring
  · rw [Finset.mul_sum, Finset.mul_sum, ← Finset.sum_add_distrib]
    exact Finset.sum_congr rfl fun k _ => by rw [contract_lin k hf hg]; ring

theorem ip_const (f : (Fin d → ℝ) → ℝ) (c : ℝ) : ip S Fr F m f (fun _ => c) p = F.weight 0 ^ 2 * (f p * c) := by
  have e : ∀ T : Matrix (Fin d) (Fin d) ℝ, affine T p 0 = p := fun T => by funext a; simp [affine]
  unfold ip
  split
  · rw [Finset.sum_eq_single 0]
    · rw [contract_const, if_pos rfl, e]; ring
    · intro k _ hk; rw [contract_const, if_neg hk]; ring
    · intro h; exact absurd (Finset.mem_range.mpr (Nat.succ_pos m)) h
  · rw [Finset.sum_eq_single 0]
    · rw [contract_const, if_pos rfl]; ring
    · intro k _ hk; rw [contract_const, if_neg hk]; ring
    · intro h; exact absurd (Finset.mem_range.mpr (Nat.succ_pos m)) h

theorem smooth_sum {N : Nat} {φ : Fin N → (Fin d → ℝ) → ℝ} (hφ : ∀ j, Smooth (φ j)) (x : Fin N → ℝ) : Smooth fun z => ∑ j, x j * φ j z :=
  ContDiff.sum fun j _ => contDiff_const.mul (hφ j)

theorem smooth_const (c : ℝ) : Smooth fun _ : Fin d → ℝ => c := contDiff_const

theorem ip_sum {N : Nat} {φ : Fin N → (Fin d → ℝ) → ℝ} (hφ : ∀ j, Smooth (φ j)) (x : Fin N → ℝ) (h : (Fin d → ℝ) → ℝ) :
    ip S Fr F m (fun z => ∑ j, x j * φ j z) h p = ∑ j, x j * ip S Fr F m (φ j) h p := by
  induction N with
  | zero =>
    simp only [Fin.sum_univ_zero]
    have := ip_lin (S := S) (Fr := Fr) (F := F) (m := m) (p := p) (smooth_const 0) (smooth_const 0) h 0 0
    simpa using this
  | succ N ih =>
    have e : (fun z => ∑ j, x j * φ j z) = fun z => x 0 * φ 0 z + 1 * ∑ j : Fin N, x j.succ * φ j.succ z := by
      funext z; rw [Fin.sum_univ_succ, one_mul]
    rw [e, ip_lin (hφ 0) (smooth_sum (fun j => hφ j.succ) fun j => x j.succ), ih (fun j => hφ j.succ) fun j => x j.succ, Fin.sum_univ_succ, one_mul]

/-! ## Sums over faces and points -/

/-- the sum over the faces and their points -/
noncomputable def total {α : Type} (fs : List α) (q : α → List QPoint) (h : α → QPoint → ℝ) : ℝ := (fs.map fun s => ((q s).map (h s)).sum).sum

variable {α : Type} {fs : List α} {q : α → List QPoint}

theorem total_congr {h h' : α → QPoint → ℝ} (e : ∀ s ∈ fs, ∀ g ∈ q s, h s g = h' s g) : total fs q h = total fs q h' := by
  unfold total
  congr 1
  exact List.map_congr_left fun s hs => by congr 1; exact List.map_congr_left fun g hg => e s hs g hg

theorem sum_add {β : Type} (l : List β) (h h' : β → ℝ) : (l.map fun s => h s + h' s).sum = (l.map h).sum + (l.map h').sum := by
  induction l with
  | nil => simp
  | cons a l ih => simp only [List.map_cons, List.sum_cons, ih]; ring

theorem sum_mul {β : Type} (l : List β) (c : ℝ) (h : β → ℝ) : (l.map fun s => c * h s).sum = c * (l.map h).sum := by
  induction l with
  | nil => simp
  | cons a l ih => simp only [List.map_cons, List.sum_cons, ih]; ring

theorem total_add (h h' : α → QPoint → ℝ) : total fs q (fun s g => h s g + h' s g) = total fs q h + total fs q h' := by
  unfold total
  rw [← sum_add]
  congr 1
  exact List.map_congr_left fun s _ => sum_add _ _ _

theorem total_mul (c : ℝ) (h : α → QPoint → ℝ) : total fs q (fun s g => c * h s g) = c * total fs q h := by
  unfold total
  rw [← sum_mul]
  congr 1
  exact List.map_congr_left fun s _ => sum_mul _ _ _

theorem total_sum {N : Nat} (h : Fin N → α → QPoint → ℝ) : total fs q (fun s g => ∑ j, h j s g) = ∑ j, total fs q (h j) := by
  induction N with
  | zero =>
    simp only [Fin.sum_univ_zero]
    have := total_mul (fs := fs) (q := q) 0 fun _ _ => 0
    simpa using this
  | succ N ih => simp only [Fin.sum_univ_succ]; rw [total_add, ih]

theorem total_nonneg {h : α → QPoint → ℝ} (e : ∀ s ∈ fs, ∀ g ∈ q s, 0 ≤ h s g) : 0 ≤ total fs q h := by
  unfold total
  refine List.sum_nonneg fun y hy => ?_
  obtain ⟨s, hs, rfl⟩ := List.mem_map.mp hy
  refine List.sum_nonneg fun z hz => ?_
  obtain ⟨g, hg, rfl⟩ := List.mem_map.mp hz
  exact e s hs g hg

/-! ## Least squares -/

/-- the normal equations say that the sum of squares is least -/
theorem least_iff {N : Nat} (W : α → QPoint → ℝ) (hW : ∀ s ∈ fs, ∀ g ∈ q s, 0 ≤ W s g) (F : α → FaceFn) (pt : α → QPoint → Fin d → ℝ)
    {φ : Fin N → (Fin d → ℝ) → ℝ} (hφ : ∀ j, Smooth (φ j)) {T : α → QPoint → (Fin d → ℝ) → ℝ} (hT : ∀ s ∈ fs, ∀ g ∈ q s, Smooth (T s g))
    (u : ℝ) (x : Fin N → ℝ) :
    (∀ i, total fs q (fun s g => W s g * ip S Fr (F s) m (φ i) (fun z => (u + ∑ j, x j * φ j z) - T s g z) (pt s g)) = 0) ↔
    ∀ y : Fin N → ℝ,
      total fs q (fun s g => W s g * facePenalty S Fr (F s) m (fun z => (u + ∑ j, x j * φ j z) - T s g z) (pt s g)) ≤
      total fs q (fun s g => W s g * facePenalty S Fr (F s) m (fun z => (u + ∑ j, y j * φ j z) - T s g z) (pt s g)) := by
  have sJ : ∀ y : Fin N → ℝ, ∀ s ∈ fs, ∀ g ∈ q s, Smooth fun z => (u + ∑ j, y j * φ j z) - T s g z := fun y s hs g hg =>
    ContDiff.sub ((smooth_const u).add (smooth_sum hφ y)) (hT s hs g hg)
  -- the energy along a direction
  have expand : ∀ z : Fin N → ℝ,
      total fs q (fun s g => W s g * facePenalty S Fr (F s) m (fun w => (u + ∑ j, (x j + z j) * φ j w) - T s g w) (pt s g)) =
      total fs q (fun s g => W s g * facePenalty S Fr (F s) m (fun w => (u + ∑ j, x j * φ j w) - T s g w) (pt s g)) +
      2 * ∑ i, z i * total fs q (fun s g => W s g * ip S Fr (F s) m (φ i) (fun w => (u + ∑ j, x j * φ j w) - T s g w) (pt s g)) +
      total fs q (fun s g => W s g * ip S Fr (F s) m (fun w => ∑ j, z j * φ j w) (fun w => ∑ j, z j * φ j w) (pt s g)) := fun z => by
    have e1 : ∑ i, z i * total fs q (fun s g => W s g * ip S Fr (F s) m (φ i) (fun w => (u + ∑ j, x j * φ j w) - T s g w) (pt s g)) =
        total fs q (fun s g => W s g * ip S Fr (F s) m (fun w => ∑ j, z j * φ j w) (fun w => (u + ∑ j, x j * φ j w) - T s g w) (pt s g)) := by
      rw [total_congr fun s _ g _ => by rw [ip_sum hφ, Finset.mul_sum], total_sum]
      refine Finset.sum_congr rfl fun i _ => ?_
      rw [← total_mul]
      exact total_congr fun s _ g _ => by ring
    rw [e1, ← total_mul, ← total_add, ← total_add]
    refine total_congr fun s hs g hg => ?_
    have e2 : (fun w => (u + ∑ j, (x j + z j) * φ j w) - T s g w) =
        fun w => 1 * ((u + ∑ j, x j * φ j w) - T s g w) + 1 * ∑ j, z j * φ j w := by
      funext w
      simp only [add_mul, Finset.sum_add_distrib]
      ring
    have sx := sJ x s hs g hg
    have sz := smooth_sum hφ z
    rw [← ip_self_eq, ← ip_self_eq, e2, ip_lin sx sz, ip_comm _ (fun w => 1 * _ + 1 * _), ip_lin sx sz, ip_comm (fun w => ∑ j, z j * φ j w) (fun w => 1 * _ + 1 * _),
      ip_lin sx sz, ip_comm (fun w => u + ∑ j, x j * φ j w - T s g w) (fun w => ∑ j, z j * φ j w)]
    ring
  have nonneg : ∀ z : Fin N → ℝ, 0 ≤ total fs q (fun s g => W s g * ip S Fr (F s) m (fun w => ∑ j, z j * φ j w) (fun w => ∑ j, z j * φ j w) (pt s g)) :=
    fun z => total_nonneg fun s hs g hg => mul_nonneg (hW s hs g hg) (ip_nonneg _)
  constructor
  · intro h y
    have := expand fun j => y j - x j
    simp only [add_sub_cancel] at this
    rw [this]
    have z : ∑ i, (y i - x i) * total fs q (fun s g => W s g * ip S Fr (F s) m (φ i) (fun w => (u + ∑ j, x j * φ j w) - T s g w) (pt s g)) = 0 :=
      Finset.sum_eq_zero fun i _ => by rw [h i, mul_zero]
    rw [z]
    have := nonneg fun j => y j - x j
    linarith
  · intro h i
    set G := total fs q (fun s g => W s g * ip S Fr (F s) m (φ i) (fun z => (u + ∑ j, x j * φ j z) - T s g z) (pt s g)) with hG
    set Q := total fs q (fun s g => W s g * ip S Fr (F s) m (φ i) (φ i) (pt s g)) with hQ
    have key : ∀ t : ℝ, 0 ≤ 2 * t * G + t ^ 2 * Q := fun t => by
      have h1 := h fun j => x j + if j = i then t else 0
      have h2 := expand fun j => if j = i then t else 0
      rw [h2] at h1
      have e1 : ∀ w, (∑ j, (if j = i then t else 0) * φ j w) = t * φ i w := fun w => by
        rw [Finset.sum_eq_single i]
        · rw [if_pos rfl]
        · intro j _ hj; rw [if_neg hj, zero_mul]
        · intro hi; exact absurd (Finset.mem_univ i) hi
      have e2 : ∀ w : Fin N → ℝ, (∑ j, (if j = i then t else 0) * w j) = t * w i := fun w => by
        rw [Finset.sum_eq_single i]
        · rw [if_pos rfl]
        · intro j _ hj; rw [if_neg hj, zero_mul]
        · intro hi; exact absurd (Finset.mem_univ i) hi
      rw [e2] at h1
      simp only [e1] at h1
      have e3 : total fs q (fun s g => W s g * ip S Fr (F s) m (fun w => t * φ i w) (fun w => t * φ i w) (pt s g)) = t ^ 2 * Q := by
        rw [hQ, ← total_mul]
        refine total_congr fun s _ g _ => ?_
        have e4 : ∀ f, ip S Fr (F s) m (fun w => t * φ i w) f (pt s g) = t * ip S Fr (F s) m (φ i) f (pt s g) := fun f => by
          have := ip_lin (S := S) (Fr := Fr) (F := F s) (m := m) (p := pt s g) (hφ i) (hφ i) f t 0
          simpa using this
        rw [e4, ip_comm, e4]
        ring
      rw [e3] at h1
      have : G = _ := hG
      linarith
    have hQ0 : 0 ≤ Q := total_nonneg fun s hs g hg => mul_nonneg (hW s hs g hg) (ip_nonneg _)
    have h1 := key (-G / (Q + 1))
    have h2 : 2 * (-G / (Q + 1)) * G + (-G / (Q + 1)) ^ 2 * Q = -(G ^ 2 * (Q + 2)) / (Q + 1) ^ 2 := by
      have : Q + 1 ≠ 0 := by linarith
      field_simp
      ring
    rw [h2] at h1
    have h3 : 0 < (Q + 1) ^ 2 := by positivity
    have h4 : 0 ≤ -(G ^ 2 * (Q + 2)) := by
      by_contra hc
      have := div_neg_of_neg_of_pos (not_le.mp hc) h3
      linarith
    have h5 : G ^ 2 = 0 := by nlinarith [sq_nonneg G]
    exact pow_eq_zero_iff (two_ne_zero) |>.mp h5

end DNDSR.Rec
