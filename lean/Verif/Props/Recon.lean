import Verif.Proof.ReconRegular
import Mathlib.LinearAlgebra.Matrix.ToLinearEquiv
import Mathlib.LinearAlgebra.Matrix.DotProduct

/-!
# C80: the reconstruction of a cell is least squares over its faces

The row of the reconstruction system that belongs to a cell, applied to what is on the other side of its faces, gives exactly the
polynomial that differs least from it: in value and derivatives, with the weights and lengths of the faces.
-/

namespace DNDSR.Rec

open Matrix Jet

section generic

variable {d : Nat} {S : Space} {Fr : Frame d} {R : List (List (Fin d))} (L : Laws S Fr R) {N V : Nat}

include L in
theorem quad_form (W : Wrap) {m : Nat} (C : CellBase) (sides : List Side) {A : Matrix (Fin N) (Fin N) ℝ}
    (hA : ∀ i j, A i j = total sides (·.q) fun s g => g.w * g.det * ip S Fr s.F m (Fr.base C i) (Fr.base C j) (pt W Fr s g)) (y : Fin N → ℝ) :
    y ⬝ᵥ A *ᵥ y = total sides (·.q) fun s g => g.w * g.det * facePenalty S Fr s.F m (poly Fr C y 0) (pt W Fr s g) := by
  have e : ∀ i, (A *ᵥ y) i = total sides (·.q) fun s g => g.w * g.det * ip S Fr s.F m (Fr.base C i) (poly Fr C y 0) (pt W Fr s g) := by
    intro i
    rw [Matrix.mulVec, dotProduct]
    have : ∀ j, A i j * y j = total sides (·.q) fun s g => g.w * g.det * (y j * ip S Fr s.F m (Fr.base C i) (Fr.base C j) (pt W Fr s g)) := by
      intro j
      rw [hA, mul_comm, ← total_mul]
      exact total_congr fun s _ g _ => by ring
    rw [Finset.sum_congr rfl fun j _ => this j, ← total_sum]
    refine total_congr fun s _ g _ => ?_
    rw [← Finset.mul_sum]
    congr 1
    unfold poly
    rw [ip_right_sum L _ fun j : Fin N => L.smooth C j]
    ring
  rw [dotProduct, Finset.sum_congr rfl fun i _ => by rw [e i, ← total_mul], ← total_sum]
  refine total_congr fun s _ g _ => ?_
  rw [← ip_self_eq]
  have h : ip S Fr s.F m (poly Fr C y 0) (poly Fr C y 0) (pt W Fr s g) =
      ∑ j, y j * ip S Fr s.F m (poly Fr C y 0) (Fr.base C j) (pt W Fr s g) := by
    conv_lhs => rw [show (poly Fr C y 0) = fun z => 0 + ∑ j : Fin N, y j * Fr.base C j z from rfl]
    rw [ip_right_sum L _ fun j : Fin N => L.smooth C j, zero_mul, zero_add]
    rfl
  rw [h, Finset.mul_sum]
  exact Finset.sum_congr rfl fun j _ => by rw [ip_comm (poly Fr C y 0)]; ring

theorem total_zero {sides : List Side} {h : Side → QPoint → ℝ} (hn : ∀ s ∈ sides, ∀ g ∈ s.q, 0 ≤ h s g)
    (h0 : total sides (·.q) h = 0) : ∀ s ∈ sides, ∀ g ∈ s.q, h s g = 0 := by
  intro s hs g hg
  unfold total at h0
  have n1 : ∀ s ∈ sides, 0 ≤ (s.q.map (h s)).sum := fun s hs => List.sum_nonneg fun z hz => by
    obtain ⟨g, hg, rfl⟩ := List.mem_map.mp hz
    exact hn s hs g hg
  have a := List.single_le_sum (l := sides.map fun s => (s.q.map (h s)).sum) (fun z hz => by
    obtain ⟨s, hs, rfl⟩ := List.mem_map.mp hz
    exact n1 s hs) _ (List.mem_map.mpr ⟨s, hs, rfl⟩)
  have b := List.single_le_sum (l := s.q.map (h s)) (fun z hz => by
    obtain ⟨g, hg, rfl⟩ := List.mem_map.mp hz
    exact hn s hs g hg) _ (List.mem_map.mpr ⟨g, hg, rfl⟩)
  have := hn s hs g hg
  rw [h0] at a
  linarith

theorem penalty_zero_of {F : FaceFn} {m : Nat} {f : (Fin d → ℝ) → ℝ} {p : Fin d → ℝ}
    (h : (∀ y, f y = 0) ∨ ((∀ k, 1 ≤ k → k ≤ m → F.weight k = 0) ∧ f p = 0)) : facePenalty S Fr F m f p = 0 := by
  have zero : ∀ (e : Nat) (q : Fin d → ℝ), contract e (fun _ : Fin d → ℝ => (0 : ℝ)) (fun _ => 0) q = 0 := fun e q => contract_zero_left e _ q
  have key : ∀ (l : ℝ) (f' : (Fin d → ℝ) → ℝ) (q : Fin d → ℝ), ((∀ y, f' y = 0) ∨ ((∀ k, 1 ≤ k → k ≤ m → F.weight k = 0) ∧ f' q = 0)) →
      penalty m F.weight l f' q = 0 := by
    intro l f' q h
    unfold penalty
    refine Finset.sum_eq_zero fun k hk => ?_
    rcases h with h | ⟨h1, h2⟩
    · rw [show f' = fun _ => 0 from funext h, zero, mul_zero]
    · cases k with
      | zero => simp [contract, h2]
      | succ k => rw [h1 (k + 1) (by omega) (by have := Finset.mem_range.mp hk; omega)]; ring
  have ea : ∀ T : Matrix (Fin d) (Fin d) ℝ, affine T p 0 = p := fun T => by funext a; simp [affine]
  unfold facePenalty
  split
  · exact key _ _ _ (h.imp (fun h y => h _) fun h => ⟨h.1, by rw [ea]; exact h.2⟩)
  · exact key _ _ _ h

theorem psd_kernel {A : Matrix (Fin N) (Fin N) ℝ} (hs : Aᵀ = A) (hp : ∀ y, 0 ≤ y ⬝ᵥ A *ᵥ y) {y : Fin N → ℝ} (h : y ⬝ᵥ A *ᵥ y = 0) : A *ᵥ y = 0 := by
  let z := A *ᵥ y
  let b := z ⬝ᵥ z
  let c := z ⬝ᵥ A *ᵥ z
  have hyz : y ⬝ᵥ A *ᵥ z = b := by
    rw [Matrix.dotProduct_mulVec, ← Matrix.mulVec_transpose, hs]
  have hc : 0 ≤ c := hp z
  have q : ∀ t : ℝ, (y + t • z) ⬝ᵥ A *ᵥ (y + t • z) = 2 * t * b + t ^ 2 * c := by
    intro t
    rw [Matrix.mulVec_add, Matrix.mulVec_smul, add_dotProduct, dotProduct_add, dotProduct_add, h, smul_dotProduct, smul_dotProduct,
      dotProduct_smul, dotProduct_smul, hyz]
    simp only [smul_eq_mul]
    show 0 + t * b + (t * b + t * (t * c)) = _
    ring
  have h1 := hp (y + (-b / (1 + c)) • z)
  rw [q] at h1
  have hb : b = 0 := by
    have hc1 : 0 < 1 + c := by linarith
    have e : 2 * (-b / (1 + c)) * b + (-b / (1 + c)) ^ 2 * c = -(b ^ 2 * (2 + c) / (1 + c) ^ 2) := by field_simp; ring
    rw [e] at h1
    have : 0 ≤ b ^ 2 * (2 + c) / (1 + c) ^ 2 := by positivity
    have h2 : b ^ 2 * (2 + c) / (1 + c) ^ 2 = 0 := by linarith
    have h3 : b ^ 2 * (2 + c) = 0 := by
      rcases div_eq_zero_iff.mp h2 with h | h
      · exact h
      · exact absurd h (by positivity)
    rcases mul_eq_zero.mp h3 with h | h
    · exact pow_eq_zero_iff (two_ne_zero) |>.mp h
    · linarith
  exact dotProduct_self_eq_zero.mp hb

include L in
/-- all of the claim, for any dimension -/
theorem row_claim (W : Wrap) {m : Nat} (hm : m ≤ 3) (hN : S.rows m = N + 1) (C : CellBase)
    (inv : Matrix (Fin N) (Fin N) ℝ → Matrix (Fin N) (Fin N) ℝ) (x : Matrix (Fin N) (Fin V) ℝ) (u : Fin V → ℝ)
    (fs : List (Side × Across N V)) (hs : ∀ sa ∈ fs, Sits W Fr C sa.1 ∧ Fits sa.1 sa.2) (hw : ∀ sa ∈ fs, ∀ g ∈ sa.1.q, 0 ≤ g.w * g.det) :
    ∃ A cs ps, recRow S W m N inv C (fs.map (·.1)) = .ok (A, inv A, cs) ∧ cs.length = fs.length ∧
      eachSide (fun p => pull S W m C (inv A) x u p.1 p.2) (fs.zip cs) = .ok ps ∧
      Aᵀ = A ∧ (∀ y, 0 ≤ y ⬝ᵥ A *ᵥ y) ∧ (IsUnit A.det ↔ Sees S W Fr m N C (fs.map (·.1))) ∧
      (inv A * A = 1 →
        (∀ z : Matrix (Fin N) (Fin V) ℝ, z = ps.sum ↔
          ∀ v y, energy S W Fr m C x u fs v (fun j => z j v) ≤ energy S W Fr m C x u fs v y) ∧
        ((∀ sa ∈ fs, Agrees W Fr m C x u sa) → ps.sum = x)) := by
  obtain ⟨A, cs, h1, h2, h3, ps, h4, h5⟩ := row_spec L W hm hN C inv x u fs hs
  have h3' : ∀ i j, A i j = total (fs.map (·.1)) (·.q) fun s g => g.w * g.det * ip S Fr s.F m (Fr.base C i) (Fr.base C j) (pt W Fr s g) := by
    intro i j
    rw [h3 i j]
    unfold total
    rw [List.map_map]
    rfl
  have hw' : ∀ s ∈ fs.map (·.1), ∀ g ∈ s.q, 0 ≤ g.w * g.det := fun s h => by
    obtain ⟨sa, hsa, rfl⟩ := List.mem_map.mp h
    exact hw sa hsa
  have hq := quad_form L W C (fs.map (·.1)) h3'
  have hn : ∀ y : Fin N → ℝ, ∀ s ∈ fs.map (·.1), ∀ g ∈ s.q, 0 ≤ g.w * g.det * facePenalty S Fr s.F m (poly Fr C y 0) (pt W Fr s g) :=
    fun y s hs g hg => mul_nonneg (hw' s hs g hg) (by rw [← ip_self_eq]; exact ip_nonneg _)
  have hsym : Aᵀ = A := by
    funext i j
    rw [Matrix.transpose_apply, h3, h3]
    exact total_congr fun _ _ _ _ => by rw [ip_comm]
  refine ⟨A, cs, ps, h1, h2, h4, hsym, fun y => by rw [hq]; exact total_nonneg (hn y), ?_, fun hinv => ?_⟩
  · constructor
    · intro hu y hy
      have h0 : A *ᵥ y = 0 := by
        refine psd_kernel hsym (fun y => by rw [hq]; exact total_nonneg (hn y)) ?_
        rw [hq]
        refine (total_congr fun s hs g hg => ?_).trans (?_ : total (fs.map (·.1)) (·.q) (fun _ _ => (0 : ℝ)) = 0)
        · rcases (hw' s hs g hg).eq_or_lt with h | h
          · rw [← h, zero_mul]
          · rw [show facePenalty S Fr s.F m (poly Fr C y 0) (pt W Fr s g) = 0 from hy s hs g hg h, mul_zero]
        · have := total_mul (fs := fs.map (·.1)) (q := fun s : Side => s.q) 0 fun _ _ => 0
          simpa using this
      have := congrArg (A⁻¹ *ᵥ ·) h0
      simpa [Matrix.mulVec_mulVec, Matrix.nonsing_inv_mul A hu] using this
    · intro hsees
      rw [isUnit_iff_ne_zero]
      intro hdet
      obtain ⟨y, hy, h0⟩ := Matrix.exists_mulVec_eq_zero_iff.mpr hdet
      refine hy (hsees y fun s hs g hg hpos => ?_)
      have := total_zero (hn y) (by rw [← hq, h0, dotProduct_zero]) s hs g hg
      exact (mul_eq_zero.mp this).resolve_left hpos.ne'
  · have hinv' : A * inv A = 1 := mul_eq_one_comm.mp hinv
    have hz : ∀ z : Matrix (Fin N) (Fin V) ℝ, z = ps.sum ↔
        ∀ v y, energy S W Fr m C x u fs v (fun j => z j v) ≤ energy S W Fr m C x u fs v y := by
      intro z
      rw [← row_least L W C x z u fs hs hw h3, h5]
      constructor
      · rintro rfl
        rw [← Matrix.mul_assoc, hinv', Matrix.one_mul]
      · intro h
        rw [← h, ← Matrix.mul_assoc, hinv, Matrix.one_mul]
    refine ⟨hz, fun hag => ((hz x).mpr fun v y => ?_).symm⟩
    have z : energy S W Fr m C x u fs v (fun j => x j v) = 0 := by
      unfold energy
      refine List.sum_eq_zero fun t ht => ?_
      obtain ⟨sa, hsa, rfl⟩ := List.mem_map.mp ht
      refine List.sum_eq_zero fun t ht => ?_
      obtain ⟨g, hg, rfl⟩ := List.mem_map.mp ht
      rw [penalty_zero_of, mul_zero]
      rcases hag sa hsa g hg v with h | ⟨h, h'⟩
      · exact .inl fun y => by rw [h y, sub_self]
      · exact .inr ⟨h, by rw [h']; exact sub_self _⟩
    rw [z]
    unfold energy
    refine List.sum_nonneg fun t ht => ?_
    obtain ⟨sa, hsa, rfl⟩ := List.mem_map.mp ht
    refine List.sum_nonneg fun t ht => ?_
    obtain ⟨g, hg, rfl⟩ := List.mem_map.mp ht
    exact mul_nonneg (hw sa hsa g hg) (by rw [← ip_self_eq]; exact ip_nonneg _)

end generic

variable {N V : Nat}

/-- **C80.** In the plane: the row of a cell is computed without an abort. Its matrix is symmetric and positive semidefinite; it has an inverse
exactly if no polynomial of mean zero is invisible on the faces. If the inverse is exact, then the sum of what the faces give, as the iterations
compute it, is the one polynomial that differs least from the neighbours and the boundary values, and a polynomial that agrees with them is
not changed. -/
theorem row_least_squares2 (W : Wrap) {m : Nat} (hm : m ≤ 3) (hN : space2.rows m = N + 1) (C : CellBase)
    (inv : Matrix (Fin N) (Fin N) ℝ → Matrix (Fin N) (Fin N) ℝ) (x : Matrix (Fin N) (Fin V) ℝ) (u : Fin V → ℝ)
    (fs : List (Side × Across N V)) (hs : ∀ sa ∈ fs, Sits W frame2 C sa.1 ∧ Fits sa.1 sa.2) (hw : ∀ sa ∈ fs, ∀ g ∈ sa.1.q, 0 ≤ g.w * g.det) :
    ∃ A cs ps, recRow space2 W m N inv C (fs.map (·.1)) = .ok (A, inv A, cs) ∧ cs.length = fs.length ∧
      eachSide (fun p => pull space2 W m C (inv A) x u p.1 p.2) (fs.zip cs) = .ok ps ∧
      Aᵀ = A ∧ (∀ y, 0 ≤ y ⬝ᵥ A *ᵥ y) ∧ (IsUnit A.det ↔ Sees space2 W frame2 m N C (fs.map (·.1))) ∧
      (inv A * A = 1 →
        (∀ z : Matrix (Fin N) (Fin V) ℝ, z = ps.sum ↔
          ∀ v y, energy space2 W frame2 m C x u fs v (fun j => z j v) ≤ energy space2 W frame2 m C x u fs v y) ∧
        ((∀ sa ∈ fs, Agrees W frame2 m C x u sa) → ps.sum = x)) :=
  row_claim laws2 W hm hN C inv x u fs hs hw

/-- **C80.** In space. -/
theorem row_least_squares3 (W : Wrap) {m : Nat} (hm : m ≤ 3) (hN : space3.rows m = N + 1) (C : CellBase)
    (inv : Matrix (Fin N) (Fin N) ℝ → Matrix (Fin N) (Fin N) ℝ) (x : Matrix (Fin N) (Fin V) ℝ) (u : Fin V → ℝ)
    (fs : List (Side × Across N V)) (hs : ∀ sa ∈ fs, Sits W frame3 C sa.1 ∧ Fits sa.1 sa.2) (hw : ∀ sa ∈ fs, ∀ g ∈ sa.1.q, 0 ≤ g.w * g.det) :
    ∃ A cs ps, recRow space3 W m N inv C (fs.map (·.1)) = .ok (A, inv A, cs) ∧ cs.length = fs.length ∧
      eachSide (fun p => pull space3 W m C (inv A) x u p.1 p.2) (fs.zip cs) = .ok ps ∧
      Aᵀ = A ∧ (∀ y, 0 ≤ y ⬝ᵥ A *ᵥ y) ∧ (IsUnit A.det ↔ Sees space3 W frame3 m N C (fs.map (·.1))) ∧
      (inv A * A = 1 →
        (∀ z : Matrix (Fin N) (Fin V) ℝ, z = ps.sum ↔
          ∀ v y, energy space3 W frame3 m C x u fs v (fun j => z j v) ≤ energy space3 W frame3 m C x u fs v y) ∧
        ((∀ sa ∈ fs, Agrees W frame3 m C x u sa) → ps.sum = x)) :=
  row_claim laws3 W hm hN C inv x u fs hs hw

/-- **C80.** The inverse exists in the plane: one point of one face with a positive weight is enough, if the face weighs every derivative. -/
theorem row_regular2 (W : Wrap) {m : Nat} (hm : m ≤ 3) (hN : space2.rows m = N + 1) (C : CellBase) (sides : List Side)
    (hT : IsUnit (Per.block C.axes).det) (hl : ∀ a : Fin 2, C.box a.castSucc ≠ 0 ∧ 0 ≤ C.box a.castSucc) {s : Side} (hs : s ∈ sides)
    {g : QPoint} (hg : g ∈ s.q) (hpos : 0 < g.w * g.det) (hw : ∀ k, 1 ≤ k → k ≤ m → s.F.weight k ≠ 0)
    (hL : if s.F.anisotropic then IsUnit (Per.block (coordTrans space2 s.F)).det else faceL space2 s.F ≠ 0) :
    Sees space2 W frame2 m N C sides := by
  obtain ⟨b, hb⟩ := local2_affine C
  have hl' : ∀ a : Fin 2, simpleScale2 C a.castSucc ≠ 0 := by
    have h0 := hl 0
    have h1 := hl 1
    have e : ∀ a : Fin 3, C.box a = (if C.localOrientation then C.majorHBox else C.alignedHBox) a := fun _ => rfl
    simp only [Fin.castSucc_zero, Fin.castSucc_one] at h0 h1
    have hmax : max (C.box 0) (C.box 1) ≠ 0 := (lt_of_lt_of_le (lt_of_le_of_ne h0.2 h0.1.symm) (le_max_left _ _)).ne'
    intro a
    unfold simpleScale2
    split
    · exact (hl a).1
    · match a with
      | 0 => exact hmax
      | 1 => exact hmax
  have rows : ∀ m : Fin 4, ∀ i : Fin 10, i.val + 1 < [1, 3, 6, 10].getD m.val 0 →
      (1 ≤ (rows2.getD (i + 1) []).length ∧ (rows2.getD (i + 1) []).length ≤ m.val) := by decide
  have hNm : [1, 3, 6, 10].getD m 0 = N + 1 := hN
  have hN10 : N < 10 := by
    have : ∀ m : Fin 4, [1, 3, 6, 10].getD m.val 0 ≤ 10 := by decide
    have := this ⟨m, by omega⟩
    simp only at this
    omega
  have perm : ∀ i j : Fin 9, (rows2.getD (i + 1) []).Perm (rows2.getD (j + 1) []) → i = j := by decide
  refine sees_of laws2 W C sides hT hl' (fun j y => ?_) (fun i j h => ?_) (fun j => ?_) hs hg hpos hw hL (b := b)
  · show monomial _ _ (C.local2 y) - _ = _
    rw [hb]
  · have := perm ⟨i, by omega⟩ ⟨j, by omega⟩ h
    exact Fin.ext (by simpa using this)
  · exact rows ⟨m, by omega⟩ ⟨j, by omega⟩ (by rw [hNm]; show (j : Nat) + 1 < N + 1; omega)

/-- **C80.** The inverse exists in space. -/
theorem row_regular3 (W : Wrap) {m : Nat} (hm : m ≤ 3) (hN : space3.rows m = N + 1) (C : CellBase) (sides : List Side)
    (hT : IsUnit C.axes.det) (hl : ∀ a, C.box a ≠ 0 ∧ 0 ≤ C.box a) {s : Side} (hs : s ∈ sides)
    {g : QPoint} (hg : g ∈ s.q) (hpos : 0 < g.w * g.det) (hw : ∀ k, 1 ≤ k → k ≤ m → s.F.weight k ≠ 0)
    (hL : if s.F.anisotropic then IsUnit (coordTrans space3 s.F).det else faceL space3 s.F ≠ 0) :
    Sees space3 W frame3 m N C sides := by
  obtain ⟨b, hb⟩ := local3_affine C
  have hl' : ∀ a, simpleScale3 C a ≠ 0 := by
    have hmax : max (max (C.box 0) (C.box 1)) (C.box 2) ≠ 0 :=
      (lt_of_lt_of_le (lt_of_le_of_ne (hl 2).2 (hl 2).1.symm) (le_max_right _ _)).ne'
    intro a
    unfold simpleScale3
    split
    · exact (hl a).1
    · exact hmax
  have rows : ∀ m : Fin 4, ∀ i : Fin 20, i.val + 1 < [1, 4, 10, 20].getD m.val 0 →
      (1 ≤ (rows3.getD (i + 1) []).length ∧ (rows3.getD (i + 1) []).length ≤ m.val) := by decide
  have hNm : [1, 4, 10, 20].getD m 0 = N + 1 := hN
  have hN20 : N < 20 := by
    have : ∀ m : Fin 4, [1, 4, 10, 20].getD m.val 0 ≤ 20 := by decide
    have := this ⟨m, by omega⟩
    simp only at this
    omega
  have perm : ∀ i j : Fin 19, (rows3.getD (i + 1) []).Perm (rows3.getD (j + 1) []) → i = j := by decide +kernel
  refine sees_of laws3 W C sides (T := C.axes) hT hl' (fun j y => ?_) (fun i j h => ?_) (fun j => ?_) hs hg hpos hw hL (b := b)
  · show monomial _ _ (C.local3 y) - _ = _
    rw [hb]
  · have := perm ⟨i, by omega⟩ ⟨j, by omega⟩ h
    exact Fin.ext (by simpa using this)
  · exact rows ⟨m, by omega⟩ ⟨j, by omega⟩ (by rw [hNm]; show (j : Nat) + 1 < N + 1; omega)

section demo

/-- a cell of half extents one -/
noncomputable def demoCell : CellBase := ⟨0, fun _ => 1, fun _ => 1, 1, fun _ => 0, false, true⟩

/-- a face that weighs everything up to second derivatives -/
noncomputable def demoFn : FaceFn := ⟨fun k => if k ≤ 2 then 1 else 0, fun _ => 1, ![1, 0, 0], 1, true, 1, false, 1⟩

/-- a face that weighs the values only -/
noncomputable def demoBnd : FaceFn := { demoFn with weight := fun k => if k = 0 then 1 else 0 }

theorem demo_length3 : faceL space3 demoFn ≠ 0 := by
  have h : scaleSq space3 demoFn = 3 := by simp [scaleSq, demoFn, space3, List.range_succ]; norm_num
  have e : faceL space3 demoFn = √(scaleSq space3 demoFn) * 1 := rfl
  rw [e, h, mul_one]
  exact (Real.sqrt_pos.mpr (by norm_num)).ne'

theorem demo_length2 : faceL space2 demoFn ≠ 0 := by
  have h : scaleSq space2 demoFn = 2 := by simp [scaleSq, demoFn, space2, List.range_succ]; norm_num
  have e : faceL space2 demoFn = √(scaleSq space2 demoFn) * 1 := rfl
  rw [e, h, mul_one]
  exact (Real.sqrt_pos.mpr (by norm_num)).ne'

/-- a face through a periodic boundary with a quarter turn, and a face at the boundary -/
noncomputable def demoSides (x' : Matrix (Fin 9) (Fin 2) ℝ) (u' : Fin 2 → ℝ) : List (Side × Across 9 2) :=
  [(⟨demoFn, -1, true, [⟨1, 2, ![1, 0, 0]⟩, ⟨0.5, 1, ![1, 0.5, 0]⟩], some demoCell⟩, .cell x' u'),
   (⟨demoBnd, 7, false, [⟨1, 1, ![0, 1, 0]⟩], none⟩, .bnd fun _ uBL u v => uBL v * 2 - u v)]

/-- The hypotheses are met in space, to second order, with two variables, through a periodic boundary: and the inverse exists. -/
example (x x' : Matrix (Fin 9) (Fin 2) ℝ) (u u' : Fin 2 → ℝ) :
    ∃ A cs ps, recRow space3 ⟨true, Per.quarter⟩ 2 9 (·⁻¹) demoCell ((demoSides x' u').map (·.1)) = .ok (A, A⁻¹, cs) ∧ A⁻¹ * A = 1 ∧
      eachSide (fun p => pull space3 ⟨true, Per.quarter⟩ 2 demoCell A⁻¹ x u p.1 p.2) ((demoSides x' u').zip cs) = .ok ps ∧
      ∀ v y, energy space3 ⟨true, Per.quarter⟩ frame3 2 demoCell x u (demoSides x' u') v (fun j => ps.sum j v) ≤
        energy space3 ⟨true, Per.quarter⟩ frame3 2 demoCell x u (demoSides x' u') v y := by
  have hr : Per.quarter.rotation 1 = !![0, -1, 0; 1, 0, 0; 0, 0, 1] := rfl
  have rigid : Per.Rigid (Per.quarter.rotation 1) := by
    refine ⟨?_, ?_⟩
    · rw [hr]; ext a b; fin_cases a <;> fin_cases b <;> simp [Matrix.mul_apply, Fin.sum_univ_three]
    · rw [hr]; ext a b; fin_cases a <;> fin_cases b <;> simp [Matrix.mul_apply, Fin.sum_univ_three]
  have mem : ∀ {sa}, sa ∈ demoSides x' u' → sa = (demoSides x' u').head (by simp [demoSides]) ∨
      sa = (demoSides x' u').getLast (by simp [demoSides]) := fun {sa} h => by
    simpa [demoSides] using h
  have hs : ∀ sa ∈ demoSides x' u', Sits ⟨true, Per.quarter⟩ frame3 demoCell sa.1 ∧ Fits sa.1 sa.2 := by
    intro sa h
    rcases mem h with rfl | rfl
    · refine ⟨⟨fun _ i hi => ?_, fun _ _ => trivial, fun _ _ _ _ => trivial⟩, (show (-1 : Int) ≤ 0 by decide), rfl⟩
      have : (1 : Fin 4) = i := Option.some.inj hi
      rw [← this]
      exact ⟨rigid, trivial⟩
    · refine ⟨⟨fun _ i hi => ?_, fun _ _ => trivial, fun _ _ _ _ => trivial⟩, (show (0 : Int) < 7 by decide), rfl⟩
      cases hi
  have hw : ∀ sa ∈ demoSides x' u', ∀ g ∈ sa.1.q, 0 ≤ g.w * g.det := by
    intro sa h g hg
    rcases mem h with rfl | rfl
    · have : g = ⟨1, 2, ![1, 0, 0]⟩ ∨ g = ⟨0.5, 1, ![1, 0.5, 0]⟩ := by simpa [demoSides] using hg
      rcases this with rfl | rfl <;> norm_num
    · have : g = ⟨1, 1, ![0, 1, 0]⟩ := by simpa [demoSides] using hg
      rw [this]; norm_num
  obtain ⟨A, cs, ps, h1, -, h2, -, -, h3, h4⟩ := row_least_squares3 ⟨true, Per.quarter⟩ (m := 2) (by omega) rfl demoCell (·⁻¹) x u (demoSides x' u') hs hw
  have hu : IsUnit A.det := h3.mpr (row_regular3 _ (by omega) rfl demoCell _ (by
      show IsUnit (if false then _ else (1 : Per.M3)).det
      simp) (fun _ => ⟨one_ne_zero, zero_le_one⟩) (s := ((demoSides x' u').head (by simp [demoSides])).1)
    (List.mem_map.mpr ⟨_, List.head_mem _, rfl⟩) (g := ⟨1, 2, ![1, 0, 0]⟩) (by simp [demoSides]) (by norm_num) (fun k _ h => by
      show (if k ≤ 2 then (1 : ℝ) else 0) ≠ 0
      rw [if_pos h]; exact one_ne_zero) (by
      show if false = true then _ else faceL space3 demoFn ≠ 0
      exact demo_length3))
  have hinv : A⁻¹ * A = 1 := Matrix.nonsing_inv_mul A hu
  exact ⟨A, cs, ps, h1, hinv, h2, (((h4 hinv).1 ps.sum).mp rfl)⟩

/-- The agreement is met in the plane: two cells with the same polynomial and a boundary that returns the inner value. -/
example (x : Matrix (Fin 5) (Fin 1) ℝ) (u : Fin 1 → ℝ) :
    ∀ sa ∈ ([(⟨demoFn, 0, true, [⟨1, 2, ![1, 0, 0]⟩], some demoCell⟩, .cell x u),
      (⟨demoBnd, 7, false, [⟨1, 1, ![0, 1, 0]⟩], none⟩, .bnd fun _ uBL _ => uBL)] : List (Side × Across 5 1)),
      (Sits ⟨false, Per.quarter⟩ frame2 demoCell sa.1 ∧ Fits sa.1 sa.2) ∧ Agrees ⟨false, Per.quarter⟩ frame2 2 demoCell x u sa := by
  intro sa h
  rcases List.mem_cons.mp h with rfl | h
  · refine ⟨⟨⟨fun h => absurd h (by decide), ?_, ?_⟩, (show (0 : Int) ≤ 0 by decide), rfl⟩, fun g _ v => .inl fun y => ?_⟩
    · intro g hg
      rw [List.mem_singleton.mp hg]
      rfl
    · intro C' hC g hg
      rw [List.mem_singleton.mp hg, ← Option.some.inj hC]
      rfl
    · show poly frame2 demoCell (fun j => x j v) (u v) (![y 0, y 1]) = _
      congr 1
      funext i
      match i with
      | 0 => rfl
      | 1 => rfl
  · rw [List.mem_singleton.mp h]
    refine ⟨⟨⟨fun h => absurd h (by decide), ?_, fun C' hC => by cases hC⟩, by decide, rfl⟩, fun g _ v => .inr ⟨fun k h1 _ => ?_, rfl⟩⟩
    · intro g hg
      rw [List.mem_singleton.mp hg]
      rfl
    · show (if k = 0 then (1 : ℝ) else 0) = 0
      rw [if_neg (by omega)]

end demo

end DNDSR.Rec
