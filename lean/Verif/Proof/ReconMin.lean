import Verif.Proof.ReconRow
import Mathlib.LinearAlgebra.Matrix.NonsingularInverse

namespace DNDSR.Rec

open Matrix Jet

variable {d : Nat} {S : Space} {Fr : Frame d} {R : List (List (Fin d))} (L : Laws S Fr R) {N V : Nat}

/-- the coefficients of a face -/
noncomputable def coeffOf (AInv : Matrix (Fin N) (Fin N) ℝ) (s : Side) (Bb : Tbl × Tbl) : Coeff N :=
  if s.faceID > 0 then (⟨0, 0⟩ : Coeff N)
  else ⟨AInv * asMat Bb.1, AInv *ᵥ fun i => Bb.2 i 0⟩

/-- the right side before the inverse -/
noncomputable def rhsOf (S : Space) (W : Wrap) (Fr : Frame d) (m : Nat) (C : CellBase) (x : Matrix (Fin N) (Fin V) ℝ) (u : Fin V → ℝ)
    (fs : List (Side × Across N V)) : Matrix (Fin N) (Fin V) ℝ := fun i v =>
  total fs (·.1.q) fun sa g => g.w * g.det *
    ip S Fr sa.1.F m (Fr.base C i) (fun z => target W Fr C x u sa.1 sa.2 v g z - u v) (pt W Fr sa.1 g)

include L in
theorem smooth_across (W : Wrap) (id : Int) (hM : Moves W Fr id) (if2c : Bool) {f : (Fin d → ℝ) → ℝ} (hf : Smooth f) :
    Smooth fun y => f (across Fr W id if2c y) := by
  obtain ⟨T, b, e⟩ := (across_spec L W id hM if2c).1
  rw [e]
  exact hf.comp (affine_smooth T b)

include L in
theorem smooth_poly (C : CellBase) (x : Fin N → ℝ) (u : ℝ) : Smooth (poly Fr C x u) :=
  (smooth_const u).add (smooth_sum (fun j : Fin N => L.smooth C j) x)

include L in
theorem target_smooth (W : Wrap) (C : CellBase) (x : Matrix (Fin N) (Fin V) ℝ) (u : Fin V → ℝ) (s : Side) (hM : Moves W Fr s.faceID)
    (a : Across N V) (v : Fin V) (g : QPoint) : Smooth (target W Fr C x u s a v g) := by
  unfold target
  split
  · exact smooth_across L W s.faceID hM s.if2c (smooth_poly L _ _ _)
  · exact smooth_const _
  · exact smooth_const _

include L in
theorem ip_right_sum {F : FaceFn} {m : Nat} {p : Fin d → ℝ} (f : (Fin d → ℝ) → ℝ) {φ : Fin N → (Fin d → ℝ) → ℝ} (hφ : ∀ j, Smooth (φ j))
    (x : Fin N → ℝ) (c : ℝ) :
    ip S Fr F m f (fun z => c + ∑ j, x j * φ j z) p = c * ip S Fr F m f (fun _ => 1) p + ∑ j, x j * ip S Fr F m f (φ j) p := by
  have e : (fun z => c + ∑ j, x j * φ j z) = fun z => c * (fun _ => (1 : ℝ)) z + 1 * ∑ j, x j * φ j z := by
    funext z; rw [mul_one, one_mul]
  rw [ip_comm, e, ip_lin (smooth_const 1) (smooth_sum hφ x), ip_sum hφ, ip_comm, one_mul]
  congr 1
  exact Finset.sum_congr rfl fun j _ => by rw [ip_comm]

theorem list_sum_mul {β : Type} (l : List β) (c : ℝ) (h : β → ℝ) : (l.map h).sum * c = (l.map fun s => h s * c).sum := by
  induction l with
  | nil => simp
  | cons a l ih => simp only [List.map_cons, List.sum_cons, add_mul, ih]

theorem list_sum_sum {β : Type} (l : List β) (h : Fin N → β → ℝ) : ∑ j, (l.map (h j)).sum = (l.map fun s => ∑ j, h j s).sum := by
  induction l with
  | nil => simp
  | cons a l ih => simp only [List.map_cons, List.sum_cons, Finset.sum_add_distrib, ih]

include L in
/-- one face: its coefficients, and what it adds to the right side -/
theorem face_spec (W : Wrap) {m : Nat} (hm : m ≤ 3) (hN : S.rows m = N + 1) (C : CellBase) (x : Matrix (Fin N) (Fin V) ℝ) (u : Fin V → ℝ)
    (s : Side) (a : Across N V) (hs : Sits W Fr C s) (hf : Fits s a) :
    ∃ B b, sideB S W m C s = .ok B ∧ sideb S W m C s = .ok b ∧ ∀ AInv : Matrix (Fin N) (Fin N) ℝ,
      pull S W m C AInv x u (s, a) (coeffOf AInv s (B, b)) = .ok (AInv * rhsOf S W Fr m C x u [(s, a)]) := by
  obtain ⟨b, hb, hb'⟩ := sideb_spec L W hm C s hs
  obtain ⟨hB1, hB2⟩ := sideB_spec L W hm C s hs
  cases a with
  | bnd f =>
    obtain ⟨h1, h2⟩ := hf
    obtain ⟨B, hB⟩ := hB1 h1 h2
    obtain ⟨t, e1, e2⟩ := boundaryRHS_spec L W hm hN C s hs h1 f x u
    refine ⟨B, b, hB, hb, fun AInv => ?_⟩
    show (do
      let BCC ← boundaryRHS S W m C s f x u
      Res.ok (AInv * BCC)) = _
    rw [e1, Res.ok_bind]
    congr 2
    funext i v
    rw [e2 i v]
    show _ = total [(s, Across.bnd f)] _ _
    unfold total
    rw [List.map_singleton, List.sum_singleton]
    rfl
  | cell x' u' =>
    obtain ⟨h1, h2⟩ := hf
    obtain ⟨C', hC'⟩ := Option.isSome_iff_exists.mp h2
    obtain ⟨B, hB, hB'⟩ := hB2 C' h1 hC'
    refine ⟨B, b, hB, hb, fun AInv => ?_⟩
    show Res.ok _ = Res.ok _
    congr 1
    have hc : coeffOf AInv s (B, b) = ⟨AInv * asMat B, AInv *ᵥ fun i => b i 0⟩ := if_neg (by omega)
    rw [hc]
    have hr : rhsOf S W Fr m C x u [(s, Across.cell x' u')] = asMat B * x' + Matrix.vecMulVec (fun i : Fin N => b i 0) (u' - u) := by
      funext i v
      have hi : (i : Nat) < S.rows m - 1 := by have := i.isLt; omega
      show total [(s, Across.cell x' u')] _ _ = _
      unfold total
      rw [List.map_singleton, List.sum_singleton, Matrix.add_apply, Matrix.mul_apply, Matrix.vecMulVec_apply, hb' i hi]
      have e : ∀ j : Fin N, asMat B i j * x' j v = (s.q.map fun g => g.w * g.det *
          ip S Fr s.F m (Fr.base C i) (fun y => Fr.base C' j (across Fr W s.faceID s.if2c y)) (pt W Fr s g) * x' j v).sum := fun j => by
        show B i j * x' j v = _
        rw [hB' i j hi (by have := j.isLt; omega), list_sum_mul]
      rw [Finset.sum_congr rfl fun j _ => e j, list_sum_sum, list_sum_mul, ← sum_add]
      congr 1
      refine List.map_congr_left fun g _ => ?_
      have et : (fun z => target W Fr C x u s (Across.cell x' u') v g z - u v) =
          fun z => (u' v - u v) + ∑ j : Fin N, x' j v * (fun y => Fr.base C' j (across Fr W s.faceID s.if2c y)) z := by
        funext z
        unfold target
        rw [hC']
        show poly Fr C' (fun j => x' j v) (u' v) (across Fr W s.faceID s.if2c z) - u v = _
        unfold poly
        ring
      show g.w * g.det * ip S Fr s.F m (Fr.base C i) (fun z => target W Fr C x u s (Across.cell x' u') v g z - u v) (pt W Fr s g) = _
      rw [et, ip_right_sum L _ fun j => smooth_across L W s.faceID hs.1 s.if2c (L.smooth C' j), mul_add, Finset.mul_sum, add_comm]
      congr 1
      · exact Finset.sum_congr rfl fun j _ => by ring
      · rw [Pi.sub_apply]; ring
    rw [hr, Matrix.mul_add, Matrix.mul_assoc, Matrix.mul_vecMulVec]

theorem rhsOf_cons (W : Wrap) (m : Nat) (C : CellBase) (x : Matrix (Fin N) (Fin V) ℝ) (u : Fin V → ℝ) (a : Side × Across N V)
    (fs : List (Side × Across N V)) :
    rhsOf S W Fr m C x u (a :: fs) = rhsOf S W Fr m C x u [a] + rhsOf S W Fr m C x u fs := by
  funext i v
  show total (a :: fs) _ _ = total [a] _ _ + total fs _ _
  unfold total
  rw [List.map_cons, List.sum_cons, List.map_singleton, List.sum_singleton]

include L in
theorem faces_spec (W : Wrap) {m : Nat} (hm : m ≤ 3) (hN : S.rows m = N + 1) (C : CellBase) (x : Matrix (Fin N) (Fin V) ℝ) (u : Fin V → ℝ)
    (fs : List (Side × Across N V)) (hs : ∀ sa ∈ fs, Sits W Fr C sa.1 ∧ Fits sa.1 sa.2) :
    ∃ Bs bs, eachSide (sideB S W m C) (fs.map (·.1)) = .ok Bs ∧ eachSide (sideb S W m C) (fs.map (·.1)) = .ok bs ∧
      ∀ AInv : Matrix (Fin N) (Fin N) ℝ, (List.zipWith (coeffOf AInv) (fs.map (·.1)) (Bs.zip bs)).length = fs.length ∧
        ∃ ps, eachSide (fun p => pull S W m C AInv x u p.1 p.2) (fs.zip (List.zipWith (coeffOf AInv) (fs.map (·.1)) (Bs.zip bs))) = .ok ps ∧
          ps.sum = AInv * rhsOf S W Fr m C x u fs := by
  induction fs with
  | nil =>
    refine ⟨[], [], rfl, rfl, fun AInv => ⟨rfl, [], rfl, ?_⟩⟩
    have : rhsOf S W Fr m C x u ([] : List (Side × Across N V)) = 0 := by
      funext i v
      show total [] _ _ = 0
      simp [total]
    rw [this, Matrix.mul_zero]
    rfl
  | cons a fs ih =>
    obtain ⟨s, a⟩ := a
    obtain ⟨Bs, bs, h1, h2, h3⟩ := ih fun sa hsa => hs sa (List.mem_cons_of_mem _ hsa)
    obtain ⟨hs1, hs2⟩ := hs (s, a) List.mem_cons_self
    obtain ⟨B, b, e1, e2, e3⟩ := face_spec L W hm hN C x u s a hs1 hs2
    refine ⟨B :: Bs, b :: bs, ?_, ?_, fun AInv => ?_⟩
    · rw [List.map_cons, eachSide, e1, Res.ok_bind, h1, Res.ok_bind]
    · rw [List.map_cons, eachSide, e2, Res.ok_bind, h2, Res.ok_bind]
    · obtain ⟨hl, ps, h4, h5⟩ := h3 AInv
      refine ⟨by rw [List.map_cons, List.zip_cons_cons, List.zipWith_cons_cons, List.length_cons, hl, List.length_cons], (AInv * rhsOf S W Fr m C x u [(s, a)]) :: ps, ?_, ?_⟩
      · rw [List.map_cons, List.zip_cons_cons, List.zipWith_cons_cons, List.zip_cons_cons, eachSide]
        simp only [e3 AInv, Res.ok_bind, h4]
      · rw [List.sum_cons, h5, rhsOf_cons W m C x u (s, a) fs, Matrix.mul_add]

include L in
/-- the whole row -/
theorem row_spec (W : Wrap) {m : Nat} (hm : m ≤ 3) (hN : S.rows m = N + 1) (C : CellBase)
    (inv : Matrix (Fin N) (Fin N) ℝ → Matrix (Fin N) (Fin N) ℝ) (x : Matrix (Fin N) (Fin V) ℝ) (u : Fin V → ℝ)
    (fs : List (Side × Across N V)) (hs : ∀ sa ∈ fs, Sits W Fr C sa.1 ∧ Fits sa.1 sa.2) :
    ∃ A cs, recRow S W m N inv C (fs.map (·.1)) = .ok (A, inv A, cs) ∧ cs.length = fs.length ∧
      (∀ i j, A i j = total fs (·.1.q) fun sa g => g.w * g.det * ip S Fr sa.1.F m (Fr.base C i) (Fr.base C j) (pt W Fr sa.1 g)) ∧
      ∃ ps, eachSide (fun p => pull S W m C (inv A) x u p.1 p.2) (fs.zip cs) = .ok ps ∧ ps.sum = inv A * rhsOf S W Fr m C x u fs := by
  obtain ⟨A, hA, hA'⟩ := cellA_spec L W hm C (fs.map (·.1)) fun s h => by
    obtain ⟨sa, hsa, rfl⟩ := List.mem_map.mp h
    exact (hs sa hsa).1
  obtain ⟨Bs, bs, h1, h2, h3⟩ := faces_spec L W hm hN C x u fs hs
  obtain ⟨hl, hp⟩ := h3 (inv (asMat A))
  refine ⟨asMat A, List.zipWith (coeffOf (inv (asMat A))) (fs.map (·.1)) (Bs.zip bs), ?_, hl, fun i j => ?_, hp⟩
  · unfold recRow
    rw [hA, Res.ok_bind]
    simp only [h1, h2, Res.ok_bind]
    rfl
  · show A i j = _
    rw [hA' i j (by have := i.isLt; omega) (by have := j.isLt; omega)]
    unfold total
    rw [List.map_map]
    rfl

include L in
/-- the equation of the row and the least penalty -/
theorem row_least (W : Wrap) {m : Nat} (C : CellBase) (x z : Matrix (Fin N) (Fin V) ℝ) (u : Fin V → ℝ)
    (fs : List (Side × Across N V)) (hs : ∀ sa ∈ fs, Sits W Fr C sa.1 ∧ Fits sa.1 sa.2) (hw : ∀ sa ∈ fs, ∀ g ∈ sa.1.q, 0 ≤ g.w * g.det)
    {A : Matrix (Fin N) (Fin N) ℝ}
    (hA : ∀ i j, A i j = total fs (·.1.q) fun sa g => g.w * g.det * ip S Fr sa.1.F m (Fr.base C i) (Fr.base C j) (pt W Fr sa.1 g)) :
    A * z = rhsOf S W Fr m C x u fs ↔ ∀ v y, energy S W Fr m C x u fs v (fun j => z j v) ≤ energy S W Fr m C x u fs v y := by
  have least := fun v => least_iff (S := S) (Fr := Fr) (m := m) (fs := fs) (q := fun sa => sa.1.q) (fun _ g => g.w * g.det) (fun s hs' g hg => hw s hs' g hg)
    (fun sa => sa.1.F) (fun sa g => pt W Fr sa.1 g) (φ := fun j : Fin N => Fr.base C j) (fun j => L.smooth C j)
    (T := fun sa g => target W Fr C x u sa.1 sa.2 v g) (fun sa hsa g _ => target_smooth L W C x u sa.1 (hs sa hsa).1.1 sa.2 v g) (u v) (fun j => z j v)
  have key : ∀ i v, (A * z) i v - rhsOf S W Fr m C x u fs i v = total fs (·.1.q) (fun sa g => g.w * g.det *
      ip S Fr sa.1.F m (Fr.base C i) (fun q => (u v + ∑ j : Fin N, z j v * Fr.base C j q) - target W Fr C x u sa.1 sa.2 v g q) (pt W Fr sa.1 g)) := by
    intro i v
    rw [Matrix.mul_apply]
    have e1 : ∑ j, A i j * z j v = total fs (·.1.q) (fun sa g => g.w * g.det *
        ip S Fr sa.1.F m (Fr.base C i) (fun q => 0 + ∑ j : Fin N, z j v * Fr.base C j q) (pt W Fr sa.1 g)) := by
      rw [total_congr fun sa _ g _ => by rw [ip_right_sum L _ fun j : Fin N => L.smooth C j, zero_mul, zero_add, Finset.mul_sum], total_sum]
      refine Finset.sum_congr rfl fun j _ => ?_
      rw [hA, mul_comm, ← total_mul]
      exact total_congr fun sa _ g _ => by ring
    rw [e1]
    show total fs _ _ - total fs _ _ = _
    have e2 : ∀ a b : ℝ, a - b = a + (-1) * b := fun a b => by ring
    rw [e2, ← total_mul, ← total_add]
    refine total_congr fun sa hsa g _ => ?_
    have st := target_smooth L W C x u sa.1 (hs sa hsa).1.1 sa.2 v g
    have e3 : (fun q => (u v + ∑ j : Fin N, z j v * Fr.base C j q) - target W Fr C x u sa.1 sa.2 v g q) =
        fun q => 1 * (0 + ∑ j : Fin N, z j v * Fr.base C j q) + (-1) * (target W Fr C x u sa.1 sa.2 v g q - u v) := by
      funext q; ring
    rw [e3, ip_comm (Fr.base C i) (fun q => 1 * _ + (-1) * _), ip_lin ((smooth_const 0).add (smooth_sum (fun j : Fin N => L.smooth C j) fun j => z j v)) (ContDiff.sub st (smooth_const (u v))),
      ip_comm _ (Fr.base C i), ip_comm _ (Fr.base C i)]
    ring
  constructor
  · intro h v
    refine (least v).mp fun i => ?_
    rw [← key i v, h, sub_self]
  · intro h
    funext i v
    have := (least v).mpr (h v) i
    rw [← key i v] at this
    linarith

end DNDSR.Rec
