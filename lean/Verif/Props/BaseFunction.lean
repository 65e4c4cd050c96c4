import Verif.Model.BaseFunction
import Verif.Proof.Jet
import Mathlib.Tactic.IntervalCases
import Mathlib.Tactic.NormNum
import Mathlib.Tactic.FinCases

/-!
# The base polynomial tables hold the derivatives of the monomials
-/

namespace DNDSR.Jet

theorem dFactorials_eq : ∀ p d : Fin 4, dFactorials p d = (p : Nat).descFactorial d := by decide

theorem iPow_eq (n : Nat) (h : n ≤ 3) (x : ℝ) : iPow n x = x ^ n := by
  interval_cases n <;> simp [iPow] <;> ring

theorem ord2_eq : ∀ r : Fin 10, (∀ j : Fin 2, ord orderList2 r j = (rows2.getD r []).count j ∧ (rows2.getD r []).count j ≤ 3) ∧
    ord orderList2 r 2 = 0 := by decide

theorem ord3_eq : ∀ r : Fin 20, ∀ j : Fin 3, ord orderList3 r j = (rows3.getD r []).count j ∧ (rows3.getD r []).count j ≤ 3 := by decide

/-- The closed form of `FPolynomial3D`. -/
theorem fPolynomial3D_eq (px py pz dx dy dz : Nat) (h1 : px ≤ 3) (h2 : py ≤ 3) (h3 : pz ≤ 3) (h4 : dx ≤ 3) (h5 : dy ≤ 3) (h6 : dz ≤ 3)
    (x y z : ℝ) : fPolynomial3D px py pz dx dy dz x y z =
    (px.descFactorial dx * x ^ (px - dx)) * (py.descFactorial dy * y ^ (py - dy)) * (pz.descFactorial dz * z ^ (pz - dz)) := by
  have e1 := dFactorials_eq ⟨px, by omega⟩ ⟨dx, by omega⟩
  have e2 := dFactorials_eq ⟨py, by omega⟩ ⟨dy, by omega⟩
  have e3 := dFactorials_eq ⟨pz, by omega⟩ ⟨dz, by omega⟩
  simp only at e1 e2 e3
  have hz : ∀ p d : Nat, p.descFactorial d ≠ 0 → d ≤ p := fun p d h => by
    by_contra hc
    exact h (Nat.descFactorial_of_lt (by omega))
  unfold fPolynomial3D
  rw [e1, e2, e3]
  simp only
  by_cases hc : px.descFactorial dx * py.descFactorial dy * pz.descFactorial dz = 0
  · rw [if_neg (not_not.mpr hc)]
    have : ((px.descFactorial dx * py.descFactorial dy * pz.descFactorial dz : Nat) : ℝ) = 0 := by rw [hc]; simp
    push_cast at this
    linear_combination (-(x ^ (px - dx) * y ^ (py - dy) * z ^ (pz - dz))) * this
  · rw [if_pos hc]
    have hn := mul_ne_zero_iff.mp hc
    have hx := hz _ _ (mul_ne_zero_iff.mp hn.1).1
    have hy := hz _ _ (mul_ne_zero_iff.mp hn.1).2
    have hw := hz _ _ hn.2
    rw [← Nat.cast_sub hx, ← Nat.cast_sub hy, ← Nat.cast_sub hw, iPow_eq _ (by omega), iPow_eq _ (by omega), iPow_eq _ (by omega)]
    push_cast
    ring

/-- The general branch in two dimensions. -/
theorem general2 (l X : Fin 2 → ℝ) (z : ℝ) {r c : Nat} (hr : r < 10) (hc : c < 10) :
    fill2DGeneral (X 0 / l 0) (X 1 / l 1) z (l 0) (l 1) r c = pdL (rows2.getD r []) (monomial l (rows2.getD c [])) X := by
  have a := ord2_eq ⟨r, hr⟩
  have b := ord2_eq ⟨c, hc⟩
  have a0 := a.1 0; have a1 := a.1 1; have a2 := a.2
  have b0 := b.1 0; have b1 := b.1 1; have b2 := b.2
  simp only [Fin.val_zero, Fin.val_one] at a0 a1 a2 b0 b1 b2
  rw [pdL_monomial, Fin.prod_univ_two, fill2DGeneral, a0.1, a1.1, a2, b0.1, b1.1, b2,
    fPolynomial3D_eq _ _ _ _ _ _ b0.2 b1.2 (by omega) a0.2 a1.2 (by omega), iPow_eq _ a0.2, iPow_eq _ a1.2, iPow_eq 0 (by omega)]
  simp only [Nat.descFactorial_zero, Nat.cast_one, Nat.sub_self, pow_zero, mul_one]
  ring

/-- The general branch in three dimensions. -/
theorem general3 (l X : Fin 3 → ℝ) {r c : Nat} (hr : r < 20) (hc : c < 20) :
    fill3DGeneral (X 0 / l 0) (X 1 / l 1) (X 2 / l 2) (l 0) (l 1) (l 2) r c =
      pdL (rows3.getD r []) (monomial l (rows3.getD c [])) X := by
  have a := ord3_eq ⟨r, hr⟩
  have b := ord3_eq ⟨c, hc⟩
  have a0 := a 0; have a1 := a 1; have a2 := a 2
  have b0 := b 0; have b1 := b 1; have b2 := b 2
  simp only [Fin.val_zero, Fin.val_one, Fin.val_two] at a0 a1 a2 b0 b1 b2
  rw [pdL_monomial, Fin.prod_univ_three, fill3DGeneral, a0.1, a1.1, a2.1, b0.1, b1.1, b2.1,
    fPolynomial3D_eq _ _ _ _ _ _ b0.2 b1.2 b2.2 a0.2 a1.2 a2.2, iPow_eq _ a0.2, iPow_eq _ a1.2, iPow_eq _ a2.2]
  ring

/-- One coordinate's factor: `d` derivatives of the power `p`. -/
noncomputable def fac (p d : Nat) (x l : ℝ) : ℝ :=
  match p, d with
  | 0, 0 => 1
  | 1, 0 => x
  | 2, 0 => x * x
  | 3, 0 => x * x * x
  | 1, 1 => 1 / l
  | 2, 1 => 2 * x / l
  | 3, 1 => 3 * (x * x) / l
  | 2, 2 => 2 / (l * l)
  | 3, 2 => 6 * x / (l * l)
  | 3, 3 => 6 / (l * l * l)
  | _, _ => 0

theorem fac_eq (p d : Nat) (hp : p ≤ 3) (hd : d ≤ 3) (x l : ℝ) : fac p d x l = p.descFactorial d * x ^ (p - d) / l ^ d := by
  interval_cases p <;> interval_cases d <;> simp [fac, Nat.descFactorial] <;> ring

theorem cell_map (L M : List (List Nat)) (F : List Nat → List Nat → ℝ) (r c : Nat) (hr : r < L.length) (hc : c < M.length) :
    cell (L.map fun R => M.map fun C => F R C) r c = F (L.getD r []) (M.getD c []) := by
  simp [cell, hr, hc]

set_option maxHeartbeats 4000000 in
/-- The largest table in two dimensions. -/
theorem table2 (x y lx ly : ℝ) : fill2D_10_10 x y lx ly = orderList2.map fun R => orderList2.map fun C =>
    fac (C.getD 0 0) (R.getD 0 0) x lx * fac (C.getD 1 0) (R.getD 1 0) y ly := by
  simp only [fill2D_10_10, orderList2, List.map_cons, List.map_nil, List.getD_cons_zero, List.getD_cons_succ, fac, List.cons.injEq,
    and_true, true_and, mul_one, zero_mul, one_mul, mul_zero]
  and_intros <;> first | trivial | ring

set_option maxHeartbeats 4000000 in
/-- The largest table in three dimensions. -/
theorem table3 (x y z lx ly lz : ℝ) : fill3D_20_20 x y z lx ly lz = orderList3.map fun R => orderList3.map fun C =>
    fac (C.getD 0 0) (R.getD 0 0) x lx * fac (C.getD 1 0) (R.getD 1 0) y ly * fac (C.getD 2 0) (R.getD 2 0) z lz := by
  simp only [fill3D_20_20, orderList3, List.map_cons, List.map_nil, List.getD_cons_zero, List.getD_cons_succ, fac, List.cons.injEq,
    and_true, true_and, mul_one, zero_mul, one_mul, mul_zero]
  and_intros <;> first | trivial | ring

theorem cell_block {t u : List (List ℝ)} {rows cols r c : Nat} (h : u = (t.take rows).map (List.take cols)) (hr : r < rows) (hc : c < cols) :
    cell u r c = cell t r c := by
  subst h
  unfold cell
  by_cases h1 : r < t.length
  · simp [List.getD_eq_getElem?_getD, hr, h1, hc]
  · simp [List.getD_eq_getElem?_getD, hr, Nat.le_of_not_lt h1]

theorem table2_cell (l X : Fin 2 → ℝ) {r c : Nat} (hr : r < 10) (hc : c < 10) :
    cell (fill2D_10_10 (X 0 / l 0) (X 1 / l 1) (l 0) (l 1)) r c = pdL (rows2.getD r []) (monomial l (rows2.getD c [])) X := by
  have a := ord2_eq ⟨r, hr⟩
  have b := ord2_eq ⟨c, hc⟩
  have a0 := a.1 0; have a1 := a.1 1
  have b0 := b.1 0; have b1 := b.1 1
  simp only [Fin.val_zero, Fin.val_one, ord] at a0 a1 b0 b1
  rw [table2, cell_map orderList2 orderList2 _ r c hr hc, pdL_monomial, Fin.prod_univ_two, a0.1, a1.1, b0.1, b1.1, fac_eq _ _ b0.2 a0.2, fac_eq _ _ b1.2 a1.2]

theorem table3_cell (l X : Fin 3 → ℝ) {r c : Nat} (hr : r < 20) (hc : c < 20) :
    cell (fill3D_20_20 (X 0 / l 0) (X 1 / l 1) (X 2 / l 2) (l 0) (l 1) (l 2)) r c =
      pdL (rows3.getD r []) (monomial l (rows3.getD c [])) X := by
  have a := ord3_eq ⟨r, hr⟩
  have b := ord3_eq ⟨c, hc⟩
  have a0 := a 0; have a1 := a 1; have a2 := a 2
  have b0 := b 0; have b1 := b 1; have b2 := b 2
  simp only [Fin.val_zero, Fin.val_one, Fin.val_two, ord] at a0 a1 a2 b0 b1 b2
  rw [table3, cell_map orderList3 orderList3 _ r c hr hc, pdL_monomial, Fin.prod_univ_three, a0.1, a1.1, a2.1, b0.1, b1.1, b2.1, fac_eq _ _ b0.2 a0.2,
    fac_eq _ _ b1.2 a1.2, fac_eq _ _ b2.2 a2.2]

/-- **C62** (two dimensions) Whatever number of rows and columns is asked for, column `c` of the table filled at the scaled point holds
the derivatives, in physical coordinates and in the documented order, of the `c`-th monomial in the scaled coordinates. -/
theorem fill2D_jet (l X : Fin 2 → ℝ) (z lz : ℝ) {rows cols c : Nat} (hr : rows ≤ 10) (hcs : cols ≤ 10) (hc : c < cols) :
    IsJet rows2 rows (monomial l (rows2.getD c [])) X
      (fun r => fill2D (X 0 / l 0) (X 1 / l 1) z (l 0) (l 1) lz rows cols r c) := by
  intro r hrr
  have hc' : c < 10 := by omega
  have hr' : r < 10 := by omega
  simp only [fill2D]
  split
  · exact table2_cell l X hr' hc'
  split
  · rename_i h; obtain ⟨rfl, rfl⟩ := h
    refine (cell_block (t := fill2D_10_10 (X 0 / l 0) (X 1 / l 1) (l 0) (l 1)) rfl hrr hc).trans ?_; exact table2_cell l X hr' hc'
  split
  · rename_i h; obtain ⟨rfl, rfl⟩ := h
    refine (cell_block (t := fill2D_10_10 (X 0 / l 0) (X 1 / l 1) (l 0) (l 1)) rfl hrr hc).trans ?_; exact table2_cell l X hr' hc'
  split
  · rename_i h; obtain ⟨rfl, rfl⟩ := h
    refine (cell_block (t := fill2D_10_10 (X 0 / l 0) (X 1 / l 1) (l 0) (l 1)) rfl hrr hc).trans ?_; exact table2_cell l X hr' hc'
  split
  · rename_i h; obtain ⟨rfl, rfl⟩ := h
    refine (cell_block (t := fill2D_10_10 (X 0 / l 0) (X 1 / l 1) (l 0) (l 1)) rfl hrr hc).trans ?_; exact table2_cell l X hr' hc'
  split
  · rename_i h; obtain ⟨rfl, rfl⟩ := h
    refine (cell_block (t := fill2D_10_10 (X 0 / l 0) (X 1 / l 1) (l 0) (l 1)) rfl hrr hc).trans ?_; exact table2_cell l X hr' hc'
  split
  · rename_i h; obtain ⟨rfl, rfl⟩ := h
    refine (cell_block (t := fill2D_10_10 (X 0 / l 0) (X 1 / l 1) (l 0) (l 1)) rfl hrr hc).trans ?_; exact table2_cell l X hr' hc'
  split
  · rename_i h; obtain ⟨rfl, rfl⟩ := h
    refine (cell_block (t := fill2D_10_10 (X 0 / l 0) (X 1 / l 1) (l 0) (l 1)) rfl hrr hc).trans ?_; exact table2_cell l X hr' hc'
  · exact general2 l X z hr' hc'

/-- **C62** (three dimensions) The same in three dimensions. -/
theorem fill3D_jet (l X : Fin 3 → ℝ) {rows cols c : Nat} (hr : rows ≤ 20) (hcs : cols ≤ 20) (hc : c < cols) :
    IsJet rows3 rows (monomial l (rows3.getD c [])) X
      (fun r => fill3D (X 0 / l 0) (X 1 / l 1) (X 2 / l 2) (l 0) (l 1) (l 2) rows cols r c) := by
  intro r hrr
  have hc' : c < 20 := by omega
  have hr' : r < 20 := by omega
  simp only [fill3D]
  split
  · exact table3_cell l X hr' hc'
  split
  · rename_i h; obtain ⟨rfl, rfl⟩ := h
    refine (cell_block (t := fill3D_20_20 (X 0 / l 0) (X 1 / l 1) (X 2 / l 2) (l 0) (l 1) (l 2)) rfl hrr hc).trans ?_; exact table3_cell l X hr' hc'
  split
  · rename_i h; obtain ⟨rfl, rfl⟩ := h
    refine (cell_block (t := fill3D_20_20 (X 0 / l 0) (X 1 / l 1) (X 2 / l 2) (l 0) (l 1) (l 2)) rfl hrr hc).trans ?_; exact table3_cell l X hr' hc'
  split
  · rename_i h; obtain ⟨rfl, rfl⟩ := h
    refine (cell_block (t := fill3D_20_20 (X 0 / l 0) (X 1 / l 1) (X 2 / l 2) (l 0) (l 1) (l 2)) rfl hrr hc).trans ?_; exact table3_cell l X hr' hc'
  split
  · rename_i h; obtain ⟨rfl, rfl⟩ := h
    refine (cell_block (t := fill3D_20_20 (X 0 / l 0) (X 1 / l 1) (X 2 / l 2) (l 0) (l 1) (l 2)) rfl hrr hc).trans ?_; exact table3_cell l X hr' hc'
  split
  · rename_i h; obtain ⟨rfl, rfl⟩ := h
    refine (cell_block (t := fill3D_20_20 (X 0 / l 0) (X 1 / l 1) (X 2 / l 2) (l 0) (l 1) (l 2)) rfl hrr hc).trans ?_; exact table3_cell l X hr' hc'
  split
  · rename_i h; obtain ⟨rfl, rfl⟩ := h
    refine (cell_block (t := fill3D_20_20 (X 0 / l 0) (X 1 / l 1) (X 2 / l 2) (l 0) (l 1) (l 2)) rfl hrr hc).trans ?_; exact table3_cell l X hr' hc'
  split
  · rename_i h; obtain ⟨rfl, rfl⟩ := h
    refine (cell_block (t := fill3D_20_20 (X 0 / l 0) (X 1 / l 1) (X 2 / l 2) (l 0) (l 1) (l 2)) rfl hrr hc).trans ?_; exact table3_cell l X hr' hc'
  · exact general3 l X hr' hc'

/-- At the point (3, 5) with scales 2 and 4, the monomial `(x/2)(y/4)` has the `x` derivative 5/8 and the mixed derivative 1/8. -/
example : fill2D (3 / 2) (5 / 4) 0 2 4 1 10 10 1 4 = 5 / 8 ∧ fill2D (3 / 2) (5 / 4) 0 2 4 1 10 10 4 4 = 1 / 8 := by
  constructor <;> norm_num [fill2D, fill2D_10_10, cell]

end DNDSR.Jet
