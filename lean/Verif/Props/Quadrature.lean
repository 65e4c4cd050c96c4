import Mathlib.Algebra.MvPolynomial.Degrees
import Mathlib.Data.Rat.Cast.Order
import Mathlib.Tactic.NormNum
import Mathlib.Tactic.Linarith
import Verif.Proof.QuadCheck
import Verif.Props.ShapeFunc

/-!
# C49: quadrature is exact for polynomials of the order asked for
-/

namespace DNDSR.Quad

open DNDSR.Elem DNDSR.Shape

variable {t : ElemType}

theorem paramSpace_known (ht : t ≠ .unknown) : paramSpace t ≠ .unknown := by
  cases t <;> first | exact absurd rfl ht | (unfold paramSpace; decide)

theorem point_eq (ps : ParamSpace) (s i : Nat) (h : i < s) : quadraturePoint ps s i = .ok (ptOf ps s i) := by
  unfold quadraturePoint ptOf
  rw [if_pos h]
  cases ps <;> rfl

/-- The shape functions and their derivatives, as `GetD01Nj` gives them at the point. -/
noncomputable def d01At (t : ElemType) (p : Fin 3 → ℝ) : Nat → Nat → ℝ :=
  match getD01Nj t p with
  | .ok v => v
  | _ => fun _ _ => 0

theorem d01At_ok (ht : t ≠ .unknown) (p : Fin 3 → ℝ) : getD01Nj t p = .ok (d01At t p) := by
  have h : ∃ v, getD01Nj t p = .ok v :=
    ⟨fun r j => if r = 0 then (entry t 0 0 j).eval (guardPoint t p) else (entry t 1 (r - 1) j).eval (guardPoint t p),
      by unfold getD01Nj getD1Nj; rw [getNj_eq ht, shapeFunc_eq ht]; rfl⟩
  obtain ⟨v, hv⟩ := h
  rw [hv]
  unfold d01At
  rw [hv]

theorem integrateFrom_eq (ht : t ≠ .unknown) (s : Nat) (f : Nat → (Fin 3 → ℝ) → (Nat → Nat → ℝ) → ℝ) :
    ∀ n iG buf, iG + n = s → integrateFrom t s f iG n buf =
      .ok (buf + ∑ i ∈ Finset.Ico iG s, f i (ptOf (paramSpace t) s i).at (d01At t (ptOf (paramSpace t) s i).at) * (ptOf (paramSpace t) s i).w) := by
  intro n
  induction n with
  | zero =>
    intro iG buf h
    have : iG = s := by omega
    subst this
    simp [integrateFrom]
  | succ n ih =>
    intro iG buf h
    unfold integrateFrom
    rw [point_eq _ _ _ (by omega), Res.ok_bind, d01At_ok ht, Res.ok_bind, ih _ _ (by omega),
      Finset.sum_eq_sum_Ico_succ_bot (by omega : iG < s), add_assoc]

theorem check_order {ps : ParamSpace} (h : ps ≠ .unknown) {order : Nat} (ho : order ≤ 6) :
    0 < scheme ps order ∧ checkPts ps order = true ∧ checkOrder ps order = true := by
  have hc := List.all_eq_true.mp (check_all h) order (List.mem_range.mpr (by omega))
  simp only [Bool.and_eq_true, decide_eq_true_eq] at hc
  exact ⟨hc.1.1, hc.1.2, hc.2⟩

theorem pt_check {ps : ParamSpace} (h : ps ≠ .unknown) {order : Nat} (ho : order ≤ 6) {i : Nat} (hi : i < scheme ps order) :
    inRefQ ps (ptOf ps (scheme ps order) i) = true ∧ 0 < (ptOf ps (scheme ps order) i).w := by
  have hc := List.all_eq_true.mp (check_order h ho).2.1 i (List.mem_range.mpr hi)
  simpa only [Bool.and_eq_true, decide_eq_true_eq] using hc

theorem abs_of {x y : ℚ} (h1 : -y < x) (h2 : x < y) : |(x : ℝ)| < (y : ℝ) :=
  abs_lt.mpr ⟨by exact_mod_cast h1, by exact_mod_cast h2⟩

/-- **C49**: for every order from 0 to 6 there is a scheme, its points lie inside the reference element, and its
weights are positive. -/
theorem points_inside (ht : t ≠ .unknown) {order : Nat} (ho : order ≤ 6) :
    0 < scheme (paramSpace t) order ∧ ∀ i < scheme (paramSpace t) order, ∃ q,
      quadraturePoint (paramSpace t) (scheme (paramSpace t) order) i = .ok q ∧ InRef (paramSpace t) q.at ∧ 0 < q.w := by
  have hp := paramSpace_known ht
  refine ⟨(check_order hp ho).1, fun i hi => ⟨_, point_eq _ _ _ hi, ?_, (pt_check hp ho hi).2⟩⟩
  have hc := (pt_check hp ho hi).1
  revert hc
  generalize ptOf (paramSpace t) (scheme (paramSpace t) order) i = q
  cases hps : paramSpace t <;> intro hc
  · exact absurd hps hp
  all_goals simp only [inRefQ, Bool.and_eq_true, decide_eq_true_eq] at hc
  · obtain ⟨⟨⟨h1, h2⟩, h3⟩, h4⟩ := hc
    have := abs_of h1 h2
    exact ⟨by simpa [Pt.at] using this.le, by simp [Pt.at, h3], by simp [Pt.at, h4]⟩
  · obtain ⟨⟨⟨h1, h2⟩, h3⟩, h4⟩ := hc
    refine ⟨?_, ?_, ?_, by simp [Pt.at, h4]⟩
    · show (0 : ℝ) ≤ q.x; exact_mod_cast h1.le
    · show (0 : ℝ) ≤ q.y; exact_mod_cast h2.le
    · show (q.x : ℝ) + q.y ≤ 1; exact_mod_cast h3.le
  · obtain ⟨⟨⟨⟨h1, h2⟩, h3⟩, h4⟩, h5⟩ := hc
    have h12 := abs_of h1 h2
    have h34 := abs_of h3 h4
    exact ⟨by simpa [Pt.at] using h12.le, by simpa [Pt.at] using h34.le, by simp [Pt.at, h5]⟩
  · obtain ⟨⟨⟨h1, h2⟩, h3⟩, h4⟩ := hc
    refine ⟨?_, ?_, ?_, ?_⟩
    · show (0 : ℝ) ≤ q.x; exact_mod_cast h1.le
    · show (0 : ℝ) ≤ q.y; exact_mod_cast h2.le
    · show (0 : ℝ) ≤ q.z; exact_mod_cast h3.le
    · show (q.x : ℝ) + q.y + q.z ≤ 1; exact_mod_cast h4.le
  · obtain ⟨⟨⟨⟨⟨h1, h2⟩, h3⟩, h4⟩, h5⟩, h6⟩ := hc
    have h12 := abs_of h1 h2
    have h34 := abs_of h3 h4
    have h56 := abs_of h5 h6
    exact ⟨by simpa [Pt.at] using h12.le, by simpa [Pt.at] using h34.le, by simpa [Pt.at] using h56.le⟩
  · obtain ⟨⟨⟨⟨h1, h2⟩, h3⟩, h4⟩, h5⟩ := hc
    refine ⟨?_, ?_, ?_, ?_⟩
    · show (0 : ℝ) ≤ q.x; exact_mod_cast h1.le
    · show (0 : ℝ) ≤ q.y; exact_mod_cast h2.le
    · show (q.x : ℝ) + q.y ≤ 1; exact_mod_cast h3.le
    · have h45 := abs_of h4 h5
      simpa [Pt.at] using h45.le
  · obtain ⟨⟨⟨⟨⟨h1, h2⟩, h3⟩, h4⟩, h5⟩, _⟩ := hc
    have h23 := abs_of h2 h3
    have h45 := abs_of h4 h5
    refine ⟨?_, ?_, ?_⟩
    · show (0 : ℝ) ≤ q.z; exact_mod_cast h1.le
    · have := h23.le; push_cast at this; exact this
    · have := h45.le; push_cast at this; exact this

/-- **C49**: `Integration` adds, to what the buffer held, the callback's values weighted at the points of the scheme;
the callback is given the index, the point, and the shape functions of the element with their first derivatives there. -/
theorem integration_sum (ht : t ≠ .unknown) {order : Nat} (ho : order ≤ 6) (f : Nat → (Fin 3 → ℝ) → (Nat → Nat → ℝ) → ℝ) (buf : ℝ) :
    ∃ (q : Nat → Pt) (d : Nat → Nat → Nat → ℝ),
      (∀ i < scheme (paramSpace t) order, quadraturePoint (paramSpace t) (scheme (paramSpace t) order) i = .ok (q i)) ∧
      (∀ i < scheme (paramSpace t) order, ∀ j < nodes t,
        d i 0 j = value t j (q i).at ∧ ∀ a : Fin 3, d i (a + 1) j = Jet.pd a (value t j) (q i).at) ∧
      integration t order f buf = .ok (buf + ∑ i ∈ Finset.range (scheme (paramSpace t) order), f i (q i).at (d i) * (q i).w) := by
  have hp := paramSpace_known ht
  refine ⟨ptOf (paramSpace t) (scheme (paramSpace t) order), fun i => d01At t (ptOf (paramSpace t) (scheme (paramSpace t) order) i).at,
    fun i hi => point_eq _ _ _ hi, ?_, ?_⟩
  · intro i hi
    have hs : Steady t (ptOf (paramSpace t) (scheme (paramSpace t) order) i).at := by
      intro hpy
      have hps : paramSpace t = .pyramid := by rcases hpy with rfl | rfl <;> rfl
      have hc := (pt_check hp ho hi).1
      generalize ptOf (paramSpace t) (scheme (paramSpace t) order) i = q at hc
      rw [hps] at hc
      simp only [inRefQ, Bool.and_eq_true, decide_eq_true_eq] at hc
      have hz : (q.z : ℝ) < 9 / 10 := by have h := (Rat.cast_lt (K := ℝ)).mpr hc.2; push_cast at h; exact h
      have hz2 : q.at 2 = q.z := rfl
      rw [hz2]
      refine ⟨by linarith, ?_⟩
      rw [abs_of_pos (by linarith)]
      have : (1 : ℝ) / 10 ^ 15 < 1 / 10 := by norm_num
      linarith
    obtain ⟨v, hv, h⟩ := getD01Nj_jet ht hs
    rw [d01At_ok ht] at hv
    cases hv
    exact h
  · show integrateFrom t _ f 0 _ buf = _
    rw [integrateFrom_eq ht _ f _ 0 buf (by omega), Finset.range_eq_Ico]

theorem sumQ_real (ps : ParamSpace) (s a b c : Nat) : ∀ n, ((sumQ ps s a b c n : ℚ) : ℝ) =
    ∑ i ∈ Finset.range n, ((ptOf ps s i).at 0 ^ a * (ptOf ps s i).at 1 ^ b * (ptOf ps s i).at 2 ^ c) * (ptOf ps s i).w := by
  intro n
  induction n with
  | zero => simp [sumQ]
  | succ n ih =>
    rw [Finset.sum_range_succ, ← ih, sumQ, powQ_eq, powQ_eq, powQ_eq]
    push_cast
    rfl

theorem monomial_close {ps : ParamSpace} (h : ps ≠ .unknown) {order : Nat} (ho : order ≤ 6) {a b c : Nat} (hd : a + b + c ≤ order) :
    |(∑ i ∈ Finset.range (scheme ps order), ((ptOf ps (scheme ps order) i).at 0 ^ a * (ptOf ps (scheme ps order) i).at 1 ^ b
      * (ptOf ps (scheme ps order) i).at 2 ^ c) * (ptOf ps (scheme ps order) i).w) - monoQ ps a b c| ≤ 2 / 10 ^ 14 := by
  have hc := (check_order h ho).2.2
  have h1 := List.all_eq_true.mp hc a (List.mem_range.mpr (by omega))
  have h2 := List.all_eq_true.mp h1 b (List.mem_range.mpr (by omega))
  have h3 := List.all_eq_true.mp h2 c (List.mem_range.mpr (by omega))
  simp only [Bool.and_eq_true, decide_eq_true_eq] at h3
  rw [← sumQ_real]
  have ht : ((tolQ : ℚ) : ℝ) = 2 / 10 ^ 14 := by unfold tolQ; rw [Rat.mkRat_eq_div]; push_cast; norm_num
  rw [← ht]
  exact abs_le.mpr ⟨by exact_mod_cast h3.2, by exact_mod_cast h3.1⟩

open MvPolynomial in
/-- **C49**: for every element, every order from 0 to 6, and every polynomial of that total degree in the parametric
coordinates, `Integration` adds the integral over the reference element, up to `2·10⁻¹⁴` times the sum of the magnitudes
of the coefficients. -/
theorem integration_exact (ht : t ≠ .unknown) {order : Nat} (ho : order ≤ 6) (P : MvPolynomial (Fin 3) ℝ) (hP : P.totalDegree ≤ order)
    (buf : ℝ) :
    ∃ r, integration t order (fun _ p _ => eval p P) buf = .ok r ∧
      |r - (buf + refIntegral (paramSpace t) fun p => eval p P)| ≤ 2 / 10 ^ 14 * ∑ m ∈ P.support, |P.coeff m| := by
  have hp := paramSpace_known ht
  refine ⟨_, integrateFrom_eq ht _ _ _ 0 buf (by omega), ?_⟩
  have hev : ∀ p : Fin 3 → ℝ, eval p P = ∑ m ∈ P.support, P.coeff m * (p 0 ^ m 0 * p 1 ^ m 1 * p 2 ^ m 2) := by
    intro p
    rw [eval_eq']
    simp only [Fin.prod_univ_three]
  simp only [hev]
  rw [ref_sum, ← Finset.range_eq_Ico, add_sub_add_left_eq_sub]
  simp only [Finset.sum_mul]
  rw [Finset.sum_comm, ← Finset.sum_sub_distrib, Finset.mul_sum]
  refine (Finset.abs_sum_le_sum_abs _ _).trans (Finset.sum_le_sum fun m hm => ?_)
  have hdeg : m 0 + m 1 + m 2 ≤ order := by
    have h1 := le_totalDegree hm
    rw [Finsupp.sum_fintype _ _ (by simp), Fin.sum_univ_three] at h1
    exact h1.trans hP
  have h := monomial_close hp ho hdeg
  rw [show ∀ g : Nat → ℝ, ∑ i ∈ Finset.range (scheme (paramSpace t) order), P.coeff m * g i * (ptOf (paramSpace t) (scheme (paramSpace t) order) i).w =
      P.coeff m * ∑ i ∈ Finset.range (scheme (paramSpace t) order), g i * (ptOf (paramSpace t) (scheme (paramSpace t) order) i).w from
    fun g => by rw [Finset.mul_sum]; exact Finset.sum_congr rfl fun i _ => by ring, ← mul_sub, abs_mul, mul_comm]
  exact mul_le_mul_of_nonneg_right h (abs_nonneg _)

/-- An order above 6, or below 0, is not refused: there is no scheme and `Integration` leaves the buffer as it was. -/
theorem integration_no_scheme (t : ElemType) {order : Int} (ho : order < 0 ∨ 6 < order) (f : Nat → (Fin 3 → ℝ) → (Nat → Nat → ℝ) → ℝ)
    (buf : ℝ) : integration t order f buf = .ok buf := by
  have h : scheme (paramSpace t) order = 0 := by
    have h0 : order ≠ 0 := by omega
    have h1 : order ≠ 1 := by omega
    have h2 : order ≠ 2 := by omega
    have h3 : order ≠ 3 := by omega
    have h4 : order ≠ 4 := by omega
    have h5 : order ≠ 5 := by omega
    have h6 : order ≠ 6 := by omega
    unfold scheme
    cases paramSpace t <;> simp [h0, h1, h2, h3, h4, h5, h6]
  show integrateFrom t (scheme (paramSpace t) order) f 0 (scheme (paramSpace t) order) buf = _
  rw [h]
  rfl

/-! ## Cases -/

/-- The volumes of the reference elements are the usual ones. -/
theorem ref_volumes : refIntegral .line (fun _ => 1) = 2 ∧ refIntegral .tri (fun _ => 1) = 1 / 2 ∧ refIntegral .quad (fun _ => 1) = 4 ∧
    refIntegral .tet (fun _ => 1) = 1 / 6 ∧ refIntegral .hex (fun _ => 1) = 8 ∧ refIntegral .prism (fun _ => 1) = 1 ∧
    refIntegral .pyramid (fun _ => 1) = 4 / 3 := by
  have h : ∀ ps, refIntegral ps (fun _ => 1) = monoQ ps 0 0 0 := by
    intro ps
    have := ref_sum (ι := Unit) {()} (fun _ => 1) (fun _ => 0) (fun _ => 0) (fun _ => 0) ps
    simpa using this
  simp only [h]
  refine ⟨?_, ?_, ?_, ?_, ?_, ?_, ?_⟩ <;> norm_num [monoQ, lineQ, zeroQ, Nat.factorial]

/-- Order 3 on a prism: `x y z` plus a constant is a polynomial that depends on all coordinates. -/
example : ∃ P : MvPolynomial (Fin 3) ℝ, P.totalDegree ≤ 3 ∧ MvPolynomial.eval ![1, 2, 3] P = 11 ∧
    ∃ r, integration .prism6 (3 : Nat) (fun _ p _ => MvPolynomial.eval p P) 0 = .ok r ∧
      |r - (0 + refIntegral .prism fun p => MvPolynomial.eval p P)| ≤ 2 / 10 ^ 14 * ∑ m ∈ P.support, |P.coeff m| := by
  have hd : (MvPolynomial.X 0 * MvPolynomial.X 1 * MvPolynomial.X 2 + MvPolynomial.C 5 : MvPolynomial (Fin 3) ℝ).totalDegree ≤ 3 := by
    refine (MvPolynomial.totalDegree_add _ _).trans (max_le ?_ (by simp))
    refine (MvPolynomial.totalDegree_mul _ _).trans ?_
    rw [MvPolynomial.totalDegree_X]
    have := MvPolynomial.totalDegree_mul (R := ℝ) (MvPolynomial.X (0 : Fin 3)) (MvPolynomial.X 1)
    rw [MvPolynomial.totalDegree_X, MvPolynomial.totalDegree_X] at this
    omega
  refine ⟨_, hd, by simp; norm_num, integration_exact (t := .prism6) (by decide) (by decide) _ hd 0⟩

/-- One point more would be needed: the scheme of order 1 on a line gives 0 for `x²`, whose integral is `2/3`. -/
theorem order_needed : ∃ r, integration .line2 (1 : Nat) (fun _ p _ => p 0 ^ 2) 0 = .ok r ∧ r = 0 ∧ refIntegral .line (fun p => p 0 ^ 2) = 2 / 3 := by
  refine ⟨_, integrateFrom_eq (t := .line2) (by decide) _ _ _ 0 0 (by omega), ?_, ?_⟩
  · have : scheme (paramSpace .line2) ((1 : Nat) : Int) = 1 := by decide
    rw [this]
    simp [ptOf, paramSpace, linePt, Pt.at, cell, gaussLegendre_1]
  · show ∫ x in (-1 : ℝ)..1, x ^ 2 = 2 / 3
    rw [integral_pow]; norm_num

end DNDSR.Quad
