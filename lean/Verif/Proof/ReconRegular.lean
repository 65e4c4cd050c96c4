import Verif.Proof.ReconLaws

/-!
A polynomial of mean zero whose derivatives vanish at a point is zero.
-/

namespace DNDSR.Rec

open Matrix Jet

variable {d : Nat}

/-- all derivatives of order `k` are zero -/
def Vanish (k : Nat) (f : (Fin d → ℝ) → ℝ) (p : Fin d → ℝ) : Prop := ∀ l : List (Fin d), l.length = k → pdL l f p = 0

theorem pdL_snoc (l : List (Fin d)) (i : Fin d) (f : (Fin d → ℝ) → ℝ) : pdL (l ++ [i]) f = pdL l (pd i f) := by
  induction l with
  | nil => rfl
  | cons a l ih => rw [List.cons_append, pdL, pdL, ih]

theorem Vanish.pd {k : Nat} {f : (Fin d → ℝ) → ℝ} {p : Fin d → ℝ} (h : Vanish (k + 1) f p) (i : Fin d) : Vanish k (pd i f) p :=
  fun l hl => by rw [← pdL_snoc]; exact h _ (by simp [hl])

theorem vanish_succ {k : Nat} {f : (Fin d → ℝ) → ℝ} {p : Fin d → ℝ} (h : ∀ i, Vanish k (pd i f) p) : Vanish (k + 1) f p := by
  intro l hl
  rcases List.eq_nil_or_concat l with rfl | ⟨l', i, rfl⟩
  · simp at hl
  · rw [List.concat_eq_append, pdL_snoc]
    exact h i l' (by simpa using hl)

theorem vanish_of_contract {k : Nat} {f : (Fin d → ℝ) → ℝ} {p : Fin d → ℝ} (h : contract k f f p = 0) : Vanish k f p := by
  induction k generalizing f with
  | zero =>
    intro l hl
    rw [List.length_eq_zero_iff.mp hl]
    exact mul_self_eq_zero.mp h
  | succ k ih =>
    have := (Finset.sum_eq_zero_iff_of_nonneg fun i _ => contract_self k (pd i f) p).mp h
    exact vanish_succ fun i => ih (this i (Finset.mem_univ i))

theorem vanish_affine {k : Nat} {f : (Fin d → ℝ) → ℝ} (hf : Smooth f) (T : Matrix (Fin d) (Fin d) ℝ) (b x : Fin d → ℝ)
    (h : Vanish k f (affine T b x)) : Vanish k (fun y => f (affine T b y)) x := by
  induction k generalizing f with
  | zero =>
    intro l hl
    rw [List.length_eq_zero_iff.mp hl]
    exact h [] rfl
  | succ k ih =>
    refine vanish_succ fun i l hl => ?_
    have e : pd i (fun y => f (affine T b y)) = fun y => ∑ m, T i m * pd m f (affine T b y) := by
      rw [pd_comp hf.differentiable fun m => (affine_smooth T b m).differentiable]
      funext y
      exact Finset.sum_congr rfl fun m _ => by rw [pd_affine]
    rw [e, pdL_sum (fun m => T i m) fun m => (hf.pd m).comp (affine_smooth T b)]
    exact Finset.sum_eq_zero fun m _ => by rw [ih (hf.pd m) (h.pd m) l hl, mul_zero]

theorem affine_inv {T : Matrix (Fin d) (Fin d) ℝ} (hT : IsUnit T.det) (b z : Fin d → ℝ) :
    affine T b (affine T⁻¹ (fun i => -∑ j, T⁻¹ j i * b j) z) = z := by
  funext m
  have e := Matrix.nonsing_inv_mul T hT
  have ee : ∀ j, ∑ i, T⁻¹ j i * T i m = if j = m then 1 else 0 := fun j => by
    have := congrFun (congrFun e j) m
    rw [Matrix.mul_apply] at this
    rw [this, Matrix.one_apply]
  have s : ∀ w : Fin d → ℝ, ∑ i, T i m * ∑ j, T⁻¹ j i * w j = w m := fun w => by
    simp only [Finset.mul_sum]
    rw [Finset.sum_comm]
    have : ∀ j, ∑ i, T i m * (T⁻¹ j i * w j) = (if j = m then 1 else 0) * w j := fun j => by
      rw [← ee j, Finset.sum_mul]
      exact Finset.sum_congr rfl fun i _ => by ring
    rw [Finset.sum_congr rfl fun j _ => this j]
    simp
  show (∑ i, T i m * ((∑ j, T⁻¹ j i * z j) + -∑ j, T⁻¹ j i * b j)) + b m = z m
  simp only [mul_add, mul_neg, Finset.sum_add_distrib, Finset.sum_neg_distrib]
  rw [s z, s b]
  ring

/-- the order of the derivative is at least the degree -/
theorem pdL_top {l : Fin d → ℝ} (hl : ∀ a, l a ≠ 0) {L M : List (Fin d)} (h : M.length ≤ L.length) (x : Fin d → ℝ) :
    (L.Perm M → pdL L (monomial l M) x ≠ 0) ∧ (¬L.Perm M → pdL L (monomial l M) x = 0) := by
  rw [pdL_monomial]
  constructor
  · intro hp
    refine Finset.prod_ne_zero_iff.mpr fun a _ => ?_
    rw [hp.count_eq a, Nat.sub_self, pow_zero, mul_one, Nat.descFactorial_self]
    exact div_ne_zero (Nat.cast_ne_zero.mpr (Nat.factorial_ne_zero _)) (pow_ne_zero _ (hl a))
  · intro hp
    have : ∃ a, M.count a < L.count a := by
      by_contra hc
      push Not at hc
      have hsub : List.Subperm L M := by
        rw [List.subperm_ext_iff]
        exact fun a _ => hc a
      exact hp (hsub.perm_of_length_le h)
    obtain ⟨a, ha⟩ := this
    refine Finset.prod_eq_zero (Finset.mem_univ a) ?_
    rw [Nat.descFactorial_of_lt ha]
    simp

variable {N : Nat}

/-- the coefficients are determined by the derivatives at a point -/
theorem coeff_zero {l : Fin d → ℝ} (hl : ∀ a, l a ≠ 0) (M : Fin N → List (Fin d)) (hM : ∀ i j, (M i).Perm (M j) → i = j) {m : Nat}
    (h1 : ∀ j, 1 ≤ (M j).length ∧ (M j).length ≤ m) (y : Fin N → ℝ) (c : ℝ) {x : Fin d → ℝ}
    (hv : ∀ k, 1 ≤ k → k ≤ m → Vanish k (fun z => c + ∑ j, y j * monomial l (M j) z) x) : y = 0 := by
  by_contra hy
  have hne : (Finset.univ.filter fun j => y j ≠ 0).Nonempty := by
    obtain ⟨j, hj⟩ := Function.ne_iff.mp hy
    exact ⟨j, Finset.mem_filter.mpr ⟨Finset.mem_univ j, hj⟩⟩
  obtain ⟨j, hj, hmax⟩ := Finset.exists_max_image _ (fun j => (M j).length) hne
  have hyj : y j ≠ 0 := (Finset.mem_filter.mp hj).2
  have hd : pdL (M j) (fun z => c + ∑ j, y j * monomial l (M j) z) x = ∑ i, y i * pdL (M j) (monomial l (M i)) x := by
    have e : (fun z => c + ∑ j, y j * monomial l (M j) z) =
        fun z => ∑ i : Fin 2, (![c, 1] : Fin 2 → ℝ) i * (![fun _ => 1, fun z => ∑ j, y j * monomial l (M j) z] : Fin 2 → (Fin d → ℝ) → ℝ) i z := by
      funext z
      simp [Fin.sum_univ_two]
    have hsm : ∀ i : Fin 2, Smooth ((![fun _ => 1, fun z => ∑ j, y j * monomial l (M j) z] : Fin 2 → (Fin d → ℝ) → ℝ) i)
      | 0 => smooth_const 1
      | 1 => smooth_sum (fun j => smooth_monomial l (M j)) y
    rw [e, pdL_sum _ hsm]
    refine (Fin.sum_univ_two _).trans ?_
    have z : pdL (M j) (fun _ => (1 : ℝ)) x = 0 := by
      obtain ⟨L', i, hL⟩ := (List.eq_nil_or_concat (M j)).resolve_left fun h => by
        have := (h1 j).1
        rw [h] at this
        simp at this
      have zz : ∀ L : List (Fin d), pdL L (fun _ : Fin d → ℝ => (0 : ℝ)) = fun _ => 0 := fun L => by
        induction L with
        | nil => rfl
        | cons a L ih => rw [pdL, ih, pd_const]
      rw [hL, List.concat_eq_append, pdL_snoc, pd_const, zz]
    show c * pdL (M j) (fun _ => (1 : ℝ)) x + 1 * pdL (M j) (fun z => ∑ j, y j * monomial l (M j) z) x = _
    rw [z, pdL_sum y fun i => smooth_monomial l (M i)]
    ring
  have h0 := hv _ (h1 j).1 (h1 j).2 (M j) rfl
  rw [hd, Finset.sum_eq_single j] at h0
  · rcases mul_eq_zero.mp h0 with h | h
    · exact hyj h
    · exact (pdL_top hl le_rfl x).1 (List.Perm.refl _) h
  · intro i _ hij
    by_cases hi : y i = 0
    · rw [hi, zero_mul]
    · rw [(pdL_top hl (hmax i (Finset.mem_filter.mpr ⟨Finset.mem_univ i, hi⟩)) x).2 fun hp => hij (hM j i hp).symm, mul_zero]
  · exact fun h => absurd (Finset.mem_univ j) h

/-- the faces see every polynomial of mean zero -/
theorem sees_of {S : Space} {Fr : Frame d} {R : List (List (Fin d))} (L : Laws S Fr R) (W : Wrap) {m : Nat} (C : CellBase) (sides : List Side)
    {T : Matrix (Fin d) (Fin d) ℝ} {b : Fin d → ℝ} {l : Fin d → ℝ} (hT : IsUnit T.det) (hl : ∀ a, l a ≠ 0)
    (hbase : ∀ (j : Nat) y, Fr.base C j y = monomial l (R.getD (j + 1) []) (affine T b y) - C.moment (j + 1))
    (hR : ∀ i j : Fin N, (R.getD (i + 1) []).Perm (R.getD (j + 1) []) → i = j)
    (h1 : ∀ j : Fin N, 1 ≤ (R.getD (j + 1) []).length ∧ (R.getD (j + 1) []).length ≤ m)
    {s : Side} (hs : s ∈ sides) {g : QPoint} (hg : g ∈ s.q) (hpos : 0 < g.w * g.det) (hw : ∀ k, 1 ≤ k → k ≤ m → s.F.weight k ≠ 0)
    (hL : if s.F.anisotropic then IsUnit (Fr.block (coordTrans S s.F)).det else faceL S s.F ≠ 0) : Sees S W Fr m N C sides := by
  intro y hy
  have hp := hy s hs g hg hpos
  let p := Fr.proj (onSide W s.faceID s.if2c g.p)
  have hf := smooth_poly L C y 0
  have key : ∀ (len : ℝ) (f : (Fin d → ℝ) → ℝ) (q : Fin d → ℝ), len ≠ 0 → penalty m s.F.weight len f q = 0 → ∀ k, 1 ≤ k → k ≤ m → Vanish k f q := by
    intro len f q hlen h k hk1 hkm
    have nn : ∀ k ∈ Finset.range (m + 1), 0 ≤ s.F.weight k ^ 2 * len ^ (2 * k) * contract k f f q := fun k _ => by
      have : 0 ≤ len ^ (2 * k) := by rw [pow_mul]; positivity
      exact mul_nonneg (mul_nonneg (sq_nonneg _) this) (contract_self _ _ _)
    have := (Finset.sum_eq_zero_iff_of_nonneg nn).mp h k (Finset.mem_range.mpr (by omega))
    refine vanish_of_contract ((mul_eq_zero.mp this).resolve_left ?_)
    exact mul_ne_zero (pow_ne_zero _ (hw k hk1 hkm)) (pow_ne_zero _ hlen)
  have hv : ∀ k, 1 ≤ k → k ≤ m → Vanish k (poly Fr C y 0) p := by
    unfold facePenalty at hp
    cases ha : s.F.anisotropic with
    | false =>
      rw [ha, if_neg (by simp)] at hp hL
      exact key _ _ _ hL hp
    | true =>
      rw [ha, if_pos rfl] at hp hL
      have hv' := key 1 _ _ one_ne_zero hp
      intro k hk1 hkm
      let B := Fr.block (coordTrans S s.F)
      have e : (fun z => (fun y' => poly Fr C y 0 (affine B p y')) (affine B⁻¹ (fun i => -∑ j, B⁻¹ j i * p j) z)) = poly Fr C y 0 := by
        funext z
        show poly Fr C y 0 (affine B p (affine B⁻¹ _ z)) = _
        rw [affine_inv hL]
      rw [← e]
      refine vanish_affine (hf.comp (affine_smooth B p)) B⁻¹ _ p ?_
      have e0 : affine B⁻¹ (fun i => -∑ j, B⁻¹ j i * p j) p = 0 := by
        funext i
        show (∑ j, B⁻¹ j i * p j) + -∑ j, B⁻¹ j i * p j = 0
        ring
      rw [e0]
      exact hv' k hk1 hkm
  let b' : Fin d → ℝ := fun i => -∑ j, T⁻¹ j i * b j
  let c : ℝ := ∑ j : Fin N, y j * (-C.moment (j + 1))
  refine coeff_zero hl (fun j : Fin N => R.getD (j + 1) []) hR (m := m) h1 y c (x := affine T b p) fun k hk1 hkm => ?_
  have e : (fun z => c + ∑ j, y j * monomial l (R.getD (j + 1) []) z) = fun z => poly Fr C y 0 (affine T⁻¹ b' z) := by
    funext z
    unfold poly
    rw [zero_add]
    simp only [hbase, b', affine_inv hT, c]
    rw [← Finset.sum_add_distrib]
    exact Finset.sum_congr rfl fun j _ => by ring
  rw [e]
  refine vanish_affine hf T⁻¹ b' _ ?_
  have e1 : affine T⁻¹ b' (affine T b p) = p := by
    have e := Matrix.mul_nonsing_inv T hT
    funext m
    have ee : ∀ j, ∑ i, T j i * T⁻¹ i m = if j = m then 1 else 0 := fun j => by
      have := congrFun (congrFun e j) m
      rw [Matrix.mul_apply] at this
      rw [this, Matrix.one_apply]
    show (∑ i, T⁻¹ i m * ((∑ j, T j i * p j) + b i)) + -∑ j, T⁻¹ j m * b j = p m
    simp only [mul_add, Finset.sum_add_distrib, Finset.mul_sum]
    rw [Finset.sum_comm]
    have : ∀ j, ∑ i, T⁻¹ i m * (T j i * p j) = (if j = m then 1 else 0) * p j := fun j => by
      rw [← ee j, Finset.sum_mul]
      exact Finset.sum_congr rfl fun i _ => by ring
    rw [Finset.sum_congr rfl fun j _ => this j]
    simp
  rw [e1]
  exact hv k hk1 hkm

end DNDSR.Rec
