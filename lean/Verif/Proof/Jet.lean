import Verif.Spec.Jet
import Mathlib.Analysis.Calculus.Deriv.Mul
import Mathlib.Analysis.Calculus.Deriv.Pow
import Mathlib.Analysis.Calculus.Deriv.Pi
import Mathlib.Analysis.Calculus.FDeriv.Pi
import Mathlib.Analysis.Calculus.FDeriv.Symmetric
import Mathlib.Analysis.Calculus.ContDiff.Operations
import Mathlib.Data.Nat.Factorial.Basic
import Mathlib.Tactic.Ring
import Mathlib.Tactic.FieldSimp

/-!
# Rules for partial derivatives
-/

namespace DNDSR.Jet

variable {d : Nat}

/-- The power product with exponents `e`. -/
noncomputable def powers (l : Fin d → ℝ) (e : Fin d → Nat) (x : Fin d → ℝ) : ℝ := ∏ a, (x a / l a) ^ e a

theorem monomial_powers (l : Fin d → ℝ) (L : List (Fin d)) : monomial l L = powers l (fun a => L.count a) := by
  funext x
  induction L with
  | nil => simp [monomial, powers]
  | cons i L ih =>
    have : monomial l (i :: L) x = x i / l i * monomial l L x := by simp [monomial]
    rw [this, ih]
    unfold powers
    have e : ∀ a, (x a / l a) ^ (i :: L).count a = (if a = i then x a / l a else 1) * (x a / l a) ^ L.count a := fun a => by
      by_cases h : a = i
      · subst h; simp [pow_succ, mul_comm]
      · simp [h, List.count_cons, Ne.symm h]
    rw [Finset.prod_congr rfl (fun a _ => e a), Finset.prod_mul_distrib]
    simp

theorem pd_const_mul (i : Fin d) (c : ℝ) (f : (Fin d → ℝ) → ℝ) : pd i (fun x => c * f x) = fun x => c * pd i f x := by
  funext x
  unfold pd
  exact deriv_const_mul_field (v := fun t => f (Function.update x i t)) c

theorem pd_powers (l : Fin d → ℝ) (e : Fin d → Nat) (i : Fin d) : pd i (powers l e) =
    fun x => e i / l i * powers l (fun a => if a = i then e a - 1 else e a) x := by
  funext x
  have h1 : ∀ t, powers l e (Function.update x i t) = (t / l i) ^ e i * ∏ a ∈ Finset.univ.erase i, (x a / l a) ^ e a := fun t => by
    unfold powers
    rw [← Finset.mul_prod_erase Finset.univ _ (Finset.mem_univ i), Function.update_self]
    congr 1
    refine Finset.prod_congr rfl fun a ha => ?_
    rw [Function.update_of_ne (Finset.ne_of_mem_erase ha)]
  unfold pd
  simp only [h1]
  rw [deriv_mul_const_field]
  have h2 : deriv (fun t : ℝ => (t / l i) ^ e i) (x i) = e i / l i * (x i / l i) ^ (e i - 1) := by
    have h := ((hasDerivAt_id (x i)).div_const (l i)).pow (e i)
    have h' := h.deriv
    simp only [id] at h'
    rw [show (fun t : ℝ => (t / l i) ^ e i) = ((fun x => x / l i) ^ e i) from rfl, h']
    ring
  rw [h2]
  unfold powers
  rw [← Finset.mul_prod_erase Finset.univ (fun a => (x a / l a) ^ (if a = i then e a - 1 else e a)) (Finset.mem_univ i), if_pos rfl]
  have h3 : ∏ a ∈ Finset.univ.erase i, (x a / l a) ^ (if a = i then e a - 1 else e a) = ∏ a ∈ Finset.univ.erase i, (x a / l a) ^ e a :=
    Finset.prod_congr rfl fun a ha => by rw [if_neg (Finset.ne_of_mem_erase ha)]
  rw [h3]
  ring

/-- Repeated derivatives of a power product. -/
theorem pdL_powers (l : Fin d → ℝ) (e : Fin d → Nat) (L : List (Fin d)) : pdL L (powers l e) =
    fun x => ∏ a, ((e a).descFactorial (L.count a) * (x a / l a) ^ (e a - L.count a) / l a ^ L.count a) := by
  have key : pdL L (powers l e) =
      fun x => (∏ a, ((e a).descFactorial (L.count a) : ℝ) / l a ^ L.count a) * powers l (fun a => e a - L.count a) x := by
    induction L with
    | nil => funext x; simp [pdL]
    | cons i L ih =>
      rw [pdL, ih, pd_const_mul, pd_powers]
      funext x
      rw [← mul_assoc]
      have he : (fun a => if a = i then e a - L.count a - 1 else e a - L.count a) = fun a => e a - (i :: L).count a := by
        funext a
        by_cases h : a = i
        · subst h; simp; omega
        · simp [h, List.count_cons, Ne.symm h]
      rw [he]
      congr 1
      have e2 : ∀ a, ((e a).descFactorial ((i :: L).count a) : ℝ) / l a ^ (i :: L).count a =
          ((e a).descFactorial (L.count a) / l a ^ L.count a) * (if a = i then ((e a - L.count a : Nat) : ℝ) / l a else 1) := fun a => by
        by_cases h : a = i
        · subst h
          simp only [List.count_cons_self, Nat.descFactorial_succ, if_true, Nat.cast_mul, pow_succ]
          rw [div_mul_div_comm, mul_comm ((e a - L.count a : Nat) : ℝ)]
        · simp [h, List.count_cons, Ne.symm h]
      rw [Finset.prod_congr rfl (fun a _ => e2 a), Finset.prod_mul_distrib]
      simp
  rw [key]
  funext x
  unfold powers
  rw [← Finset.prod_mul_distrib]
  refine Finset.prod_congr rfl fun a _ => by ring

/-- Derivatives of a monomial. -/
theorem pdL_monomial (l : Fin d → ℝ) (L M : List (Fin d)) (x : Fin d → ℝ) : pdL L (monomial l M) x =
    ∏ a, ((M.count a).descFactorial (L.count a) * (x a / l a) ^ (M.count a - L.count a) / l a ^ L.count a) := by
  rw [monomial_powers, pdL_powers]

end DNDSR.Jet

namespace DNDSR.Jet

variable {d e : Nat}

theorem pd_eq {f : (Fin d → ℝ) → ℝ} {x : Fin d → ℝ} (hf : DifferentiableAt ℝ f x) (i : Fin d) :
    pd i f x = fderiv ℝ f x (Pi.single i 1) := by
  have h1 : HasDerivAt (fun t => Function.update x i t) (Pi.single i 1) (x i) := hasDerivAt_update x i (x i)
  have h2 : HasFDerivAt f (fderiv ℝ f x) (Function.update x i (x i)) := by rw [Function.update_eq_self]; exact hf.hasFDerivAt
  exact (h2.comp_hasDerivAt (x i) h1).deriv

theorem Smooth.differentiable {f : (Fin d → ℝ) → ℝ} (h : Smooth f) : Differentiable ℝ f :=
  ContDiff.differentiable h (by simp)

theorem Smooth.pd {f : (Fin d → ℝ) → ℝ} (h : Smooth f) (i : Fin d) : Smooth (pd i f) := by
  have e : Jet.pd i f = fun x => fderiv ℝ f x (Pi.single i 1) := funext fun x => pd_eq (h.differentiable x) i
  rw [e]
  exact (ContDiff.fderiv_right (m := (⊤ : ℕ∞)) h (by simp)).clm_apply contDiff_const

theorem Smooth.pdL {f : (Fin d → ℝ) → ℝ} (h : Smooth f) (L : List (Fin d)) : Smooth (pdL L f) := by
  induction L with
  | nil => exact h
  | cons i L ih => exact ih.pd i

theorem pd_comm {f : (Fin d → ℝ) → ℝ} (h : Smooth f) (i j : Fin d) : pd i (pd j f) = pd j (pd i f) := by
  have key : ∀ (i j : Fin d) x, pd i (pd j f) x = fderiv ℝ (fderiv ℝ f) x (Pi.single i 1) (Pi.single j 1) := fun i j x => by
    rw [pd_eq ((h.pd j).differentiable x)]
    have e : pd j f = fun x => fderiv ℝ f x (Pi.single j 1) := funext fun x => pd_eq (h.differentiable x) j
    have hd : DifferentiableAt ℝ (fderiv ℝ f) x :=
      ((ContDiff.fderiv_right (m := (⊤ : ℕ∞)) h (by simp)).differentiable (by simp)) x
    rw [e, fderiv_clm_apply hd (differentiableAt_const _)]
    simp
  funext x
  rw [key, key]
  exact (ContDiffAt.isSymmSndFDerivAt (ContDiff.contDiffAt h) (by rw [minSmoothness_of_isRCLikeNormedField]; exact WithTop.coe_le_coe.mpr (le_top : (2 : ℕ∞) ≤ ⊤))) _ _

theorem pdL_perm {f : (Fin d → ℝ) → ℝ} (h : Smooth f) {L M : List (Fin d)} (hp : L.Perm M) : pdL L f = pdL M f := by
  induction hp with
  | nil => rfl
  | cons i _ ih => rw [pdL, pdL, ih]
  | swap i j l => exact pd_comm (h.pdL l) j i
  | trans _ _ ih1 ih2 => rw [ih1, ih2]

theorem pd_comp {u : (Fin e → ℝ) → ℝ} {ξ : (Fin d → ℝ) → (Fin e → ℝ)} (hu : Differentiable ℝ u)
    (hξ : ∀ m, Differentiable ℝ (fun x => ξ x m)) (i : Fin d) :
    pd i (fun x => u (ξ x)) = fun x => ∑ m, pd i (fun x => ξ x m) x * pd m u (ξ x) := by
  funext x
  have hξ' : DifferentiableAt ℝ ξ x := differentiableAt_pi.mpr fun m => hξ m x
  have hc : DifferentiableAt ℝ (fun x => u (ξ x)) x := (hu (ξ x)).comp x hξ'
  rw [pd_eq hc]
  have h1 : fderiv ℝ (fun x => u (ξ x)) x = (fderiv ℝ u (ξ x)).comp (fderiv ℝ ξ x) := fderiv_comp x (hu (ξ x)) hξ'
  have h2 : fderiv ℝ ξ x (Pi.single i 1) = fun m => pd i (fun x => ξ x m) x := by
    funext m
    rw [pd_eq (hξ m x), fderiv_pi (φ := fun m x => ξ x m) (fun m => hξ m x)]
    rfl
  rw [h1, ContinuousLinearMap.comp_apply, h2]
  have h3 : ∀ v : Fin e → ℝ, fderiv ℝ u (ξ x) v = ∑ m, v m * pd m u (ξ x) := fun v => by
    conv_lhs => rw [show v = ∑ m, v m • (Pi.single m 1 : Fin e → ℝ) from by
      funext k; simp [Finset.sum_apply, Pi.single_apply]]
    rw [map_sum]
    refine Finset.sum_congr rfl fun m _ => ?_
    rw [map_smul, pd_eq (hu (ξ x))]
    rfl
  exact h3 _

theorem pd_mul {f g : (Fin d → ℝ) → ℝ} (hf : Differentiable ℝ f) (hg : Differentiable ℝ g) (i : Fin d) :
    pd i (fun x => f x * g x) = fun x => pd i f x * g x + f x * pd i g x := by
  funext x
  have := fderiv_mul (hf x) (hg x)
  rw [pd_eq (f := fun x => f x * g x) ((hf x).mul (hg x)), pd_eq (hf x), pd_eq (hg x)]
  rw [show (fun x => f x * g x) = f * g from rfl, this]
  simp
  ring

theorem pd_sum {n : Nat} {f : Fin n → (Fin d → ℝ) → ℝ} (hf : ∀ m, Differentiable ℝ (f m)) (i : Fin d) :
    pd i (fun x => ∑ m, f m x) = fun x => ∑ m, pd i (f m) x := by
  funext x
  have hs : DifferentiableAt ℝ (fun x => ∑ m, f m x) x := DifferentiableAt.fun_sum fun m _ => hf m x
  rw [pd_eq hs, fderiv_fun_sum fun m _ => hf m x]
  rw [ContinuousLinearMap.sum_apply]
  exact Finset.sum_congr rfl fun m _ => (pd_eq (hf m x) i).symm

theorem pd_add {f g : (Fin d → ℝ) → ℝ} (hf : Differentiable ℝ f) (hg : Differentiable ℝ g) (i : Fin d) :
    pd i (fun x => f x + g x) = fun x => pd i f x + pd i g x := by
  funext x
  rw [pd_eq (f := fun x => f x + g x) ((hf x).add (hg x)), pd_eq (hf x), pd_eq (hg x), fderiv_fun_add (hf x) (hg x)]
  rfl

end DNDSR.Jet
