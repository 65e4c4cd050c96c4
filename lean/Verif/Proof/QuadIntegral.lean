import Mathlib.Analysis.SpecialFunctions.Integrals.Basic
import Mathlib.Algebra.MvPolynomial.Eval
import Mathlib.Tactic.FieldSimp
import Mathlib.Tactic.Ring
import Mathlib.Tactic.LinearCombination
import Verif.Spec.Quadrature

/-!
# The integrals of monomials over the reference elements
-/

namespace DNDSR.Quad

open DNDSR.Elem intervalIntegral
open scoped Nat

/-- The integral of a power over the symmetric interval. -/
def lineQ (a : Nat) : ℚ := (1 - (-1) ^ (a + 1)) / (a + 1)

/-- The power of zero. -/
def zeroQ (a : Nat) : ℚ := if a = 0 then 1 else 0

/-- The integral of a monomial over the reference element. -/
def monoQ (ps : ParamSpace) (a b c : Nat) : ℚ :=
  match ps with
  | .line => lineQ a * zeroQ b * zeroQ c
  | .tri => (a ! * b ! : ℚ) / (a + b + 2)! * zeroQ c
  | .quad => lineQ a * lineQ b * zeroQ c
  | .tet => (a ! * b ! * c ! : ℚ) / (a + b + c + 3)!
  | .hex => lineQ a * lineQ b * lineQ c
  | .prism => (a ! * b ! : ℚ) / (a + b + 2)! * lineQ c
  | .pyramid => lineQ a * lineQ b * ((c ! * (a + b + 2)! : ℚ) / (a + b + c + 3)!)
  | .unknown => 0

theorem lineQ_real (a : Nat) : ((lineQ a : ℚ) : ℝ) = ∫ x in (-1 : ℝ)..1, x ^ a := by
  rw [integral_pow]; unfold lineQ; push_cast; ring

theorem zeroQ_real (a : Nat) : ((zeroQ a : ℚ) : ℝ) = 0 ^ a := by
  unfold zeroQ
  by_cases h : a = 0
  · subst h; simp
  · rw [if_neg h, zero_pow h]; simp

/-- The beta integral. -/
theorem beta (s : ℝ) (b n : Nat) :
    ∫ y in (0 : ℝ)..s, y ^ b * (s - y) ^ n = s ^ (b + n + 1) * (b ! * n !) / (b + n + 1)! := by
  induction n generalizing b with
  | zero =>
    simp only [pow_zero, mul_one, integral_pow, Nat.factorial_zero, Nat.cast_one, Nat.add_zero]
    rw [Nat.factorial_succ]
    have : (b ! : ℝ) ≠ 0 := by exact_mod_cast Nat.factorial_ne_zero b
    have : (b : ℝ) + 1 ≠ 0 := by positivity
    push_cast
    field_simp
    ring
  | succ n ih =>
    have hd : ∀ y ∈ Set.uIcc (0 : ℝ) s, HasDerivAt (fun y => y ^ (b + 1) * (s - y) ^ (n + 1))
        (((b : ℝ) + 1) * (y ^ b * (s - y) ^ (n + 1)) - ((n : ℝ) + 1) * (y ^ (b + 1) * (s - y) ^ n)) y := by
      intro y _
      have h1 := (hasDerivAt_id y).pow (b + 1)
      have h2 := ((hasDerivAt_const y s).sub (hasDerivAt_id y)).pow (n + 1)
      have h := h1.mul h2
      refine h.congr_deriv ?_
      simp only [Pi.sub_apply, id, Nat.add_sub_cancel, Pi.pow_apply]
      push_cast
      ring
    have hi := integral_eq_sub_of_hasDerivAt hd (Continuous.intervalIntegrable (by fun_prop) _ _)
    rw [integral_sub (Continuous.intervalIntegrable (by fun_prop) _ _) (Continuous.intervalIntegrable (by fun_prop) _ _),
      integral_const_mul, integral_const_mul, ih] at hi
    simp only [sub_self, ne_eq, Nat.add_eq_zero_iff, one_ne_zero, and_false, not_false_eq_true, zero_pow, mul_zero, zero_mul] at hi
    have hb : (b : ℝ) + 1 ≠ 0 := by positivity
    have e : b + 1 + n + 1 = b + (n + 1) + 1 := by omega
    rw [e] at hi
    have hf : ((b + (n + 1) + 1)! : ℝ) ≠ 0 := by exact_mod_cast Nat.factorial_ne_zero _
    apply mul_left_cancel₀ hb
    rw [sub_eq_zero.mp hi, Nat.factorial_succ b, Nat.factorial_succ n]
    push_cast
    ring

theorem beta_one (b n : Nat) : ∫ y in (0 : ℝ)..1, y ^ b * (1 - y) ^ n = (b ! * n !) / (b + n + 1)! := by
  rw [beta]; simp

/-- Sums may be pulled out. -/
theorem int_sum {ι : Type*} (S : Finset ι) (g : ι → ℝ → ℝ) (a b : ℝ) (h : ∀ i ∈ S, Continuous (g i)) :
    ∫ x in a..b, ∑ i ∈ S, g i x = ∑ i ∈ S, ∫ x in a..b, g i x :=
  integral_finsetSum fun i hi => (h i hi).intervalIntegrable _ _

theorem pow_int (s : ℝ) (c : Nat) : ∫ z in (0 : ℝ)..s, z ^ c = s ^ (c + 1) / (c + 1) := by
  rw [integral_pow]; simp

theorem sym_int (s : ℝ) (a : Nat) : ∫ x in -s..s, x ^ a = s ^ (a + 1) * lineQ a := by
  rw [integral_pow]; unfold lineQ; push_cast
  rw [neg_pow s (a + 1)]; ring

variable {ι : Type*} (S : Finset ι) (k : ι → ℝ) (a b c : ι → Nat)

theorem ref_line : refIntegral .line (fun p => ∑ i ∈ S, k i * (p 0 ^ a i * p 1 ^ b i * p 2 ^ c i)) =
    ∑ i ∈ S, k i * monoQ .line (a i) (b i) (c i) := by
  show ∫ x in (-1 : ℝ)..1, ∑ i ∈ S, k i * (x ^ a i * 0 ^ b i * 0 ^ c i) = _
  rw [int_sum _ _ _ _ (by intros; fun_prop)]
  refine Finset.sum_congr rfl fun i _ => ?_
  rw [integral_const_mul, integral_mul_const, integral_mul_const]
  unfold monoQ; push_cast
  rw [lineQ_real, zeroQ_real, zeroQ_real]

theorem ref_quad : refIntegral .quad (fun p => ∑ i ∈ S, k i * (p 0 ^ a i * p 1 ^ b i * p 2 ^ c i)) =
    ∑ i ∈ S, k i * monoQ .quad (a i) (b i) (c i) := by
  show ∫ x in (-1 : ℝ)..1, ∫ y in (-1 : ℝ)..1, ∑ i ∈ S, k i * (x ^ a i * y ^ b i * 0 ^ c i) = _
  have h : ∀ x : ℝ, ∫ y in (-1 : ℝ)..1, ∑ i ∈ S, k i * (x ^ a i * y ^ b i * 0 ^ c i) =
      ∑ i ∈ S, k i * (x ^ a i * lineQ (b i) * zeroQ (c i)) := by
    intro x
    rw [int_sum _ _ _ _ (by intros; fun_prop)]
    refine Finset.sum_congr rfl fun i _ => ?_
    rw [integral_const_mul, integral_mul_const, integral_const_mul, lineQ_real, zeroQ_real]
  simp only [h]
  rw [int_sum _ _ _ _ (by intros; fun_prop)]
  refine Finset.sum_congr rfl fun i _ => ?_
  rw [integral_const_mul, integral_mul_const, integral_mul_const]
  unfold monoQ; push_cast
  rw [lineQ_real (a i)]

theorem ref_hex : refIntegral .hex (fun p => ∑ i ∈ S, k i * (p 0 ^ a i * p 1 ^ b i * p 2 ^ c i)) =
    ∑ i ∈ S, k i * monoQ .hex (a i) (b i) (c i) := by
  show ∫ x in (-1 : ℝ)..1, ∫ y in (-1 : ℝ)..1, ∫ z in (-1 : ℝ)..1, ∑ i ∈ S, k i * (x ^ a i * y ^ b i * z ^ c i) = _
  have h : ∀ x y : ℝ, ∫ z in (-1 : ℝ)..1, ∑ i ∈ S, k i * (x ^ a i * y ^ b i * z ^ c i) =
      ∑ i ∈ S, k i * (x ^ a i * y ^ b i * lineQ (c i)) := by
    intro x y
    rw [int_sum _ _ _ _ (by intros; fun_prop)]
    refine Finset.sum_congr rfl fun i _ => ?_
    rw [integral_const_mul, integral_const_mul, lineQ_real]
  have h2 : ∀ x : ℝ, ∫ y in (-1 : ℝ)..1, ∑ i ∈ S, k i * (x ^ a i * y ^ b i * lineQ (c i)) =
      ∑ i ∈ S, k i * (x ^ a i * lineQ (b i) * lineQ (c i)) := by
    intro x
    rw [int_sum _ _ _ _ (by intros; fun_prop)]
    refine Finset.sum_congr rfl fun i _ => ?_
    rw [integral_const_mul, integral_mul_const, integral_const_mul, lineQ_real (b i)]
  simp only [h, h2]
  rw [int_sum _ _ _ _ (by intros; fun_prop)]
  refine Finset.sum_congr rfl fun i _ => ?_
  rw [integral_const_mul, integral_mul_const, integral_mul_const]
  unfold monoQ; push_cast
  rw [lineQ_real (a i)]

theorem fact_ne (n : Nat) : ((n ! : ℕ) : ℝ) ≠ 0 := by exact_mod_cast Nat.factorial_ne_zero n

theorem tri_tail (a b : Nat) : ∫ x in (0 : ℝ)..1, x ^ a * ((1 - x) ^ (b + 1) / (b + 1)) = (a ! * b ! : ℝ) / (a + b + 2)! := by
  have e : ∀ x : ℝ, x ^ a * ((1 - x) ^ (b + 1) / (b + 1)) = (1 / (b + 1)) * (x ^ a * (1 - x) ^ (b + 1)) := by intro x; ring
  simp only [e]
  rw [integral_const_mul, beta_one, Nat.factorial_succ b, show a + (b + 1) + 1 = a + b + 2 by omega]
  have := fact_ne (a + b + 2)
  have : (b : ℝ) + 1 ≠ 0 := by positivity
  push_cast
  field_simp

theorem ref_tri : refIntegral .tri (fun p => ∑ i ∈ S, k i * (p 0 ^ a i * p 1 ^ b i * p 2 ^ c i)) =
    ∑ i ∈ S, k i * monoQ .tri (a i) (b i) (c i) := by
  show ∫ x in (0 : ℝ)..1, ∫ y in (0 : ℝ)..1 - x, ∑ i ∈ S, k i * (x ^ a i * y ^ b i * 0 ^ c i) = _
  have h : ∀ x : ℝ, ∫ y in (0 : ℝ)..1 - x, ∑ i ∈ S, k i * (x ^ a i * y ^ b i * 0 ^ c i) =
      ∑ i ∈ S, k i * (x ^ a i * ((1 - x) ^ (b i + 1) / (b i + 1)) * zeroQ (c i)) := by
    intro x
    rw [int_sum _ _ _ _ (by intros; fun_prop)]
    refine Finset.sum_congr rfl fun i _ => ?_
    rw [integral_const_mul, integral_mul_const, integral_const_mul, zeroQ_real, pow_int]
  simp only [h]
  rw [int_sum _ _ _ _ (by intros; fun_prop)]
  refine Finset.sum_congr rfl fun i _ => ?_
  rw [integral_const_mul, integral_mul_const, tri_tail]
  unfold monoQ; push_cast
  rfl

theorem ref_prism : refIntegral .prism (fun p => ∑ i ∈ S, k i * (p 0 ^ a i * p 1 ^ b i * p 2 ^ c i)) =
    ∑ i ∈ S, k i * monoQ .prism (a i) (b i) (c i) := by
  show ∫ x in (0 : ℝ)..1, ∫ y in (0 : ℝ)..1 - x, ∫ z in (-1 : ℝ)..1, ∑ i ∈ S, k i * (x ^ a i * y ^ b i * z ^ c i) = _
  have h : ∀ x y : ℝ, ∫ z in (-1 : ℝ)..1, ∑ i ∈ S, k i * (x ^ a i * y ^ b i * z ^ c i) =
      ∑ i ∈ S, k i * (x ^ a i * y ^ b i * lineQ (c i)) := by
    intro x y
    rw [int_sum _ _ _ _ (by intros; fun_prop)]
    refine Finset.sum_congr rfl fun i _ => ?_
    rw [integral_const_mul, integral_const_mul, lineQ_real]
  have h2 : ∀ x : ℝ, ∫ y in (0 : ℝ)..1 - x, ∑ i ∈ S, k i * (x ^ a i * y ^ b i * lineQ (c i)) =
      ∑ i ∈ S, k i * (x ^ a i * ((1 - x) ^ (b i + 1) / (b i + 1)) * lineQ (c i)) := by
    intro x
    rw [int_sum _ _ _ _ (by intros; fun_prop)]
    refine Finset.sum_congr rfl fun i _ => ?_
    rw [integral_const_mul, integral_mul_const, integral_const_mul, pow_int]
  simp only [h, h2]
  rw [int_sum _ _ _ _ (by intros; fun_prop)]
  refine Finset.sum_congr rfl fun i _ => ?_
  rw [integral_const_mul, integral_mul_const, tri_tail]
  unfold monoQ; push_cast
  rfl

theorem tet_mid (s : ℝ) (b c : Nat) : ∫ y in (0 : ℝ)..s, y ^ b * ((s - y) ^ (c + 1) / (c + 1)) =
    s ^ (b + c + 2) * ((b ! * c ! : ℝ) / (b + c + 2)!) := by
  have e : ∀ y : ℝ, y ^ b * ((s - y) ^ (c + 1) / (c + 1)) = (1 / (c + 1)) * (y ^ b * (s - y) ^ (c + 1)) := by intro x; ring
  simp only [e]
  rw [integral_const_mul, beta, Nat.factorial_succ c, show b + (c + 1) + 1 = b + c + 2 by omega]
  have := fact_ne (b + c + 2)
  have : (c : ℝ) + 1 ≠ 0 := by positivity
  push_cast
  field_simp

theorem ref_tet : refIntegral .tet (fun p => ∑ i ∈ S, k i * (p 0 ^ a i * p 1 ^ b i * p 2 ^ c i)) =
    ∑ i ∈ S, k i * monoQ .tet (a i) (b i) (c i) := by
  show ∫ x in (0 : ℝ)..1, ∫ y in (0 : ℝ)..1 - x, ∫ z in (0 : ℝ)..1 - x - y, ∑ i ∈ S, k i * (x ^ a i * y ^ b i * z ^ c i) = _
  have h : ∀ x y : ℝ, ∫ z in (0 : ℝ)..1 - x - y, ∑ i ∈ S, k i * (x ^ a i * y ^ b i * z ^ c i) =
      ∑ i ∈ S, k i * (x ^ a i * (y ^ b i * ((1 - x - y) ^ (c i + 1) / (c i + 1)))) := by
    intro x y
    rw [int_sum _ _ _ _ (by intros; fun_prop)]
    refine Finset.sum_congr rfl fun i _ => ?_
    rw [integral_const_mul, integral_const_mul, pow_int, mul_assoc]
  have h2 : ∀ x : ℝ, ∫ y in (0 : ℝ)..1 - x, ∑ i ∈ S, k i * (x ^ a i * (y ^ b i * ((1 - x - y) ^ (c i + 1) / (c i + 1)))) =
      ∑ i ∈ S, k i * ((x ^ a i * (1 - x) ^ (b i + c i + 2)) * (((b i)! * (c i)! : ℝ) / (b i + c i + 2)!)) := by
    intro x
    rw [int_sum _ _ _ _ (by intros; fun_prop)]
    refine Finset.sum_congr rfl fun i _ => ?_
    rw [integral_const_mul, integral_const_mul, tet_mid, mul_assoc]
  simp only [h, h2]
  rw [int_sum _ _ _ _ (by intros; fun_prop)]
  refine Finset.sum_congr rfl fun i _ => ?_
  rw [integral_const_mul, integral_mul_const, beta_one, show a i + (b i + c i + 2) + 1 = a i + b i + c i + 3 by omega]
  have := fact_ne (b i + c i + 2)
  have := fact_ne (a i + b i + c i + 3)
  unfold monoQ; push_cast
  field_simp

theorem ref_pyramid : refIntegral .pyramid (fun p => ∑ i ∈ S, k i * (p 0 ^ a i * p 1 ^ b i * p 2 ^ c i)) =
    ∑ i ∈ S, k i * monoQ .pyramid (a i) (b i) (c i) := by
  show ∫ z in (0 : ℝ)..1, ∫ x in -(1 - z)..1 - z, ∫ y in -(1 - z)..1 - z, ∑ i ∈ S, k i * (x ^ a i * y ^ b i * z ^ c i) = _
  have h : ∀ z x : ℝ, ∫ y in -(1 - z)..1 - z, ∑ i ∈ S, k i * (x ^ a i * y ^ b i * z ^ c i) =
      ∑ i ∈ S, k i * (x ^ a i * ((1 - z) ^ (b i + 1) * lineQ (b i)) * z ^ c i) := by
    intro z x
    rw [int_sum _ _ _ _ (by intros; fun_prop)]
    refine Finset.sum_congr rfl fun i _ => ?_
    rw [integral_const_mul, integral_mul_const, integral_const_mul, sym_int]
  have h2 : ∀ z : ℝ, ∫ x in -(1 - z)..1 - z, ∑ i ∈ S, k i * (x ^ a i * ((1 - z) ^ (b i + 1) * lineQ (b i)) * z ^ c i) =
      ∑ i ∈ S, k i * ((lineQ (a i) * lineQ (b i)) * (z ^ c i * (1 - z) ^ (a i + b i + 2))) := by
    intro z
    rw [int_sum _ _ _ _ (by intros; fun_prop)]
    refine Finset.sum_congr rfl fun i _ => ?_
    rw [integral_const_mul, integral_mul_const, integral_mul_const, sym_int]
    ring
  simp only [h, h2]
  rw [int_sum _ _ _ _ (by intros; fun_prop)]
  refine Finset.sum_congr rfl fun i _ => ?_
  rw [integral_const_mul, integral_const_mul, beta_one, show c i + (a i + b i + 2) + 1 = a i + b i + c i + 3 by omega]
  unfold monoQ; push_cast
  rfl

/-- The integral of a sum of monomials over a reference element. -/
theorem ref_sum (ps : ParamSpace) : refIntegral ps (fun p => ∑ i ∈ S, k i * (p 0 ^ a i * p 1 ^ b i * p 2 ^ c i)) =
    ∑ i ∈ S, k i * monoQ ps (a i) (b i) (c i) := by
  cases ps
  · simp [refIntegral, monoQ]
  · exact ref_line S k a b c
  · exact ref_tri S k a b c
  · exact ref_quad S k a b c
  · exact ref_tet S k a b c
  · exact ref_hex S k a b c
  · exact ref_prism S k a b c
  · exact ref_pyramid S k a b c

end DNDSR.Quad
