import Verif.Props.LimiterNorm
import Mathlib.Tactic.FinCases

/-!
# The norm used by the limiters does not depend on the orientation of the axes (C61)
-/

namespace DNDSR.Lim

open DNDSR.Gas

variable {d : Nat}

theorem turn_one {Q : Fin d → Fin d → ℝ} (hQ : Orthogonal Q) (f : Fin d → ℝ) :
    ∑ a, (∑ i, Q i a * f i) * (∑ i, Q i a * f i) = ∑ i, f i * f i := by
  have e : ∀ a, (∑ i, Q i a * f i) * (∑ i, Q i a * f i) = ∑ i, ∑ j, f i * f j * (Q i a * Q j a) := fun a => by
    rw [Finset.sum_mul_sum]
    refine Finset.sum_congr rfl fun i _ => Finset.sum_congr rfl fun j _ => ?_
    ring
  simp only [e]
  rw [Finset.sum_comm]
  refine Finset.sum_congr rfl fun i _ => ?_
  rw [Finset.sum_comm]
  simp only [← Finset.mul_sum, hQ.1]
  simp

/-- the tensor of second order seen from the turned axes -/
noncomputable def turn2 (Q : Fin d → Fin d → ℝ) (T : Fin d → Fin d → ℝ) : Fin d → Fin d → ℝ :=
  fun a b => ∑ i, Q i a * ∑ j, Q j b * T i j

/-- the tensor of third order seen from the turned axes -/
noncomputable def turn3 (Q : Fin d → Fin d → ℝ) (T : Fin d → Fin d → Fin d → ℝ) : Fin d → Fin d → Fin d → ℝ :=
  fun a b c => ∑ i, Q i a * turn2 Q (T i) b c

theorem turn2_norm {Q : Fin d → Fin d → ℝ} (hQ : Orthogonal Q) (T : Fin d → Fin d → ℝ) :
    ∑ a, ∑ b, turn2 Q T a b * turn2 Q T a b = ∑ i, ∑ j, T i j * T i j := by
  rw [Finset.sum_comm]
  have : ∀ b, ∑ a, turn2 Q T a b * turn2 Q T a b = ∑ i, (∑ j, Q j b * T i j) * (∑ j, Q j b * T i j) := fun b =>
    turn_one hQ fun i => ∑ j, Q j b * T i j
  simp only [this]
  rw [Finset.sum_comm]
  exact Finset.sum_congr rfl fun i _ => turn_one hQ fun j => T i j

theorem turn3_norm {Q : Fin d → Fin d → ℝ} (hQ : Orthogonal Q) (T : Fin d → Fin d → Fin d → ℝ) :
    ∑ a, ∑ b, ∑ c, turn3 Q T a b c * turn3 Q T a b c = ∑ i, ∑ j, ∑ k, T i j k * T i j k := by
  have h1 : ∑ a, ∑ b, ∑ c, turn3 Q T a b c * turn3 Q T a b c = ∑ b, ∑ c, ∑ a, turn3 Q T a b c * turn3 Q T a b c := by
    rw [Finset.sum_comm]
    exact Finset.sum_congr rfl fun b _ => Finset.sum_comm
  have h2 : ∀ b c, ∑ a, turn3 Q T a b c * turn3 Q T a b c = ∑ i, turn2 Q (T i) b c * turn2 Q (T i) b c := fun b c =>
    turn_one hQ fun i => turn2 Q (T i) b c
  rw [h1]
  simp only [h2]
  have h3 : ∑ b, ∑ c, ∑ i, turn2 Q (T i) b c * turn2 Q (T i) b c = ∑ i, ∑ b, ∑ c, turn2 Q (T i) b c * turn2 Q (T i) b c := by
    rw [Finset.sum_comm' (t' := Finset.univ) (s' := fun _ => Finset.univ) (by simp)]
    rw [Finset.sum_comm]
    rw [Finset.sum_congr rfl fun c _ => Finset.sum_comm, Finset.sum_comm]
  rw [h3]
  exact Finset.sum_congr rfl fun i _ => turn2_norm hQ (T i)

theorem turn1_eval (Q : Fin d → Fin d → ℝ) (T : Fin d → ℝ) (x : Fin d → ℝ) :
    ∑ a, (∑ i, Q i a * T i) * x a = ∑ i, T i * turn Q x i := by
  simp only [turn, Finset.sum_mul, Finset.mul_sum]
  rw [Finset.sum_comm]
  exact Finset.sum_congr rfl fun i _ => Finset.sum_congr rfl fun a _ => by ring

theorem turn2_eval (Q : Fin d → Fin d → ℝ) (T : Fin d → Fin d → ℝ) (x : Fin d → ℝ) :
    ∑ a, (∑ b, turn2 Q T a b * x b) * x a = ∑ i, (∑ j, T i j * turn Q x j) * turn Q x i := by
  rw [← turn1_eval]
  refine Finset.sum_congr rfl fun a _ => ?_
  congr 1
  simp only [← turn1_eval]
  simp only [turn2, Finset.sum_mul, Finset.mul_sum]
  rw [Finset.sum_comm]
  exact Finset.sum_congr rfl fun i _ => Finset.sum_congr rfl fun b _ => Finset.sum_congr rfl fun j _ => by ring

theorem turn3_eval (Q : Fin d → Fin d → ℝ) (T : Fin d → Fin d → Fin d → ℝ) (x : Fin d → ℝ) :
    ∑ a, (∑ b, (∑ c, turn3 Q T a b c * x c) * x b) * x a =
      ∑ i, (∑ j, (∑ k, T i j k * turn Q x k) * turn Q x j) * turn Q x i := by
  rw [← turn1_eval]
  refine Finset.sum_congr rfl fun a _ => ?_
  congr 1
  simp only [← turn2_eval]
  simp only [turn3, Finset.sum_mul, Finset.mul_sum]
  have : ∀ b : Fin d, ∑ c, ∑ i, Q i a * turn2 Q (T i) b c * x c * x b = ∑ i, ∑ c, Q i a * (turn2 Q (T i) b c * x c * x b) := fun b => by
    rw [Finset.sum_comm]
    exact Finset.sum_congr rfl fun i _ => Finset.sum_congr rfl fun c _ => by ring
  simp only [this]
  rw [Finset.sum_comm]

theorem turn2_symm {Q : Fin d → Fin d → ℝ} {T : Fin d → Fin d → ℝ} (h : ∀ i j, T i j = T j i) (a b : Fin d) :
    turn2 Q T a b = turn2 Q T b a := by
  simp only [turn2, Finset.mul_sum]
  rw [Finset.sum_comm]
  exact Finset.sum_congr rfl fun i _ => Finset.sum_congr rfl fun j _ => by rw [h j i]; ring

theorem turn3_symm {Q : Fin d → Fin d → ℝ} {T : Fin d → Fin d → Fin d → ℝ} (h1 : ∀ i j k, T i j k = T j i k)
    (h2 : ∀ i j k, T i j k = T i k j) (a b c : Fin d) : turn3 Q T a b c = turn3 Q T b a c ∧ turn3 Q T a b c = turn3 Q T a c b := by
  constructor
  · simp only [turn3, turn2, Finset.mul_sum]
    rw [Finset.sum_comm]
    refine Finset.sum_congr rfl fun i _ => Finset.sum_congr rfl fun j _ => Finset.sum_congr rfl fun k _ => ?_
    rw [h1 j i k]
    ring
  · simp only [turn3]
    exact Finset.sum_congr rfl fun i _ => by rw [turn2_symm (h2 i)]

/-- the same values at all points -/
def SameAs {m : Nat} (dims : List (List (Fin d))) (Q : Fin d → Fin d → ℝ) (u v : Fin m → ℝ) : Prop :=
  ∀ x, polyEval dims v x = polyEval dims u (turn Q x)

theorem sum_univ_ten (f : Fin 10 → ℝ) : ∑ i, f i = f 0 + f 1 + f 2 + f 3 + f 4 + f 5 + f 6 + f 7 + f 8 + f 9 := by
  rw [Fin.sum_univ_castSucc, Fin.sum_univ_castSucc, Fin.sum_univ_eight]
  rfl

theorem eval_2_2 (w : Fin 3 → ℝ) (x : Fin 2 → ℝ) : polyEval (monoDims2D 3) w x =
    w 0 * (x 0 * x 0) + w 1 * (x 0 * x 1) + w 2 * (x 1 * x 1) := by
  rw [polyEval, Fin.sum_univ_three]
  simp only [monoDims2D]
  simp

theorem eval_2_3 (w : Fin 4 → ℝ) (x : Fin 2 → ℝ) : polyEval (monoDims2D 4) w x =
    w 0 * (x 0 * (x 0 * x 0)) + w 1 * (x 0 * (x 0 * x 1)) + w 2 * (x 0 * (x 1 * x 1)) + w 3 * (x 1 * (x 1 * x 1)) := by
  rw [polyEval, Fin.sum_univ_four]
  simp only [monoDims2D]
  simp

theorem eval_3_2 (w : Fin 6 → ℝ) (x : Fin 3 → ℝ) : polyEval (monoDims3D 6) w x =
    w 0 * (x 0 * x 0) + w 1 * (x 1 * x 1) + w 2 * (x 2 * x 2) + w 3 * (x 0 * x 1) + w 4 * (x 1 * x 2) + w 5 * (x 0 * x 2) := by
  rw [polyEval, Fin.sum_univ_six]
  simp only [monoDims3D]
  simp

theorem eval_3_3 (w : Fin 10 → ℝ) (x : Fin 3 → ℝ) : polyEval (monoDims3D 10) w x =
    w 0 * (x 0 * (x 0 * x 0)) + w 1 * (x 1 * (x 1 * x 1)) + w 2 * (x 2 * (x 2 * x 2)) + w 3 * (x 0 * (x 0 * x 1)) + w 4 * (x 0 * (x 1 * x 1)) + w 5 * (x 1 * (x 1 * x 2)) + w 6 * (x 1 * (x 2 * x 2)) + w 7 * (x 0 * (x 2 * x 2)) + w 8 * (x 0 * (x 0 * x 2)) + w 9 * (x 0 * (x 1 * x 2)) := by
  rw [polyEval, sum_univ_ten]
  simp only [monoDims3D]
  simp

theorem norm_turn_2_1 {Q : Fin 2 → Fin 2 → ℝ} (hQ : Orthogonal Q) {u v : Fin 2 → ℝ} (h : SameAs (monoDims2D 2) Q u v) :
    sqNorm [1, 1] v = sqNorm [1, 1] u := by
  have ev : ∀ (w : Fin 2 → ℝ) x, polyEval (monoDims2D 2) w x = ∑ a, w a * x a := fun w x => by
    simp [polyEval, monoDims2D, Fin.sum_univ_two]
  have hc : ∀ a, v a = ∑ i, Q i a * u i := by
    have hx : ∀ x : Fin 2 → ℝ, ∑ a, v a * x a = ∑ a, (∑ i, Q i a * u i) * x a := fun x => by rw [turn1_eval, ← ev, ← ev]; exact h x
    simp only [Fin.sum_univ_two] at hx ⊢
    have h0 := hx ![1, 0]
    have h1 := hx ![0, 1]
    simp at h0 h1
    intro a
    fin_cases a
    · exact h0
    · exact h1
  have hn : ∀ w : Fin 2 → ℝ, sqNorm [1, 1] w = ∑ a, w a * w a := fun w => by simp [sqNorm, Fin.sum_univ_two]
  rw [hn, hn, ← turn_one hQ u]
  simp only [hc]

theorem norm_turn_2_2 {Q : Fin 2 → Fin 2 → ℝ} (hQ : Orthogonal Q) {u v : Fin 3 → ℝ} (h : SameAs (monoDims2D 3) Q u v) :
    sqNorm [1, 1 / 2, 1] v = sqNorm [1, 1 / 2, 1] u := by
  set T : Fin 2 → Fin 2 → ℝ := ![![u 0, u 1 / 2], ![u 1 / 2, u 2]]
  have hs : ∀ i j, T i j = T j i := by intro i j; fin_cases i <;> fin_cases j <;> rfl
  have t00 : T 0 0 = u 0 := rfl
  have t01 : T 0 1 = u 1 / 2 := rfl
  have t10 : T 1 0 = u 1 / 2 := rfl
  have t11 : T 1 1 = u 2 := rfl
  clear_value T
  have hs' := fun a b => turn2_symm (Q := Q) hs a b
  have hn := turn2_norm hQ T
  have hx : ∀ x : Fin 2 → ℝ, polyEval (monoDims2D 3) v x = ∑ a, (∑ b, turn2 Q T a b * x b) * x a := fun x => by
    rw [turn2_eval, h x, eval_2_2]
    simp only [Fin.sum_univ_two, t00, t01, t10, t11]
    ring
  generalize turn2 Q T = T' at hs' hn hx
  simp only [eval_2_2, Fin.sum_univ_two] at hx
  have h0 := hx ![1, 0]
  have h1 := hx ![0, 1]
  have h2 := hx ![1, 1]
  simp at h0 h1 h2
  have h10 := hs' 1 0
  have e1 : v 1 = 2 * T' 0 1 := by linarith
  simp only [Fin.sum_univ_two, t00, t01, t10, t11] at hn
  simp [sqNorm, Fin.sum_univ_three]
  rw [h0, h1, e1]
  rw [h10] at hn
  linarith

theorem norm_turn_2_3 {Q : Fin 2 → Fin 2 → ℝ} (hQ : Orthogonal Q) {u v : Fin 4 → ℝ} (h : SameAs (monoDims2D 4) Q u v) :
    sqNorm [1, 1 / 3, 1 / 3, 1] v = sqNorm [1, 1 / 3, 1 / 3, 1] u := by
  set T : Fin 2 → Fin 2 → Fin 2 → ℝ := ![![![u 0, u 1 / 3], ![u 1 / 3, u 2 / 3]], ![![u 1 / 3, u 2 / 3], ![u 2 / 3, u 3]]]
  have hs1 : ∀ i j k, T i j k = T j i k := by intro i j k; fin_cases i <;> fin_cases j <;> fin_cases k <;> rfl
  have hs2 : ∀ i j k, T i j k = T i k j := by intro i j k; fin_cases i <;> fin_cases j <;> fin_cases k <;> rfl
  have t000 : T 0 0 0 = u 0 := rfl
  have t001 : T 0 0 1 = u 1 / 3 := rfl
  have t010 : T 0 1 0 = u 1 / 3 := rfl
  have t011 : T 0 1 1 = u 2 / 3 := rfl
  have t100 : T 1 0 0 = u 1 / 3 := rfl
  have t101 : T 1 0 1 = u 2 / 3 := rfl
  have t110 : T 1 1 0 = u 2 / 3 := rfl
  have t111 : T 1 1 1 = u 3 := rfl
  clear_value T
  have hs' := fun a b c => turn3_symm (Q := Q) hs1 hs2 a b c
  have hn := turn3_norm hQ T
  have hx : ∀ x : Fin 2 → ℝ, polyEval (monoDims2D 4) v x = ∑ a, (∑ b, (∑ c, turn3 Q T a b c * x c) * x b) * x a := fun x => by
    rw [turn3_eval, h x, eval_2_3]
    simp only [Fin.sum_univ_two, t000, t001, t010, t011, t100, t101, t110, t111]
    ring
  generalize turn3 Q T = T' at hs' hn hx
  simp only [eval_2_3, Fin.sum_univ_two] at hx
  have h0 := hx ![1, 0]
  have h1 := hx ![0, 1]
  have h2 := hx ![1, 1]
  have h3 := hx ![1, -1]
  simp at h0 h1 h2 h3
  have a1 := (hs' 0 1 0).1
  have a2 := (hs' 0 1 0).2
  have b1 := (hs' 0 1 1).1
  have b2 := (hs' 1 0 1).2
  have e1 : v 1 = 3 * T' 0 0 1 := by linarith
  have e2 : v 2 = 3 * T' 0 1 1 := by linarith
  simp only [Fin.sum_univ_two, t000, t001, t010, t011, t100, t101, t110, t111] at hn
  simp [sqNorm, Fin.sum_univ_four]
  rw [h0, h1, e1, e2]
  rw [← b2, ← b1, ← a1, a2] at hn
  linarith

theorem norm_turn_3_1 {Q : Fin 3 → Fin 3 → ℝ} (hQ : Orthogonal Q) {u v : Fin 3 → ℝ} (h : SameAs (monoDims3D 3) Q u v) :
    sqNorm [1, 1, 1] v = sqNorm [1, 1, 1] u := by
  have ev : ∀ (w : Fin 3 → ℝ) x, polyEval (monoDims3D 3) w x = ∑ a, w a * x a := fun w x => by
    simp [polyEval, monoDims3D, Fin.sum_univ_three]
  have hc : ∀ a, v a = ∑ i, Q i a * u i := by
    have hx : ∀ x : Fin 3 → ℝ, ∑ a, v a * x a = ∑ a, (∑ i, Q i a * u i) * x a := fun x => by rw [turn1_eval, ← ev, ← ev]; exact h x
    simp only [Fin.sum_univ_three] at hx ⊢
    have h0 := hx ![1, 0, 0]
    have h1 := hx ![0, 1, 0]
    have h2 := hx ![0, 0, 1]
    simp at h0 h1 h2
    intro a
    fin_cases a
    · exact h0
    · exact h1
    · exact h2
  have hn : ∀ w : Fin 3 → ℝ, sqNorm [1, 1, 1] w = ∑ a, w a * w a := fun w => by simp [sqNorm, Fin.sum_univ_three]
  rw [hn, hn, ← turn_one hQ u]
  simp only [hc]

theorem norm_turn_3_2 {Q : Fin 3 → Fin 3 → ℝ} (hQ : Orthogonal Q) {u v : Fin 6 → ℝ} (h : SameAs (monoDims3D 6) Q u v) :
    sqNorm [1, 1, 1, 1 / 2, 1 / 2, 1 / 2] v = sqNorm [1, 1, 1, 1 / 2, 1 / 2, 1 / 2] u := by
  set T : Fin 3 → Fin 3 → ℝ := ![![u 0, u 3 / 2, u 5 / 2], ![u 3 / 2, u 1, u 4 / 2], ![u 5 / 2, u 4 / 2, u 2]]
  have hs : ∀ i j, T i j = T j i := by intro i j; fin_cases i <;> fin_cases j <;> rfl
  have t00 : T 0 0 = u 0 := rfl
  have t01 : T 0 1 = u 3 / 2 := rfl
  have t02 : T 0 2 = u 5 / 2 := rfl
  have t10 : T 1 0 = u 3 / 2 := rfl
  have t11 : T 1 1 = u 1 := rfl
  have t12 : T 1 2 = u 4 / 2 := rfl
  have t20 : T 2 0 = u 5 / 2 := rfl
  have t21 : T 2 1 = u 4 / 2 := rfl
  have t22 : T 2 2 = u 2 := rfl
  clear_value T
  have hs' := fun a b => turn2_symm (Q := Q) hs a b
  have hn := turn2_norm hQ T
  have hx : ∀ x : Fin 3 → ℝ, polyEval (monoDims3D 6) v x = ∑ a, (∑ b, turn2 Q T a b * x b) * x a := fun x => by
    rw [turn2_eval, h x, eval_3_2]
    simp only [Fin.sum_univ_three, t00, t01, t02, t10, t11, t12, t20, t21, t22]
    ring
  generalize turn2 Q T = T' at hs' hn hx
  simp only [eval_3_2, Fin.sum_univ_three] at hx
  have h0 := hx ![1, 0, 0]
  have h1 := hx ![0, 1, 0]
  have h2 := hx ![0, 0, 1]
  have h3 := hx ![1, 1, 0]
  have h4 := hx ![0, 1, 1]
  have h5 := hx ![1, 0, 1]
  simp at h0 h1 h2 h3 h4 h5
  have s10 := hs' 1 0
  have s21 := hs' 2 1
  have s20 := hs' 2 0
  have e3 : v 3 = 2 * T' 0 1 := by linarith
  have e4 : v 4 = 2 * T' 1 2 := by linarith
  have e5 : v 5 = 2 * T' 0 2 := by linarith
  simp only [Fin.sum_univ_three, t00, t01, t02, t10, t11, t12, t20, t21, t22] at hn
  simp [sqNorm, Fin.sum_univ_six]
  rw [h0, h1, h2, e3, e4, e5]
  rw [s10, s21, s20] at hn
  linarith

theorem norm_turn_3_3 {Q : Fin 3 → Fin 3 → ℝ} (hQ : Orthogonal Q) {u v : Fin 10 → ℝ} (h : SameAs (monoDims3D 10) Q u v) :
    sqNorm [1, 1, 1, 1 / 3, 1 / 3, 1 / 3, 1 / 3, 1 / 3, 1 / 3, 1 / 6] v = sqNorm [1, 1, 1, 1 / 3, 1 / 3, 1 / 3, 1 / 3, 1 / 3, 1 / 3, 1 / 6] u := by
  set T : Fin 3 → Fin 3 → Fin 3 → ℝ := ![![![u 0, u 3 / 3, u 8 / 3], ![u 3 / 3, u 4 / 3, u 9 / 6], ![u 8 / 3, u 9 / 6, u 7 / 3]], ![![u 3 / 3, u 4 / 3, u 9 / 6], ![u 4 / 3, u 1, u 5 / 3], ![u 9 / 6, u 5 / 3, u 6 / 3]], ![![u 8 / 3, u 9 / 6, u 7 / 3], ![u 9 / 6, u 5 / 3, u 6 / 3], ![u 7 / 3, u 6 / 3, u 2]]]
  have hs1 : ∀ i j k, T i j k = T j i k := by intro i j k; fin_cases i <;> fin_cases j <;> fin_cases k <;> rfl
  have hs2 : ∀ i j k, T i j k = T i k j := by intro i j k; fin_cases i <;> fin_cases j <;> fin_cases k <;> rfl
  have t000 : T 0 0 0 = u 0 := rfl
  have t001 : T 0 0 1 = u 3 / 3 := rfl
  have t002 : T 0 0 2 = u 8 / 3 := rfl
  have t010 : T 0 1 0 = u 3 / 3 := rfl
  have t011 : T 0 1 1 = u 4 / 3 := rfl
  have t012 : T 0 1 2 = u 9 / 6 := rfl
  have t020 : T 0 2 0 = u 8 / 3 := rfl
  have t021 : T 0 2 1 = u 9 / 6 := rfl
  have t022 : T 0 2 2 = u 7 / 3 := rfl
  have t100 : T 1 0 0 = u 3 / 3 := rfl
  have t101 : T 1 0 1 = u 4 / 3 := rfl
  have t102 : T 1 0 2 = u 9 / 6 := rfl
  have t110 : T 1 1 0 = u 4 / 3 := rfl
  have t111 : T 1 1 1 = u 1 := rfl
  have t112 : T 1 1 2 = u 5 / 3 := rfl
  have t120 : T 1 2 0 = u 9 / 6 := rfl
  have t121 : T 1 2 1 = u 5 / 3 := rfl
  have t122 : T 1 2 2 = u 6 / 3 := rfl
  have t200 : T 2 0 0 = u 8 / 3 := rfl
  have t201 : T 2 0 1 = u 9 / 6 := rfl
  have t202 : T 2 0 2 = u 7 / 3 := rfl
  have t210 : T 2 1 0 = u 9 / 6 := rfl
  have t211 : T 2 1 1 = u 5 / 3 := rfl
  have t212 : T 2 1 2 = u 6 / 3 := rfl
  have t220 : T 2 2 0 = u 7 / 3 := rfl
  have t221 : T 2 2 1 = u 6 / 3 := rfl
  have t222 : T 2 2 2 = u 2 := rfl
  clear_value T
  have hs' := fun a b c => turn3_symm (Q := Q) hs1 hs2 a b c
  have hn := turn3_norm hQ T
  have hx : ∀ x : Fin 3 → ℝ, polyEval (monoDims3D 10) v x = ∑ a, (∑ b, (∑ c, turn3 Q T a b c * x c) * x b) * x a := fun x => by
    rw [turn3_eval, h x, eval_3_3]
    simp only [Fin.sum_univ_three, t000, t001, t002, t010, t011, t012, t020, t021, t022, t100, t101, t102, t110, t111, t112, t120, t121, t122, t200, t201, t202, t210, t211, t212, t220, t221, t222]
    ring
  generalize turn3 Q T = T' at hs' hn hx
  simp only [eval_3_3, Fin.sum_univ_three] at hx
  have h0 := hx ![1, 0, 0]
  have h1 := hx ![0, 1, 0]
  have h2 := hx ![0, 0, 1]
  have h3 := hx ![1, 1, 0]
  have h4 := hx ![1, -1, 0]
  have h5 := hx ![0, 1, 1]
  have h6 := hx ![0, 1, -1]
  have h7 := hx ![1, 0, 1]
  have h8 := hx ![1, 0, -1]
  have h9 := hx ![1, 1, 1]
  simp at h0 h1 h2 h3 h4 h5 h6 h7 h8 h9
  have s010 : T' 0 1 0 = T' 0 0 1 := (hs' 0 1 0).2
  have s020 : T' 0 2 0 = T' 0 0 2 := (hs' 0 2 0).2
  have s021 : T' 0 2 1 = T' 0 1 2 := (hs' 0 2 1).2
  have s100 : T' 1 0 0 = T' 0 0 1 := ((hs' 1 0 0).1).trans ((hs' 0 1 0).2)
  have s101 : T' 1 0 1 = T' 0 1 1 := (hs' 1 0 1).1
  have s102 : T' 1 0 2 = T' 0 1 2 := (hs' 1 0 2).1
  have s110 : T' 1 1 0 = T' 0 1 1 := ((hs' 1 1 0).2).trans ((hs' 1 0 1).1)
  have s120 : T' 1 2 0 = T' 0 1 2 := ((hs' 1 2 0).2).trans ((hs' 1 0 2).1)
  have s121 : T' 1 2 1 = T' 1 1 2 := (hs' 1 2 1).2
  have s200 : T' 2 0 0 = T' 0 0 2 := ((hs' 2 0 0).1).trans ((hs' 0 2 0).2)
  have s201 : T' 2 0 1 = T' 0 1 2 := ((hs' 2 0 1).1).trans ((hs' 0 2 1).2)
  have s202 : T' 2 0 2 = T' 0 2 2 := (hs' 2 0 2).1
  have s210 : T' 2 1 0 = T' 0 1 2 := (((hs' 2 1 0).1).trans ((hs' 1 2 0).2)).trans ((hs' 1 0 2).1)
  have s211 : T' 2 1 1 = T' 1 1 2 := ((hs' 2 1 1).1).trans ((hs' 1 2 1).2)
  have s212 : T' 2 1 2 = T' 1 2 2 := (hs' 2 1 2).1
  have s220 : T' 2 2 0 = T' 0 2 2 := ((hs' 2 2 0).2).trans ((hs' 2 0 2).1)
  have s221 : T' 2 2 1 = T' 1 2 2 := ((hs' 2 2 1).2).trans ((hs' 2 1 2).1)
  simp only [s010, s020, s021, s100, s101, s102, s110, s120, s121, s200, s201, s202, s210, s211, s212, s220, s221] at h3 h4 h5 h6 h7 h8 h9
  have e3 : v 3 = 3 * T' 0 0 1 := by linarith
  have e4 : v 4 = 3 * T' 0 1 1 := by linarith
  have e5 : v 5 = 3 * T' 1 1 2 := by linarith
  have e6 : v 6 = 3 * T' 1 2 2 := by linarith
  have e7 : v 7 = 3 * T' 0 2 2 := by linarith
  have e8 : v 8 = 3 * T' 0 0 2 := by linarith
  have e9 : v 9 = 6 * T' 0 1 2 := by linarith
  simp only [Fin.sum_univ_three, t000, t001, t002, t010, t011, t012, t020, t021, t022, t100, t101, t102, t110, t111, t112, t120, t121, t122, t200, t201, t202, t210, t211, t212, t220, t221, t222] at hn
  simp [sqNorm, sum_univ_ten]
  rw [h0, h1, h2, e3, e4, e5, e6, e7, e8, e9]
  simp only [s010, s020, s021, s100, s101, s102, s110, s120, s121, s200, s201, s202, s210, s211, s212, s220, s221] at hn
  linarith

/-- **C61** (orientation, plane) The weighted norm of the coefficients of a homogeneous polynomial of degree 1, 2 or 3 does not change
when the polynomial is written in rotated or reflected coordinates. -/
theorem norm_turn_2D {m : Nat} {w : List ℝ} (hw : weights 2 m = some w) {Q : Fin 2 → Fin 2 → ℝ} (hQ : Orthogonal Q) {u v : Fin m → ℝ}
    (h : ∀ x, polyEval (monoDims2D m) v x = polyEval (monoDims2D m) u (turn Q x)) : sqNorm w v = sqNorm w u := by
  unfold weights at hw
  rw [if_pos rfl] at hw
  split_ifs at hw with h2 h3 h4
  · subst h2; obtain rfl := Option.some.inj hw; exact norm_turn_2_1 hQ h
  · subst h3; obtain rfl := Option.some.inj hw; exact norm_turn_2_2 hQ h
  · subst h4; obtain rfl := Option.some.inj hw; exact norm_turn_2_3 hQ h

/-- **C61** (orientation, space) -/
theorem norm_turn_3D {m : Nat} {w : List ℝ} (hw : weights 3 m = some w) {Q : Fin 3 → Fin 3 → ℝ} (hQ : Orthogonal Q) {u v : Fin m → ℝ}
    (h : ∀ x, polyEval (monoDims3D m) v x = polyEval (monoDims3D m) u (turn Q x)) : sqNorm w v = sqNorm w u := by
  unfold weights at hw
  rw [if_neg (by norm_num)] at hw
  split_ifs at hw with h2 h3 h4
  · subst h2; obtain rfl := Option.some.inj hw; exact norm_turn_3_1 hQ h
  · subst h3; obtain rfl := Option.some.inj hw; exact norm_turn_3_2 hQ h
  · subst h4; obtain rfl := Option.some.inj hw; exact norm_turn_3_3 hQ h

/-- **C61** (minimum norm limiting and orientation) Limiting two polynomials by the minimum norm and then rotating the coordinates gives
the polynomial obtained by rotating first. -/
theorem memm_turn_2D {m : Nat} {Q : Fin 2 → Fin 2 → ℝ} (hQ : Orthogonal Q) {u1 u2 v1 v2 out out' : Fin m → ℝ}
    (h1 : ∀ x, polyEval (monoDims2D m) v1 x = polyEval (monoDims2D m) u1 (turn Q x))
    (h2 : ∀ x, polyEval (monoDims2D m) v2 x = polyEval (monoDims2D m) u2 (turn Q x))
    (h : memm 2 u1 u2 = .ok out) (h' : memm 2 v1 v2 = .ok out') :
    ∀ x, polyEval (monoDims2D m) out' x = polyEval (monoDims2D m) out (turn Q x) := by
  obtain ⟨w, hw, a, b, c, _⟩ := memm_spec h
  obtain ⟨w', hw', a', b', c', _⟩ := memm_spec h'
  obtain rfl : w = w' := Option.some.inj (hw.symm.trans hw')
  have e1 := norm_turn_2D hw hQ h1
  have e2 := norm_turn_2D hw hQ h2
  rw [e1, e2] at a' b' c'
  intro x
  rcases lt_trichotomy (sqNorm w u1) (sqNorm w u2) with hl | hl | hl
  · rw [a hl, a' hl, h1]
  · rw [c hl, c' hl]
    have half : ∀ (p q : Fin m → ℝ) y, polyEval (monoDims2D m) (fun k => (p k + q k) / 2) y =
        (polyEval (monoDims2D m) p y + polyEval (monoDims2D m) q y) / 2 := fun p q y => by
      unfold polyEval
      rw [← Finset.sum_add_distrib, Finset.sum_div]
      exact Finset.sum_congr rfl fun k _ => by ring
    rw [half, half, h1, h2]
  · rw [b hl, b' hl, h2]

/-- **C61** Same in space. -/
theorem memm_turn_3D {m : Nat} {Q : Fin 3 → Fin 3 → ℝ} (hQ : Orthogonal Q) {u1 u2 v1 v2 out out' : Fin m → ℝ}
    (h1 : ∀ x, polyEval (monoDims3D m) v1 x = polyEval (monoDims3D m) u1 (turn Q x))
    (h2 : ∀ x, polyEval (monoDims3D m) v2 x = polyEval (monoDims3D m) u2 (turn Q x))
    (h : memm 3 u1 u2 = .ok out) (h' : memm 3 v1 v2 = .ok out') :
    ∀ x, polyEval (monoDims3D m) out' x = polyEval (monoDims3D m) out (turn Q x) := by
  obtain ⟨w, hw, a, b, c, _⟩ := memm_spec h
  obtain ⟨w', hw', a', b', c', _⟩ := memm_spec h'
  obtain rfl : w = w' := Option.some.inj (hw.symm.trans hw')
  have e1 := norm_turn_3D hw hQ h1
  have e2 := norm_turn_3D hw hQ h2
  rw [e1, e2] at a' b' c'
  intro x
  rcases lt_trichotomy (sqNorm w u1) (sqNorm w u2) with hl | hl | hl
  · rw [a hl, a' hl, h1]
  · rw [c hl, c' hl]
    have half : ∀ (p q : Fin m → ℝ) y, polyEval (monoDims3D m) (fun k => (p k + q k) / 2) y =
        (polyEval (monoDims3D m) p y + polyEval (monoDims3D m) q y) / 2 := fun p q y => by
      unfold polyEval
      rw [← Finset.sum_add_distrib, Finset.sum_div]
      exact Finset.sum_congr rfl fun k _ => by ring
    rw [half, half, h1, h2]
  · rw [b hl, b' hl, h2]

/-- non-vacuity: a quarter turn is orthogonal and takes `2 x y` into `-2 x y`. -/
example : Orthogonal ![![0, -1], ![1, 0]] ∧
    ∀ x, polyEval (monoDims2D 3) ![0, -2, 0] x = polyEval (monoDims2D 3) ![0, 2, 0] (turn ![![0, -1], ![1, 0]] x) := by
  refine ⟨⟨?_, ?_⟩, fun x => ?_⟩
  · intro i j; fin_cases i <;> fin_cases j <;> simp [Fin.sum_univ_two]
  · intro i j; fin_cases i <;> fin_cases j <;> simp [Fin.sum_univ_two]
  · simp [polyEval, monoDims2D, turn, Fin.sum_univ_two, Fin.sum_univ_three]
    ring

end DNDSR.Lim
