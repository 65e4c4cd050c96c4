import Verif.Proof.ODERk
import Mathlib.Algebra.Order.Ring.Rat
import Mathlib.Tactic.NormNum
import Mathlib.Tactic.LinearCombination

/-!
# Runge-Kutta and Hermite integrators (C36, C37, C38) and the positivity preserving BDF step (C56)

Order conditions and the Shu-Osher tableau are in `Verif.Spec.ODERk`, polynomial curves in `Verif.Spec.ODE`.
-/

namespace DNDSR.ODE

open DNDSR.IMap DNDSR.Defines Finset

variable {σ D K V : Type}

section Field

variable [Field K] [AddCommGroup V] [Module K V]

/-! ## C38 -/

/-- C38, the stages.  For every tableau of fitting sizes, every right-hand side, solver and state: the step succeeds; in stage `i`
every equation handed to the solver is `x/dt = xₙ/dt + Σ_{j<i} a_ij k_j + a_ii f(x)` at the stage's abscissa, where `k_j` is the
right-hand side last evaluated in stage `j`; and the result is `xₙ + dt Σ b_j k_j`, or for the stiffly accurate scheme the value
of the last stage, whose first stage reuses the last right-hand side of the previous step. -/
theorem sdirk_step (T : Tableau K) (hT : T.Sized) (hn : 0 < T.n) (cb : Callbacks σ D K V) (maxIter : Int) (dt : K) (dTau : D)
    (o : Sdirk V) (ho : o.rhsbuf.length = T.n) (s : σ) (x xinc : V) :
    ∃ o' x' ls, sdirkStep T cb maxIter dt dTau o s x xinc = .ok (o', x', ls) ∧ ls.length = T.n ∧ o'.rhsbuf.length = T.n ∧
      (∀ (i : Nat) (l : Loop σ K V), ls[i]? = some l → StageOk T maxIter dt x o'.rhsbuf i l) ∧
      (T.scheme ≠ 1 → x' = x + dt • ∑ j ∈ range T.n, T.eb j • o'.rhsbuf.getD j 0) ∧
      (T.scheme = 1 → (∃ l, ls[T.n - 1]? = some l ∧ x' = l.x) ∧ o'.hasLast = true ∧ (1 ≤ maxIter → o'.rhsbuf.getD 0 0 =
        if o.hasLast then o.rhsbuf.getD (T.n - 1) 0 else (cb.frhs s x dTau 2147483647 (T.ec 0) 0).2)) := by
  obtain ⟨o1, s1, ls, e1, h1, h2, h3, h4, h5, h6⟩ := sdirkStages_ok T hT cb maxIter dt dTau x xinc o ho s T.n (le_refl _)
  unfold sdirkStep
  simp only [show T.A.length = T.n from rfl]
  rw [e1, Res.ok_bind]
  simp only
  by_cases hs : T.scheme = 1
  · rw [if_pos hs]
    have hlt : T.n - 1 < ls.length := by omega
    rw [show idx ls (T.n - 1) = .ok ls[T.n - 1] by unfold idx; rw [List.getElem?_eq_getElem hlt], Res.ok_bind]
    exact ⟨_, _, _, rfl, h3, h1, h5, fun h => absurd hs h, fun _ => ⟨⟨_, List.getElem?_eq_getElem hlt, rfl⟩, rfl, fun hm => h6 hs hn hm⟩⟩
  · rw [if_neg hs, addFinal_eq T hT o1.rhsbuf h1 dt x T.n (le_refl _), Res.ok_bind]
    refine ⟨_, _, _, rfl, h3, h1, h5, fun _ => ?_, fun h => absurd h hs⟩
    rw [smul_sum]
    simp only [smul_smul, mul_comm]

/-- Both tableaus have fitting sizes and are lower triangular, and other scheme codes abort. -/
theorem sdirkTableau_sized (code : Int) :
    (∀ T, sdirkTableau K code = .ok T → T.Sized ∧ T.Lower ∧ 0 < T.n) ∧ (sdirkTableau K code = .abort ↔ code ≠ 0 ∧ code ≠ 1) := by
  unfold sdirkTableau
  constructor
  · intro T h
    split at h
    · simp only [Res.pure_eq, Res.ok.injEq] at h
      subst h
      refine ⟨⟨rfl, rfl, ?_⟩, ?_, Nat.succ_pos _⟩
      · simp [sdirk4, Tableau.n]
      · intro i j hij hj
        simp only [sdirk4, Tableau.n, List.length_cons, List.length_nil] at hj
        have : j = 1 ∨ j = 2 := by omega
        rcases this with rfl | rfl
        · obtain rfl : i = 0 := by omega
          rfl
        · have : i = 0 ∨ i = 1 := by omega
          rcases this with rfl | rfl <;> rfl
    · split at h
      · simp only [Res.pure_eq, Res.ok.injEq] at h
        subst h
        refine ⟨⟨rfl, rfl, ?_⟩, ?_, Nat.succ_pos _⟩
        · simp [esdirk4, Tableau.n]
        · intro i j hij hj
          simp only [esdirk4, Tableau.n, List.length_cons, List.length_nil] at hj
          have : j = 1 ∨ j = 2 ∨ j = 3 ∨ j = 4 ∨ j = 5 := by omega
          rcases this with rfl | rfl | rfl | rfl | rfl
          · obtain rfl : i = 0 := by omega
            rfl
          · have : i = 0 ∨ i = 1 := by omega
            rcases this with rfl | rfl <;> rfl
          · have : i = 0 ∨ i = 1 ∨ i = 2 := by omega
            rcases this with rfl | rfl | rfl <;> rfl
          · have : i = 0 ∨ i = 1 ∨ i = 2 ∨ i = 3 := by omega
            rcases this with rfl | rfl | rfl | rfl <;> rfl
          · have : i = 0 ∨ i = 1 ∨ i = 2 ∨ i = 3 ∨ i = 4 := by omega
            rcases this with rfl | rfl | rfl | rfl | rfl <;> rfl
      · simp at h
  · split
    · rename_i h; simp [h]
    · split
      · rename_i h; simp [h]
      · rename_i h1 h2; simp [h1, h2]

/-- C38, three stage scheme, every parameter.  For every `z ≠ 1/2` the abscissae are the row sums and the quadrature conditions
hold up to order four; the other four conditions are off by multiples of `24z³ - 36z² + 12z - 1`. -/
theorem sdirk4_conditions [CharZero K] (z : K) (hz : 2 * z ≠ 1) :
    let T := sdirk4 z
    let q := 24 * z ^ 3 - 36 * z ^ 2 + 12 * z - 1
    (∀ i < T.n, T.rowSum i = T.ec i) ∧ T.s1 = 1 ∧ T.s2 = 1 / 2 ∧ T.s3a = 1 / 3 ∧ T.s4a = 1 / 4 ∧
    T.s3b = 1 / 6 + q / (12 * (1 - 2 * z)) ∧ T.s4b = 1 / 8 + q / (24 * (1 - 2 * z)) ∧
    T.s4c = 1 / 12 + q * (1 + 2 * z) / (24 * (1 - 2 * z)) ∧
    T.s4d = 1 / 24 + q * (1 + 4 * z) / (24 * (1 - 2 * z)) := by
  have h1 : 2 * z - 1 ≠ 0 := sub_ne_zero.2 hz
  have h2 : 1 - 2 * z ≠ 0 := sub_ne_zero.2 hz.symm
  intro T q
  refine ⟨?_, ?_⟩
  · intro i hi
    have : i = 0 ∨ i = 1 ∨ i = 2 := by
      have : i < 3 := hi
      omega
    rcases this with rfl | rfl | rfl <;>
      simp [T, sdirk4, Tableau.rowSum, Tableau.ea, Tableau.ec, Tableau.n, sum_range_succ] <;> ring
  · simp only [T, q, sdirk4, Tableau.s1, Tableau.s2, Tableau.s3a, Tableau.s3b, Tableau.s4a, Tableau.s4b, Tableau.s4c, Tableau.s4d,
      Tableau.ea, Tableau.eb, Tableau.ec, Tableau.n, sum_range_succ, sum_range_zero, List.length_cons, List.length_nil,
      List.getD_cons_zero, List.getD_cons_succ, zero_add]
    refine ⟨?_, ?_, ?_, ?_, ?_, ?_, ?_, ?_⟩ <;> field_simp <;> ring

/-- C38, three stage scheme at a root of the cubic: order four. -/
theorem sdirk4_order4 [CharZero K] (z : K) (hz : 2 * z ≠ 1) (hq : 24 * z ^ 3 - 36 * z ^ 2 + 12 * z - 1 = 0) :
    (sdirk4 z).Order4 := by
  obtain ⟨h0, h1, h2, h3, h4, h5, h6, h7, h8⟩ := sdirk4_conditions z hz
  simp only [hq, zero_div, zero_mul, add_zero] at h5 h6 h7 h8
  exact ⟨⟨h0, h1, h2, h3, h5⟩, h4, h6, h7, h8⟩

end Field

/-- C38, three stage scheme with the parameter of the code: all conditions but four hold exactly, those up to `10⁻¹²`; and the
cubic changes sign within `10⁻¹²` of the parameter. -/
theorem sdirk4_zeta :
    let T := sdirk4 (zeta ℚ)
    (∀ i < T.n, T.rowSum i = T.ec i) ∧ T.s1 = 1 ∧ T.s2 = 1 / 2 ∧ T.s3a = 1 / 3 ∧ T.s4a = 1 / 4 ∧
    |T.s3b - 1 / 6| < 1 / 10 ^ 12 ∧ |T.s4b - 1 / 8| < 1 / 10 ^ 12 ∧ |T.s4c - 1 / 12| < 1 / 10 ^ 12 ∧ |T.s4d - 1 / 24| < 1 / 10 ^ 12 ∧
    (fun z : ℚ => 24 * z ^ 3 - 36 * z ^ 2 + 12 * z - 1) (zeta ℚ - 1 / 10 ^ 12) < 0 ∧
    0 < (fun z : ℚ => 24 * z ^ 3 - 36 * z ^ 2 + 12 * z - 1) (zeta ℚ + 1 / 10 ^ 12) := by
  obtain ⟨h0, h1, h2, h3, h4, h5, h6, h7, h8⟩ := sdirk4_conditions (zeta ℚ) (by norm_num [zeta])
  refine ⟨h0, h1, h2, h3, h4, ?_, ?_, ?_, ?_, ?_, ?_⟩
  · rw [h5]; norm_num [zeta, abs_lt]
  · rw [h6]; norm_num [zeta, abs_lt]
  · rw [h7]; norm_num [zeta, abs_lt]
  · rw [h8]; norm_num [zeta, abs_lt]
  · norm_num [zeta]
  · norm_num [zeta]

/-- C38, six stage scheme: stage abscissae are row sums and weights sum to one up to `2·10⁻¹⁶`, but the order conditions hold only
up to `2·10⁻⁸`. -/
theorem esdirk4_conditions :
    let T := esdirk4 ℚ
    (∀ i < T.n, |T.rowSum i - T.ec i| < 2 / 10 ^ 16) ∧ |T.s1 - 1| < 2 / 10 ^ 16 ∧
    |T.s2 - 1 / 2| < 2 / 10 ^ 8 ∧ |T.s3a - 1 / 3| < 2 / 10 ^ 8 ∧ |T.s3b - 1 / 6| < 2 / 10 ^ 8 ∧
    |T.s4a - 1 / 4| < 2 / 10 ^ 8 ∧ |T.s4b - 1 / 8| < 2 / 10 ^ 8 ∧ |T.s4c - 1 / 12| < 2 / 10 ^ 8 ∧ |T.s4d - 1 / 24| < 2 / 10 ^ 8 := by
  intro T
  refine ⟨?_, ?_, ?_, ?_, ?_, ?_, ?_, ?_, ?_⟩
  · intro i hi
    have : i = 0 ∨ i = 1 ∨ i = 2 ∨ i = 3 ∨ i = 4 ∨ i = 5 := by
      have : i < 6 := hi
      omega
    rcases this with rfl | rfl | rfl | rfl | rfl | rfl <;>
      norm_num [T, esdirk4, Tableau.rowSum, Tableau.ea, Tableau.ec, Tableau.n, sum_range_succ, abs_lt]
  all_goals
    norm_num [T, esdirk4, Tableau.s1, Tableau.s2, Tableau.s3a, Tableau.s3b, Tableau.s4a, Tableau.s4b, Tableau.s4c, Tableau.s4d,
      Tableau.ea, Tableau.eb, Tableau.ec, Tableau.n, sum_range_succ, abs_lt]

/-- C38 fails for the six stage scheme beyond the rounding of the coefficients: already the second order condition `Σ b c = 1/2`
is off by more than `9·10⁻⁹`, while coefficients are given to `10⁻¹⁶`. -/
theorem esdirk4_second_order_off : 9 / 10 ^ 9 < (esdirk4 ℚ).s2 - 1 / 2 := by
  norm_num [esdirk4, Tableau.s2, Tableau.eb, Tableau.ec, Tableau.n, sum_range_succ]

/-! ## C37 -/

section SSP

variable [Field K] [LinearOrder K] [IsStrictOrderedRing K] [AddCommGroup V] [Module K V]

/-- the callbacks of a right-hand side `f` depending on the relative time and the state, with plain increments -/
def plainCb (f : K → V → V) : Callbacks Unit Unit K V :=
  { fdt := fun s _ _ _ => (s, ()), frhs := fun s x _ _ ct _ => (s, f ct x), fsolve := fun s x _ _ _ _ _ _ _ _ => (s, x),
    fstop := fun s _ _ _ => (s, false), fincrement := fun s x y a _ => (s, x + a • y) }

/-- C37, convex combination.  For every right-hand side, step and state, global or local steps (`scale` is the multiplication
by the step): the explicit step is a convex combination of the state and forward Euler steps. -/
theorem ssprk3_convex_combination (cb : Callbacks σ D K V) (f : K → V → V) (localDt : Bool) (scaleTau : D → V → V) (dt : K) (s : σ) (x : V)
    (hrhs : ∀ s y d i ct u, (cb.frhs s y d i ct u).2 = f ct y)
    (hinc : ∀ s y z a u, (cb.fincrement s y z a u).2 = y + a • z) :
    let E := fun (ct : K) (y : V) => y + (if localDt then scaleTau (cb.fdt s x 1 0).2 (f ct y) else dt • f ct y)
    (ssprk3Step cb localDt scaleTau dt s x).2 =
      (1 / 3 : K) • x + (2 / 3 : K) • E (1 / 4) ((3 / 4 : K) • x + (1 / 4 : K) • E 1 (E (1 / 2) x)) := by
  intro E
  have hE : ∀ ct y, (if localDt = true then scaleTau (cb.fdt s x 1 0).2 (f ct y) else dt • f ct y) = E ct y - y := by
    intro ct y; simp only [E]; rw [add_sub_cancel_left]
  unfold ssprk3Step
  simp only [hrhs, hinc, hE]
  rw [one_smul, add_sub_cancel]
  have e : (1 / 4 : K) • E (1 / 2) x + (3 / 4 : K) • x + (1 / 4 : K) • (E 1 (E (1 / 2) x) - E (1 / 2) x) =
      (3 / 4 : K) • x + (1 / 4 : K) • E 1 (E (1 / 2) x) := by module
  rw [e]
  module

/-- C37, invariance.  Every convex set that forward Euler (at the stage times) maps into itself is mapped into itself by the
three stage step. -/
theorem ssprk3_invariant (cb : Callbacks σ D K V) (f : K → V → V) (localDt : Bool) (scaleTau : D → V → V) (dt : K) (s : σ) (x : V)
    (hrhs : ∀ s y d i ct u, (cb.frhs s y d i ct u).2 = f ct y)
    (hinc : ∀ s y z a u, (cb.fincrement s y z a u).2 = y + a • z)
    (C : V → Prop) (hconv : ∀ y z (a b : K), C y → C z → 0 ≤ a → 0 ≤ b → a + b = 1 → C (a • y + b • z))
    (hE : ∀ ct y, C y → C (y + (if localDt then scaleTau (cb.fdt s x 1 0).2 (f ct y) else dt • f ct y)))
    (hx : C x) : C (ssprk3Step cb localDt scaleTau dt s x).2 := by
  rw [ssprk3_convex_combination cb f localDt scaleTau dt s x hrhs hinc]
  refine hconv _ _ _ _ hx (hE _ _ ?_) (by positivity) (by positivity) (by norm_num)
  exact hconv _ _ _ _ hx (hE _ _ (hE _ _ hx)) (by positivity) (by positivity) (by norm_num)

/-- C37, order, part that holds.  For a right-hand side that does not depend on time, the step is the Runge-Kutta step of the
Shu-Osher tableau, which satisfies the conditions for order three. -/
theorem ssprk3_order3_autonomous_partial (f : V → V) (dt : K) (x : V) :
    (∃ k0 k1 k2 : V, k0 = f x ∧ k1 = f (x + (dt * (ssprk3Tableau K).ea 1 0) • k0) ∧
      k2 = f (x + (dt * (ssprk3Tableau K).ea 2 0) • k0 + (dt * (ssprk3Tableau K).ea 2 1) • k1) ∧
      (ssprk3Step (plainCb fun _ => f) false (fun _ v => v) dt () x).2 =
        x + (dt * (ssprk3Tableau K).eb 0) • k0 + (dt * (ssprk3Tableau K).eb 1) • k1 + (dt * (ssprk3Tableau K).eb 2) • k2) ∧
    (ssprk3Tableau K).Order3 := by
  constructor
  · refine ⟨_, _, _, rfl, rfl, rfl, ?_⟩
    simp only [ssprk3Step, plainCb, ssprk3Tableau, Tableau.ea, Tableau.eb, List.getD_cons_zero, List.getD_cons_succ, Bool.false_eq_true, if_false]
    have e1 : x + (1 : K) • dt • f x = x + (dt * 1) • f x := by module
    rw [e1]
    have e2 : (1 / 4 : K) • (x + (dt * 1) • f x) + (3 / 4 : K) • x + (1 / 4 : K) • dt • f (x + (dt * 1) • f x) =
        x + (dt * (1 / 4)) • f x + (dt * (1 / 4)) • f (x + (dt * 1) • f x) := by module
    rw [e2]
    module
  · refine ⟨?_, ?_⟩
    · intro i hi
      have : i = 0 ∨ i = 1 ∨ i = 2 := by
        have : i < 3 := hi
        omega
      rcases this with rfl | rfl | rfl <;>
        simp [ssprk3Tableau, Tableau.rowSum, Tableau.ea, Tableau.ec, Tableau.n, sum_range_succ] <;> norm_num
    · simp only [ssprk3Tableau, Tableau.s1, Tableau.s2, Tableau.s3a, Tableau.s3b,
        Tableau.ea, Tableau.eb, Tableau.ec, Tableau.n, sum_range_succ, sum_range_zero, List.length_cons, List.length_nil,
        List.getD_cons_zero, List.getD_cons_succ, zero_add]
      norm_num

/-- C37 fails for time-dependent right-hand sides.  With `x' = t`, `x(0) = 0` the step of size `h` gives `5h²/12` instead of
`h²/2`: not even second order, because the stages are evaluated at the relative times `1/2, 1, 1/4` instead of `0, 1, 1/2`. -/
theorem ssprk3_time_dependent_wrong (h : K) (hh : h ≠ 0) :
    (ssprk3Step (plainCb fun ct (_ : K) => ct * h) false (fun _ v => v) h () 0).2 = 5 / 12 * h ^ 2 ∧
    (5 / 12 : K) * h ^ 2 ≠ h ^ 2 / 2 := by
  constructor
  · simp only [ssprk3Step, plainCb, Bool.false_eq_true, if_false, smul_eq_mul]
    ring
  · intro e
    have : h ^ 2 = 0 := by linear_combination (-12) * e
    exact hh (by simpa using this)

example : (ssprk3Step (K := ℚ) (plainCb fun _ (x : ℚ) => -x) false (fun _ v => v) 1 () 3).2 = 1 := by
  norm_num [ssprk3Step, plainCb]

/-! ## C36 -/

/-- C36, quadrature.  For every stage position the weights integrate the derivative of every polynomial curve of degree at most
three exactly over the step. -/
theorem herm_quadrature (alpha : K) (h0 : 0 < alpha) (h1 : alpha < 1) (c0 c1 c2 c3 : K) (exe : Int) (a : Nat → V) (t dt : K) :
    let C := hermWith alpha c0 c1 c2 c3 exe
    curve 3 a (t + dt) - curve 3 a t =
      dt • (C.w0 • curve' 3 a t + C.w1 • curve' 3 a (t + alpha * dt) + C.w2 • curve' 3 a (t + dt)) := by
  have n0 : alpha ≠ 0 := h0.ne'
  have n1 : alpha - 1 ≠ 0 := sub_ne_zero.2 h1.ne
  have n2 : alpha * 6 - 6 ≠ 0 := by
    have : alpha * 6 - 6 = 6 * (alpha - 1) := by ring
    rw [this]; exact mul_ne_zero (by norm_num) n1
  simp [hermWith, curve, curve', sum_range_succ]
  match_scalars <;> field_simp <;> ring

/-- the stage position the coefficients belong to: the given one, except that the three point variant falls back to `1/4` when
it has no usable previous state -/
def hermAlpha (alpha : K) (mask prevSize : Int) (hR : K) : K :=
  if mask = 2 ∧ ¬ (prevSize = 1 ∧ (hR < 100 ∧ 1 / 100 < hR)) then 1 / 4 else alpha

/-- C36, interpolation.  For every stage position in `(0,1)`, every variant and every ratio of step sizes the coefficients exist
and interpolate exactly: cubic curves from two states and two derivatives (variant 0), quadratic curves from two states and the
new derivative (variant 1 and the fallback of variant 2), cubic curves from three states and the new derivative (variant 2). -/
theorem herm_interpolation (alpha : K) (h0 : 0 < alpha) (h1 : alpha < 1) (mask prevSize : Int) (hm : mask = 0 ∨ mask = 1 ∨ mask = 2) (hR : K) :
    ∃ C, setCoefs alpha mask prevSize hR = .ok C ∧
      (let al := hermAlpha alpha mask prevSize hR
       C = hermWith al C.c0 C.c1 C.c2 C.c3 C.exe ∧ 0 < al ∧ al < 1 ∧
       ∀ (a : Nat → V) (t dt : K),
       if C.exe = 0 then ∀ d ≤ 3, curve d a (t + al * dt) = C.c0 • curve d a t + C.c1 • curve d a (t + dt) +
          dt • (C.c2 • curve' d a t + C.c3 • curve' d a (t + dt))
       else if C.exe = 1 then C.c2 = 0 ∧ ∀ d ≤ 2, curve d a (t + al * dt) = C.c0 • curve d a t + C.c1 • curve d a (t + dt) +
          dt • (C.c3 • curve' d a (t + dt))
       else ∀ d ≤ 3, curve d a (t + al * dt) = C.c0 • curve d a t + C.c1 • curve d a (t + dt) + C.c2 • curve d a (t - hR * dt) +
          dt • (C.c3 • curve' d a (t + dt))) := by
  have quad : ∀ (al : K) (a : Nat → V) (t dt : K) (d : Nat), d ≤ 2 →
      curve d a (t + al * dt) = (al * -2 + al * al + 1) • curve d a t + (al * 2 - al * al) • curve d a (t + dt) +
        dt • ((-al + al * al) • curve' d a (t + dt)) := by
    intro al a t dt d hd
    simp only [fun t : K => (curve_pad d 2 hd a t).1, fun t : K => (curve_pad d 2 hd a t).2]
    generalize (fun i => if i ≤ d then a i else 0) = a
    simp [curve, curve', sum_range_succ]
    module
  unfold setCoefs
  rw [Res.assert_true _ ⟨h0, h1⟩, Res.ok_bind]
  rcases hm with rfl | rfl | rfl
  · refine ⟨_, rfl, ?_⟩
    simp only [hermAlpha, show ¬ ((0 : Int) = 2) by decide, false_and, if_false]
    refine ⟨rfl, h0, h1, fun a t dt => ?_⟩
    simp only [hermWith, if_true]
    intro d hd
    simp only [fun t : K => (curve_pad d 3 hd a t).1, fun t : K => (curve_pad d 3 hd a t).2]
    generalize (fun i => if i ≤ d then a i else 0) = a
    simp [curve, curve', sum_range_succ]
    module
  · refine ⟨_, rfl, ?_⟩
    simp only [hermAlpha, show ¬ ((1 : Int) = 2) by decide, false_and, if_false]
    refine ⟨rfl, h0, h1, fun a t dt => ?_⟩
    simp only [hermWith, show ¬ ((1 : Int) = 0) by decide, if_false, if_true]
    exact ⟨trivial, fun d hd => quad alpha a t dt d hd⟩
  · by_cases hp : prevSize = 1 ∧ (hR < 100 ∧ 1 / 100 < hR)
    · simp only [show ¬ ((2 : Int) = 0) by decide, show ¬ ((2 : Int) = 1) by decide, if_false, if_true, if_pos hp]
      refine ⟨_, rfl, ?_⟩
      simp only [hermAlpha, hp, not_true_eq_false, and_false, if_false]
      refine ⟨rfl, h0, h1, fun a t dt => ?_⟩
      simp only [hermWith, show ¬ ((2 : Int) = 0) by decide, show ¬ ((2 : Int) = 1) by decide, if_false]
      have hRp : 0 < hR := lt_trans (by norm_num) hp.2.2
      have n1 : hR ≠ 0 := hRp.ne'
      have n2 : hR + 1 ≠ 0 := by positivity
      intro d hd
      simp only [fun t : K => (curve_pad d 3 hd a t).1, fun t : K => (curve_pad d 3 hd a t).2]
      generalize (fun i => if i ≤ d then a i else 0) = a
      simp [curve, curve', sum_range_succ]
      match_scalars <;> field_simp <;> ring
    · simp only [show ¬ ((2 : Int) = 0) by decide, show ¬ ((2 : Int) = 1) by decide, if_false, if_true, if_neg hp]
      refine ⟨_, rfl, ?_⟩
      simp only [hermAlpha, hp, not_false_eq_true, and_true, if_true]
      refine ⟨rfl, by norm_num, by norm_num, fun a t dt => ?_⟩
      simp only [hermWith, show ¬ ((1 : Int) = 0) by decide, if_false, if_true]
      exact ⟨trivial, fun d hd => quad (1 / 4) a t dt d hd⟩

/-- the defect of the quadrature equation, which the scheme drives to zero for the new state -/
def integDefect (C : HermCoefs K) (dt : K) (c : HermCall K V) : V :=
  (1 / dt) • (c.xLast - c.x) + C.w0 • c.f0 + C.w1 • c.fMid + C.w2 • c.f1

/-- the defect of the interpolation equation for the middle state -/
def interpDefect (C : HermCoefs K) (dt : K) (xPrev : V) (c : HermCall K V) : V :=
  (1 / dt) • (C.c0 • c.xLast + C.c1 • c.x - c.xMid) + (if C.exe = 2 then (C.c2 / dt) • xPrev else C.c2 • c.f0) + C.c3 • c.f1

omit [IsStrictOrderedRing K] in
theorem hermLoop_calls (cb : Callbacks σ D K V) (h : Herm K V) (C : HermCoefs K) (dt : K) (xLast f0 : V) (P : HermCall K V → Prop)
    (hmid : ∀ x xMid f1 f2, P ⟨true, xLast, xMid, x, f0, f2, f1, hermMid h C dt xLast x xMid f0 f1 f2, h.alpha⟩)
    (hfull : ∀ x xMid f1 f2, P ⟨false, xLast, xMid, x, f0, f2, f1, hermFull C dt xLast x f0 f1 f2, 1⟩)
    (n : Nat) (l : HermLoop σ D K V) (hl : ∀ c ∈ l.calls, P c) : ∀ c ∈ (hermLoop cb h C dt xLast f0 n l).calls, P c := by
  induction n generalizing l with
  | zero => exact hl
  | succ n ih =>
    simp only [hermLoop]
    split
    · exact ih _ hl
    · have key : ∀ l' : List (HermCall K V), ∀ a b, P a → P b → l' = l.calls ++ [a, b] → ∀ c ∈ l', P c := by
        intro l' a b ha hb e c hc
        rw [e, List.mem_append] at hc
        rcases hc with hc | hc
        · exact hl c hc
        · simp only [List.mem_cons, List.not_mem_nil, or_false] at hc
          rcases hc with rfl | rfl
          · exact ha
          · exact hb
      generalize (if C.exe = 1 ∧ h.mask = 2 ∧ h.prevSize < 1 then (1 : K) else h.theta) = th
      split
      · exact key _ _ _ (hmid _ _ _ _) (hfull _ _ _ _) rfl
      · exact ih _ (key _ _ _ (hmid _ _ _ _) (hfull _ _ _ _) rfl)

/-- C36, the step.  For every stage position in `(0,1)`, every variant, right-hand side, solver, state and step: the step succeeds,
and each of its solver calls is handed the defect of the quadrature equation (for the new state), or the defect of the
interpolation equation plus a multiple of the quadrature defect (for the middle state), with the coefficients of `setCoefs`. -/
theorem herm_step (cb : Callbacks σ D K V) (maxIter : Int) (dt : K) (h : Herm K V) (s : σ) (x rhsMid : V)
    (h0 : 0 < h.alpha) (h1 : h.alpha < 1) (hm : h.mask = 0 ∨ h.mask = 1 ∨ h.mask = 2) (hp : h.prevSize = 0 ∨ h.prevSize = 1) :
    ∃ C h' l th, setCoefs h.alpha h.mask h.prevSize (h.dtPrev / (dt + verySmallReal K)) = .ok C ∧
      hermStep cb maxIter dt h s x rhsMid = .ok (h', l) ∧
      h'.xPrev = x ∧ h'.dtPrev = dt ∧ h'.prevSize = 1 ∧ h'.hasLast = true ∧ h'.rhs1 = l.rhs1 ∧
      ∀ c ∈ l.calls, c.xLast = x ∧ (h.hasLast = true → c.f0 = h.rhs1) ∧
        (c.mid = false → c.ct = 1 ∧ c.rhs = integDefect C dt c) ∧
        (c.mid = true → c.ct = h.alpha ∧ c.rhs = interpDefect C dt h.xPrev c + (th : K) • integDefect C dt c) := by
  obtain ⟨C, hC, hC1, _, _, hC2⟩ := herm_interpolation (V := K) h.alpha h0 h1 h.mask h.prevSize hm (h.dtPrev / (dt + verySmallReal K))
  have hexe : C.exe = 2 ↔ h.mask = 2 ∧ C.exe ≠ 1 := by
    have hC' := hC
    unfold setCoefs at hC'
    rw [Res.assert_true _ ⟨h0, h1⟩, Res.ok_bind] at hC'
    rcases hm with hm | hm | hm <;> rw [hm] at hC' ⊢ <;> simp only [show ¬ ((1 : Int) = 0) by decide, show ¬ ((2 : Int) = 0) by decide,
      show ¬ ((2 : Int) = 1) by decide, if_true, if_false] at hC'
    · simp only [Res.pure_eq, Res.ok.injEq] at hC'; subst hC'; simp [hermWith]
    · simp only [Res.pure_eq, Res.ok.injEq] at hC'; subst hC'; simp [hermWith]
    · split at hC' <;> simp only [Res.pure_eq, Res.ok.injEq] at hC' <;> subst hC' <;> simp [hermWith]
  have hprev : C.exe = 2 → h.prevSize = 1 := by
    intro he
    have hC' := hC
    unfold setCoefs at hC'
    rw [Res.assert_true _ ⟨h0, h1⟩, Res.ok_bind, (hexe.1 he).1] at hC'
    simp only [show ¬ ((2 : Int) = 0) by decide, show ¬ ((2 : Int) = 1) by decide, if_true, if_false] at hC'
    split at hC'
    · rename_i hh; exact hh.1
    · simp only [Res.pure_eq, Res.ok.injEq] at hC'
      subst hC'
      simp [hermWith] at he
  have hexe1 : C.exe = 1 → C.c2 = 0 := by
    intro he
    have := hC2 (fun _ => 0) 0 0
    rw [he] at this
    simp only [show ¬ ((1 : Int) = 0) by decide, if_false, if_true] at this
    exact this.1
  have hexe2 : h.mask = 2 → C.exe = 1 ∨ C.exe = 2 := by
    intro he
    by_cases h : C.exe = 1
    · exact Or.inl h
    · exact Or.inr (hexe.2 ⟨he, h⟩)
  have hmid : ∀ x0 x xMid f0 f1 f2 (c : HermCall K V), c.xLast = x0 → c.x = x → c.xMid = xMid → c.f0 = f0 → c.f1 = f1 → c.fMid = f2 →
      hermMid h C dt x0 x xMid f0 f1 f2 = interpDefect C dt h.xPrev c +
        (if C.exe = 1 ∧ h.mask = 2 ∧ h.prevSize = 0 then (1 : K) else h.theta) • integDefect C dt c := by
    intro x0 x xMid f0 f1 f2 c e1 e2 e3 e4 e5 e6
    subst e1 e2 e3 e4 e5 e6
    unfold hermMid interpDefect integDefect
    by_cases hc : 1 ≤ h.prevSize ∧ h.mask = 2
    · rw [if_pos hc, if_neg (by omega : ¬ (C.exe = 1 ∧ h.mask = 2 ∧ h.prevSize = 0))]
      rcases hexe2 hc.2 with he | he
      · rw [if_neg (by omega), hexe1 he]
        simp only [zero_div, zero_smul, neg_div, neg_smul, one_div]
        module
      · rw [if_pos he]
        simp only [neg_div, neg_smul, one_div]
        module
    · rw [if_neg hc]
      have he : C.exe ≠ 2 := by
        intro he
        have := hprev he
        have := (hexe.1 he).1
        omega
      rw [if_neg he]
      by_cases h2 : C.exe = 1 ∧ h.mask = 2
      · rw [if_pos h2, if_pos ⟨h2.1, h2.2, by omega⟩]
        simp only [neg_div, neg_smul, one_div]
        module
      · rw [if_neg h2, if_neg (by tauto)]
        simp only [neg_div, neg_smul, one_div]
        module
  have hfull : ∀ x0 x f0 f1 f2 (c : HermCall K V), c.xLast = x0 → c.x = x → c.f0 = f0 → c.f1 = f1 → c.fMid = f2 →
      hermFull C dt x0 x f0 f1 f2 = integDefect C dt c := by
    intro x0 x f0 f1 f2 c e1 e2 e4 e5 e6
    subst e1 e2 e4 e5 e6
    unfold hermFull integDefect
    simp only [neg_div, neg_smul, one_div]
    module
  unfold hermStep
  rw [hC, Res.ok_bind]
  refine ⟨C, _, _, if C.exe = 1 ∧ h.mask = 2 ∧ h.prevSize = 0 then (1 : K) else h.theta, rfl, rfl, rfl, rfl, rfl, rfl, rfl, ?_⟩
  have hcalls : ∀ (f0 : V) (l : HermLoop σ D K V), (h.hasLast = true → f0 = h.rhs1) → l.calls = [] → ∀ c ∈ (hermLoop cb h C dt x f0 maxIter.toNat l).calls,
      c.xLast = x ∧ (h.hasLast = true → c.f0 = h.rhs1) ∧ (c.mid = false → c.ct = 1 ∧ c.rhs = integDefect C dt c) ∧
        (c.mid = true → c.ct = h.alpha ∧ c.rhs = interpDefect C dt h.xPrev c +
          (if C.exe = 1 ∧ h.mask = 2 ∧ h.prevSize = 0 then (1 : K) else h.theta) • integDefect C dt c) := by
    intro f0 l hf hl
    apply hermLoop_calls
    · intro y yM f1 f2
      exact ⟨rfl, hf, (fun hh => by cases hh), fun _ => ⟨rfl, hmid _ _ _ _ _ _ _ rfl rfl rfl rfl rfl rfl⟩⟩
    · intro y yM f1 f2
      exact ⟨rfl, hf, fun _ => ⟨rfl, hfull _ _ _ _ _ _ rfl rfl rfl rfl rfl⟩, (fun hh => by cases hh)⟩
    · rw [hl]; simp
  intro c hc
  have hf : ∀ (s : σ) (p : σ × V), h.hasLast = true → (if h.hasLast = true then (s, h.rhs1) else p).2 = h.rhs1 := by
    intro s p hl; rw [if_pos hl]
  split at hc
  · exact hcalls _ _ (hf _ _) rfl c hc
  · exact hcalls _ _ (hf _ _) rfl c hc

/-- C36, exactness.  Both defects, hence all residuals, vanish on every polynomial curve of the design degree (three; two where
only two states and one derivative are interpolated), for the middle state at the position the coefficients belong to. -/
theorem herm_exact (alpha : K) (h0 : 0 < alpha) (h1 : alpha < 1) (mask prevSize : Int) (hm : mask = 0 ∨ mask = 1 ∨ mask = 2) (hR : K)
    (C : HermCoefs K) (hC : setCoefs alpha mask prevSize hR = .ok C) (dt t : K) (hdt : dt ≠ 0) (d : Nat) (hd : d ≤ if C.exe = 1 then 2 else 3)
    (a : Nat → V) (c : HermCall K V) (hx0 : c.xLast = curve d a t) (hx1 : c.x = curve d a (t + dt))
    (hxm : c.xMid = curve d a (t + hermAlpha alpha mask prevSize hR * dt)) (hf0 : c.f0 = curve' d a t) (hf1 : c.f1 = curve' d a (t + dt))
    (hfm : c.fMid = curve' d a (t + hermAlpha alpha mask prevSize hR * dt)) :
    integDefect C dt c = 0 ∧ interpDefect C dt (curve d a (t - hR * dt)) c = 0 := by
  obtain ⟨C', hC', hw, ha0, ha1, hint⟩ := herm_interpolation (V := V) alpha h0 h1 mask prevSize hm hR
  rw [hC] at hC'
  obtain e := Res.ok.inj hC'
  subst e
  have hd3 : d ≤ 3 := by split at hd <;> omega
  have hq := herm_quadrature (V := V) (hermAlpha alpha mask prevSize hR) ha0 ha1 C.c0 C.c1 C.c2 C.c3 C.exe (fun i => if i ≤ d then a i else 0) t dt
  rw [← hw] at hq
  simp only [← fun t : K => (curve_pad d 3 hd3 a t).1, ← fun t : K => (curve_pad d 3 hd3 a t).2] at hq
  have hi := hint a t dt
  constructor
  · unfold integDefect
    rw [hx0, hx1, hf0, hf1, hfm]
    have : curve d a t - curve d a (t + dt) = -(curve d a (t + dt) - curve d a t) := by abel
    rw [this, hq]
    match_scalars <;> field_simp <;> ring
  · unfold interpDefect
    rw [hx0, hx1, hf0, hf1, hxm]
    by_cases e0 : C.exe = 0
    · rw [if_pos e0] at hi
      rw [if_neg (by omega), hi d hd3]
      match_scalars <;> field_simp <;> ring
    · rw [if_neg e0] at hi
      by_cases e1 : C.exe = 1
      · rw [if_pos e1] at hi hd
        rw [if_neg (by omega), hi.1, hi.2 d hd]
        match_scalars <;> field_simp <;> ring
      · rw [if_neg e1] at hi
        have e2 : C.exe = 2 := by
          have hC' := hC
          unfold setCoefs at hC'
          rw [Res.assert_true _ ⟨h0, h1⟩, Res.ok_bind] at hC'
          rcases hm with hm | hm | hm <;> rw [hm] at hC' <;> simp only [show ¬ ((1 : Int) = 0) by decide, show ¬ ((2 : Int) = 0) by decide,
            show ¬ ((2 : Int) = 1) by decide, if_true, if_false] at hC'
          · simp only [Res.pure_eq, Res.ok.injEq] at hC'; subst hC'; simp [hermWith] at e0
          · simp only [Res.pure_eq, Res.ok.injEq] at hC'; subst hC'; simp [hermWith] at e1
          · split at hC' <;> simp only [Res.pure_eq, Res.ok.injEq] at hC' <;> subst hC'
            · simp [hermWith]
            · simp [hermWith] at e1
        rw [if_pos e2, hi d hd3]
        match_scalars <;> field_simp <;> ring

example : ∃ C, setCoefs (11 / 20 : ℚ) 2 1 1 = .ok C ∧ C.exe = 2 ∧ C.c2 ≠ 0 := by
  unfold setCoefs
  rw [Res.assert_true _ (by norm_num), Res.ok_bind, if_neg (by decide), if_neg (by decide), if_pos rfl, if_pos (by norm_num)]
  exact ⟨_, rfl, rfl, by norm_num [hermWith]⟩

/-- C36 fails at the first step of the three point variant for time-dependent right-hand sides: the fallback uses coefficients for
the position `1/4`, while the right-hand side is evaluated at the configured position.  With `x' = t` the converged step gives the
exact `dt²/2` only if the configured position is `1/4`. -/
theorem herm_first_step_time_mismatch (alpha : K) (h0 : 0 < alpha) (h1 : alpha < 1) (hR dt : K) (hdt : dt ≠ 0) :
    ∃ C, setCoefs alpha 2 0 hR = .ok C ∧
      ∀ c : HermCall K K, c.xLast = 0 → c.f0 = 0 → c.fMid = alpha * dt → c.f1 = dt → integDefect C dt c = 0 →
        (c.x = dt ^ 2 / 2 ↔ alpha = 1 / 4) := by
  unfold setCoefs
  rw [Res.assert_true _ ⟨h0, h1⟩, Res.ok_bind, if_neg (by decide), if_neg (by decide), if_pos rfl, if_neg (by simp)]
  refine ⟨_, rfl, ?_⟩
  intro c e0 e1 e2 e3 hd
  unfold integDefect at hd
  rw [e0, e1, e2, e3] at hd
  simp only [hermWith, smul_eq_mul] at hd
  have hx : c.x = dt ^ 2 * (8 / 9 * alpha + 5 / 18) := by
    have hd' := congrArg (fun y => y * dt) hd
    simp only [zero_mul] at hd'
    field_simp at hd'
    norm_num at hd'
    linear_combination (1 / 36 : K) * hd'
  have hdt2 : dt ^ 2 ≠ 0 := pow_ne_zero 2 hdt
  constructor
  · intro h
    rw [h] at hx
    have : dt ^ 2 * (1 / 2) = dt ^ 2 * (8 / 9 * alpha + 5 / 18) := by linear_combination hx
    have := mul_left_cancel₀ hdt2 this
    linear_combination (-9 / 8) * this
  · intro h
    rw [hx, h]
    ring

/-! ## C56 -/

/-- C56 fails for the constant step integrator.  The residual handed to the solver by the positivity preserving step does not
contain the right-hand side: with limiters that change nothing, two runs with different right-hand sides `f`, `g` and the same state
get the same residual. -/
theorem bdfPP_ignores_rhs (b : BDF K V) (coef : Int → Res K) (dt : K) (xLast : V) (f g : V → V) (l : Loop Unit K V) (hl : l.calls = []) :
    (bdfPPLoop (plainCb fun _ => f) { falpha := fun s v _ => (s, v), fres := fun s _ _ r _ => (s, r) } coef b dt xLast 1 l).bind
        (fun m => .ok (m.calls.map fun c => (c.x, c.rhs))) =
    (bdfPPLoop (plainCb fun _ => g) { falpha := fun s v _ => (s, v), fres := fun s _ _ r _ => (s, r) } coef b dt xLast 1 l).bind
        (fun m => .ok (m.calls.map fun c => (c.x, c.rhs))) := by
  simp only [bdfPPLoop, plainCb]
  cases coef 0 <;> simp only [Res.ok_bind, Res.abort_bind, Res.ub_bind] <;> try rfl
  cases coef 1 <;> simp only [Res.ok_bind, Res.abort_bind, Res.ub_bind] <;> try rfl
  split
  · cases addPrevs coef b (b.kBDF - 1) dt b.cnPrev.toNat _ <;> simp only [Res.ok_bind, Res.abort_bind, Res.ub_bind] <;> try rfl
    simp [Res.bind, hl]
  · simp [Res.bind, hl]

/-- C56 for the variable step integrator, what holds: every residual handed to the solver by the positivity preserving step is the
one `Step` forms (`bdfResid`), for the right-hand side `c.f` that `fresidualIncPP` leaves in its argument. -/
theorem vbdfPP_residual_partial (cb : Callbacks σ D K V) (pp : PPCallbacks σ V) (coef : Int → Res K) (b : BDF K V) (dt : K) (xLast : V)
    (n : Nat) (l l' : Loop σ K V) (hl : ∀ c ∈ l.calls, bdfResid coef b dt xLast c.x c.f = .ok (c.resOther, c.rhs))
    (h : vbdfPPLoop cb pp coef b dt xLast n l = .ok l') :
    ∀ c ∈ l'.calls, bdfResid coef b dt xLast c.x c.f = .ok (c.resOther, c.rhs) := by
  induction n generalizing l with
  | zero =>
    obtain e := Res.ok.inj h
    subst e
    exact hl
  | succ n ih =>
    simp only [vbdfPPLoop] at h
    obtain ⟨c0, h0, h⟩ := (Res.bind_ok_iff _ _ _).mp h
    obtain ⟨c1, h1, h⟩ := (Res.bind_ok_iff _ _ _).mp h
    by_cases hk : b.kBDF - 1 ≠ 0
    on_goal 1 => rw [if_pos hk] at h
    on_goal 2 => rw [if_neg hk] at h
    all_goals
    obtain ⟨xB, hB, h⟩ := (Res.bind_ok_iff _ _ _).mp h
    have hnew : ∀ x f, bdfResid coef b dt xLast x f = .ok (xB, xB + (-1 / dt) • x + c0 • f) := by
      intro x f
      rw [sub_zero] at hB
      simp only [bdfResid, h0, h1, Res.ok_bind, Res.pure_eq]
      first | rw [if_pos hk, hB, Res.ok_bind] | (rw [if_neg hk]; obtain e := Res.ok.inj hB; rw [← e])
    split at h
    · obtain e := Res.ok.inj h
      subst e
      intro c hc
      rcases List.mem_append.mp hc with hc | hc
      · exact hl c hc
      · obtain rfl := List.mem_singleton.mp hc
        exact hnew _ _
    · refine ih _ ?_ h
      intro c hc
      rcases List.mem_append.mp hc with hc | hc
      · exact hl c hc
      · obtain rfl := List.mem_singleton.mp hc
        exact hnew _ _

/-- C56 fails for the variable step integrator too, unless `fresidualIncPP` writes the right-hand side itself: the one computed in
the step goes to another buffer, and a limiter that changes nothing leaves the content from before the step in use. -/
theorem vbdfPP_stale_rhs (b : BDF K V) (coef : Int → Res K) (dt : K) (xLast : V) (f : V → V) (l l' : Loop Unit K V) (hl : l.calls = [])
    (h : vbdfPPLoop (plainCb fun _ => f) { falpha := fun s v _ => (s, v), fres := fun s _ _ r _ => (s, r) } coef b dt xLast 1 l = .ok l') :
    l'.calls.map (fun c => c.f) = [l.rhsbuf] := by
  simp only [vbdfPPLoop] at h
  obtain ⟨c0, h0, h⟩ := (Res.bind_ok_iff _ _ _).mp h
  obtain ⟨c1, h1, h⟩ := (Res.bind_ok_iff _ _ _).mp h
  by_cases hk : b.kBDF - 1 ≠ 0
  on_goal 1 => rw [if_pos hk] at h
  on_goal 2 => rw [if_neg hk] at h
  all_goals
  obtain ⟨xB, hB, h⟩ := (Res.bind_ok_iff _ _ _).mp h
  split at h
  all_goals
  · obtain e := Res.ok.inj h
    subst e
    simp [hl]

/-! ## Implicit Euler (part of C35) -/

/-- Every solver call of an implicit Euler step is about `(xLast - x)/dt + f(x) = 0`, at the new time. -/
theorem euler_step (cb : Callbacks σ D K V) (maxIter : Int) (dt : K) (s : σ) (x rhs rhsbuf xinc : V) :
    ∃ l, eulerStep cb maxIter dt s x rhs rhsbuf xinc = .ok l ∧
      ∀ c ∈ l.calls, c.Solves dt 1 ((1 / dt) • x) ∧ c.ct = 1 := by
  refine dualLoop_calls cb dt 1 1 1 _ _ (fun y f => ⟨_, _, rfl, ⟨rfl, rfl, rfl, ?_⟩, rfl⟩) _ _ (by simp)
  simp only [neg_div, neg_smul, one_smul]
  module

example : ∃ l, eulerStep (plainCb fun (_ : ℚ) (y : ℚ) => 3 - y) 2 (1 / 2) () 1 0 0 0 = .ok l ∧ l.calls.length = 2 ∧
    ∀ c ∈ l.calls, c.rhs = (1 - c.x) * 2 + c.f := by
  refine ⟨_, rfl, rfl, ?_⟩
  simp only [plainCb]
  norm_num [dualLoop]

end SSP
end DNDSR.ODE
